/- Specification: which axis a key means, and the order in which an axis is asked to be. -/
import Verif.Model.Combine

namespace PyGeode.Spec
open Combine

/-- the axis has that name or alias (upper and lower case alike), those values or that class -/
def Meets (id : AxisId) (a : Axis) : Prop :=
  match id with
  | .int _ => False
  | .name s => lower s = lower a.name ∨ lower s ∈ a.aliases
  | .axis c => Axis.axEq a c = true
  | .cls c => c ∈ a.classes

/-- `id` means the axis at position `i`: a number means that position, anything else the first axis it fits -/
def Locates (axes : List Axis) (id : AxisId) (i : ℕ) : Prop :=
  (id = .int i ∧ i < axes.length) ∨ ∃ l a r, axes = l ++ a :: r ∧ l.length = i ∧ Meets id a ∧ ∀ b ∈ l, ¬ Meets id b

/-- `sorted(*ids, **kw)` asks for the order `o` of the axis `i`: by the last keyword that means it; by no keyword, but by a position
(then the natural order); or by nothing at all, for all axes -/
def Wants (axes : List Axis) (ids : List AxisId) (kw : List (Name × ℤ)) (i : ℕ) (o : ℤ) : Prop :=
  (∃ before n after, kw = before ++ (n, o) :: after ∧ Locates axes (.name n) i ∧ ∀ q ∈ after, ¬ Locates axes (.name q.1) i) ∨
  (o = 0 ∧ (∃ id ∈ ids, Locates axes id i) ∧ ∀ q ∈ kw, ¬ Locates axes (.name q.1) i) ∨
  (o = 0 ∧ ids = [] ∧ kw = [] ∧ i < axes.length)

/-- the values of `b` are in the order asked: 1 increasing, -1 decreasing, 0 the natural order of the axis -/
def InOrder (down : Bool) (o : ℤ) (values : List ℚ) : Prop :=
  (o = 1 → values.Pairwise (· ≤ ·)) ∧ (o = -1 → values.Pairwise (· ≥ ·)) ∧
    (o = 0 → if down then values.Pairwise (· ≥ ·) else values.Pairwise (· ≤ ·))

end PyGeode.Spec
