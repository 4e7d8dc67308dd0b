/-
Specification side of the operations along an axis: which coordinate is meant, which two points a derivative uses.
-/
import Verif.Model.Along
import Verif.Spec.Var
import Mathlib.Algebra.BigOperators.Intervals

namespace PyGeode.Spec
open PyGeode

/-- `c k` is the coordinate at position `k` of a variable with axes `axes`, along axis number `d` (which is `ax`), for the
argument `dx` of `deriv` and `integrate`: the axis values if nothing is given; the values of a one dimensional `dx`; or the
values of a `dx` that has some of the axes. -/
inductive CoordIs (axes : List Axis) (d : ℕ) (ax : Axis) : Option (Var ℚ) → (List ℕ → ℚ) → Prop
  | own : CoordIs axes d ax none (fun k => ax.values.getD (k.getD d 0) 0)
  | line (dx : Var ℚ) (f : List ℕ → ℚ) (h1 : dx.axes.length = 1) (hr : Regular dx.axes) (h : Contains dx f) :
      CoordIs axes d ax (some dx) (fun k => f [k.getD d 0])
  | field (dx : Var ℚ) (f c : List ℕ → ℚ) (h1 : dx.axes.length ≠ 1) (hsub : ∀ a ∈ dx.axes, a ∈ axes) (hnd : dx.axes.Nodup)
      (h : Contains dx f) (hs : SameData f dx.axes c axes) : CoordIs axes d ax (some dx) c

/-- The two points whose difference is taken at position `i` of an axis of `N` points: the neighbours on the side(s) asked
for, and at an end of the axis the end point and its neighbour. -/
def stencil (df : Along.Df) (N i : ℕ) : ℕ × ℕ :=
  match df with
  | .centre => if i = 0 then (0, 1) else if i + 1 = N then (i - 1, i) else (i - 1, i + 1)
  | .left => if i = 0 then (0, 1) else (i - 1, i)
  | .right => if i + 1 = N then (i - 1, i) else (i, i + 1)

/-- `c k` is the constant of integration at position `k`, for the argument `v0`: zero by default, a number, or the value of
a variable with some of the axes but not the one integrated along. -/
inductive StartIs (axes : List Axis) (ax : Axis) : Option Along.Start → (List ℕ → ℚ) → Prop
  | zero : StartIs axes ax none (fun _ => 0)
  | number (v : ℚ) : StartIs axes ax (some (.number v)) (fun _ => v)
  | var (z : Var ℚ) (f c : List ℕ → ℚ) (hsub : ∀ a ∈ z.axes, a ∈ axes) (hnd : z.axes.Nodup) (hax : ax ∉ z.axes)
      (h : Contains z f) (hs : SameData f z.axes c axes) : StartIs axes ax (some (.var z)) c

/-- The step of the integral between positions `p` and `p + 1` of axis `d`: the width of the interval times the mean of the
values at its ends, the left or the right value; for `cumsum` the right value. -/
def step (rule : Along.Rule) (data c : List ℕ → ℚ) (d : ℕ) (k : List ℕ) (p : ℕ) : ℚ :=
  match rule with
  | .trapz => (c (k.set d (p + 1)) - c (k.set d p)) * ((data (k.set d p) + data (k.set d (p + 1))) / 2)
  | .rectl => (c (k.set d (p + 1)) - c (k.set d p)) * data (k.set d p)
  | .rectr => (c (k.set d (p + 1)) - c (k.set d p)) * data (k.set d (p + 1))
  | .cumsum => data (k.set d (p + 1))

open Finset in
/-- The running integral at position `k` of an axis of `N` points: the constant plus the steps before the position, or
after it if integrated backwards. -/
def integral (rule : Along.Rule) (rev : Bool) (data c v0 : List ℕ → ℚ) (d N : ℕ) (k : List ℕ) : ℚ :=
  v0 k + if rev then ∑ p ∈ Ico (k.getD d 0) (N - 1), step rule data c d k p
    else ∑ p ∈ range (k.getD d 0), step rule data c d k p

end PyGeode.Spec
