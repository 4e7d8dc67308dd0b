/-
Specification side of interpolation: the points that count, and the value at a coordinate.
-/
import Verif.Model.Interp
import Verif.Spec.Var

namespace PyGeode.Spec
open PyGeode

/-- the points with finite coordinate and finite value -/
def validPoints (N : ℕ) (x y : ℕ → Option ℚ) : List (ℚ × ℚ) :=
  (List.range N).filterMap fun i : ℕ => (x i).bind fun a => (y i).map fun b => (a, b)

/-- A method of interpolation that passes through its points. -/
def Through (M : Interp.Method) : Prop :=
  1 ≤ M.minSize ∧ ∀ P : List (ℚ × ℚ), P.Pairwise (fun p q => p.1 < q.1) → M.minSize ≤ P.length →
    ∀ p ∈ P, M.eval P p.1 = some p.2

/-- The interpolated value at `x` for the points `P`, given in increasing order of their coordinates: nothing (NaN) with too
few points; below the first point and above the last a straight line from that point with the given slope (nothing if the
slope is NaN); in between the method's value. -/
def interpAt (M : Interp.Method) (below above : Option ℚ) (P : List (ℚ × ℚ)) (x : ℚ) : Option ℚ :=
  if P.length < M.minSize then none
  else match P.head?, P.getLast? with
    | some lo, some hi =>
      if x < lo.1 then below.map fun s => lo.2 + s * (x - lo.1)
      else if hi.1 < x then above.map fun s => hi.2 + s * (x - hi.1)
      else M.eval P x
    | _, _ => none

/-- the coordinate that belongs to the argument `inx` (or `outx`) of `interpolate`, for every choice of a position on each
axis: the values of the axis `ax` itself, or those of a variable that has this axis and possibly others of `axes`. -/
inductive CoordOn (axes : List Axis) (ax : Axis) : Option (Var ℚ) → ((Axis → ℕ) → ℚ) → Prop
  | own : CoordOn axes ax none (fun pos => ax.values.getD (pos ax) 0)
  | field (z : Var ℚ) (f : List ℕ → ℚ) (hsub : ∀ a ∈ z.axes, a ∈ axes) (hnd : z.axes.Nodup) (hax : ax ∈ z.axes)
      (h : Contains z f) : CoordOn axes ax (some z) (fun pos => f (z.axes.map pos))

/-- the points of a list whose coordinate is not smaller than that of any point before -/
def records (V : List (ℚ × ℚ)) : List (ℚ × ℚ) :=
  (List.range V.length).filterMap fun i : ℕ => V[i]?.filter fun p => (V.take i).all fun q => decide (q.1 ≤ p.1)

/-- the first two neighbouring finite coordinates are `a` and `b` -/
def FirstStep (N : ℕ) (x : ℕ → Option ℚ) (a b : ℚ) : Prop :=
  ∃ i, i + 1 < N ∧ x i = some a ∧ x (i + 1) = some b ∧ ∀ j < i, x j = none ∨ x (j + 1) = none

end PyGeode.Spec
