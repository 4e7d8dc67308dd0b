/-
Specification side of reductions: the cells of the variable that contribute to an output cell.
-/
import Verif.Spec.View

namespace PyGeode.Spec

/-- the coordinates of `p` along the axes that are not in `R` -/
def dropAxes {γ : Type} (d : γ) (R : List ℕ) (p : List γ) : List γ :=
  ((List.range p.length).filter fun i => i ∉ R).map fun i => p.getD i d

/-- all the cells of a variable with axis lengths `lens` whose coordinates along the axes not in `R`
are `s` -/
def fibre (lens R s : List ℕ) : List (List ℕ) :=
  (product (lens.map List.range)).filter fun p => decide (dropAxes 0 R p = s)

/-- non-NaN values of a list, NaN being `none` -/
def valid (l : List (Option ℚ)) : List ℚ := l.filterMap id

/-- A meaningful request for a reduced variable: the reduced axes `R` are distinct, exist and are not
empty; the positions asked for along the other axes exist, and are neither repeated nor missing. -/
structure GoodReq (lens R : List ℕ) (outInds : List (List ℕ)) : Prop where
  rnd : R.Nodup
  rlt : ∀ i ∈ R, i < lens.length
  rpos : ∀ i ∈ R, 0 < lens.getD i 0
  range : InRange (dropAxes 0 R lens) outInds
  nd : ∀ l ∈ outInds, l.Nodup
  ne : ∀ l ∈ outInds, l ≠ []

/-- `chunk` is what reading chunks of a variable with axis lengths `lens` and contents `data` gives
(theorem `get_correct` of C08) -/
def Reads {A : Type} (data : List ℕ → A) (lens : List ℕ) (chunk : View ℕ → NArr A) : Prop :=
  ∀ c : View ℕ, InRange lens c.inds → IsRead data c.inds (chunk c)

/-- a position along the axes `W` only: the coordinates along the other axes are irrelevant (0) -/
def onAxes (W : List ℕ) (p : List ℕ) : List ℕ := p.mapIdx fun i x => if i ∈ W then x else 0

/-- requested positions for weights defined along the axes `W` only: the other axes have length 1 -/
def weightInds (W : List ℕ) (inds : List (List ℕ)) : List (List ℕ) :=
  inds.mapIdx fun i l => if i ∈ W then l else [0]

end PyGeode.Spec
