/-
Specification side of variables: what a variable contains, which lists of axes are considered, and when two variables
hold the same data under different orders or sets of axes.
-/
import Verif.Model.VarOps
import Verif.Spec.View

namespace PyGeode.Spec
open PyGeode

variable {α : Type}

/-- The variable holds `data k` at position `k` of its axes. -/
def Contains (x : Var α) (data : List ℕ → α) : Prop := Serves data x.axes (x.axes.map Axis.len) x.src

/-- Axes of pairwise unrelated classes: no two of them could be taken for each other. -/
structure Regular (axes : List Axis) : Prop where
  cls : ∀ a ∈ axes, a.classes ≠ []
  inc : axes.Pairwise fun a b => Axis.compatible a b = false

/-- Data given along `axes'` are the data given along `axes`: for every choice of a position on each axis both show the
same value. -/
def SameData (data : List ℕ → α) (axes : List Axis) (data' : List ℕ → α) (axes' : List Axis) : Prop :=
  ∀ pos : Axis → ℕ, data' (axes'.map pos) = data (axes.map pos)

end PyGeode.Spec
