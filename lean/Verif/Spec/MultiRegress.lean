/-
Specification side of multiple regression.
-/
import Verif.Spec.Stats
import Mathlib.Algebra.BigOperators.Fin

namespace PyGeode.Spec
open PyGeode

/-- the values of `n` regressors and of the dependent variable at the positions `pos` of the other axes and all positions of
the axes `T` -/
def regSamples (T : List Axis) {n : ℕ} (f : Fin n → (Axis → ℕ) → ℚ) (g : (Axis → ℕ) → ℚ) (pos : Axis → ℕ) :
    List ((Fin n → ℚ) × ℚ) :=
  (positions T).map fun t => (fun i => f i (over T t pos), g (over T t pos))

/-- the sum of the squared differences between `y` and `∑ i, c i * x i` -/
def residuals {n : ℕ} (P : List ((Fin n → ℚ) × ℚ)) (c : Fin n → ℚ) : ℚ := (P.map fun p => (p.2 - ∑ i, c i * p.1 i) ^ 2).sum

/-- no combination of the regressors, other than the trivial one, is 0 at all points -/
def IndependentOn {n : ℕ} (P : List ((Fin n → ℚ) × ℚ)) : Prop := ∀ c : Fin n → ℚ, (∀ p ∈ P, ∑ i, c i * p.1 i = 0) → ∀ i, c i = 0

/-- the matrix `X^T X` -/
def gram {n : ℕ} (P : List ((Fin n → ℚ) × ℚ)) (i j : Fin n) : ℚ := (P.map fun p => p.1 i * p.1 j).sum

/-- `inv` returns the inverse of a matrix if it has one, and raises an exception otherwise. -/
def IsInverse (inv : (n : ℕ) → (Fin n → Fin n → ℚ) → Option (Fin n → Fin n → ℚ)) : Prop :=
  ∀ (n : ℕ) (M N : Fin n → Fin n → ℚ), inv n M = some N ↔ ∀ i k, ∑ j, M i j * N j k = if i = k then 1 else 0

end PyGeode.Spec
