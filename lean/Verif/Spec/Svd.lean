/-
Specification side of the iterations for coupled patterns.
-/
import Mathlib.Data.Real.Basic
import Mathlib.Algebra.BigOperators.Group.Finset.Basic
import Mathlib.LinearAlgebra.Matrix.NonsingularInverse

namespace PyGeode.Spec
open Finset

/-- The pieces `(where it begins, how long it is)` follow each other from `t` to `T`. -/
def Following : ℕ → List (ℕ × ℕ) → ℕ → Prop
  | t, [], T => t = T
  | t, p :: ps, T => p.1 = t ∧ Following (t + p.2) ps T

/-- the flat array `a` holds the table `f` of `m` rows and `n` columns -/
def Holding {K : Type} (m n : ℕ) (a : ℕ → K) (f : ℕ → ℕ → K) : Prop := ∀ i < m, ∀ j < n, a (i * n + j) = f i j

/-- the size of the pattern `e` in the field `d` at time `t` -/
def projection {K : Type} [Field K] (n : ℕ) (d : ℕ → ℕ → K) (e : ℕ → K) (t : ℕ) : K := ∑ x ∈ range n, d t x * e x

/-- the covariance (times the number of times) of the places of one field with a series -/
def regression {K : Type} [Field K] (T : ℕ) (d : ℕ → ℕ → K) (p : ℕ → K) (x : ℕ) : K := ∑ t ∈ range T, p t * d t x

/-- the flat array `a` as a matrix of `m` rows and `n` columns -/
def table (m n : ℕ) (a : ℕ → ℝ) : Matrix (Fin m) (Fin n) ℝ := Matrix.of fun i j => a (i * n + j)

/-- the columns of `P` are independent eigenvectors of `A`, with the eigenvalues `w` -/
def Eigenbasis {k : ℕ} (A P : Matrix (Fin k) (Fin k) ℝ) (w : Fin k → ℝ) : Prop := IsUnit P ∧ A * P = P * Matrix.diagonal w

/-- the `n`th of the patterns laid out one after the other -/
def pattern (size : ℕ) (a : ℕ → ℝ) (n : ℕ) : ℕ → ℝ := fun x => a (n * size + x)

end PyGeode.Spec
