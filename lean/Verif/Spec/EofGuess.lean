/-
Specification side of the one-pass estimate of EOFs.
-/
import Verif.Model.EofGuess
import Verif.Spec.Svd

namespace PyGeode.Spec
open Finset EofGuess

/-- the number of ones among the binary digits -/
def ones (n : ℕ) : ℕ := if n = 0 then 0 else n % 2 + ones (n / 2)
termination_by n
decreasing_by omega

/-- LAPACK's promise for symmetric matrices: orthonormal eigenvectors as rows, eigenvalues from smallest to largest -/
def _root_.PyGeode.EofGuess.Dsyev.Right (lapack : Dsyev) : Prop :=
  ∀ (N : ℕ) (C : ℕ → ℝ), (table N N C).transpose = table N N C →
    table N N (lapack N C).1 * (table N N (lapack N C).1).transpose = 1 ∧
    table N N (lapack N C).1 * table N N C * (table N N (lapack N C).1).transpose = Matrix.diagonal (fun i : Fin N => (lapack N C).2 i) ∧
    ∀ i j, i ≤ j → j < N → (lapack N C).2 i ≤ (lapack N C).2 j

/-- the data that patterns, sizes and series stand for -/
noncomputable def rebuilt (N nx : ℕ) (p : Piece) (t x : ℕ) : ℝ := ∑ i ∈ range N, p.pc (i * p.nt + t) * p.eig i * p.eof (i * nx + x)

/-- Patterns and series are orthonormal (patterns of size 0 vanish), sizes do not increase and are not negative. -/
structure Orthonormal (N nx : ℕ) (p : Piece) : Prop where
  nonneg : ∀ i < N, 0 ≤ p.eig i
  anti : ∀ i j, i ≤ j → j < N → p.eig j ≤ p.eig i
  patterns : ∀ i < N, ∀ j < N, ∑ x ∈ range nx, p.eof (i * nx + x) * p.eof (j * nx + x) = if i = j ∧ p.eig i ≠ 0 then 1 else 0
  series : ∀ i < N, ∀ j < N, p.eig i ≠ 0 → p.eig j ≠ 0 → ∑ t ∈ range p.nt, p.pc (i * p.nt + t) * p.pc (j * p.nt + t) = if i = j then 1 else 0

/-- `N` patterns are enough for the data -/
def Enough (N nx NT : ℕ) (d : ℕ → ℕ → ℝ) : Prop := ∃ a b : ℕ → ℕ → ℝ, ∀ t < NT, ∀ x < nx, d t x = ∑ i ∈ range N, a t i * b i x

/-- `p` is a decomposition of the records from `t0` on: exact if `N` patterns are enough, and never with more variance than the data have -/
structure Decomposes (N nx NT : ℕ) (d : ℕ → ℕ → ℝ) (t0 : ℕ) (p : Piece) : Prop where
  orth : Orthonormal N nx p
  inside : t0 + p.nt ≤ NT
  some : 0 < p.nt
  variance : ∑ i ∈ range N, p.eig i ^ 2 ≤ ∑ t ∈ range p.nt, ∑ x ∈ range nx, d (t0 + t) x ^ 2
  exact : Enough N nx NT d → ∀ t < p.nt, ∀ x < nx, rebuilt N nx p t x = d (t0 + t) x

/-- the pieces on the stack, the last one first, decompose the records up to `T` -/
def Stacked (N nx NT : ℕ) (d : ℕ → ℕ → ℝ) : List Piece → ℕ → Prop
  | [], T => T = 0
  | p :: ps, T => ∃ t0, T = t0 + p.nt ∧ Decomposes N nx NT d t0 p ∧ Stacked N nx NT d ps t0

end PyGeode.Spec
