/- Helper lemmas on orthonormal patterns: sums over finite ranges of real numbers. -/
import Mathlib.Data.Real.Sqrt
import Mathlib.Algebra.BigOperators.Ring.Finset
import Mathlib.Algebra.Order.BigOperators.Ring.Finset
import Mathlib.LinearAlgebra.Matrix.NonsingularInverse
import Mathlib.LinearAlgebra.Matrix.ToLin
import Mathlib.LinearAlgebra.FiniteDimensional.Lemmas
import Mathlib.Tactic.Ring
import Mathlib.Tactic.Linarith

namespace PyGeode
namespace Eof
open Finset

/-- the rows `e 0, …, e (p-1)` of length `n` are orthonormal -/
def Orth (p n : ℕ) (e : ℕ → ℕ → ℝ) : Prop :=
  ∀ k < p, ∀ l < p, ∑ x ∈ range n, e k x * e l x = if k = l then 1 else 0

theorem Orth.mono {p q n : ℕ} {e : ℕ → ℕ → ℝ} (h : Orth p n e) (hq : q ≤ p) : Orth q n e :=
  fun k hk l hl => h k (by omega) l (by omega)

/-- the squared length of a combination of orthonormal rows -/
theorem orth_sq {p n : ℕ} {e : ℕ → ℕ → ℝ} (h : Orth p n e) (a : ℕ → ℝ) :
    ∑ x ∈ range n, (∑ k ∈ range p, a k * e k x) ^ 2 = ∑ k ∈ range p, a k ^ 2 := by
  have h1 : ∀ x, (∑ k ∈ range p, a k * e k x) ^ 2 = ∑ k ∈ range p, ∑ l ∈ range p, a k * a l * (e k x * e l x) := by
    intro x
    rw [sq, sum_mul_sum]
    exact sum_congr rfl fun k _ => sum_congr rfl fun l _ => by ring
  simp only [h1]
  rw [sum_comm]
  refine sum_congr rfl fun k hk => ?_
  rw [sum_comm]
  have h2 : ∀ l ∈ range p, ∑ x ∈ range n, a k * a l * (e k x * e l x) = if k = l then a k * a l else 0 := by
    intro l hl
    rw [← mul_sum, h k (mem_range.1 hk) l (mem_range.1 hl)]
    split_ifs <;> simp
  rw [sum_congr rfl h2, sum_ite_eq, if_pos hk, sq]

/-- a coefficient of a combination of orthonormal rows -/
theorem orth_coef {p n : ℕ} {e : ℕ → ℕ → ℝ} (h : Orth p n e) (a : ℕ → ℝ) {l : ℕ} (hl : l < p) :
    ∑ x ∈ range n, (∑ k ∈ range p, a k * e k x) * e l x = a l := by
  simp only [sum_mul]
  rw [sum_comm]
  have h2 : ∀ k ∈ range p, ∑ x ∈ range n, a k * e k x * e l x = if l = k then a k else 0 := by
    intro k hk
    rw [show ∑ x ∈ range n, a k * e k x * e l x = a k * ∑ x ∈ range n, e k x * e l x by
      rw [mul_sum]; exact sum_congr rfl fun x _ => by ring]
    rw [h k (mem_range.1 hk) l hl]
    by_cases h3 : k = l
    · rw [if_pos h3, if_pos h3.symm, mul_one]
    · rw [if_neg h3, if_neg (Ne.symm h3), mul_zero]
  rw [sum_congr rfl h2, sum_ite_eq, if_pos (mem_range.2 hl)]

/-- Bessel's inequality -/
theorem bessel {p n : ℕ} {e : ℕ → ℕ → ℝ} (h : Orth p n e) (q : ℕ → ℝ) :
    ∑ k ∈ range p, (∑ x ∈ range n, e k x * q x) ^ 2 ≤ ∑ x ∈ range n, q x ^ 2 := by
  set c : ℕ → ℝ := fun k => ∑ x ∈ range n, e k x * q x with hc
  have h0 : 0 ≤ ∑ x ∈ range n, (q x - ∑ k ∈ range p, c k * e k x) ^ 2 := sum_nonneg fun x _ => sq_nonneg _
  have h1 : ∑ x ∈ range n, (q x - ∑ k ∈ range p, c k * e k x) ^ 2 =
      ∑ x ∈ range n, q x ^ 2 - 2 * ∑ x ∈ range n, q x * ∑ k ∈ range p, c k * e k x +
        ∑ x ∈ range n, (∑ k ∈ range p, c k * e k x) ^ 2 := by
    rw [mul_sum, ← sum_sub_distrib, ← sum_add_distrib]
    exact sum_congr rfl fun x _ => by ring
  have h2 : ∑ x ∈ range n, q x * ∑ k ∈ range p, c k * e k x = ∑ k ∈ range p, c k ^ 2 := by
    simp only [mul_sum]
    rw [sum_comm]
    refine sum_congr rfl fun k _ => ?_
    rw [sq, hc]
    simp only
    rw [mul_sum]
    exact sum_congr rfl fun x _ => by ring
  rw [h1, h2, orth_sq h] at h0
  linarith

/-- The energy of the data along a pattern is the sum of the energies of the modes: what both decompositions provide. -/
structure Modes (m n p : ℕ) (D : ℕ → ℕ → ℝ) (lam : ℕ → ℝ) (e : ℕ → ℕ → ℝ) : Prop where
  orth : Orth p n e
  nonneg : ∀ k < p, 0 ≤ lam k
  anti : ∀ k l, k ≤ l → l < p → lam l ≤ lam k
  energy : ∀ q : ℕ → ℝ, ∑ t ∈ range m, (∑ x ∈ range n, D t x * q x) ^ 2 =
    ∑ k ∈ range p, lam k * (∑ x ∈ range n, e k x * q x) ^ 2

/-- Among the patterns orthogonal to the first `k`, none has more energy than the next. -/
theorem Modes.leading {m n p : ℕ} {D : ℕ → ℕ → ℝ} {lam : ℕ → ℝ} {e : ℕ → ℕ → ℝ} (h : Modes m n p D lam e) {k : ℕ} (hk : k < p)
    (q : ℕ → ℝ) (hq : ∀ l < k, ∑ x ∈ range n, e l x * q x = 0) :
    ∑ t ∈ range m, (∑ x ∈ range n, D t x * q x) ^ 2 ≤ lam k * ∑ x ∈ range n, q x ^ 2 := by
  rw [h.energy]
  calc ∑ j ∈ range p, lam j * (∑ x ∈ range n, e j x * q x) ^ 2
      ≤ ∑ j ∈ range p, lam k * (∑ x ∈ range n, e j x * q x) ^ 2 := by
        refine sum_le_sum fun j hj => ?_
        by_cases hjk : j < k
        · rw [hq j hjk]; simp
        · exact mul_le_mul_of_nonneg_right (h.anti k j (by omega) (mem_range.1 hj)) (sq_nonneg _)
    _ = lam k * ∑ j ∈ range p, (∑ x ∈ range n, e j x * q x) ^ 2 := by rw [mul_sum]
    _ ≤ lam k * ∑ x ∈ range n, q x ^ 2 := mul_le_mul_of_nonneg_left (bessel h.orth q) (h.nonneg k hk)

/-- a square matrix with orthonormal rows has orthonormal columns -/
theorem orth_transpose {n : ℕ} {e : ℕ → ℕ → ℝ} (h : Orth n n e) : Orth n n fun k x => e x k := by
  let M : Matrix (Fin n) (Fin n) ℝ := Matrix.of fun i j => e i j
  have h1 : M * M.transpose = 1 := by
    ext i j
    rw [Matrix.mul_apply, Matrix.one_apply]
    have := h i i.2 j j.2
    rw [← Fin.sum_univ_eq_sum_range (fun x => e i x * e j x)] at this
    simp only [Matrix.transpose_apply, M, Matrix.of_apply]
    rw [this]
    simp [Fin.ext_iff]
  have h2 : M.transpose * M = 1 := mul_eq_one_comm.1 h1
  intro k hk l hl
  have := congrFun (congrFun h2 ⟨k, hk⟩) ⟨l, hl⟩
  rw [Matrix.mul_apply, Matrix.one_apply] at this
  rw [← Fin.sum_univ_eq_sum_range (fun x => e x k * e x l)]
  simp only [Matrix.transpose_apply, M, Matrix.of_apply, Fin.mk.injEq] at this
  exact this

/-- expansion in a full set of orthonormal rows -/
theorem orth_expand {n : ℕ} {e : ℕ → ℕ → ℝ} (h : Orth n n e) (q : ℕ → ℝ) {x : ℕ} (hx : x < n) :
    q x = ∑ k ∈ range n, (∑ y ∈ range n, e k y * q y) * e k x := by
  have ht := orth_transpose h
  simp only [sum_mul]
  rw [sum_comm]
  have h2 : ∀ y ∈ range n, ∑ k ∈ range n, e k y * q y * e k x = if x = y then q y else 0 := by
    intro y hy
    rw [show ∑ k ∈ range n, e k y * q y * e k x = q y * ∑ k ∈ range n, e k x * e k y by
      rw [mul_sum]; exact sum_congr rfl fun k _ => by ring]
    rw [ht x hx y (mem_range.1 hy)]
    split_ifs <;> simp
  rw [sum_congr rfl h2, sum_ite_eq, if_pos (mem_range.2 hx)]

/-- a combination of `k + 1` rows that is orthogonal to `k` others -/
theorem exists_combination (n k : ℕ) (e e' : ℕ → ℕ → ℝ) : ∃ b : ℕ → ℝ, 0 < ∑ j ∈ range (k + 1), b j ^ 2 ∧
    ∀ l < k, ∑ x ∈ range n, e l x * ∑ j ∈ range (k + 1), b j * e' j x = 0 := by
  obtain ⟨a, ha0, ha⟩ : ∃ a : Fin (k + 1) → ℝ, a ≠ 0 ∧ ∀ l : Fin k, ∑ j : Fin (k + 1), (∑ x ∈ range n, e l x * e' j x) * a j = 0 := by
    let M : Matrix (Fin k) (Fin (k + 1)) ℝ := fun l j => ∑ x ∈ range n, e l x * e' j x
    obtain ⟨a, h1, h2⟩ : ∃ a : Fin (k + 1) → ℝ, a ≠ 0 ∧ M.mulVecLin a = 0 := by
      have h1 : LinearMap.ker M.mulVecLin ≠ ⊥ := LinearMap.ker_ne_bot_of_finrank_lt (by simp)
      obtain ⟨a, h2, h3⟩ := Submodule.exists_mem_ne_zero_of_ne_bot h1
      exact ⟨a, h3, h2⟩
    exact ⟨a, h1, fun l => congrFun h2 l⟩
  refine ⟨fun j => if hj : j < k + 1 then a ⟨j, hj⟩ else 0, ?_, fun l hl => ?_⟩
  · obtain ⟨i, hi⟩ : ∃ i, a i ≠ 0 := by
      by_contra hcon
      push Not at hcon
      exact ha0 (funext hcon)
    refine sum_pos' (fun j _ => sq_nonneg _) ⟨i, mem_range.2 i.2, ?_⟩
    simp only [i.2, dif_pos, Fin.eta]
    positivity
  · refine Eq.trans ?_ (ha ⟨l, hl⟩)
    simp only [mul_sum]
    rw [sum_comm, ← Fin.sum_univ_eq_sum_range (fun j => ∑ x ∈ range n, e l x * ((if hj : j < k + 1 then a ⟨j, hj⟩ else 0) * e' j x))]
    refine sum_congr rfl fun j _ => ?_
    rw [sum_mul]
    refine sum_congr rfl fun x _ => ?_
    simp only [j.2, dif_pos, Fin.eta]
    ring

end Eof
end PyGeode
