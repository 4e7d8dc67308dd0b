/- The two decompositions of a matrix that EOF analysis rests on: what numpy documents of them, and that both give the leading modes. -/
import Verif.Model.Eof
import Verif.Lemmas.Eof
import Mathlib.Algebra.BigOperators.Field
import Mathlib.Algebra.BigOperators.Intervals

namespace PyGeode
namespace Eof
open Finset

/-- What numpy documents of `svd(a, full_matrices=False)` of an `m` by `n` matrix: `p = min m n` orthonormal columns of `u` and rows of
`v`, singular values in descending order, and the product is the matrix. -/
structure _root_.PyGeode.Spec.IsSvd (m n : ℕ) (D : ℕ → ℕ → ℝ) (r : Svd) : Prop where
  left : ∀ k < min m n, ∀ l < min m n, ∑ t ∈ range m, r.u t k * r.u t l = if k = l then 1 else 0
  right : ∀ k < min m n, ∀ l < min m n, ∑ x ∈ range n, r.v k x * r.v l x = if k = l then 1 else 0
  nonneg : ∀ k < min m n, 0 ≤ r.s k
  anti : ∀ k l, k ≤ l → l < min m n → r.s l ≤ r.s k
  product : ∀ t < m, ∀ x < n, D t x = ∑ k ∈ range (min m n), r.u t k * r.s k * r.v k x

/-- What numpy documents of `eigh(a)` of a symmetric `n` by `n` matrix: the eigenvalues in ascending order, the columns of `v` are
orthonormal eigenvectors. -/
structure _root_.PyGeode.Spec.IsEigh (n : ℕ) (C : ℕ → ℕ → ℝ) (r : Eigh) : Prop where
  orth : ∀ k < n, ∀ l < n, ∑ x ∈ range n, r.v x k * r.v x l = if k = l then 1 else 0
  mono : ∀ k l, k ≤ l → l < n → r.w k ≤ r.w l
  eigen : ∀ k < n, ∀ a < n, ∑ b ∈ range n, C a b * r.v b k = r.w k * r.v a k

open Spec

/-- `num` patterns `v`, amplitudes `e` and series `u` of a matrix: orthonormal patterns, each with the largest possible energy among
those orthogonal to the ones before; `c` is the sum of squares of a series. -/
structure MatEofs (m n : ℕ) (D : ℕ → ℕ → ℝ) (c : ℝ) (num : ℕ) (v : ℕ → ℕ → ℝ) (e : ℕ → ℝ) (u : ℕ → ℕ → ℝ) : Prop where
  orth : Orth num n v
  nonneg : ∀ k < num, 0 ≤ e k
  anti : ∀ k l, k ≤ l → l < num → e l ≤ e k
  energy : ∀ k < num, ∑ t ∈ range m, (∑ x ∈ range n, D t x * v k x) ^ 2 = c * e k ^ 2
  project : ∀ k < num, 0 < e k → ∀ t < m, ∑ x ∈ range n, D t x * v k x = e k * u k t
  regress : ∀ k < num, 0 < e k → ∀ x < n, ∑ t ∈ range m, D t x * u k t = c * e k * v k x
  series : ∀ k < num, 0 < e k → ∀ l < num, 0 < e l → ∑ t ∈ range m, u k t * u l t = if k = l then c else 0
  leading : ∀ k < num, ∀ q : ℕ → ℝ, (∀ l < k, ∑ x ∈ range n, v l x * q x = 0) →
    ∑ t ∈ range m, (∑ x ∈ range n, D t x * q x) ^ 2 ≤ c * e k ^ 2 * ∑ x ∈ range n, q x ^ 2

section svd
variable {m n : ℕ} {D : ℕ → ℕ → ℝ} {r : Svd} (h : IsSvd m n D r)
include h

theorem svd_project {k : ℕ} (hk : k < min m n) {t : ℕ} (ht : t < m) : ∑ x ∈ range n, D t x * r.v k x = r.s k * r.u t k := by
  have h1 : ∀ x ∈ range n, D t x * r.v k x = (∑ l ∈ range (min m n), (r.u t l * r.s l) * r.v l x) * r.v k x :=
    fun x hx => by rw [h.product t ht x (mem_range.1 hx)]
  rw [sum_congr rfl h1, orth_coef (e := r.v) (p := min m n) (n := n) h.right _ hk, mul_comm]

theorem svd_regress {k : ℕ} (hk : k < min m n) {x : ℕ} (hx : x < n) : ∑ t ∈ range m, D t x * r.u t k = r.s k * r.v k x := by
  have h1 : ∀ t ∈ range m, D t x * r.u t k = (∑ l ∈ range (min m n), (r.s l * r.v l x) * r.u t l) * r.u t k := fun t ht => by
    rw [h.product t (mem_range.1 ht) x hx]
    congr 1
    exact sum_congr rfl fun l _ => by ring
  rw [sum_congr rfl h1]
  exact orth_coef (e := fun l t => r.u t l) (p := min m n) (n := m) h.left (fun l => r.s l * r.v l x) hk

theorem svd_modes : Modes m n (min m n) D (fun k => r.s k ^ 2) r.v where
  orth := h.right
  nonneg k _ := sq_nonneg _
  anti k l hkl hl := pow_le_pow_left₀ (h.nonneg l hl) (h.anti k l hkl hl) 2
  energy q := by
    have h1 : ∀ t ∈ range m, (∑ x ∈ range n, D t x * q x) ^ 2 =
        (∑ k ∈ range (min m n), (r.s k * ∑ x ∈ range n, r.v k x * q x) * r.u t k) ^ 2 := by
      intro t ht
      congr 1
      rw [sum_congr rfl fun x hx => by rw [h.product t (mem_range.1 ht) x (mem_range.1 hx)]]
      simp only [sum_mul, mul_sum]
      rw [sum_comm]
      exact sum_congr rfl fun k _ => sum_congr rfl fun x _ => by ring
    rw [sum_congr rfl h1, orth_sq (e := fun k t => r.u t k) (p := min m n) (n := m) h.left]
    exact sum_congr rfl fun k _ => by ring

/-- the singular value decomposition gives the leading patterns -/
theorem svd_eofs {num : ℕ} (hnum : num ≤ min m n) : MatEofs m n D 1 num r.v r.s (fun k t => r.u t k) where
  orth := Orth.mono (p := min m n) h.right hnum
  nonneg k hk := h.nonneg k (by omega)
  anti k l hkl hl := h.anti k l hkl (by omega)
  energy k hk := by
    rw [sum_congr rfl fun t ht => by rw [svd_project h (by omega : k < min m n) (mem_range.1 ht)]]
    simp only [mul_pow]
    rw [← mul_sum]
    have := h.left k (by omega) k (by omega)
    rw [if_pos rfl] at this
    rw [sum_congr rfl fun t _ => by rw [sq], this]
    ring
  project k hk _ t ht := svd_project h (by omega) ht
  regress k hk _ x hx := by rw [svd_regress h (by omega) hx, one_mul]
  series k hk _ l hl _ := h.left k (by omega) l (by omega)
  leading k hk q hq := by rw [one_mul]; exact (svd_modes h).leading (by omega) q hq

/-- all of them together rebuild the matrix -/
theorem svd_total : ∑ t ∈ range m, ∑ x ∈ range n, D t x ^ 2 = ∑ k ∈ range (min m n), r.s k ^ 2 := by
  have h1 : ∀ t ∈ range m, ∑ x ∈ range n, D t x ^ 2 = ∑ k ∈ range (min m n), (r.u t k * r.s k) ^ 2 := by
    intro t ht
    rw [sum_congr rfl fun x hx => by rw [h.product t (mem_range.1 ht) x (mem_range.1 hx)]]
    exact orth_sq (e := r.v) (p := min m n) (n := n) h.right fun k => r.u t k * r.s k
  rw [sum_congr rfl h1, sum_comm]
  refine sum_congr rfl fun k hk => ?_
  have := h.left k (mem_range.1 hk) k (mem_range.1 hk)
  rw [if_pos rfl] at this
  simp only [mul_pow]
  rw [← sum_mul, sum_congr rfl fun t _ => by rw [sq], this, one_mul]

end svd

section eigh
variable {m n : ℕ} {D : ℕ → ℕ → ℝ} {r : Eigh} (hm : 2 ≤ m)
  (h : IsEigh n (fun a b => (∑ t ∈ range m, D t a * D t b) / ((m : ℝ) - 1)) r)
include hm h

theorem eigh_pos : (0 : ℝ) < (m : ℝ) - 1 := by
  have : (2 : ℝ) ≤ m := by exact_mod_cast hm
  linarith

/-- the covariance applied to an eigenvector -/
theorem eigh_apply {k : ℕ} (hk : k < n) {a : ℕ} (ha : a < n) :
    ∑ t ∈ range m, D t a * ∑ x ∈ range n, D t x * r.v x k = ((m : ℝ) - 1) * r.w k * r.v a k := by
  have hp := eigh_pos hm h
  have := h.eigen k hk a ha
  have h1 : ∑ b ∈ range n, (∑ t ∈ range m, D t a * D t b) / ((m : ℝ) - 1) * r.v b k =
      (∑ t ∈ range m, D t a * ∑ x ∈ range n, D t x * r.v x k) / ((m : ℝ) - 1) := by
    simp only [div_mul_eq_mul_div, ← sum_div]
    congr 1
    simp only [sum_mul, mul_sum]
    rw [sum_comm]
    exact sum_congr rfl fun t _ => sum_congr rfl fun x _ => by ring
  rw [h1, div_eq_iff hp.ne'] at this
  rw [this]; ring

/-- the product of the series of two eigenvectors -/
theorem eigh_dot {k l : ℕ} (hk : k < n) (hl : l < n) :
    ∑ t ∈ range m, (∑ x ∈ range n, D t x * r.v x k) * (∑ x ∈ range n, D t x * r.v x l) = if k = l then ((m : ℝ) - 1) * r.w k else 0 := by
  have h1 : ∑ t ∈ range m, (∑ x ∈ range n, D t x * r.v x k) * (∑ x ∈ range n, D t x * r.v x l) =
      ∑ a ∈ range n, (∑ t ∈ range m, D t a * ∑ x ∈ range n, D t x * r.v x k) * r.v a l := by
    have h2 : ∀ a ∈ range n, (∑ t ∈ range m, D t a * ∑ x ∈ range n, D t x * r.v x k) * r.v a l =
        ∑ t ∈ range m, (∑ x ∈ range n, D t x * r.v x k) * (D t a * r.v a l) := fun a _ => by
      rw [sum_mul]
      exact sum_congr rfl fun t _ => by ring
    rw [sum_congr rfl h2, sum_comm]
    exact sum_congr rfl fun t _ => by rw [mul_sum]
  rw [h1, sum_congr rfl fun a ha => by rw [eigh_apply hm h hk (mem_range.1 ha)]]
  rw [sum_congr rfl fun a _ => by rw [mul_assoc], ← mul_sum, h.orth k hk l hl]
  split_ifs <;> simp

theorem eigh_nonneg {k : ℕ} (hk : k < n) : 0 ≤ r.w k := by
  have hp := eigh_pos hm h
  have := eigh_dot hm h hk hk
  rw [if_pos rfl] at this
  have h2 : 0 ≤ ((m : ℝ) - 1) * r.w k := by
    rw [← this]; exact sum_nonneg fun t _ => mul_self_nonneg _
  exact nonneg_of_mul_nonneg_right h2 hp

/-- the eigenvectors in the order of falling eigenvalues -/
theorem eigh_orth : Orth n n fun k x => r.v x (n - 1 - k) := fun k hk l hl => by
  rw [h.orth _ (by omega) _ (by omega)]
  by_cases hkl : k = l
  · rw [if_pos hkl, if_pos (by rw [hkl])]
  · rw [if_neg hkl, if_neg (by omega)]

theorem eigh_modes : Modes m n n D (fun k => ((m : ℝ) - 1) * r.w (n - 1 - k)) fun k x => r.v x (n - 1 - k) where
  orth := eigh_orth hm h
  nonneg k hk := mul_nonneg (eigh_pos hm h).le (eigh_nonneg hm h (by omega))
  anti k l hkl hl := mul_le_mul_of_nonneg_left (h.mono _ _ (by omega) (by omega)) (eigh_pos hm h).le
  energy q := by
    set c : ℕ → ℝ := fun k => ∑ x ∈ range n, r.v x (n - 1 - k) * q x with hc
    have hq : ∀ x ∈ range n, q x = ∑ k ∈ range n, c k * r.v x (n - 1 - k) := fun x hx =>
      orth_expand (eigh_orth hm h) q (mem_range.1 hx)
    have h1 : ∀ t, ∑ x ∈ range n, D t x * q x = ∑ k ∈ range n, c k * ∑ x ∈ range n, D t x * r.v x (n - 1 - k) := by
      intro t
      rw [sum_congr rfl fun x hx => by rw [hq x hx]]
      simp only [mul_sum]
      rw [sum_comm]
      exact sum_congr rfl fun k _ => sum_congr rfl fun x _ => by ring
    simp only [h1]
    have h2 : ∀ t, (∑ k ∈ range n, c k * ∑ x ∈ range n, D t x * r.v x (n - 1 - k)) ^ 2 =
        ∑ k ∈ range n, ∑ l ∈ range n, c k * c l *
          ((∑ x ∈ range n, D t x * r.v x (n - 1 - k)) * (∑ x ∈ range n, D t x * r.v x (n - 1 - l))) := by
      intro t
      rw [sq, sum_mul_sum]
      exact sum_congr rfl fun k _ => sum_congr rfl fun l _ => by ring
    simp only [h2]
    rw [sum_comm]
    refine sum_congr rfl fun k hk => ?_
    rw [sum_comm]
    have hk := mem_range.1 hk
    have h3 : ∀ l ∈ range n, ∑ t ∈ range m, c k * c l *
          ((∑ x ∈ range n, D t x * r.v x (n - 1 - k)) * (∑ x ∈ range n, D t x * r.v x (n - 1 - l))) =
        if k = l then ((m : ℝ) - 1) * r.w (n - 1 - k) * (c k * c l) else 0 := by
      intro l hl
      have hl := mem_range.1 hl
      rw [← mul_sum, eigh_dot hm h (by omega) (by omega)]
      by_cases hkl : k = l
      · rw [if_pos hkl, if_pos (by rw [hkl])]; ring
      · rw [if_neg hkl, if_neg (by omega), mul_zero]
    rw [sum_congr rfl h3, sum_ite_eq, if_pos (mem_range.2 hk)]
    rw [sq]

/-- the eigenvectors of the covariance matrix give the leading patterns -/
theorem eigh_eofs {num : ℕ} (hnum : num ≤ n) : MatEofs m n D ((m : ℝ) - 1) num (fun k x => r.v x (n - 1 - k))
    (fun k => Real.sqrt (r.w (n - 1 - k)))
    (fun k t => (∑ x ∈ range n, D t x * r.v x (n - 1 - k)) / Real.sqrt (r.w (n - 1 - k))) where
  orth := (eigh_orth hm h).mono hnum
  nonneg k hk := Real.sqrt_nonneg _
  anti k l hkl hl := Real.sqrt_le_sqrt (h.mono _ _ (by omega) (by omega))
  energy k hk := by
    have := eigh_dot hm h (k := n - 1 - k) (l := n - 1 - k) (by omega) (by omega)
    rw [if_pos rfl] at this
    rw [Real.sq_sqrt (eigh_nonneg hm h (by omega)), ← this]
    exact sum_congr rfl fun t _ => sq _
  project k hk h0 t ht := by rw [mul_div_cancel₀ _ h0.ne']
  regress k hk h0 x hx := by
    simp only [← mul_div_assoc]
    rw [← sum_div, eigh_apply hm h (by omega) hx, div_eq_iff h0.ne']
    have := Real.mul_self_sqrt (eigh_nonneg hm h (by omega : n - 1 - k < n))
    calc ((m : ℝ) - 1) * r.w (n - 1 - k) * r.v x (n - 1 - k)
        = ((m : ℝ) - 1) * (√(r.w (n - 1 - k)) * √(r.w (n - 1 - k))) * r.v x (n - 1 - k) := by rw [this]
      _ = _ := by ring
  series k hk h0 l hl h0' := by
    simp only [div_mul_div_comm]
    rw [← sum_div, eigh_dot hm h (by omega) (by omega)]
    by_cases hkl : k = l
    · subst hkl
      rw [if_pos rfl, if_pos rfl, Real.mul_self_sqrt (eigh_nonneg hm h (by omega)), div_eq_iff (by
        have := Real.sqrt_pos.1 h0; exact this.ne')]
    · rw [if_neg (by omega), if_neg hkl, zero_div]
  leading k hk q hq := by
    rw [Real.sq_sqrt (eigh_nonneg hm h (by omega))]
    exact (eigh_modes hm h).leading (by omega) q hq

/-- the sum of the eigenvalues -/
theorem eigh_total : ∑ t ∈ range m, ∑ x ∈ range n, D t x ^ 2 = ((m : ℝ) - 1) * ∑ k ∈ range n, r.w k := by
  have ho := eigh_orth hm h
  have h1 : ∀ t, ∑ x ∈ range n, D t x ^ 2 = ∑ k ∈ range n, (∑ x ∈ range n, r.v x (n - 1 - k) * D t x) ^ 2 := by
    intro t
    rw [← orth_sq ho fun k => ∑ x ∈ range n, r.v x (n - 1 - k) * D t x]
    exact sum_congr rfl fun x hx => by rw [← orth_expand ho (D t) (mem_range.1 hx)]
  simp only [h1]
  rw [sum_comm, ← sum_range_reflect r.w, mul_sum]
  refine sum_congr rfl fun k hk => ?_
  have hk := mem_range.1 hk
  have := eigh_dot hm h (k := n - 1 - k) (l := n - 1 - k) (by omega) (by omega)
  rw [if_pos rfl] at this
  rw [← this]
  refine sum_congr rfl fun t _ => ?_
  rw [sq, sum_congr rfl fun x _ => mul_comm _ _]

end eigh

/-! ### Consequences -/

section
variable {m n num : ℕ} {D : ℕ → ℕ → ℝ} {c : ℝ} {v : ℕ → ℕ → ℝ} {e : ℕ → ℝ} {u : ℕ → ℕ → ℝ}

/-- the projection of a record on a pattern, also where the eigenvalue is zero -/
theorem MatEofs.amplitude (h : MatEofs m n D c num v e u) {k : ℕ} (hk : k < num) {t : ℕ} (ht : t < m) :
    ∑ x ∈ range n, D t x * v k x = if 0 < e k then e k * u k t else 0 := by
  split_ifs with h0
  · exact h.project k hk h0 t ht
  · have h1 : e k = 0 := le_antisymm (not_lt.1 h0) (h.nonneg k hk)
    have h2 := h.energy k hk
    rw [h1, zero_pow two_ne_zero, mul_zero, sum_eq_zero_iff_of_nonneg fun _ _ => sq_nonneg _] at h2
    exact pow_eq_zero_iff two_ne_zero |>.1 (h2 t (mem_range.2 ht))

/-- What the patterns leave of the data. -/
theorem MatEofs.residual (h : MatEofs m n D c num v e u) :
    ∑ t ∈ range m, ∑ x ∈ range n, (D t x - ∑ k ∈ range num, (if 0 < e k then e k * u k t else 0) * v k x) ^ 2 =
      ∑ t ∈ range m, ∑ x ∈ range n, D t x ^ 2 - c * ∑ k ∈ range num, e k ^ 2 := by
  have h1 : ∀ t ∈ range m, ∑ x ∈ range n, (D t x - ∑ k ∈ range num, (if 0 < e k then e k * u k t else 0) * v k x) ^ 2 =
      ∑ x ∈ range n, D t x ^ 2 - ∑ k ∈ range num, (∑ x ∈ range n, D t x * v k x) ^ 2 := by
    intro t ht
    set a : ℕ → ℝ := fun k => ∑ x ∈ range n, D t x * v k x with ha
    have h2 : ∀ x, ∑ k ∈ range num, (if 0 < e k then e k * u k t else 0) * v k x = ∑ k ∈ range num, a k * v k x := fun x =>
      sum_congr rfl fun k hk => by rw [ha]; simp only; rw [h.amplitude (mem_range.1 hk) (mem_range.1 ht)]
    simp only [h2]
    have h3 : ∑ x ∈ range n, (D t x - ∑ k ∈ range num, a k * v k x) ^ 2 =
        ∑ x ∈ range n, D t x ^ 2 - 2 * ∑ x ∈ range n, D t x * ∑ k ∈ range num, a k * v k x +
          ∑ x ∈ range n, (∑ k ∈ range num, a k * v k x) ^ 2 := by
      rw [mul_sum, ← sum_sub_distrib, ← sum_add_distrib]
      exact sum_congr rfl fun x _ => by ring
    have h4 : ∑ x ∈ range n, D t x * ∑ k ∈ range num, a k * v k x = ∑ k ∈ range num, a k ^ 2 := by
      simp only [mul_sum]
      rw [sum_comm]
      refine sum_congr rfl fun k _ => ?_
      rw [sq]
      nth_rewrite 3 [ha]
      simp only
      rw [mul_sum]
      exact sum_congr rfl fun x _ => by ring
    rw [h3, h4, orth_sq h.orth]
    ring
  rw [sum_congr rfl h1, sum_sub_distrib]
  congr 1
  rw [sum_comm, mul_sum]
  exact sum_congr rfl fun k hk => h.energy k (mem_range.1 hk)

/-- the projections of the data on different patterns are orthogonal -/
theorem MatEofs.cross (h : MatEofs m n D c num v e u) {k l : ℕ} (hk : k < num) (hl : l < num) :
    ∑ t ∈ range m, (∑ x ∈ range n, D t x * v k x) * (∑ x ∈ range n, D t x * v l x) = if k = l then c * e k ^ 2 else 0 := by
  by_cases hkl : k = l
  · subst hkl
    rw [if_pos rfl, ← h.energy k hk]
    exact sum_congr rfl fun t _ => (sq _).symm
  rw [if_neg hkl]
  by_cases h0 : 0 < e k ∧ 0 < e l
  · have h1 : ∀ t ∈ range m, (∑ x ∈ range n, D t x * v k x) * (∑ x ∈ range n, D t x * v l x) = e k * e l * (u k t * u l t) := by
      intro t ht
      rw [h.project k hk h0.1 t (mem_range.1 ht), h.project l hl h0.2 t (mem_range.1 ht)]
      ring
    rw [sum_congr rfl h1, ← mul_sum, h.series k hk h0.1 l hl h0.2, if_neg hkl, mul_zero]
  · refine sum_eq_zero fun t ht => ?_
    rw [h.amplitude hk (mem_range.1 ht), h.amplitude hl (mem_range.1 ht)]
    by_cases h1 : 0 < e k
    · rw [if_neg (fun h2 => h0 ⟨h1, h2⟩), mul_zero]
    · rw [if_neg h1, zero_mul]

/-- The energies are determined by the data. -/
theorem MatEofs.le (h : MatEofs m n D c num v e u) {num' : ℕ} {c' : ℝ} {v' : ℕ → ℕ → ℝ} {e' : ℕ → ℝ} {u' : ℕ → ℕ → ℝ}
    (h' : MatEofs m n D c' num' v' e' u') (hc' : 0 ≤ c') {k : ℕ} (hk : k < num) (hk' : k < num') : c' * e' k ^ 2 ≤ c * e k ^ 2 := by
  obtain ⟨b, hb, hq⟩ := exists_combination n k v v'
  have hup := h.leading k hk _ hq
  rw [orth_sq (h'.orth.mono (show k + 1 ≤ num' by omega)) b] at hup
  have hlow : c' * e' k ^ 2 * ∑ j ∈ range (k + 1), b j ^ 2 ≤
      ∑ t ∈ range m, (∑ x ∈ range n, D t x * ∑ j ∈ range (k + 1), b j * v' j x) ^ 2 := by
    have h1 : ∀ t, ∑ x ∈ range n, D t x * ∑ j ∈ range (k + 1), b j * v' j x = ∑ j ∈ range (k + 1), b j * ∑ x ∈ range n, D t x * v' j x := by
      intro t
      simp only [mul_sum]
      rw [sum_comm]
      exact sum_congr rfl fun j _ => sum_congr rfl fun x _ => by ring
    have h2 : ∑ t ∈ range m, (∑ x ∈ range n, D t x * ∑ j ∈ range (k + 1), b j * v' j x) ^ 2 =
        ∑ j ∈ range (k + 1), b j ^ 2 * (c' * e' j ^ 2) := by
      simp only [h1, sq, sum_mul_sum]
      rw [sum_comm]
      refine sum_congr rfl fun j hj => ?_
      rw [sum_comm]
      have h3 : ∀ i ∈ range (k + 1), ∑ t ∈ range m, b j * (∑ x ∈ range n, D t x * v' j x) * (b i * ∑ x ∈ range n, D t x * v' i x) =
          if j = i then b j * b i * (c' * e' j ^ 2) else 0 := by
        intro i hi
        have h4 := h'.cross (k := j) (l := i) (by have := mem_range.1 hj; omega) (by have := mem_range.1 hi; omega)
        rw [show (if j = i then b j * b i * (c' * e' j ^ 2) else 0) = b j * b i * (if j = i then c' * e' j ^ 2 else 0) by
          split_ifs <;> ring, ← h4, mul_sum]
        exact sum_congr rfl fun t _ => by ring
      rw [sum_congr rfl h3, sum_ite_eq, if_pos hj]
      ring
    rw [h2, mul_sum]
    refine sum_le_sum fun j hj => ?_
    have hj := mem_range.1 hj
    rw [mul_comm]
    refine mul_le_mul_of_nonneg_left (mul_le_mul_of_nonneg_left ?_ hc') (sq_nonneg _)
    exact pow_le_pow_left₀ (h'.nonneg k hk') (h'.anti j k (by omega) hk') 2
  exact le_of_mul_le_mul_right (hlow.trans hup) hb

end

end Eof
end PyGeode
