/- Every matrix has a decomposition of the kind numpy documents: the assumptions of the theorems on EOFs can be met. -/
import Verif.Props.EofMat
import Mathlib.Analysis.Matrix.Spectrum

namespace PyGeode
namespace Eof
open Finset Spec

/-- Every symmetric matrix has the decomposition that `eigh` promises. -/
theorem exists_eigh (n : ℕ) (C : ℕ → ℕ → ℝ) (hC : ∀ a < n, ∀ b < n, C a b = C b a) : ∃ r, IsEigh n C r := by
  let A : Matrix (Fin n) (Fin n) ℝ := Matrix.of fun i j => C i j
  have hA : A.IsHermitian := by
    ext i j
    simp only [Matrix.conjTranspose_apply, A, Matrix.of_apply, star_trivial]
    exact hC _ j.2 _ i.2
  let eq : Fin (Fintype.card (Fin n)) ≃ Fin n := Fintype.equivOfCardEq (Fintype.card_fin _)
  have hcard : Fintype.card (Fin n) = n := Fintype.card_fin n
  -- the index of the k-th eigenvalue from below
  let j : ∀ k, k < n → Fin n := fun k hk => eq ⟨n - 1 - k, by rw [hcard]; omega⟩
  have hj : ∀ k hk l hl, j k hk = j l hl ↔ k = l := by
    intro k hk l hl
    simp only [j, EmbeddingLike.apply_eq_iff_eq, Fin.mk.injEq]
    omega
  refine ⟨⟨fun k => if hk : k < n then hA.eigenvalues (j k hk) else 0,
    fun x k => if hk : k < n then (if hx : x < n then hA.eigenvectorBasis (j k hk) ⟨x, hx⟩ else 0) else 0⟩, ?_, ?_, ?_⟩
  · intro k hk l hl
    rw [← Fin.sum_univ_eq_sum_range (fun x => _ * _)]
    simp only [hk, hl, Fin.is_lt, dif_pos, Fin.eta]
    have h1 := orthonormal_iff_ite.1 hA.eigenvectorBasis.orthonormal (j l hl) (j k hk)
    rw [PiLp.inner_apply] at h1
    simp only [RCLike.inner_apply, conj_trivial] at h1
    rw [h1]
    by_cases hkl : k = l
    · rw [if_pos hkl, if_pos ((hj l hl k hk).2 hkl.symm)]
    · rw [if_neg hkl, if_neg (fun h => hkl ((hj l hl k hk).1 h).symm)]
  · intro k l hkl hl
    have hk : k < n := by omega
    simp only [hk, hl, dif_pos]
    show hA.eigenvalues₀ (eq.symm (eq _)) ≤ hA.eigenvalues₀ (eq.symm (eq _))
    rw [Equiv.symm_apply_apply, Equiv.symm_apply_apply]
    exact hA.eigenvalues₀_antitone (by simp only [Fin.mk_le_mk]; omega)
  · intro k hk a ha
    rw [← Fin.sum_univ_eq_sum_range (fun x => _ * _)]
    simp only [hk, ha, Fin.is_lt, dif_pos, Fin.eta]
    have h1 := congrFun (hA.mulVec_eigenvectorBasis (j k hk)) ⟨a, ha⟩
    simpa [Matrix.mulVec, dotProduct, A] using h1

/-- there are no more orthonormal rows than columns -/
theorem orth_le {p n : ℕ} {e : ℕ → ℕ → ℝ} (h : Orth p n e) : p ≤ n := by
  have h1 : ∀ y ∈ range n, ∑ k ∈ range p, e k y ^ 2 ≤ 1 := by
    intro y hy
    have := bessel h fun x => if x = y then 1 else 0
    simpa [hy, mem_range.1 hy] using this
  have h2 : (p : ℝ) ≤ n := by
    calc (p : ℝ) = ∑ k ∈ range p, ∑ y ∈ range n, e k y ^ 2 := by
          rw [sum_congr rfl fun k hk => by
            rw [sum_congr rfl fun y _ => sq _, h k (mem_range.1 hk) k (mem_range.1 hk), if_pos rfl]]
          simp
      _ = ∑ y ∈ range n, ∑ k ∈ range p, e k y ^ 2 := sum_comm
      _ ≤ ∑ y ∈ range n, (1 : ℝ) := sum_le_sum h1
      _ = n := by simp
  exact_mod_cast h2

/-- Every matrix has the decomposition that `svd` promises. -/
theorem exists_svd (m n : ℕ) (D : ℕ → ℕ → ℝ) : ∃ r, IsSvd m n D r := by
  obtain ⟨g, hg⟩ := exists_eigh n (fun a b => ∑ t ∈ range m, D t a * D t b) fun a _ b _ => sum_congr rfl fun t _ => mul_comm _ _
  -- the patterns in the order of falling eigenvalues
  set v : ℕ → ℕ → ℝ := fun k x => g.v x (n - 1 - k) with hv
  set lam : ℕ → ℝ := fun k => g.w (n - 1 - k) with hlam
  have hov : Orth n n v := fun k hk l hl => by
    rw [hv]; simp only
    rw [hg.orth _ (by omega) _ (by omega)]
    by_cases hkl : k = l
    · rw [if_pos hkl, if_pos (by rw [hkl])]
    · rw [if_neg hkl, if_neg (by omega)]
  have hanti : ∀ k l, k ≤ l → l < n → lam l ≤ lam k := fun k l hkl hl => hg.mono _ _ (by omega) (by omega)
  set Y : ℕ → ℕ → ℝ := fun k t => ∑ x ∈ range n, D t x * v k x with hY
  have happ : ∀ k < n, ∀ a < n, ∑ t ∈ range m, D t a * Y k t = lam k * v k a := by
    intro k hk a ha
    rw [← hg.eigen (n - 1 - k) (by omega) a ha]
    rw [hY]
    simp only [sum_mul, mul_sum]
    rw [sum_comm]
    exact sum_congr rfl fun b _ => sum_congr rfl fun t _ => by rw [hv]; ring
  have hdot : ∀ k < n, ∀ l < n, ∑ t ∈ range m, Y k t * Y l t = if k = l then lam k else 0 := by
    intro k hk l hl
    have h2 : ∀ a ∈ range n, (∑ t ∈ range m, D t a * Y k t) * v l a = ∑ t ∈ range m, Y k t * (D t a * v l a) := fun a _ => by
      rw [sum_mul]
      exact sum_congr rfl fun t _ => by ring
    have h3 : ∑ t ∈ range m, Y k t * Y l t = ∑ a ∈ range n, (∑ t ∈ range m, D t a * Y k t) * v l a := by
      rw [sum_congr rfl h2, sum_comm]
      exact sum_congr rfl fun t _ => by rw [← mul_sum]
    rw [h3, sum_congr rfl fun a ha => by rw [happ k hk a (mem_range.1 ha), mul_assoc], ← mul_sum, hov k hk l hl]
    split_ifs <;> simp
  have hnn : ∀ k < n, 0 ≤ lam k := by
    intro k hk
    have := hdot k hk k hk
    rw [if_pos rfl] at this
    rw [← this]; exact sum_nonneg fun t _ => mul_self_nonneg _
  have hzero : ∀ k < n, lam k = 0 → ∀ t < m, Y k t = 0 := by
    intro k hk h0 t ht
    have := hdot k hk k hk
    rw [if_pos rfl, h0] at this
    have := (sum_eq_zero_iff_of_nonneg fun t _ => mul_self_nonneg (Y k t)).1 this t (mem_range.2 ht)
    exact mul_self_eq_zero.1 this
  have hpos : ∀ k < n, 0 < lam k → k < m := by
    intro k hk h0
    have ho : Orth (k + 1) m fun l t => Y l t / Real.sqrt (lam l) := by
      intro a ha b hb
      have ha0 : 0 < lam a := h0.trans_le (hanti a k (by omega) hk)
      have hb0 : 0 < lam b := h0.trans_le (hanti b k (by omega) hk)
      simp only [div_mul_div_comm]
      rw [← sum_div, hdot a (by omega) b (by omega)]
      by_cases hab : a = b
      · subst hab
        rw [if_pos rfl, if_pos rfl, Real.mul_self_sqrt ha0.le, div_self ha0.ne']
      · rw [if_neg hab, if_neg hab, zero_div]
    have := orth_le ho
    omega
  -- the series, made up to a full orthonormal set
  let u0 : Fin m → EuclideanSpace ℝ (Fin m) := fun k => WithLp.toLp 2 fun t => Y k t / Real.sqrt (lam k)
  let S : Set (Fin m) := {k | (k : ℕ) < n ∧ 0 < lam k}
  have hor : Orthonormal ℝ (S.restrict u0) := by
    rw [orthonormal_iff_ite]
    rintro ⟨a, ha, ha0⟩ ⟨b, hb, hb0⟩
    rw [PiLp.inner_apply]
    simp only [RCLike.inner_apply, conj_trivial, Subtype.mk.injEq]
    show ∑ t : Fin m, Y b t / Real.sqrt (lam b) * (Y a t / Real.sqrt (lam a)) = _
    simp only [div_mul_div_comm]
    rw [Fin.sum_univ_eq_sum_range (fun t => Y b t * Y a t / _), ← sum_div, hdot b hb a ha]
    by_cases hab : a = b
    · subst hab
      rw [if_pos rfl, if_pos rfl, Real.mul_self_sqrt ha0.le, div_self ha0.ne']
    · rw [if_neg (fun h => hab (Fin.ext h.symm)), if_neg hab, zero_div]
  obtain ⟨b, hb⟩ := hor.exists_orthonormalBasis_extension_of_card_eq (by simp)
  refine ⟨⟨fun t k => if hk : k < m then (if ht : t < m then b ⟨k, hk⟩ ⟨t, ht⟩ else 0) else 0, fun k => Real.sqrt (lam k), v⟩,
    ?_, ?_, ?_, ?_, ?_⟩
  · intro k hk l hl
    have hk' : k < m := by omega
    have hl' : l < m := by omega
    rw [← Fin.sum_univ_eq_sum_range (fun x => _ * _)]
    simp only [hk', hl', Fin.is_lt, dif_pos, Fin.eta]
    have h1 := orthonormal_iff_ite.1 b.orthonormal ⟨l, hl'⟩ ⟨k, hk'⟩
    rw [PiLp.inner_apply] at h1
    simp only [RCLike.inner_apply, conj_trivial, Fin.mk.injEq] at h1
    rw [h1]
    simp only [eq_comm]
  · exact fun k hk l hl => hov k (by omega) l (by omega)
  · exact fun k _ => Real.sqrt_nonneg _
  · exact fun k l hkl hl => Real.sqrt_le_sqrt (hanti k l hkl (by omega))
  · intro t ht x hx
    have h1 := orth_expand hov (D t) hx
    have h2 : ∀ k ∈ range n, (∑ y ∈ range n, v k y * D t y) * v k x = Y k t * v k x := fun k _ => by
      rw [hY]; simp only; rw [sum_congr rfl fun y _ => mul_comm _ _]
    rw [h1, sum_congr rfl h2, ← sum_subset (range_subset_range.2 (min_le_right m n))]
    · refine sum_congr rfl fun k hk => ?_
      have hk := mem_range.1 hk
      have hkm : k < m := by omega
      simp only [hkm, ht, dif_pos]
      rcases (hnn k (by omega)).eq_or_lt with h0 | h0
      · rw [hzero k (by omega) h0.symm t ht, ← h0]; simp
      · rw [hb ⟨k, hkm⟩ ⟨by simpa using (by omega : k < n), h0⟩]
        simp only [u0]
        rw [div_mul_cancel₀ _ (Real.sqrt_pos.2 h0).ne']
    · intro k hk hk'
      have hk := mem_range.1 hk
      have hk' : ¬ k < min m n := by simpa using hk'
      have h0 : lam k = 0 := by
        rcases (hnn k hk).eq_or_lt with h0 | h0
        · exact h0.symm
        · have := hpos k hk h0; omega
      rw [hzero k hk h0 t ht, zero_mul]

end Eof
end PyGeode
