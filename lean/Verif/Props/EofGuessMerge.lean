import Verif.Props.EofGuess
/-!
# C127: merging two pieces
-/
namespace PyGeode
namespace EofGuess
open Spec Matrix
open Svd (cfor assign chunk scatter scatter2 flat_inj row_write rows_write cfor_sum cfor_congr cfor_succ cfor_zero table_of_holding)

theorem sum_two {N : ℕ} (f : Fin (N * 2) → ℝ) :
    ∑ k, f k = ∑ i : Fin N, f ⟨i, by omega⟩ + ∑ i : Fin N, f ⟨N + i, by omega⟩ := by
  have e : N + N = N * 2 := (Nat.mul_two N).symm
  rw [← Equiv.sum_comp (finCongr e) f, Fin.sum_univ_add]
  rfl

/-- sizes of a matrix of small rank -/
theorem sizes_vanish {M N : ℕ} {g : Fin M → ℝ} (h0 : ∀ i, 0 ≤ g i) (ha : Antitone g) (B : Matrix (Fin M) (Fin N) ℝ) (X : Matrix (Fin N) (Fin M) ℝ)
    (he : diagonal g * diagonal g = B * X) (j : Fin M) (hj : N ≤ j) : g j = 0 := by
  by_contra hne
  have hpos : 0 < g j := lt_of_le_of_ne (h0 j) (Ne.symm hne)
  have h1 : (diagonal g * diagonal g).rank ≤ N := by
    rw [he]
    exact (rank_mul_le_left B X).trans (by simpa using rank_le_width B)
  rw [diagonal_mul_diagonal, rank_diagonal] at h1
  have h2 : j.1 + 1 ≤ Fintype.card {i // g i * g i ≠ 0} := by
    have := Fintype.card_le_of_injective (fun i : Fin (j.1 + 1) => (⟨⟨i, by omega⟩, by
      have : g j ≤ g ⟨i, by omega⟩ := ha (by show (i : ℕ) ≤ j; omega)
      have : 0 < g ⟨i, by omega⟩ := lt_of_lt_of_le hpos this
      positivity⟩ : {i // g i * g i ≠ 0})) (by
        intro a b h
        simpa [Fin.ext_iff] using h)
    simpa using this
  omega

theorem merge_decomposes {lapack : Dsyev} (hl : lapack.Right) {N nx NT : ℕ} {d : ℕ → ℕ → ℝ} {t0 : ℕ} {p1 p2 : Piece}
    (h1 : Decomposes N nx NT d t0 p1) (h2 : Decomposes N nx NT d (t0 + p1.nt) p2) : Decomposes N nx NT d t0 (merge lapack N nx p1 p2) := by
  obtain ⟨hnt, Z, U, V, g, hs, hZ, hU, hg, hq1, hq2⟩ := merge_flat hl N nx p1 p2
  set p := merge lapack N nx p1 p2 with hp
  set E1 := table N nx p1.eof with hE1
  set E2 := table N nx p2.eof with hE2
  set w1 := fun i : Fin N => p1.eig i with hw1
  set w2 := fun i : Fin N => p2.eig i with hw2
  set P1 := table N p1.nt p1.pc with hP1
  set P2 := table N p2.nt p2.pc with hP2
  have o1 : Ortho E1 w1 P1 := ortho_of h1.orth
  have o2 : Ortho E2 w2 P2 := ortho_of h2.orth
  have hZ1 : ∀ (i : Fin N) (x : Fin nx), Z ⟨i, by omega⟩ x = w1 i * E1 i x := by
    intro i x; rw [hZ, dif_pos i.2]
  have hZ2 : ∀ (i : Fin N) (x : Fin nx), Z ⟨N + i, by omega⟩ x = w2 i * E2 i x := by
    intro i x
    rw [hZ, dif_neg (by simp)]
    congr 2 <;> simp
  have hz : Zᵀ * Z = (diagonal w1 * E1)ᵀ * (diagonal w1 * E1) + (diagonal w2 * E2)ᵀ * (diagonal w2 * E2) := by
    ext x y
    rw [Matrix.add_apply, mul_apply, mul_apply, mul_apply, sum_two]
    simp only [transpose_apply, hZ1, hZ2, diagonal_mul]
  have hr1 : ∃ S : Matrix (Fin N) (Fin (N * 2)) ℝ, diagonal w1 * E1 = S * Z := by
    refine ⟨of fun i k => if k = ⟨i, by omega⟩ then 1 else 0, ?_⟩
    ext i x
    rw [diagonal_mul, mul_apply]
    simp only [of_apply, ite_mul, one_mul, zero_mul, Finset.sum_ite_eq', Finset.mem_univ, if_true, hZ1]
  have hr2 : ∃ S : Matrix (Fin N) (Fin (N * 2)) ℝ, diagonal w2 * E2 = S * Z := by
    refine ⟨of fun i k => if k = ⟨N + i, by omega⟩ then 1 else 0, ?_⟩
    ext i x
    rw [diagonal_mul, mul_apply]
    simp only [of_apply, ite_mul, one_mul, zero_mul, Finset.sum_ite_eq', Finset.mem_univ, if_true, hZ2]
  obtain ⟨r1, r2, rr⟩ := merge_matrices o1 o2 hs hz hr1 hr2
  set D1 := P1ᵀ * diagonal w1 * E1 with hD1
  set D2 := P2ᵀ * diagonal w2 * E2 with hD2
  set Q1 := (diagonal fun i => unscale (g i)) * (U * D1ᵀ) with hQ1
  set Q2 := (diagonal fun i => unscale (g i)) * (U * D2ᵀ) with hQ2
  have hgN : ∀ j (hj : j < N), p.eig j = g ⟨j, by omega⟩ := hg
  constructor
  · constructor
    · intro i hi; rw [hgN i hi]; exact hs.nonneg _
    · intro i j hij hj
      rw [hgN j hj, hgN i (by omega)]
      exact hs.anti (by show i ≤ j; exact hij)
    · intro i hi j hj
      rw [Finset.sum_range, hgN i hi]
      have := congrFun (congrFun hs.uut ⟨i, by omega⟩) ⟨j, by omega⟩
      rw [mul_apply, diagonal_apply] at this
      simp only [transpose_apply] at this
      rw [Finset.sum_congr rfl fun x _ => by rw [hU i hi x, hU j hj x], this]
      by_cases hij : i = j
      · subst hij; simp
      · simp [hij]
    · intro i hi j hj gi gj
      rw [hnt, Finset.sum_range_add, Finset.sum_range, Finset.sum_range]
      have := congrFun (congrFun rr ⟨i, by omega⟩) ⟨j, by omega⟩
      rw [Matrix.add_apply, mul_apply, mul_apply, diagonal_apply] at this
      simp only [transpose_apply] at this
      rw [Finset.sum_congr rfl fun t _ => by rw [← hnt, hq1 i hi t, hq1 j hj t],
        Finset.sum_congr (s₁ := Finset.univ (α := Fin p2.nt)) rfl fun t _ => by rw [← hnt, hq2 i hi t, hq2 j hj t], this]
      rw [hgN i hi] at gi
      by_cases hij : i = j
      · subst hij; simp [gi]
      · simp [hij]
  · rw [hnt]; have := h2.inside; omega
  · rw [hnt]; have := h1.some; omega
  · have hE : ∀ {E : Matrix (Fin N) (Fin nx) ℝ} {w : Fin N → ℝ} {n : ℕ} {P : Matrix (Fin N) (Fin n) ℝ}, Ortho E w P →
        ∑ i, ∑ x, (w i * E i x) ^ 2 = ∑ i, w i ^ 2 := by
      intro E w n P o
      refine Finset.sum_congr rfl fun i _ => ?_
      have := congrFun (congrFun o.eet i) i
      rw [mul_apply, diagonal_apply_eq] at this
      simp only [transpose_apply] at this
      calc ∑ x, (w i * E i x) ^ 2 = w i ^ 2 * ∑ x, E i x * E i x := by rw [Finset.mul_sum]; exact Finset.sum_congr rfl fun x _ => by ring
        _ = w i ^ 2 := by
          rw [this]
          by_cases h : w i = 0
          · simp [h]
          · simp [h]
    calc ∑ i ∈ Finset.range N, p.eig i ^ 2 = ∑ i : Fin N, g ⟨i, by omega⟩ ^ 2 := by
          rw [Finset.sum_range]; exact Finset.sum_congr rfl fun i _ => by rw [hgN i i.2]
      _ ≤ ∑ k, g k ^ 2 := by rw [sum_two]; exact le_add_of_nonneg_right (Finset.sum_nonneg fun _ _ => sq_nonneg _)
      _ = ∑ i, w1 i ^ 2 + ∑ i, w2 i ^ 2 := by
          rw [hs.total, sum_two, ← hE o1, ← hE o2]
          simp only [hZ1, hZ2]
      _ ≤ _ := by
          have v1 := h1.variance
          have v2 := h2.variance
          rw [Finset.sum_range] at v1 v2
          rw [hnt, Finset.sum_range_add]
          simp only [← add_assoc]
          exact add_le_add v1 v2
  · intro hen
    have x1 := h1.exact hen
    have x2 := h2.exact hen
    obtain ⟨a, b, hab⟩ := hen
    have e1 : ∀ (t : Fin p1.nt) (x : Fin nx), D1 t x = d (t0 + t) x := by
      intro t x
      rw [← x1 t t.2 x x.2, hD1, mul_apply, rebuilt, Finset.sum_range]
      refine Finset.sum_congr rfl fun i _ => ?_
      rw [mul_diagonal]; rfl
    have e2 : ∀ (t : Fin p2.nt) (x : Fin nx), D2 t x = d (t0 + p1.nt + t) x := by
      intro t x
      rw [← x2 t t.2 x x.2, hD2, mul_apply, rebuilt, Finset.sum_range]
      refine Finset.sum_congr rfl fun i _ => ?_
      rw [mul_diagonal]; rfl
    let B : Matrix (Fin N) (Fin nx) ℝ := of fun i x => b i x
    let A1 : Matrix (Fin p1.nt) (Fin N) ℝ := of fun t i => a (t0 + t) i
    let A2 : Matrix (Fin p2.nt) (Fin N) ℝ := of fun t i => a (t0 + p1.nt + t) i
    have f1 : D1 = A1 * B := by
      ext t x
      rw [e1, hab _ (by have := h1.inside; omega) x x.2, Finset.sum_range, mul_apply]; rfl
    have f2 : D2 = A2 * B := by
      ext t x
      rw [e2, hab _ (by have := h2.inside; omega) x x.2, Finset.sum_range, mul_apply]; rfl
    have hUZ : diagonal g * diagonal g = (U * Bᵀ) * ((A1ᵀ * A1 + A2ᵀ * A2) * B * Uᵀ) := by
      have hZU : Z * Uᵀ = Vᵀ * diagonal g := by
        have := congrArg transpose hs.uat
        rwa [transpose_mul, transpose_transpose, transpose_mul, diagonal_transpose] at this
      have hDD : D1ᵀ * D1 + D2ᵀ * D2 = Zᵀ * Z := by rw [hz, o1.gram, o2.gram]
      calc diagonal g * diagonal g = diagonal g * (V * Vᵀ) * diagonal g := by rw [hs.vvt, Matrix.mul_one]
        _ = (U * Zᵀ) * (Z * Uᵀ) := by rw [hs.uat, hZU]; simp only [Matrix.mul_assoc]
        _ = U * (D1ᵀ * D1 + D2ᵀ * D2) * Uᵀ := by rw [hDD]; simp only [Matrix.mul_assoc]
        _ = _ := by
          rw [f1, f2]
          simp only [transpose_mul, Matrix.mul_add, Matrix.add_mul, Matrix.mul_assoc]
    have hv : ∀ j : Fin (N * 2), N ≤ j → g j = 0 := fun j hj => sizes_vanish hs.nonneg hs.anti _ _ hUZ j hj
    have fin : ∀ {n : ℕ} (Q : Matrix (Fin (N * 2)) (Fin n) ℝ) (t : Fin n) (x : Fin nx),
        (Qᵀ * diagonal g * U) t x = ∑ i : Fin N, Q ⟨i, by omega⟩ t * g ⟨i, by omega⟩ * U ⟨i, by omega⟩ x := by
      intro n Q t x
      rw [mul_apply, sum_two]
      simp only [mul_diagonal, transpose_apply]
      rw [Finset.sum_eq_zero (s := Finset.univ) (f := fun i : Fin N => Q ⟨N + i, _⟩ t * g ⟨N + i, _⟩ * U ⟨N + i, _⟩ x), add_zero]
      intro i _
      rw [hv ⟨N + i, by omega⟩ (by simp), mul_zero, zero_mul]
    intro t ht x hx
    rw [rebuilt, Finset.sum_range]
    by_cases c : t < p1.nt
    · rw [← e1 ⟨t, c⟩ ⟨x, hx⟩, ← r1, fin]
      refine Finset.sum_congr rfl fun i _ => ?_
      rw [← hgN i i.2, ← hU i i.2 ⟨x, hx⟩, ← hq1 i i.2 ⟨t, c⟩]
    · have ht' : t - p1.nt < p2.nt := by rw [hnt] at ht; omega
      have := e2 ⟨t - p1.nt, ht'⟩ ⟨x, hx⟩
      rw [show t0 + p1.nt + (t - p1.nt) = t0 + t by omega] at this
      rw [← this, ← r2, fin]
      refine Finset.sum_congr rfl fun i _ => ?_
      have hq := hq2 i i.2 ⟨t - p1.nt, ht'⟩
      rw [show p1.nt + (t - p1.nt) = t by omega] at hq
      rw [← hgN i i.2, ← hU i i.2 ⟨x, hx⟩, ← hq]

end EofGuess
end PyGeode
