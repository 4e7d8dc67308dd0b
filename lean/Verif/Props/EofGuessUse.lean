import Verif.Props.EofGuessRun
import Verif.Props.EofExists
import Verif.Props.SvdExample
/-!
# C127: what the estimate means, and cases that meet the hypotheses
-/
namespace PyGeode
namespace EofGuess
open Spec Matrix
open Svd (cfor assign chunk)

/-- asking for as many patterns as there are places or records is enough -/
theorem enough_of_small {N nx NT : ℕ} (d : ℕ → ℕ → ℝ) (h : nx ≤ N ∨ NT ≤ N) : Enough N nx NT d := by
  rcases h with h | h
  · refine ⟨fun t i => d t i, fun i x => if i = x then 1 else 0, fun t _ x hx => ?_⟩
    simp only [mul_ite, mul_one, mul_zero]
    rw [Finset.sum_ite_eq' (Finset.range N) x, if_pos (Finset.mem_range.2 (by omega))]
  · refine ⟨fun t i => if t = i then 1 else 0, fun i x => d i x, fun t ht x hx => ?_⟩
    simp only [ite_mul, one_mul, zero_mul]
    rw [Finset.sum_ite_eq (Finset.range N) t, if_pos (Finset.mem_range.2 (by omega))]

/-- the data as a matrix -/
theorem data_matrix {N nx NT : ℕ} {d : ℕ → ℕ → ℝ} {p : Piece} (hd : Decomposes N nx NT d 0 p) (hen : Enough N nx NT d) :
    (of fun (t : Fin p.nt) (x : Fin nx) => d t x) = (table N p.nt p.pc)ᵀ * diagonal (fun i : Fin N => p.eig i) * table N nx p.eof := by
  ext t x
  have := hd.exact hen t t.2 x x.2
  rw [zero_add] at this
  rw [of_apply, ← this, rebuilt, Finset.sum_range, mul_apply]
  refine Finset.sum_congr rfl fun i _ => ?_
  rw [mul_diagonal]; rfl

/-- **C127** an exact estimate: the patterns are eigenvectors of the covariances (times the number of records) of the places, the eigenvalues are the squares of the sizes; each
series is the projection of the data on its pattern -/
theorem guess_eigen {N nx NT : ℕ} {d : ℕ → ℕ → ℝ} {p : Piece} (hd : Decomposes N nx NT d 0 p) (hnt : p.nt = NT) (hen : Enough N nx NT d) :
    (∀ i < N, ∀ x < nx, ∑ y ∈ Finset.range nx, (∑ t ∈ Finset.range NT, d t x * d t y) * p.eof (i * nx + y) = p.eig i ^ 2 * p.eof (i * nx + x)) ∧
    ∀ i < N, p.eig i ≠ 0 → ∀ t < NT, p.pc (i * NT + t) = (∑ x ∈ Finset.range nx, d t x * p.eof (i * nx + x)) / p.eig i := by
  have hD := data_matrix hd hen
  have ho := ortho_of hd.orth
  set D : Matrix (Fin p.nt) (Fin nx) ℝ := of fun t x => d t x with hDd
  set E := table N nx p.eof with hE
  set P := table N p.nt p.pc with hP
  set w := fun i : Fin N => p.eig i with hw
  have hwJ : diagonal w * (E * Eᵀ) = diagonal w := by
    rw [ho.eet, diagonal_mul_diagonal]
    congr 1; funext i
    by_cases h : w i = 0 <;> simp [h]
  have hEJ : (E * Eᵀ) * E = E := by
    rw [ho.eet]
    ext i x
    rw [diagonal_mul]
    by_cases h : w i = 0
    · have h1 := congrFun (congrFun ho.eet i) i
      rw [diagonal_apply_eq, if_neg (not_not.2 h), mul_apply] at h1
      have h2 := (Finset.sum_eq_zero_iff_of_nonneg (fun x _ => by rw [transpose_apply]; exact mul_self_nonneg (E i x))).1 h1 x (Finset.mem_univ x)
      rw [transpose_apply, mul_self_eq_zero] at h2
      rw [h2, mul_zero]
    · rw [if_pos h, one_mul]
  have hgram : (Dᵀ * D) * Eᵀ = Eᵀ * (diagonal w * diagonal w) := by
    rw [hD, ho.gram, transpose_mul, diagonal_transpose]
    calc Eᵀ * diagonal w * (diagonal w * E) * Eᵀ = Eᵀ * diagonal w * (diagonal w * (E * Eᵀ)) := by simp only [Matrix.mul_assoc]
      _ = _ := by rw [hwJ]; simp only [Matrix.mul_assoc]
  have hser : D * Eᵀ = Pᵀ * diagonal w := by
    rw [hD]
    calc Pᵀ * diagonal w * E * Eᵀ = Pᵀ * (diagonal w * (E * Eᵀ)) := by simp only [Matrix.mul_assoc]
      _ = _ := by rw [hwJ]
  subst hnt
  constructor
  · intro i hi x hx
    have h1 := congrFun (congrFun hgram ⟨x, hx⟩) ⟨i, hi⟩
    rw [diagonal_mul_diagonal, mul_diagonal, mul_apply] at h1
    rw [Finset.sum_range]
    calc _ = ∑ y : Fin nx, (Dᵀ * D) ⟨x, hx⟩ y * Eᵀ y ⟨i, hi⟩ := by
          refine Finset.sum_congr rfl fun y _ => ?_
          rw [Finset.sum_range, mul_apply]; rfl
      _ = _ := h1
      _ = _ := by show p.eof (i * nx + x) * (p.eig i * p.eig i) = _; ring
  · intro i hi hne t ht
    have h1 := congrFun (congrFun hser ⟨t, ht⟩) ⟨i, hi⟩
    rw [mul_diagonal, mul_apply] at h1
    rw [Finset.sum_range, eq_div_iff hne]
    exact h1.symm

/-- two descending lists of sizes with the same sums of powers are the same -/
theorem sizes_of_powers {N : ℕ} {a b : ℕ → ℝ} (ha0 : ∀ i < N, 0 ≤ a i) (hb0 : ∀ i < N, 0 ≤ b i) (haa : ∀ i j, i ≤ j → j < N → a j ≤ a i)
    (hba : ∀ i j, i ≤ j → j < N → b j ≤ b i) (h : ∀ k, ∑ i ∈ Finset.range N, a i ^ (k + 1) = ∑ i ∈ Finset.range N, b i ^ (k + 1)) : ∀ i < N, a i = b i := by
  have key : ∀ (a b : ℕ → ℝ), (∀ i < N, 0 ≤ a i) → (∀ i < N, 0 ≤ b i) → (∀ i j, i ≤ j → j < N → b j ≤ b i) →
      (∀ k, ∑ i ∈ Finset.range N, a i ^ (k + 1) = ∑ i ∈ Finset.range N, b i ^ (k + 1)) → ∀ i < N, (∀ j < i, a j = b j) → a i ≤ b i := by
    intro a b ha0 hb0 hba h i hi hlt
    by_contra hc
    push Not at hc
    have hbi := hb0 i hi
    have hpos : 0 < a i := lt_of_le_of_lt hbi hc
    have hbound : ∀ k, a i ^ (k + 1) ≤ N * b i ^ (k + 1) := by
      intro k
      have e := h k
      have split : ∀ f : ℕ → ℝ, ∑ j ∈ Finset.range N, f j = ∑ j ∈ Finset.range i, f j + ∑ j ∈ Finset.range (N - i), f (i + j) := by
        intro f
        rw [← Finset.sum_range_add, Nat.add_sub_cancel' hi.le]
      rw [split, split fun j => b j ^ (k + 1), Finset.sum_congr rfl fun j hj => by rw [hlt j (Finset.mem_range.1 hj)]] at e
      have e := add_left_cancel e
      calc a i ^ (k + 1) ≤ ∑ j ∈ Finset.range (N - i), a (i + j) ^ (k + 1) := by
            have := Finset.single_le_sum (f := fun j => a (i + j) ^ (k + 1)) (s := Finset.range (N - i))
              (fun j hj => pow_nonneg (ha0 _ (by have := Finset.mem_range.1 hj; omega)) _) (Finset.mem_range.2 (show 0 < N - i by omega))
            simpa using this
        _ = ∑ j ∈ Finset.range (N - i), b (i + j) ^ (k + 1) := e
        _ ≤ ∑ j ∈ Finset.range (N - i), b i ^ (k + 1) := by
            refine Finset.sum_le_sum fun j hj => ?_
            have := Finset.mem_range.1 hj
            exact pow_le_pow_left₀ (hb0 _ (by omega)) (hba _ _ (by omega) (by omega)) _
        _ ≤ N * b i ^ (k + 1) := by
            rw [Finset.sum_const, Finset.card_range, nsmul_eq_mul]
            exact mul_le_mul_of_nonneg_right (by exact_mod_cast (by omega : N - i ≤ N)) (pow_nonneg hbi _)
    have hbpos : 0 < b i := by
      rcases hbi.lt_or_eq with h | h
      · exact h
      · have := hbound 0
        rw [← h] at this
        simp at this
        linarith
    have hr : 1 < a i / b i := (one_lt_div hbpos).2 hc
    obtain ⟨k, hk⟩ := pow_unbounded_of_one_lt (N : ℝ) hr
    have h1 : (a i / b i) ^ (k + 1) ≤ N := by
      rw [div_pow, div_le_iff₀ (pow_pos hbpos _)]
      exact hbound k
    have h2 : (a i / b i) ^ k ≤ (a i / b i) ^ (k + 1) := pow_le_pow_right₀ hr.le (Nat.le_succ k)
    linarith
  intro i
  induction i using Nat.strong_induction_on with
  | _ i ih =>
    intro hi
    have hlt : ∀ j < i, a j = b j := fun j hj => ih j hj (by omega)
    exact le_antisymm (key a b ha0 hb0 hba h i hi hlt) (key b a hb0 ha0 haa (fun k => (h k).symm) i hi fun j hj => (hlt j hj).symm)

theorem trace_powers {N nx n : ℕ} {E : Matrix (Fin N) (Fin nx) ℝ} {w : Fin N → ℝ} {P : Matrix (Fin N) (Fin n) ℝ} (ho : Ortho E w P) (k : ℕ) :
    (((Pᵀ * diagonal w * E)ᵀ * (Pᵀ * diagonal w * E)) ^ (k + 1)).trace = ∑ i, (w i ^ 2) ^ (k + 1) := by
  rw [ho.gram, transpose_mul, diagonal_transpose]
  set w2 : Fin N → ℝ := fun i => w i ^ 2 with hw2
  have h0 : Eᵀ * diagonal w * (diagonal w * E) = Eᵀ * diagonal w2 * E := by
    rw [Matrix.mul_assoc, ← Matrix.mul_assoc (diagonal w), diagonal_mul_diagonal, ← Matrix.mul_assoc]
    congr 3; funext i; exact (sq (w i)).symm
  have hJ : diagonal w2 * (E * Eᵀ) = diagonal w2 := by
    rw [ho.eet, diagonal_mul_diagonal]
    congr 1; funext i
    by_cases h : w i = 0 <;> simp [h, hw2]
  have hpow : ∀ k, (Eᵀ * diagonal w2 * E) ^ (k + 1) = Eᵀ * diagonal (fun i => w2 i ^ (k + 1)) * E := by
    intro k
    induction k with
    | zero => simp
    | succ k ih =>
      rw [pow_succ', ih]
      calc Eᵀ * diagonal w2 * E * (Eᵀ * diagonal (fun i => w2 i ^ (k + 1)) * E)
          = Eᵀ * (diagonal w2 * (E * Eᵀ)) * diagonal (fun i => w2 i ^ (k + 1)) * E := by simp only [Matrix.mul_assoc]
        _ = _ := by
          rw [hJ, Matrix.mul_assoc Eᵀ, diagonal_mul_diagonal]
          congr 3; funext i; rw [pow_succ' (w2 i) (k + 1)]
  rw [h0, hpow, Matrix.mul_assoc, trace_mul_comm, Matrix.mul_assoc]
  have : diagonal (fun i => w2 i ^ (k + 1)) * (E * Eᵀ) = diagonal fun i => w2 i ^ (k + 1) := by
    rw [ho.eet, diagonal_mul_diagonal]
    congr 1; funext i
    by_cases h : w i = 0 <;> simp [h, hw2]
  rw [this, trace_diagonal]

/-- **C127** exact estimates have the same sizes, however the data was cut -/
theorem sizes_unique {N nx NT : ℕ} {d : ℕ → ℕ → ℝ} {p q : Piece} (hp : Decomposes N nx NT d 0 p) (hq : Decomposes N nx NT d 0 q) (hnp : p.nt = NT) (hnq : q.nt = NT)
    (hen : Enough N nx NT d) : ∀ i < N, p.eig i = q.eig i := by
  have e1 := data_matrix hp hen
  have e2 := data_matrix hq hen
  have o1 := ortho_of hp.orth
  have o2 := ortho_of hq.orth
  have hpow : ∀ k, ∑ i ∈ Finset.range N, (p.eig i ^ 2) ^ (k + 1) = ∑ i ∈ Finset.range N, (q.eig i ^ 2) ^ (k + 1) := by
    intro k
    have t1 := trace_powers o1 k
    have t2 := trace_powers o2 k
    rw [← e1] at t1
    rw [← e2] at t2
    rw [Finset.sum_range, Finset.sum_range, ← t1, ← t2]
    congr 2
    ext x y
    rw [mul_apply, mul_apply]
    simp only [transpose_apply, of_apply]
    rw [← Finset.sum_range (fun t => d t x * d t y), ← Finset.sum_range (fun t => d t x * d t y), hnp, hnq]
  have h := sizes_of_powers (a := fun i => p.eig i ^ 2) (b := fun i => q.eig i ^ 2) (fun i _ => sq_nonneg _) (fun i _ => sq_nonneg _)
    (fun i j hij hj => pow_le_pow_left₀ (hp.orth.nonneg j hj) (hp.orth.anti i j hij hj) 2)
    (fun i j hij hj => pow_le_pow_left₀ (hq.orth.nonneg j hj) (hq.orth.anti i j hij hj) 2) hpow
  intro i hi
  have := h i hi
  exact (pow_left_inj₀ (hp.orth.nonneg i hi) (hq.orth.nonneg i hi) two_ne_zero).1 this

/-! ### cases that meet the hypotheses -/

open Classical in
/-- a LAPACK that keeps its promises -/
noncomputable def lapackEx : Dsyev := fun N C =>
  if h : ∀ a < N, ∀ b < N, C (a * N + b) = C (b * N + a) then
    let r := (Eof.exists_eigh N (fun a b => C (a * N + b)) h).choose
    (fun i => r.v (i % N) (i / N), r.w)
  else (fun _ => 0, fun _ => 0)

theorem lapackEx_right : lapackEx.Right := by
  intro N C hC
  have h : ∀ a < N, ∀ b < N, C (a * N + b) = C (b * N + a) := fun a ha b hb => by
    have := congrFun (congrFun hC ⟨b, hb⟩) ⟨a, ha⟩
    exact this
  have hr := (Eof.exists_eigh N (fun a b => C (a * N + b)) h).choose_spec
  set r := (Eof.exists_eigh N (fun a b => C (a * N + b)) h).choose with hrd
  have he : lapackEx N C = (fun i => r.v (i % N) (i / N), r.w) := by rw [lapackEx, dif_pos h]
  rw [he]
  have hT : ∀ i j : Fin N, table N N (fun i => r.v (i % N) (i / N)) i j = r.v j i := by
    intro i j
    have hj : (j : ℕ) < N := j.2
    simp only [table, of_apply]
    rw [mul_comm, Nat.mul_add_div (by omega), Nat.div_eq_of_lt hj, Nat.mul_add_mod, Nat.mod_eq_of_lt hj, add_zero]
  refine ⟨?_, ?_, hr.mono⟩
  · ext i j
    rw [mul_apply, one_apply]
    simp only [transpose_apply, hT]
    rw [← Finset.sum_range (fun x => r.v x i * r.v x j), hr.orth i i.2 j j.2]
    simp [Fin.ext_iff]
  · ext i j
    rw [Matrix.mul_assoc, mul_apply, diagonal_apply]
    have h1 : ∀ a : Fin N, (table N N C * (table N N fun i => r.v (i % N) (i / N))ᵀ) a j = r.w j * r.v a j := by
      intro a
      rw [mul_apply, ← hr.eigen j j.2 a a.2, Finset.sum_range]
      refine Finset.sum_congr rfl fun b _ => ?_
      rw [transpose_apply, hT]; rfl
    simp only [hT, h1]
    calc ∑ x : Fin N, r.v x i * (r.w j * r.v x j) = r.w j * ∑ x ∈ Finset.range N, r.v x i * r.v x j := by
          rw [Finset.mul_sum, Finset.sum_range]; exact Finset.sum_congr rfl fun x _ => by ring
      _ = _ := by
          rw [hr.orth i i.2 j j.2]
          by_cases hij : i = j
          · subst hij; simp
          · rw [if_neg (fun h => hij (Fin.ext h)), if_neg hij, mul_zero]

/-- five records of two places in two chunks, two patterns: three pieces, two merges -/
example : ∃ p, guess lapackEx 2 2 (fun t x => (t : ℝ) + x * t ^ 2) [(0, 3), (3, 2)] = some p ∧ p.nt = 5 ∧
    ∀ t < 5, ∀ x < 2, rebuilt 2 2 p t x = (t : ℝ) + x * t ^ 2 := by
  obtain ⟨p, e, hnt, hd, _⟩ := guess_correct lapackEx_right (N := 2) (nx := 2) (NT := 5) (d := fun t x => (t : ℝ) + x * t ^ 2) (parts := [(0, 3), (3, 2)])
    (by decide) (by decide) (by decide) (by decide) ⟨rfl, rfl, rfl⟩
  refine ⟨p, e, hnt, fun t ht x hx => ?_⟩
  have := hd.exact (enough_of_small _ (Or.inl le_rfl)) t (by omega) x hx
  rwa [zero_add] at this

/-- one pattern is enough for products, though there are three places and four records -/
theorem product_enough : Enough 1 3 4 fun t x => ((t : ℝ) + 1) * (x + 1) :=
  ⟨fun t _ => (t : ℝ) + 1, fun _ x => (x : ℝ) + 1, fun t _ x _ => by simp⟩

/-- and the size is the same whether the records come one by one or all at once: the square root of all the variance -/
example : ∃ p q, guess lapackEx 1 3 (fun t x => ((t : ℝ) + 1) * (x + 1)) [(0, 1), (1, 1), (2, 1), (3, 1)] = some p ∧
    guess lapackEx 1 3 (fun t x => ((t : ℝ) + 1) * (x + 1)) [(0, 4)] = some q ∧ p.eig 0 = q.eig 0 := by
  obtain ⟨p, e, hnt, hd, _⟩ := guess_correct lapackEx_right (N := 1) (nx := 3) (NT := 4) (d := fun t x => ((t : ℝ) + 1) * (x + 1))
    (parts := [(0, 1), (1, 1), (2, 1), (3, 1)]) (by decide) (by decide) (by decide) (by decide) ⟨rfl, rfl, rfl, rfl, rfl⟩
  obtain ⟨q, e', hnt', hd', _⟩ := guess_correct lapackEx_right (N := 1) (nx := 3) (NT := 4) (d := fun t x => ((t : ℝ) + 1) * (x + 1))
    (parts := [(0, 4)]) (by decide) (by decide) (by decide) (by decide) ⟨rfl, rfl⟩
  exact ⟨p, q, e, e', sizes_unique hd hd' hnt hnt' product_enough 0 (by decide)⟩

end EofGuess
end PyGeode
