import Verif.Props.SvdFixed
import Mathlib.Analysis.Matrix.Order
import Mathlib.Algebra.Order.Star.Real
import Mathlib.Analysis.Matrix.Spectrum
/-!
# C100, C126: what the iterations give
-/
namespace PyGeode
namespace Svd
open Spec Matrix

/-- what numpy promises about matrices of `k` rows: `lstsq` solves what can be solved, `eig` (with the sorting after it) gives independent eigenvectors
with eigenvalues that do not increase, where there are any -/
structure Numpy.Right (np : Numpy) (k : ℕ) : Prop where
  lstsq : ∀ a b, IsUnit (table k k a) → table k k a * table k k (np.lstsq k a b) = table k k b
  eig : ∀ a, (∃ P w, Eigenbasis (table k k a) P w) → ∃ w, Antitone w ∧ Eigenbasis (table k k a) (table k k (np.eig k a)) w

/-- the field as a matrix -/
def field (NT NX : ℕ) (d : ℕ → ℕ → ℝ) : Matrix (Fin NT) (Fin NX) ℝ := of fun t x => d t x

theorem table_of_holding {m n : ℕ} {a : ℕ → ℝ} {f : ℕ → ℕ → ℝ} (h : Holding m n a f) : table m n a = of fun i j : Fin _ => f i j := by
  ext i j
  exact h i i.2 j j.2

theorem table_regression {k n1 n2 NT : ℕ} (d1 d2 : ℕ → ℕ → ℝ) (X : ℕ → ℝ) :
    (of fun (i : Fin k) (x : Fin n1) => regression NT d1 (projection n2 d2 fun y => X (i * n2 + y)) x) =
      table k n2 X * ((field NT n2 d2)ᵀ * field NT n1 d1) := by
  ext i x
  rw [← Matrix.mul_assoc, mul_apply]
  simp only [of_apply, regression, projection, field, table, mul_apply, transpose_apply, Finset.sum_range]
  refine Finset.sum_congr rfl fun t _ => ?_
  congr 1
  exact Finset.sum_congr rfl fun y _ => mul_comm _ _

theorem table_dot {k n : ℕ} (U V out : ℕ → ℝ) : table k k (dot k n U V out) = table k n U * (table k n V)ᵀ := by
  rw [table_of_holding (dot_correct k n U V out)]
  ext i j
  simp only [of_apply, mul_apply, transpose_apply, table, Finset.sum_range]

theorem table_transform {k n : ℕ} (P U : ℕ → ℝ) : table k n (transform k n P U) = (table k k P)ᵀ * table k n U := by
  rw [table_of_holding (transform_correct k n P U)]
  ext i j
  simp only [of_apply, mul_apply, transpose_apply, table, Finset.sum_range]

theorem list_sum_range (k : ℕ) (f : ℕ → ℝ) : ((List.range k).map f).sum = ∑ i ∈ Finset.range k, f i := by
  induction k with
  | zero => rfl
  | succ k ih => rw [List.range_succ, List.map_append, List.sum_append, ih, Finset.sum_range_succ]; simp

theorem table_matmul {k : ℕ} (a b : ℕ → ℝ) : table k k (matmul k a b) = table k k a * table k k b := by
  ext i j
  simp only [table, of_apply, mul_apply, matmul]
  have hj : (j : ℕ) < k := j.2
  have h1 : ((i : ℕ) * k + j) / k = i := by
    rw [mul_comm, Nat.mul_add_div (by omega), Nat.div_eq_of_lt hj, add_zero]
  have h2 : ((i : ℕ) * k + j) % k = j := by
    rw [mul_comm, Nat.mul_add_mod, Nat.mod_eq_of_lt hj]
  rw [h1, h2, list_sum_range, Finset.sum_range]

theorem table_normalize {k n : ℕ} (U : ℕ → ℝ) : ∃ c : Fin k → ℝ, table k n (normalize k n U) = diagonal c * table k n U ∧
    ∀ i, (∃ x, table k n (normalize k n U) i x ≠ 0) → ∑ x, table k n (normalize k n U) i x ^ 2 = 1 := by
  obtain ⟨c, h1, h2⟩ := normalize_correct k n U
  refine ⟨fun i => c i, ?_, fun i ⟨x, hx⟩ => ?_⟩
  · rw [table_of_holding h1]
    ext i j
    simp [diagonal_mul, table]
  · have hne : U (i * n + x) ≠ 0 := by
      intro h0
      apply hx
      have := h1 i i.2 x x.2
      simp only [table, of_apply]
      rw [this]
      simp only [h0, mul_zero]
    have := (h2 i i.2 ⟨x, x.2, hne⟩).2.2.1
    rw [Finset.sum_range] at this
    exact this

/-! ### symmetric matrices have eigenvectors -/

open scoped MatrixOrder ComplexOrder in
/-- `S A = W` with `S = MᵀM` invertible and `W` symmetric: `A` has an eigenbasis -/
theorem eigenbasis_of_symm {k m : ℕ} (M : Matrix (Fin m) (Fin k) ℝ) (W A : Matrix (Fin k) (Fin k) ℝ) (hW : Wᵀ = W)
    (hu : IsUnit (Mᵀ * M)) (h : (Mᵀ * M) * A = W) : ∃ P w, Eigenbasis A P w := by
  have hps : (Mᵀ * M).PosSemidef := by
    have := Matrix.posSemidef_conjTranspose_mul_self M
    rwa [conjTranspose_eq_transpose_of_trivial] at this
  obtain ⟨B, hB⟩ := CStarAlgebra.nonneg_iff_eq_star_mul_self.mp hps.nonneg
  rw [star_eq_conjTranspose, conjTranspose_eq_transpose_of_trivial] at hB
  have hBu : IsUnit B := by
    rw [Matrix.isUnit_iff_isUnit_det] at hu ⊢
    rw [hB, det_mul, det_transpose] at hu
    exact (isUnit_mul_self_iff).1 hu
  obtain ⟨b, rfl⟩ := hBu
  set R : Matrix (Fin k) (Fin k) ℝ := b.inv with hR
  have hbR : (b : Matrix (Fin k) (Fin k) ℝ) * R = 1 := b.val_inv
  have hRb : R * (b : Matrix (Fin k) (Fin k) ℝ) = 1 := b.inv_val
  have hRt : Rᵀ * (b : Matrix (Fin k) (Fin k) ℝ)ᵀ = 1 := by rw [← transpose_mul, hbR, transpose_one]
  set T := Rᵀ * W * R with hT
  have hTh : T.IsHermitian := by
    rw [Matrix.IsHermitian, conjTranspose_eq_transpose_of_trivial, hT, transpose_mul, transpose_mul, transpose_transpose, hW, Matrix.mul_assoc]
  have hTA : T = (b : Matrix (Fin k) (Fin k) ℝ) * A * R := by
    rw [hT, ← h, hB]
    calc Rᵀ * ((b : Matrix (Fin k) (Fin k) ℝ)ᵀ * b * A) * R = (Rᵀ * (b : Matrix (Fin k) (Fin k) ℝ)ᵀ) * (b * A * R) := by
          simp only [Matrix.mul_assoc]
      _ = _ := by rw [hRt, Matrix.one_mul]
  let Q : Matrix (Fin k) (Fin k) ℝ := hTh.eigenvectorUnitary
  have hQ : T * Q = Q * diagonal hTh.eigenvalues := by
    ext i j
    have := congrFun (hTh.mulVec_eigenvectorBasis j) i
    rw [mul_diagonal]
    simp only [mul_apply, mulVec, dotProduct] at this ⊢
    simpa [Q, mul_comm] using this
  have hQu : IsUnit Q := by
    refine ⟨⟨Q, star Q, ?_, ?_⟩, rfl⟩
    · exact Unitary.coe_mul_star_self _
    · exact Unitary.coe_star_mul_self _
  refine ⟨R * Q, hTh.eigenvalues, IsUnit.mul ⟨b⁻¹, rfl⟩ hQu, ?_⟩
  have hA : A = R * T * b := by
    rw [hTA]
    calc A = (R * b) * A * (R * b) := by rw [hRb, Matrix.one_mul, Matrix.mul_one]
      _ = _ := by simp only [Matrix.mul_assoc]
  calc A * (R * Q) = R * T * (b * R) * Q := by rw [hA]; simp only [Matrix.mul_assoc]
    _ = R * (T * Q) := by rw [hbR, Matrix.mul_one, Matrix.mul_assoc]
    _ = R * Q * diagonal hTh.eigenvalues := by rw [hQ, Matrix.mul_assoc]

/-! ### one field -/

/-- what an iteration of `EOF_iter` does, in matrices -/
theorem eofStep_matrices (np : Numpy) (k NX NT : ℕ) (d : ℕ → ℕ → ℝ) (parts : List (ℕ × ℕ)) (hp : Following 0 parts NT) (s : (ℕ → ℝ) × (ℕ → ℝ)) :
    let E := table k NX s.1
    let C := (field NT NX d)ᵀ * field NT NX d
    ∃ w1 w2 : ℕ → ℝ, ∃ c : Fin k → ℝ, table k k w1 = E * (E * C)ᵀ ∧ table k k w2 = (E * C) * (E * C)ᵀ ∧
      table k NX (eofStep np k NX d parts s).1 = diagonal c * ((table k k (np.eig k (np.lstsq k w1 w2)))ᵀ * (E * C)) ∧
      Holding NT k (eofStep np k NX d parts s).2 (fun t n => projection NX d (pattern NX s.1 n) t) ∧
      (∀ i, (∃ x, table k NX (eofStep np k NX d parts s).1 i x ≠ 0) → ∑ x, table k NX (eofStep np k NX d parts s).1 i x ^ 2 = 1) ∧
      ∃ Z, (eofStep np k NX d parts s).1 = normalize k NX Z ∧ table k NX Z = (table k k (np.eig k (np.lstsq k w1 w2)))ᵀ * (E * C) := by
  intro E C
  obtain ⟨-, a1, a2⟩ := pass_aux k NX NX d d s.1 parts 0 NT (fun _ => 0, s.2) hp
  set acc := parts.foldl (fun st p => buildSvds k p.2 NX NX (chunk d NX p.1) (chunk d NX p.1) s.1 (p.1 * k) st) (fun _ => 0, s.2) with hacc
  have hY : table k NX acc.1 = E * C := by
    rw [← table_regression (k := k) (NT := NT) d d s.1]
    refine table_of_holding (f := fun i x => regression NT d (projection NX d fun y => s.1 (i * NX + y)) x) fun n hn x hx => ?_
    rw [a1 n hn x hx, zero_add, Nat.Ico_zero_eq_range]; rfl
  obtain ⟨c, c1, c2⟩ := table_normalize (k := k) (n := NX) (transform k NX
    (np.eig k (np.lstsq k (dot k NX s.1 acc.1 fun _ => 0) (dot k NX acc.1 acc.1 fun _ => 0))) acc.1)
  refine ⟨dot k NX s.1 acc.1 fun _ => 0, dot k NX acc.1 acc.1 fun _ => 0, c, by rw [table_dot, hY], by rw [table_dot, hY], ?_, ?_, c2,
    transform k NX (np.eig k (np.lstsq k (dot k NX s.1 acc.1 fun _ => 0) (dot k NX acc.1 acc.1 fun _ => 0))) acc.1, rfl,
    by rw [table_transform, hY]⟩
  · exact c1.trans (by rw [table_transform, hY])
  · intro t ht n hn
    exact (a2 t n hn).trans (if_pos ⟨by omega, ht⟩)

/-- C100: patterns of the iterative method that an iteration gives back are eigenvectors of the covariance of the field, those with larger
eigenvalues first. -/
theorem eofStep_fixed (np : Numpy) (k NX NT : ℕ) (hnp : np.Right k) (d : ℕ → ℕ → ℝ) (parts : List (ℕ × ℕ)) (hp : Following 0 parts NT)
    (s : (ℕ → ℝ) × (ℕ → ℝ)) (hfix : Holding k NX (eofStep np k NX d parts s).1 (pattern NX s.1))
    (hind : IsUnit (table k NX s.1 * ((field NT NX d)ᵀ * field NT NX d) * (table k NX s.1)ᵀ)) :
    ∃ w : Fin k → ℝ, Antitone w ∧ ∀ n : Fin k, ∀ x < NX,
      regression NT d (projection NX d (pattern NX s.1 n)) x = w n * pattern NX s.1 n x := by
  obtain ⟨w1, w2, c, e1, e2, e3, -, -, -⟩ := eofStep_matrices np k NX NT d parts hp s
  set E := table k NX s.1 with hE
  set D := field NT NX d with hD
  have hfix' : table k NX (eofStep np k NX d parts s).1 = E := by
    rw [table_of_holding hfix]; rfl
  have hS : E * (E * (Dᵀ * D))ᵀ = E * (Dᵀ * D) * Eᵀ := by
    rw [transpose_mul, transpose_mul, transpose_transpose, Matrix.mul_assoc E]
  have hS2 : E * (Dᵀ * D) * Eᵀ = (D * Eᵀ)ᵀ * (D * Eᵀ) := by
    rw [transpose_mul, transpose_transpose]; simp only [Matrix.mul_assoc]
  have hl := hnp.lstsq w1 w2 (by rw [e1, hS]; exact hind)
  rw [e1, e2, hS] at hl
  obtain ⟨w, hw, hP⟩ := hnp.eig (np.lstsq k w1 w2) (eigenbasis_of_symm (D * Eᵀ) ((E * (Dᵀ * D)) * (E * (Dᵀ * D))ᵀ) _
    (by rw [transpose_mul, transpose_transpose]) (by rw [← hS2]; exact hind) (by rw [← hS2]; exact hl))
  have := fixed_eof E (Dᵀ * D) (by rw [transpose_mul, transpose_transpose]) _ _ w c hind hl hP.2 (by rw [← e3, hfix'])
  refine ⟨w, hw, fun n x hx => ?_⟩
  have h1 := congrFun (congrFun this n) ⟨x, hx⟩
  rw [hE, hD, ← table_regression (k := k) (NT := NT) d d s.1, diagonal_mul] at h1
  exact h1

theorem eofLoop_last (np : Numpy) (num k NX : ℕ) (d : ℕ → ℕ → ℝ) (parts : List (ℕ × ℕ)) :
    ∀ (fuel : ℕ) (s r : (ℕ → ℝ) × (ℕ → ℝ)), eofLoop np num k NX d parts fuel s = some r →
      ∃ q, r = eofStep np k NX d parts q ∧ Close (num * NX) q.1 r.1
  | 0, s, r, h => by simp [eofLoop] at h
  | fuel + 1, s, r, h => by
    rw [eofLoop] at h
    by_cases h1 : Close (num * NX) s.1 (eofStep np k NX d parts s).1
    · rw [if_pos h1] at h
      by_cases h2 : fuel = 0
      · rw [if_pos h2] at h; exact absurd h (by simp)
      · rw [if_neg h2, Option.some.injEq] at h
        subst h
        exact ⟨s, rfl, h1⟩
    · rw [if_neg h1] at h
      exact eofLoop_last np num k NX d parts fuel _ r h

/-- sizes of a pattern and of one close to it -/
theorem projection_close (n : ℕ) (d : ℕ → ℕ → ℝ) (e f : ℕ → ℝ) (h : ∀ x < n, |e x - f x| ≤ 1 / 100000 * |f x|) (t : ℕ) :
    |projection n d e t - projection n d f t| ≤ 1 / 100000 * ∑ x ∈ Finset.range n, |d t x| * |f x| := by
  unfold projection
  rw [← Finset.sum_sub_distrib, Finset.mul_sum]
  refine (Finset.abs_sum_le_sum_abs _ _).trans (Finset.sum_le_sum fun x hx => ?_)
  rw [← mul_sub, abs_mul]
  calc |d t x| * |e x - f x| ≤ |d t x| * (1 / 100000 * |f x|) := mul_le_mul_of_nonneg_left (h x (Finset.mem_range.1 hx)) (abs_nonneg _)
    _ = 1 / 100000 * (|d t x| * |f x|) := by ring

/-- C100: what `EOF_iter` returns, if it returns. The returned series times the returned sizes are the sizes in the field, at all times, of patterns `old` that agree with the
returned ones to 1e-5 of each element; each series has size 1; and if the patterns do not change any more, they are eigenvectors of the covariance of
the field, with the squares of the sizes as eigenvalues. -/
theorem eofIter_result (np : Numpy) (num subspace NX NT maxIter : ℕ) (d : ℕ → ℕ → ℝ) (parts : List (ℕ × ℕ)) (hp : Following 0 parts NT)
    (seed : (ℕ → ℝ) × (ℕ → ℝ)) {eof : ℕ → ℕ → ℝ} {eig : ℕ → ℝ} {pc : ℕ → ℕ → ℝ}
    (h : eofIter np num subspace NX NT maxIter d parts seed = some (eof, eig, pc)) :
    ∃ old : ℕ → ℕ → ℝ,
      (∀ i < num, ∀ x < NX, |old i x - eof i x| ≤ 1 / 100000 * |eof i x|) ∧
      (∀ i < num, eig i ^ 2 = ∑ t ∈ Finset.range NT, projection NX d (old i) t ^ 2) ∧
      (∀ i < num, eig i ≠ 0 → (∀ t < NT, eig i * pc i t = projection NX d (old i) t) ∧ ∑ t ∈ Finset.range NT, pc i t ^ 2 = 1) ∧
      (∀ i < num, eig i ≠ 0 → ∀ t < NT, |eig i * pc i t - projection NX d (eof i) t| ≤ 1 / 100000 * ∑ x ∈ Finset.range NX, |d t x| * |eof i x|) ∧
      (∀ i < num, (∃ x < NX, eof i x ≠ 0) → ∑ x ∈ Finset.range NX, eof i x ^ 2 = 1) ∧
      (np.Right (max subspace num) → (∀ i < max subspace num, ∀ x < NX, old i x = eof i x) →
        IsUnit (of (fun i j : Fin (max subspace num) => ∑ t ∈ Finset.range NT, projection NX d (old i) t * projection NX d (old j) t)) →
        (∀ i < num, ∀ x < NX, regression NT d (projection NX d (eof i)) x = eig i ^ 2 * eof i x) ∧
        ∀ i j, i ≤ j → j < num → eig j ≤ eig i) := by
  unfold eofIter at h
  set k := max subspace num with hk
  have hkn : num ≤ k := le_max_right _ _
  simp only [Option.map_eq_some_iff, Prod.mk.injEq] at h
  obtain ⟨r, hr, he1, he2, he3⟩ := h
  obtain ⟨q, hq, hclose⟩ := eofLoop_last np num k NX d parts maxIter seed r hr
  obtain ⟨w1, w2, c, -, -, -, hpc, hunit, -⟩ := eofStep_matrices np k NX NT d parts hp q
  rw [← hq] at hpc hunit
  have heq : ∀ i < num, eig i = Real.sqrt (∑ t ∈ Finset.range NT, projection NX d (pattern NX q.1 i) t ^ 2) := by
    intro i hi
    rw [← he2]
    simp only
    rw [list_sum_range]
    congr 1
    refine Finset.sum_congr rfl fun t ht => ?_
    rw [hpc t (Finset.mem_range.1 ht) i (by omega)]
  have hsq : ∀ i < num, eig i ^ 2 = ∑ t ∈ Finset.range NT, projection NX d (pattern NX q.1 i) t ^ 2 := by
    intro i hi
    rw [heq i hi, Real.sq_sqrt (Finset.sum_nonneg fun t _ => sq_nonneg _)]
  have hcl : ∀ i < num, ∀ x < NX, |pattern NX q.1 i x - eof i x| ≤ 1 / 100000 * |eof i x| := by
    intro i hi x hx
    rw [← he1]
    refine hclose (i * NX + x) ?_
    calc i * NX + x < (i + 1) * NX := by rw [add_mul, one_mul]; omega
      _ ≤ num * NX := Nat.mul_le_mul_right _ hi
  have hpr : ∀ i < num, eig i ≠ 0 → ∀ t < NT, eig i * pc i t = projection NX d (pattern NX q.1 i) t := by
    intro i hi h0 t ht
    have : pc i t = 1 / eig i * r.2 (t * k + i) := by rw [← he3, ← he2]
    rw [this, hpc t ht i (by omega)]
    field_simp
  refine ⟨pattern NX q.1, hcl, hsq, fun i hi h0 => ⟨hpr i hi h0, ?_⟩, fun i hi h0 t ht => ?_, fun i hi ⟨x, hx, hne⟩ => ?_, fun hnp hfix hind => ?_⟩
  · have : eig i ^ 2 * ∑ t ∈ Finset.range NT, pc i t ^ 2 = eig i ^ 2 * 1 := by
      rw [Finset.mul_sum, mul_one]
      refine Eq.trans ?_ (hsq i hi).symm
      refine Finset.sum_congr rfl fun t ht => ?_
      rw [← hpr i hi h0 t (Finset.mem_range.1 ht), mul_pow]
    exact mul_left_cancel₀ (pow_ne_zero 2 h0) this
  · rw [hpr i hi h0 t ht]
    exact projection_close NX d _ _ (hcl i hi) t
  · have := hunit ⟨i, by omega⟩ ⟨⟨x, hx⟩, by rw [← he1] at hne; exact hne⟩
    rw [Finset.sum_range]
    rw [← he1]
    exact this
  · have hfix' : Holding k NX (eofStep np k NX d parts q).1 (pattern NX q.1) := by
      intro i hi x hx
      rw [hfix i hi x hx, ← he1, ← hq]
    have hSm : table k NX q.1 * ((field NT NX d)ᵀ * field NT NX d) * (table k NX q.1)ᵀ =
        of fun i j : Fin k => ∑ t ∈ Finset.range NT, projection NX d (pattern NX q.1 i) t * projection NX d (pattern NX q.1 j) t := by
      have e : table k NX q.1 * ((field NT NX d)ᵀ * field NT NX d) * (table k NX q.1)ᵀ =
          (field NT NX d * (table k NX q.1)ᵀ)ᵀ * (field NT NX d * (table k NX q.1)ᵀ) := by
        rw [transpose_mul, transpose_transpose]; simp only [Matrix.mul_assoc]
      rw [e]
      ext i j
      simp only [mul_apply, transpose_apply, of_apply, Finset.sum_range, projection, pattern, field, table]
    obtain ⟨w, hw, hw2⟩ := eofStep_fixed np k NX NT hnp d parts hp q hfix' (by rw [hSm]; exact hind)
    have hreg : ∀ i < num, ∀ f g : ℕ → ℝ, (∀ x < NX, f x = g x) → projection NX d f = projection NX d g := by
      intro i _ f g hfg
      funext t
      exact Finset.sum_congr rfl fun x hx => by rw [hfg x (Finset.mem_range.1 hx)]
    have hww : ∀ i (hi : i < num), eig i ≠ 0 ∨ True → w ⟨i, by omega⟩ * ∑ x ∈ Finset.range NX, eof i x ^ 2 = eig i ^ 2 := by
      intro i hi _
      rw [hsq i hi, Finset.mul_sum]
      have : ∀ t, projection NX d (pattern NX q.1 i) t ^ 2 = ∑ x ∈ Finset.range NX,
          projection NX d (pattern NX q.1 i) t * d t x * pattern NX q.1 i x := by
        intro t
        rw [sq]
        conv_lhs => rw [show projection NX d (pattern NX q.1 i) t * projection NX d (pattern NX q.1 i) t =
          projection NX d (pattern NX q.1 i) t * ∑ x ∈ Finset.range NX, d t x * pattern NX q.1 i x from rfl]
        rw [Finset.mul_sum]
        exact Finset.sum_congr rfl fun x _ => by ring
      simp only [this]
      rw [Finset.sum_comm]
      refine Finset.sum_congr rfl fun x hx => ?_
      have hx := Finset.mem_range.1 hx
      have := hw2 ⟨i, by omega⟩ x hx
      rw [← Finset.sum_mul]
      unfold regression at this
      simp only at this
      rw [this, hfix i (by omega) x hx]
      ring
    have hone : ∀ i < num, ∑ x ∈ Finset.range NX, eof i x ^ 2 = 1 := by
      intro i hi
      by_cases hz : ∃ x < NX, eof i x ≠ 0
      · obtain ⟨x, hx, hne⟩ := hz
        have := hunit ⟨i, by omega⟩ ⟨⟨x, hx⟩, by rw [← he1] at hne; exact hne⟩
        rw [Finset.sum_range]
        rw [← he1]
        exact this
      · exfalso
        have hz' : ∀ x < NX, pattern NX q.1 i x = 0 := fun x hx => by
          rw [hfix i (by omega) x hx]
          by_contra hh
          exact hz ⟨x, hx, hh⟩
        have hp0 : ∀ t, projection NX d (pattern NX q.1 i) t = 0 := fun t =>
          Finset.sum_eq_zero fun x hx => by rw [hz' x (Finset.mem_range.1 hx), mul_zero]
        rw [Matrix.isUnit_iff_isUnit_det, Matrix.det_eq_zero_of_row_eq_zero ⟨i, by omega⟩ (fun j => by
          simp only [of_apply, hp0, zero_mul, Finset.sum_const_zero])] at hind
        exact not_isUnit_zero hind
    have hwe : ∀ i (hi : i < num), w ⟨i, by omega⟩ = eig i ^ 2 := by
      intro i hi
      have := hww i hi (Or.inr trivial)
      rwa [hone i hi, mul_one] at this
    refine ⟨fun i hi x hx => ?_, fun i j hij hj => ?_⟩
    · rw [← hreg i hi _ _ (hfix i (by omega)), hw2 ⟨i, by omega⟩ x hx, hwe i hi, hfix i (by omega) x hx]
    · have h1 := hw (show (⟨i, by omega⟩ : Fin k) ≤ ⟨j, by omega⟩ from hij)
      rw [hwe i (by omega), hwe j hj] at h1
      have h2 : ∀ i < num, 0 ≤ eig i := fun i hi => by rw [heq i hi]; exact Real.sqrt_nonneg _
      exact (sq_le_sq₀ (h2 j hj) (h2 i (by omega))).1 h1

/-! ### two fields -/

/-- what an iteration of `SVD` does, in matrices -/
theorem svdStep_matrices (np : Numpy) (k NX1 NX2 NT dt : ℕ) (hdt : 1 ≤ dt) (d1 d2 : ℕ → ℕ → ℝ) (s : State) :
    let U := table k NX1 s.Y
    let X := table k NX2 s.V
    let A := (field NT NX1 d1)ᵀ * field NT NX2 d2
    let s' := svdStep np k NX1 NX2 NT dt d1 d2 s
    ∃ ut vt xt yt m1 m2 : ℕ → ℝ, ∃ c c' : Fin k → ℝ, table k k ut = U * (X * Aᵀ)ᵀ ∧ table k k vt = (U * A) * (U * A)ᵀ ∧
      table k k xt = (X * Aᵀ) * Uᵀ ∧ table k k yt = (X * Aᵀ) * (X * Aᵀ)ᵀ ∧
      table k k m1 = table k k (np.lstsq k ut vt) * table k k (np.lstsq k xt yt) ∧
      table k k m2 = table k k (np.lstsq k xt yt) * table k k (np.lstsq k ut vt) ∧
      table k NX1 s'.Y = diagonal c * ((table k k (np.eig k m1))ᵀ * (X * Aᵀ)) ∧
      table k NX2 s'.V = diagonal c' * ((table k k (np.eig k m2))ᵀ * (U * A)) ∧
      Holding NT k s'.pcs1 (fun t n => projection NX1 d1 (pattern NX1 s.Y n) t) ∧
      Holding NT k s'.pcs2 (fun t n => projection NX2 d2 (pattern NX2 s.V n) t) ∧
      (∀ i, (∃ x, table k NX1 s'.Y i x ≠ 0) → ∑ x, table k NX1 s'.Y i x ^ 2 = 1) ∧
      (∀ i, (∃ x, table k NX2 s'.V i x ≠ 0) → ∑ x, table k NX2 s'.V i x ^ 2 = 1) ∧
      (∃ Z, s'.Y = normalize k NX1 Z ∧ table k NX1 Z = (table k k (np.eig k m1))ᵀ * (X * Aᵀ)) ∧
      ∃ Z, s'.V = normalize k NX2 Z ∧ table k NX2 Z = (table k k (np.eig k m2))ᵀ * (U * A) := by
  intro U X A s'
  obtain ⟨a1, a2, a3, a4⟩ := pass_correct k NX1 NX2 NT d1 d2 (chunks NT dt) (chunks_following NT dt hdt) s.Y s.V s.pcs1 s.pcs2
  set acc := accumulate k NX1 NX2 d1 d2 (chunks NT dt) s.Y s.V s.pcs1 s.pcs2 with hacc
  have hY : table k NX1 acc.1.1 = X * Aᵀ := by
    rw [transpose_mul, transpose_transpose, ← table_regression (k := k) (NT := NT) d1 d2 s.V]
    exact table_of_holding (f := fun i x => regression NT d1 (projection NX2 d2 fun y => s.V (i * NX2 + y)) x) a1
  have hV : table k NX2 acc.2.1 = U * A := by
    rw [← table_regression (k := k) (NT := NT) d2 d1 s.Y]
    exact table_of_holding (f := fun i x => regression NT d2 (projection NX1 d1 fun y => s.Y (i * NX1 + y)) x) a2
  let ut := dot k NX1 s.Y acc.1.1 fun _ => 0
  let vt := dot k NX2 acc.2.1 acc.2.1 fun _ => 0
  let xt := dot k NX1 acc.1.1 s.Y fun _ => 0
  let yt := dot k NX1 acc.1.1 acc.1.1 fun _ => 0
  let m1 := matmul k (np.lstsq k ut vt) (np.lstsq k xt yt)
  let m2 := matmul k (np.lstsq k xt yt) (np.lstsq k ut vt)
  obtain ⟨c, c1, c2⟩ := table_normalize (k := k) (n := NX1) (transform k NX1 (np.eig k m1) acc.1.1)
  obtain ⟨c', c3, c4⟩ := table_normalize (k := k) (n := NX2) (transform k NX2 (np.eig k m2) acc.2.1)
  refine ⟨ut, vt, xt, yt, m1, m2, c, c', ?_, ?_, ?_, ?_, table_matmul _ _, table_matmul _ _, ?_, ?_, a4, a3, c2, c4,
    ⟨_, rfl, by rw [table_transform, hY]⟩, _, rfl, by rw [table_transform, hV]⟩
  · rw [table_dot, hY]
  · rw [table_dot, hV]
  · rw [table_dot, hY]
  · rw [table_dot, hY]
  · exact c1.trans (by rw [table_transform, hY])
  · exact c3.trans (by rw [table_transform, hV])

theorem svdLoop_last (np : Numpy) (num k NX1 NX2 NT dt : ℕ) (d1 d2 : ℕ → ℕ → ℝ) :
    ∀ (fuel : ℕ) (s r : State), svdLoop np num k NX1 NX2 NT dt d1 d2 fuel s = some r →
      ∃ q, r = svdStep np k NX1 NX2 NT dt d1 d2 q ∧ Close (num * NX1) q.Y r.Y ∧ Close (num * NX2) q.V r.V
  | 0, s, r, h => by simp [svdLoop] at h
  | fuel + 1, s, r, h => by
    rw [svdLoop] at h
    by_cases h1 : Close (num * NX1) s.Y (svdStep np k NX1 NX2 NT dt d1 d2 s).Y ∧ Close (num * NX2) s.V (svdStep np k NX1 NX2 NT dt d1 d2 s).V
    · rw [if_pos h1] at h
      by_cases h2 : fuel = 0
      · rw [if_pos h2] at h; exact absurd h (by simp)
      · rw [if_neg h2, Option.some.injEq] at h
        subst h
        exact ⟨s, rfl, h1⟩
    · rw [if_neg h1] at h
      exact svdLoop_last np num k NX1 NX2 NT dt d1 d2 fuel _ r h

/-- C126: patterns that an iteration of `SVD` gives back are coupled: each is, up to a factor, the covariance of its field with the size of its
partner in the other field, with the same factor both ways, and the pairs come in the order of the sizes of these factors. -/
theorem svdStep_fixed_partial (np : Numpy) (k NX1 NX2 NT dt : ℕ) (hdt : 1 ≤ dt) (hnp : np.Right k) (d1 d2 : ℕ → ℕ → ℝ) (s : State)
    (hY : Holding k NX1 (svdStep np k NX1 NX2 NT dt d1 d2 s).Y (pattern NX1 s.Y))
    (hV : Holding k NX2 (svdStep np k NX1 NX2 NT dt d1 d2 s).V (pattern NX2 s.V))
    (S : (Matrix (Fin k) (Fin k) ℝ)ˣ)
    (hS : ∀ i j : Fin k, S.val i j = ∑ t ∈ Finset.range NT, projection NX1 d1 (pattern NX1 s.Y i) t * projection NX2 d2 (pattern NX2 s.V j) t)
    (hdist : ∃ P w, StrictAnti w ∧ Eigenbasis (S.inv * (of fun i j : Fin k => ∑ x ∈ Finset.range NX2,
        regression NT d2 (projection NX1 d1 (pattern NX1 s.Y i)) x * regression NT d2 (projection NX1 d1 (pattern NX1 s.Y j)) x) *
      (S.invᵀ * of fun i j : Fin k => ∑ x ∈ Finset.range NX1,
        regression NT d1 (projection NX2 d2 (pattern NX2 s.V i)) x * regression NT d1 (projection NX2 d2 (pattern NX2 s.V j)) x)) P w) :
    ∃ g : Fin k → ℝ, (StrictAnti fun n => |g n|) ∧ ∀ n : Fin k,
      (∀ x < NX1, regression NT d1 (projection NX2 d2 (pattern NX2 s.V n)) x = g n * pattern NX1 s.Y n x) ∧
      (∀ x < NX2, regression NT d2 (projection NX1 d1 (pattern NX1 s.Y n)) x = g n * pattern NX2 s.V n x) ∧
      ∑ t ∈ Finset.range NT, projection NX1 d1 (pattern NX1 s.Y n) t * projection NX2 d2 (pattern NX2 s.V n) t = g n := by
  obtain ⟨ut, vt, xt, yt, m1, m2, c, c', e1, e2, e3, e4, e5, e6, e7, e8, -, -, u1, u2, -, -⟩ := svdStep_matrices np k NX1 NX2 NT dt hdt d1 d2 s
  set U := table k NX1 s.Y with hUdef
  set X := table k NX2 s.V with hXdef
  set D1 := field NT NX1 d1 with hD1
  set D2 := field NT NX2 d2 with hD2
  have hA : (D1ᵀ * D2)ᵀ = D2ᵀ * D1 := by rw [transpose_mul, transpose_transpose]
  have hY' : table k NX1 (svdStep np k NX1 NX2 NT dt d1 d2 s).Y = U := by rw [table_of_holding hY]; rfl
  have hV' : table k NX2 (svdStep np k NX1 NX2 NT dt d1 d2 s).V = X := by rw [table_of_holding hV]; rfl
  rw [hY'] at e7 u1
  rw [hV'] at e8 u2
  have rY : X * (D1ᵀ * D2)ᵀ = of fun (i : Fin k) (x : Fin NX1) => regression NT d1 (projection NX2 d2 (pattern NX2 s.V i)) x := by
    rw [hA]; exact (table_regression (k := k) (NT := NT) d1 d2 s.V).symm
  have rV : U * (D1ᵀ * D2) = of fun (i : Fin k) (x : Fin NX2) => regression NT d2 (projection NX1 d1 (pattern NX1 s.Y i)) x :=
    (table_regression (k := k) (NT := NT) d2 d1 s.Y).symm
  have hSm : S.val = U * (X * (D1ᵀ * D2)ᵀ)ᵀ := by
    have : U * (X * (D1ᵀ * D2)ᵀ)ᵀ = (D1 * Uᵀ)ᵀ * (D2 * Xᵀ) := by
      rw [hA, transpose_mul, transpose_mul, transpose_mul, transpose_transpose, transpose_transpose]; simp only [Matrix.mul_assoc]
    rw [this]
    ext i j
    rw [hS]
    simp only [mul_apply, transpose_apply, Finset.sum_range, projection, pattern, field, table, of_apply, hUdef, hXdef, hD1, hD2]
  have hSt : S.valᵀ = X * (D1ᵀ * D2)ᵀ * Uᵀ := by rw [hSm, transpose_mul, transpose_transpose]
  have hu1 : IsUnit (table k k ut) := by rw [e1, ← hSm]; exact S.isUnit
  have hStu : S.valᵀ * S.invᵀ = 1 := by rw [← transpose_mul, S.inv_val, transpose_one]
  have hStu' : S.invᵀ * S.valᵀ = 1 := by rw [← transpose_mul, S.val_inv, transpose_one]
  have hu2 : IsUnit (table k k xt) := by rw [e3, ← hSt]; exact ⟨⟨_, _, hStu, hStu'⟩, rfl⟩
  have l1 := hnp.lstsq ut vt hu1
  have l2 := hnp.lstsq xt yt hu2
  rw [e1, e2, ← hSm] at l1
  rw [e3, e4, ← hSt] at l2
  have g1 : table k k (np.lstsq k ut vt) = S.inv * ((U * (D1ᵀ * D2)) * (U * (D1ᵀ * D2))ᵀ) := by
    rw [← l1, ← Matrix.mul_assoc, S.inv_val, Matrix.one_mul]
  have g2 : table k k (np.lstsq k xt yt) = S.invᵀ * ((X * (D1ᵀ * D2)ᵀ) * (X * (D1ᵀ * D2)ᵀ)ᵀ) := by
    rw [← l2, ← Matrix.mul_assoc, hStu', Matrix.one_mul]
  have q1 : (of fun i j : Fin k => ∑ x ∈ Finset.range NX2,
        regression NT d2 (projection NX1 d1 (pattern NX1 s.Y i)) x * regression NT d2 (projection NX1 d1 (pattern NX1 s.Y j)) x) =
      (U * (D1ᵀ * D2)) * (U * (D1ᵀ * D2))ᵀ := by
    rw [rV]
    ext i j
    simp only [mul_apply, transpose_apply, of_apply, Finset.sum_range]
  have q2 : (of fun i j : Fin k => ∑ x ∈ Finset.range NX1,
        regression NT d1 (projection NX2 d2 (pattern NX2 s.V i)) x * regression NT d1 (projection NX2 d2 (pattern NX2 s.V j)) x) =
      (X * (D1ᵀ * D2)ᵀ) * (X * (D1ᵀ * D2)ᵀ)ᵀ := by
    rw [rY]
    ext i j
    simp only [mul_apply, transpose_apply, of_apply, Finset.sum_range]
  rw [q1, q2, ← g1, ← g2] at hdist
  set A1 := table k k (np.lstsq k ut vt)
  set A2 := table k k (np.lstsq k xt yt)
  obtain ⟨P, w, hw, hP⟩ := hdist
  obtain ⟨dy, hdy, hPy⟩ := hnp.eig m1 ⟨P, w, by rw [e5]; exact hP⟩
  rw [e5] at hPy
  -- the eigenvalues numpy gives are those that are distinct
  have hchar : ∀ {M R : Matrix (Fin k) (Fin k) ℝ} {v : Fin k → ℝ}, Eigenbasis M R v → M.charpoly = (diagonal v).charpoly := by
    rintro M R v ⟨⟨r, rfl⟩, h⟩
    have : M = r.val * diagonal v * r.inv := by
      rw [← h, Matrix.mul_assoc, r.val_inv, Matrix.mul_one]
    rw [this, Matrix.mul_assoc, Matrix.charpoly_mul_comm, Matrix.mul_assoc, r.inv_val, Matrix.mul_one]
  have hdw : dy = w := diagonal_same hdy hw.antitone (by rw [← hchar hPy, ← hchar hP])
  subst hdw
  -- the other product has eigenvectors as well
  have hA2u : IsUnit A2 := by
    have : (diagonal c * (table k k (np.eig k m1))ᵀ) * ((X * (D1ᵀ * D2)ᵀ) * (X * (D1ᵀ * D2)ᵀ)ᵀ) = S.val := by
      rw [← Matrix.mul_assoc, Matrix.mul_assoc (diagonal c), ← e7, hSm]
    have h1 : IsUnit ((X * (D1ᵀ * D2)ᵀ) * (X * (D1ᵀ * D2)ᵀ)ᵀ) := by
      have := S.isUnit.map (Matrix.detMonoidHom (n := Fin k) (R := ℝ))
      rw [← ‹_ = S.val›] at this
      rw [Matrix.isUnit_iff_isUnit_det]
      simp only [coe_detMonoidHom] at this
      rw [det_mul] at this
      exact isUnit_of_mul_isUnit_right this
    rw [g2]
    exact IsUnit.mul ⟨⟨_, _, hStu', hStu⟩, rfl⟩ h1
  obtain ⟨dv, hdv, hPv⟩ := hnp.eig m2 (by
    rw [e6]
    refine ⟨A2 * table k k (np.eig k m1), dy, hA2u.mul hPy.1, ?_⟩
    calc A2 * A1 * (A2 * table k k (np.eig k m1)) = A2 * (A1 * A2 * table k k (np.eig k m1)) := by simp only [Matrix.mul_assoc]
      _ = _ := by rw [hPy.2, Matrix.mul_assoc])
  rw [e6] at hPv
  have hrowU : ∀ i, ∃ x, U i x ≠ 0 := by
    intro i
    by_contra hz
    simp only [not_exists, not_not] at hz
    have := S.isUnit
    rw [Matrix.isUnit_iff_isUnit_det, Matrix.det_eq_zero_of_row_eq_zero i (fun j => by
      rw [hSm, mul_apply]; exact Finset.sum_eq_zero fun x _ => by rw [hz x, zero_mul])] at this
    exact not_isUnit_zero this
  have hrowX : ∀ i, ∃ x, X i x ≠ 0 := by
    intro i
    by_contra hz
    simp only [not_exists, not_not] at hz
    have := S.isUnit
    rw [Matrix.isUnit_iff_isUnit_det, Matrix.det_eq_zero_of_column_eq_zero i (fun j => by
      rw [hSm, mul_apply]
      refine Finset.sum_eq_zero fun x _ => ?_
      rw [transpose_apply, mul_apply, Finset.sum_eq_zero fun y _ => by rw [hz y, zero_mul], mul_zero])] at this
    exact not_isUnit_zero this
  obtain ⟨g, f1, f2, f3⟩ := fixed_svd U X (D1ᵀ * D2) A1 A2 _ _ dy dv c c' (by rw [← hSm]; exact S.isUnit) (by rw [← hSm]; exact l1)
    (by rw [← hSt]; exact l2) hPy.2 hPv.2 e7.symm e8.symm hw hdv (fun i => u1 i (hrowU i)) (fun i => u2 i (hrowX i))
  refine ⟨g, fun i j hij => ?_, fun n => ⟨fun x hx => ?_, fun x hx => ?_, ?_⟩⟩
  · have := hw hij
    rw [← f3, ← f3] at this
    exact (sq_lt_sq.1 this)
  · rw [rY] at f1
    have := congrFun (congrFun f1 n) ⟨x, hx⟩
    rw [diagonal_mul] at this
    exact this
  · rw [rV] at f2
    have := congrFun (congrFun f2 n) ⟨x, hx⟩
    rw [diagonal_mul] at this
    exact this
  · rw [← hS n n, hSm, f1, mul_apply]
    simp only [transpose_apply, diagonal_mul]
    calc ∑ x, U n x * (g n * U n x) = g n * ∑ x, U n x ^ 2 := by
          rw [Finset.mul_sum]; exact Finset.sum_congr rfl fun x _ => by ring
      _ = g n := by rw [u1 n (hrowU n), mul_one]

/-- C126: what `SVD` returns, if it returns: see the parts. -/
theorem svd_result (np : Numpy) (num subspace NX1 NX2 NT limit : ℕ) (h1 : 1 ≤ NX1) (h2 : 1 ≤ NX2) (d1 d2 : ℕ → ℕ → ℝ) (seed : State) {r : State}
    (h : svd np num subspace NX1 NX2 NT limit d1 d2 seed = some r) :
    let k := max (if subspace = 0 then 2 * num + 8 else subspace) num
    ∃ q : State, ∃ sgn : ℕ → ℝ, (∀ n < num, sgn n = 1 ∨ sgn n = -1) ∧
      -- the series are the sizes of patterns that agree with those returned to 1e-5 of each element
      (∀ n < num, ∀ x < NX1, |pattern NX1 q.Y n x - pattern NX1 r.Y n x| ≤ 1 / 100000 * |pattern NX1 r.Y n x|) ∧
      (∀ n < num, ∀ x < NX2, |sgn n * pattern NX2 q.V n x - pattern NX2 r.V n x| ≤ 1 / 100000 * |pattern NX2 r.V n x|) ∧
      (∀ n < num, ∀ t < NT, r.pcs1 (t * k + n) = projection NX1 d1 (pattern NX1 q.Y n) t) ∧
      (∀ n < num, ∀ t < NT, r.pcs2 (t * k + n) = projection NX2 d2 (fun x => sgn n * pattern NX2 q.V n x) t) ∧
      (∀ n < num, ∀ t < NT, |r.pcs1 (t * k + n) - projection NX1 d1 (pattern NX1 r.Y n) t| ≤
        1 / 100000 * ∑ x ∈ Finset.range NX1, |d1 t x| * |pattern NX1 r.Y n x|) ∧
      (∀ n < num, ∀ t < NT, |r.pcs2 (t * k + n) - projection NX2 d2 (pattern NX2 r.V n) t| ≤
        1 / 100000 * ∑ x ∈ Finset.range NX2, |d2 t x| * |pattern NX2 r.V n x|) ∧
      -- no pair of series has a negative covariance
      (∀ n < num, 0 ≤ ∑ t ∈ Finset.range NT, r.pcs1 (t * k + n) * r.pcs2 (t * k + n)) ∧
      -- the patterns have size 1
      (∀ n < num, (∃ x < NX1, pattern NX1 r.Y n x ≠ 0) → ∑ x ∈ Finset.range NX1, pattern NX1 r.Y n x ^ 2 = 1) ∧
      (∀ n < num, (∃ x < NX2, pattern NX2 r.V n x ≠ 0) → ∑ x ∈ Finset.range NX2, pattern NX2 r.V n x ^ 2 = 1) ∧
      -- the last iteration started from `q`
      r.Y = (svdStep np k NX1 NX2 NT (limit / max NX1 NX2) d1 d2 q).Y ∧
      (∀ n < num, ∀ x < NX2, pattern NX2 r.V n x = sgn n * pattern NX2 (svdStep np k NX1 NX2 NT (limit / max NX1 NX2) d1 d2 q).V n x) := by
  intro k
  unfold svd at h
  have hkn : num ≤ k := le_max_right _ _
  by_cases hl : NX1 ≤ limit ∧ NX2 ≤ limit
  swap
  · rw [if_neg hl] at h; exact absurd h (by simp)
  rw [if_pos hl, Option.map_eq_some_iff] at h
  obtain ⟨s, hs, hr⟩ := h
  obtain ⟨q, hq, c1, c2⟩ := svdLoop_last np num k NX1 NX2 NT (limit / max NX1 NX2) d1 d2 1000 seed s hs
  have hdt : 1 ≤ limit / max NX1 NX2 := by
    rw [Nat.one_le_div_iff (by omega)]
    exact max_le hl.1 hl.2
  obtain ⟨_, _, _, _, _, _, _, _, -, -, -, -, -, -, -, -, p1, p2, u1, u2, -, -⟩ := svdStep_matrices np k NX1 NX2 NT _ hdt d1 d2 q
  rw [← hq] at p1 p2 u1 u2
  obtain ⟨sgn, f1, f2, f3⟩ := fixcov_correct k NT NX2 s.pcs1 s.pcs2 s.V
  have hY : r.Y = s.Y := by rw [← hr]
  have hp1 : r.pcs1 = s.pcs1 := by rw [← hr]
  have hp2 : r.pcs2 = (fixcov k NT NX2 s.pcs1 s.pcs2 s.V).1 := by rw [← hr]
  have hV : r.V = (fixcov k NT NX2 s.pcs1 s.pcs2 s.V).2 := by rw [← hr]
  have hlt : ∀ {N n x}, n < num → x < N → n * N + x < num * N := by
    intro N n x hn hx
    calc n * N + x < (n + 1) * N := by rw [add_mul, one_mul]; omega
      _ ≤ num * N := Nat.mul_le_mul_right _ hn
  have habs : ∀ n < num, |sgn n| = 1 := by
    intro n hn
    rcases (f1 n (by omega)).1 with h | h <;> rw [h] <;> simp
  have hVs : ∀ n < num, ∀ x < NX2, pattern NX2 r.V n x = sgn n * pattern NX2 s.V n x := by
    intro n hn x hx
    unfold pattern
    rw [hV]
    exact f3 n (by omega) x hx
  have hc1 : ∀ n < num, ∀ x < NX1, |pattern NX1 q.Y n x - pattern NX1 r.Y n x| ≤ 1 / 100000 * |pattern NX1 r.Y n x| := by
    intro n hn x hx
    rw [hY]
    exact c1 _ (hlt hn hx)
  have hc2 : ∀ n < num, ∀ x < NX2, |sgn n * pattern NX2 q.V n x - pattern NX2 r.V n x| ≤ 1 / 100000 * |pattern NX2 r.V n x| := by
    intro n hn x hx
    rw [hVs n hn x hx, ← mul_sub, abs_mul, abs_mul, habs n hn, one_mul, one_mul]
    exact c2 _ (hlt hn hx)
  have hq1 : ∀ n < num, ∀ t < NT, r.pcs1 (t * k + n) = projection NX1 d1 (pattern NX1 q.Y n) t := by
    intro n hn t ht
    rw [hp1]
    exact p1 t ht n (by omega)
  have hq2 : ∀ n < num, ∀ t < NT, r.pcs2 (t * k + n) = projection NX2 d2 (fun x => sgn n * pattern NX2 q.V n x) t := by
    intro n hn t ht
    have e2 : s.pcs2 (t * k + n) = projection NX2 d2 (pattern NX2 q.V n) t := p2 t ht n (by omega)
    have e3 : r.pcs2 (t * k + n) = sgn n * s.pcs2 (t * k + n) := by rw [hp2]; exact f2 t ht n (by omega)
    rw [e3, e2]
    unfold projection
    rw [Finset.mul_sum]
    exact Finset.sum_congr rfl fun x _ => by ring
  refine ⟨q, sgn, fun n hn => (f1 n (by omega)).1, hc1, hc2, hq1, hq2, fun n hn t ht => ?_, fun n hn t ht => ?_, fun n hn => ?_,
    fun n hn ⟨x, hx, hne⟩ => ?_, fun n hn ⟨x, hx, hne⟩ => ?_, by rw [hY, hq], fun n hn x hx => by rw [hVs n hn x hx, hq]⟩
  · rw [hq1 n hn t ht]
    exact projection_close NX1 d1 _ _ (hc1 n hn) t
  · rw [hq2 n hn t ht]
    exact projection_close NX2 d2 _ _ (hc2 n hn) t
  · rw [hp1, hp2]
    exact (f1 n (by omega)).2.2
  · have := u1 ⟨n, by omega⟩ ⟨⟨x, hx⟩, by rw [hY] at hne; exact hne⟩
    rw [Finset.sum_range, hY]
    exact this
  · have hne' : pattern NX2 s.V n x ≠ 0 := by
      intro h0
      rw [hVs n hn x hx, h0, mul_zero] at hne
      exact hne rfl
    have := u2 ⟨n, by omega⟩ ⟨⟨x, hx⟩, hne'⟩
    rw [← this, Finset.sum_range]
    refine Finset.sum_congr rfl fun x _ => ?_
    rw [hVs n hn x x.2, mul_pow, ← sq_abs (sgn n), habs n hn, one_pow, one_mul]
    rfl

end Svd
end PyGeode
