import Verif.Props.SvdRun
import Mathlib.Data.Fin.Tuple.Sort
/-!
# C100, C126: cases that meet the hypotheses
-/
namespace PyGeode
namespace Svd
open Spec Matrix

noncomputable def flat (k : ℕ) (M : Matrix (Fin k) (Fin k) ℝ) : ℕ → ℝ := fun i =>
  if h : i / k < k ∧ i % k < k then M ⟨i / k, h.1⟩ ⟨i % k, h.2⟩ else 0

theorem table_flat {k : ℕ} (M : Matrix (Fin k) (Fin k) ℝ) : table k k (flat k M) = M := by
  ext i j
  have hj : (j : ℕ) < k := j.2
  have h1 : ((i : ℕ) * k + j) / k = i := by
    rw [mul_comm, Nat.mul_add_div (by omega), Nat.div_eq_of_lt hj, add_zero]
  have h2 : ((i : ℕ) * k + j) % k = j := by
    rw [mul_comm, Nat.mul_add_mod, Nat.mod_eq_of_lt hj]
  simp only [table, of_apply, flat, h1, h2]
  rw [dif_pos ⟨i.2, j.2⟩]

open Classical in
/-- a numpy that keeps its promises -/
noncomputable def npEx : Numpy where
  lstsq k a b := flat k ((table k k a)⁻¹ * table k k b)
  eig k a := if ∃ w, Antitone w ∧ table k k a = diagonal w then flat k 1
    else if h : ∃ P, ∃ w, Antitone w ∧ Eigenbasis (table k k a) P w then flat k h.choose else fun _ => 0

theorem eigenbasis_sorted {k : ℕ} {A P : Matrix (Fin k) (Fin k) ℝ} {w : Fin k → ℝ} (h : Eigenbasis A P w) :
    ∃ P w, Antitone w ∧ Eigenbasis A P w := by
  set σ := Tuple.sort fun i => -w i with hσ
  have hm : Monotone ((fun i => -w i) ∘ σ) := Tuple.monotone_sort _
  refine ⟨P.submatrix id σ, w ∘ σ, fun i j hij => by simpa using hm hij, ?_, ?_⟩
  · rw [Matrix.isUnit_iff_isUnit_det, Matrix.det_permute']
    refine IsUnit.mul ?_ ((Matrix.isUnit_iff_isUnit_det _).1 h.1)
    rcases Int.units_eq_one_or (Equiv.Perm.sign σ) with hs | hs <;> rw [hs] <;> simp
  · have := congrArg (fun M : Matrix (Fin k) (Fin k) ℝ => M.submatrix id σ) h.2
    ext i j
    have h1 := congrFun (congrFun this i) j
    simp only [submatrix_apply, id, mul_diagonal] at h1
    rw [mul_diagonal]
    exact h1

theorem npEx_right (k : ℕ) : npEx.Right k where
  lstsq a b h := by
    show table k k a * table k k (flat k _) = _
    rw [table_flat, ← Matrix.mul_assoc, Matrix.mul_nonsing_inv _ ((Matrix.isUnit_iff_isUnit_det _).1 h), Matrix.one_mul]
  eig a := by
    rintro ⟨P, w, h⟩
    by_cases h1 : ∃ w, Antitone w ∧ table k k a = diagonal w
    · obtain ⟨v, hv, e⟩ := h1
      refine ⟨v, hv, ?_⟩
      have : npEx.eig k a = flat k 1 := if_pos ⟨v, hv, e⟩
      rw [this, table_flat, e]
      exact ⟨isUnit_one, by rw [Matrix.mul_one, Matrix.one_mul]⟩
    · have h2 := eigenbasis_sorted h
      have : npEx.eig k a = flat k h2.choose := (if_neg h1).trans (dif_pos h2)
      obtain ⟨v, hv⟩ := h2.choose_spec
      refine ⟨v, hv.1, ?_⟩
      rw [this, table_flat]
      exact hv.2

theorem npEx_eig {k : ℕ} {a : ℕ → ℝ} {w : Fin k → ℝ} (hw : Antitone w) (h : table k k a = diagonal w) : table k k (npEx.eig k a) = 1 := by
  have : npEx.eig k a = flat k 1 := if_pos ⟨w, hw, h⟩
  rw [this, table_flat]

theorem npEx_lstsq {k : ℕ} {a b : ℕ → ℝ} {A Z : Matrix (Fin k) (Fin k) ℝ} (ha : table k k a = A) (hu : IsUnit A) (hb : table k k b = A * Z) :
    table k k (npEx.lstsq k a b) = Z := by
  show table k k (flat k _) = _
  rw [table_flat, ha, hb, ← Matrix.mul_assoc, Matrix.nonsing_inv_mul _ ((Matrix.isUnit_iff_isUnit_det _).1 hu), Matrix.one_mul]

/-- a field of two places and two times: 2 and 0, then 0 and 1 -/
def dEx : ℕ → ℕ → ℝ := fun t x => if t = x then (if t = 0 then 2 else 1) else 0

/-- two patterns: one for each place -/
def onesEx : ℕ → ℝ := fun i => if i = 0 ∨ i = 3 then 1 else 0

theorem table_onesEx : table 2 2 onesEx = 1 := by
  ext i j
  fin_cases i <;> fin_cases j <;> simp [table, onesEx]

def w4 : Fin 2 → ℝ := ![4, 1]

theorem w4_anti : StrictAnti w4 := by
  intro i j h
  fin_cases i <;> fin_cases j <;> simp_all [w4]

theorem cov_dEx : (field 2 2 dEx)ᵀ * field 2 2 dEx = diagonal w4 := by
  ext i j
  fin_cases i <;> fin_cases j <;> norm_num [field, dEx, mul_apply, Fin.sum_univ_two, w4]

theorem w4_unit : IsUnit (diagonal w4) := by
  rw [Matrix.isUnit_iff_isUnit_det, det_diagonal]
  norm_num [w4]

/-- rows that are multiples of those of the identity are normalized to it -/
theorem normalize_diag (U : ℕ → ℝ) (w : Fin 2 → ℝ) (hw : ∀ i, 0 < w i) (h : table 2 2 U = diagonal w) : Holding 2 2 (normalize 2 2 U) (pattern 2 onesEx) := by
  have hU : ∀ i j : Fin 2, U (i * 2 + j) = diagonal w i j := fun i j => congrFun (congrFun h i) j
  have u00 : U 0 = w 0 := by simpa using hU 0 0
  have u01 : U 1 = 0 := by simpa using hU 0 1
  have u10 : U 2 = 0 := by simpa using hU 1 0
  have u11 : U 3 = w 1 := by simpa using hU 1 1
  have hw0 := hw 0
  have hw1 := hw 1
  obtain ⟨c, h1, h2⟩ := normalize_correct 2 2 U
  have a0 := h2 0 (by omega) ⟨0, by omega, by norm_num [u00]; exact hw0.ne'⟩
  have a1 := h2 1 (by omega) ⟨1, by omega, by norm_num [u11]; exact hw1.ne'⟩
  have e00 := h1 0 (by omega) 0 (by omega)
  have e01 := h1 0 (by omega) 1 (by omega)
  have e10 := h1 1 (by omega) 0 (by omega)
  have e11 := h1 1 (by omega) 1 (by omega)
  norm_num [u00, u01, u10, u11, Finset.sum_range_succ] at a0 a1 e00 e01 e10 e11
  have b0 : normalize 2 2 U 0 = 1 := by
    have := a0.2.2.1
    rw [e01] at this
    have h3 := a0.2.2.2
    nlinarith
  have b1 : normalize 2 2 U 3 = 1 := by
    have := a1.2.2.1
    rw [e10] at this
    have h3 : 0 ≤ normalize 2 2 U 3 := by rw [e11]; exact (mul_pos a1.2.1 hw1).le
    nlinarith
  intro i hi j hj
  have hi' : i = 0 ∨ i = 1 := by omega
  have hj' : j = 0 ∨ j = 1 := by omega
  rcases hi' with rfl | rfl <;> rcases hj' with rfl | rfl <;> norm_num [pattern, onesEx, b0, b1, e01, e10]

theorem holding_of_eq {a b : ℕ → ℝ} {f : ℕ → ℕ → ℝ} (h : Holding 2 2 b f) (e : a = b) : Holding 2 2 a f := by rw [e]; exact h

theorem w4_pos : ∀ i, 0 < w4 i := by
  intro i
  fin_cases i <;> norm_num [w4]

theorem diag_sq : diagonal w4 * (diagonal w4)ᵀ = diagonal w4 * diagonal w4 := by rw [diagonal_transpose]

/-- the hypotheses of `eofStep_fixed`: two patterns that an iteration gives back -/
theorem eof_fixedEx (pcs : ℕ → ℝ) : Holding 2 2 (eofStep npEx 2 2 dEx [(0, 2)] (onesEx, pcs)).1 (pattern 2 onesEx) := by
  obtain ⟨w1, w2, c, e1, e2, -, -, -, Z, e3, e4⟩ := eofStep_matrices npEx 2 2 2 dEx [(0, 2)] ⟨rfl, rfl⟩ (onesEx, pcs)
  simp only [table_onesEx, cov_dEx, Matrix.one_mul, diagonal_transpose] at e1 e2 e4
  rw [npEx_eig w4_anti.antitone (npEx_lstsq e1 w4_unit e2), transpose_one, Matrix.one_mul] at e4
  exact holding_of_eq (normalize_diag Z w4 w4_pos e4) e3

example : Numpy.Right npEx 2 ∧ Following 0 [(0, 2)] 2 ∧ (∀ pcs, Holding 2 2 (eofStep npEx 2 2 dEx [(0, 2)] (onesEx, pcs)).1 (pattern 2 onesEx)) ∧
    IsUnit (table 2 2 onesEx * ((field 2 2 dEx)ᵀ * field 2 2 dEx) * (table 2 2 onesEx)ᵀ) := by
  refine ⟨npEx_right 2, ⟨rfl, rfl⟩, eof_fixedEx, ?_⟩
  rw [table_onesEx, cov_dEx, transpose_one, Matrix.one_mul, Matrix.mul_one]
  exact w4_unit

theorem close_of_holding {a b : ℕ → ℝ} (h : Holding 2 2 a (pattern 2 b)) : Close (2 * 2) b a := by
  intro i hi
  have h1 := h (i / 2) (by omega) (i % 2) (by omega)
  have e : i / 2 * 2 + i % 2 = i := by omega
  unfold pattern at h1
  rw [e] at h1
  rw [h1]
  simp

/-- the iterative method returns -/
example : ∃ r, eofIter npEx 2 0 2 2 10 dEx [(0, 2)] (onesEx, fun _ => 0) = some r := by
  unfold eofIter
  have : eofLoop npEx 2 2 2 dEx [(0, 2)] (9 + 1) (onesEx, fun _ => 0) = some (eofStep npEx 2 2 dEx [(0, 2)] (onesEx, fun _ => 0)) := by
    rw [eofLoop, if_pos (close_of_holding (eof_fixedEx _)), if_neg (by norm_num)]
  have e : (10 : ℕ) = 9 + 1 := rfl
  rw [← e] at this
  rw [show max 0 2 = 2 from rfl]
  dsimp only
  rw [this]
  exact ⟨_, rfl⟩

/-- where `SVD` stands still -/
def stateEx : State := ⟨onesEx, onesEx, fun _ => 0, fun _ => 0⟩

theorem svd_fixedEx : Holding 2 2 (svdStep npEx 2 2 2 2 1 dEx dEx stateEx).Y (pattern 2 onesEx) ∧
    Holding 2 2 (svdStep npEx 2 2 2 2 1 dEx dEx stateEx).V (pattern 2 onesEx) := by
  obtain ⟨ut, vt, xt, yt, m1, m2, c, c', e1, e2, e3, e4, e5, e6, -, -, -, -, -, -, ⟨Z, z1, z2⟩, Z', z3, z4⟩ :=
    svdStep_matrices npEx 2 2 2 2 1 le_rfl dEx dEx stateEx
  simp only [stateEx, table_onesEx, cov_dEx, Matrix.one_mul, diagonal_transpose, transpose_one, Matrix.mul_one] at e1 e2 e3 e4 z2 z4
  have l1 := npEx_lstsq e1 w4_unit e2
  have l2 := npEx_lstsq (a := xt) (b := yt) e3 w4_unit e4
  rw [l1, l2, diagonal_mul_diagonal] at e5 e6
  have ha : Antitone fun i => w4 i * w4 i := by
    intro i j h
    fin_cases i <;> fin_cases j <;> simp_all [w4] <;> norm_num
  rw [npEx_eig ha e5, transpose_one, Matrix.one_mul] at z2
  rw [npEx_eig ha e6, transpose_one, Matrix.one_mul] at z4
  exact ⟨holding_of_eq (normalize_diag Z w4 w4_pos z2) z1, holding_of_eq (normalize_diag Z' w4 w4_pos z4) z3⟩

/-- `SVD` returns -/
example : ∃ r, svd npEx 2 2 2 2 2 2 dEx dEx stateEx = some r := by
  unfold svd
  have : svdLoop npEx 2 2 2 2 2 1 dEx dEx (999 + 1) stateEx = some (svdStep npEx 2 2 2 2 1 dEx dEx stateEx) := by
    rw [svdLoop, if_pos ⟨close_of_holding svd_fixedEx.1, close_of_holding svd_fixedEx.2⟩, if_neg (by norm_num)]
  rw [if_pos ⟨le_rfl, le_rfl⟩, show max (if (2 : ℕ) = 0 then 2 * 2 + 8 else 2) 2 = 2 from rfl, show 2 / max 2 2 = 1 from rfl, this]
  exact ⟨_, rfl⟩

theorem proj_onesEx {i t : ℕ} (hi : i < 2) (ht : t < 2) : projection 2 dEx (pattern 2 onesEx i) t = if t = i then (if t = 0 then 2 else 1) else 0 := by
  have hi' : i = 0 ∨ i = 1 := by omega
  have ht' : t = 0 ∨ t = 1 := by omega
  rcases hi' with rfl | rfl <;> rcases ht' with rfl | rfl <;> norm_num [projection, pattern, onesEx, dEx, Finset.sum_range_succ]

/-- the hypotheses of `svdStep_fixed_partial` -/
example : ∃ S : (Matrix (Fin 2) (Fin 2) ℝ)ˣ,
    (∀ i j : Fin 2, S.val i j = ∑ t ∈ Finset.range 2, projection 2 dEx (pattern 2 stateEx.Y i) t * projection 2 dEx (pattern 2 stateEx.V j) t) ∧
    ∃ P w, StrictAnti w ∧ Eigenbasis (S.inv * (of fun i j : Fin 2 => ∑ x ∈ Finset.range 2,
        regression 2 dEx (projection 2 dEx (pattern 2 stateEx.Y i)) x * regression 2 dEx (projection 2 dEx (pattern 2 stateEx.Y j)) x) *
      (S.invᵀ * of fun i j : Fin 2 => ∑ x ∈ Finset.range 2,
        regression 2 dEx (projection 2 dEx (pattern 2 stateEx.V i)) x * regression 2 dEx (projection 2 dEx (pattern 2 stateEx.V j)) x)) P w := by
  obtain ⟨S, hS⟩ := w4_unit
  refine ⟨S, fun i j => ?_, 1, fun i => w4 i * w4 i, ?_, isUnit_one, ?_⟩
  · rw [hS]
    simp only [stateEx, Finset.sum_range_succ, Finset.range_zero, Finset.sum_empty]
    rw [proj_onesEx i.2 (by norm_num), proj_onesEx i.2 (by norm_num), proj_onesEx j.2 (by norm_num), proj_onesEx j.2 (by norm_num)]
    fin_cases i <;> fin_cases j <;> norm_num [w4]
  · intro i j h
    fin_cases i <;> fin_cases j <;> simp_all [w4] <;> norm_num
  · have hM : (of fun i j : Fin 2 => ∑ x ∈ Finset.range 2,
        regression 2 dEx (projection 2 dEx (pattern 2 onesEx i)) x * regression 2 dEx (projection 2 dEx (pattern 2 onesEx j)) x) =
        diagonal w4 * diagonal w4 := by
      ext i j
      simp only [of_apply, regression, Finset.sum_range_succ, Finset.range_zero, Finset.sum_empty]
      rw [proj_onesEx i.2 (by norm_num), proj_onesEx i.2 (by norm_num), proj_onesEx j.2 (by norm_num), proj_onesEx j.2 (by norm_num)]
      fin_cases i <;> fin_cases j <;> norm_num [w4, dEx]
    simp only [stateEx]
    have hSt : S.invᵀ * diagonal w4 = 1 := by
      rw [← diagonal_transpose, ← transpose_mul, ← hS, S.val_inv, transpose_one]
    have hSi : S.inv * diagonal w4 = 1 := by rw [← hS, S.inv_val]
    rw [hM, ← Matrix.mul_assoc S.inv, hSi, Matrix.one_mul, ← Matrix.mul_assoc S.invᵀ, hSt, Matrix.one_mul, Matrix.mul_one, Matrix.one_mul,
      diagonal_mul_diagonal]

end Svd
end PyGeode
