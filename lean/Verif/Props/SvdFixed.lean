import Verif.Props.Svd
import Mathlib.LinearAlgebra.Matrix.NonsingularInverse
import Mathlib.LinearAlgebra.Matrix.Charpoly.Coeff
import Mathlib.LinearAlgebra.Matrix.Charpoly.Basic
import Mathlib.Order.Fin.Basic
import Mathlib.Algebra.Polynomial.Roots
/-!
# C100, C126: where the iterations stand still
-/
namespace PyGeode
namespace Svd
open Spec Matrix

/-- patterns (rows of `E`) that an iteration of `EOF_iter` gives back are eigenvectors -/
theorem fixed_eof {k n : ℕ} (E : Matrix (Fin k) (Fin n) ℝ) (C : Matrix (Fin n) (Fin n) ℝ) (hC : Cᵀ = C) (A P : Matrix (Fin k) (Fin k) ℝ)
    (w c : Fin k → ℝ) (hu : IsUnit (E * C * Eᵀ)) (h1 : (E * C * Eᵀ) * A = (E * C) * (E * C)ᵀ) (h2 : A * P = P * diagonal w)
    (h3 : diagonal c * (Pᵀ * (E * C)) = E) : E * C = diagonal w * E := by
  obtain ⟨S, hS⟩ := hu
  set M := diagonal c * Pᵀ with hM
  have h3' : M * (E * C) = E := by rw [hM, Matrix.mul_assoc]; exact h3
  have hM1 : M * ((E * C) * (C * Eᵀ) * S.inv) = 1 := by
    rw [← Matrix.mul_assoc, ← Matrix.mul_assoc, h3', ← Matrix.mul_assoc, ← hS]
    exact S.val_inv
  set G := (E * C) * (C * Eᵀ) * S.inv with hG
  have hGM : G * M = 1 := mul_eq_one_comm.1 hM1
  have hEC : E * C = G * E := by
    calc E * C = G * M * (E * C) := by rw [hGM, Matrix.one_mul]
      _ = G * E := by rw [Matrix.mul_assoc, h3']
  have hA : A = Gᵀ := by
    have e : (E * C) * (E * C)ᵀ = (E * C * Eᵀ) * Gᵀ := by
      conv_lhs => rw [show (E * C)ᵀ = (G * E)ᵀ by rw [hEC]]
      rw [transpose_mul, Matrix.mul_assoc, Matrix.mul_assoc, Matrix.mul_assoc]
    rw [e, ← hS] at h1
    exact S.isUnit.mul_left_cancel h1
  have hMt : Mᵀ = P * diagonal c := by rw [hM, transpose_mul, transpose_transpose, diagonal_transpose]
  have hGt : Gᵀ * (P * diagonal c) = 1 := by rw [← hMt, ← transpose_mul, hM1, transpose_one]
  have hPD : P * (diagonal w * diagonal c) = 1 := by
    rw [← Matrix.mul_assoc, ← h2, hA, Matrix.mul_assoc]
    exact hGt
  have hcomm : diagonal w * (diagonal w * diagonal c) = (diagonal w * diagonal c) * diagonal w := by
    simp only [diagonal_mul_diagonal]
    congr 1
    funext i
    ring
  have hGw : Gᵀ = diagonal w := by
    calc Gᵀ = Gᵀ * (P * (diagonal w * diagonal c)) := by rw [hPD, Matrix.mul_one]
      _ = P * diagonal w * (diagonal w * diagonal c) := by rw [← Matrix.mul_assoc, ← hA, h2]
      _ = P * (diagonal w * diagonal c) * diagonal w := by rw [Matrix.mul_assoc, hcomm, ← Matrix.mul_assoc]
      _ = diagonal w := by rw [hPD, Matrix.one_mul]
  have hGw' : G = diagonal w := by
    have := congrArg transpose hGw
    rwa [transpose_transpose, diagonal_transpose] at this
  rw [hEC, hGw']

theorem diagonal_same {k : ℕ} {a b : Fin k → ℝ} (ha : Antitone a) (hb : Antitone b)
    (h : (diagonal a).charpoly = (diagonal b).charpoly) : a = b := by
  rw [charpoly_diagonal, charpoly_diagonal] at h
  have h' := congrArg Polynomial.roots h
  rw [Polynomial.roots_prod _ _ (Finset.prod_ne_zero_iff.2 fun i _ => Polynomial.X_sub_C_ne_zero _),
    Polynomial.roots_prod _ _ (Finset.prod_ne_zero_iff.2 fun i _ => Polynomial.X_sub_C_ne_zero _)] at h'
  simp only [Polynomial.roots_X_sub_C, Multiset.bind_singleton] at h'
  have h2 : (List.ofFn a).Perm (List.ofFn b) := by
    rw [← Multiset.coe_eq_coe]
    have e : ∀ f : Fin k → ℝ, ((List.ofFn f : List ℝ) : Multiset ℝ) = (Finset.univ : Finset (Fin k)).val.map f := by
      intro f
      simp [List.ofFn_eq_map, Finset.univ, Fintype.elems]
    rw [e, e, h']
  have hs : ∀ {f : Fin k → ℝ}, Antitone f → (List.ofFn f).Pairwise (· ≥ ·) := by
    intro f hf
    rw [List.pairwise_ofFn]
    exact fun i j hij => hf hij.le
  exact List.ofFn_injective (h2.eq_of_pairwise (fun x y _ _ h1 h2 => le_antisymm h2 h1) (hs ha) (hs hb))

/-- patterns that an iteration of `SVD` gives back are coupled: the covariance of the fields takes each to its partner -/
theorem fixed_svd {k n1 n2 : ℕ} (U : Matrix (Fin k) (Fin n1) ℝ) (X : Matrix (Fin k) (Fin n2) ℝ) (A : Matrix (Fin n1) (Fin n2) ℝ)
    (A1 A2 Qy Qv : Matrix (Fin k) (Fin k) ℝ) (dy dv c c' : Fin k → ℝ)
    (hu : IsUnit (U * (X * Aᵀ)ᵀ)) (h1 : (U * (X * Aᵀ)ᵀ) * A1 = (U * A) * (U * A)ᵀ) (h2 : ((X * Aᵀ) * Uᵀ) * A2 = (X * Aᵀ) * (X * Aᵀ)ᵀ)
    (h3 : A1 * A2 * Qy = Qy * diagonal dy) (h4 : A2 * A1 * Qv = Qv * diagonal dv)
    (h5 : diagonal c * (Qyᵀ * (X * Aᵀ)) = U) (h6 : diagonal c' * (Qvᵀ * (U * A)) = X)
    (hy : StrictAnti dy) (hv : Antitone dv) (hU : ∀ i, ∑ x, U i x ^ 2 = 1) (hX : ∀ i, ∑ x, X i x ^ 2 = 1) :
    ∃ g : Fin k → ℝ, X * Aᵀ = diagonal g * U ∧ U * A = diagonal g * X ∧ ∀ i, g i ^ 2 = dy i := by
  set Y := X * Aᵀ with hY
  set V := U * A with hV
  obtain ⟨S, hS⟩ := hu
  set M1 := diagonal c * Qyᵀ with hM1
  set M2 := diagonal c' * Qvᵀ with hM2
  have h5' : M1 * Y = U := by rw [hM1, Matrix.mul_assoc]; exact h5
  have h6' : M2 * V = X := by rw [hM2, Matrix.mul_assoc]; exact h6
  have hVX : V * Xᵀ = U * Yᵀ := by rw [hV, hY, transpose_mul, transpose_transpose, Matrix.mul_assoc]
  have hSt : X * Vᵀ = Y * Uᵀ := by
    rw [hV, hY, transpose_mul, ← Matrix.mul_assoc]
  have hYU : Y * Uᵀ = (S : Matrix (Fin k) (Fin k) ℝ)ᵀ := by rw [hS, transpose_mul, transpose_transpose]
  have hStu : (S : Matrix (Fin k) (Fin k) ℝ)ᵀ * S.invᵀ = 1 := by rw [← transpose_mul, S.inv_val, transpose_one]
  have e1 : M1 * (Y * Yᵀ * S.inv) = 1 := by
    rw [← Matrix.mul_assoc, ← Matrix.mul_assoc, h5', ← hS]
    exact S.val_inv
  have e2 : M2 * (V * Vᵀ * S.invᵀ) = 1 := by
    rw [← Matrix.mul_assoc, ← Matrix.mul_assoc, h6', hSt, hYU]
    exact hStu
  generalize Y * Yᵀ * S.inv = G1 at e1
  generalize V * Vᵀ * S.invᵀ = G2 at e2
  have f1 : G1 * M1 = 1 := mul_eq_one_comm.1 e1
  have f2 : G2 * M2 = 1 := mul_eq_one_comm.1 e2
  have hYG : Y = G1 * U := by rw [← h5', ← Matrix.mul_assoc, f1, Matrix.one_mul]
  have hVG : V = G2 * X := by rw [← h6', ← Matrix.mul_assoc, f2, Matrix.one_mul]
  have hA1 : A1 = G2ᵀ := by
    have e : V * Vᵀ = (U * Yᵀ) * G2ᵀ := by
      conv_lhs => rw [show Vᵀ = (G2 * X)ᵀ by rw [← hVG]]
      rw [transpose_mul, ← Matrix.mul_assoc, hVX]
    rw [e, ← hS] at h1
    exact S.isUnit.mul_left_cancel h1
  have hA2 : A2 = G1ᵀ := by
    have e : Y * Yᵀ = (Y * Uᵀ) * G1ᵀ := by
      conv_lhs => rw [show Yᵀ = (G1 * U)ᵀ by rw [← hYG]]
      rw [transpose_mul, ← Matrix.mul_assoc]
    rw [e, hYU] at h2
    have hu' : IsUnit (S : Matrix (Fin k) (Fin k) ℝ)ᵀ := ⟨⟨_, S.invᵀ, hStu, by rw [← transpose_mul, S.val_inv, transpose_one]⟩, rfl⟩
    exact hu'.mul_left_cancel h2
  have diag_comm : ∀ a b : Fin k → ℝ, diagonal a * diagonal b = diagonal b * diagonal a := by
    intro a b
    simp only [diagonal_mul_diagonal]
    congr 1
    funext i
    ring
  have hG2 : G2 = diagonal dy * M1 := by
    have t1 : M1ᵀ = Qy * diagonal c := by rw [hM1, transpose_mul, transpose_transpose, diagonal_transpose]
    have t2 : G1ᵀ * M1ᵀ = 1 := by rw [← transpose_mul, e1, transpose_one]
    have : G2ᵀ = M1ᵀ * diagonal dy := by
      calc G2ᵀ = G2ᵀ * (G1ᵀ * M1ᵀ) := by rw [t2, Matrix.mul_one]
        _ = A1 * A2 * Qy * diagonal c := by rw [t1, hA1, hA2]; simp only [Matrix.mul_assoc]
        _ = Qy * (diagonal dy * diagonal c) := by rw [h3, Matrix.mul_assoc]
        _ = M1ᵀ * diagonal dy := by rw [diag_comm, ← Matrix.mul_assoc, ← t1]
    have := congrArg transpose this
    rwa [transpose_transpose, transpose_mul, transpose_transpose, diagonal_transpose] at this
  have hG1 : G1 = diagonal dv * M2 := by
    have t1 : M2ᵀ = Qv * diagonal c' := by rw [hM2, transpose_mul, transpose_transpose, diagonal_transpose]
    have t2 : G2ᵀ * M2ᵀ = 1 := by rw [← transpose_mul, e2, transpose_one]
    have : G1ᵀ = M2ᵀ * diagonal dv := by
      calc G1ᵀ = G1ᵀ * (G2ᵀ * M2ᵀ) := by rw [t2, Matrix.mul_one]
        _ = A2 * A1 * Qv * diagonal c' := by rw [t1, hA1, hA2]; simp only [Matrix.mul_assoc]
        _ = Qv * (diagonal dv * diagonal c') := by rw [h4, Matrix.mul_assoc]
        _ = M2ᵀ * diagonal dv := by rw [diag_comm, ← Matrix.mul_assoc, ← t1]
    have := congrArg transpose this
    rwa [transpose_transpose, transpose_mul, transpose_transpose, diagonal_transpose] at this
  have p1 : G2 * G1 = diagonal dy := by rw [hG2, Matrix.mul_assoc, e1, Matrix.mul_one]
  have p2 : G1 * G2 = diagonal dv := by rw [hG1, Matrix.mul_assoc, e2, Matrix.mul_one]
  have hd : dy = dv := diagonal_same hy.antitone hv (by rw [← p1, ← p2, Matrix.charpoly_mul_comm])
  subst hd
  have hcomm : ∀ G : Matrix (Fin k) (Fin k) ℝ, G * diagonal dy = diagonal dy * G → G = diagonal fun i => G i i := by
    intro G hG
    ext i j
    by_cases hij : i = j
    · subst hij; rw [diagonal_apply_eq]
    · rw [diagonal_apply_ne _ hij]
      have := congrFun (congrFun hG i) j
      rw [mul_diagonal, diagonal_mul] at this
      have hne : dy i ≠ dy j := fun h => hij (hy.injective h)
      have h0 : (dy j - dy i) * G i j = 0 := by linarith
      rcases mul_eq_zero.1 h0 with h | h
      · exact absurd (by linarith) hne
      · exact h
  have q1 : G1 = diagonal fun i => G1 i i := hcomm G1 (by
    calc G1 * diagonal dy = G1 * (G2 * G1) := by rw [p1]
      _ = (G1 * G2) * G1 := by rw [Matrix.mul_assoc]
      _ = diagonal dy * G1 := by rw [p2])
  have q2 : G2 = diagonal fun i => G2 i i := hcomm G2 (by
    calc G2 * diagonal dy = G2 * (G1 * G2) := by rw [p2]
      _ = (G2 * G1) * G2 := by rw [Matrix.mul_assoc]
      _ = diagonal dy * G2 := by rw [p1])
  have hSii : ∀ i, G1 i i = G2 i i := by
    intro i
    have a1 : (U * Yᵀ) i i = G1 i i := by
      rw [hYG, q1, mul_apply]
      simp only [transpose_apply, diagonal_mul, diagonal_apply_eq]
      calc ∑ x, U i x * (G1 i i * U i x) = G1 i i * ∑ x, U i x ^ 2 := by
            rw [Finset.mul_sum]; exact Finset.sum_congr rfl fun x _ => by ring
        _ = G1 i i := by rw [hU, mul_one]
    have a2 : (V * Xᵀ) i i = G2 i i := by
      rw [hVG, q2, mul_apply]
      simp only [transpose_apply, diagonal_mul, diagonal_apply_eq]
      calc ∑ x, G2 i i * X i x * X i x = G2 i i * ∑ x, X i x ^ 2 := by
            rw [Finset.mul_sum]; exact Finset.sum_congr rfl fun x _ => by ring
        _ = G2 i i := by rw [hX, mul_one]
    rw [← a1, ← a2, hVX]
  refine ⟨fun i => G1 i i, by rw [← q1]; exact hYG, ?_, fun i => ?_⟩
  · rw [show (fun i => G1 i i) = fun i => G2 i i from funext hSii, ← q2]
    exact hVG
  · have := congrFun (congrFun p1 i) i
    rw [diagonal_apply_eq, q1, mul_diagonal] at this
    rw [← this, ← hSii i]
    ring

end Svd
end PyGeode
