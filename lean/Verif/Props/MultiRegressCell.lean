/-
Least squares: what `multiple_regress` computes for one output cell.
-/
import Verif.Model.MultiRegress
import Verif.Spec.MultiRegress
import Verif.Props.StatsCell
import Mathlib.Algebra.BigOperators.Ring.Finset
import Mathlib.Algebra.Order.BigOperators.Group.Finset
import Mathlib.LinearAlgebra.Matrix.ToLinearEquiv
import Mathlib.LinearAlgebra.Matrix.NonsingularInverse
import Mathlib.Tactic.Ring
import Mathlib.Tactic.Linarith

namespace PyGeode
namespace MultiRegress
open Spec

section finset
variable {ι : Type} [Fintype ι] {n : ℕ} (x : ι → Fin n → ℚ) (y : ι → ℚ)

theorem cross_zero (N : Fin n → Fin n → ℚ)
    (hN : ∀ i k, ∑ j, (∑ t, x t i * x t j) * N j k = if i = k then 1 else 0) (beta : Fin n → ℚ)
    (hb : ∀ i, beta i = ∑ j, (∑ t, x t j * y t) * N i j) (i : Fin n) :
    ∑ t, (y t - ∑ k, beta k * x t k) * x t i = 0 := by
  have h1 : ∑ k, (∑ t, x t i * x t k) * beta k = ∑ t, x t i * y t := by
    calc ∑ k, (∑ t, x t i * x t k) * beta k = ∑ k, ∑ j, (∑ t, x t j * y t) * ((∑ t, x t i * x t k) * N k j) := by
          refine Finset.sum_congr rfl fun k _ => ?_
          rw [hb k, Finset.mul_sum]
          exact Finset.sum_congr rfl fun j _ => by ring
      _ = ∑ j, (∑ t, x t j * y t) * ∑ k, (∑ t, x t i * x t k) * N k j := by
          rw [Finset.sum_comm]
          exact Finset.sum_congr rfl fun j _ => by rw [Finset.mul_sum]
      _ = ∑ j, (∑ t, x t j * y t) * (if i = j then 1 else 0) := Finset.sum_congr rfl fun j _ => by rw [hN]
      _ = ∑ t, x t i * y t := by simp
  have h2 : ∑ t, (∑ k, beta k * x t k) * x t i = ∑ k, (∑ t, x t i * x t k) * beta k := by
    calc ∑ t, (∑ k, beta k * x t k) * x t i = ∑ t, ∑ k, x t i * x t k * beta k := by
          refine Finset.sum_congr rfl fun t _ => ?_
          rw [Finset.sum_mul]
          exact Finset.sum_congr rfl fun k _ => by ring
      _ = _ := by
          rw [Finset.sum_comm]
          exact Finset.sum_congr rfl fun k _ => by rw [Finset.sum_mul]
  have h3 : ∑ t, y t * x t i = ∑ t, x t i * y t := Finset.sum_congr rfl fun t _ => by ring
  simp only [sub_mul]
  rw [Finset.sum_sub_distrib, h2, h1, h3, sub_self]

/-- moving away from the coefficients adds the squares of the change -/
theorem split_squares (beta : Fin n → ℚ) (h0 : ∀ i, ∑ t, (y t - ∑ k, beta k * x t k) * x t i = 0) (c : Fin n → ℚ) :
    ∑ t, (y t - ∑ k, c k * x t k) ^ 2 =
      ∑ t, (y t - ∑ k, beta k * x t k) ^ 2 + ∑ t, (∑ k, (beta k - c k) * x t k) ^ 2 := by
  have hc : ∑ t, (y t - ∑ k, beta k * x t k) * (∑ k, (beta k - c k) * x t k) = 0 := by
    calc ∑ t, (y t - ∑ k, beta k * x t k) * (∑ k, (beta k - c k) * x t k)
        = ∑ t, ∑ k, (beta k - c k) * ((y t - ∑ k, beta k * x t k) * x t k) := by
          refine Finset.sum_congr rfl fun t _ => ?_
          rw [Finset.mul_sum]
          exact Finset.sum_congr rfl fun k _ => by ring
      _ = ∑ k, (beta k - c k) * ∑ t, (y t - ∑ k, beta k * x t k) * x t k := by
          rw [Finset.sum_comm]
          exact Finset.sum_congr rfl fun k _ => by rw [Finset.mul_sum]
      _ = 0 := by simp [h0]
  have h1 : ∀ t, (y t - ∑ k, c k * x t k) ^ 2 = (y t - ∑ k, beta k * x t k) ^ 2 + (∑ k, (beta k - c k) * x t k) ^ 2 +
      2 * ((y t - ∑ k, beta k * x t k) * (∑ k, (beta k - c k) * x t k)) := by
    intro t
    have : ∑ k, (beta k - c k) * x t k = ∑ k, beta k * x t k - ∑ k, c k * x t k := by
      rw [← Finset.sum_sub_distrib]
      exact Finset.sum_congr rfl fun k _ => by ring
    rw [this]; ring
  simp only [h1]
  rw [Finset.sum_add_distrib, Finset.sum_add_distrib, ← Finset.mul_sum, hc]
  ring

theorem squares_eq (beta : Fin n → ℚ) (h0 : ∀ i, ∑ t, (y t - ∑ k, beta k * x t k) * x t i = 0) :
    ∑ t, (y t - ∑ k, beta k * x t k) ^ 2 = ∑ t, y t ^ 2 - ∑ i, (∑ t, x t i * y t) * beta i := by
  have h := split_squares x y beta h0 0
  have hc : ∑ t, (y t - ∑ k, beta k * x t k) * (∑ k, beta k * x t k) = 0 := by
    calc ∑ t, (y t - ∑ k, beta k * x t k) * (∑ k, beta k * x t k)
        = ∑ t, ∑ k, beta k * ((y t - ∑ k, beta k * x t k) * x t k) := by
          refine Finset.sum_congr rfl fun t _ => ?_
          rw [Finset.mul_sum]
          exact Finset.sum_congr rfl fun k _ => by ring
      _ = ∑ k, beta k * ∑ t, (y t - ∑ k, beta k * x t k) * x t k := by
          rw [Finset.sum_comm]
          exact Finset.sum_congr rfl fun k _ => by rw [Finset.mul_sum]
      _ = 0 := by simp [h0]
  have hy : ∑ i, (∑ t, x t i * y t) * beta i = ∑ t, y t * ∑ k, beta k * x t k := by
    calc ∑ i, (∑ t, x t i * y t) * beta i = ∑ i, ∑ t, y t * (beta i * x t i) := by
          refine Finset.sum_congr rfl fun i _ => ?_
          rw [Finset.sum_mul]
          exact Finset.sum_congr rfl fun t _ => by ring
      _ = _ := by
          rw [Finset.sum_comm]
          exact Finset.sum_congr rfl fun t _ => by rw [Finset.mul_sum]
  rw [hy, ← Finset.sum_sub_distrib]
  have : ∀ t, (y t - ∑ k, beta k * x t k) ^ 2 = (y t ^ 2 - y t * ∑ k, beta k * x t k) -
      (y t - ∑ k, beta k * x t k) * (∑ k, beta k * x t k) := fun t => by ring
  simp only [this]
  rw [Finset.sum_sub_distrib, hc, sub_zero]

theorem gram_quadratic (c : Fin n → ℚ) :
    ∑ t, (∑ k, c k * x t k) ^ 2 = ∑ i, c i * ∑ j, (∑ t, x t i * x t j) * c j := by
  calc ∑ t, (∑ k, c k * x t k) ^ 2 = ∑ t, ∑ i, ∑ j, c i * (x t i * x t j * c j) := by
        refine Finset.sum_congr rfl fun t _ => ?_
        rw [sq, Finset.sum_mul]
        refine Finset.sum_congr rfl fun i _ => ?_
        rw [Finset.mul_sum]
        exact Finset.sum_congr rfl fun j _ => by ring
    _ = ∑ i, ∑ j, ∑ t, c i * (x t i * x t j * c j) := by
        rw [Finset.sum_comm]
        exact Finset.sum_congr rfl fun i _ => by rw [Finset.sum_comm]
    _ = _ := by
        refine Finset.sum_congr rfl fun i _ => ?_
        rw [Finset.mul_sum]
        refine Finset.sum_congr rfl fun j _ => ?_
        rw [Finset.sum_mul, Finset.mul_sum]

/-- The matrix of products has an inverse exactly if the regressors are independent. -/
theorem gram_inverse : (∃ N : Fin n → Fin n → ℚ, ∀ i k, ∑ j, (∑ t, x t i * x t j) * N j k = if i = k then 1 else 0) ↔
    ∀ c : Fin n → ℚ, (∀ t, ∑ k, c k * x t k = 0) → ∀ i, c i = 0 := by
  set G : Matrix (Fin n) (Fin n) ℚ := Matrix.of fun i j => ∑ t, x t i * x t j with hG
  have hmul : ∀ c : Fin n → ℚ, ∀ i, G.mulVec c i = ∑ j, (∑ t, x t i * x t j) * c j := fun c i => rfl
  constructor
  · rintro ⟨N, hN⟩ c hc i
    have h1 : G * Matrix.of N = 1 := by
      ext i k
      rw [Matrix.mul_apply, Matrix.one_apply]
      exact hN i k
    have h2 : Matrix.of N * G = 1 := _root_.mul_eq_one_comm.1 h1
    have h3 : G.mulVec c = 0 := by
      ext i
      rw [hmul]
      calc ∑ j, (∑ t, x t i * x t j) * c j = ∑ t, x t i * ∑ j, c j * x t j := by
            simp only [Finset.sum_mul, Finset.mul_sum]
            rw [Finset.sum_comm]
            exact Finset.sum_congr rfl fun t _ => Finset.sum_congr rfl fun j _ => by ring
        _ = 0 := by simp [hc]
    have h4 : c = 0 := by
      calc c = (1 : Matrix (Fin n) (Fin n) ℚ).mulVec c := (Matrix.one_mulVec c).symm
        _ = 0 := by rw [← h2, ← Matrix.mulVec_mulVec, h3, Matrix.mulVec_zero]
    rw [h4]; rfl
  · intro hind
    have hdet : G.det ≠ 0 := by
      intro h
      obtain ⟨c, hc0, hc⟩ := Matrix.exists_mulVec_eq_zero_iff.2 h
      refine hc0 (funext fun i => hind c (fun t => ?_) i)
      have h1 := gram_quadratic x c
      have h2 : ∑ i, c i * ∑ j, (∑ t, x t i * x t j) * c j = 0 :=
        Finset.sum_eq_zero fun i _ => by rw [← hmul, hc]; simp
      rw [h2] at h1
      have := (Finset.sum_eq_zero_iff_of_nonneg (fun t _ => sq_nonneg (∑ k, c k * x t k))).1 h1 t (Finset.mem_univ t)
      exact pow_eq_zero_iff (two_ne_zero) |>.1 this
    refine ⟨fun i j => G⁻¹ i j, fun i k => ?_⟩
    have := congrFun (congrFun (Matrix.mul_nonsing_inv G (isUnit_iff_ne_zero.2 hdet)) i) k
    rw [Matrix.mul_apply, Matrix.one_apply] at this
    exact this

end finset

/-! ### the same for lists of points -/

theorem list_sum {α : Type} (P : List α) (f : α → ℚ) : (P.map f).sum = ∑ t : Fin P.length, f P[t] := by
  rw [← List.sum_ofFn]
  congr 1
  refine List.ext_getElem (by simp) fun i hi hi' => by simp

/-- The results for one output cell are those of the least-squares fit to the points `P`. -/
structure _root_.PyGeode.Spec.IsMultiFit {n : ℕ} (P : List ((Fin n → ℚ) × ℚ)) (dof : ℕ) (F : Fit n) : Prop where
  /-- the coefficients give the smallest sum of squares -/
  best : ∀ c, residuals P F.beta ≤ residuals P c
  /-- and no others do -/
  unique : ∀ c, residuals P c = residuals P F.beta → c = F.beta
  /-- one minus the sum of squares, as a fraction of the squared deviations of `y` from its mean -/
  r2 : F.r2 = if dev2 (P.map Prod.snd) = 0 then none else some (1 - residuals P F.beta / dev2 (P.map Prod.snd))
  /-- the mean square of the residuals -/
  se2 : dof ≠ 0 → F.se2 = some (residuals P F.beta / dof)
  /-- times the inverse of `X^T X`: the covariances of the coefficients -/
  covb : dof ≠ 0 → ∃ C : Fin n → Fin n → ℚ, (∀ i k, ∑ j, gram P i j * C j k = if i = k then 1 else 0) ∧
    ∀ i j, F.covb i j = some (residuals P F.beta / dof * C i j)
  sb2 : ∀ i, F.sb2 i = F.covb i i
  t2 : ∀ i q, F.sb2 i = some q → q ≠ 0 → F.t2 i = some (F.beta i ^ 2 / q)

/-- the number of points, or its quotient by `N_fac` -/
def _root_.PyGeode.Spec.points (N : ℕ) (fac : Option ℕ) : ℕ := fac.elim N fun f => N / f

/-- the sums for the points `P` -/
def sumsOf {n : ℕ} (P : List ((Fin n → ℚ) × ℚ)) : Sums n :=
  ⟨(P.map fun p => p.2).sum, (P.map fun p => p.2 ^ 2).sum, fun i => (P.map fun p => p.1 i * p.2).sum, gram P⟩

theorem inverse_iff {n : ℕ} {inv : (n : ℕ) → (Fin n → Fin n → ℚ) → Option (Fin n → Fin n → ℚ)} (hinv : IsInverse inv)
    (P : List ((Fin n → ℚ) × ℚ)) : (inv n (gram P)).isSome = true ↔ IndependentOn P := by
  have hx := gram_inverse (ι := Fin P.length) fun t => P[t].1
  have hg : ∀ i j, gram P i j = ∑ t : Fin P.length, P[t].1 i * P[t].1 j := fun i j => list_sum P _
  simp only [← hg] at hx
  rw [Option.isSome_iff_exists]
  constructor
  · rintro ⟨N, hN⟩ c hc
    exact hx.1 ⟨N, (hinv n _ N).1 hN⟩ c fun t => hc _ (List.getElem_mem t.2)
  · intro h
    obtain ⟨N, hN⟩ := hx.2 fun c hc => h c fun p hp => by
      obtain ⟨i, hi, rfl⟩ := List.getElem_of_mem hp
      exact hc ⟨i, hi⟩
    exact ⟨N, (hinv n _ N).2 hN⟩

theorem dev2_eq (l : List ℚ) : dev2 l = (l.map fun x => x ^ 2).sum - l.sum ^ 2 / l.length := by
  rw [Stats.dev2_eq, sq]

theorem fitCell_fits {n : ℕ} (P : List ((Fin n → ℚ) × ℚ)) (fac : Option ℕ) (hind : IndependentOn P) (N : Fin n → Fin n → ℚ)
    (hN : ∀ i k, ∑ j, gram P i j * N j k = if i = k then 1 else 0) :
    IsMultiFit P (points P.length fac) (fitCell P.length fac (sumsOf P) N) := by
  set F := fitCell P.length fac (sumsOf P) N with hF
  set x : Fin P.length → Fin n → ℚ := fun t => P[t].1 with hx
  set y : Fin P.length → ℚ := fun t => P[t].2 with hy
  have hg : ∀ i j, gram P i j = ∑ t, x t i * x t j := fun i j => list_sum P _
  have hxy : ∀ i, (sumsOf P).xy i = ∑ t, x t i * y t := fun i => list_sum P _
  have hyy : (sumsOf P).yy = ∑ t, y t ^ 2 := list_sum P _
  have hres : ∀ c, residuals P c = ∑ t, (y t - ∑ k, c k * x t k) ^ 2 := fun c => list_sum P _
  have hb : ∀ i, F.beta i = ∑ j, (∑ t, x t j * y t) * N i j := fun i => by
    show ∑ j, (sumsOf P).xy j * N i j = _
    exact Finset.sum_congr rfl fun j _ => by rw [hxy]
  have h0 := cross_zero x y N (fun i k => by simp only [← hg]; exact hN i k) F.beta hb
  have hsq : (sumsOf P).yy - ∑ i, (sumsOf P).xy i * F.beta i = residuals P F.beta := by
    rw [hres, squares_eq x y F.beta h0, hyy]
    simp only [hxy]
  have hmin : ∀ c, residuals P c = residuals P F.beta + ∑ t, (∑ k, (F.beta k - c k) * x t k) ^ 2 := by
    intro c; rw [hres, hres]; exact split_squares x y F.beta h0 c
  have hpos : ∀ c : Fin n → ℚ, 0 ≤ ∑ t, (∑ k, (F.beta k - c k) * x t k) ^ 2 := fun c => Finset.sum_nonneg fun t _ => sq_nonneg _
  have hdof : numEff P.length fac = points P.length fac := by cases fac <;> rfl
  have hcov : ∀ i j, F.covb i j = quot (residuals P F.beta * N i j) (points P.length fac) := by
    intro i j
    rw [← hsq, ← hdof]; rfl
  refine ⟨fun c => ?_, fun c hc => ?_, ?_, fun hd => ?_, fun hd => ⟨N, hN, fun i j => ?_⟩, fun i => rfl, fun i q hq hq0 => ?_⟩
  · rw [hmin c]; linarith [hpos c]
  · have h1 := hmin c
    have h2 : ∑ t, (∑ k, (F.beta k - c k) * x t k) ^ 2 = 0 := by linarith
    have h3 := (Finset.sum_eq_zero_iff_of_nonneg (fun t _ => sq_nonneg _)).1 h2
    have h4 := hind (fun k => F.beta k - c k) fun p hp => by
      obtain ⟨i, hi, rfl⟩ := List.getElem_of_mem hp
      exact pow_eq_zero_iff (two_ne_zero) |>.1 (h3 ⟨i, hi⟩ (Finset.mem_univ _))
    funext i
    have := h4 i
    linarith
  · show (quot ((sumsOf P).yy - ∑ i, (sumsOf P).xy i * F.beta i) ((sumsOf P).yy - (sumsOf P).y ^ 2 / P.length)).map _ = _
    have hdev : (sumsOf P).yy - (sumsOf P).y ^ 2 / P.length = dev2 (P.map Prod.snd) := by
      rw [dev2_eq, List.map_map, List.length_map]; rfl
    rw [hsq, hdev]
    unfold quot
    split_ifs <;> rfl
  · show quot ((sumsOf P).yy - ∑ i, (sumsOf P).xy i * F.beta i) _ = _
    rw [hsq, hdof]
    exact if_neg (by exact_mod_cast hd)
  · rw [hcov]
    unfold quot
    rw [if_neg (by exact_mod_cast hd)]
    congr 1
    ring
  · show (F.sb2 i).bind _ = _
    rw [hq]
    exact if_neg hq0

end MultiRegress
end PyGeode
