import Verif.Spec.EofGuess
import Verif.Props.SvdRun
/-!
# C127: the one-pass estimate of EOFs
-/
namespace PyGeode
namespace EofGuess
open Spec Matrix
open Svd (cfor assign chunk scatter scatter2 flat_inj row_write rows_write cfor_sum cfor_congr cfor_succ cfor_zero table_of_holding)

/-! ### the functions on flat arrays -/

theorem dot_correct (ni nj nk : ℕ) (X Y Z : ℕ → ℝ) :
    Holding nk ni (dot ni nj nk X Y Z) fun k i => ∑ j ∈ Finset.range nj, X (i * nj + j) * Y (k * nj + j) := by
  intro k hk i hi
  have e : dot ni nj nk X Y Z = cfor ni (fun i Z => cfor nk (fun k Z =>
      assign Z (k * ni + i) (∑ j ∈ Finset.range nj, X (i * nj + j) * Y (k * nj + j))) Z) Z := by
    unfold dot
    refine cfor_congr _ (fun n _ s => cfor_congr _ (fun t _ s => ?_) s) Z
    rw [cfor_sum, zero_add]
  rw [e]
  exact (scatter2 ni nk (fun i k => k * ni + i) (fun i hi j hj i' hi' j' hj' he => by
    have := flat_inj hi hi' he
    exact ⟨this.2, this.1⟩) _ Z).1 i hi k hk

theorem table_dot {ni nj nk : ℕ} (X Y Z : ℕ → ℝ) : table nk ni (dot ni nj nk X Y Z) = table nk nj Y * (table ni nj X)ᵀ := by
  rw [table_of_holding (dot_correct ni nj nk X Y Z)]
  ext i j
  simp only [of_apply, mul_apply, transpose_apply, table, Finset.sum_range]
  exact Finset.sum_congr rfl fun x _ => mul_comm _ _

theorem transform_correct (nx M N : ℕ) (X A Y : ℕ → ℝ) :
    Holding N nx (transform nx M N X A Y) fun j x => ∑ i ∈ Finset.range M, X (i * nx + x) * A (j * M + i) := by
  intro j hj x hx
  have e : transform nx M N X A Y = cfor nx (fun x Y => cfor N (fun j Y =>
      assign Y (j * nx + x) (∑ i ∈ Finset.range M, X (i * nx + x) * A (j * M + i))) Y) Y := by
    unfold transform
    refine cfor_congr _ (fun n _ s => cfor_congr _ (fun t _ s => ?_) s) Y
    rw [cfor_sum, zero_add]
  rw [e]
  exact (scatter2 nx N (fun x j => j * nx + x) (fun i hi j hj i' hi' j' hj' he => by
    have := flat_inj hi hi' he
    exact ⟨this.2, this.1⟩) _ Y).1 x hx j hj

theorem table_transform {nx M N : ℕ} (X A Y : ℕ → ℝ) : table N nx (transform nx M N X A Y) = table N M A * table M nx X := by
  rw [table_of_holding (transform_correct nx M N X A Y)]
  ext i j
  simp only [of_apply, mul_apply, table, Finset.sum_range]
  exact Finset.sum_congr rfl fun x _ => mul_comm _ _

theorem scale_row (nx e : ℕ) (A : ℕ → ℝ) (k : ℝ) (i x : ℕ) (hx : x < nx) :
    scale nx A (e * nx) k (i * nx + x) = if i = e then A (i * nx + x) * k else A (i * nx + x) :=
  row_write nx e (fun _ v => v * k) A i x hx

theorem diagscale_correct (nx N : ℕ) (A d : ℕ → ℝ) : Holding N nx (diagscale nx N A d) fun i x => A (i * nx + x) * d i := by
  intro i hi x hx
  unfold diagscale
  rw [rows_write N nx _ (fun e r x => r x * d e) ?_ ?_ A i x hx, if_pos hi]
  · intro e he U i x hx
    rw [scale_row nx e U (d e) i x hx]
    split_ifs with h
    · subst h; rfl
    · rfl
  · intro e r r' h x hx
    rw [h x hx]

/-- what `diagunscale` multiplies by -/
noncomputable def unscale (g : ℝ) : ℝ := if g ≠ 0 then 1 / g else 1

theorem diagunscale_correct (nx N : ℕ) (A d : ℕ → ℝ) : Holding N nx (diagunscale nx N A d) fun i x => A (i * nx + x) * unscale (d i) := by
  intro i hi x hx
  unfold diagunscale
  rw [rows_write N nx _ (fun e r x => r x * unscale (d e)) ?_ ?_ A i x hx, if_pos hi]
  · intro e he U i x hx
    unfold unscale
    by_cases h0 : d e ≠ 0
    · rw [if_pos h0, scale_row nx e U (1 / d e) i x hx]
      split_ifs with h
      · subst h; rfl
      · rfl
    · rw [if_neg h0]
      split_ifs with h
      · subst h; rw [mul_one]
      · rfl
  · intro e r r' h x hx
    rw [h x hx]

theorem table_diagunscale {nx N : ℕ} (A d : ℕ → ℝ) : table N nx (diagunscale nx N A d) = diagonal (fun i : Fin N => unscale (d i)) * table N nx A := by
  rw [table_of_holding (diagunscale_correct nx N A d)]
  ext i j
  simp [table, diagonal_mul, mul_comm]

theorem memcpy_in (dst : ℕ → ℝ) (o : ℕ) (src : ℕ → ℝ) (p n i : ℕ) (hi : i < n) : memcpy dst o src p n (o + i) = src (p + i) :=
  (scatter n (fun i => o + i) (fun i _ j _ h => by simpa using h) (fun i _ => src (p + i)) dst).1 i hi

theorem memcpy_out (dst : ℕ → ℝ) (o : ℕ) (src : ℕ → ℝ) (p n j : ℕ) (hj : j < o ∨ o + n ≤ j) : memcpy dst o src p n j = dst j :=
  (scatter n (fun i => o + i) (fun i _ j _ h => by simpa using h) (fun i _ => src (p + i)) dst).2 j (by intro i hi; omega)

/-- copying rows one after the other -/
theorem memcpy_rows (N n : ℕ) (src : ℕ → ℝ) (p : ℕ → ℕ) (a : ℕ → ℝ) :
    Holding N n (cfor N (fun i a => memcpy a (i * n) src (p i) n) a) fun i x => src (p i + x) := by
  intro i hi x hx
  rw [rows_write N n _ (fun e _ x => src (p e + x)) ?_ ?_ a i x hx, if_pos hi]
  · intro e he U i x hx
    split_ifs with h
    · subst h; exact memcpy_in _ _ _ _ _ _ hx
    · refine memcpy_out _ _ _ _ _ _ ?_
      rcases Nat.lt_or_gt_of_ne h with h | h
      · left
        calc i * n + x < (i + 1) * n := by rw [add_mul, one_mul]; omega
          _ ≤ e * n := Nat.mul_le_mul_right _ h
      · right
        calc e * n + n = (e + 1) * n := by rw [add_mul, one_mul]
          _ ≤ i * n := Nat.mul_le_mul_right _ h
          _ ≤ i * n + x := by omega
  · intros; rfl

/-! ### the decomposition of a matrix -/

/-- `A = Vᵀ diag(g) U` with orthonormal `U` and `V` -/
structure IsSvd {N nx : ℕ} (A U : Matrix (Fin N) (Fin nx) ℝ) (V : Matrix (Fin N) (Fin N) ℝ) (g : Fin N → ℝ) : Prop where
  vvt : V * Vᵀ = 1
  vtv : Vᵀ * V = 1
  eq : A = Vᵀ * diagonal g * U
  uut : U * Uᵀ = diagonal fun i => if g i ≠ 0 then 1 else 0
  uat : U * Aᵀ = diagonal g * V
  nonneg : ∀ i, 0 ≤ g i
  anti : Antitone g
  total : ∑ i, g i ^ 2 = ∑ i, ∑ x, A i x ^ 2
  gone : ∀ i, g i = 0 → ∀ x, U i x = 0

theorem svd_correct {lapack : Dsyev} (hl : lapack.Right) (nx N : ℕ) (A : ℕ → ℝ) :
    IsSvd (table N nx A) (table N nx (svd lapack nx N A).1) (table N N (svd lapack nx N A).2.2) (fun i => (svd lapack nx N A).2.1 i) := by
  set Am := table N nx A with hAm
  set C := dot N nx N A A fun _ => 0 with hC
  have hCm : table N N C = Am * Amᵀ := table_dot A A _
  obtain ⟨o1, o2, o3⟩ := hl N C (by rw [hCm, transpose_mul, transpose_transpose])
  set R := table N N (lapack N C).1 with hR
  set w := fun i : Fin N => (lapack N C).2 i with hw
  have hVdef : (svd lapack nx N A).2.2 = cfor N (fun i V => memcpy V (i * N) (lapack N C).1 ((N - 1 - i) * N) N) fun _ => 0 := rfl
  have hgdef : (svd lapack nx N A).2.1 = cfor N (fun i eig => assign eig i (Real.sqrt ((lapack N C).2 (N - 1 - i)))) fun _ => 0 := rfl
  have hV : table N N (svd lapack nx N A).2.2 = R.submatrix Fin.rev id := by
    rw [hVdef, table_of_holding (memcpy_rows N N (lapack N C).1 (fun i => (N - 1 - i) * N) fun _ => 0)]
    ext i j
    simp only [of_apply, submatrix_apply, id, hR, table, Fin.val_rev]
    rw [show N - 1 - (i : ℕ) = N - (i + 1) by omega]
  have hg : ∀ i : Fin N, (svd lapack nx N A).2.1 i = Real.sqrt (w (Fin.rev i)) := by
    intro i
    rw [hgdef]
    refine ((scatter N (fun i => i) (fun i _ j _ h => h) (fun i _ => Real.sqrt ((lapack N C).2 (N - 1 - i))) fun _ => 0).1 i i.2).trans ?_
    simp only [hw, Fin.val_rev]
    rw [show N - 1 - (i : ℕ) = N - (i + 1) by omega]
  set V := R.submatrix Fin.rev id with hVV
  have vvt : V * Vᵀ = 1 := by
    ext i j
    have := congrFun (congrFun o1 (Fin.rev i)) (Fin.rev j)
    rw [one_apply] at this ⊢
    rw [show (V * Vᵀ) i j = (R * Rᵀ) (Fin.rev i) (Fin.rev j) from rfl, this]
    simp [Fin.rev_inj]
  have vtv : Vᵀ * V = 1 := mul_eq_one_comm.1 vvt
  set e : Fin N → ℝ := fun i => w (Fin.rev i) with he
  have hd : V * (Am * Amᵀ) * Vᵀ = diagonal e := by
    rw [← hCm]
    ext i j
    have := congrFun (congrFun o2 (Fin.rev i)) (Fin.rev j)
    rw [diagonal_apply] at this ⊢
    rw [show (V * table N N C * Vᵀ) i j = (R * table N N C * Rᵀ) (Fin.rev i) (Fin.rev j) from rfl, this]
    simp [Fin.rev_inj, he]
  set W := V * Am with hW
  have hWW : W * Wᵀ = diagonal e := by rw [← hd, hW, transpose_mul]; simp only [Matrix.mul_assoc]
  have hee : ∀ i, e i = ∑ x, W i x ^ 2 := by
    intro i
    have := congrFun (congrFun hWW i) i
    rw [diagonal_apply_eq, mul_apply] at this
    rw [← this]
    exact Finset.sum_congr rfl fun x _ => by rw [transpose_apply, sq]
  have he0 : ∀ i, 0 ≤ e i := fun i => by rw [hee]; exact Finset.sum_nonneg fun x _ => sq_nonneg _
  set g : Fin N → ℝ := fun i => (svd lapack nx N A).2.1 i with hgg
  have hge : ∀ i, g i ^ 2 = e i := fun i => by simp only [hgg]; rw [hg, Real.sq_sqrt (he0 i)]
  have hg0 : ∀ i, 0 ≤ g i := fun i => by simp only [hgg]; rw [hg]; exact Real.sqrt_nonneg _
  have hzero : ∀ i, g i = 0 → ∀ x, W i x = 0 := by
    intro i h x
    have h1 : ∑ x, W i x ^ 2 = 0 := by rw [← hee, ← hge, h]; simp
    have := (Finset.sum_eq_zero_iff_of_nonneg (fun x _ => sq_nonneg (W i x))).1 h1 x (Finset.mem_univ x)
    exact pow_eq_zero_iff (two_ne_zero) |>.1 this
  set U := table N nx (svd lapack nx N A).1 with hU
  have hUW : U = diagonal (fun i => unscale (g i)) * W := by
    rw [hU, show (svd lapack nx N A).1 = diagunscale nx N (transform nx N N A (svd lapack nx N A).2.2 fun _ => 0) (svd lapack nx N A).2.1 from rfl,
      table_diagunscale, table_transform, hV]
  have hgU : diagonal g * U = W := by
    ext i x
    rw [hUW, diagonal_mul, diagonal_mul]
    by_cases h : g i = 0
    · rw [h, hzero i h x]; simp
    · rw [unscale, if_pos h]; field_simp
  rw [hV]
  refine ⟨vvt, vtv, ?_, ?_, ?_, hg0, ?_, ?_, fun i h x => ?_⟩
  · rw [Matrix.mul_assoc, hgU, hW, ← Matrix.mul_assoc, vtv, Matrix.one_mul]
  · rw [hUW, transpose_mul, diagonal_transpose]
    calc diagonal (fun i => unscale (g i)) * W * (Wᵀ * diagonal fun i => unscale (g i))
        = diagonal (fun i => unscale (g i)) * (W * Wᵀ) * diagonal fun i => unscale (g i) := by simp only [Matrix.mul_assoc]
      _ = _ := by
        rw [hWW, diagonal_mul_diagonal, diagonal_mul_diagonal]
        congr 1
        funext i
        rw [← hge]
        by_cases h : g i = 0
        · simp [h]
        · rw [unscale, if_pos h, if_pos h]; field_simp
  · have h1 : V * (Am * Amᵀ) = diagonal e * V := by
      rw [← hd, Matrix.mul_assoc _ Vᵀ V, vtv, Matrix.mul_one]
    rw [hUW, Matrix.mul_assoc, hW, Matrix.mul_assoc V, h1, ← Matrix.mul_assoc, diagonal_mul_diagonal]
    congr 2
    funext i
    rw [← hge]
    by_cases h : g i = 0
    · simp [h]
    · rw [unscale, if_pos h]; field_simp
  · intro i j hij
    simp only [hgg]
    rw [hg, hg]
    refine Real.sqrt_le_sqrt ?_
    exact o3 _ _ (by rw [Fin.val_rev, Fin.val_rev]; have : (i : ℕ) ≤ j := hij; omega) (Fin.rev i).2
  · calc ∑ i, g i ^ 2 = ∑ i, e i := Finset.sum_congr rfl fun i _ => hge i
      _ = (V * (Am * Amᵀ) * Vᵀ).trace := by rw [hd, trace_diagonal]
      _ = (Am * Amᵀ).trace := by rw [trace_mul_comm, ← Matrix.mul_assoc, vtv, Matrix.one_mul]
      _ = _ := by
        rw [trace]
        refine Finset.sum_congr rfl fun i _ => ?_
        rw [diag_apply, mul_apply]
        exact Finset.sum_congr rfl fun x _ => by rw [transpose_apply, sq]
  · rw [hUW, diagonal_mul, hzero i h x, mul_zero]

/-! ### merging two decompositions -/

section matrices
variable {N N2 n1 n2 nx : ℕ}

/-- the matrix form of `Orthonormal`, without the order of the sizes -/
structure Ortho {n : ℕ} (E : Matrix (Fin N) (Fin nx) ℝ) (w : Fin N → ℝ) (P : Matrix (Fin N) (Fin n) ℝ) : Prop where
  eet : E * Eᵀ = diagonal fun i => if w i ≠ 0 then 1 else 0
  wpp : diagonal w * (P * Pᵀ) * diagonal w = diagonal w * diagonal w

theorem Ortho.gram {n : ℕ} {E : Matrix (Fin N) (Fin nx) ℝ} {w : Fin N → ℝ} {P : Matrix (Fin N) (Fin n) ℝ} (h : Ortho E w P) :
    (Pᵀ * diagonal w * E)ᵀ * (Pᵀ * diagonal w * E) = (diagonal w * E)ᵀ * (diagonal w * E) := by
  simp only [transpose_mul, transpose_transpose, diagonal_transpose]
  calc Eᵀ * (diagonal w * P) * (Pᵀ * diagonal w * E) = Eᵀ * (diagonal w * (P * Pᵀ) * diagonal w) * E := by simp only [Matrix.mul_assoc]
    _ = _ := by rw [h.wpp]; simp only [Matrix.mul_assoc]

/-- merging, before patterns are left out -/
theorem merge_matrices {E1 E2 : Matrix (Fin N) (Fin nx) ℝ} {w1 w2 : Fin N → ℝ} {P1 : Matrix (Fin N) (Fin n1) ℝ} {P2 : Matrix (Fin N) (Fin n2) ℝ}
    (h1 : Ortho E1 w1 P1) (h2 : Ortho E2 w2 P2) {Z U : Matrix (Fin N2) (Fin nx) ℝ} {V : Matrix (Fin N2) (Fin N2) ℝ} {g : Fin N2 → ℝ} (hs : IsSvd Z U V g)
    (hz : Zᵀ * Z = (diagonal w1 * E1)ᵀ * (diagonal w1 * E1) + (diagonal w2 * E2)ᵀ * (diagonal w2 * E2))
    (hr1 : ∃ S : Matrix (Fin N) (Fin N2) ℝ, diagonal w1 * E1 = S * Z) (hr2 : ∃ S : Matrix (Fin N) (Fin N2) ℝ, diagonal w2 * E2 = S * Z) :
    let D1 := P1ᵀ * diagonal w1 * E1
    let D2 := P2ᵀ * diagonal w2 * E2
    let u := diagonal fun i => unscale (g i)
    (u * (U * D1ᵀ))ᵀ * diagonal g * U = D1 ∧ (u * (U * D2ᵀ))ᵀ * diagonal g * U = D2 ∧
      (u * (U * D1ᵀ)) * (u * (U * D1ᵀ))ᵀ + (u * (U * D2ᵀ)) * (u * (U * D2ᵀ))ᵀ = diagonal fun i => if g i ≠ 0 then 1 else 0 := by
  intro D1 D2 u
  have hgu : ∀ i, unscale (g i) * g i = if g i ≠ 0 then 1 else 0 := by
    intro i
    unfold unscale
    by_cases h : g i = 0
    · simp [h]
    · rw [if_pos h, if_pos h]; field_simp
  have hJU : diagonal (fun i => if g i ≠ 0 then (1 : ℝ) else 0) * U = U := by
    ext i x
    rw [diagonal_mul]
    by_cases h : g i = 0
    · rw [hs.gone i h x, mul_zero]
    · rw [if_pos h, one_mul]
  have hZU : Z * Uᵀ * U = Z := by
    have : Z * Uᵀ = Vᵀ * diagonal g := by
      have := congrArg transpose hs.uat
      rwa [transpose_mul, transpose_transpose, transpose_mul, diagonal_transpose] at this
    rw [this]; exact hs.eq.symm
  have key : ∀ {n : ℕ} {E : Matrix (Fin N) (Fin nx) ℝ} {w : Fin N → ℝ} {P : Matrix (Fin N) (Fin n) ℝ},
      (∃ S : Matrix (Fin N) (Fin N2) ℝ, diagonal w * E = S * Z) → (u * (U * (Pᵀ * diagonal w * E)ᵀ))ᵀ * diagonal g * U = Pᵀ * diagonal w * E := by
    rintro n E w P ⟨S, hS⟩
    have hD : (Pᵀ * diagonal w * E) * Uᵀ * U = Pᵀ * diagonal w * E := by
      rw [Matrix.mul_assoc Pᵀ, hS]
      calc Pᵀ * (S * Z) * Uᵀ * U = Pᵀ * (S * (Z * Uᵀ * U)) := by simp only [Matrix.mul_assoc]
        _ = _ := by rw [hZU]
    rw [transpose_mul, transpose_mul, transpose_transpose, diagonal_transpose]
    calc (Pᵀ * diagonal w * E) * Uᵀ * (diagonal fun i => unscale (g i)) * diagonal g * U
        = (Pᵀ * diagonal w * E) * Uᵀ * ((diagonal fun i => unscale (g i)) * diagonal g * U) := by simp only [Matrix.mul_assoc]
      _ = (Pᵀ * diagonal w * E) * Uᵀ * U := by
        rw [diagonal_mul_diagonal, show (fun i => unscale (g i) * g i) = fun i => if g i ≠ 0 then (1 : ℝ) else 0 from funext hgu, hJU]
      _ = _ := hD
  refine ⟨key hr1, key hr2, ?_⟩
  have hDD : D1ᵀ * D1 + D2ᵀ * D2 = Zᵀ * Z := by rw [hz, h1.gram, h2.gram]
  have hUZ : U * (Zᵀ * Z) * Uᵀ = diagonal g * diagonal g := by
    have : Z * Uᵀ = Vᵀ * diagonal g := by
      have := congrArg transpose hs.uat
      rwa [transpose_mul, transpose_transpose, transpose_mul, diagonal_transpose] at this
    calc U * (Zᵀ * Z) * Uᵀ = (U * Zᵀ) * (Z * Uᵀ) := by simp only [Matrix.mul_assoc]
      _ = diagonal g * (V * Vᵀ) * diagonal g := by rw [hs.uat, this]; simp only [Matrix.mul_assoc]
      _ = _ := by rw [hs.vvt, Matrix.mul_one]
  have hut : uᵀ = u := diagonal_transpose _
  calc (u * (U * D1ᵀ)) * (u * (U * D1ᵀ))ᵀ + (u * (U * D2ᵀ)) * (u * (U * D2ᵀ))ᵀ
      = u * (U * (D1ᵀ * D1 + D2ᵀ * D2) * Uᵀ) * u := by
        simp only [transpose_mul, transpose_transpose, hut, Matrix.mul_add, Matrix.add_mul, Matrix.mul_assoc]
    _ = _ := by
      rw [hDD, hUZ]
      simp only [u, diagonal_mul_diagonal]
      congr 1
      funext i
      rw [← mul_assoc, hgu]
      by_cases h : g i = 0
      · simp [h]
      · rw [if_pos h, one_mul, mul_comm, hgu, if_pos h]

end matrices

/-! ### merging two pieces -/

theorem ortho_of {N nx : ℕ} {p : Piece} (h : Orthonormal N nx p) : Ortho (table N nx p.eof) (fun i => p.eig i) (table N p.nt p.pc) := by
  constructor
  · ext i j
    rw [mul_apply, diagonal_apply]
    simp only [transpose_apply, table, of_apply]
    have := h.patterns i i.2 j j.2
    rw [Finset.sum_range] at this
    rw [this]
    by_cases hij : i = j
    · subst hij; simp
    · rw [if_neg (fun hh => hij (Fin.ext hh.1)), if_neg hij]
  · ext i j
    rw [mul_diagonal, diagonal_mul, diagonal_mul_diagonal, diagonal_apply]
    by_cases hi : p.eig i = 0
    · simp [hi]
    by_cases hj : p.eig j = 0
    · rw [hj, mul_zero]
      split_ifs with hij
      · subst hij; exact absurd hj hi
      · rfl
    have := h.series i i.2 j j.2 hi hj
    rw [Finset.sum_range] at this
    have e : (table N p.nt p.pc * (table N p.nt p.pc)ᵀ) i j = if (i : ℕ) = j then 1 else 0 := this
    rw [e]
    by_cases hij : i = j
    · subst hij; simp
    · rw [if_neg fun hh => hij (Fin.ext hh), if_neg hij]; simp

/-- the scaled patterns, one set after the other -/
theorem scaled_rows (N nx : ℕ) (e1 e2 w1 w2 : ℕ → ℝ) : Holding (N * 2) nx
    (cfor N (fun i E => scale nx (scale nx E (i * nx) (w1 i)) ((i + N) * nx) (w2 i)) (memcpy (memcpy (fun _ => 0) 0 e1 0 (N * nx)) (N * nx) e2 0 (N * nx)))
    fun i x => if i < N then e1 (i * nx + x) * w1 i else e2 ((i - N) * nx + x) * w2 (i - N) := by
  set E := memcpy (memcpy (fun _ => 0) 0 e1 0 (N * nx)) (N * nx) e2 0 (N * nx) with hE
  have key : ∀ m ≤ N, ∀ i < N * 2, ∀ x < nx, cfor m (fun i E => scale nx (scale nx E (i * nx) (w1 i)) ((i + N) * nx) (w2 i)) E (i * nx + x) =
      if i < m then E (i * nx + x) * w1 i else if N ≤ i ∧ i < N + m then E (i * nx + x) * w2 (i - N) else E (i * nx + x) := by
    intro m
    induction m with
    | zero => intro _ i _ x _; rw [cfor_zero, if_neg (by omega), if_neg (by omega)]
    | succ m ih =>
      intro hm i hi x hx
      rw [cfor_succ, scale_row _ _ _ _ _ _ hx, scale_row _ _ _ _ _ _ hx, ih (by omega) i hi x hx]
      by_cases c1 : i = m
      · subst c1
        rw [if_neg (show ¬ i = i + N by omega), if_pos rfl, if_neg (show ¬ i < i by omega), if_neg (show ¬ (N ≤ i ∧ i < N + i) by omega), if_pos (show i < i + 1 by omega)]
      by_cases c2 : i = m + N
      · subst c2
        rw [if_pos rfl, if_neg c1, if_neg (show ¬ m + N < m by omega), if_neg (show ¬ (N ≤ m + N ∧ m + N < N + m) by omega),
          if_neg (show ¬ m + N < m + 1 by omega), if_pos (show N ≤ m + N ∧ m + N < N + (m + 1) by omega), Nat.add_sub_cancel]
      rw [if_neg c2, if_neg c1]
      by_cases c3 : i < m
      · rw [if_pos c3, if_pos (show i < m + 1 by omega)]
      rw [if_neg c3, if_neg (show ¬ i < m + 1 by omega)]
      by_cases c4 : N ≤ i ∧ i < N + m
      · rw [if_pos c4, if_pos (show N ≤ i ∧ i < N + (m + 1) by omega)]
      · rw [if_neg c4, if_neg (show ¬ (N ≤ i ∧ i < N + (m + 1)) by omega)]
  intro i hi x hx
  refine (key N le_rfl i hi x hx).trans ?_
  by_cases c : i < N
  · rw [if_pos c]
    simp only [if_pos c]
    congr 1
    have hlt : i * nx + x < N * nx := by
      calc i * nx + x < (i + 1) * nx := by rw [add_mul, one_mul]; omega
        _ ≤ N * nx := Nat.mul_le_mul_right _ c
    rw [hE, memcpy_out _ _ _ _ _ _ (Or.inl hlt)]
    have := memcpy_in (fun _ => 0) 0 e1 0 (N * nx) (i * nx + x) hlt
    rwa [zero_add] at this
  · rw [if_neg c, if_pos (by omega)]
    simp only [if_neg c]
    congr 1
    have h1 : i * nx + x = N * nx + ((i - N) * nx + x) := by
      rw [← add_assoc, ← add_mul]; congr 2; omega
    have hlt : (i - N) * nx + x < N * nx := by
      calc (i - N) * nx + x < (i - N + 1) * nx := by rw [add_mul, one_mul]; omega
        _ ≤ N * nx := Nat.mul_le_mul_right _ (by omega)
    rw [hE, h1, memcpy_in _ _ _ _ _ _ hlt, zero_add]

/-- the series of both pieces, one after the other -/
theorem joined_rows (M n1 n2 : ℕ) (s1 s2 : ℕ → ℝ) : Holding M (n1 + n2)
    (cfor M (fun i E => memcpy (memcpy E (i * (n1 + n2)) s1 (i * n1) n1) (i * (n1 + n2) + n1) s2 (i * n2) n2) fun _ => 0)
    fun i t => if t < n1 then s1 (i * n1 + t) else s2 (i * n2 + (t - n1)) := by
  intro i hi t ht
  rw [rows_write M (n1 + n2) _ (fun e _ t => if t < n1 then s1 (e * n1 + t) else s2 (e * n2 + (t - n1))) ?_ ?_ (fun _ => 0) i t ht, if_pos hi]
  · intro e he U i t ht
    by_cases h : i = e
    · subst h
      rw [if_pos rfl]
      by_cases c : t < n1
      · rw [memcpy_out _ _ _ _ _ _ (Or.inl (by omega)), memcpy_in _ _ _ _ _ _ c, if_pos c]
      · rw [if_neg c, show i * (n1 + n2) + t = i * (n1 + n2) + n1 + (t - n1) by omega, memcpy_in _ _ _ _ _ _ (by omega)]
    · rw [if_neg h]
      have hout : i * (n1 + n2) + t < e * (n1 + n2) ∨ e * (n1 + n2) + (n1 + n2) ≤ i * (n1 + n2) + t := by
        rcases Nat.lt_or_gt_of_ne h with h | h
        · left
          calc i * (n1 + n2) + t < (i + 1) * (n1 + n2) := by rw [add_mul, one_mul]; omega
            _ ≤ e * (n1 + n2) := Nat.mul_le_mul_right _ h
        · right
          calc e * (n1 + n2) + (n1 + n2) = (e + 1) * (n1 + n2) := by rw [add_mul, one_mul]
            _ ≤ i * (n1 + n2) := Nat.mul_le_mul_right _ h
            _ ≤ _ := by omega
      rw [memcpy_out _ _ _ _ _ _ (by omega), memcpy_out _ _ _ _ _ _ (by omega)]
  · intros; rfl

theorem new_series (N N2 nx : ℕ) (p : Piece) (U : ℕ → ℝ) :
    table N2 p.nt (transform p.nt N N2 (diagscale p.nt N p.pc p.eig) (dot N nx N2 p.eof U fun _ => 0) fun _ => 0) =
      table N2 nx U * ((table N p.nt p.pc)ᵀ * diagonal (fun i : Fin N => p.eig i) * table N nx p.eof)ᵀ := by
  have h1 : table N p.nt (diagscale p.nt N p.pc p.eig) = diagonal (fun i : Fin N => p.eig i) * table N p.nt p.pc := by
    rw [table_of_holding (diagscale_correct p.nt N p.pc p.eig)]
    ext i j
    simp [table, diagonal_mul, mul_comm]
  rw [table_transform, table_dot, h1]
  simp only [transpose_mul, transpose_transpose, diagonal_transpose, Matrix.mul_assoc]

/-- what merging two pieces gives, in matrices -/
theorem merge_flat {lapack : Dsyev} (hl : lapack.Right) (N nx : ℕ) (p1 p2 : Piece) :
    let E1 := table N nx p1.eof
    let E2 := table N nx p2.eof
    let w1 := fun i : Fin N => p1.eig i
    let w2 := fun i : Fin N => p2.eig i
    let D1 := (table N p1.nt p1.pc)ᵀ * diagonal w1 * E1
    let D2 := (table N p2.nt p2.pc)ᵀ * diagonal w2 * E2
    let p := merge lapack N nx p1 p2
    p.nt = p1.nt + p2.nt ∧ ∃ Z U : Matrix (Fin (N * 2)) (Fin nx) ℝ, ∃ V g, IsSvd Z U V g ∧
      (∀ k : Fin (N * 2), ∀ x : Fin nx, Z k x = if h : (k : ℕ) < N then w1 ⟨k, h⟩ * E1 ⟨k, h⟩ x else w2 ⟨k - N, by omega⟩ * E2 ⟨k - N, by omega⟩ x) ∧
      (∀ j (hj : j < N), ∀ x : Fin nx, p.eof (j * nx + x) = U ⟨j, by omega⟩ x) ∧
      (∀ j (hj : j < N), p.eig j = g ⟨j, by omega⟩) ∧
      (∀ j (hj : j < N), ∀ t : Fin p1.nt, p.pc (j * p.nt + t) = ((diagonal fun i => unscale (g i)) * (U * D1ᵀ)) ⟨j, by omega⟩ t) ∧
      (∀ j (hj : j < N), ∀ t : Fin p2.nt, p.pc (j * p.nt + (p1.nt + t)) = ((diagonal fun i => unscale (g i)) * (U * D2ᵀ)) ⟨j, by omega⟩ t) := by
  intro E1 E2 w1 w2 D1 D2 p
  refine ⟨rfl, ?_⟩
  let Zf := cfor N (fun i E => scale nx (scale nx E (i * nx) (p1.eig i)) ((i + N) * nx) (p2.eig i))
    (memcpy (memcpy (fun _ => 0) 0 p1.eof 0 (N * nx)) (N * nx) p2.eof 0 (N * nx))
  let r := svd lapack nx (N * 2) Zf
  let s1 := transform p1.nt N (N * 2) (diagscale p1.nt N p1.pc p1.eig) (dot N nx (N * 2) p1.eof r.1 fun _ => 0) fun _ => 0
  let s2 := transform p2.nt N (N * 2) (diagscale p2.nt N p2.pc p2.eig) (dot N nx (N * 2) p2.eof r.1 fun _ => 0) fun _ => 0
  let Epc := cfor (N * 2) (fun i E => memcpy (memcpy E (i * (p1.nt + p2.nt)) s1 (i * p1.nt) p1.nt) (i * (p1.nt + p2.nt) + p1.nt) s2 (i * p2.nt) p2.nt)
    fun _ => 0
  have heof : p.eof = memcpy (fun _ => 0) 0 r.1 0 (N * nx) := rfl
  have heig : p.eig = memcpy (fun _ => 0) 0 r.2.1 0 N := rfl
  have hpc : p.pc = memcpy (fun _ => 0) 0 (diagunscale (p1.nt + p2.nt) (N * 2) Epc r.2.1) 0 (N * (p1.nt + p2.nt)) := rfl
  have hlt : ∀ {n j x : ℕ}, j < N → x < n → j * n + x < N * n := by
    intro n j x hj hx
    calc j * n + x < (j + 1) * n := by rw [add_mul, one_mul]; omega
      _ ≤ N * n := Nat.mul_le_mul_right _ hj
  have hpc' : ∀ j (hj : j < N) t, t < p1.nt + p2.nt → p.pc (j * p.nt + t) = Epc (j * (p1.nt + p2.nt) + t) * unscale (r.2.1 j) := by
    intro j hj t ht
    have h1 := memcpy_in (fun _ => 0) 0 (diagunscale (p1.nt + p2.nt) (N * 2) Epc r.2.1) 0 (N * (p1.nt + p2.nt)) (j * (p1.nt + p2.nt) + t) (hlt hj ht)
    rw [zero_add] at h1
    rw [show p.nt = p1.nt + p2.nt from rfl, hpc, h1]
    exact diagunscale_correct _ _ _ _ j (by omega) t ht
  refine ⟨table (N * 2) nx Zf, table (N * 2) nx r.1, table (N * 2) (N * 2) r.2.2, fun i => r.2.1 i, svd_correct hl nx (N * 2) Zf, ?_, ?_, ?_, ?_, ?_⟩
  · intro k x
    have := scaled_rows N nx p1.eof p2.eof p1.eig p2.eig k k.2 x x.2
    refine Eq.trans this ?_
    by_cases h : (k : ℕ) < N
    · simp only [if_pos h, dif_pos h, w1, E1, table, of_apply]; ring
    · simp only [if_neg h, dif_neg h, w2, E2, table, of_apply]; ring
  · intro j hj x
    have := memcpy_in (fun _ => 0) 0 r.1 0 (N * nx) (j * nx + x) (hlt hj x.2)
    rw [zero_add] at this
    rw [heof, this]; rfl
  · intro j hj
    have := memcpy_in (fun _ => 0) 0 r.2.1 0 N j hj
    rw [zero_add] at this
    rw [heig, this]
  · intro j hj t
    have hE : Epc (j * (p1.nt + p2.nt) + t) = if (t : ℕ) < p1.nt then s1 (j * p1.nt + t) else s2 (j * p2.nt + (t - p1.nt)) :=
      joined_rows (N * 2) p1.nt p2.nt s1 s2 j (by omega) t (by omega)
    rw [hpc' j hj t (by omega), hE, if_pos t.2]
    have := congrFun (congrFun (new_series N (N * 2) nx p1 r.1) ⟨j, by omega⟩) t
    rw [diagonal_mul, ← this, mul_comm]
    rfl
  · intro j hj t
    have hE : Epc (j * (p1.nt + p2.nt) + (p1.nt + t)) =
        if p1.nt + (t : ℕ) < p1.nt then s1 (j * p1.nt + (p1.nt + t)) else s2 (j * p2.nt + (p1.nt + t - p1.nt)) :=
      joined_rows (N * 2) p1.nt p2.nt s1 s2 j (by omega) (p1.nt + t) (by omega)
    rw [hpc' j hj (p1.nt + t) (by omega), hE, if_neg (by omega), Nat.add_sub_cancel_left]
    have := congrFun (congrFun (new_series N (N * 2) nx p2 r.1) ⟨j, by omega⟩) t
    rw [diagonal_mul, ← this, mul_comm]
    rfl

end EofGuess
end PyGeode
