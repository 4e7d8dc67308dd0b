/-
Property C100: the EOFs found from the covariance matrix (`EOF_cov`), read in pieces.
-/
import Verif.Props.Eof

namespace PyGeode
open NArr View Spec

/-! ### The chunks of a loop hold whole patterns -/

theorem whole_tail (inds : List (List ℕ)) (hpos : ∀ ind ∈ inds, ind ≠ []) (limit : ℕ) :
    ∀ (k i : ℕ), i + k = inds.length → tailSize inds i ≤ limit →
    let r := (List.range' i k).foldr (fun j st => otherStep inds st j) (limit, inds.map fun _ => [])
    r.2.length = inds.length ∧ r.1 = limit / tailSize inds i ∧ r.2.drop i = (inds.drop i).map fun l => [l]
  | 0, i, h, _ => by
    have hi : inds.length ≤ i := by omega
    simp only [List.range'_zero, List.foldr_nil, List.length_map, true_and]
    rw [List.drop_eq_nil_of_le (by simpa using hi), tailSize, List.drop_eq_nil_of_le hi]
    simp
  | k + 1, i, h, hlim => by
    have hi : i < inds.length := by omega
    have hts := tailSize_step hi
    have hne : inds[i] ≠ [] := hpos _ (List.getElem_mem _)
    have hN : 0 < inds[i].length := List.length_pos_of_ne_nil hne
    have ht := tailSize_pos hpos (i + 1)
    have hle : tailSize inds (i + 1) ≤ limit := le_trans (by rw [hts]; exact Nat.le_mul_of_pos_left _ hN) hlim
    have ih := whole_tail inds hpos limit k (i + 1) (by omega) hle
    simp only [List.range'_succ, List.foldr_cons]
    revert ih
    simp only
    generalize (List.range' (i + 1) k).foldr (fun j st => otherStep inds st j) (limit, inds.map fun _ => []) = r
    obtain ⟨m, P⟩ := r
    rintro ⟨h1, h2, h3⟩
    simp only at h1 h2 h3
    have hmin : min m inds[i].length = inds[i].length := by
      rw [h2, Nat.min_eq_right]
      rw [Nat.le_div_iff_mul_le ht, ← hts]
      exact hlim
    have hstep : otherStep inds (m, P) i = (m / inds[i].length, P.set i [inds[i]]) := by
      simp only [otherStep]
      rw [List.getD_eq_getElem inds [] hi, hmin, chunks_all _ hne]
    rw [hstep]
    refine ⟨by simp [h1], ?_, ?_⟩
    · simp only
      rw [h2, Nat.div_div_eq_div_mul, hts, Nat.mul_comm]
    · rw [List.drop_eq_getElem_cons (by simp; omega), List.drop_eq_getElem_cons hi]
      rw [List.map_cons, ← h3]
      simp [List.drop_set]

theorem product_drop {α : Type} : ∀ (j : ℕ) (P : List (List α)) (ind : List α), ind ∈ product P → ind.drop j ∈ product (P.drop j)
  | 0, P, ind, h => h
  | j + 1, [], ind, h => by
    have : ind = [] := by simpa [product] using h
    subst this
    simp [product]
  | j + 1, l :: P, ind, h => by
    simp only [product, List.mem_flatMap, List.mem_map] at h
    obtain ⟨a, _, t, ht, rfl⟩ := h
    exact product_drop j P t ht

theorem fold_prefix (inds : List (List ℕ)) (j : ℕ) : ∀ (l : List ℕ) (st : ℕ × List (List (List ℕ))), (∀ i ∈ l, i < j) →
    (l.foldr (fun i st => otherStep inds st i) st).2.drop j = st.2.drop j
  | [], st, _ => rfl
  | i :: l, st, h => by
    rw [List.foldr_cons, otherStep]
    simp only
    rw [List.drop_set_of_lt (h i (by simp)), fold_prefix inds j l st fun i hi => h i (by simp [hi])]

theorem product_single {α : Type} (L : List α) : product (L.map fun l => [l]) = [L] := by
  induction L with
  | nil => rfl
  | cons a L ih => simp [product, ih]

/-- C05: where the trailing axes together fit in the limit, every chunk has them whole. -/
theorem loopMem_trailing {Ax : Type} (v : View Ax) (limit : ℕ) (hpos : ∀ ind ∈ v.inds, ind ≠ []) (j : ℕ) (hj : j ≤ v.inds.length)
    (hn : ((v.inds.drop j).map List.length).prod ≤ limit) (c : View Ax) (hc : c ∈ v.loopMem limit []) :
    c.inds.drop j = v.inds.drop j := by
  have h1 := whole_tail v.inds hpos limit (v.inds.length - j) j (by omega) hn
  unfold loopMem at hc
  rw [memIndices_foldr, show List.range' 0 v.inds.length = List.range' 0 j ++ List.range' j (v.inds.length - j) by
    have := List.range'_append (s := 0) (m := j) (n := v.inds.length - j) (step := 1)
    rw [Nat.one_mul, Nat.zero_add] at this
    rw [this]; congr 1; omega] at hc
  obtain ⟨ind, hind, rfl⟩ := List.mem_map.1 hc
  have h2 := product_drop j _ _ hind
  rw [List.foldr_append, fold_prefix _ _ _ _ (by simp), h1.2.2, product_single] at h2
  simpa using h2

namespace Eof
open Axis Combine VarOps Reduce Finset

theorem product_cell : ∀ I : List (List ℕ), product I = (product ((I.map List.length).map List.range)).map (cell I)
  | [] => rfl
  | l :: I => by
    simp only [List.map_cons, product, List.map_flatMap, List.map_map]
    have h1 : l = (List.range l.length).map fun i => l.getD i 0 := by
      refine List.ext_getElem (by simp) fun i h1 h2 => ?_
      simp [List.getD_eq_getElem, h1]
    conv_lhs => rw [h1]
    rw [List.flatMap_map]
    refine List.flatMap_congr fun i _ => ?_
    rw [product_cell I, List.map_map, List.map_map]
    rfl

theorem product_cells (I : List (List ℕ)) : product I = (List.range (I.map List.length).prod).map fun p => cell I (unravel (I.map List.length) p) := by
  rw [product_cell, product_unravel, List.map_map]
  rfl

theorem rows_flat {β : Type} (f : ℕ → β) (n : ℕ) : ∀ q : ℕ, ((List.range q).flatMap fun i => (List.range n).map fun j => f (i * n + j)) = (List.range (q * n)).map f
  | 0 => by simp
  | q + 1 => by
    rw [List.range_succ, List.flatMap_append, rows_flat f n q, Nat.succ_mul, List.range_add, List.map_append]
    simp [List.map_map, Function.comp_def]

theorem rows_get {β : Type} (d : β) (n : ℕ) : ∀ (rows : List (ℕ → β)) (t j : ℕ), t < rows.length → j < n →
    (rows.flatMap fun row => (List.range n).map row).getD (t * n + j) d = rows.getD t (fun _ => d) j
  | [], t, j, h, _ => by simp at h
  | row :: rows, 0, j, _, hj => by
    rw [List.flatMap_cons, List.getD_append _ _ _ _ (by simpa using hj)]
    simp [List.getD_eq_getElem, hj]
  | row :: rows, t + 1, j, h, hj => by
    rw [List.flatMap_cons, List.getD_append_right _ _ _ _ (by simp [Nat.succ_mul]; omega)]
    have : (t + 1) * n + j - ((List.range n).map row).length = t * n + j := by
      simp [Nat.succ_mul]; omega
    rw [this, rows_get d n rows t j (by simpa using h) hj]
    simp

theorem cov_fold : ∀ (chunks : List (List (ℕ → ℝ))) (c : ℕ → ℕ → ℝ) (a b : ℕ),
    chunks.foldl covStep c a b = c a b + (chunks.flatten.map fun row => row a * row b).sum
  | [], c, a, b => by simp
  | X :: chunks, c, a, b => by
    rw [List.foldl_cons, cov_fold chunks]
    simp only [covStep, List.flatten_cons, List.map_append, List.sum_append]
    ring

theorem getD_sum {β : Type} (d : β) (f : β → ℝ) (l : List β) : (l.map f).sum = ∑ t ∈ range l.length, f (l.getD t d) := by
  rw [← list_sum_range]
  congr 1
  refine List.ext_getElem (by simp) fun i h1 h2 => ?_
  have hi : i < l.length := by simpa using h1
  simp [hi]

theorem isEigh_congr {n : ℕ} {C C' : ℕ → ℕ → ℝ} (hC : ∀ a < n, ∀ b < n, C a b = C' a b) {r : Eigh} (h : IsEigh n C r) : IsEigh n C' r :=
  ⟨h.orth, h.mono, fun k hk a ha => by
    rw [← h.eigen k hk a ha]
    exact sum_congr rfl fun b hb => by rw [hC a ha b (mem_range.1 hb)]⟩

/-- The rows of one chunk whose last axes are whole. -/
theorem chunk_rows {data' : List ℕ → ℝ} {I : List (List ℕ)} {r : NArr ℝ} (hr : IsRead data' I r) (hne : ∀ ind ∈ I, ind ≠ []) (j n : ℕ)
    (hn : n = ((I.drop j).map List.length).prod) :
    ∃ rows, chunkRows n r = some rows ∧ (rows.flatMap fun row => (List.range n).map row) = (product I).map data' := by
  obtain ⟨h1, h2⟩ := hr
  have hpos : ∀ L : List (List ℕ), (∀ ind ∈ L, ind ≠ []) → 0 < (L.map List.length).prod := fun L hL => List.prod_pos fun a ha => by
    obtain ⟨l, hl, rfl⟩ := List.mem_map.1 ha
    exact List.length_pos_of_ne_nil (hL l hl)
  have hn0 : 0 < n := by rw [hn]; exact hpos _ fun ind h => hne ind (List.mem_of_mem_drop h)
  have hq0 := hpos (I.take j) fun ind h => hne ind (List.mem_of_mem_take h)
  have hsz : r.shape.prod = ((I.take j).map List.length).prod * n := by
    rw [h1, hn, ← List.prod_append, ← List.map_append, List.take_append_drop]
  refine ⟨(List.range (r.shape.prod / n)).map fun i j => r.get (unravel r.shape (i * n + j)), ?_, ?_⟩
  · unfold chunkRows
    rw [if_neg (by rw [hsz]; have := Nat.le_mul_of_pos_left n hq0; omega), if_neg (by rw [hsz]; simp)]
  · rw [List.flatMap_map, rows_flat (fun p => r.get (unravel r.shape p)) n, product_cells, List.map_map,
      Nat.div_mul_cancel (by rw [hsz]; exact dvd_mul_left _ _), h1]
    refine List.map_congr_left fun p hp => ?_
    rw [List.mem_range] at hp
    rw [h2 _ (unravel_inBounds hp)]
    rfl

theorem whole_inds (y : Var ℝ) : y.whole.inds = (y.axes.map Axis.len).map List.range := by
  simp [Var.whole]

theorem whole_ne {y : Var ℝ} (hpos : ∀ a ∈ y.axes, 0 < a.len) : ∀ ind ∈ y.whole.inds, ind ≠ [] := by
  intro ind hind
  rw [whole_inds, List.map_map] at hind
  obtain ⟨a, ha, rfl⟩ := List.mem_map.1 hind
  have := hpos a ha
  simp only [Function.comp_apply, ne_eq, List.range_eq_nil]
  omega

/-- Reading one chunk of a loop over a variable. -/
theorem chunk_read (nr : List ℚ → ℚ) (junk : List ℕ → ℝ) (limit : ℕ) (hl : 1 ≤ limit) (y : Var ℝ) (data' : List ℕ → ℝ) (hy : Contains y data')
    (hr : Regular y.axes) (hpos : ∀ a ∈ y.axes, 0 < a.len) (c : View Axis) (hc : c ∈ y.whole.loopMem limit []) :
    (∀ ind ∈ c.inds, ind ≠ []) ∧ ∃ r, y.read nr junk c = some r ∧ IsRead data' c.inds r := by
  have hin := whole_inds y
  have hne := whole_ne hpos
  obtain ⟨parts, p1, p2, -, p3, p4⟩ := loopMem_splits y.whole limit [] hl hne (by simp)
  have hcp : c.inds ∈ product parts := by rw [← p3]; exact List.mem_map_of_mem hc
  have hcI : List.Forall₂ (fun ind q => ind ∈ q) c.inds parts := mem_product.1 hcp
  have hcne : ∀ ind ∈ c.inds, ind ≠ [] := by
    intro ind hind
    obtain ⟨i, hi, rfl⟩ := List.getElem_of_mem hind
    have hi' : i < parts.length := by rw [← hcI.length_eq]; exact hi
    exact p2 _ (List.getElem_mem hi') _ ((List.forall₂_iff_get.1 hcI).2 i hi hi')
  have hcr : InRange (y.axes.map Axis.len) c.inds := by
    rw [InRange, List.forall₂_iff_get]
    have hlen : parts.length = y.axes.length := by
      have := congrArg List.length p1
      rw [hin] at this
      simpa using this
    refine ⟨by rw [hcI.length_eq, hlen, List.length_map], fun i hi hi' a ha => ?_⟩
    have hi2 : i < parts.length := by rw [← hcI.length_eq]; exact hi
    have h1 : parts[i].flatten = List.range ((y.axes.map Axis.len)[i]'(by simpa using hi')) := by
      have := List.getElem_of_eq p1 (i := i) (by simpa using hi2)
      rw [List.getElem_map] at this
      rw [this]
      simp [hin]
    have h2 : a ∈ parts[i].flatten := List.mem_flatten.2 ⟨_, (List.forall₂_iff_get.1 hcI).2 i hi hi2, ha⟩
    rw [h1, List.mem_range] at h2
    exact h2
  obtain ⟨r, h1, h2⟩ := read_own nr junk y data' hy hr c.inds hcr hcne
  have hce : c = ⟨y.axes, c.inds⟩ := by
    have h3 : c.axes = y.axes := p4 c hc
    cases c
    simp only at h3
    rw [h3]
  exact ⟨hcne, r, by rw [hce, h1], h2⟩

/-- The rows of all the chunks. -/
theorem chunks_rows (nr : List ℚ → ℚ) (junk : List ℕ → ℝ) (limit : ℕ) (hl : 1 ≤ limit) (y : Var ℝ) (data' : List ℕ → ℝ) (hy : Contains y data')
    (hr : Regular y.axes) (hpos : ∀ a ∈ y.axes, 0 < a.len) (T S : List Axis) (hax : y.axes = T ++ S) (hlim : axesSize S ≤ limit) :
    ∃ chunks, chunksOf nr junk limit y (axesSize S) = some chunks ∧ chunks.flatten.length = axesSize T ∧
      ∀ i < axesSize T, ∀ j < axesSize S, (chunks.flatten.getD i fun _ => 0) j = data' (unravel (T.map Axis.len) i ++ unravel (S.map Axis.len) j) := by
  have hin := whole_inds y
  have hne := whole_ne hpos
  have htail : ((y.whole.inds.drop T.length).map List.length).prod = axesSize S := by
    rw [hin, hax]
    simp [List.map_drop, axesSize, Function.comp_def]
  have hn0 : 0 < axesSize S := List.prod_pos fun a ha => by
    obtain ⟨l, hl, rfl⟩ := List.mem_map.1 ha
    exact hpos l (by rw [hax]; simp [hl])
  have hone : ∀ c ∈ y.whole.loopMem limit [], ∃ rows, (y.read nr junk c).bind (chunkRows (axesSize S)) = some rows ∧
      (rows.flatMap fun row => (List.range (axesSize S)).map row) = (product c.inds).map data' := by
    intro c hc
    obtain ⟨hcne, r, h1, h2⟩ := chunk_read nr junk limit hl y data' hy hr hpos c hc
    have h3 := loopMem_trailing y.whole limit hne T.length (by rw [hin, hax]; simp) (by rw [htail]; exact hlim) c hc
    obtain ⟨rows, h4, h5⟩ := chunk_rows h2 hcne T.length (axesSize S) (by rw [h3, htail])
    exact ⟨rows, by rw [h1, Option.bind_some, h4], h5⟩
  obtain ⟨chunks, h1, h2⟩ : ∃ chunks, chunksOf nr junk limit y (axesSize S) = some chunks ∧
      List.Forall₂ (fun (c : View Axis) rows => (rows.flatMap fun row => (List.range (axesSize S)).map row) = (product c.inds).map data')
        (y.whole.loopMem limit []) chunks := by
    unfold chunksOf
    generalize y.whole.loopMem limit [] = L at hone
    induction L with
    | nil => exact ⟨[], rfl, .nil⟩
    | cons c L ih =>
      obtain ⟨rows, h1, h2⟩ := hone c (by simp)
      obtain ⟨ch, h3, h4⟩ := ih fun c hc => hone c (by simp [hc])
      exact ⟨rows :: ch, by rw [List.mapM_cons, h1, h3]; rfl, .cons h2 h4⟩
  have hflat : (chunks.flatten.flatMap fun row => (List.range (axesSize S)).map row) = (product y.whole.inds).map data' := by
    rw [← loopMem_order y.whole limit hl hne]
    clear h1 hone
    generalize y.whole.loopMem limit [] = L at h2
    induction h2 with
    | nil => rfl
    | cons h _ ih => rw [List.flatten_cons, List.flatMap_append, h, ih, List.flatMap_cons, List.map_append]
  rw [hin, product_unravel, List.map_map, hax, List.map_append, List.prod_append] at hflat
  have hlen : chunks.flatten.length = axesSize T := by
    have h3 := congrArg List.length hflat
    rw [List.length_flatMap, List.length_map, List.length_range] at h3
    simp only [List.length_map, List.length_range, List.map_const', List.sum_replicate, smul_eq_mul] at h3
    exact Nat.eq_of_mul_eq_mul_right hn0 h3
  refine ⟨chunks, h1, hlen, fun i hi j hj => ?_⟩
  rw [← rows_get 0 (axesSize S) chunks.flatten i j (by rw [hlen]; exact hi) hj, hflat, List.getD_eq_getElem _ _ (by
    rw [List.length_map, List.length_range]; exact flat_lt hi hj)]
  simp only [List.getElem_map, List.getElem_range, Function.comp_apply]
  exact congrArg data' (unravel_append _ _ i j hj hi)

section
variable (nr : List ℚ → ℚ) (hnr : ∀ l, 0 ≤ nr l) {limit : ℕ} (hl : 1 ≤ limit) (junkw : List ℕ → ℚ) (junk : List ℕ → ℝ)
  {x : Var ℝ} {data : List ℕ → ℝ} {iaxis : Iaxis} {weight : Weight} {T S : List Axis} {wt : List ℕ → ℚ}
  (h : EofInput x data iaxis weight T S wt)
include hnr hl h

/-- C100: what `EOF_cov` returns are the leading EOFs, eigenvalues and principal components. -/
theorem eofCov_correct_partial {eigh : ℕ → (ℕ → ℕ → ℝ) → Eigh} (heigh : ∀ n C, (∀ a < n, ∀ b < n, C a b = C b a) → IsEigh n C (eigh n C))
    (hm : 2 ≤ axesSize T) {num : ℕ} (hnum : 1 ≤ num) (hnum' : num ≤ axesSize S) (hlim : axesSize S ≤ limit) :
    ∃ R E e P, eofCov eigh nr junkw junk limit x num iaxis weight = some R ∧
      IsEofResult nr T S data (normalised (S.map Axis.len) wt) ((axesSize T : ℝ) - 1) num R E e P ∧
      (num = axesSize S → R.var = ∑ k ∈ range num, e k ^ 2) := by
  obtain ⟨y, h1, h2, h3⟩ := prep_correct nr hnr hl junkw junk h
  obtain ⟨chunks, h4, h5, h6⟩ := chunks_rows nr junk limit hl y _ h3 (by rw [h2, ← h.axes]; exact h.reg) (by rw [h2, ← h.axes]; exact h.pos)
    T S h2 hlim
  set D : ℕ → ℕ → ℝ := fun i => chunks.flatten.getD i fun _ => 0 with hD
  have hD' : ∀ i < (T.map Axis.len).prod, ∀ j < (S.map Axis.len).prod, D i j =
      data (unravel (T.map Axis.len) i ++ unravel (S.map Axis.len) j) *
        Real.sqrt (normalised (S.map Axis.len) wt (unravel (S.map Axis.len) j)) := fun i hi j hj => by
    rw [hD]
    have h7 : (unravel (T.map Axis.len) i).length = T.length := by simpa using (unravel_inBounds hi).length_eq
    refine (h6 i hi j hj).trans ?_
    rw [List.drop_left' h7]
  have hcov : ∀ a b, chunks.foldl covStep (fun _ _ => 0) a b = ∑ t ∈ range (axesSize T), D t a * D t b := by
    intro a b
    rw [cov_fold, zero_add, getD_sum (fun _ => 0), h5]
  set C : ℕ → ℕ → ℝ := fun a b => chunks.foldl covStep (fun _ _ => 0) a b / ((axesSize T : ℝ) - 1) with hC
  have hE := heigh (axesSize S) C fun a _ b _ => by
    simp only [hC, hcov]
    congr 1
    exact sum_congr rfl fun t _ => mul_comm _ _
  have hE' : IsEigh (axesSize S) (fun a b => (∑ t ∈ range (axesSize T), D t a * D t b) / ((axesSize T : ℝ) - 1)) (eigh (axesSize S) C) :=
    isEigh_congr (fun a _ b _ => by simp only [hC, hcov]) hE
  have hM := eigh_eofs hm hE' hnum'
  have hpc : (fun k t => (∑ x ∈ range (axesSize S), D t x * (eigh (axesSize S) C).v x (axesSize S - 1 - k)) /
        Real.sqrt ((eigh (axesSize S) C).w (axesSize S - 1 - k))) =
      fun k t => (∑ x ∈ range (axesSize S), (eigh (axesSize S) C).v x (axesSize S - 1 - k) * D t x) /
        Real.sqrt ((eigh (axesSize S) C).w (axesSize S - 1 - k)) := by
    funext k t
    congr 1
    exact sum_congr rfl fun _ _ => mul_comm _ _
  rw [hpc] at hM
  obtain ⟨R, E, P, h8, h10, h9⟩ := finalize_correct nr hnr hl junkw junk h hD' hnum hM (eigh_total hm hE').symm
  refine ⟨R, E, _, P, ?_, h9, fun hn => ?_⟩
  rotate_left
  · rw [h10, hn, ← sum_range_reflect]
    exact sum_congr rfl fun k hk => (Real.sq_sqrt (eigh_nonneg hm hE' (by have := mem_range.1 hk; omega))).symm
  unfold eofCov
  rw [h1, Option.bind_some]
  show (chunksOf nr junk limit y (axesSize S)).bind _ = _
  rw [h4, Option.bind_some]
  simp only
  rw [if_pos ⟨hnum', h5⟩]
  exact h8

/-- C100: `EOF_cov` refuses patterns too large to be held in memory. -/
theorem eofCov_large {eigh : ℕ → (ℕ → ℕ → ℝ) → Eigh} {num : ℕ} (hlim : limit < axesSize S) :
    eofCov eigh nr junkw junk limit x num iaxis weight = none := by
  obtain ⟨y, h1, h2, h3⟩ := prep_correct nr hnr hl junkw junk h
  unfold eofCov
  rw [h1, Option.bind_some]
  show (chunksOf nr junk limit y (axesSize S)).bind _ = _
  have hreg : Regular y.axes := by rw [h2, ← h.axes]; exact h.reg
  have hpos : ∀ a ∈ y.axes, 0 < a.len := by rw [h2, ← h.axes]; exact h.pos
  have hne := whole_ne hpos
  have hno : chunksOf nr junk limit y (axesSize S) = none := by
    unfold chunksOf
    obtain ⟨c, L, hL⟩ : ∃ c L, y.whole.loopMem limit [] = c :: L := by
      cases hL : y.whole.loopMem limit [] with
      | cons c L => exact ⟨c, L, rfl⟩
      | nil =>
        have h4 := loopMem_order y.whole limit hl hne
        rw [hL, whole_inds, product_unravel] at h4
        have h5 := congrArg List.length h4
        have h6 : 0 < (y.axes.map Axis.len).prod := List.prod_pos fun a ha => by
          obtain ⟨l, hl, rfl⟩ := List.mem_map.1 ha
          exact hpos l hl
        simp at h5
        omega
    have hc : c ∈ y.whole.loopMem limit [] := by rw [hL]; simp
    obtain ⟨-, r, h4, h5, -⟩ := chunk_read nr junk limit hl y _ h3 hreg hpos c hc
    have h6 : r.shape.prod ≤ limit := by
      rw [h5]; exact loopMem_size_le_limit y.whole limit hl hne c hc
    rw [hL, List.mapM_cons, h4, Option.bind_some, chunkRows, if_pos (by omega)]
    rfl
  rw [hno]
  rfl

end

end Eof
end PyGeode
