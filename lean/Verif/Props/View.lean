/-
Properties of views: C04 (contiguous pieces), C05/C06 (memory-limited chunks), C07 (repeated and
unordered positions), C08 (reading a view of a variable).
-/
import Verif.Lemmas.View
import Verif.Props.Index
import Verif.Spec.View

namespace PyGeode
open NArr View Spec
open scoped List
variable {Ax α : Type}

/-! ## C05 — memory-limited chunks partition the request -/

/-- Per axis there is a list of pieces that concatenates to the requested positions in order, no
piece being empty; the chunks are all combinations of pieces; a preserved axis has one piece. -/
theorem loopMem_splits (v : View Ax) (limit : ℕ) (preserve : List ℕ) (hl : 1 ≤ limit)
    (hpos : ∀ ind ∈ v.inds, ind ≠ []) (hp : ∀ i ∈ preserve, i < v.inds.length) :
    ∃ parts : List (List (List ℕ)),
      parts.map List.flatten = v.inds ∧ (∀ q ∈ parts, ∀ c ∈ q, c ≠ []) ∧
      (∀ i ∈ preserve, parts.getD i [] = [v.inds.getD i []]) ∧
      (v.loopMem limit preserve).map View.inds = product parts ∧
      ∀ c ∈ v.loopMem limit preserve, c.axes = v.axes := by
  have hg := memIndices_good v hl hpos hp
  refine ⟨v.memIndices limit preserve, memIndices_flatten v hl hpos hp, ?_, hg.2.2, ?_, ?_⟩
  · intro q hq
    obtain ⟨j, hj, rfl⟩ := List.getElem_of_mem hq
    have := (hg.2.1 j (by rw [← hg.1]; exact hj)).2
    rwa [List.getD_eq_getElem _ _ hj] at this
  · simp [loopMem, List.map_map, Function.comp_def]
  · intro c hc
    simp only [loopMem, List.mem_map] at hc
    obtain ⟨_, _, rfl⟩ := hc
    rfl

/-- Going through the chunks, every requested cell is met exactly as often as it was requested. -/
theorem loopMem_partition (v : View Ax) (limit : ℕ) (preserve : List ℕ) (hl : 1 ≤ limit)
    (hpos : ∀ ind ∈ v.inds, ind ≠ []) (hp : ∀ i ∈ preserve, i < v.inds.length) :
    ((v.loopMem limit preserve).flatMap fun c => product c.inds).Perm (product v.inds) := by
  have h := product_flatten_perm (v.memIndices limit preserve)
  rw [memIndices_flatten v hl hpos hp] at h
  simpa [loopMem, List.flatMap_map] using h

example : ((View.mk [(), ()] [[4, 2, 2], [0, 1, 2, 3, 4]]).loopMem 4 []).map View.inds =
    [[[4], [0, 1, 2, 3]], [[4], [4]], [[2], [0, 1, 2, 3]], [[2], [4]], [[2], [0, 1, 2, 3]], [[2], [4]]] := by
  decide

example : ((View.mk [(), ()] [[4, 2, 2], [0, 1, 2, 3, 4]]).loopMem 4 [0]).map View.inds =
    [[[4, 2, 2], [0]], [[4, 2, 2], [1]], [[4, 2, 2], [2]], [[4, 2, 2], [3]], [[4, 2, 2], [4]]] := by
  decide

/-! ## C06 — size of the chunks -/

/-- No chunk is larger than the limit, or than the preserved axes alone if these exceed it. -/
theorem loopMem_size_le (v : View Ax) (limit : ℕ) (preserve : List ℕ) (hl : 1 ≤ limit)
    (hpos : ∀ ind ∈ v.inds, ind ≠ []) (hnd : preserve.Nodup)
    (hp : ∀ i ∈ preserve, i < v.inds.length) (c : View Ax) (hc : c ∈ v.loopMem limit preserve) :
    c.size ≤ max limit (preserve.map fun i => (v.inds.getD i []).length).prod := by
  simp only [loopMem, List.mem_map] at hc
  obtain ⟨ind, hind, rfl⟩ := hc
  exact loopMem_bound v hl hpos hnd hp ind hind

/-- Without preserved axes no chunk exceeds the limit. -/
theorem loopMem_size_le_limit (v : View Ax) (limit : ℕ) (hl : 1 ≤ limit)
    (hpos : ∀ ind ∈ v.inds, ind ≠ []) (c : View Ax) (hc : c ∈ v.loopMem limit []) :
    c.size ≤ limit := by
  have := loopMem_size_le v limit [] hl hpos (by simp) (by simp) c hc
  simpa [hl] using this

/-! ## C04 — contiguous pieces -/

/-- the pieces along one axis, with the start and count in the source -/
private theorem axis_piece (ind : List ℕ) (s : ℕ × ℕ)
    (hs : s ∈ contiguate (ind.map (fun i : ℕ => (i : ℤ)))) (hne : ind ≠ []) :
    s.1 < s.2 ∧ s.2 ≤ ind.length ∧ runOf ind s = (ind.getD s.1 0, s.2 - s.1) ∧
    ∀ k, s.1 ≤ k → k < s.2 → ind.getD k 0 = ind.getD s.1 0 + (k - s.1) := by
  have h := contiguate_runs_consecutive _ (by simpa using hne) s hs
  rw [List.length_map] at h
  have hrun : ∀ k, s.1 ≤ k → k + 1 < s.2 → ind.getD (k + 1) 0 = ind.getD k 0 + 1 := by
    intro k hk1 hk2
    have := h.2.2 k hk1 hk2
    rw [List.getD_eq_getElem _ _ (by simp; omega), List.getD_eq_getElem _ _ (by simp; omega)] at this
    rw [List.getD_eq_getElem _ _ (by omega), List.getD_eq_getElem _ _ (by omega)]
    simp only [List.getElem_map] at this
    omega
  refine ⟨h.1, h.2.1, runOf_eq ind s h.1 h.2.1 hrun, fun k hk1 hk2 => ?_⟩
  have := run_entries ind s hrun (k - s.1) (by omega)
  rwa [show s.1 + (k - s.1) = k by omega] at this

/-- the pairs of an output range and a source run along one axis -/
private def axisPairs (ind : List ℕ) : List ((ℕ × ℕ) × (ℕ × ℕ)) :=
  (contiguate (ind.map (fun i : ℕ => (i : ℤ)))).map fun s => (s, runOf ind s)

private theorem loopContiguous_eq (v : View Ax) :
    v.loopContiguous =
      (product (v.inds.map axisPairs)).map fun l => (l.map Prod.fst, l.map Prod.snd) := by
  unfold loopContiguous
  rw [zip_product]
  · congr 1
    generalize v.inds = L
    congr 1
    induction L with
    | nil => rfl
    | cons ind L ih =>
      simp only [List.map_cons, List.zipWith_cons_cons]
      rw [ih]
      congr 1
      simp only [axisPairs]
      rw [← List.map_prod_left_eq_zip]
  · generalize v.inds = L
    induction L with
    | nil => exact List.Forall₂.nil
    | cons ind L ih =>
      simp only [List.map_cons, List.zipWith_cons_cons]
      exact List.Forall₂.cons (by simp) ih


private theorem mem_loopContiguous (v : View Ax) (hpos : ∀ ind ∈ v.inds, ind ≠ [])
    (p : List (ℕ × ℕ) × List (ℕ × ℕ)) (hp : p ∈ v.loopContiguous) :
    ∃ l : List ((ℕ × ℕ) × (ℕ × ℕ)), p = (l.map Prod.fst, l.map Prod.snd) ∧
      List.Forall₂ (fun (q : (ℕ × ℕ) × (ℕ × ℕ)) (ind : List ℕ) => q.1.1 < q.1.2 ∧ q.1.2 ≤ ind.length ∧
        q.2 = (ind.getD q.1.1 0, q.1.2 - q.1.1) ∧
        ∀ k, q.1.1 ≤ k → k < q.1.2 → ind.getD k 0 = ind.getD q.1.1 0 + (k - q.1.1)) l v.inds := by
  rw [loopContiguous_eq, List.mem_map] at hp
  obtain ⟨l, hl, rfl⟩ := hp
  refine ⟨l, rfl, ?_⟩
  rw [mem_product, List.forall₂_map_right_iff] at hl
  have hl' := hl
  generalize hvi : v.inds = L at *
  clear hvi hl'
  induction hl with
  | nil => exact List.Forall₂.nil
  | @cons q ind l L hq _ ih =>
    refine List.Forall₂.cons ?_ (ih (fun i hi => hpos i (by simp [hi])))
    simp only [axisPairs, List.mem_map] at hq
    obtain ⟨s, hs, rfl⟩ := hq
    exact axis_piece ind s hs (hpos ind (by simp))

/-- Each piece: the block of the output has the shape of the source hyper-rectangle, lies inside
the output, and each of its cells corresponds to the requested source position. -/
theorem loopContiguous_piece (v : View Ax) (hpos : ∀ ind ∈ v.inds, ind ≠ [])
    (p : List (ℕ × ℕ) × List (ℕ × ℕ)) (hp : p ∈ v.loopContiguous) :
    p.2.map Prod.snd = p.1.map (fun o => o.2 - o.1) ∧ p.2.length = v.inds.length ∧
    ∀ k, inBox p.1 k = true →
      InBounds v.shape k ∧
      InBounds (p.2.map Prod.snd) (List.zipWith (fun (i : ℕ) (b : ℕ × ℕ) => i - b.1) k p.1) ∧
      List.zipWith (fun (s : ℕ × ℕ) (i : ℕ) => s.1 + i) p.2
        (List.zipWith (fun (i : ℕ) (b : ℕ × ℕ) => i - b.1) k p.1) = cell v.inds k := by
  obtain ⟨l, rfl, hl⟩ := mem_loopContiguous v hpos p hp
  unfold View.shape
  simp only
  generalize v.inds = L at hl
  clear hp hpos
  induction hl with
  | nil =>
    refine ⟨rfl, rfl, fun k hk => ?_⟩
    cases k with
    | nil => exact ⟨List.Forall₂.nil, List.Forall₂.nil, rfl⟩
    | cons _ _ => simp [inBox] at hk
  | @cons q ind l L hq _ ih =>
    obtain ⟨⟨qa, qb⟩, qc⟩ := q
    obtain ⟨h1, h2, h3, h4⟩ := hq
    simp only at h1 h2 h3 h4
    refine ⟨by simp [ih.1, h3], by simpa using ih.2.1, fun k hk => ?_⟩
    cases k with
    | nil => simp [inBox] at hk
    | cons i k =>
      simp only [List.map_cons, inBox, Bool.and_eq_true, decide_eq_true_eq] at hk
      obtain ⟨hb1, hb2, hb3⟩ := ih.2.2 k hk.2
      refine ⟨List.Forall₂.cons (by omega) hb1, ?_, ?_⟩
      · simp only [List.map_cons, List.zipWith_cons_cons]
        exact List.Forall₂.cons (by rw [h3]; simp only; omega) hb2
      · simp only [List.map_cons, List.zipWith_cons_cons, cell]
        rw [h3, h4 i hk.1.1 hk.1.2]
        congr 1

/-- Every output cell lies in exactly one piece. -/
theorem loopContiguous_covers_once (v : View Ax) (k : List ℕ) (hk : InBounds v.shape k) :
    (v.loopContiguous.countP fun p => inBox p.1 k) = 1 := by
  rw [loopContiguous_eq, List.countP_map]
  have : ((fun p : List (ℕ × ℕ) × List (ℕ × ℕ) => inBox p.1 k) ∘
      fun l : List ((ℕ × ℕ) × (ℕ × ℕ)) => (l.map Prod.fst, l.map Prod.snd)) =
      (fun b => inBox b k) ∘ List.map Prod.fst := rfl
  rw [this, ← List.countP_map, ← product_map, countP_product_inBox]
  · unfold InBounds View.shape at hk
    rw [List.forall₂_map_right_iff] at hk
    generalize v.inds = L at hk
    induction hk with
    | nil => rfl
    | @cons i ind k L hi _ ih =>
      simp only [List.map_cons, List.zipWith_cons_cons, List.prod_cons]
      rw [ih rfl]
      have e : (axisPairs ind).map Prod.fst = contiguate (ind.map (fun i : ℕ => (i : ℤ))) := by
        simp [axisPairs, Function.comp_def]
      rw [e, contiguate_unique _ _ (by simpa using hi)]
  · have := InBounds.length hk
    simpa [View.shape] using this

/-- Reading piece by piece into a fresh array gives the requested array, whatever the fresh
array contained. -/
theorem readContiguous_correct (data : List ℕ → α) (lens : List ℕ) (v : View Ax) (junk : List ℕ → α)
    (getvalues : List (ℕ × ℕ) → NArr α)
    (hgv : ∀ sc, List.Forall₂ (fun (s : ℕ × ℕ) (n : ℕ) => s.1 + s.2 ≤ n) sc lens →
      IsSlab data sc (getvalues sc))
    (hr : InRange lens v.inds) (hpos : ∀ ind ∈ v.inds, ind ≠ []) :
    IsRead data v.inds (v.readContiguous { shape := v.shape, get := junk } getvalues) := by
  have hfold : v.readContiguous { shape := v.shape, get := junk } getvalues =
      (v.loopContiguous.map fun p => (p.1, getvalues p.2)).foldl
        (fun (values : NArr α) p => values.setBox p.1 p.2) { shape := v.shape, get := junk } := by
    rw [List.foldl_map]; rfl
  rw [hfold]
  refine ⟨foldl_setBox_shape _ _, fun k hk => ?_⟩
  apply foldl_setBox_get
  · intro q hq hqk
    obtain ⟨p, hp, rfl⟩ := List.mem_map.1 hq
    simp only at hqk ⊢
    have h3 := (loopContiguous_piece v hpos p hp).2.2
    obtain ⟨_, hb, hc⟩ := h3 k hqk
    have hsc : List.Forall₂ (fun (s : ℕ × ℕ) (n : ℕ) => s.1 + s.2 ≤ n) p.2 lens := by
      obtain ⟨l, rfl, hl⟩ := mem_loopContiguous v hpos p hp
      unfold InRange at hr
      simp only
      generalize v.inds = L at hr hl
      clear hp hb hc h3 hqk hq hfold hgv hpos hk
      induction hl generalizing lens with
      | nil => cases hr; exact List.Forall₂.nil
      | @cons q ind l L hq _ ih =>
        cases hr with
        | @cons _ n _ ns hn hns =>
          simp only [List.map_cons]
          refine List.Forall₂.cons ?_ (ih ns hns)
          obtain ⟨h1, h2, h3, h4⟩ := hq
          rw [h3]
          have hlast := h4 (q.1.2 - 1) (by omega) (by omega)
          have hm : ind.getD (q.1.2 - 1) 0 ∈ ind := getD_mem (by omega)
          have := hn _ hm
          simp only
          omega
    rw [(hgv p.2 hsc).2 _ hb, hc]
  · right
    have h1 := loopContiguous_covers_once v k hk
    have : 0 < v.loopContiguous.countP fun p => inBox p.1 k := by omega
    rw [List.countP_pos_iff] at this
    obtain ⟨p, hp, hpk⟩ := this
    exact ⟨(p.1, getvalues p.2), List.mem_map.2 ⟨p, hp, rfl⟩, hpk⟩

example : (View.mk [(), ()] [[3, 4, 1], [0, 2]]).loopContiguous =
    [([(0, 2), (0, 1)], [(3, 2), (0, 1)]), ([(0, 2), (1, 2)], [(3, 2), (2, 1)]),
     ([(2, 3), (0, 1)], [(1, 1), (0, 1)]), ([(2, 3), (1, 2)], [(1, 1), (2, 1)])] := by decide

/-! ## C07 — repeated and unordered positions -/

theorem uniq_getD_searchsorted (ind : List ℕ) (x : ℕ) (hx : x ∈ ind) :
    (uniq ind).getD (searchsorted (uniq ind) x) 0 = x := by
  have hs : (uniq ind).Pairwise (· < ·) := by
    have h1 : (uniq ind).Pairwise (· ≤ ·) := List.pairwise_insertionSort _ _
    have h2 : (uniq ind).Nodup :=
      (List.perm_insertionSort (· ≤ ·) ind.dedup).nodup_iff.2 (List.nodup_dedup _)
    exact (h1.and h2).imp (fun {a b} h => lt_of_le_of_ne h.1 h.2)
  have hm : x ∈ uniq ind := by
    rw [uniq, (List.perm_insertionSort (· ≤ ·) ind.dedup).mem_iff, List.mem_dedup]
    exact hx
  generalize uniq ind = u at hs hm
  clear hx
  unfold searchsorted
  induction u with
  | nil => simp at hm
  | cons a u ih =>
    have hp := List.pairwise_cons.1 hs
    rcases List.mem_cons.1 hm with rfl | h
    · have h0 : (x :: u).countP (fun y => decide (y < x)) = 0 := by
        rw [List.countP_eq_zero]
        intro b hb
        rcases List.mem_cons.1 hb with rfl | hb
        · simp
        · have := hp.1 b hb; simp; omega
      rw [h0]; rfl
    · have hax := hp.1 x h
      rw [List.countP_cons_of_pos (by simpa using hax), List.getD_cons_succ]
      exact ih hp.2 h

theorem searchsorted_lt (ind : List ℕ) (x : ℕ) (hx : x ∈ ind) :
    searchsorted (uniq ind) x < (uniq ind).length := by
  by_contra h
  have := uniq_getD_searchsorted ind x hx
  have hm : x ∈ uniq ind := by
    rw [uniq, (List.perm_insertionSort (· ≤ ·) ind.dedup).mem_iff, List.mem_dedup]
    exact hx
  have h2 : (uniq ind).countP (fun y => decide (y < x)) < (uniq ind).length := by
    rcases Nat.lt_or_ge ((uniq ind).countP (fun y => decide (y < x))) (uniq ind).length with h | h
    · exact h
    · have := List.countP_le_length (p := fun y => decide (y < x)) (l := uniq ind)
      have e := List.countP_eq_length.1 (by omega : (uniq ind).countP (fun y => decide (y < x)) = _) x hm
      simp at e
  exact h h2

theorem mem_uniq {ind : List ℕ} {x : ℕ} : x ∈ uniq ind ↔ x ∈ ind := by
  rw [uniq, (List.perm_insertionSort (· ≤ ·) ind.dedup).mem_iff, List.mem_dedup]

/-- Reading the distinct positions in ascending order and then duplicating gives the array of the
positions as requested. -/
theorem duplicate_correct (data : List ℕ → α) (inds : List (List ℕ)) (r : NArr α)
    (hr : IsRead data (inds.map uniq) r) :
    IsRead data inds (r.outer (inds.map fun ind => ind.map (searchsorted (uniq ind)))) := by
  refine ⟨by simp [outer, Function.comp_def], fun k hk => ?_⟩
  simp only [outer]
  rw [hr.2]
  · congr 1
    clear hr
    unfold InBounds at hk
    rw [List.forall₂_map_right_iff] at hk
    induction hk with
    | nil => rfl
    | @cons i ind k L hi _ ih =>
      simp only [cell, List.map_cons, List.zipWith_cons_cons] at ih ⊢
      rw [ih]
      congr 1
      rw [List.getD_eq_getElem (ind.map (searchsorted (uniq ind))) 0 (by rw [List.length_map]; exact hi),
        List.getElem_map, uniq_getD_searchsorted _ _ (List.getElem_mem _), List.getD_eq_getElem _ _ hi]
  · clear hr
    unfold InBounds at hk ⊢
    rw [List.forall₂_map_right_iff] at hk
    induction hk with
    | nil => exact List.Forall₂.nil
    | @cons i ind k L hi _ ih =>
      simp only [List.map_cons, List.zipWith_cons_cons]
      refine List.Forall₂.cons ?_ ih
      rw [List.getD_eq_getElem (ind.map (searchsorted (uniq ind))) 0 (by rw [List.length_map]; exact hi),
        List.getElem_map]
      exact searchsorted_lt _ _ (List.getElem_mem _)

/-! ## Reading on the variable's own axes -/

private theorem takeAxis_fold : ∀ (inds : List (List ℕ)) (a : NArr α) (j : ℕ),
    a.shape.length = j + inds.length →
    ((inds.zipIdx j).foldl (fun (acc : NArr α) p => acc.takeAxis p.2 p.1) a).shape =
      a.shape.take j ++ inds.map List.length ∧
    ∀ k : List ℕ, k.length = j + inds.length →
      ((inds.zipIdx j).foldl (fun (acc : NArr α) p => acc.takeAxis p.2 p.1) a).get k =
        a.get (k.take j ++ cell inds (k.drop j))
  | [], a, j, h => by
    simp only [List.length_nil, Nat.add_zero] at h
    refine ⟨by simp [← h], fun k hk => ?_⟩
    simp only [List.length_nil, Nat.add_zero] at hk
    simp [← hk, cell]
  | l :: inds, a, j, h => by
    simp only [List.length_cons] at h
    have ih := takeAxis_fold inds (a.takeAxis j l) (j + 1) (by simp [takeAxis]; omega)
    simp only [List.zipIdx_cons, List.foldl_cons]
    refine ⟨?_, fun k hk => ?_⟩
    · rw [ih.1]
      simp only [takeAxis]
      rw [List.take_add_one, List.take_set]
      simp only [List.map_cons]
      rw [List.getElem?_set, if_pos rfl, if_pos (by omega)]
      rw [List.set_eq_of_length_le (by simp)]
      simp
    · simp only [List.length_cons] at hk
      rw [ih.2 k (by omega)]
      simp only [takeAxis]
      congr 1
      have hkj : j < k.length := by omega
      have htj : (k.take j).length = j := by simp; omega
      have hd : k.drop j = k[j] :: k.drop (j + 1) := List.drop_eq_getElem_cons hkj
      rw [hd]
      simp only [cell, List.zipWith_cons_cons]
      rw [List.take_add_one, List.getElem?_eq_getElem hkj]
      simp only [Option.toList_some, List.append_assoc, List.singleton_append]
      rw [List.set_append, if_neg (by omega), htj, Nat.sub_self, List.set_cons_zero]
      congr 2
      have e : (List.take j k ++ k[j] :: List.zipWith (fun (l : List ℕ) (i : ℕ) => l.getD i 0) inds
          (List.drop (j + 1) k)).getD j 0 = k[j] := by
        rw [List.getD_append_right _ _ _ _ (by omega), htj, Nat.sub_self]
        rfl
      rw [e]

/-- `np.unique` sorts and removes repeats. -/
theorem uniq_sorted (ind : List ℕ) : (uniq ind).Pairwise (· < ·) := by
  unfold uniq
  have h1 : (ind.dedup.insertionSort (· ≤ ·)).Pairwise (· ≤ ·) := List.pairwise_insertionSort _ _
  have h2 : (ind.dedup.insertionSort (· ≤ ·)).Nodup := (List.perm_insertionSort _ _).nodup_iff.2 (List.nodup_dedup _)
  exact h1.imp₂ (fun a b h h' => Nat.lt_of_le_of_ne h h') h2

/-- All three kinds of source give the requested array. -/
theorem read_correct (data : List ℕ → α) (axes : List Ax) (lens : List ℕ) (src : Source Ax α)
    (hs : Serves data axes lens src) (inds : List (List ℕ)) (hr : InRange lens inds)
    (hpos : ∀ ind ∈ inds, Tidy ind) :
    IsRead data inds (read src { axes := axes, inds := inds }) := by
  cases src with
  | values a =>
    simp only [Serves] at hs
    have hlen : inds.length = lens.length := hr.length_eq
    have h := takeAxis_fold inds a 0 (by rw [hs.1]; omega)
    simp only [View.read]
    refine ⟨by simpa using h.1, fun k hk => ?_⟩
    rw [h.2 k (by have := InBounds.length hk; simp at this; omega)]
    simp only [List.take_zero, List.drop_zero, List.nil_append]
    refine hs.2 _ ?_
    unfold InBounds at hk ⊢
    unfold InRange at hr
    rw [List.forall₂_map_right_iff] at hk
    clear hs h hlen hpos
    induction hk generalizing lens with
    | nil => cases hr; exact List.Forall₂.nil
    | @cons i ind k L hi _ ih =>
      cases hr with
      | cons hn hns =>
        simp only [cell, List.zipWith_cons_cons]
        exact List.Forall₂.cons (hn _ (getD_mem hi)) (ih _ hns)
  | getview f => exact hs inds hr hpos
  | getvalues init f => exact readContiguous_correct data lens _ init f hs hr fun ind h => (hpos ind h).1

/-- C07: asking for positions in any order, with repeats, gives exactly the values at those
positions, whichever way the variable is read. -/
theorem readUnique_correct (data : List ℕ → α) (axes : List Ax) (lens : List ℕ) (src : Source Ax α)
    (hs : Serves data axes lens src) (inds : List (List ℕ)) (hr : InRange lens inds)
    (hpos : ∀ ind ∈ inds, ind ≠ []) :
    IsRead data inds (readUnique src { axes := axes, inds := inds }) := by
  unfold readUnique
  simp only
  split
  · next hall =>
    refine read_correct data axes lens src hs inds hr fun ind hind => ⟨hpos ind hind, ?_⟩
    have := List.all_eq_true.1 hall ind hind
    rw [Bool.or_eq_true] at this
    rcases this with h | h
    · left
      have h := of_decide_eq_true h
      rw [← h]
      exact uniq_sorted ind
    · right
      have h := of_decide_eq_true h
      obtain ⟨c, hc⟩ := List.length_eq_one_iff.1 h
      intro i hi j hj
      have h1 : i ∈ uniq ind := mem_uniq.2 hi
      have h2 : j ∈ uniq ind := mem_uniq.2 hj
      rw [hc, List.mem_singleton] at h1 h2
      rw [h1, h2]
  · refine duplicate_correct data inds _ (read_correct data axes lens src hs _ ?_ ?_)
    · unfold InRange at hr ⊢
      rw [List.forall₂_map_left_iff]
      exact hr.imp fun ind n h i hi => h i (mem_uniq.1 hi)
    · intro u hu
      obtain ⟨ind, hind, rfl⟩ := List.mem_map.1 hu
      obtain ⟨x, hx⟩ := List.exists_mem_of_ne_nil _ (hpos ind hind)
      exact ⟨List.ne_nil_of_mem (mem_uniq.2 hx), Or.inl (uniq_sorted ind)⟩

/-- the three kinds of source agree -/
theorem sources_agree (data : List ℕ → α) (axes : List Ax) (lens : List ℕ) (s1 s2 : Source Ax α)
    (h1 : Serves data axes lens s1) (h2 : Serves data axes lens s2) (inds : List (List ℕ))
    (hr : InRange lens inds) (hpos : ∀ ind ∈ inds, ind ≠ []) :
    (readUnique s1 { axes := axes, inds := inds }).shape =
      (readUnique s2 { axes := axes, inds := inds }).shape ∧
    ∀ k, InBounds (inds.map List.length) k →
      (readUnique s1 { axes := axes, inds := inds }).get k =
        (readUnique s2 { axes := axes, inds := inds }).get k := by
  have a := readUnique_correct data axes lens s1 h1 inds hr hpos
  have b := readUnique_correct data axes lens s2 h2 inds hr hpos
  exact ⟨a.1.trans b.1.symm, fun k hk => (a.2 k hk).trans (b.2 k hk).symm⟩

/-- a variable in memory: positions 4, 1, 4 (out of order, repeated) of the values 10..14 -/
example : ((List.range 3).map fun i => (readUnique (Ax := Unit) (.values ⟨[5], fun k => 10 + k.getD 0 0⟩)
    ⟨[()], [[4, 1, 4]]⟩).get [i]) = [14, 11, 14] := by decide

/-- the same through contiguous block reads -/
example : ((List.range 3).map fun i => (readUnique (Ax := Unit)
    (.getvalues (fun _ => 0) fun sc => ⟨sc.map Prod.snd, fun k => 10 + (sc.getD 0 (0, 0)).1 + k.getD 0 0⟩)
    ⟨[()], [[4, 1, 4]]⟩).get [i]) = [14, 11, 14] := by decide

end PyGeode
