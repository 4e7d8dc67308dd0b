/-
Property C114: the array `to_xarray` builds out of the chunks of `loop_mem` is the variable, and an array of xarray becomes
a variable that holds the same values.
-/
import Verif.Spec.XArray
import Verif.Props.Loop
import Verif.Props.NetCdf

namespace PyGeode
namespace XArray
open Spec NArr Axis Combine VarOps
variable {α : Type}

/-- the key of a piece, given the slices of every axis -/
def keyOf (order : List (List (List ℕ))) (inds : List (List ℕ)) : List ℕ :=
  List.zipWith (fun (o : List (List ℕ)) (sl : List ℕ) => o.idxOf sl) order inds

theorem note_mem : ∀ (O : List (List (List ℕ))) (q : List (List ℕ)), q.length = O.length →
    List.Forall₂ (· ∈ ·) q (note O q)
  | [], [], _ => List.Forall₂.nil
  | o :: O, s :: q, h => by
    unfold note
    simp only [List.zipWith_cons_cons]
    refine List.Forall₂.cons ?_ (note_mem O q (by simpa using h))
    split_ifs with hs
    · exact hs
    · simp

theorem note_keeps : ∀ (O : List (List (List ℕ))) (q p : List (List ℕ)), q.length = O.length →
    List.Forall₂ (· ∈ ·) p O → List.Forall₂ (· ∈ ·) p (note O q) ∧ keyOf (note O q) p = keyOf O p
  | [], [], [], _, _ => ⟨List.Forall₂.nil, rfl⟩
  | o :: O, s :: q, t :: p, h, hp => by
    obtain ⟨ht, hp⟩ := List.forall₂_cons.1 hp
    obtain ⟨h1, h2⟩ := note_keeps O q p (by simpa using h) hp
    unfold note keyOf at *
    simp only [List.zipWith_cons_cons]
    rw [h2]
    split_ifs with hs
    · exact ⟨List.Forall₂.cons ht h1, rfl⟩
    · exact ⟨List.Forall₂.cons (by simp [ht]) h1, by rw [List.idxOf_append_of_mem ht]⟩

theorem note_length (O : List (List (List ℕ))) (q : List (List ℕ)) (h : q.length = O.length) : (note O q).length = O.length := by
  simp [note, h]

theorem keyOf_inj : ∀ (O : List (List (List ℕ))) (p q : List (List ℕ)), List.Forall₂ (· ∈ ·) p O → List.Forall₂ (· ∈ ·) q O →
    keyOf O p = keyOf O q → p = q
  | [], [], [], _, _, _ => rfl
  | o :: O, s :: p, t :: q, hp, hq, h => by
    obtain ⟨hs, hp⟩ := List.forall₂_cons.1 hp
    obtain ⟨ht, hq⟩ := List.forall₂_cons.1 hq
    unfold keyOf at h
    simp only [List.zipWith_cons_cons, List.cons.injEq] at h
    rw [keyOf_inj O p q hp hq h.2, (List.idxOf_inj hs).1 h.1]

/-- what the loop has done after some of the chunks -/
theorem loop_state (f : View Axis → NArr α) (axes : List Axis) (n : ℕ) (Q : List (List (List ℕ)))
    (hQ : ∀ q ∈ Q, q.length = n) (hnd : Q.Nodup) :
    ∀ O : List (List (List ℕ)), O.length = n →
    let st := (Q.map fun q => (⟨axes, q⟩ : View Axis)).foldl (chunkStep f) (O, fun _ => none)
    st.1 = Q.foldl note O ∧ st.1.length = n ∧ (∀ q ∈ Q, List.Forall₂ (· ∈ ·) q st.1) ∧
    ∀ k c, st.2 k = some c ↔ ∃ q ∈ Q, keyOf st.1 q = k ∧ c = f ⟨axes, q⟩ := by
  intro O hO
  induction Q using List.reverseRecOn with
  | nil => exact ⟨rfl, hO, by simp, by simp⟩
  | append_singleton Q q ih =>
    obtain ⟨h1, h2, h3, h4⟩ := ih (fun p hp => hQ p (by simp [hp])) (List.nodup_append.1 hnd).1
    have hqn : q ∉ Q := fun hq => by
      have := List.nodup_append.1 hnd
      exact this.2.2 q hq q (by simp) rfl
    simp only [List.map_append, List.map_cons, List.map_nil, List.foldl_append, List.foldl_cons, List.foldl_nil]
    set st := (Q.map fun q => (⟨axes, q⟩ : View Axis)).foldl (chunkStep f) (O, fun _ => none) with hst
    clear_value st
    have hl : q.length = st.1.length := by rw [h2]; exact hQ q (by simp)
    have e1 : (chunkStep f st ⟨axes, q⟩).1 = note st.1 q := rfl
    have e2 : ∀ k, (chunkStep f st ⟨axes, q⟩).2 k = if k = keyOf (note st.1 q) q then some (f ⟨axes, q⟩) else st.2 k := fun _ => rfl
    rw [e1]
    refine ⟨by rw [h1], by rw [note_length _ _ hl, h2], ?_, ?_⟩
    · intro p hp
      rcases List.mem_append.1 hp with hp | hp
      · exact (note_keeps st.1 q p hl (h3 p hp)).1
      · rw [List.mem_singleton.1 hp]
        exact note_mem _ _ hl
    · intro k c
      rw [e2]
      split_ifs with hk
      · constructor
        · intro h
          exact ⟨q, by simp, hk.symm, (Option.some.inj h).symm⟩
        · rintro ⟨p, hp, hpk, rfl⟩
          rcases List.mem_append.1 hp with hp | hp
          · have hh := note_keeps st.1 q p hl (h3 p hp)
            rw [hk] at hpk
            exact absurd (keyOf_inj _ p q hh.1 (note_mem _ _ hl) hpk ▸ hp) hqn
          · rw [List.mem_singleton.1 hp]
      · rw [h4]
        constructor
        · rintro ⟨p, hp, hpk, rfl⟩
          exact ⟨p, by simp [hp], by rw [(note_keeps st.1 q p hl (h3 p hp)).2]; exact hpk, rfl⟩
        · rintro ⟨p, hp, hpk, rfl⟩
          rcases List.mem_append.1 hp with hp | hp
          · exact ⟨p, hp, by rw [← (note_keeps st.1 q p hl (h3 p hp)).2]; exact hpk, rfl⟩
          · rw [List.mem_singleton.1 hp] at hpk
            exact absurd hpk.symm hk

theorem product_ne {β : Type} : ∀ (L : List (List β)), (∀ l ∈ L, l ≠ []) → product L ≠ []
  | [], _ => by simp [product]
  | l :: L, h => by
    have h1 := h l (by simp)
    have h2 := product_ne L fun l hl => h l (by simp [hl])
    obtain ⟨a, l, rfl⟩ := List.exists_cons_of_ne_nil h1
    obtain ⟨b, p, hb⟩ := List.exists_cons_of_ne_nil h2
    simp [product, hb]

/-- the slices of the first axis while the others run through all combinations -/
theorem fold_cons (a : List ℕ) : ∀ (Q : List (List (List ℕ))), Q ≠ [] → ∀ (o : List (List ℕ)) (O : List (List (List ℕ))),
    (Q.map (a :: ·)).foldl note (o :: O) = (if a ∈ o then o else o ++ [a]) :: Q.foldl note O
  | [q], _, o, O => by simp [note]
  | q :: q' :: Q, _, o, O => by
    have := fold_cons a (q' :: Q) (by simp) (if a ∈ o then o else o ++ [a]) (note O q)
    rw [List.map_cons, List.foldl_cons, List.foldl_cons]
    have e : note (o :: O) (a :: q) = (if a ∈ o then o else o ++ [a]) :: note O q := rfl
    rw [e, this]
    congr 1
    by_cases h : a ∈ o <;> simp [h]

theorem fold_rest (Q : List (List (List ℕ))) (hQ : Q ≠ []) (L : List (List (List ℕ))) (hL : Q.foldl note L = L) :
    ∀ (l o : List (List ℕ)), (o ++ l).Nodup →
    (l.flatMap fun a => Q.map (a :: ·)).foldl note (o :: L) = (o ++ l) :: L
  | [], o, _ => by simp
  | a :: l, o, h => by
    rw [List.flatMap_cons, List.foldl_append, fold_cons a Q hQ, hL]
    have ha : a ∉ o := fun ha => by
      have := List.nodup_append.1 h
      exact this.2.2 a ha a (by simp) rfl
    rw [if_neg ha, fold_rest Q hQ L hL l (o ++ [a]) (by simpa using h)]
    simp

theorem fold_id (L : List (List (List ℕ))) : ∀ (Q : List (List (List ℕ))), (∀ q ∈ Q, List.Forall₂ (· ∈ ·) q L) → Q.foldl note L = L
  | [], _ => rfl
  | q :: Q, h => by
    have : note L q = L := by
      have := h q (by simp)
      unfold note
      clear h
      induction this with
      | nil => rfl
      | cons hs _ ih => rw [List.zipWith_cons_cons, if_pos hs, ih]
    rw [List.foldl_cons, this]
    exact fold_id L Q fun p hp => h p (by simp [hp])

/-- the slices come in the order in which the axis is cut -/
theorem fold_product : ∀ (L : List (List (List ℕ))), (∀ l ∈ L, l ≠ [] ∧ l.Nodup) →
    (product L).foldl note (L.map fun _ => []) = L
  | [], _ => rfl
  | l :: L, h => by
    have ih := fold_product L fun l hl => h l (by simp [hl])
    have hne := product_ne L fun l hl => (h l (by simp [hl])).1
    obtain ⟨h1, h2⟩ := h l (by simp)
    obtain ⟨a, l, rfl⟩ := List.exists_cons_of_ne_nil h1
    rw [product, List.flatMap_cons, List.foldl_append, List.map_cons, fold_cons a _ hne, ih,
      if_neg (List.not_mem_nil), List.nil_append,
      fold_rest _ hne L (fold_id L _ fun q hq => mem_product.1 hq) l [a] (by simpa using h2)]
    rfl

theorem flatten_at : ∀ (q : List (List ℕ)) (i r : ℕ), i < q.length → r < (q.getD i []).length →
    q.flatten.getD (((q.map List.length).take i).sum + r) 0 = (q.getD i []).getD r 0
  | s :: q, 0, r, _, hr => by
    simp only [List.getD_cons_zero] at hr
    simp only [List.take_zero, List.sum_nil, Nat.zero_add, List.flatten_cons, List.getD_cons_zero]
    rw [List.getD_append _ _ _ _ hr]
  | s :: q, i + 1, r, hi, hr => by
    simp only [List.getD_cons_succ] at hr ⊢
    simp only [List.map_cons, List.take_succ_cons, List.sum_cons, List.flatten_cons]
    rw [List.getD_append_right _ _ _ _ (by omega), ← flatten_at q i r (by simpa using hi) hr]
    congr 1
    omega

theorem locate_piece : ∀ (s : List ℕ) (p : ℕ), p < s.sum → InPiece s p (locate s p).1 (locate s p).2
  | [], p, h => by simp at h
  | n :: s, p, h => by
    unfold locate
    split_ifs with hp
    · exact ⟨by simp, by simpa using hp, by simp⟩
    · obtain ⟨h1, h2, h3⟩ := locate_piece s (p - n) (by simp at h; omega)
      refine ⟨by simpa using h1, by simpa using h2, ?_⟩
      simp only [List.take_succ_cons, List.sum_cons]
      omega

/-- the slices with these numbers -/
def pick (L : List (List (List ℕ))) (key : List ℕ) : List (List ℕ) :=
  List.zipWith (fun (l : List (List ℕ)) (i : ℕ) => l.getD i []) L key

theorem pick_key : ∀ (L : List (List (List ℕ))) (key : List ℕ), (∀ l ∈ L, l.Nodup) → InBounds (L.map List.length) key →
    List.Forall₂ (· ∈ ·) (pick L key) L ∧ keyOf L (pick L key) = key
  | [], [], _, _ => ⟨List.Forall₂.nil, rfl⟩
  | l :: L, i :: key, h, hk => by
    obtain ⟨hi, hk⟩ := List.forall₂_cons.1 hk
    obtain ⟨h1, h2⟩ := pick_key L key (fun l hl => h l (by simp [hl])) hk
    unfold pick keyOf at *
    simp only [List.zipWith_cons_cons]
    rw [h2, List.getD_eq_getElem _ _ hi]
    exact ⟨List.Forall₂.cons (List.getElem_mem hi) h1, by rw [(h l (by simp)).idxOf_getElem]⟩

theorem key_bounds {L : List (List (List ℕ))} {q : List (List ℕ)} (h : List.Forall₂ (· ∈ ·) q L) :
    InBounds (L.map List.length) (keyOf L q) ∧
    List.zipWith (fun (s : List ℕ) (i : ℕ) => s.getD i 0) (L.map (List.map List.length)) (keyOf L q) = q.map List.length := by
  induction h with
  | nil => exact ⟨List.Forall₂.nil, rfl⟩
  | @cons s l q L hs _ ih =>
    unfold keyOf at *
    simp only [List.zipWith_cons_cons, List.map_cons]
    have hi := List.idxOf_lt_length_of_mem hs
    refine ⟨List.Forall₂.cons hi ih.1, ?_⟩
    rw [ih.2, List.getD_eq_getElem _ _ (by simpa using hi), List.getElem_map, List.getElem_idxOf]

/-- the source position of a position in a piece -/
theorem piece_cell : ∀ (L : List (List (List ℕ))) (lens k key rs : List ℕ),
    L.map List.flatten = lens.map List.range → k.length = lens.length → key.length = lens.length → rs.length = lens.length →
    (∀ a < lens.length, InPiece ((L.getD a []).map List.length) (k.getD a 0) (key.getD a 0) (rs.getD a 0)) →
    InBounds (L.map List.length) key ∧ InBounds ((pick L key).map List.length) rs ∧ cell (pick L key) rs = k
  | [], [], [], [], [], _, _, _, _, _ => ⟨List.Forall₂.nil, List.Forall₂.nil, rfl⟩
  | l :: L, n :: lens, p :: k, i :: key, r :: rs, hL, hk, hkey, hrs, h => by
    simp only [List.map_cons, List.cons.injEq] at hL
    obtain ⟨h1, h2, h3⟩ := piece_cell L lens k key rs hL.2 (by simpa using hk) (by simpa using hkey) (by simpa using hrs)
      fun a ha => by simpa using h (a + 1) (by simpa using ha)
    obtain ⟨hi, hr, hp⟩ := h 0 (by simp)
    simp only [List.getD_cons_zero, List.length_map] at hi hr hp
    rw [List.getD_eq_getElem _ _ (by simpa using hi), List.getElem_map] at hr
    have e := flatten_at l i r hi (by rw [List.getD_eq_getElem _ _ hi]; exact hr)
    rw [← hp, hL.1] at e
    have hpn : p < n := by
      by_contra hc
      have hlen : l.flatten.length = n := by rw [hL.1]; simp
      have hsum : ((l.map List.length).take i).sum + l[i].length ≤ (l.map List.length).sum := by
        have := List.sum_take_add_sum_drop (l.map List.length) i
        rw [List.drop_eq_getElem_cons (by simpa using hi)] at this
        simp only [List.getElem_map, List.sum_cons] at this
        omega
      rw [List.length_flatten] at hlen
      omega
    rw [List.getD_eq_getElem _ _ (by simpa using hpn), List.getElem_range] at e
    unfold pick cell at *
    simp only [List.zipWith_cons_cons, List.map_cons]
    refine ⟨List.Forall₂.cons hi h1, List.Forall₂.cons ?_ h2, ?_⟩
    · rw [List.getD_eq_getElem _ _ hi]; exact hr
    · rw [h3, ← e]

theorem mem_forall₂_left {β γ : Type} {R : β → γ → Prop} {l : List β} {r : List γ} (h : List.Forall₂ R l r) {b : β}
    (hb : b ∈ l) : ∃ c ∈ r, R b c := by
  induction h with
  | nil => simp at hb
  | cons h1 _ ih =>
    rcases List.mem_cons.1 hb with rfl | hb
    · exact ⟨_, by simp, h1⟩
    · obtain ⟨c, hc, hr⟩ := ih hb
      exact ⟨c, by simp [hc], hr⟩

/-- C114: whatever the limit on the size of a chunk, what xarray is given by `to_xarray` holds the values of the variable;
if they are not in memory already, they come in pieces of at most `limit` values, one for each combination of a piece of
each axis. -/
theorem toXarray_correct (limit : ℕ) (hl : 1 ≤ limit) (x : Var α) (data : List ℕ → α) (hx : Contains x data)
    (hne : ∀ a ∈ x.axes, 0 < a.len) (hs : ∀ i f, x.src ≠ .getvalues i f) :
    ∃ s, toXarray limit x = some s ∧ IsStored limit (x.axes.map Axis.len) data s := by
  unfold toXarray
  unfold Contains at hx
  rcases hsrc : x.src with a | f | ⟨i, f⟩
  · rw [hsrc] at hx
    exact ⟨_, rfl, hx⟩
  · rw [hsrc] at hx
    refine ⟨_, rfl, ?_⟩
    have hpos : ∀ ind ∈ x.whole.inds, ind ≠ [] := by
      intro ind hind
      obtain ⟨a, ha, rfl⟩ := List.mem_map.1 hind
      have := hne a ha
      intro h0
      have := congrArg List.length h0
      simp at this
      omega
    obtain ⟨L, h1, h2, -, h4, h5⟩ := loopMem_splits x.whole limit [] hl hpos (by simp)
    have hw : x.whole.inds = (x.axes.map Axis.len).map List.range := by simp [Var.whole]
    have hloop : x.whole.loopMem limit [] = (product L).map fun q => (⟨x.axes, q⟩ : View Axis) := by
      rw [← h4, List.map_map]
      refine (List.map_id _).symm.trans (List.map_congr_left fun c hc => ?_)
      have := h5 c hc
      rcases c with ⟨ca, ci⟩
      simp only [Function.comp_apply, id] at *
      rw [this]; rfl
    rw [hw] at h1
    set lens := x.axes.map Axis.len with hlens
    have hLl : L.length = x.axes.length := by
      have := congrArg List.length h1
      simpa [hlens] using this
    have hLne : ∀ l ∈ L, l ≠ [] ∧ l.Nodup := by
      intro l hl'
      have hfl : l.flatten ∈ lens.map List.range := by rw [← h1]; exact List.mem_map_of_mem hl'
      obtain ⟨n, hn, hr⟩ := List.mem_map.1 hfl
      obtain ⟨a, ha, rfl⟩ := List.mem_map.1 hn
      have hn0 := hne a ha
      refine ⟨?_, ?_⟩
      · rintro rfl
        have := congrArg List.length hr
        simp at this
        omega
      · have hnd : l.flatten.Nodup := by rw [← hr]; exact List.nodup_range
        have := (List.nodup_flatten.1 hnd).2
        refine (List.Pairwise.and_mem.1 this).imp fun {s t} h hst => ?_
        subst hst
        obtain ⟨hs1, -, hd⟩ := h
        have := h2 l hl' s hs1
        obtain ⟨b, s', rfl⟩ := List.exists_cons_of_ne_nil this
        exact hd (List.mem_cons_self) (List.mem_cons_self)
    have hread : ∀ q ∈ product L, IsRead data q (f ⟨x.axes, q⟩) ∧ 0 < (q.map List.length).prod ∧ (q.map List.length).prod ≤ limit := by
      intro q hq
      have hc : (⟨x.axes, q⟩ : View Axis) ∈ x.whole.loopMem limit [] := by rw [hloop]; exact List.mem_map_of_mem hq
      have hsub := (Loop.chunk_sub x.whole hl hpos (by simp) _ hc).2
      have hsz := loopMem_size_le_limit x.whole limit hl hpos _ hc
      rw [hw] at hsub
      refine ⟨hx q ?_ ?_, ?_, hsz⟩
      · rw [List.forall₂_map_right_iff] at hsub
        exact hsub.imp fun c n h i hi => List.mem_range.1 (h.1 i hi)
      · intro ind hind
        obtain ⟨o, ho, h1, h2, h3⟩ := mem_forall₂_left hsub hind
        obtain ⟨n, -, rfl⟩ := List.mem_map.1 ho
        exact ⟨h2, Or.inl (List.pairwise_lt_range.sublist h3)⟩
      · refine Nat.pos_of_ne_zero fun h0 => ?_
        rw [List.prod_eq_zero_iff] at h0
        revert h0
        intro hn
        obtain ⟨ind, hind, h0⟩ := List.mem_map.1 hn
        obtain ⟨o, ho, h1, h2, h3⟩ := mem_forall₂_left hsub hind
        exact h2 (List.length_eq_zero_iff.1 h0)
    have hO : (x.axes.map fun _ => ([] : List (List ℕ))) = L.map fun _ => [] := by
      rw [List.map_const', List.map_const', hLl]
    rw [hloop]
    obtain ⟨s1, s2, s3, s4⟩ := loop_state f x.axes L.length (product L) (fun q hq => (mem_product.1 hq).length_eq)
      (product_nodup fun l hl' => (hLne l hl').2) (L.map fun _ => []) (by simp)
    rw [fold_product L hLne] at s1
    rw [← hO] at s1 s2 s3 s4
    set st := ((product L).map fun q => (⟨x.axes, q⟩ : View Axis)).foldl (chunkStep f) (x.axes.map fun _ => [], fun _ => none)
      with hst
    clear_value st
    rw [s1] at s3 s4
    constructor
    · simp only [s1]
      rw [List.map_map]
      have : L.map (List.sum ∘ List.map List.length) = (L.map List.flatten).map List.length := by
        rw [List.map_map]
        exact List.map_congr_left fun l _ => by simp [List.length_flatten]
      rw [this, h1, List.map_map]
      exact (List.map_congr_left fun n _ => by simp).trans (List.map_id _)
    · intro key
      simp only [s1, List.map_map]
      rw [show L.map (List.length ∘ List.map List.length) = L.map List.length from List.map_congr_left fun l _ => by simp]
      constructor
      · rintro ⟨c, hc⟩
        obtain ⟨q, hq, rfl, -⟩ := (s4 key c).1 hc
        exact (key_bounds (mem_product.1 hq)).1
      · intro hk
        obtain ⟨h1, h2⟩ := pick_key L key (fun l hl' => (hLne l hl').2) hk
        exact ⟨_, (s4 key _).2 ⟨pick L key, mem_product.2 h1, h2, rfl⟩⟩
    · intro key c hc
      obtain ⟨q, hq, rfl, rfl⟩ := (s4 key c).1 hc
      simp only [s1]
      rw [(key_bounds (mem_product.1 hq)).2]
      exact (hread q hq).1.1
    · intro key c hc
      obtain ⟨q, hq, rfl, rfl⟩ := (s4 key c).1 hc
      rw [(hread q hq).1.1]
      exact (hread q hq).2
    · intro k key rs hk hkey hrs hp
      simp only [s1] at hp
      obtain ⟨p1, p2, p3⟩ := piece_cell L lens k key rs h1 hk hkey hrs fun a ha => by
        have := hp a ha
        have hla : a < L.length := by rw [hLl]; simpa [hlens] using ha
        rw [List.getD_eq_getElem _ _ (by simpa using hla), List.getElem_map] at this
        rw [List.getD_eq_getElem _ _ hla]
        exact this
      obtain ⟨h1, h2⟩ := pick_key L key (fun l hl' => (hLne l hl').2) p1
      refine ⟨_, (s4 key _).2 ⟨pick L key, mem_product.2 h1, h2, rfl⟩, ?_⟩
      rw [(hread _ (mem_product.2 h1)).1.2 rs p2, p3]
  · exact absurd hsrc (hs i f)

/-- the pieces of the positions of an array -/
theorem locate_all {chunks : List (List ℕ)} {k : List ℕ} (hk : InBounds (chunks.map List.sum) k) (a : ℕ) (ha : a < chunks.length) :
    InPiece (chunks.getD a []) (k.getD a 0) (((List.zipWith locate chunks k).map Prod.fst).getD a 0)
      (((List.zipWith locate chunks k).map Prod.snd).getD a 0) := by
  have hkl : k.length = chunks.length := by simpa using hk.length_eq
  have hb := (inBounds_iff.1 hk).2 a (by simpa using ha)
  rw [List.getD_eq_getElem (chunks.map List.sum) _ (by simpa using ha), List.getElem_map] at hb
  have := locate_piece chunks[a] (k.getD a 0) hb
  rw [List.getD_eq_getElem chunks _ ha, List.getD_eq_getElem ((List.zipWith locate chunks k).map Prod.fst) _ (by simp; omega),
    List.getD_eq_getElem ((List.zipWith locate chunks k).map Prod.snd) _ (by simp; omega),
    List.getElem_map, List.getElem_map, List.getElem_zipWith, ← List.getD_eq_getElem k 0 (by omega)]
  exact this

/-- C114: all of what xarray is given, as one array, has the shape of the variable and its values. -/
theorem stored_array (junk : List ℕ → α) (limit : ℕ) (lens : List ℕ) (data : List ℕ → α) (s : Stored α)
    (hs : IsStored limit lens data s) :
    (s.array junk).shape = lens ∧ ∀ k, InBounds lens k → (s.array junk).get k = data k := by
  rcases s with a | d
  · exact hs
  · refine ⟨hs.sums, fun k hk => ?_⟩
    have hk' := hk
    rw [← hs.sums] at hk'
    have hcl : d.chunks.length = lens.length := by rw [← hs.sums]; simp
    have hkl : k.length = lens.length := hk.length_eq
    obtain ⟨c, h1, h2⟩ := hs.value k ((List.zipWith locate d.chunks k).map Prod.fst) ((List.zipWith locate d.chunks k).map Prod.snd)
      hkl (by simp; omega) (by simp; omega) fun a ha => locate_all hk' a (by omega)
    show (match d.graph ((List.zipWith locate d.chunks k).map Prod.fst) with
      | some c => c.get ((List.zipWith locate d.chunks k).map Prod.snd)
      | none => junk k) = data k
    rw [h1]
    exact h2

/-- C114: an array of xarray with distinct names of dimensions is read as it is: the variable has an axis of the same name
and length for every dimension, and any selection shows the values of the array. -/
theorem fromXarray_correct (nr : List ℚ → ℚ) (junk : List ℕ → α) (dims : List Name) (arr : NArr α) (data : List ℕ → α)
    (hd : dims.length = arr.shape.length) (hn : dims.Nodup) (ha : ∀ k, InBounds arr.shape k → arr.get k = data k) :
    (fromXarray nr dims arr).axes.map Axis.name = dims ∧ (fromXarray nr dims arr).axes.map Axis.len = arr.shape ∧
    Regular (fromXarray nr dims arr).axes ∧ Contains (fromXarray nr dims arr) data ∧
    ∀ I, InRange arr.shape I → (∀ ind ∈ I, ind ≠ []) →
      ∃ r, (fromXarray nr dims arr).read nr junk ⟨(fromXarray nr dims arr).axes, I⟩ = some r ∧ IsRead data I r := by
  have e1 : (fromXarray nr dims arr).axes.map Axis.name = dims := by
    refine List.ext_getElem (by simp [fromXarray, hd]) fun i h1 h2 => ?_
    simp [fromXarray, NetCdf.named, NetCdf.mkNamed]
  have e2 : (fromXarray nr dims arr).axes.map Axis.len = arr.shape := by
    refine List.ext_getElem (by simp [fromXarray, hd]) fun i h1 h2 => ?_
    simp [fromXarray, NetCdf.named, NetCdf.mkNamed, Axis.len, NetCdf.counting]
  have hreg : Regular (fromXarray nr dims arr).axes := by
    have hnamed : ∀ a ∈ (fromXarray nr dims arr).axes, ∃ v, a = NetCdf.named nr a.name false v := by
      intro a ha
      obtain ⟨i, hi, rfl⟩ := List.getElem_of_mem ha
      simp only [fromXarray, List.getElem_zipWith]
      exact ⟨_, rfl⟩
    refine ⟨fun a ha => ?_, ?_⟩
    · obtain ⟨v, hv⟩ := hnamed a ha
      rw [hv]; simp [NetCdf.named, NetCdf.mkNamed]
    · rw [← e1] at hn
      have := List.pairwise_map.1 hn
      refine (List.Pairwise.and_mem.1 this).imp fun {a b} h => ?_
      obtain ⟨ha, hb, hne⟩ := h
      obtain ⟨v, hv⟩ := hnamed a ha
      obtain ⟨w, hw⟩ := hnamed b hb
      refine NetCdf.compat_name (nr := nr) ?_ ?_ hne
      · rw [hv]; exact NetCdf.isNamed_plain (Or.inl ⟨_, _, _, rfl⟩)
      · rw [hw]; exact NetCdf.isNamed_plain (Or.inl ⟨_, _, _, rfl⟩)
  have hc : Contains (fromXarray nr dims arr) data := by
    unfold Contains
    rw [e2]
    intro I hI ht
    refine ⟨rfl, fun k hk => ha _ ?_⟩
    have hm := Reduce.cell_mem hk
    have hI' : List.Forall₂ (fun (l : List ℕ) (n : ℕ) => ∀ i ∈ l, i < n) I arr.shape := hI
    have hm' : List.Forall₂ (· ∈ ·) (List.zipWith (fun (l : List ℕ) (i : ℕ) => l.getD i 0) I k) I := hm
    show InBounds arr.shape (List.zipWith (fun (l : List ℕ) (i : ℕ) => l.getD i 0) I k)
    generalize List.zipWith (fun (l : List ℕ) (i : ℕ) => l.getD i 0) I k = q at hm'
    clear hk hm hI ht hreg e2 e1 ha hd
    unfold InBounds
    generalize arr.shape = S at hI'
    revert q
    induction hI' with
    | nil => intro q h; cases h; exact List.Forall₂.nil
    | cons h1 _ ih =>
      intro q h
      cases h with
      | cons h2 h3 => exact List.Forall₂.cons (h1 _ h2) (ih _ h3)
  refine ⟨e1, e2, hreg, hc, fun I hI hne => ?_⟩
  rw [← e2] at hI
  exact read_own nr junk _ data hc hreg I hI hne

/-- C114: there and back, the values are the same. -/
theorem xarray_round_trip (nr : List ℚ → ℚ) (junk : List ℕ → α) (limit : ℕ) (hl : 1 ≤ limit) (x : Var α) (data : List ℕ → α)
    (hx : Contains x data) (hne : ∀ a ∈ x.axes, 0 < a.len) (hs : ∀ i f, x.src ≠ .getvalues i f)
    (hn : (x.axes.map Axis.name).Nodup) :
    ∃ s y, toXarray limit x = some s ∧ y = fromXarray nr (x.axes.map Axis.name) (s.array junk) ∧
      y.axes.map Axis.name = x.axes.map Axis.name ∧ y.axes.map Axis.len = x.axes.map Axis.len ∧ Contains y data := by
  obtain ⟨s, h1, h2⟩ := toXarray_correct limit hl x data hx hne hs
  obtain ⟨h3, h4⟩ := stored_array junk limit _ data s h2
  obtain ⟨h5, h6, -, h7, -⟩ := fromXarray_correct nr junk (x.axes.map Axis.name) (s.array junk) data (by rw [h3]; simp) hn
    (by rw [h3]; exact h4)
  exact ⟨s, _, h1, rfl, h5, by rw [h6, h3], h7⟩

/-! ### Examples: a computed variable, in pieces of at most two values -/

/-- `boxEx`, its values computed when they are asked for -/
def lazyEx : Var ℚ :=
  { axes := Loop.boxEx.axes
    src := .getview fun v => ⟨v.shape, fun k => 100 * (cell v.inds k).getD 0 0 + 10 * (cell v.inds k).getD 1 0 + (cell v.inds k).getD 2 0⟩ }

theorem lazyEx_contains : Contains lazyEx (fun k => 100 * k.getD 0 0 + 10 * k.getD 1 0 + k.getD 2 0) :=
  fun _ _ _ => ⟨rfl, fun _ _ => rfl⟩

example : ∃ s, toXarray 2 lazyEx = some s ∧
    IsStored 2 (lazyEx.axes.map Axis.len) (fun k => (100 : ℚ) * k.getD 0 0 + 10 * k.getD 1 0 + k.getD 2 0) s :=
  toXarray_correct 2 (by decide) lazyEx _ lazyEx_contains (by decide +kernel) (by intro i f h; cases h)

example : (match toXarray 2 lazyEx with
    | some (.chunked d) => some (d.chunks, (d.graph [2, 1, 1]).map fun c => (c.shape, c.get [0, 0, 0]))
    | _ => none) = some ([[1, 1, 1], [1, 1], [2, 2]], some ([1, 1, 2], 212)) := by decide +kernel

/-- C114: a variable of a file (read with `getvalues`) cannot be converted, although every one of its cells can be read:
`to_xarray` raises an exception. -/
theorem toXarray_getvalues_violated : ∃ (x : Var ℚ) (data : List ℕ → ℚ), Contains x data ∧ (∀ a ∈ x.axes, 0 < a.len) ∧
    Regular x.axes ∧ ∀ limit, toXarray limit x = none := by
  refine ⟨⟨Loop.boxEx.axes, .getvalues (fun _ => 0) fun sc => ⟨sc.map Prod.snd, fun _ => 7⟩⟩, fun _ => 7, ?_, by decide +kernel, ?_,
    fun _ => rfl⟩
  · exact fun sc _ => ⟨rfl, fun _ _ => rfl⟩
  · exact Loop.boxEx_reducible.reg

end XArray
end PyGeode
