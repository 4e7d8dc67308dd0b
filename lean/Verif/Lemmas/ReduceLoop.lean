/- The chunk loop of the reductions. -/
import Verif.Lemmas.Reduce

namespace PyGeode
namespace Reduce
open NArr View Spec
open scoped List
variable {A M γ δ : Type}

theorem product_cell : ∀ (L : List (List ℕ)),
    (product (L.map fun l => List.range l.length)).map (cell L) = product L
  | [] => rfl
  | l :: L => by
    have ih := product_cell L
    simp only [List.map_cons, product, List.map_flatMap, List.map_map]
    have e : ∀ i : ℕ, ((product (L.map fun l => List.range l.length)).map (cell (l :: L) ∘ fun x => i :: x)) =
        (product L).map (l.getD i 0 :: ·) := by
      intro i
      rw [← ih, List.map_map]
      rfl
    simp only [e]
    have e2 : (List.range l.length).flatMap (fun i => (product L).map (l.getD i 0 :: ·)) =
        ((List.range l.length).map fun i => l.getD i 0).flatMap fun a => (product L).map (a :: ·) := by
      rw [List.flatMap_map]
    rw [e2]
    congr 1
    refine List.ext_getElem (by simp) fun i h1 h2 => ?_
    simp [h2]

theorem forall₂_dropAxes {r : γ → δ → Prop} (d : γ) (d' : δ) (R : List ℕ) {p : List γ} {q : List δ}
    (h : List.Forall₂ r p q) : List.Forall₂ r (dropAxes d R p) (dropAxes d' R q) := by
  unfold dropAxes
  rw [← h.length_eq, List.forall₂_map_left_iff, List.forall₂_map_right_iff, List.forall₂_same]
  intro i hi
  have hip : i < p.length := by simpa using (List.mem_filter.1 hi).1
  have hiq : i < q.length := by rw [← h.length_eq]; exact hip
  rw [List.getD_eq_getElem _ _ hip, List.getD_eq_getElem _ _ hiq]
  rw [List.forall₂_iff_get] at h
  exact h.2 i hip hiq

theorem dropAxes_map (d : γ) (d' : δ) (R : List ℕ) (f : γ → δ) (p : List γ) :
    dropAxes d' R (p.map f) = (dropAxes d R p).map f := by
  unfold dropAxes
  rw [List.length_map, List.map_map]
  refine List.map_congr_left fun i hi => ?_
  have hip : i < p.length := by simpa using (List.mem_filter.1 hi).1
  simp only [Function.comp_apply]
  rw [List.getD_eq_getElem _ _ (by simpa using hip), List.getD_eq_getElem _ _ hip, List.getElem_map]

theorem mem_dropAxes {d : γ} {R : List ℕ} {p : List γ} {x : γ} (h : x ∈ dropAxes d R p) : x ∈ p := by
  unfold dropAxes at h
  obtain ⟨i, hi, rfl⟩ := List.mem_map.1 h
  exact getD_mem (by simpa using (List.mem_filter.1 hi).1)

theorem cell_dropAxes (R : List ℕ) (L : List (List ℕ)) (p : List ℕ) (h : p.length = L.length) :
    dropAxes 0 R (cell L p) = cell (dropAxes [] R L) (dropAxes 0 R p) := by
  have hl : (cell L p).length = L.length := by simp [cell, h]
  unfold dropAxes
  rw [hl, h]
  conv_rhs => rw [cell]
  rw [List.zipWith_map_left, List.zipWith_map_right, List.zipWith_self]
  refine List.map_congr_left fun i hi => ?_
  have hiL : i < L.length := by simpa using (List.mem_filter.1 hi).1
  rw [List.getD_eq_getElem _ _ (by omega)]
  simp only [cell, List.getElem_zipWith]
  rw [List.getD_eq_getElem L _ hiL, List.getD_eq_getElem p _ (by omega)]

theorem cell_inj {L : List (List ℕ)} (hnd : ∀ l ∈ L, l.Nodup) {k k' : List ℕ}
    (hk : InBounds (L.map List.length) k) (hk' : InBounds (L.map List.length) k')
    (h : cell L k = cell L k') : k = k' := by
  unfold InBounds at hk hk'
  rw [List.forall₂_map_right_iff] at hk hk'
  induction hk generalizing k' with
  | nil => cases hk'; rfl
  | @cons i l k L hi _ ih =>
    cases hk' with
    | @cons j _ k' _ hj hk' =>
      simp only [cell, List.zipWith_cons_cons, List.cons.injEq] at h
      rw [ih (fun l hl => hnd l (by simp [hl])) hk' h.2]
      congr 1
      have h1 := h.1
      rw [List.getD_eq_getElem _ _ hi, List.getD_eq_getElem _ _ hj] at h1
      exact (hnd l (by simp)).getElem_inj_iff.1 h1

theorem cell_mem {L : List (List ℕ)} {k : List ℕ} (hk : InBounds (L.map List.length) k) :
    List.Forall₂ (· ∈ ·) (cell L k) L := by
  unfold InBounds at hk
  rw [List.forall₂_map_right_iff] at hk
  induction hk with
  | nil => exact List.Forall₂.nil
  | @cons i l k L hi _ ih =>
    simp only [cell, List.zipWith_cons_cons]
    exact List.Forall₂.cons (getD_mem hi) ih

section
variable {mop : M → M → M} {me : M} {op : A → A → A} {e : A} {h : A → M}

/-- reduction of one chunk in terms of source cells -/
theorem chunk_reduce (hh : Hom op e mop me h) (data : List ℕ → A) (C : List (List ℕ)) (a : NArr A)
    (ha : IsRead data C a) (R : List ℕ) (hR : R.Nodup) (hlt : ∀ i ∈ R, i < C.length)
    (hnd : ∀ l ∈ dropAxes [] R C, l.Nodup) (k : List ℕ)
    (hk : InBounds ((dropAxes [] R C).map List.length) k) :
    h ((npReduce op e a R).get k) =
      (((product C).filter fun q => decide (dropAxes 0 R q = cell (dropAxes [] R C) k)).map
        fun q => h (data q)).foldr mop me := by
  have hsl : a.shape = C.map List.length := ha.1
  rw [npReduce_spec hh a R hR (by rw [hsl]; simpa using hlt) k (by
    rw [hsl, dropAxes_map [] 0]; exact hk)]
  rw [← product_cell C, List.filter_map, List.map_map]
  unfold fibre
  rw [hsl, List.map_map]
  have e1 : (List.range ∘ List.length : List ℕ → List ℕ) = fun l => List.range l.length := rfl
  rw [e1]
  have hmem : ∀ p ∈ product (C.map fun l => List.range l.length), InBounds (C.map List.length) p := by
    intro p hp
    rw [← mem_product_range, List.map_map]
    exact hp
  have e2 : (product (C.map fun l => List.range l.length)).filter (fun p => decide (dropAxes 0 R p = k)) =
      (product (C.map fun l => List.range l.length)).filter
        ((fun q => decide (dropAxes 0 R q = cell (dropAxes [] R C) k)) ∘ cell C) := by
    refine List.filter_congr fun p hp => ?_
    have hb := hmem p hp
    have hpl : p.length = C.length := by simpa using InBounds.length hb
    simp only [Function.comp_apply, decide_eq_decide]
    rw [cell_dropAxes R C p hpl]
    constructor
    · intro h; rw [h]
    · intro h
      refine cell_inj hnd ?_ hk h
      rw [← dropAxes_map [] 0]
      exact forall₂_dropAxes 0 0 R hb
  rw [e2]
  congr 1
  refine List.map_congr_left fun p hp => ?_
  have hb := hmem p (List.mem_filter.1 hp).1
  simp only [Function.comp_apply]
  rw [ha.2 p hb]

/-- the place of a chunk in the output -/
theorem place_chunk {C out : List (List ℕ)}
    (hC : List.Forall₂ (fun (c o : List ℕ) => (∀ x ∈ c, x ∈ o) ∧ c.Nodup ∧ o.Nodup) C out) (k : List ℕ)
    (hk : InBounds (out.map List.length) k) :
    let pos := List.zipWith (fun (c o : List ℕ) => c.map fun p : ℕ => o.idxOf p) C out
    ((List.zipWith (fun (l : List ℕ) (i : ℕ) => decide (i ∈ l)) pos k).all id = true ↔
      List.Forall₂ (· ∈ ·) (cell out k) C) ∧
    (List.Forall₂ (· ∈ ·) (cell out k) C →
      InBounds (C.map List.length) (List.zipWith (fun (l : List ℕ) (i : ℕ) => l.idxOf i) pos k) ∧
      cell C (List.zipWith (fun (l : List ℕ) (i : ℕ) => l.idxOf i) pos k) = cell out k) := by
  unfold InBounds at hk ⊢
  rw [List.forall₂_map_right_iff] at hk
  induction hC generalizing k with
  | nil => cases hk; simp [cell]
  | @cons c o C out hco _ ih =>
    cases hk with
    | @cons i _ k _ hi hk =>
      obtain ⟨hsub, hcn, hon⟩ := hco
      obtain ⟨ih1, ih2⟩ := ih k hk
      have hgi : o.getD i 0 = o[i] := List.getD_eq_getElem _ _ hi
      have hidx : o.idxOf o[i] = i := hon.idxOf_getElem i hi
      have hin : i ∈ c.map (fun p : ℕ => o.idxOf p) ↔ o.getD i 0 ∈ c := by
        rw [List.mem_map, hgi]
        constructor
        · rintro ⟨p, hp, hpi⟩
          have := List.getElem_idxOf (List.idxOf_lt_length_of_mem (hsub p hp))
          simp only [hpi] at this
          rwa [this]
        · intro hm
          exact ⟨_, hm, hidx⟩
      simp only [List.zipWith_cons_cons, cell, List.all_cons, id_eq, Bool.and_eq_true, decide_eq_true_eq,
        List.forall₂_cons] at ih1 ih2 ⊢
      refine ⟨by rw [ih1, hin], ?_⟩
      rintro ⟨hm, hms⟩
      obtain ⟨hb, hc⟩ := ih2 hms
      have hmi := hin.2 hm
      have hlt : (c.map (fun p : ℕ => o.idxOf p)).idxOf i < c.length := by
        simpa using List.idxOf_lt_length_of_mem hmi
      refine ⟨?_, ?_⟩
      · simp only [List.map_cons]
        exact List.Forall₂.cons hlt hb
      · rw [hc]
        congr 1
        rw [List.getD_eq_getElem _ _ hlt]
        have h1 := List.getElem_idxOf (List.idxOf_lt_length_of_mem hmi)
        rw [List.getElem_map] at h1
        have h2 := List.getElem_idxOf (List.idxOf_lt_length_of_mem
          (hsub _ (List.getElem_mem (l := c) (n := (c.map (fun p : ℕ => o.idxOf p)).idxOf i) hlt)))
        simp only [h1] at h2
        rw [hgi, h2]

/-- generic accumulation over chunks -/
theorem accumulate {C P S : Type} [DecidableEq S] (cm : CM mop me) (h : A → M)
    (step : NArr A → C → NArr A)
    (cells : C → List P) (target : P → S) (val : P → M) (k : List ℕ) (s : S) (chunks : List C)
    (hstep : ∀ out, ∀ c ∈ chunks, h ((step out c).get k) =
      mop (h (out.get k)) (((cells c).filter fun p => decide (target p = s)).map val |>.foldr mop me))
    (init : NArr A) :
    h ((chunks.foldl step init).get k) =
      mop (h (init.get k)) (((chunks.flatMap cells).filter fun p => decide (target p = s)).map val |>.foldr mop me) := by
  induction chunks generalizing init with
  | nil => simp only [List.foldl_nil, List.flatMap_nil, List.filter_nil, List.map_nil, List.foldr_nil]
           rw [cm.comm, cm.id]
  | cons c cs ih =>
    rw [List.foldl_cons, ih (fun out d hd => hstep out d (by simp [hd])), hstep init c (by simp),
      List.flatMap_cons, List.filter_append, List.map_append, cm.foldr_append, cm.assoc]
end

theorem keptAxes_nodup (n : ℕ) (R : List ℕ) : (keptAxes n R).Nodup := List.nodup_range.filter _

variable {lens R : List ℕ} {outInds : List (List ℕ)}

theorem _root_.PyGeode.Spec.GoodReq.length (g : GoodReq lens R outInds) : outInds.length = (keptAxes lens.length R).length := by
  have := g.range.length_eq
  rw [this]
  simp [dropAxes, keptAxes]

theorem inView_length : (inView lens R outInds).inds.length = lens.length := by simp [inView]

theorem inView_getD (i : ℕ) (hi : i < lens.length) : (inView lens R outInds).inds.getD i [] =
    if i ∈ R then List.range (lens.getD i 0) else outInds.getD ((keptAxes lens.length R).idxOf i) [] := by
  rw [List.getD_eq_getElem _ _ (by rw [inView_length]; exact hi)]
  simp [inView]

theorem dropAxes_eq (d : γ) (p : List γ) :
    dropAxes d R p = (keptAxes p.length R).map fun i => p.getD i d := rfl

theorem inView_drop (g : GoodReq lens R outInds) : dropAxes [] R (inView lens R outInds).inds = outInds := by
  rw [dropAxes_eq, inView_length]
  have hl := g.length
  refine List.ext_getElem (by simp [hl]) fun j h1 h2 => ?_
  have hj : j < (keptAxes lens.length R).length := by omega
  have hm : (keptAxes lens.length R)[j] ∈ keptAxes lens.length R := List.getElem_mem _
  have hm2 := List.mem_filter.1 hm
  simp only [List.getElem_map]
  rw [inView_getD _ (by simpa using hm2.1), if_neg (by simpa using hm2.2),
    (keptAxes_nodup lens.length R).idxOf_getElem j hj, List.getD_eq_getElem _ _ h2]

theorem inView_ne (g : GoodReq lens R outInds) : ∀ ind ∈ (inView lens R outInds).inds, ind ≠ [] := by
  intro ind hind
  obtain ⟨i, hi, rfl⟩ := List.getElem_of_mem hind
  rw [← List.getD_eq_getElem _ [] hi]
  rw [inView_length] at hi
  rw [inView_getD i hi]
  split
  · next hR =>
    have hp := g.rpos i hR
    intro h0
    have h2 := congrArg List.length h0
    rw [List.length_range, List.length_nil] at h2
    omega
  · next hR =>
    refine g.ne _ (getD_mem ?_)
    rw [g.length]
    exact List.idxOf_lt_length_of_mem (List.mem_filter.2 ⟨by simpa using hi, by simpa using hR⟩)

theorem inView_nodup (g : GoodReq lens R outInds) : ∀ ind ∈ (inView lens R outInds).inds, ind.Nodup := by
  intro ind hind
  obtain ⟨i, hi, rfl⟩ := List.getElem_of_mem hind
  rw [← List.getD_eq_getElem _ [] hi]
  rw [inView_length] at hi
  rw [inView_getD i hi]
  split
  · exact List.nodup_range
  · next hR =>
    refine g.nd _ (getD_mem ?_)
    rw [g.length]
    exact List.idxOf_lt_length_of_mem (List.mem_filter.2 ⟨by simpa using hi, by simpa using hR⟩)

theorem inView_inRange (g : GoodReq lens R outInds) : InRange lens (inView lens R outInds).inds := by
  unfold InRange
  rw [List.forall₂_iff_get]
  refine ⟨inView_length, fun i hi hi' => ?_⟩
  simp only [List.get_eq_getElem]
  rw [← List.getD_eq_getElem _ [] hi, inView_getD i hi']
  split
  · rw [List.getD_eq_getElem _ _ hi']; simp
  · next hR =>
    have hk : i ∈ keptAxes lens.length R := List.mem_filter.2 ⟨by simpa using hi', by simpa using hR⟩
    have hidx := List.idxOf_lt_length_of_mem hk
    have hr := g.range
    unfold InRange at hr
    rw [List.forall₂_iff_get] at hr
    have hlt : (keptAxes lens.length R).idxOf i < outInds.length := by rw [g.length]; exact hidx
    have := hr.2 _ hlt (by rw [dropAxes_eq, List.length_map]; exact hidx)
    rw [List.getD_eq_getElem _ _ hlt]
    simp only [List.get_eq_getElem, dropAxes_eq, List.getElem_map] at this
    rw [List.getElem_idxOf hidx, List.getD_eq_getElem _ _ hi'] at this
    exact this

/-- facts about one chunk -/
theorem chunk_facts (g : GoodReq lens R outInds) {limit : ℕ} (hl : 1 ≤ limit) (c : View ℕ)
    (hc : c ∈ (inView lens R outInds).loopMem limit []) :
    c.inds.length = lens.length ∧ InRange lens c.inds ∧
    List.Forall₂ (fun (c o : List ℕ) => (∀ x ∈ c, x ∈ o) ∧ c.Nodup ∧ o.Nodup) c.inds
      (inView lens R outInds).inds ∧ (∀ l ∈ c.inds, l ≠ []) := by
  obtain ⟨parts, h1, h2, h3, h4, h5⟩ := loopMem_splits (inView lens R outInds) limit [] hl
    (inView_ne g) (by simp)
  have hm : c.inds ∈ product parts := by
    rw [← h4]; exact List.mem_map_of_mem hc
  rw [mem_product] at hm
  have hnd := inView_nodup g
  have hr := inView_inRange g
  have hlen : c.inds.length = lens.length := by
    rw [hm.length_eq, ← inView_length (lens := lens) (R := R) (outInds := outInds), ← h1, List.length_map]
  rw [← h1] at hnd hr
  rw [← h1]
  clear h1 h3 h4 h5 hc
  obtain ⟨_, ci⟩ := c
  simp only at hm hlen ⊢
  refine ⟨hlen, ?_, ?_, ?_⟩
  · unfold InRange at hr ⊢
    clear hlen g h2
    induction hm generalizing lens with
    | nil => cases hr; exact List.Forall₂.nil
    | cons hx _ ih =>
      cases hr with
      | cons hn hns =>
        refine List.Forall₂.cons (fun i hi => hn i (List.mem_flatten.2 ⟨_, hx, hi⟩)) ?_
        exact ih (fun q hq => hnd q (List.mem_cons_of_mem _ hq)) hns
  · clear hlen hr h2
    induction hm with
    | nil => exact List.Forall₂.nil
    | @cons x p _ _ hx _ ih =>
      simp only [List.map_cons]
      refine List.Forall₂.cons ⟨fun i hi => List.mem_flatten.2 ⟨_, hx, hi⟩, ?_, hnd _ (by simp)⟩ ?_
      · have := hnd p.flatten (by simp)
        rw [List.nodup_flatten] at this
        exact this.1 x hx
      · exact ih (fun q hq => hnd q (List.mem_cons_of_mem _ hq))
  · clear hlen hr hnd
    intro l hl'
    induction hm with
    | nil => simp at hl'
    | @cons x p _ _ hx _ ih =>
      rcases List.mem_cons.1 hl' with rfl | h
      · exact h2 p (by simp) _ hx
      · exact ih (fun q hq => h2 q (by simp [hq])) h

theorem outPos_eq (c : View ℕ) (hc : c.inds.length = lens.length) :
    outPos lens R outInds c =
      List.zipWith (fun (c o : List ℕ) => c.map fun p : ℕ => o.idxOf p) (dropAxes [] R c.inds) outInds := by
  unfold outPos dropAxes keptAxes
  rw [hc, List.zipWith_map_left]

theorem fibre_perm (g : GoodReq lens R outInds) (k : List ℕ) (hk : InBounds (outInds.map List.length) k) :
    ((product (inView lens R outInds).inds).filter
      fun q => decide (dropAxes 0 R q = cell outInds k)).Perm (fibre lens R (cell outInds k)) := by
  unfold fibre
  rw [List.perm_ext_iff_of_nodup ((product_nodup (inView_nodup g)).filter _)
    ((product_range_nodup lens).filter _)]
  intro q
  simp only [List.mem_filter, decide_eq_true_eq, mem_product_range]
  refine and_congr_left fun hq => ?_
  rw [mem_product]
  constructor
  · intro hm
    have hr := inView_inRange g
    unfold InRange at hr
    unfold InBounds
    rw [List.forall₂_iff_get] at hm hr ⊢
    refine ⟨hm.1.trans hr.1, fun i h1 h2 => ?_⟩
    exact hr.2 i (by rw [← hm.1]; exact h1) h2 _ (hm.2 i h1 (by rw [← hm.1]; exact h1))
  · intro hb
    have hlen := InBounds.length hb
    have hmem := cell_mem hk
    rw [List.forall₂_iff_get]
    refine ⟨by rw [inView_length, hlen], fun i h1 h2 => ?_⟩
    have hi : i < lens.length := by omega
    simp only [List.get_eq_getElem]
    rw [← List.getD_eq_getElem _ ([] : List ℕ) h2, inView_getD i hi]
    split
    · rw [List.mem_range, ← List.getD_eq_getElem _ 0 h1]
      exact InBounds.lt hb hi
    · next hR =>
      have hki : i ∈ keptAxes lens.length R := List.mem_filter.2 ⟨by simpa using hi, by simpa using hR⟩
      have hidx := List.idxOf_lt_length_of_mem hki
      have hlt : (keptAxes lens.length R).idxOf i < outInds.length := by rw [g.length]; exact hidx
      rw [List.forall₂_iff_get] at hmem
      have h3 := hmem.2 _ (by rw [hmem.1]; exact hlt) hlt
      simp only [List.get_eq_getElem] at h3
      rw [List.getD_eq_getElem _ _ hlt]
      have e : (cell outInds k)[(keptAxes lens.length R).idxOf i]'(by rw [hmem.1]; exact hlt) = q[i] := by
        have : ∀ (w : List ℕ) (hw : (keptAxes lens.length R).idxOf i < w.length),
            w = dropAxes 0 R q → w[(keptAxes lens.length R).idxOf i] = q[i] := by
          rintro w hw rfl
          simp only [dropAxes_eq, List.getElem_map, hlen]
          rw [List.getElem_idxOf hidx, List.getD_eq_getElem _ _ h1]
        exact this _ _ hq.symm
      rw [← e]
      exact h3

section
variable {mop : M → M → M} {me : M} {op : A → A → A} {e : A} {h : A → M}

/-- The chunk loop combines exactly the values of the variable over the requested cell. -/
theorem reduceLoop_spec (hh : Hom op e mop me h) (g : GoodReq lens R outInds) {limit : ℕ} (hl : 1 ≤ limit)
    (data : List ℕ → A) (chunk : View ℕ → NArr A)
    (hchunk : ∀ c ∈ (inView lens R outInds).loopMem limit [], IsRead data c.inds (chunk c))
    (k : List ℕ) (hk : InBounds (outInds.map List.length) k) :
    h ((reduceLoop op e limit lens R outInds chunk).get k) =
      ((fibre lens R (cell outInds k)).map fun q => h (data q)).foldr mop me := by
  unfold reduceLoop
  rw [accumulate hh.cm h _ (fun c : View ℕ => product c.inds) (dropAxes 0 R) (fun q => h (data q)) k
    (cell outInds k)]
  · rw [hh.map_e, hh.cm.id]
    refine hh.cm.foldr_perm (List.Perm.map _ ?_)
    exact ((loopMem_partition (inView lens R outInds) limit [] hl (inView_ne g) (by simp)).filter _).trans
      (fibre_perm g k hk)
  · intro out c hc
    obtain ⟨f1, f2, f3, f4⟩ := chunk_facts g hl c hc
    have hd := forall₂_dropAxes [] [] R f3
    rw [inView_drop g] at hd
    obtain ⟨p1, p2⟩ := place_chunk hd k hk
    rw [outPos_eq c f1]
    simp only [updateOuter]
    by_cases hin : List.Forall₂ (· ∈ ·) (cell outInds k) (dropAxes [] R c.inds)
    · rw [if_pos (p1.2 hin), hh.map_op]
      obtain ⟨q1, q2⟩ := p2 hin
      congr 1
      rw [chunk_reduce hh data c.inds (chunk c) (hchunk c hc) R g.rnd (by rw [f1]; exact g.rlt) ?_ _ q1, q2]
      intro l hl'
      rw [List.forall₂_iff_get] at hd
      obtain ⟨i, hi, rfl⟩ := List.getElem_of_mem hl'
      exact (hd.2 i hi (by rw [← hd.1]; exact hi)).2.1
    · rw [if_neg (fun hc => hin (p1.1 hc))]
      have : (product c.inds).filter (fun p => decide (dropAxes 0 R p = cell outInds k)) = [] := by
        rw [List.filter_eq_nil_iff]
        intro q hq
        simp only [decide_eq_true_eq]
        intro heq
        refine hin ?_
        rw [← heq]
        exact forall₂_dropAxes 0 [] R (mem_product.1 hq)
      rw [this]
      simp only [List.map_nil, List.foldr_nil]
      rw [hh.cm.comm, hh.cm.id]

theorem reduceLoop_shape (limit : ℕ) (chunk : View ℕ → NArr A) :
    (reduceLoop op e limit lens R outInds chunk).shape = outInds.map List.length := by
  unfold reduceLoop
  generalize (inView lens R outInds).loopMem limit [] = cs
  have : ∀ (cs : List (View ℕ)) (init : NArr A), (cs.foldl (fun out c => updateOuter op out
      (outPos lens R outInds c) (npReduce op e (chunk c) R)) init).shape = init.shape := by
    intro cs
    induction cs with
    | nil => intro init; rfl
    | cons c cs ih => intro init; rw [List.foldl_cons, ih]; rfl
  rw [this]
end

end Reduce
end PyGeode
