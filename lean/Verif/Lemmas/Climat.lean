/- Helper lemmas for the time averages. -/
import Verif.Model.Climat
import Verif.Lemmas.ReduceCount
import Verif.Props.PartialSum

namespace PyGeode
namespace Climat
open NArr View Reduce PartialSum Spec
variable {α β : Type}

/-- the view of positions within the index lists -/
def posView {Ax : Type} (v : View Ax) : View Ax := { axes := v.axes, inds := v.inds.map fun l => List.range l.length }

/-- pick positions `c` from the lists `L` -/
def pick (L c : List (List ℕ)) : List (List ℕ) :=
  List.zipWith (fun (l c : List ℕ) => c.map fun i : ℕ => l.getD i 0) L c

theorem chunks_pick (l : List ℕ) (n : ℕ) :
    chunks l n = (chunks (List.range l.length) n).map fun c => c.map fun i : ℕ => l.getD i 0 := by
  unfold chunks
  rw [List.length_range, List.map_map]
  refine List.map_congr_left fun i _ => ?_
  have : (List.range l.length).map (fun i : ℕ => l.getD i 0) = l := by
    refine List.ext_getElem (by simp) fun j h1 h2 => ?_
    simp [h2]
  conv_lhs => rw [← this]
  simp [List.map_take, List.map_drop]

theorem memIndices_pick {Ax : Type} (v : View Ax) (limit : ℕ) :
    v.memIndices limit [] = List.zipWith (fun (l : List ℕ) (ps : List (List ℕ)) =>
      ps.map fun c => c.map fun i : ℕ => l.getD i 0) v.inds ((posView v).memIndices limit []) := by
  unfold memIndices
  simp only [List.foldl_nil]
  have hl : (posView v).inds.length = v.inds.length := by simp [posView]
  rw [hl]
  generalize ((List.range v.inds.length).filter fun i => decide (i ∉ ([] : List ℕ))).reverse = is
  have key : ∀ (is : List ℕ) (st st' : ℕ × List (List (List ℕ))), st.1 = st'.1 → st'.2.length = v.inds.length →
      st.2 = List.zipWith (fun (l : List ℕ) (ps : List (List ℕ)) =>
        ps.map fun c => c.map fun i : ℕ => l.getD i 0) v.inds st'.2 →
      (is.foldl (otherStep v.inds) st).2 = List.zipWith (fun (l : List ℕ) (ps : List (List ℕ)) =>
        ps.map fun c => c.map fun i : ℕ => l.getD i 0) v.inds (is.foldl (otherStep (posView v).inds) st').2 := by
    intro is
    induction is with
    | nil => intro st st' _ _ h; exact h
    | cons i is ih =>
      intro st st' h1 hlen h2
      have hN : ((posView v).inds.getD i []).length = (v.inds.getD i []).length := by
        by_cases hi : i < v.inds.length
        · rw [List.getD_eq_getElem _ _ (by rw [hl]; exact hi), List.getD_eq_getElem _ _ hi]
          simp [posView]
        · rw [List.getD_eq_default _ _ (by omega), List.getD_eq_default _ _ (by omega)]
      rw [List.foldl_cons, List.foldl_cons]
      refine ih _ _ ?_ ?_ ?_
      · simp only [otherStep, h1, hN]
      · simp only [otherStep, List.length_set]; exact hlen
      · simp only [otherStep, h1, hN, h2]
        refine List.ext_getElem (by simp) fun j a b => ?_
        have hj : j < v.inds.length := by simp at b; omega
        have hj' : j < st'.2.length := by omega
        rw [List.getElem_zipWith]
        by_cases hij : i = j
        · subst hij
          have e1 : v.inds[i] = v.inds.getD i [] := (List.getD_eq_getElem _ _ hj).symm
          have e2 : (posView v).inds.getD i [] = List.range (v.inds.getD i []).length := by
            rw [List.getD_eq_getElem _ _ (by rw [hl]; exact hj), ← e1]
            simp [posView]
          rw [List.getElem_set_self, List.getElem_set_self, chunks_pick]
          simp only [e2, e1]
        · rw [List.getElem_set_ne hij, List.getElem_set_ne hij, List.getElem_zipWith]
  refine key is _ _ rfl (by simp [posView]) ?_
  refine List.ext_getElem (by simp [posView]) fun j a b => ?_
  simp [posView]

theorem product_zipWith {γ δ : Type} (f : γ → List ℕ → List δ) : ∀ (L : List γ) (P : List (List (List ℕ))),
    L.length = P.length →
    product (List.zipWith (fun l ps => ps.map (f l)) L P) = (product P).map (List.zipWith f L)
  | [], [], _ => rfl
  | l :: L, p :: P, h => by
    simp only [List.zipWith_cons_cons, product]
    rw [product_zipWith f L P (by simpa using h)]
    simp [List.flatMap_map, List.map_flatMap, Function.comp_def]

theorem loopMem_pick {Ax : Type} (v : View Ax) (limit : ℕ) :
    v.loopMem limit [] = ((posView v).loopMem limit []).map fun c => { axes := v.axes, inds := pick v.inds c.inds } := by
  unfold loopMem
  rw [memIndices_pick, product_zipWith, List.map_map, List.map_map]
  · rfl
  · unfold memIndices
    simp only [List.foldl_nil]
    generalize List.reverse _ = is
    have : ∀ (is : List ℕ) (st : ℕ × List (List (List ℕ))),
        (is.foldl (otherStep (posView v).inds) st).2.length = st.2.length := by
      intro is
      induction is with
      | nil => intro st; rfl
      | cons i is ih => intro st; rw [List.foldl_cons, ih]; simp [otherStep]
    rw [this]
    simp [posView]

/-- cells of a box whose time coordinate is sent to a given bin -/
theorem prod_set_sum [AddCommMonoid α] : ∀ (ti : ℕ) (C : List (List ℕ)) (k : List ℕ) (g : ℕ → ℕ) (F : List ℕ → α),
    ti < C.length → k.length = C.length → (∀ l ∈ C, l.Nodup) →
    (∀ j, j < C.length → j ≠ ti → k.getD j 0 ∈ C.getD j []) →
    (((product C).filter fun p => decide (p.set ti (g (p.getD ti 0)) = k)).map F).sum =
      (((C.getD ti []).filter fun x => decide (g x = k.getD ti 0)).map fun x => F (k.set ti x)).sum
  | 0, c :: C, [], _, _, _, h, _, _ => by simp at h
  | 0, c :: C, k0 :: k, g, F, _, hk, hnd, hmem => by
    have hkm : k ∈ product C := by
      rw [mem_product, List.forall₂_iff_get]
      refine ⟨by simpa using hk, fun j h1 h2 => ?_⟩
      have := hmem (j + 1) (by simpa using h2) (by simp)
      simp only [List.getD_cons_succ] at this
      rwa [List.getD_eq_getElem _ _ h1, List.getD_eq_getElem _ _ h2] at this
    simp only [product, List.filter_flatMap, sum_flatMap, List.getD_cons_zero, List.filter_map, List.map_map,
      Function.comp_def, List.set_cons_zero]
    rw [sum_filter_ite c]
    congr 1
    refine List.map_congr_left fun x _ => ?_
    by_cases hx : g x = k0
    · simp only [hx, List.cons.injEq, true_and, decide_true, if_true]
      rw [filter_eq_singleton (product_nodup fun l hl => hnd l (by simp [hl])) hkm]
      simp
    · simp [hx]
  | ti + 1, c :: C, [], _, _, _, h, _, _ => by simp at h
  | ti + 1, c :: C, k0 :: k, g, F, hti, hk, hnd, hmem => by
    have ih := fun F => prod_set_sum ti C k g F (by simpa using hti) (by simpa using hk)
      (fun l hl => hnd l (by simp [hl])) (fun j hj hne => by
        have := hmem (j + 1) (by simpa using hj) (by omega)
        simpa using this)
    have h0 : k0 ∈ c := by simpa using hmem 0 (by simp) (by omega)
    simp only [product, List.filter_flatMap, sum_flatMap, List.getD_cons_succ, List.filter_map, List.map_map,
      Function.comp_def, List.set_cons_succ]
    rw [← ih (fun p => F (k0 :: p)), ← sum_filter_eq c (hnd c (by simp)) k0 h0
      (fun x => (((product C).filter fun p => decide (p.set ti (g (p.getD ti 0)) = k)).map fun p => F (x :: p)).sum)]
    congr 1
    refine List.map_congr_left fun x _ => ?_
    by_cases hx : x = k0
    · simp [hx]
    · simp [hx]

theorem prod_set_none (ti : ℕ) (C : List (List ℕ)) (k : List ℕ) (g : ℕ → ℕ)
    (h : ¬ ∀ j, j < C.length → j ≠ ti → k.getD j 0 ∈ C.getD j []) :
    ((product C).filter fun p => decide (p.set ti (g (p.getD ti 0)) = k)) = [] := by
  rw [List.filter_eq_nil_iff]
  intro p hp
  simp only [decide_eq_true_eq]
  intro heq
  refine h fun j hj hne => ?_
  rw [mem_product, List.forall₂_iff_get] at hp
  have hjp : j < p.length := by omega
  rw [← heq, List.getD_eq_getElem C _ hj, List.getD_eq_getElem _ _ (by simpa using hjp),
    List.getElem_set_ne (Ne.symm hne)]
  exact hp.2 j hjp hj

/-- what is known about a chunk of a view without repeated positions -/
theorem chunk_sub {Ax : Type} (v : View Ax) {limit : ℕ} (hl : 1 ≤ limit) (hne : ∀ ind ∈ v.inds, ind ≠ [])
    (hnd : ∀ ind ∈ v.inds, ind.Nodup) (c : View Ax) (hc : c ∈ v.loopMem limit []) :
    c.inds.length = v.inds.length ∧ ∀ j, j < v.inds.length →
      (∀ x ∈ c.inds.getD j [], x ∈ v.inds.getD j []) ∧ (c.inds.getD j []).Nodup := by
  obtain ⟨parts, h1, h2, h3, h4, h5⟩ := loopMem_splits v limit [] hl hne (by simp)
  have hm : c.inds ∈ product parts := by
    rw [← h4]; exact List.mem_map_of_mem hc
  rw [mem_product, List.forall₂_iff_get] at hm
  have hpl : parts.length = v.inds.length := by rw [← h1, List.length_map]
  refine ⟨by omega, fun j hj => ?_⟩
  have hjc : j < c.inds.length := by omega
  have hjp : j < parts.length := by omega
  have hmem := hm.2 j hjc hjp
  simp only [List.get_eq_getElem] at hmem
  rw [List.getD_eq_getElem _ _ hjc, List.getD_eq_getElem _ _ hj]
  have hv : v.inds[j] = parts[j].flatten := by
    have : v.inds[j] = (parts.map List.flatten)[j]'(by simpa using hjp) := by simp [h1]
    rw [this, List.getElem_map]
  refine ⟨fun x hx => ?_, ?_⟩
  · rw [hv]; exact List.mem_flatten.2 ⟨_, hmem, hx⟩
  · have := hnd v.inds[j] (List.getElem_mem hj)
    rw [hv, List.nodup_flatten] at this
    exact this.1 _ hmem

theorem list_eq_range_map (l : List ℕ) : (List.range l.length).map (fun i : ℕ => l.getD i 0) = l := by
  refine List.ext_getElem (by simp) fun j h1 h2 => ?_
  simp [h2]

theorem sum_over_positions [AddCommMonoid α] (l : List ℕ) (f : ℕ → Bool) (G : ℕ → α) :
    (((List.range l.length).filter fun i => f (l.getD i 0)).map fun i => G (l.getD i 0)).sum =
      ((l.filter f).map G).sum := by
  conv_rhs => rw [← list_eq_range_map l]
  rw [List.filter_map, List.map_map]
  rfl

theorem zip_map_map {γ δ ε : Type} (l : List γ) (f : γ → δ) (g : γ → ε) :
    (l.map f).zip (l.map g) = l.map fun x => (f x, g x) := by
  induction l with
  | nil => rfl
  | cons a l ih => simp [ih]

theorem fold_pair {γ δ ε : Type} (l : List γ) (f : δ → γ → δ) (g : ε → γ → ε) (a : δ) (b : ε) :
    l.foldl (fun st x => (f st.1 x, g st.2 x)) (a, b) = (l.foldl f a, l.foldl g b) := by
  induction l generalizing a b with
  | nil => rfl
  | cons x l ih => simp only [List.foldl_cons, ih]

/-- what a partial sum promises: in each bin the sum of `val` over the cells of the bin -/
def PSum [AddCommMonoid α] (ps : NArr β → ℕ → ℕ → List ℕ → NArr α) (val : β → α) : Prop :=
  ∀ (arr : NArr β) (iaxis nout : ℕ) (outmap : List ℕ), iaxis < arr.shape.length →
    outmap.length = arr.shape.getD iaxis 0 → (∀ o ∈ outmap, o < nout) →
    ∀ k, InBounds (arr.shape.set iaxis nout) k →
      (ps arr iaxis nout outmap).get k =
        (((List.range outmap.length).filter fun i => decide (outmap.getD i 0 = k.getD iaxis 0)).map
          fun i : ℕ => val (arr.get (k.set iaxis i))).sum

section
variable {m : List ℕ} {ti : ℕ} {pairs : List (ℕ × ℕ)} {limit : ℕ}

/-- one of the two accumulations -/
def accLoop [Add α] [Zero α] (ps : NArr β → ℕ → ℕ → List ℕ → NArr α) (limit : ℕ) (m : List ℕ) (ti : ℕ)
    (pairs : List (ℕ × ℕ)) (chunk : View ℕ → NArr β) : NArr α :=
  (((inView m ti pairs).loopMem limit []).zip ((climView m ti pairs).loopMem limit [])).foldl
    (fun st c => updateOuter (· + ·) st (c.2.inds.set ti (List.range (m.getD ti 0)))
      (ps (chunk c.1) ti (m.getD ti 0) (c.2.inds.getD ti [])))
    { shape := m, get := fun _ => 0 }

theorem climLoop_eq [Add α] [Zero α] (ps : NArr β → ℕ → ℕ → List ℕ → NArr α × NArr ℕ) (chunk : View ℕ → NArr β) :
    climLoop ps limit m ti pairs chunk =
      (accLoop (fun a i n o => (ps a i n o).1) limit m ti pairs chunk,
       accLoop (fun a i n o => (ps a i n o).2) limit m ti pairs chunk) := by
  unfold climLoop accLoop
  rw [← fold_pair]

theorem posView_eq : posView (inView m ti pairs) =
    { axes := List.range m.length, inds := (m.map List.range).set ti (List.range pairs.length) } := by
  unfold posView inView
  simp only [List.map_set, List.map_map, List.length_map]
  congr 2
  exact List.map_congr_left fun n _ => by simp

theorem posView_eq' : posView (climView m ti pairs) = posView (inView m ti pairs) := by
  rw [posView_eq]
  unfold posView climView
  simp only [List.map_set, List.map_map, List.length_map]
  congr 2
  exact List.map_congr_left fun n _ => by simp

theorem getD_set_self {γ : Type} (l : List γ) (i : ℕ) (x d : γ) (hi : i < l.length) : (l.set i x).getD i d = x := by
  rw [List.getD_eq_getElem _ _ (by simpa using hi)]; simp

theorem getD_set_ne {γ : Type} (l : List γ) {i j : ℕ} (x d : γ) (h : i ≠ j) : (l.set i x).getD j d = l.getD j d := by
  rw [List.getD_eq_getElem?_getD, List.getElem?_set_ne h, ← List.getD_eq_getElem?_getD]

theorem ext_getD {γ : Type} (d : γ) {l l' : List γ} (h : l.length = l'.length)
    (hg : ∀ j, j < l.length → l.getD j d = l'.getD j d) : l = l' := by
  refine List.ext_getElem h fun j h1 h2 => ?_
  have := hg j h1
  rwa [List.getD_eq_getElem _ _ h1, List.getD_eq_getElem _ _ h2] at this

theorem getD_pick (L c : List (List ℕ)) (j : ℕ) (h1 : j < L.length) (h2 : j < c.length) :
    (pick L c).getD j [] = (c.getD j []).map fun i : ℕ => (L.getD j []).getD i 0 := by
  unfold pick
  rw [List.getD_eq_getElem _ _ (by simp; omega), List.getElem_zipWith, List.getD_eq_getElem c _ h2,
    List.getD_eq_getElem L _ h1]

theorem getD_map_range (m : List ℕ) (j : ℕ) (h : j < m.length) :
    (m.map List.range).getD j [] = List.range (m.getD j 0) := by
  rw [List.getD_eq_getElem _ _ (by simpa using h), List.getD_eq_getElem _ _ h]; simp

theorem accLoop_spec [AddCommMonoid α] (ps : NArr β → ℕ → ℕ → List ℕ → NArr α) (val : β → α) (hps : PSum ps val)
    (hti : ti < m.length) (hpos : ∀ n ∈ m, 0 < n) (hne : pairs ≠ []) (hsnd : ∀ p ∈ pairs, p.2 < m.getD ti 0)
    (hl : 1 ≤ limit) (data : List ℕ → β) (chunk : View ℕ → NArr β)
    (hr : ∀ c ∈ (inView m ti pairs).loopMem limit [], IsRead data c.inds (chunk c))
    (k : List ℕ) (hk : InBounds m k) :
    (accLoop ps limit m ti pairs chunk).get k =
      ((pairs.filter fun p => decide (p.2 = k.getD ti 0)).map fun p => val (data (k.set ti p.1))).sum := by
  have hkl := InBounds.length hk
  set inm : ℕ → ℕ := fun r => (pairs.map Prod.fst).getD r 0 with hinm
  set outm : ℕ → ℕ := fun r => (pairs.map Prod.snd).getD r 0 with houtm
  set pv := posView (inView m ti pairs) with hpv
  have hpvi : pv.inds = (m.map List.range).set ti (List.range pairs.length) := by rw [hpv, posView_eq]
  have hpvl : pv.inds.length = m.length := by rw [hpvi]; simp
  have hpvj : ∀ j, j < m.length → j ≠ ti → pv.inds.getD j [] = List.range (m.getD j 0) := by
    intro j hj hjt
    rw [hpvi, getD_set_ne _ _ _ (Ne.symm hjt), getD_map_range m j hj]
  have hpvt : pv.inds.getD ti [] = List.range pairs.length := by
    rw [hpvi, getD_set_self _ _ _ _ (by simpa using hti)]
  have hpne : ∀ ind ∈ pv.inds, ind ≠ [] := by
    intro ind hind
    obtain ⟨j, hj, rfl⟩ := List.getElem_of_mem hind
    rw [← List.getD_eq_getElem _ [] hj]
    rw [hpvl] at hj
    by_cases hjt : j = ti
    · subst hjt
      rw [hpvt]
      intro h0
      have := congrArg List.length h0
      simp at this
      exact hne this
    · rw [hpvj j hj hjt]
      intro h0
      have h1 := congrArg List.length h0
      rw [List.length_range, List.length_nil] at h1
      have := hpos (m.getD j 0) (getD_mem hj)
      omega
  have hpnd : ∀ ind ∈ pv.inds, ind.Nodup := by
    intro ind hind
    obtain ⟨j, hj, rfl⟩ := List.getElem_of_mem hind
    rw [← List.getD_eq_getElem _ [] hj]
    rw [hpvl] at hj
    by_cases hjt : j = ti
    · subst hjt
      rw [hpvt]; exact List.nodup_range
    · rw [hpvj j hj hjt]; exact List.nodup_range
  have hcm : CM (fun a b : α => a + b) 0 := ⟨add_comm, add_assoc, zero_add⟩
  unfold accLoop
  rw [loopMem_pick (inView m ti pairs), loopMem_pick (climView m ti pairs), posView_eq', ← hpv, zip_map_map,
    List.foldl_map]
  have hacc := accumulate hcm (id : α → α) (fun (st : NArr α) (c : View ℕ) =>
      updateOuter (· + ·) st ((pick (climView m ti pairs).inds c.inds).set ti (List.range (m.getD ti 0)))
        (ps (chunk { axes := (inView m ti pairs).axes, inds := pick (inView m ti pairs).inds c.inds }) ti (m.getD ti 0)
          ((pick (climView m ti pairs).inds c.inds).getD ti [])))
    (fun c : View ℕ => product c.inds) (fun p => p.set ti (outm (p.getD ti 0)))
    (fun p => val (data (p.set ti (inm (p.getD ti 0))))) k k (pv.loopMem limit []) ?_
    { shape := m, get := fun _ => 0 }
  · refine hacc.trans ?_
    simp only [id_eq, zero_add]
    change List.sum _ = _
    rw [((((loopMem_partition pv limit [] hl hpne (by simp)).filter _).map _)).sum_eq]
    rw [prod_set_sum ti pv.inds k outm _ (by omega) (by omega) hpnd ?_]
    · rw [hpvt]
      have e : ∀ x, (k.set ti x).set ti (inm ((k.set ti x).getD ti 0)) = k.set ti (inm x) := by
        intro x
        rw [getD_set_self _ _ _ _ (by omega), List.set_set]
      simp only [e]
      have e2 : pairs = (List.range pairs.length).map fun r => (inm r, outm r) := by
        refine List.ext_getElem (by simp) fun j h1 h2 => ?_
        simp [hinm, houtm, h1]
      conv_rhs => rw [e2]
      rw [List.filter_map, List.map_map]
      rfl
    · intro j hj hjt
      rw [hpvj j (by omega) hjt, List.mem_range]
      exact InBounds.lt hk (by omega)
  · intro out c hc
    obtain ⟨hcl, hcj⟩ := chunk_sub pv hl hpne hpnd c hc
    rw [hpvl] at hcl hcj
    have hinl : (inView m ti pairs).inds.length = m.length := by simp [inView]
    have hcll : (climView m ti pairs).inds.length = m.length := by simp [climView]
    -- the positions of the chunk
    have hIj : ∀ j, j < m.length → j ≠ ti → (pick (inView m ti pairs).inds c.inds).getD j [] = c.inds.getD j [] := by
      intro j hj hjt
      rw [getD_pick _ _ j (by omega) (by omega)]
      have : (inView m ti pairs).inds.getD j [] = List.range (m.getD j 0) := by
        unfold inView
        simp only
        rw [getD_set_ne _ _ _ (Ne.symm hjt), getD_map_range m j hj]
      rw [this]
      conv_rhs => rw [← List.map_id (c.inds.getD j [])]
      refine List.map_congr_left fun x hx => ?_
      have hx' := (hcj j hj).1 x hx
      rw [hpvj j hj hjt, List.mem_range] at hx'
      rw [List.getD_eq_getElem _ _ (by simpa using hx')]
      simp
    have hIt : (pick (inView m ti pairs).inds c.inds).getD ti [] = (c.inds.getD ti []).map inm := by
      rw [getD_pick _ _ ti (by omega) (by omega)]
      have : (inView m ti pairs).inds.getD ti [] = pairs.map Prod.fst := by
        unfold inView
        simp only
        rw [getD_set_self _ _ _ _ (by simpa using hti)]
      rw [this]
    have hJt : (pick (climView m ti pairs).inds c.inds).getD ti [] = (c.inds.getD ti []).map outm := by
      rw [getD_pick _ _ ti (by omega) (by omega)]
      have : (climView m ti pairs).inds.getD ti [] = pairs.map Prod.snd := by
        unfold climView
        simp only
        rw [getD_set_self _ _ _ _ (by simpa using hti)]
      rw [this]
    have hJj : (pick (climView m ti pairs).inds c.inds).set ti (List.range (m.getD ti 0)) =
        c.inds.set ti (List.range (m.getD ti 0)) := by
      have hpl : (pick (climView m ti pairs).inds c.inds).length = m.length := by simp [pick, hcll, hcl]
      refine ext_getD [] (by simp [hpl, hcl]) fun j hj => ?_
      have hj' : j < m.length := by simpa [hpl] using hj
      by_cases hjt : j = ti
      · subst hjt
        rw [getD_set_self _ _ _ _ (by omega), getD_set_self _ _ _ _ (by omega)]
      · rw [getD_set_ne _ _ _ (Ne.symm hjt), getD_set_ne _ _ _ (Ne.symm hjt)]
        rw [getD_pick _ _ j (by omega) (by omega)]
        have : (climView m ti pairs).inds.getD j [] = List.range (m.getD j 0) := by
          unfold climView
          simp only
          rw [getD_set_ne _ _ _ (Ne.symm hjt), getD_map_range m j hj']
        rw [this]
        conv_rhs => rw [← List.map_id (c.inds.getD j [])]
        refine List.map_congr_left fun x hx => ?_
        have hx' := (hcj j hj').1 x hx
        rw [hpvj j hj' hjt, List.mem_range] at hx'
        rw [List.getD_eq_getElem _ _ (by simpa using hx')]
        simp
    have hread := hr { axes := (inView m ti pairs).axes, inds := pick (inView m ti pairs).inds c.inds } (by
      rw [loopMem_pick (inView m ti pairs)]
      exact List.mem_map_of_mem (f := fun c : View ℕ =>
        ({ axes := (inView m ti pairs).axes, inds := pick (inView m ti pairs).inds c.inds } : View ℕ)) hc)
    simp only at hread
    have hIl : (pick (inView m ti pairs).inds c.inds).length = m.length := by simp [pick, hinl, hcl]
    generalize hA : chunk { axes := (inView m ti pairs).axes, inds := pick (inView m ti pairs).inds c.inds } = arr at hread ⊢
    generalize hI : pick (inView m ti pairs).inds c.inds = I at hread hIj hIt hIl ⊢
    have hndc : ∀ l ∈ c.inds, l.Nodup := by
      intro l hl'
      obtain ⟨j, hj, rfl⟩ := List.getElem_of_mem hl'
      rw [← List.getD_eq_getElem _ [] hj]
      exact (hcj j (by omega)).2
    rw [hJj, hJt]
    simp only [updateOuter, id_eq]
    have hko : k.getD ti 0 < m.getD ti 0 := InBounds.lt hk hti
    have hcond : (List.zipWith (fun (l : List ℕ) (i : ℕ) => decide (i ∈ l)) (c.inds.set ti (List.range (m.getD ti 0))) k).all id = true ↔
        ∀ j, j < c.inds.length → j ≠ ti → k.getD j 0 ∈ c.inds.getD j [] := by
      rw [List.all_eq_true]
      constructor
      · intro h j hj hjt
        have hz : j < (List.zipWith (fun (l : List ℕ) (i : ℕ) => decide (i ∈ l)) (c.inds.set ti (List.range (m.getD ti 0))) k).length := by
          simp; omega
        have := h _ (List.getElem_mem hz)
        rw [List.getElem_zipWith] at this
        simp only [id_eq, decide_eq_true_eq] at this
        rw [List.getElem_set_ne (Ne.symm hjt)] at this
        rw [List.getD_eq_getElem k _ (by omega), List.getD_eq_getElem c.inds _ hj]
        exact this
      · intro h b hb
        obtain ⟨j, hj, rfl⟩ := List.getElem_of_mem hb
        have hj' : j < c.inds.length := by simp at hj; omega
        rw [List.getElem_zipWith]
        simp only [id_eq, decide_eq_true_eq]
        by_cases hjt : j = ti
        · subst hjt
          rw [List.getElem_set_self, List.mem_range, ← List.getD_eq_getElem _ 0]
          exact hko
        · rw [List.getElem_set_ne (Ne.symm hjt)]
          have := h j hj' hjt
          rwa [List.getD_eq_getElem k _ (by omega), List.getD_eq_getElem c.inds _ hj'] at this
    by_cases hin : ∀ j, j < c.inds.length → j ≠ ti → k.getD j 0 ∈ c.inds.getD j []
    · rw [if_pos (hcond.2 hin)]
      congr 1
      change _ = List.sum _
      rw [prod_set_sum ti c.inds k outm _ (by omega) (by omega) hndc hin]
      -- the cell of the chunk
      set k' := List.zipWith (fun (l : List ℕ) (i : ℕ) => l.idxOf i) (c.inds.set ti (List.range (m.getD ti 0))) k with hk'
      have hk'l : k'.length = m.length := by rw [hk']; simp; omega
      have hk't : k'.getD ti 0 = k.getD ti 0 := by
        rw [List.getD_eq_getElem _ _ (by omega)]
        simp only [hk', List.getElem_zipWith, List.getElem_set_self]
        rw [← List.getD_eq_getElem _ 0]
        have : (List.range (m.getD ti 0)).idxOf ((List.range (m.getD ti 0))[k.getD ti 0]'(by simpa using hko)) = k.getD ti 0 :=
          List.nodup_range.idxOf_getElem _ _
        rwa [List.getElem_range] at this
      have hk'j : ∀ j, j < m.length → j ≠ ti →
          k'.getD j 0 < (c.inds.getD j []).length ∧ (c.inds.getD j []).getD (k'.getD j 0) 0 = k.getD j 0 := by
        intro j hj hjt
        have hm := hin j (by omega) hjt
        have e : k'.getD j 0 = (c.inds.getD j []).idxOf (k.getD j 0) := by
          rw [List.getD_eq_getElem _ _ (by omega)]
          simp only [hk', List.getElem_zipWith]
          rw [List.getElem_set_ne (Ne.symm hjt), List.getD_eq_getElem k _ (by omega), List.getD_eq_getElem c.inds _ (by omega)]
        have hlt := List.idxOf_lt_length_of_mem hm
        rw [e]
        refine ⟨hlt, ?_⟩
        rw [List.getD_eq_getElem _ _ hlt, List.getElem_idxOf hlt]
      have hlenI : ∀ j, j < m.length → (I.getD j []).length = (c.inds.getD j []).length := by
        intro j hj
        by_cases hjt : j = ti
        · subst hjt; rw [hIt, List.length_map]
        · rw [hIj j hj hjt]
      have hsh : arr.shape = I.map List.length := hread.1
      have hshj : ∀ j, j < m.length → arr.shape.getD j 0 = (c.inds.getD j []).length := by
        intro j hj
        rw [hsh, List.getD_eq_getElem _ _ (by simp; omega), List.getElem_map, ← List.getD_eq_getElem _ [] (by omega), hlenI j hj]
      have hshl : arr.shape.length = m.length := by rw [hsh]; simp; omega
      rw [hps arr ti (m.getD ti 0) ((c.inds.getD ti []).map outm) (by omega) (by rw [hshj ti hti]; simp) ?_ k' ?_]
      · have hG : ∀ x, (k.set ti x).set ti (inm ((k.set ti x).getD ti 0)) = k.set ti (inm x) := by
          intro x
          rw [getD_set_self _ _ _ _ (by omega), List.set_set]
        simp only [hG]
        rw [← sum_over_positions (c.inds.getD ti []) (fun x => decide (outm x = k.getD ti 0))
          (fun x => val (data (k.set ti (inm x)))), List.length_map]
        congr 1
        have e1 : ∀ i, i ∈ List.range (c.inds.getD ti []).length →
            ((c.inds.getD ti []).map outm).getD i 0 = outm ((c.inds.getD ti []).getD i 0) := by
          intro i hi
          rw [List.mem_range] at hi
          rw [List.getD_eq_getElem _ _ (by simpa using hi), List.getElem_map, List.getD_eq_getElem _ _ hi]
        rw [List.filter_congr (q := fun i => decide (outm ((c.inds.getD ti []).getD i 0) = k.getD ti 0))
          (fun i hi => by rw [e1 i hi, hk't])]
        refine List.map_congr_left fun i hi => ?_
        have hi' : i < (c.inds.getD ti []).length := by
          have := (List.mem_filter.1 hi).1
          rwa [List.mem_range] at this
        have hb : InBounds (I.map List.length) (k'.set ti i) := by
          rw [← hsh, inBounds_iff]
          refine ⟨by rw [List.length_set]; omega, fun j hj => ?_⟩
          rw [hshj j (by omega)]
          by_cases hjt : j = ti
          · subst hjt
            rw [getD_set_self _ _ _ _ (by omega)]; exact hi'
          · rw [getD_set_ne _ _ _ (Ne.symm hjt)]
            exact (hk'j j (by omega) hjt).1
        rw [hread.2 _ hb]
        congr 2
        refine ext_getD 0 (by simp [cell]; omega) fun j hj => ?_
        have hj' : j < m.length := by simp [cell] at hj; omega
        have hcellj : (cell I (k'.set ti i)).getD j 0 = (I.getD j []).getD ((k'.set ti i).getD j 0) 0 := by
          rw [List.getD_eq_getElem _ _ hj]
          simp only [cell, List.getElem_zipWith]
          rw [List.getD_eq_getElem I _ (by omega), List.getD_eq_getElem (k'.set ti i) _ (by simp; omega)]
        rw [hcellj]
        by_cases hjt : j = ti
        · subst hjt
          rw [getD_set_self _ _ _ _ (by omega), getD_set_self _ _ _ _ (by omega), hIt,
            List.getD_eq_getElem _ _ (by simpa using hi'), List.getElem_map, List.getD_eq_getElem _ _ hi']
        · rw [getD_set_ne _ _ _ (Ne.symm hjt), getD_set_ne _ _ _ (Ne.symm hjt), hIj j hj' hjt]
          exact (hk'j j hj' hjt).2
      · intro o ho
        obtain ⟨x, hx, rfl⟩ := List.mem_map.1 ho
        have hx' := (hcj ti hti).1 x hx
        rw [hpvt, List.mem_range] at hx'
        have : outm x = (pairs[x]).2 := by
          simp only [houtm]
          rw [List.getD_eq_getElem _ _ (by simpa using hx'), List.getElem_map]
        rw [this]
        exact hsnd _ (List.getElem_mem _)
      · rw [inBounds_iff]
        refine ⟨by rw [List.length_set]; omega, fun j hj => ?_⟩
        have hj' : j < m.length := by simpa [hshl] using hj
        by_cases hjt : j = ti
        · subst hjt
          rw [getD_set_self _ _ _ _ (by omega), hk't]
          exact hko
        · rw [getD_set_ne _ _ _ (Ne.symm hjt), hshj j hj']
          exact (hk'j j hj' hjt).1
    · rw [if_neg (fun h => hin (hcond.1 h)), prod_set_none ti c.inds k outm hin]
      simp

end
end Climat
end PyGeode
