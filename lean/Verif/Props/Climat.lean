/-
Properties C54, C64: climatological, daily, monthly, ... means, counts, variances and trends
(/repo/pygeode/climat.py).
-/
import Verif.Lemmas.Climat
import Verif.Spec.Climat
import Verif.Props.TimeC
import Verif.Props.Reduce

namespace PyGeode
namespace Climat
open NArr View Reduce PartialSum Spec
open scoped List
variable {α β : Type}

/-! ### the pairs of `common_map` -/

theorem commonWalk_ge (a b : List TimeC.Row) (ai bi : ℕ) :
    ∀ p ∈ TimeC.commonWalk a b ai bi, ai ≤ p.1 ∧ bi ≤ p.2 := by
  induction a, b, ai, bi using TimeC.walk_induct with
  | case1 ai bi x xs y ys hc hn ih =>
    rw [TimeC.commonWalk, if_pos hc, if_pos hn]
    intro p hp
    rcases List.mem_cons.1 hp with rfl | h
    · exact ⟨le_refl _, le_refl _⟩
    · have := ih p h; omega
  | case2 ai bi x xs y ys hc hn hn2 ih =>
    rw [TimeC.commonWalk, if_pos hc, if_neg hn, if_pos hn2]
    intro p hp
    rcases List.mem_cons.1 hp with rfl | h
    · exact ⟨le_refl _, le_refl _⟩
    · have := ih p h; omega
  | case3 ai bi x xs y ys hc hn hn2 ih =>
    rw [TimeC.commonWalk, if_pos hc, if_neg hn, if_neg hn2]
    intro p hp
    rcases List.mem_cons.1 hp with rfl | h
    · exact ⟨le_refl _, le_refl _⟩
    · have := ih p h; omega
  | case4 ai bi x xs y ys hc hlt ih =>
    rw [TimeC.commonWalk, if_neg hc, if_pos hlt]
    intro p hp
    have := ih p hp; omega
  | case5 ai bi x xs y ys hc hlt ih =>
    rw [TimeC.commonWalk, if_neg hc, if_neg hlt]
    intro p hp
    have := ih p hp; omega
  | case6 a b ai bi hne => rw [TimeC.commonWalk_nil hne]; simp

theorem commonWalk_nodup (a b : List TimeC.Row) (ai bi : ℕ) : (TimeC.commonWalk a b ai bi).Nodup := by
  induction a, b, ai, bi using TimeC.walk_induct with
  | case1 ai bi x xs y ys hc hn ih =>
    rw [TimeC.commonWalk, if_pos hc, if_pos hn, List.nodup_cons]
    exact ⟨fun h => by have := commonWalk_ge _ _ _ _ _ h; simp at this, ih⟩
  | case2 ai bi x xs y ys hc hn hn2 ih =>
    rw [TimeC.commonWalk, if_pos hc, if_neg hn, if_pos hn2, List.nodup_cons]
    exact ⟨fun h => by have := commonWalk_ge _ _ _ _ _ h; simp at this, ih⟩
  | case3 ai bi x xs y ys hc hn hn2 ih =>
    rw [TimeC.commonWalk, if_pos hc, if_neg hn, if_neg hn2, List.nodup_cons]
    exact ⟨fun h => by have := commonWalk_ge _ _ _ _ _ h; simp at this, ih⟩
  | case4 ai bi x xs y ys hc hlt ih =>
    rw [TimeC.commonWalk, if_neg hc, if_pos hlt]; exact ih
  | case5 ai bi x xs y ys hc hlt ih =>
    rw [TimeC.commonWalk, if_neg hc, if_neg hlt]; exact ih
  | case6 a b ai bi hne => rw [TimeC.commonWalk_nil hne]; exact List.nodup_nil

theorem commonWalk_lt {n : ℕ} (a b : List TimeC.Row) (ha : ∀ r ∈ a, r.length = n) (hb : ∀ r ∈ b, r.length = n) :
    ∀ p ∈ TimeC.commonWalk a b 0 0, p.1 < a.length ∧ p.2 < b.length := by
  intro p hp
  obtain ⟨q, q', r, h1, h2, h3, h4⟩ := TimeC.commonWalk_sound a b 0 0 ha hb p.1 p.2 hp
  have := (List.getElem?_eq_some_iff.1 h3).1
  have := (List.getElem?_eq_some_iff.1 h4).1
  omega

/-- No pair of positions is reported twice. -/
theorem commonMap_nodup {n : ℕ} (a b : List TimeC.Row) (ha : ∀ r ∈ a, r.length = n) (hb : ∀ r ∈ b, r.length = n) :
    (TimeC.commonMap a b).Nodup := by
  unfold TimeC.commonMap
  refine List.Nodup.map_on ?_ (commonWalk_nodup _ _ _ _)
  intro p hp q hq h
  have hp' := commonWalk_lt _ _ (TimeC.sortedRows_argsort ha).width (TimeC.sortedRows_argsort hb).width p hp
  have hq' := commonWalk_lt _ _ (TimeC.sortedRows_argsort ha).width (TimeC.sortedRows_argsort hb).width q hq
  simp only [List.length_map] at hp' hq'
  have nd : ∀ rows : List TimeC.Row, (TimeC.argsortRows rows).Nodup := fun rows =>
    (TimeC.argsortRows_perm rows).nodup_iff.2 List.nodup_range
  have inj : ∀ (rows : List TimeC.Row) (i j : ℕ), i < (TimeC.argsortRows rows).length →
      j < (TimeC.argsortRows rows).length → (TimeC.argsortRows rows).getD i 0 = (TimeC.argsortRows rows).getD j 0 →
      i = j := by
    intro rows i j hi hj he
    rw [List.getD_eq_getElem _ _ hi, List.getD_eq_getElem _ _ hj] at he
    exact (List.Nodup.getElem_inj_iff (nd rows)).1 he
  simp only [Prod.mk.injEq] at h
  exact Prod.ext (inj a _ _ hp'.1 hq'.1 h.1) (inj b _ _ hp'.2 hq'.2 h.2)

/-! ### the output time axis -/

theorem project_length (keep : List ℕ) (r : TimeC.Row) : (project keep r).length = keep.length := by simp [project]

theorem projected_width (keep : List ℕ) (rows : List TimeC.Row) :
    ∀ r ∈ rows.map (project keep), r.length = keep.length := by
  intro r hr
  obtain ⟨q, _, rfl⟩ := List.mem_map.1 hr
  exact project_length keep q

/-- C54: the output time axis is strictly increasing (so without repetition) and consists of exactly the kept
fields of the input times. -/
theorem outTime_correct (keep : List ℕ) (rows : List TimeC.Row) :
    (outTime keep rows).Pairwise (· < ·) ∧
    ∀ key, key ∈ outTime keep rows ↔ ∃ r ∈ rows, keptFields keep r = key := by
  have hw := projected_width keep rows
  have hs := TimeC.sortedRows_argsort hw
  obtain ⟨h1, h2⟩ := TimeC.uniquify_correct _ hs.width hs.sorted
  refine ⟨h1, fun key => ?_⟩
  unfold outTime uniquifySorted
  rw [h2]
  have hp := (TimeC.argsortRows_perm (rows.map (project keep))).map fun i : ℕ => (rows.map (project keep)).getD i []
  rw [hp.mem_iff]
  have he : (List.range (rows.map (project keep)).length).map (fun i : ℕ => (rows.map (project keep)).getD i []) =
      rows.map (project keep) := by
    refine List.ext_getElem (by simp) fun j a b => ?_
    rw [List.getElem_map, List.getElem_range, List.getD_eq_getElem _ _ b]
  rw [he, List.mem_map]
  rfl

/-- the key of the `o`-th requested output time -/
def selKey (keep : List ℕ) (rows : List TimeC.Row) (sel : List ℕ) (o : ℕ) : TimeC.Row :=
  (outTime keep rows).getD (sel.getD o 0) []

section
variable {keep : List ℕ} {rows : List TimeC.Row} {sel m : List ℕ} {ti limit : ℕ}

theorem selKey_mem (hr : ∀ o ∈ sel, o < (outTime keep rows).length) {o : ℕ} (ho : o < sel.length) :
    selKey keep rows sel o ∈ outTime keep rows := by
  have hso : sel.getD o 0 < (outTime keep rows).length := by
    rw [List.getD_eq_getElem _ _ ho]; exact hr _ (List.getElem_mem ho)
  unfold selKey
  rw [List.getD_eq_getElem _ _ hso]
  exact List.getElem_mem hso

theorem sel_rows_nodup (hnd : sel.Nodup) (hr : ∀ o ∈ sel, o < (outTime keep rows).length) :
    (sel.map fun o : ℕ => (outTime keep rows).getD o []).Nodup := by
  refine List.Nodup.map_on ?_ hnd
  intro x hx y hy h
  rw [List.getD_eq_getElem _ _ (hr x hx), List.getD_eq_getElem _ _ (hr y hy)] at h
  have : (outTime keep rows).Nodup := (outTime_correct keep rows).1.imp fun h => ne_of_lt h
  exact (List.Nodup.getElem_inj_iff this).1 h

theorem sel_rows_width (hr : ∀ o ∈ sel, o < (outTime keep rows).length) :
    ∀ r ∈ sel.map (fun o : ℕ => (outTime keep rows).getD o []), r.length = keep.length := by
  intro r hr'
  obtain ⟨o, ho, rfl⟩ := List.mem_map.1 hr'
  rw [List.getD_eq_getElem _ _ (hr o ho)]
  obtain ⟨q, _, h⟩ := ((outTime_correct keep rows).2 _).1 (List.getElem_mem (hr o ho))
  rw [← h]
  exact project_length keep q

theorem binPairs_mem (hnd : sel.Nodup) (hr : ∀ o ∈ sel, o < (outTime keep rows).length) (i o : ℕ) :
    (i, o) ∈ binPairs keep rows sel ↔
      o < sel.length ∧ i < rows.length ∧ keptFields keep (rows.getD i []) = selKey keep rows sel o := by
  unfold binPairs
  constructor
  · intro h
    obtain ⟨r, h1, h2⟩ := TimeC.time_common_map_sound _ _ (projected_width keep rows) (sel_rows_width hr) i o h
    obtain ⟨hi, hie⟩ := List.getElem?_eq_some_iff.1 h1
    obtain ⟨ho, hoe⟩ := List.getElem?_eq_some_iff.1 h2
    rw [List.length_map] at hi ho
    refine ⟨ho, hi, ?_⟩
    rw [List.getElem_map] at hie hoe
    unfold selKey
    rw [List.getD_eq_getElem sel _ ho, hoe, ← hie, List.getD_eq_getElem _ _ hi]
    rfl
  · rintro ⟨ho, hi, he⟩
    refine TimeC.time_common_map_complete _ _ (projected_width keep rows) (sel_rows_width hr)
      (Or.inr (sel_rows_nodup hnd hr)) i o (selKey keep rows sel o) ?_ ?_
    · rw [List.getElem?_map, List.getElem?_eq_getElem hi, Option.map_some, ← he, List.getD_eq_getElem _ _ hi]
      rfl
    · rw [List.getElem?_map, List.getElem?_eq_getElem ho, Option.map_some]
      unfold selKey
      rw [List.getD_eq_getElem sel _ ho]

theorem binPairs_nodup (hr : ∀ o ∈ sel, o < (outTime keep rows).length) : (binPairs keep rows sel).Nodup :=
  commonMap_nodup _ _ (projected_width keep rows) (sel_rows_width hr)

theorem bin_perm (hnd : sel.Nodup) (hr : ∀ o ∈ sel, o < (outTime keep rows).length) {o : ℕ} (ho : o < sel.length) :
    ((binPairs keep rows sel).filter fun p => decide (p.2 = o)).map Prod.fst ~
      timesWith keep rows (selKey keep rows sel o) := by
  rw [List.perm_ext_iff_of_nodup]
  · intro i
    simp only [List.mem_map, List.mem_filter, decide_eq_true_eq, Prod.exists, exists_and_right, exists_eq_right]
    constructor
    · intro h1
      have := (binPairs_mem hnd hr i o).1 h1
      exact List.mem_filter.2 ⟨List.mem_range.2 this.2.1, by simpa using this.2.2⟩
    · intro h
      obtain ⟨h1, h2⟩ := List.mem_filter.1 h
      exact (binPairs_mem hnd hr i o).2 ⟨ho, List.mem_range.1 h1, by simpa using h2⟩
  · refine List.Nodup.map_on ?_ ((binPairs_nodup hr).filter _)
    intro p hp q hq h
    have h1 := (List.mem_filter.1 hp).2
    have h2 := (List.mem_filter.1 hq).2
    simp only [decide_eq_true_eq] at h1 h2
    exact Prod.ext h (h1.trans h2.symm)
  · exact List.nodup_range.filter _

/-- C54: no output time is empty. -/
theorem timesWith_ne (hr : ∀ o ∈ sel, o < (outTime keep rows).length) {o : ℕ} (ho : o < sel.length) :
    timesWith keep rows (selKey keep rows sel o) ≠ [] := by
  obtain ⟨r, h1, h2⟩ := ((outTime_correct keep rows).2 _).1 (selKey_mem hr ho)
  obtain ⟨i, hi, rfl⟩ := List.getElem_of_mem h1
  refine List.ne_nil_of_mem (a := i) (List.mem_filter.2 ⟨List.mem_range.2 hi, ?_⟩)
  rw [List.getD_eq_getElem _ _ hi]
  simpa using h2

theorem binPairs_ne (g : ClimReq m ti sel (outTime keep rows).length) : binPairs keep rows sel ≠ [] := by
  have h0 : 0 < sel.length := by rw [← g.time]; exact g.pos _ (getD_mem g.dim)
  obtain ⟨i, hi⟩ := List.exists_mem_of_ne_nil _ (timesWith_ne g.range h0)
  obtain ⟨h1, h2⟩ := List.mem_filter.1 hi
  exact List.ne_nil_of_mem ((binPairs_mem g.nd g.range i 0).2 ⟨h0, List.mem_range.1 h1, by simpa using h2⟩)

/-- the chunks of the input view only ask for existing positions -/
theorem inView_chunk_inRange (g : ClimReq m ti sel (outTime keep rows).length) (hl : 1 ≤ limit) (c : View ℕ)
    (hc : c ∈ (inView m ti (binPairs keep rows sel)).loopMem limit []) :
    InRange (m.set ti rows.length) c.inds := by
  set v := inView m ti (binPairs keep rows sel) with hv
  have hvl : v.inds.length = m.length := by simp [hv, inView]
  have hvj : ∀ j, j < m.length → j ≠ ti → v.inds.getD j [] = List.range (m.getD j 0) := by
    intro j hj hjt
    rw [hv]; unfold inView; simp only
    rw [getD_set_ne _ _ _ (Ne.symm hjt), getD_map_range m j hj]
  have hvt : v.inds.getD ti [] = (binPairs keep rows sel).map Prod.fst := by
    rw [hv]; unfold inView; simp only
    rw [getD_set_self _ _ _ _ (by simpa using g.dim)]
  have hne : ∀ ind ∈ v.inds, ind ≠ [] := by
    intro ind hind
    obtain ⟨j, hj, rfl⟩ := List.getElem_of_mem hind
    rw [← List.getD_eq_getElem _ [] hj]
    rw [hvl] at hj
    by_cases hjt : j = ti
    · subst hjt
      rw [hvt, Ne, List.map_eq_nil_iff]
      exact binPairs_ne g
    · rw [hvj j hj hjt]
      intro h0
      have h1 := congrArg List.length h0
      rw [List.length_range, List.length_nil] at h1
      have := g.pos (m.getD j 0) (getD_mem hj)
      omega
  obtain ⟨parts, h1, h2, h3, h4, h5⟩ := loopMem_splits v limit [] hl hne (by simp)
  have hm : c.inds ∈ product parts := by
    rw [← h4]; exact List.mem_map_of_mem hc
  rw [mem_product, List.forall₂_iff_get] at hm
  have hpl : parts.length = v.inds.length := by rw [← h1, List.length_map]
  unfold InRange
  rw [List.forall₂_iff_get]
  refine ⟨by rw [List.length_set]; omega, fun j hj1 hj2 => ?_⟩
  have hjm : j < m.length := by omega
  have hjp : j < parts.length := by omega
  have hjv : j < v.inds.length := by omega
  have hmem := hm.2 j hj1 hjp
  simp only [List.get_eq_getElem] at hmem ⊢
  intro x hx
  have hxv : x ∈ v.inds.getD j [] := by
    have : v.inds[j] = parts[j].flatten := by
      have : v.inds[j] = (parts.map List.flatten)[j]'(by simpa using hjp) := by simp [h1]
      rw [this, List.getElem_map]
    rw [List.getD_eq_getElem _ _ hjv, this]
    exact List.mem_flatten.2 ⟨_, hmem, hx⟩
  by_cases hjt : j = ti
  · subst hjt
    rw [hvt] at hxv
    obtain ⟨p, hp, rfl⟩ := List.mem_map.1 hxv
    rw [List.getElem_set_self]
    exact ((binPairs_mem g.nd g.range p.1 p.2).1 hp).2.1
  · rw [hvj j hjm hjt, List.mem_range, List.getD_eq_getElem _ _ hjm] at hxv
    rw [List.getElem_set_ne (Ne.symm hjt)]
    exact hxv

/-- the accumulated sums: over exactly the times of the bin -/
theorem acc_bin [AddCommMonoid α] (ps : NArr β → ℕ → ℕ → List ℕ → NArr α) (val : β → α) (hps : PSum ps val)
    (g : ClimReq m ti sel (outTime keep rows).length) (hl : 1 ≤ limit) {data : List ℕ → β} {chunk : View ℕ → NArr β}
    (hr : Reads data (m.set ti rows.length) chunk) {k : List ℕ} (hk : InBounds m k) :
    (accLoop ps limit m ti (binPairs keep rows sel) chunk).get k =
      ((timesWith keep rows (selKey keep rows sel (k.getD ti 0))).map fun t => val (data (k.set ti t))).sum := by
  have ho : k.getD ti 0 < sel.length := by rw [← g.time]; exact InBounds.lt hk g.dim
  rw [accLoop_spec ps val hps g.dim g.pos (binPairs_ne g) (fun p hp => by
      rw [g.time]; exact ((binPairs_mem g.nd g.range p.1 p.2).1 hp).1) hl data chunk
    (fun c hc => hr c (inView_chunk_inRange g hl c hc)) k hk]
  rw [← ((bin_perm g.nd g.range ho).map fun t => val (data (k.set ti t))).sum_eq, List.map_map]
  rfl

theorem psum_partialSum [AddCommMonoid α] : PSum (fun (a : NArr α) i n o => (partialSum a i n o).1) id :=
  fun arr _ _ _ hi hlen hmap _ hk => (partialSum_correct arr hi hlen hmap hk).1

theorem psum_partialCount [AddCommMonoid α] :
    PSum (fun (a : NArr α) i n o => (partialSum a i n o).2) fun _ => 1 := by
  intro arr i n o hi hlen hmap k hk
  rw [(partialSum_correct arr hi hlen hmap hk).2]
  simp

theorem psum_partialNanSum [AddCommMonoid α] :
    PSum (fun (a : NArr (Option α)) i n o => (partialNanSum a i n o).1) fun x => x.getD 0 := by
  intro arr i n o hi hlen hmap k hk
  rw [(partialNanSum_correct arr hi hlen hmap hk).1]
  generalize (List.range o.length).filter _ = l
  induction l with
  | nil => rfl
  | cons x l ih =>
    rw [List.filterMap_cons, List.map_cons, List.sum_cons, ← ih]
    cases arr.get (k.set i x) <;> simp

theorem psum_partialNanCount [AddCommMonoid α] :
    PSum (fun (a : NArr (Option α)) i n o => (partialNanSum a i n o).2) fun x => if x.isSome then 1 else 0 := by
  intro arr i n o hi hlen hmap k hk
  rw [(partialNanSum_correct arr hi hlen hmap hk).2]
  generalize (List.range o.length).filter _ = l
  induction l with
  | nil => rfl
  | cons x l ih =>
    rw [List.filterMap_cons, List.map_cons, List.sum_cons, ← ih]
    cases arr.get (k.set i x) <;> simp [Nat.add_comm]

theorem valid_sum (l : List (Option ℚ)) : (l.map fun x => x.getD 0).sum = (valid l).sum := by
  induction l with
  | nil => rfl
  | cons x l ih => cases x <;> simp_all [valid]

theorem valid_count (l : List (Option ℚ)) : (l.map fun x => if x.isSome then 1 else 0).sum = (valid l).length := by
  induction l with
  | nil => rfl
  | cons x l ih => cases x <;> simp_all [valid, Nat.add_comm]

theorem valid_sq (l : List (Option ℚ)) : valid (l.map (Option.map (· ^ 2))) = (valid l).map (· ^ 2) := by
  induction l with
  | nil => rfl
  | cons x l ih => cases x <;> simp_all [valid]

/-- the values that enter the output cell `k` -/
def binValues (data : List ℕ → β) (keep : List ℕ) (rows : List TimeC.Row) (sel : List ℕ) (ti : ℕ) (k : List ℕ) : List β :=
  (timesWith keep rows (selKey keep rows sel (k.getD ti 0))).map fun t => data (k.set ti t)

theorem binValues_ne {data : List ℕ → β} (g : ClimReq m ti sel (outTime keep rows).length) {k : List ℕ}
    (hk : InBounds m k) : binValues data keep rows sel ti k ≠ [] := by
  unfold binValues
  rw [Ne, List.map_eq_nil_iff]
  exact timesWith_ne g.range (by rw [← g.time]; exact InBounds.lt hk g.dim)

theorem sums_correct {data : List ℕ → ℚ} {chunk : View ℕ → NArr ℚ}
    (g : ClimReq m ti sel (outTime keep rows).length) (hl : 1 ≤ limit)
    (hr : Reads data (m.set ti rows.length) chunk) {k : List ℕ} (hk : InBounds m k) :
    (climLoop partialSum limit m ti (binPairs keep rows sel) chunk).1.get k = (binValues data keep rows sel ti k).sum ∧
    (climLoop partialSum limit m ti (binPairs keep rows sel) chunk).2.get k = (binValues data keep rows sel ti k).length := by
  rw [climLoop_eq]
  constructor
  · exact acc_bin _ _ psum_partialSum g hl hr hk
  · refine (acc_bin _ _ psum_partialCount g hl hr hk).trans ?_
    simp [binValues]

theorem nansums_correct {data : List ℕ → Option ℚ} {chunk : View ℕ → NArr (Option ℚ)}
    (g : ClimReq m ti sel (outTime keep rows).length) (hl : 1 ≤ limit)
    (hr : Reads data (m.set ti rows.length) chunk) {k : List ℕ} (hk : InBounds m k) :
    (climLoop partialNanSum limit m ti (binPairs keep rows sel) chunk).1.get k =
      (valid (binValues data keep rows sel ti k)).sum ∧
    (climLoop partialNanSum limit m ti (binPairs keep rows sel) chunk).2.get k =
      (valid (binValues data keep rows sel ti k)).length := by
  rw [climLoop_eq]
  constructor
  · refine (acc_bin _ _ psum_partialNanSum g hl hr hk).trans ?_
    rw [← valid_sum]
    unfold binValues
    rw [List.map_map]
    rfl
  · refine (acc_bin _ _ psum_partialNanCount g hl hr hk).trans ?_
    rw [← valid_count]
    unfold binValues
    rw [List.map_map]
    rfl

/-- C54: `Mean`: each output cell is the mean of the values at exactly the input times whose kept fields are those
of the output time, at the same position along the other axes; there is at least one. The chunk limit does not
appear on the right. -/
theorem climMean_correct {data : List ℕ → ℚ} {chunk : View ℕ → NArr ℚ}
    (g : ClimReq m ti sel (outTime keep rows).length) (hl : 1 ≤ limit)
    (hr : Reads data (m.set ti rows.length) chunk) {k : List ℕ} (hk : InBounds m k) :
    let times := timesWith keep rows ((outTime keep rows).getD (sel.getD (k.getD ti 0) 0) [])
    times ≠ [] ∧
    (climMean limit m ti (binPairs keep rows sel) chunk).get k =
      (times.map fun t => data (k.set ti t)).sum / (times.length : ℚ) := by
  refine ⟨timesWith_ne g.range (by rw [← g.time]; exact InBounds.lt hk g.dim), ?_⟩
  obtain ⟨h1, h2⟩ := sums_correct g hl hr hk
  unfold climMean
  simp only [zip2, h1, h2]
  unfold binValues
  rw [List.length_map]
  rfl

/-- C54: `NANMean`: the mean of the values that are numbers; NaN if there is none. -/
theorem climNanMean_correct {data : List ℕ → Option ℚ} {chunk : View ℕ → NArr (Option ℚ)}
    (g : ClimReq m ti sel (outTime keep rows).length) (hl : 1 ≤ limit)
    (hr : Reads data (m.set ti rows.length) chunk) {k : List ℕ} (hk : InBounds m k) :
    let times := timesWith keep rows ((outTime keep rows).getD (sel.getD (k.getD ti 0) 0) [])
    let vals := valid (times.map fun t => data (k.set ti t))
    (climNanMean limit m ti (binPairs keep rows sel) chunk).get k =
      if vals = [] then none else some (vals.sum / (vals.length : ℚ)) := by
  intro times vals
  obtain ⟨h1, h2⟩ := nansums_correct g hl hr hk
  unfold climNanMean
  simp only [zip2, h1, h2]
  change (if vals.length = 0 then none else some (vals.sum / (vals.length : ℚ))) = _
  simp only [List.length_eq_zero_iff]

/-- C54: `Count`: the number of values that are numbers. -/
theorem climCount_correct {data : List ℕ → Option ℚ} {chunk : View ℕ → NArr (Option ℚ)}
    (g : ClimReq m ti sel (outTime keep rows).length) (hl : 1 ≤ limit)
    (hr : Reads data (m.set ti rows.length) chunk) {k : List ℕ} (hk : InBounds m k) :
    (climCount limit m ti (binPairs keep rows sel) chunk).get k =
      (valid ((timesWith keep rows ((outTime keep rows).getD (sel.getD (k.getD ti 0) 0) [])).map
        fun t => data (k.set ti t))).length :=
  (nansums_correct g hl hr hk).2

theorem reads_map' {A D : Type} {data : List ℕ → A} {lens : List ℕ} {chunk : View ℕ → NArr A} (f : A → D)
    (hr : Reads data lens chunk) : Reads (fun q => f (data q)) lens fun c => (chunk c).map f := by
  intro c hc
  obtain ⟨h1, h2⟩ := hr c hc
  exact ⟨h1, fun k hk => by simp only [NArr.map, h2 k hk]⟩

/-- C54: `Stdev` before the square root is the textbook variance of the values of the bin (of at least two values;
the code returns NaN for one). -/
theorem climVariance_correct {data : List ℕ → ℚ} {chunk : View ℕ → NArr ℚ}
    (g : ClimReq m ti sel (outTime keep rows).length) (hl : 1 ≤ limit)
    (hr : Reads data (m.set ti rows.length) chunk) {k : List ℕ} (hk : InBounds m k) :
    (climVariance limit m ti (binPairs keep rows sel) chunk).get k =
      textbookVariance ((timesWith keep rows ((outTime keep rows).getD (sel.getD (k.getD ti 0) 0) [])).map
        fun t => data (k.set ti t)) := by
  obtain ⟨h1, h2⟩ := sums_correct g hl hr hk
  obtain ⟨h3, -⟩ := sums_correct g hl (reads_map' (· ^ 2) hr) hk
  have hne := binValues_ne (data := data) g hk
  unfold climVariance
  simp only [h1, h2, h3]
  change _ = textbookVariance (binValues data keep rows sel ti k)
  rw [← onepass_variance _ hne]
  have e : binValues (fun q => data q ^ 2) keep rows sel ti k = (binValues data keep rows sel ti k).map (· ^ 2) := by
    unfold binValues; rw [List.map_map]; rfl
  rw [e]
  have : ((binValues data keep rows sel ti k).length : ℚ) ≠ 0 := by simpa using hne
  congr 1
  field_simp

theorem climNanVariance_correct {data : List ℕ → Option ℚ} {chunk : View ℕ → NArr (Option ℚ)}
    (g : ClimReq m ti sel (outTime keep rows).length) (hl : 1 ≤ limit)
    (hr : Reads data (m.set ti rows.length) chunk) {k : List ℕ} (hk : InBounds m k) :
    let vals := valid ((timesWith keep rows ((outTime keep rows).getD (sel.getD (k.getD ti 0) 0) [])).map
        fun t => data (k.set ti t))
    (climNanVariance limit m ti (binPairs keep rows sel) chunk).get k =
      if vals = [] then none else some (textbookVariance vals) := by
  intro vals
  obtain ⟨h1, h2⟩ := nansums_correct g hl hr hk
  obtain ⟨h3, -⟩ := nansums_correct g hl (reads_map' (Option.map (· ^ 2)) hr) hk
  have e : binValues (fun q => Option.map (· ^ 2) (data q)) keep rows sel ti k =
      (binValues data keep rows sel ti k).map (Option.map (· ^ 2)) := by
    unfold binValues; rw [List.map_map]; rfl
  rw [e, valid_sq] at h3
  unfold climNanVariance
  simp only [h1, h2, h3]
  change (if vals.length = 0 then none else some (((vals.map (· ^ 2)).sum - (vals.length : ℚ) * (vals.sum / (vals.length : ℚ)) ^ 2) /
    ((vals.length : ℚ) - 1))) = _
  by_cases hv : vals = []
  · rw [if_pos hv, if_pos (by simp [hv])]
  · rw [if_neg hv, if_neg (by simpa using hv), ← onepass_variance _ hv]
    have : (vals.length : ℚ) ≠ 0 := by simpa using hv
    congr 2
    field_simp

/-! ### C64: the trend -/

/-- sum of squared residuals of the line `a + b x` through the points -/
def residual (pts : List (ℚ × ℚ)) (a b : ℚ) : ℚ := (pts.map fun p => (p.2 - (a + b * p.1)) ^ 2).sum

theorem residual_expand (pts : List (ℚ × ℚ)) (a b : ℚ) :
    residual pts a b = (pts.map fun p => p.2 ^ 2).sum - 2 * a * (pts.map fun p => p.2).sum
      - 2 * b * (pts.map fun p => p.2 * p.1).sum + pts.length * a ^ 2 + 2 * a * b * (pts.map fun p => p.1).sum
      + b ^ 2 * (pts.map fun p => p.1 ^ 2).sum := by
  unfold residual
  induction pts with
  | nil => simp
  | cons p pts ih =>
    simp only [List.map_cons, List.sum_cons, ih, List.length_cons]
    push_cast
    ring

theorem spread_pos (pts : List (ℚ × ℚ)) (hne : ∃ p ∈ pts, ∃ q ∈ pts, p.1 ≠ q.1) :
    0 < pts.length * (pts.map fun p => p.1 ^ 2).sum - (pts.map fun p => p.1).sum ^ 2 := by
  set mu := (pts.map fun p => p.1).sum / (pts.length : ℚ) with hmu
  have hn : (pts.length : ℚ) ≠ 0 := by
    have : pts ≠ [] := by obtain ⟨p, hp, _⟩ := hne; exact List.ne_nil_of_mem hp
    simpa using this
  have hnpos : (0 : ℚ) < pts.length := lt_of_le_of_ne (by positivity) (Ne.symm hn)
  have h1 : (pts.map fun p => (p.1 - mu) ^ 2).sum =
      (pts.map fun p => p.1 ^ 2).sum - 2 * mu * (pts.map fun p => p.1).sum + pts.length * mu ^ 2 := by
    clear_value mu
    clear hmu hne hn hnpos
    induction pts with
    | nil => simp
    | cons p pts ih =>
      simp only [List.map_cons, List.sum_cons, List.length_cons, ih]
      push_cast
      ring
  have h2 : pts.length * (pts.map fun p => p.1 ^ 2).sum - (pts.map fun p => p.1).sum ^ 2 =
      pts.length * (pts.map fun p => (p.1 - mu) ^ 2).sum := by
    rw [h1, hmu]
    field_simp
    ring
  rw [h2]
  refine mul_pos hnpos ?_
  obtain ⟨p, hp, q, hq, hpq⟩ := hne
  have hex : ∃ r ∈ pts, r.1 - mu ≠ 0 := by
    by_contra hcon
    push Not at hcon
    exact hpq (by have := hcon p hp; have := hcon q hq; linarith)
  obtain ⟨r, hr, hrm⟩ := hex
  have hle : (r.1 - mu) ^ 2 ≤ (pts.map fun p => (p.1 - mu) ^ 2).sum :=
    List.single_le_sum (by
      intro x hx
      obtain ⟨y, _, rfl⟩ := List.mem_map.1 hx
      positivity) _ (List.mem_map.2 ⟨r, hr, rfl⟩)
  exact lt_of_lt_of_le (by positivity) hle

theorem normal_eqs {n sx sf sxf sxx : ℚ} (hn : n ≠ 0) (hd : sxx / n - (sx / n) ^ 2 ≠ 0) :
    n * ((sxx / n * (sf / n) - sx / n * (sxf / n)) / (sxx / n - (sx / n) ^ 2)) +
      ((sxf / n - sx / n * (sf / n)) / (sxx / n - (sx / n) ^ 2)) * sx = sf ∧
    ((sxx / n * (sf / n) - sx / n * (sxf / n)) / (sxx / n - (sx / n) ^ 2)) * sx +
      ((sxf / n - sx / n * (sf / n)) / (sxx / n - (sx / n) ^ 2)) * sxx = sxf := by
  have e : sxx / n - (sx / n) ^ 2 = (n * sxx - sx ^ 2) / n ^ 2 := by field_simp
  have hd' : n * sxx - sx ^ 2 ≠ 0 := by
    intro h; rw [e, h] at hd; simp at hd
  rw [e]
  have hd2 : sxx * n - sx ^ 2 ≠ 0 := by rwa [mul_comm]
  constructor
  · field_simp
    ring
  · have e2 : (n * sxx - sx ^ 2) = sxx * n - sx ^ 2 := by ring
    rw [e2]
    field_simp
    ring

/-- the points (time, value) that enter the output cell `k` -/
def binPoints (data time : List ℕ → ℚ) (keep : List ℕ) (rows : List TimeC.Row) (sel : List ℕ) (ti : ℕ) (k : List ℕ) :
    List (ℚ × ℚ) :=
  (timesWith keep rows ((outTime keep rows).getD (sel.getD (k.getD ti 0) 0) [])).map
    fun t => (time (k.set ti t), data (k.set ti t))

theorem reads_zip {A B D : Type} {data : List ℕ → A} {time : List ℕ → B} {lens : List ℕ} {chunk : View ℕ → NArr A}
    {tchunk : View ℕ → NArr B} (f : A → B → D) (hr : Reads data lens chunk) (ht : Reads time lens tchunk) :
    Reads (fun q => f (data q) (time q)) lens fun c => zip2 f (chunk c) (tchunk c) := by
  intro c hc
  obtain ⟨h1, h2⟩ := hr c hc
  obtain ⟨h3, h4⟩ := ht c hc
  exact ⟨h1, fun k hk => by simp only [zip2, h2 k hk, h4 k hk]⟩

/-- C64: if the times of the bin are not all equal (their variance is not 0), the coefficients of `Trend` are the
unique line with the least sum of squared residuals. -/
theorem climTrend_least_squares {data time : List ℕ → ℚ} {chunk tchunk : View ℕ → NArr ℚ}
    (g : ClimReq m ti sel (outTime keep rows).length) (hl : 1 ≤ limit)
    (hr : Reads data (m.set ti rows.length) chunk) (ht : Reads time (m.set ti rows.length) tchunk) {k : List ℕ}
    (hk : InBounds m k)
    (hne : ∃ p ∈ binPoints data time keep rows sel ti k, ∃ q ∈ binPoints data time keep rows sel ti k, p.1 ≠ q.1) :
    let c := (climTrend limit m ti (binPairs keep rows sel) chunk tchunk).get k
    ∀ a b, residual (binPoints data time keep rows sel ti k) c.1 c.2 ≤ residual (binPoints data time keep rows sel ti k) a b ∧
      (residual (binPoints data time keep rows sel ti k) a b = residual (binPoints data time keep rows sel ti k) c.1 c.2 →
        (a, b) = c) := by
  set pts := binPoints data time keep rows sel ti k with hpts
  set T := timesWith keep rows ((outTime keep rows).getD (sel.getD (k.getD ti 0) 0) []) with hT
  have hn : (pts.length : ℚ) ≠ 0 := by
    have : pts ≠ [] := by obtain ⟨p, hp, _⟩ := hne; exact List.ne_nil_of_mem hp
    simpa using this
  have hnpos : (0 : ℚ) < pts.length := lt_of_le_of_ne (by positivity) (Ne.symm hn)
  have hTl : (T.length : ℚ) = pts.length := by rw [hpts]; simp [binPoints, hT]
  have hF := (climMean_correct g hl hr hk).2
  have hX := (climMean_correct g hl ht hk).2
  have hXF := (climMean_correct g hl (reads_zip (· * ·) hr ht) hk).2
  have hX2 := (climMean_correct g hl (reads_map' (· ^ 2) ht) hk).2
  rw [← hT, hTl] at hF hX hXF hX2
  set sx := (pts.map fun p => p.1).sum with hsx
  set sf := (pts.map fun p => p.2).sum with hsf
  set sxf := (pts.map fun p => p.2 * p.1).sum with hsxf
  set sxx := (pts.map fun p => p.1 ^ 2).sum with hsxx
  have e1 : (T.map fun t => data (k.set ti t)).sum = sf := by rw [hsf, hpts, binPoints, List.map_map]; rfl
  have e2 : (T.map fun t => time (k.set ti t)).sum = sx := by rw [hsx, hpts, binPoints, List.map_map]; rfl
  have e3 : (T.map fun t => data (k.set ti t) * time (k.set ti t)).sum = sxf := by
    rw [hsxf, hpts, binPoints, List.map_map]; rfl
  have e4 : (T.map fun t => time (k.set ti t) ^ 2).sum = sxx := by rw [hsxx, hpts, binPoints, List.map_map]; rfl
  rw [e1] at hF
  rw [e2] at hX
  rw [e3] at hXF
  rw [e4] at hX2
  have hd : 0 < sxx / pts.length - (sx / pts.length) ^ 2 := by
    have h := spread_pos pts hne
    have : sxx / pts.length - (sx / pts.length) ^ 2 = (pts.length * sxx - sx ^ 2) / (pts.length : ℚ) ^ 2 := by
      field_simp
    rw [this]
    exact div_pos h (by positivity)
  intro c a b
  have hc : c = ((sxx / pts.length * (sf / pts.length) - sx / pts.length * (sxf / pts.length)) /
        (sxx / pts.length - (sx / pts.length) ^ 2),
      (sxf / pts.length - sx / pts.length * (sf / pts.length)) / (sxx / pts.length - (sx / pts.length) ^ 2)) := by
    change (climTrend limit m ti (binPairs keep rows sel) chunk tchunk).get k = _
    unfold climTrend
    simp only [hF, hX, hXF, hX2]
  have key : residual pts a b = residual pts c.1 c.2 + pts.length * ((a - c.1) + (b - c.2) * (sx / pts.length)) ^ 2 +
      (b - c.2) ^ 2 * pts.length * (sxx / pts.length - (sx / pts.length) ^ 2) := by
    obtain ⟨n1, n2⟩ := normal_eqs (n := (pts.length : ℚ)) (sx := sx) (sf := sf) (sxf := sxf) (sxx := sxx) hn (ne_of_gt hd)
    rw [residual_expand, residual_expand, hc]
    simp only
    rw [← hsx, ← hsf, ← hsxf, ← hsxx]
    set A := (sxx / pts.length * (sf / pts.length) - sx / pts.length * (sxf / pts.length)) /
        (sxx / pts.length - (sx / pts.length) ^ 2)
    set B := (sxf / pts.length - sx / pts.length * (sf / pts.length)) / (sxx / pts.length - (sx / pts.length) ^ 2)
    rw [← n1, ← n2]
    field_simp
    ring
  have p1 : 0 ≤ (pts.length : ℚ) * ((a - c.1) + (b - c.2) * (sx / pts.length)) ^ 2 := by positivity
  have p2 : 0 ≤ (b - c.2) ^ 2 * pts.length * (sxx / pts.length - (sx / pts.length) ^ 2) := by positivity
  refine ⟨by linarith, fun h => ?_⟩
  have z2 : (b - c.2) ^ 2 * pts.length * (sxx / pts.length - (sx / pts.length) ^ 2) = 0 := by linarith
  have z1 : (pts.length : ℚ) * ((a - c.1) + (b - c.2) * (sx / pts.length)) ^ 2 = 0 := by linarith
  have hb : b - c.2 = 0 := by
    rcases mul_eq_zero.1 z2 with h | h
    · rcases mul_eq_zero.1 h with h | h
      · exact pow_eq_zero_iff (two_ne_zero) |>.1 h
      · exact absurd h hn
    · exact absurd h (ne_of_gt hd)
  rw [hb, zero_mul, add_zero] at z1
  have ha : a - c.1 = 0 := by
    rcases mul_eq_zero.1 z1 with h | h
    · exact absurd h hn
    · exact pow_eq_zero_iff (two_ne_zero) |>.1 h
  exact Prod.ext (by simp only; linarith) (by simp only; linarith)

end

/-! ### examples: the hypotheses are met -/

/-- three years of data on two calendar dates plus one date that occurs once; keeping month and day: three bins -/
def exRows : List TimeC.Row :=
  [[2001, 1, 1], [2000, 1, 1], [2000, 7, 1], [2001, 7, 1], [2002, 1, 1], [2002, 3, 5]]

example : outTime [1, 2] exRows = [[1, 1], [3, 5], [7, 1]] := by decide +kernel

example : binPairs [1, 2] exRows [2, 0] = [(0, 1), (1, 1), (4, 1), (2, 0), (3, 0)] := by decide +kernel

example : ClimReq [2, 2] 0 [2, 0] (outTime [1, 2] exRows).length := by
  constructor <;> decide +kernel

example : timesWith [1, 2] exRows ((outTime [1, 2] exRows).getD 0 []) = [0, 1, 4] := by decide +kernel

/-- a chunked run (limit 2) of the model: the July mean of column 1, where the value is `10 t + column` -/
example : (climMean 2 [2, 2] 0 (binPairs [1, 2] exRows [2, 0]) fun c =>
      { shape := c.inds.map List.length
        get := fun k => 10 * ((c.inds.getD 0 []).getD (k.getD 0 0) 0) + ((c.inds.getD 1 []).getD (k.getD 1 0) 0) }).get [0, 1]
    = 26 := by decide +kernel

end Climat
end PyGeode
