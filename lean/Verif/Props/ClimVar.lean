/-
Property C106: the time averages of variables (climatology, dailymean, monthlymean, ...).
-/
import Verif.Spec.ClimVar
import Verif.Props.Climat
import Verif.Props.Along
import Verif.Props.Stats

namespace PyGeode
namespace ClimVar
open Spec NArr Axis Combine VarOps Reduce Climat PartialSum
variable {α β : Type}

/-! ### fields -/

theorem dateAt_eq (a : Axis) (fs : List Name) (i : ℕ) : dateAt a fs i = fs.map fun f => fieldAt a f i := rfl

theorem rowsOf_eq (a : Axis) (fs : List Name) : rowsOf a fs = (List.range a.len).map (dateAt a fs) := rfl

theorem rowsOf_length (a : Axis) (fs : List Name) : (rowsOf a fs).length = a.len := by simp [rowsOf]

theorem rowsOf_getD (a : Axis) (fs : List Name) {i : ℕ} (hi : i < a.len) : (rowsOf a fs).getD i [] = dateAt a fs i := by
  rw [List.getD_eq_getElem _ _ (by rw [rowsOf_length]; exact hi)]
  simp [rowsOf_eq]

theorem rowsOf_width (a : Axis) (fs : List Name) : ∀ r ∈ rowsOf a fs, r.length = fs.length := by
  intro r hr
  obtain ⟨i, _, rfl⟩ := List.mem_map.1 hr
  simp

theorem project_range {n : ℕ} {r : TimeC.Row} (h : r.length = n) : project (List.range n) r = r := by
  subst h
  unfold project
  refine List.ext_getElem (by simp) fun j h1 h2 => ?_
  rw [List.getElem_map, List.getElem_range, List.getD_eq_getElem _ _ h2]

theorem rows_project (a : Axis) (fs : List Name) : (rowsOf a fs).map (project (List.range fs.length)) = rowsOf a fs := by
  conv_rhs => rw [← List.map_id (rowsOf a fs)]
  exact List.map_congr_left fun r hr => project_range (rowsOf_width a fs r hr)

theorem outTime_rows (a : Axis) (fs : List Name) : Climat.outTime (List.range fs.length) (rowsOf a fs) = uniquifySorted (rowsOf a fs) := by
  unfold Climat.outTime
  rw [rows_project]

theorem timesWith_eq (t : Axis) (fs : List Name) (key : List ℤ) :
    timesWith (List.range fs.length) (rowsOf t fs) key = timesLike t fs key := by
  unfold timesWith timesLike
  rw [rowsOf_length]
  refine List.filter_congr fun i hi => ?_
  have hi : i < t.len := by simpa using hi
  rw [rowsOf_getD t fs hi]
  have : keptFields (List.range fs.length) (dateAt t fs i) = dateAt t fs i := project_range (by simp [dateAt])
  rw [this]

theorem sliceAxis_keys (nr : List ℚ → ℚ) (a : Axis) (s : List ℕ) :
    (sliceAxis nr a s).auxarrays.map Prod.fst = a.auxarrays.map Prod.fst := by
  unfold sliceAxis
  simp only
  split_ifs with h
  · rfl
  · rw [List.map_map]; rfl

/-- an axis made for an average -/
structure GoodOut (fs : List Name) (t out : Axis) : Prop where
  cls : out.classes = t.classes
  fields : out.auxarrays.map Prod.fst = fs
  lens : ∀ f arr, out.auxarrays.lookup f = some arr → arr.length = out.len
  nd : out.values.Nodup
  inc : out.values.Pairwise (· < ·)
  rows : rowsOf out fs = uniquifySorted (rowsOf t fs)

theorem lookup_isSome {V : Type} : ∀ {d : List (Name × V)} {f : Name}, f ∈ d.map Prod.fst → ∃ v, d.lookup f = some v
  | p :: d, f, h => by
    rw [List.lookup_cons]
    by_cases e : f = p.1
    · subst e; exact ⟨p.2, by simp⟩
    · rw [beq_false_of_ne e]
      exact lookup_isSome (by simpa [e] using h)

theorem sliceAxis_len (nr : List ℚ → ℚ) (a : Axis) (s : List ℕ) : (sliceAxis nr a s).len = s.length := by
  unfold Axis.len; rw [sliceAxis_values, List.length_map]

theorem rows_slice {fs : List Name} {t out : Axis} (g : GoodOut fs t out) (nr : List ℚ → ℚ) (sel : List ℕ)
    (hs : ∀ i ∈ sel, i < out.len) :
    rowsOf (sliceAxis nr out sel) fs = sel.map fun o : ℕ => (rowsOf out fs).getD o [] := by
  refine List.ext_getElem (by simp [rowsOf_length, sliceAxis_len]) fun k h1 h2 => ?_
  have hk : k < sel.length := by simpa using h2
  have hsk := hs _ (List.getElem_mem hk)
  rw [List.getElem_map, rowsOf_getD out fs hsk]
  simp only [rowsOf_eq, List.getElem_map, List.getElem_range, dateAt]
  refine List.map_congr_left fun f hf => ?_
  obtain ⟨arr, harr⟩ := lookup_isSome (d := out.auxarrays) (f := f) (by rw [g.fields]; exact hf)
  obtain ⟨arr', e1, e2, e3⟩ := sliceAxis_aux nr out sel g.nd hs f arr harr (g.lens f arr harr)
  rw [harr, e1]
  have := e3 k sel[k] (List.getElem?_eq_getElem hk)
  simp only [Option.getD_some, List.getD_eq_getElem?_getD, this]

theorem allowed_kept (b : Bin) :
    (["year".toList, "month".toList, "day".toList, "hour".toList, "minute".toList, "second".toList] : List Name).filter
      (fun f => decide (f ∈ keptBy b)) = keptBy b := by
  cases b <;> decide

theorem kept_nodup (b : Bin) : (keptBy b).Nodup := by cases b <;> decide

theorem allowed_plain {t : Axis} (h : "SeasonalStandardTime".toList ∉ t.classes ∧ "SeasonalModelTime365".toList ∉ t.classes) :
    allowedFields t = ["year".toList, "month".toList, "day".toList, "hour".toList, "minute".toList, "second".toList] := by
  unfold allowedFields
  rw [if_neg fun h' => h'.elim h.1 h.2]

theorem commonFields_eq {t ct : Axis} (b : Bin)
    (hp : "SeasonalStandardTime".toList ∉ t.classes ∧ "SeasonalModelTime365".toList ∉ t.classes)
    (hf : ct.auxarrays.map Prod.fst = fieldsKept t b) : commonFields t ct = fieldsKept t b := by
  unfold commonFields
  rw [allowed_plain hp]
  conv_rhs => unfold fieldsKept
  rw [← allowed_kept b, List.filter_filter]
  refine List.filter_congr fun f _ => ?_
  unfold hasField
  rw [hf]
  unfold fieldsKept
  simp only [List.mem_filter, decide_eq_true_eq]
  by_cases h1 : f ∈ t.auxarrays.map Prod.fst <;> simp [h1]

theorem pairs_eq {t out : Axis} {fs : List Name} (nr : List ℚ → ℚ)
    (g : GoodOut fs t out) (hne : fs ≠ []) (sel : List ℕ) (hs : ∀ i ∈ sel, i < out.len) (hcf : commonFields t (sliceAxis nr out sel) = fs) :
    pairsOf t (sliceAxis nr out sel) = some (binPairs (List.range fs.length) (rowsOf t fs) sel) := by
  unfold pairsOf
  rw [hcf, if_neg hne]
  unfold binPairs
  rw [rows_project, outTime_rows, rows_slice g nr sel hs, g.rows]

/-- the fields that the axis of an average has in common with the time axis are those it was made with -/
def Common (nr : List ℚ → ℚ) (fs : List Name) (t out : Axis) : Prop := ∀ sel, commonFields t (sliceAxis nr out sel) = fs

theorem common_kept {t out : Axis} {b : Bin} (nr : List ℚ → ℚ)
    (hp : "SeasonalStandardTime".toList ∉ t.classes ∧ "SeasonalModelTime365".toList ∉ t.classes)
    (g : GoodOut (fieldsKept t b) t out) : Common nr (fieldsKept t b) t out :=
  fun sel => commonFields_eq b hp (by rw [sliceAxis_keys]; exact g.fields)

/-! ### the loop -/

theorem uniq_congr {l l' : List ℕ} (h : ∀ i, i ∈ l ↔ i ∈ l') : uniq l = uniq l' := by
  unfold uniq
  refine List.Perm.eq_of_pairwise' (r := (· ≤ ·)) (List.pairwise_insertionSort _ _) (List.pairwise_insertionSort _ _) ?_
  refine (List.perm_insertionSort _ _).trans (List.Perm.trans ?_ (List.perm_insertionSort _ _).symm)
  rw [List.perm_ext_iff_of_nodup (List.nodup_dedup _) (List.nodup_dedup _)]
  intro a
  rw [List.mem_dedup, List.mem_dedup, h]

theorem foldlM_some {γ δ : Type} (f : δ → γ → Option δ) (g : δ → γ → δ) (l : List γ) (h : ∀ c ∈ l, ∀ s, f s c = some (g s c)) :
    ∀ s, l.foldlM f s = some (l.foldl g s) := by
  induction l with
  | nil => intro s; rfl
  | cons c l ih =>
    intro s
    rw [List.foldlM_cons, h c (by simp), List.foldl_cons]
    exact ih (fun d hd => h d (by simp [hd])) _

section
variable {x : Var β} {ti : ℕ} {t out : Axis} {fs : List Name} {I : List (List ℕ)} {nr : List ℚ → ℚ} {limit : ℕ}

theorem clip_inds (hlen : I.length = x.axes.length) (nr : List ℚ → ℚ) :
    (Loop.clip nr ⟨x.axes.set ti out, I⟩).inds = (I.map List.length).map List.range := by
  unfold Loop.clip
  simp only
  refine List.ext_getElem (by simp [hlen]) fun j h1 h2 => ?_
  simp [sliceAxis_len]

theorem clip_time (hlen : I.length = x.axes.length) (ht : ti < x.axes.length) (nr : List ℚ → ℚ) :
    (Loop.clip nr ⟨x.axes.set ti out, I⟩).axes[ti]? = some (sliceAxis nr out (I.getD ti [])) := by
  unfold Loop.clip
  simp only
  rw [List.getElem?_eq_getElem (by simp [hlen, ht]), List.getElem_zipWith, List.getElem_set_self,
    List.getD_eq_getElem _ _ (by omega)]

theorem clip_set (hlen : I.length = x.axes.length) (ht : x.axes[ti]? = some t) (nr : List ℚ → ℚ) :
    (Loop.clip nr ⟨x.axes.set ti out, I⟩).axes.set ti t = List.zipWith (sliceAxis nr) x.axes (I.set ti (List.range t.len)) := by
  unfold Loop.clip
  simp only
  obtain ⟨h, rfl⟩ := List.getElem?_eq_some_iff.1 ht
  refine List.ext_getElem (by simp) fun j h1 h2 => ?_
  rw [List.getElem_set, List.getElem_zipWith, List.getElem_zipWith, List.getElem_set, List.getElem_set]
  split_ifs with e
  · subst e; rw [sliceAxis_range]
  · rfl

/-- the request is one a time average can be asked for -/
theorem climReq (ht : x.axes[ti]? = some t) (g : GoodOut fs t out)
    (hI : InRange ((x.axes.set ti out).map Axis.len) I) (hne : ∀ ind ∈ I, ind ≠ []) (hnd : (I.getD ti []).Nodup) :
    ClimReq (I.map List.length) ti (I.getD ti []) (Climat.outTime (List.range fs.length) (rowsOf t fs)).length := by
  have hlen : I.length = x.axes.length := by simpa using hI.length_eq
  have htl : ti < x.axes.length := (List.getElem?_eq_some_iff.1 ht).1
  refine ⟨by simp [hlen, htl], ?_, ?_, hnd, ?_⟩
  · rw [List.getD_eq_getElem _ _ (by simp [hlen, htl]), List.getElem_map, List.getD_eq_getElem _ _ (by omega)]
  · intro n hn
    obtain ⟨ind, hi, rfl⟩ := List.mem_map.1 hn
    exact List.length_pos_iff.2 (hne ind hi)
  · intro o ho
    rw [outTime_rows, ← g.rows, rowsOf_length]
    unfold InRange at hI
    rw [List.forall₂_iff_get] at hI
    have := hI.2 ti (by omega) (by simpa using htl)
    simp only [List.get_eq_getElem, List.getElem_map, List.getElem_set_self] at this
    exact this o (by rwa [List.getD_eq_getElem _ _ (by omega)] at ho)

/-- The loop over a variable is the loop over chunks that hold its data. -/
theorem accumulate_eq {δ : Type} {data' : List ℕ → δ} {reader : View Axis → Option (NArr δ)} (hl : 1 ≤ limit) (hx : TimeAt x ti t)
    (g : GoodOut fs t out) (hcf : Common nr fs t out) (hf : fs ≠ [])
    (hI : InRange ((x.axes.set ti out).map Axis.len) I) (hne : ∀ ind ∈ I, ind ≠ []) (hnd : (I.getD ti []).Nodup)
    (hr : ∀ J, InRange ((I.map List.length).set ti t.len) J → (∀ ind ∈ J, ind ≠ []) →
      ∃ r, reader ⟨List.zipWith (sliceAxis nr) x.axes (I.set ti (List.range t.len)), J⟩ = some r ∧ IsRead data' J r) :
    ∃ chunk : View ℕ → NArr δ, Reads data' ((I.map List.length).set ti t.len) chunk ∧
      ∀ (α γ : Type) [Add α] [Zero α] (f : δ → γ) (ps : NArr γ → ℕ → ℕ → List ℕ → NArr α × NArr ℕ),
        accumulate ps nr limit t ti (fun c => (reader c).map (NArr.map f)) ⟨x.axes.set ti out, I⟩ =
          some (climLoop ps limit (I.map List.length) ti
            (binPairs (List.range fs.length) (rowsOf t fs) (I.getD ti []))
            fun c => (chunk c).map f) := by
  classical
  have hlen : I.length = x.axes.length := by simpa using hI.length_eq
  have htl : ti < x.axes.length := (List.getElem?_eq_some_iff.1 hx.time).1
  have q := climReq hx.time g hI hne hnd
  set B := List.zipWith (sliceAxis nr) x.axes (I.set ti (List.range t.len)) with hB
  set m := I.map List.length with hm
  set pairs := binPairs (List.range fs.length) (rowsOf t fs) (I.getD ti []) with hpairs
  have hsel : ∀ i ∈ I.getD ti [], i < out.len := fun i hi => by
    have := q.range i hi
    rwa [outTime_rows, ← g.rows, rowsOf_length] at this
  let ideal : List (List ℕ) → NArr δ := fun J => ⟨J.map List.length, fun k => data' (cell J k)⟩
  let chunk : View ℕ → NArr δ := fun c =>
    if h : ∃ r, reader ⟨B, c.inds⟩ = some r ∧ IsRead data' c.inds r then h.choose else ideal c.inds
  refine ⟨chunk, fun c hc => ?_, ?_⟩
  · simp only [chunk]
    split_ifs with h
    · exact h.choose_spec.2
    · exact ⟨rfl, fun k _ => rfl⟩
  intro α γ _ _ f ps
  unfold accumulate loopover
  have hci := clip_inds (ti := ti) (out := out) hlen nr
  simp only [clip_time (out := out) hlen htl nr, Option.bind_some, pairs_eq nr g hf (I.getD ti []) hsel (hcf _),
    hci, clip_set (out := out) hlen hx.time nr, ← hB]
  have htime : (m.map List.range).getD ti [] = List.range (I.getD ti []).length := by
    rw [getD_map_range m ti (by rw [hm, List.length_map]; omega), q.time]
  have hu : uniq (pairs.map Prod.snd) = uniq ((m.map List.range).getD ti []) := by
    rw [htime]
    refine uniq_congr fun o => ?_
    rw [List.mem_map, List.mem_range]
    constructor
    · rintro ⟨p, hp, rfl⟩
      exact ((binPairs_mem q.nd q.range p.1 p.2).1 hp).1
    · intro ho
      obtain ⟨i, hi⟩ := List.exists_mem_of_ne_nil _ (timesWith_ne q.range ho)
      obtain ⟨h1, h2⟩ := List.mem_filter.1 hi
      exact ⟨(i, o), (binPairs_mem q.nd q.range i o).2 ⟨ho, List.mem_range.1 h1, by simpa using h2⟩, rfl⟩
  rw [if_pos hu, Option.bind_some]
  unfold climLoop
  simp only [View.loopMem, Climat.inView, climView]
  set P := product ((⟨List.range m.length, (m.map List.range).set ti (pairs.map Prod.fst)⟩ : View ℕ).memIndices limit []) with hP
  set Q := product ((⟨List.range m.length, (m.map List.range).set ti (pairs.map Prod.snd)⟩ : View ℕ).memIndices limit []) with hQ
  have e1 : (⟨B, (m.map List.range).set ti (pairs.map Prod.fst)⟩ : View Axis).memIndices limit [] =
      (⟨List.range m.length, (m.map List.range).set ti (pairs.map Prod.fst)⟩ : View ℕ).memIndices limit [] := rfl
  have e2 : ∀ C, (⟨C, (m.map List.range).set ti (pairs.map Prod.snd)⟩ : View Axis).memIndices limit [] =
      (⟨List.range m.length, (m.map List.range).set ti (pairs.map Prod.snd)⟩ : View ℕ).memIndices limit [] := fun _ => rfl
  rw [e1, e2, ← hP, ← hQ, List.zip_map, List.zip_map, List.foldlM_map, List.foldl_map]
  refine foldlM_some _ _ _ (fun c hc s => ?_) _
  have hc1 : c.1 ∈ P := (List.of_mem_zip hc).1
  have hcl : (⟨List.range m.length, c.1⟩ : View ℕ) ∈ (Climat.inView m ti pairs).loopMem limit [] :=
    List.mem_map.2 ⟨c.1, hc1, rfl⟩
  have hin := inView_chunk_inRange q hl _ hcl
  rw [rowsOf_length] at hin
  have hvne : ∀ ind ∈ (Climat.inView m ti pairs).inds, ind ≠ [] := by
    intro ind hind
    rcases List.mem_or_eq_of_mem_set hind with h | rfl
    · obtain ⟨n, hn, rfl⟩ := List.mem_map.1 h
      have := q.pos n hn
      intro h0
      have := congrArg List.length h0
      simp at this; omega
    · rw [Ne, List.map_eq_nil_iff]
      exact binPairs_ne q
  obtain ⟨parts, h1, h2, h3, h4, h5⟩ := loopMem_splits (Climat.inView m ti pairs) limit [] hl hvne (by simp)
  have hmem : c.1 ∈ product parts := by rw [← h4]; exact List.mem_map.2 ⟨_, hcl, rfl⟩
  have hcne : ∀ ind ∈ c.1, ind ≠ [] := by
    rw [mem_product, List.forall₂_iff_get] at hmem
    intro ind hind
    obtain ⟨j, hj, rfl⟩ := List.getElem_of_mem hind
    have := hmem.2 j hj (by omega)
    exact h2 _ (List.get_mem _ _) _ this
  have hex := hr c.1 hin hcne
  have hch : reader ⟨B, c.1⟩ = some (chunk ⟨List.range m.length, c.1⟩) := by
    simp only [chunk]
    rw [dif_pos hex]
    exact hex.choose_spec.1
  unfold step
  simp only [Prod.map, hch, Option.map_some]
  rfl

end

/-! ### the cells -/

theorem textbook_svar (l : List ℚ) : textbookVariance l = svar l := rfl

section
variable {x : Var β} {ti : ℕ} {t out : Axis} {fs : List Name} {I : List (List ℕ)} {nr : List ℚ → ℚ} {limit : ℕ}

/-- reading the variable where the loop asks for it -/
theorem reading (junk : List ℕ → β) {data : List ℕ → β} (hx : TimeAt x ti t) (hc : Contains x data)
    (hI : InRange ((x.axes.set ti out).map Axis.len) I) :
    ∀ J, InRange ((I.map List.length).set ti t.len) J → (∀ ind ∈ J, ind ≠ []) →
      ∃ r, x.read nr junk ⟨List.zipWith (sliceAxis nr) x.axes (I.set ti (List.range t.len)), J⟩ = some r ∧
        IsRead (fun q => data (cell (I.set ti (List.range t.len)) q)) J r := by
  intro J hJ hne
  obtain ⟨ht, htt⟩ := List.getElem?_eq_some_iff.1 hx.time
  have hlen : I.length = x.axes.length := by simpa using hI.length_eq
  have hS : InRange (x.axes.map Axis.len) (I.set ti (List.range t.len)) := by
    unfold InRange at hI ⊢
    rw [List.forall₂_iff_get] at hI ⊢
    refine ⟨by simp [hlen], fun j h1 h2 => ?_⟩
    have h1' : j < I.length := by simpa using h1
    have := hI.2 j h1' (by simpa using h2)
    simp only [List.get_eq_getElem, List.getElem_map, List.getElem_set] at this ⊢
    split_ifs with e
    · subst e; rw [htt]; intro i hi; exact List.mem_range.1 hi
    · rw [if_neg e] at this; exact this
  obtain ⟨r, h1, h2, h3⟩ := slicedVar_read_whole nr x.axes (I.set ti (List.range t.len)) J junk x.src data hS
    (by rw [List.map_set, List.length_range]; exact hJ) hne hx.reg.cls (fun o ho => by
      by_cases e : o = ti
      · subst e
        left
        rw [getD_set_self _ _ _ _ (by omega), htt]
      · right
        exact hx.sep o _ e (List.getElem?_eq_getElem ho)) hx.reg.inc hc
  exact ⟨r, h1, h2, fun k hk => h3 k (by rw [h2]; exact hk)⟩

/-- what enters an output cell -/
theorem bin_together (data : List ℕ → β) (hlen : I.length = x.axes.length) (ht : x.axes[ti]? = some t)
    (g : GoodOut fs t out)
    (q : ClimReq (I.map List.length) ti (I.getD ti []) (Climat.outTime (List.range fs.length) (rowsOf t fs)).length)
    {k : List ℕ} (hk : InBounds (I.map List.length) k) :
    (timesWith (List.range fs.length) (rowsOf t fs)
      ((Climat.outTime (List.range fs.length) (rowsOf t fs)).getD ((I.getD ti []).getD (k.getD ti 0) 0) [])).map
        (fun i => data (cell (I.set ti (List.range t.len)) (k.set ti i))) = together t out fs ti data (cell I k) := by
  have htl : ti < x.axes.length := (List.getElem?_eq_some_iff.1 ht).1
  have hkl : k.length = I.length := by simpa using hk.length_eq
  have hpos : k.getD ti 0 < (I.getD ti []).length := by rw [← q.time]; exact InBounds.lt hk q.dim
  have hsel : (I.getD ti []).getD (k.getD ti 0) 0 < out.len := by
    have := q.range ((I.getD ti []).getD (k.getD ti 0) 0) (by rw [List.getD_eq_getElem _ _ hpos]; exact List.getElem_mem _)
    rwa [outTime_rows, ← g.rows, rowsOf_length] at this
  unfold together
  rw [timesWith_eq, outTime_rows, ← g.rows, rowsOf_getD out fs hsel, getD_cell I k ti (by omega) hkl]
  refine List.map_congr_left fun i hi => ?_
  have hi : i < t.len := List.mem_range.1 (List.mem_filter.1 hi).1
  rw [Along.set_cell I k ti _ i (by omega) hkl, List.getD_eq_getElem _ _ (by simpa using hi), List.getElem_range]

theorem shape_loop [Add α] [Zero α] (ps : NArr β → ℕ → ℕ → List ℕ → NArr α × NArr ℕ) (m : List ℕ) (pairs : List (ℕ × ℕ))
    (chunk : View ℕ → NArr β) : (climLoop ps limit m ti pairs chunk).1.shape = m ∧ (climLoop ps limit m ti pairs chunk).2.shape = m := by
  unfold climLoop
  generalize (((Climat.inView m ti pairs).loopMem limit []).zip _) = L
  generalize hst : (({ shape := m, get := fun _ => 0 }, { shape := m, get := fun _ => 0 }) : NArr α × NArr ℕ) = st
  have h : st.1.shape = m ∧ st.2.shape = m := by rw [← hst]; exact ⟨rfl, rfl⟩
  clear hst
  induction L generalizing st with
  | nil => exact h
  | cons c L ih => rw [List.foldl_cons]; exact ih _ ⟨h.1, h.2⟩

theorem map_id_reader (reader : View Axis → Option (NArr β)) : (fun c => (reader c).map (NArr.map id)) = reader := by
  funext c
  cases reader c <;> rfl

end

section
variable {ti : ℕ} {t out : Axis} {fs : List Name} {I : List (List ℕ)} {nr : List ℚ → ℚ} {limit : ℕ}

theorem mean_view (junk : List ℕ → ℚ) {x : Var ℚ} {data : List ℕ → ℚ} (hl : 1 ≤ limit) (hx : TimeAt x ti t) (hc : Contains x data)
    (g : GoodOut fs t out) (hcf : Common nr fs t out) (hf : fs ≠ []) (hI : InRange ((x.axes.set ti out).map Axis.len) I)
    (hne : ∀ ind ∈ I, ind ≠ []) (hnd : (I.getD ti []).Nodup) :
    ∃ r, meanView nr limit t ti (x.read nr junk) ⟨x.axes.set ti out, I⟩ = some r ∧
      IsRead (fun K => avg (together t out fs ti data K)) I r := by
  have hlen : I.length = x.axes.length := by simpa using hI.length_eq
  have q := climReq hx.time g hI hne hnd
  obtain ⟨chunk, h1, h2⟩ := accumulate_eq (nr := nr) hl hx g hcf hf hI hne hnd (reading junk hx hc hI)
  have h3 := h2 ℚ ℚ id partialSum
  rw [map_id_reader] at h3
  unfold meanView
  rw [h3]
  refine ⟨_, rfl, (shape_loop _ _ _ _).1, fun k hk => ?_⟩
  have h4 := (climMean_correct q hl (by rw [rowsOf_length]; exact h1) hk).2
  refine h4.trans ?_
  show _ = avg (together t out fs ti data (cell I k))
  rw [← bin_together data hlen hx.time g q hk]
  unfold avg
  rw [List.length_map]

theorem nanMean_view (junk : List ℕ → Option ℚ) {x : Var (Option ℚ)} {data : List ℕ → Option ℚ} (hl : 1 ≤ limit) (hx : TimeAt x ti t)
    (hc : Contains x data)
    (g : GoodOut fs t out) (hcf : Common nr fs t out) (hf : fs ≠ []) (hI : InRange ((x.axes.set ti out).map Axis.len) I)
    (hne : ∀ ind ∈ I, ind ≠ []) (hnd : (I.getD ti []).Nodup) :
    ∃ r, nanMeanView nr limit t ti (x.read nr junk) ⟨x.axes.set ti out, I⟩ = some r ∧
      IsRead (fun K => if valid (together t out fs ti data K) = [] then none
        else some (avg (valid (together t out fs ti data K)))) I r := by
  have hlen : I.length = x.axes.length := by simpa using hI.length_eq
  have q := climReq hx.time g hI hne hnd
  obtain ⟨chunk, h1, h2⟩ := accumulate_eq (nr := nr) hl hx g hcf hf hI hne hnd (reading junk hx hc hI)
  have h3 := h2 ℚ (Option ℚ) id partialNanSum
  rw [map_id_reader] at h3
  unfold nanMeanView
  rw [h3]
  refine ⟨_, rfl, (shape_loop (limit := limit) (ti := ti) (partialNanSum (α := ℚ)) (I.map List.length) _ _).1, fun k hk => ?_⟩
  have h4 := climNanMean_correct q hl (by rw [rowsOf_length]; exact h1) hk
  simp only [bin_together data hlen hx.time g q hk] at h4
  exact h4

theorem count_view (junk : List ℕ → Option ℚ) {x : Var (Option ℚ)} {data : List ℕ → Option ℚ} (hl : 1 ≤ limit) (hx : TimeAt x ti t)
    (hc : Contains x data)
    (g : GoodOut fs t out) (hcf : Common nr fs t out) (hf : fs ≠ []) (hI : InRange ((x.axes.set ti out).map Axis.len) I)
    (hne : ∀ ind ∈ I, ind ≠ []) (hnd : (I.getD ti []).Nodup) :
    ∃ r, countView nr limit t ti (x.read nr junk) ⟨x.axes.set ti out, I⟩ = some r ∧
      IsRead (fun K => (valid (together t out fs ti data K)).length) I r := by
  have hlen : I.length = x.axes.length := by simpa using hI.length_eq
  have q := climReq hx.time g hI hne hnd
  obtain ⟨chunk, h1, h2⟩ := accumulate_eq (nr := nr) hl hx g hcf hf hI hne hnd (reading junk hx hc hI)
  have h3 := h2 ℚ (Option ℚ) id partialNanSum
  rw [map_id_reader] at h3
  unfold countView
  rw [h3]
  refine ⟨_, rfl, (shape_loop _ _ _ _).2, fun k hk => ?_⟩
  have h4 := climCount_correct q hl (by rw [rowsOf_length]; exact h1) hk
  rw [bin_together data hlen hx.time g q hk] at h4
  exact h4

theorem variance_view (junk : List ℕ → ℚ) {x : Var ℚ} {data : List ℕ → ℚ} (hl : 1 ≤ limit) (hx : TimeAt x ti t) (hc : Contains x data)
    (g : GoodOut fs t out) (hcf : Common nr fs t out) (hf : fs ≠ []) (hI : InRange ((x.axes.set ti out).map Axis.len) I)
    (hne : ∀ ind ∈ I, ind ≠ []) (hnd : (I.getD ti []).Nodup) :
    ∃ r, varianceView nr limit t ti (x.read nr junk) ⟨x.axes.set ti out, I⟩ = some r ∧
      IsRead (fun K => svar (together t out fs ti data K)) I r := by
  have hlen : I.length = x.axes.length := by simpa using hI.length_eq
  have q := climReq hx.time g hI hne hnd
  obtain ⟨chunk, h1, h2⟩ := accumulate_eq (nr := nr) hl hx g hcf hf hI hne hnd (reading junk hx hc hI)
  have h3 := h2 ℚ ℚ id partialSum
  rw [map_id_reader] at h3
  have h5 := h2 ℚ ℚ (· ^ 2) partialSum
  unfold varianceView
  rw [h3, Option.bind_some]
  refine ⟨_, congrArg (Option.map _) h5, rfl, fun k hk => ?_⟩
  have h4 := climVariance_correct q hl (by rw [rowsOf_length]; exact h1) hk
  rw [bin_together data hlen hx.time g q hk] at h4
  exact h4

theorem nanVariance_view (junk : List ℕ → Option ℚ) {x : Var (Option ℚ)} {data : List ℕ → Option ℚ} (hl : 1 ≤ limit)
    (hx : TimeAt x ti t) (hc : Contains x data)
    (g : GoodOut fs t out) (hcf : Common nr fs t out) (hf : fs ≠ []) (hI : InRange ((x.axes.set ti out).map Axis.len) I)
    (hne : ∀ ind ∈ I, ind ≠ []) (hnd : (I.getD ti []).Nodup) :
    ∃ r, nanVarianceView nr limit t ti (x.read nr junk) ⟨x.axes.set ti out, I⟩ = some r ∧
      IsRead (fun K => if valid (together t out fs ti data K) = [] then none
        else some (svar (valid (together t out fs ti data K)))) I r := by
  have hlen : I.length = x.axes.length := by simpa using hI.length_eq
  have q := climReq hx.time g hI hne hnd
  obtain ⟨chunk, h1, h2⟩ := accumulate_eq (nr := nr) hl hx g hcf hf hI hne hnd (reading junk hx hc hI)
  have h3 := h2 ℚ (Option ℚ) id partialNanSum
  rw [map_id_reader] at h3
  have h5 := h2 ℚ (Option ℚ) (Option.map (· ^ 2)) partialNanSum
  unfold nanVarianceView
  rw [h3, Option.bind_some]
  refine ⟨_, congrArg (Option.map _) h5, rfl, fun k hk => ?_⟩
  have h4 := climNanVariance_correct q hl (by rw [rowsOf_length]; exact h1) hk
  simp only [bin_together data hlen hx.time g q hk] at h4
  exact h4

end

/-! ### the output time axis -/

theorem modify_clim {t : Axis} (hp : "SeasonalStandardTime".toList ∉ t.classes ∧ "SeasonalModelTime365".toList ∉ t.classes)
    (res : Option Name) (ex : List Name) (b : Bin)
    (h : (["year".toList, "month".toList, "day".toList, "hour".toList, "minute".toList, "second".toList] : List Name).filter
      (fun f => decide (f ∉ ex ∧ ∀ r ∈ res, f ∉ (["year".toList, "month".toList, "day".toList, "hour".toList, "minute".toList,
        "second".toList] : List Name).drop ((["year".toList, "month".toList, "day".toList, "hour".toList, "minute".toList,
        "second".toList] : List Name).findIdx (fun g => decide (g = r)) + 1))) = keptBy b) :
    modifyFields t res ex = fieldsKept t b := by
  unfold modifyFields fieldsKept
  rw [allowed_plain hp, ← h, List.filter_filter]
  refine List.filter_congr fun f _ => ?_
  cases res with
  | none => by_cases h1 : f ∈ t.auxarrays.map Prod.fst <;> simp [h1]
  | some r =>
    simp only [List.mem_filter, decide_eq_true_eq, Option.mem_def, Option.some.injEq, forall_eq']
    by_cases h1 : f ∈ t.auxarrays.map Prod.fst <;> simp [h1]

theorem lookup_fields {V : Type} (g : Name → V) : ∀ {fs : List Name} {f : Name}, f ∈ fs → (fs.map fun f => (f, g f)).lookup f = some (g f)
  | p :: fs, f, h => by
    rw [List.map_cons, List.lookup_cons]
    by_cases e : f = p
    · subst e; simp
    · simp only [beq_false_of_ne e]
      exact lookup_fields g (by simpa [e] using h)

theorem kept_mem {t : Axis} {b : Bin} {f : Name} (h : f ∈ fieldsKept t b) : f ∈ t.auxarrays.map Prod.fst := by
  have := (List.mem_filter.1 h).2
  simpa using this

theorem kept_sublist (t : Axis) (b : Bin) : (fieldsKept t b).Sublist sixFields := by
  refine List.filter_sublist.trans ?_
  rw [← allowed_kept b]
  exact List.filter_sublist

theorem distinct_good {t : Axis} {mk : List (Name × List ℚ) → Axis} (hpos : 0 < t.len) (hm : Remakes t mk) (b : Bin) (hf : fieldsKept t b ≠ []) :
    ∃ out, distinct mk t (fieldsKept t b) = some out ∧ GoodOut (fieldsKept t b) t out := by
  set fs := fieldsKept t b with hfs
  unfold distinct
  rw [if_neg hf]
  refine ⟨_, rfl, ?_⟩
  obtain ⟨ho1, ho2⟩ := outTime_correct (List.range fs.length) (rowsOf t fs)
  rw [outTime_rows] at ho1 ho2
  set U := uniquifySorted (rowsOf t fs) with hU
  have hidx : ∃ idx : List ℕ, (∀ i ∈ idx, i < t.len) ∧ idx.map (dateAt t fs) = U := by
    have : ∀ r ∈ U, ∃ i < t.len, dateAt t fs i = r := by
      intro r hr
      obtain ⟨r', h1, h2⟩ := (ho2 r).1 hr
      have h3 : keptFields (List.range fs.length) r' = r' := project_range (rowsOf_width t fs r' h1)
      rw [h3] at h2
      subst h2
      obtain ⟨i, hi, rfl⟩ := List.mem_map.1 h1
      exact ⟨i, List.mem_range.1 hi, rfl⟩
    clear_value U
    clear ho1 ho2 hU
    induction U with
    | nil => exact ⟨[], by simp, rfl⟩
    | cons r U ih =>
      obtain ⟨i, hi, he⟩ := this r (by simp)
      obtain ⟨idx, h1, h2⟩ := ih fun r' hr' => this r' (by simp [hr'])
      exact ⟨i :: idx, by simpa [hi] using h1, by rw [List.map_cons, he, h2]⟩
  obtain ⟨idx, hi1, hi2⟩ := hidx
  have hcol : columns fs U = fs.map fun f => (f, idx.map fun i : ℕ => ((⌊((t.auxarrays.lookup f).getD []).getD i 0⌋ : ℤ) : ℚ)) := by
    unfold columns
    rw [← hi2]
    refine List.ext_getElem (by simp) fun j h1 h2 => ?_
    have hj : j < fs.length := by simpa using h2
    rw [List.getElem_map, List.getElem_map, List.getElem_zipIdx, List.map_map]
    simp only [Nat.zero_add, Prod.mk.injEq, true_and]
    refine List.map_congr_left fun i _ => ?_
    simp only [Function.comp_apply, dateAt]
    rw [List.getD_eq_getElem _ _ (by simpa using hj), List.getElem_map]
  obtain ⟨e1, e2, e3, e4, e5⟩ := hm fs idx hf (kept_sublist t b) (fun f h => kept_mem h) (by
    intro h0
    rw [h0, List.map_nil] at hi2
    have : dateAt t fs 0 ∈ U := (ho2 _).2 ⟨dateAt t fs 0, List.mem_map.2 ⟨0, List.mem_range.2 hpos, rfl⟩, project_range (by simp [dateAt])⟩
    rw [← hi2] at this
    simp at this) hi1 (by rw [hi2]; exact ho1.imp fun h => ne_of_lt h)
  rw [← hcol] at e1 e2 e3 e4 e5
  refine ⟨e1, by rw [e2, hcol, List.map_map]; simp [Function.comp_def], ?_, e4, e5 (by rw [hi2]; exact ho1), ?_⟩
  · intro f arr harr
    rw [e2, hcol] at harr
    rw [e3]
    have hmem : f ∈ fs := by
      by_contra hc
      have : (fs.map fun f => (f, idx.map fun i : ℕ => ((⌊((t.auxarrays.lookup f).getD []).getD i 0⌋ : ℤ) : ℚ))).lookup f = none := by
        rw [List.lookup_eq_none_iff]
        intro p hp
        obtain ⟨f', hf', rfl⟩ := List.mem_map.1 hp
        simp only [bne_iff_ne, ne_eq, beq_eq_false_iff_ne]
        exact fun e => hc (e ▸ hf')
      rw [this] at harr
      exact absurd harr (by simp)
    rw [lookup_fields _ hmem] at harr
    rw [← Option.some.inj harr, List.length_map]
  · refine Eq.trans ?_ hi2
    refine List.ext_getElem (by simp [rowsOf_length, e3]) fun j h1 h2 => ?_
    have hj : j < idx.length := by simpa using h2
    simp only [rowsOf_eq, List.getElem_map, List.getElem_range, dateAt]
    refine List.map_congr_left fun f hf' => ?_
    rw [e2, hcol, lookup_fields _ hf', Option.getD_some, List.getD_eq_getElem _ _ (by simpa using hj), List.getElem_map, Int.floor_intCast]

theorem needs_ne {t : Axis} {b : Bin} (h : Needs t b) : fieldsKept t b ≠ [] := by
  cases b with
  | clim => exact h
  | diurnal => exact h
  | daily => exact List.ne_nil_of_mem (a := "day".toList) (List.mem_filter.2 ⟨by decide, decide_eq_true h⟩)
  | monthly => exact List.ne_nil_of_mem (a := "month".toList) (List.mem_filter.2 ⟨by decide, decide_eq_true h⟩)
  | yearly => exact List.ne_nil_of_mem (a := "year".toList) (List.mem_filter.2 ⟨by decide, decide_eq_true h⟩)

theorem outTime_good {t : Axis} {mk : List (Name × List ℚ) → Axis}
    (hp : "SeasonalStandardTime".toList ∉ t.classes ∧ "SeasonalModelTime365".toList ∉ t.classes) (hpos : 0 < t.len)
    (hm : Remakes t mk) (b : Bin) (hn : Needs t b) : ∃ out, outTime mk t b = some out ∧ GoodOut (fieldsKept t b) t out := by
  obtain ⟨out, h1, h2⟩ := distinct_good hpos hm b (needs_ne hn)
  refine ⟨out, ?_, h2⟩
  have hfield : ∀ f, f ∈ keptBy b → f ∈ t.auxarrays.map Prod.fst → hasField out f = true := by
    intro f hf1 hf2
    unfold hasField
    rw [h2.fields]
    exact decide_eq_true (List.mem_filter.2 ⟨hf1, decide_eq_true hf2⟩)
  cases b with
  | clim => unfold outTime; simp only; rw [modify_clim hp none _ .clim (by decide)]; exact h1
  | diurnal => unfold outTime; simp only; rw [modify_clim hp none _ .diurnal (by decide)]; exact h1
  | daily =>
    unfold outTime; simp only; rw [modify_clim hp (some "day".toList) _ .daily (by decide), h1, Option.filter_some_eq_some.2]
    exact hfield _ (by decide) hn
  | monthly =>
    unfold outTime; simp only; rw [modify_clim hp (some "month".toList) _ .monthly (by decide), h1, Option.filter_some_eq_some.2]
    exact hfield _ (by decide) hn
  | yearly =>
    unfold outTime; simp only; rw [modify_clim hp (some "year".toList) _ .yearly (by decide), h1, Option.filter_some_eq_some.2]
    exact hfield _ (by decide) hn

theorem good_binned {fs : List Name} {t out : Axis} (g : GoodOut fs t out) : IsBinned fs t out := by
  obtain ⟨ho1, ho2⟩ := outTime_correct (List.range fs.length) (rowsOf t fs)
  rw [outTime_rows, ← g.rows] at ho1 ho2
  refine ⟨g.cls, g.fields, ho1, fun key => ?_⟩
  rw [← rowsOf_eq, ho2]
  constructor
  · rintro ⟨r, h1, h2⟩
    have h3 : keptFields (List.range fs.length) r = r := project_range (rowsOf_width t fs r h1)
    obtain ⟨i, hi, rfl⟩ := List.mem_map.1 h1
    exact ⟨i, List.mem_range.1 hi, by rw [← h2, h3]; rfl⟩
  · rintro ⟨i, hi, rfl⟩
    exact ⟨dateAt t fs i, List.mem_map.2 ⟨i, List.mem_range.2 hi, rfl⟩, project_range (by simp [dateAt])⟩

/-! ### C106: the operations -/

theorem found_time {x : Var β} {ti : ℕ} {t : Axis} (hx : TimeInput x ti t) :
    foundAt (whichaxis x.axes (.cls "CalendarTime".toList)) = some ti := by
  obtain ⟨h, ht⟩ := List.getElem?_eq_some_iff.1 hx.time
  have hcal := hx.cal
  have honly := hx.only
  unfold whichaxis
  generalize "CalendarTime".toList = c at *
  have : x.axes.findIdx? (fun a => decide (c ∈ a.classes)) = some ti := by
    rw [List.findIdx?_eq_some_iff_getElem]
    refine ⟨h, by rw [ht]; exact decide_eq_true hcal, fun j hj => ?_⟩
    have := honly j _ hj (List.getElem?_eq_getElem (by omega))
    simpa using this
  simp only [this]
  rfl

theorem timeOp_views {γ : Type} {x : Var β} {ti : ℕ} {t : Axis} {mk : List (Name × List ℚ) → Axis} {b : Bin} (junk : List ℕ → γ)
    (hx : TimeInput x ti t) (hm : Remakes t mk) (hn : Needs t b) (getview : Axis → ℕ → View Axis → Option (NArr γ))
    (res : Axis → List ℕ → γ)
    (h : ∀ out, GoodOut (fieldsKept t b) t out → ∀ I, InRange ((x.axes.set ti out).map Axis.len) I → (∀ ind ∈ I, ind ≠ []) →
      (I.getD ti []).Nodup → ∃ r, getview t ti ⟨x.axes.set ti out, I⟩ = some r ∧ IsRead (res out) I r) :
    ∃ out y, timeOp mk b junk x getview = some y ∧ IsBinned (fieldsKept t b) t out ∧ y.axes = x.axes.set ti out ∧
      Regular y.axes ∧ Views y (res out) := by
  obtain ⟨out, h1, g⟩ := outTime_good hx.plain hx.pos hm b hn
  have htl : ti < x.axes.length := (List.getElem?_eq_some_iff.1 hx.time).1
  refine ⟨out, Var.ofView junk (x.axes.set ti out) (getview t ti), ?_, good_binned g, rfl, ?_, junk, getview t ti, rfl, ?_⟩
  · unfold timeOp
    rw [found_time hx, Option.bind_some, hx.time, Option.bind_some, h1]
    rfl
  · exact Along.regular_of_classes (Along.classes_set x.axes ti t out hx.time g.cls) hx.reg
  · intro I hI ht
    have hlen : I.length = x.axes.length := by simpa [Var.ofView] using hI.length_eq
    refine h out g I hI (fun ind hind => (ht ind hind).1) ?_
    rw [List.getD_eq_getElem _ _ (by omega)]
    exact (ht _ (List.getElem_mem _)).2.imp fun h => Nat.ne_of_lt h

/-- no output time is empty -/
theorem together_ne {fs : List Name} {t out : Axis} (h : IsBinned fs t out) {ti : ℕ} (data : List ℕ → β) {K : List ℕ}
    (hK : K.getD ti 0 < out.len) : together t out fs ti data K ≠ [] := by
  obtain ⟨i, hi, he⟩ := (h.same (dateAt out fs (K.getD ti 0))).1 (List.mem_map.2 ⟨_, List.mem_range.2 hK, rfl⟩)
  unfold together
  rw [Ne, List.map_eq_nil_iff]
  exact List.ne_nil_of_mem (a := i) (List.mem_filter.2 ⟨List.mem_range.2 hi, decide_eq_true he⟩)

/-- C106: the mean of the values that belong together, of which there is at least one. -/
theorem mean_correct (nr : List ℚ → ℚ) (junk : List ℕ → ℚ) (limit : ℕ) (mk : List (Name × List ℚ) → Axis) (b : Bin) (x : Var ℚ)
    (data : List ℕ → ℚ) (ti : ℕ) (t : Axis) (hl : 1 ≤ limit) (hx : TimeInput x ti t) (hc : Contains x data) (hm : Remakes t mk)
    (hn : Needs t b) :
    ∃ out y, mean nr junk limit mk b x = some y ∧ IsBinned (fieldsKept t b) t out ∧ y.axes = x.axes.set ti out ∧
      (∀ K : List ℕ, K.getD ti 0 < out.len → together t out (fieldsKept t b) ti data K ≠ []) ∧
      Shows nr y fun K => avg (together t out (fieldsKept t b) ti data K) := by
  obtain ⟨out, y, h1, h2, h3, h4, h5⟩ := timeOp_views junk hx hm hn
    (fun t ti => meanView nr limit t ti (x.read nr junk)) (fun out => fun K => avg (together t out (fieldsKept t b) ti data K))
    fun out g I hI hne hnd => mean_view junk hl hx.toTimeAt hc g (common_kept nr hx.plain g) (needs_ne hn) hI hne hnd
  exact ⟨out, y, h1, h2, h3, fun K hK => together_ne h2 data hK, h5.shows h4⟩

/-- C106: the mean of those of the values that are numbers; NaN if there is none. -/
theorem nanmean_correct (nr : List ℚ → ℚ) (junk : List ℕ → Option ℚ) (limit : ℕ) (mk : List (Name × List ℚ) → Axis) (b : Bin) (x : Var (Option ℚ))
    (data : List ℕ → Option ℚ) (ti : ℕ) (t : Axis) (hl : 1 ≤ limit) (hx : TimeInput x ti t) (hc : Contains x data) (hm : Remakes t mk)
    (hn : Needs t b) :
    ∃ out y, nanmean nr junk limit mk b x = some y ∧ IsBinned (fieldsKept t b) t out ∧ y.axes = x.axes.set ti out ∧
      Shows nr y fun K => if valid (together t out (fieldsKept t b) ti data K) = [] then none
          else some (avg (valid (together t out (fieldsKept t b) ti data K))) := by
  obtain ⟨out, y, h1, h2, h3, h4, h5⟩ := timeOp_views junk hx hm hn
    (fun t ti => nanMeanView nr limit t ti (x.read nr junk)) (fun out => fun K => if valid (together t out (fieldsKept t b) ti data K) = [] then none
          else some (avg (valid (together t out (fieldsKept t b) ti data K))))
    fun out g I hI hne hnd => nanMean_view junk hl hx.toTimeAt hc g (common_kept nr hx.plain g) (needs_ne hn) hI hne hnd
  exact ⟨out, y, h1, h2, h3, h5.shows h4⟩

/-- C106: the number of the values that are numbers. -/
theorem count_correct (nr : List ℚ → ℚ) (junk : List ℕ → Option ℚ) (junk' : List ℕ → ℕ) (limit : ℕ) (mk : List (Name × List ℚ) → Axis) (b : Bin) (x : Var (Option ℚ))
    (data : List ℕ → Option ℚ) (ti : ℕ) (t : Axis) (hl : 1 ≤ limit) (hx : TimeInput x ti t) (hc : Contains x data) (hm : Remakes t mk)
    (hn : Needs t b) :
    ∃ out y, count nr junk junk' limit mk b x = some y ∧ IsBinned (fieldsKept t b) t out ∧ y.axes = x.axes.set ti out ∧
      Shows nr y fun K => (valid (together t out (fieldsKept t b) ti data K)).length := by
  obtain ⟨out, y, h1, h2, h3, h4, h5⟩ := timeOp_views junk' hx hm hn
    (fun t ti => countView nr limit t ti (x.read nr junk)) (fun out => fun K => (valid (together t out (fieldsKept t b) ti data K)).length)
    fun out g I hI hne hnd => count_view junk hl hx.toTimeAt hc g (common_kept nr hx.plain g) (needs_ne hn) hI hne hnd
  exact ⟨out, y, h1, h2, h3, h5.shows h4⟩

/-- C106: the square of a standard deviation is the sample variance of the values that belong together (for at least two; the code gives NaN for one). -/
theorem variance_correct (nr : List ℚ → ℚ) (junk : List ℕ → ℚ) (limit : ℕ) (mk : List (Name × List ℚ) → Axis) (b : Bin) (x : Var ℚ)
    (data : List ℕ → ℚ) (ti : ℕ) (t : Axis) (hl : 1 ≤ limit) (hx : TimeInput x ti t) (hc : Contains x data) (hm : Remakes t mk)
    (hn : Needs t b) :
    ∃ out y, variance nr junk limit mk b x = some y ∧ IsBinned (fieldsKept t b) t out ∧ y.axes = x.axes.set ti out ∧
      Shows nr y fun K => svar (together t out (fieldsKept t b) ti data K) := by
  obtain ⟨out, y, h1, h2, h3, h4, h5⟩ := timeOp_views junk hx hm hn
    (fun t ti => varianceView nr limit t ti (x.read nr junk)) (fun out => fun K => svar (together t out (fieldsKept t b) ti data K))
    fun out g I hI hne hnd => variance_view junk hl hx.toTimeAt hc g (common_kept nr hx.plain g) (needs_ne hn) hI hne hnd
  exact ⟨out, y, h1, h2, h3, h5.shows h4⟩

/-- C106: the same of those of the values that are numbers (for at least two of them). -/
theorem nanvariance_correct (nr : List ℚ → ℚ) (junk : List ℕ → Option ℚ) (limit : ℕ) (mk : List (Name × List ℚ) → Axis) (b : Bin) (x : Var (Option ℚ))
    (data : List ℕ → Option ℚ) (ti : ℕ) (t : Axis) (hl : 1 ≤ limit) (hx : TimeInput x ti t) (hc : Contains x data) (hm : Remakes t mk)
    (hn : Needs t b) :
    ∃ out y, nanvariance nr junk limit mk b x = some y ∧ IsBinned (fieldsKept t b) t out ∧ y.axes = x.axes.set ti out ∧
      Shows nr y fun K => if valid (together t out (fieldsKept t b) ti data K) = [] then none
          else some (svar (valid (together t out (fieldsKept t b) ti data K))) := by
  obtain ⟨out, y, h1, h2, h3, h4, h5⟩ := timeOp_views junk hx hm hn
    (fun t ti => nanVarianceView nr limit t ti (x.read nr junk)) (fun out => fun K => if valid (together t out (fieldsKept t b) ti data K) = [] then none
          else some (svar (valid (together t out (fieldsKept t b) ti data K))))
    fun out g I hI hne hnd => nanVariance_view junk hl hx.toTimeAt hc g (common_kept nr hx.plain g) (needs_ne hn) hI hne hnd
  exact ⟨out, y, h1, h2, h3, h5.shows h4⟩

end ClimVar
end PyGeode
