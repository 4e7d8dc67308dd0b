/-
Property C108: operations between variables on different time axes.
-/
import Verif.Spec.TimeMatch
import Verif.Props.ClimTrend

namespace PyGeode
namespace TimeMatch
open Spec NArr Axis Combine VarOps ClimVar
variable {α β : Type}

/-! ### dates of a slice -/

theorem lookup_map_snd {V W : Type} (g : V → W) (d : List (Name × V)) (f : Name) :
    (d.map fun p => (p.1, g p.2)).lookup f = (d.lookup f).map g := by
  induction d with
  | nil => rfl
  | cons p d ih =>
    rw [List.map_cons, List.lookup_cons, List.lookup_cons]
    cases f == p.1 <;> simp [ih]

theorem rows_slice (nr : List ℚ → ℚ) (t : Axis) (fs : List Name) (s : List ℕ) (hs : ∀ i ∈ s, i < t.len)
    (hsame : ∀ i < t.len, ∀ j < t.len, t.values.getD i 0 = t.values.getD j 0 → dateAt t fs i = dateAt t fs j) :
    rowsOf (sliceAxis nr t s) fs = s.map (dateAt t fs) := by
  have hl : (sliceAxis nr t s).len = s.length := sliceAxis_len nr t s
  refine List.ext_getElem (by simp [rowsOf_length, hl]) fun k h1 h2 => ?_
  have hk : k < s.length := by simpa using h2
  have hsk := hs _ (List.getElem_mem hk)
  simp only [rowsOf_eq, List.getElem_map, List.getElem_range]
  unfold sliceAxis
  simp only
  split_ifs with e
  · have hkl : k < t.len := by
      have := congrArg List.length e
      rw [List.length_map] at this
      unfold Axis.len; omega
    refine hsame k hkl _ hsk ?_
    have h3 := congrArg (fun l : List ℚ => l.getD k 0) e
    rw [List.getD_eq_getElem (List.map _ s) _ (by simpa using hk), List.getElem_map] at h3
    exact h3.symm
  · unfold dateAt
    refine List.map_congr_left fun f _ => ?_
    simp only
    rw [lookup_map_snd (fun arr : List ℚ => s.map fun i : ℕ => arr.getD i 0)]
    cases t.auxarrays.lookup f with
    | none => simp
    | some arr =>
      simp only [Option.map_some, Option.getD_some]
      rw [List.getD_eq_getElem (List.map _ s) _ (by simpa using hk), List.getElem_map]

theorem six_filter {fs : List Name} (h : fs.Sublist sixFields) : sixFields.filter (fun f => decide (f ∈ fs)) = fs := by
  have hnd : sixFields.Nodup := six_nodup
  generalize sixFields = l at *
  induction h with
  | slnil => rfl
  | @cons l₁ l₂ a h ih =>
    have hn := List.nodup_cons.1 hnd
    rw [List.filter_cons_of_neg (by simpa using fun h' => hn.1 (h.subset h')), ih hn.2]
  | @cons_cons l₁ l₂ a h ih =>
    have hn := List.nodup_cons.1 hnd
    rw [List.filter_cons_of_pos (by simp)]
    congr 1
    refine Eq.trans (List.filter_congr fun f hf => ?_) (ih hn.2)
    have : f ≠ a := fun e => hn.1 (e ▸ hf)
    simp [this]

section
variable {fs : List Name} {t out : Axis}

theorem commonFields_coarser (h : Coarser fs t out) {ct : Axis} (hct : ct.auxarrays.map Prod.fst = t.auxarrays.map Prod.fst) :
    commonFields out ct = fs := by
  unfold commonFields
  rw [allowed_plain (by rw [h.cls]; exact h.plain)]
  refine Eq.trans ?_ (six_filter h.usual)
  refine List.filter_congr fun f _ => ?_
  unfold hasField
  rw [h.fields, hct]
  by_cases h1 : f ∈ fs
  · simp [h1, h.has f h1]
  · simp [h1]

theorem argsort_sorted {v : List ℚ} (h : v.Pairwise (· < ·)) : argsort v = List.range v.length := by
  unfold argsort
  refine List.Pairwise.insertionSort_eq ?_
  rw [List.pairwise_iff_getElem] at h ⊢
  intro i j hi hj hij
  simp only [List.getElem_range]
  have hi' : i < v.length := by simpa using hi
  have hj' : j < v.length := by simpa using hj
  rw [List.getD_eq_getElem _ _ hi', List.getD_eq_getElem _ _ hj']
  exact le_of_lt (h i j hi' hj' hij)

/-- where the dates are found -/
theorem timeMap_coarser (h : Coarser fs t out) {pos : ℕ → ℕ} (hp : FallsOn fs t out pos) (nr : List ℚ → ℚ) (s : List ℕ)
    (hs : ∀ i ∈ s, i < t.len) : timeMap out (sliceAxis nr t s) = some (s.map pos) := by
  have hk : (sliceAxis nr t s).auxarrays.map Prod.fst = t.auxarrays.map Prod.fst := sliceAxis_keys nr t s
  have hcf := commonFields_coarser h hk
  have hrows : ∀ o < out.len, (rowsOf out fs).getD o [] = dateAt out fs o := fun o ho => rowsOf_getD out fs ho
  unfold timeMap
  rw [if_neg (by rw [sliceAxis_classes, h.cls]; simp), if_neg (by rw [hk, h.fields]; exact fun h' => h' h.has)]
  simp only
  rw [hcf, if_neg h.some_, argsort_sorted h.values, rows_slice nr t fs s hs h.same]
  congr 1
  unfold TimeC.timeMapTo TimeC.getIndices
  have e1 : (List.range out.values.length).map (fun i : ℕ => (rowsOf out fs).getD i []) = (List.range out.len).map (dateAt out fs) := by
    refine List.map_congr_left fun i hi => hrows i (List.mem_range.1 hi)
  rw [e1, List.map_map, List.filterMap_map]
  have key : ∀ i ∈ s, TimeC.getIndex ((List.range out.len).map (dateAt out fs)) (dateAt t fs i) = some (pos i) := by
    intro i hi
    obtain ⟨h1, h2⟩ := hp i (hs i hi)
    rw [TimeC.get_index_exact (n := fs.length) _ _ (by
      intro r hr
      obtain ⟨o, _, rfl⟩ := List.mem_map.1 hr
      simp [dateAt]) (by simp [dateAt]) h.dates]
    rw [List.getElem?_map, List.getElem?_range h1, Option.map_some, h2]
  have e2 : s.filterMap (id ∘ TimeC.getIndex ((List.range out.len).map (dateAt out fs)) ∘ dateAt t fs) = s.map pos := by
    refine Eq.trans (List.filterMap_congr (g := some ∘ pos) fun i hi => ?_) (by rw [List.filterMap_eq_map])
    simp only [Function.comp_apply, id_eq]
    exact key i hi
  rw [e2, List.map_map]
  refine List.map_congr_left fun i hi => ?_
  have := (hp i (hs i hi)).1
  unfold Axis.len at this
  show (List.range out.values.length).getD (pos i) 0 = pos i
  rw [List.getD_eq_getElem _ _ (by simpa using this), List.getElem_range]

theorem coarser_isTime (h : Coarser fs t out) : isTime out = true := by
  unfold isTime; rw [h.cls]; exact decide_eq_true h.time

theorem isTime_eq {a b : Axis} (h : a.classes = b.classes) : isTime a = isTime b := by unfold isTime; rw [h]

/-- an axis that is not of the class of a time axis is not equal to it and is not mapped to it -/
theorem timeEq_classes {a b : Axis} (h : a.classes ≠ b.classes) : timeEq a b = false := by
  unfold timeEq
  have h1 : a ≠ b := fun e => h (e ▸ rfl)
  simp [h, h1]

theorem timeMap_classes {a b : Axis} (h : a.classes ≠ b.classes) : timeMap a b = none := by
  unfold timeMap; rw [if_pos h]

theorem timeEq_fields {a b : Axis} {f : Name} (hne : a ≠ b) (ha : f ∉ a.auxarrays.map Prod.fst) (hb : f ∈ b.auxarrays.map Prod.fst) :
    timeEq a b = false ∧ timeEq b a = false := by
  have h1 : ¬ ∀ g ∈ b.auxarrays.map Prod.fst, g ∈ a.auxarrays.map Prod.fst := fun h => ha (h f hb)
  unfold timeEq
  constructor
  · rw [decide_eq_false hne, decide_eq_false h1]; simp
  · rw [decide_eq_false (Ne.symm hne), decide_eq_false h1]; simp

theorem coarser_ne (h : Coarser fs t out) : out ≠ t := by
  intro e
  obtain ⟨f, h1, h2⟩ := h.less
  rw [← e, h.fields] at h1
  exact h2 h1

theorem coarser_timeEq (h : Coarser fs t out) : timeEq out t = false ∧ timeEq t out = false := by
  obtain ⟨f, h1, h2⟩ := h.less
  exact timeEq_fields (coarser_ne h) (by rw [h.fields]; exact h2) h1

theorem classes_of_regular {R : List Axis} (hR : Regular R) {a b : Axis} (ha : a ∈ R) (hb : b ∈ R) (h : a.classes = b.classes) : a = b := by
  by_contra hne
  obtain ⟨i, hi, rfl⟩ := List.getElem_of_mem ha
  obtain ⟨j, hj, rfl⟩ := List.getElem_of_mem hb
  have hij : i ≠ j := fun e => hne (by subst e; rfl)
  have := hR.incompatible hi hj hij
  have hc := hR.cls _ (List.getElem_mem hi)
  unfold compatible isParentOf at this
  rw [← h] at this
  cases hcl : (R[i]).classes with
  | nil => exact hc hcl
  | cons c cs => rw [hcl] at this; simp at this

/-- on the axes of one variable equality is equality -/
theorem axEq_regular {R : List Axis} (hR : Regular R) {a b : Axis} (ha : a ∈ R) (hb : b ∈ R) : axEq a b = decide (a = b) := by
  by_cases hab : a = b
  · subst hab
    unfold axEq timeEq Axis.axEq
    split_ifs <;> simp
  · rw [decide_eq_false hab]
    unfold axEq
    split_ifs
    · exact timeEq_classes fun h => hab (classes_of_regular hR ha hb h)
    · have := hR.clean.2 a ha b hb
      by_contra hne
      have h1 := Loop.axEq_compatible (by simpa using hne) (hR.cls a ha)
      obtain ⟨i, hi, rfl⟩ := List.getElem_of_mem ha
      obtain ⟨j, hj, rfl⟩ := List.getElem_of_mem hb
      have hij : i ≠ j := fun e => hab (by subst e; rfl)
      rw [hR.incompatible hi hj hij] at h1
      cases h1

theorem mapAxis_own {R : List Axis} (hR : Regular R) (nr : List ℚ → ℚ) (I : List (List ℕ)) {a : Axis} (ha : a ∈ R) :
    View.mapAxis axEq (viewMap nr) ⟨R, I⟩ a = some (R.idxOf a, I.getD (R.idxOf a) []) := by
  unfold View.mapAxis
  have hf : R.findIdx? (fun b => axEq a b) = some (R.idxOf a) := by
    rw [List.findIdx?_eq_some_iff_getElem]
    refine ⟨List.idxOf_lt_length_of_mem ha, by rw [axEq_regular hR ha (List.getElem_mem _)]; simp, ?_⟩
    intro j hj
    have := List.not_of_lt_findIdx (p := (· == a)) hj
    rw [axEq_regular hR ha (List.getElem_mem _), decide_eq_true_eq]
    intro h
    simp [← h] at this
  simp only [hf]

theorem mapAxis_out (h : Coarser fs t out) {pos : ℕ → ℕ} (hp : FallsOn fs t out pos) {R : List Axis} (hR : Regular R) {ti : ℕ}
    (ht : R[ti]? = some t) (nr : List ℚ → ℚ) (I : List (List ℕ)) (hI : InRange (R.map Axis.len) I) :
    View.mapAxis axEq (viewMap nr) ⟨R, I⟩ out = some (ti, (I.getD ti []).map pos) := by
  obtain ⟨htl, hte⟩ := List.getElem?_eq_some_iff.1 ht
  have hlen : I.length = R.length := by simpa using hI.length_eq
  have htR : t ∈ R := List.mem_of_getElem? ht
  unfold View.mapAxis
  have hf : R.findIdx? (fun b => axEq out b) = none := by
    rw [List.findIdx?_eq_none_iff]
    intro b hb
    unfold axEq
    rw [if_pos (coarser_isTime h)]
    by_cases hbt : b = t
    · rw [hbt]; exact (coarser_timeEq h).1
    · exact timeEq_classes fun e => hbt (classes_of_regular hR hb htR (by rw [← e, h.cls]))
  simp only [hf]
  have hs : ∀ i ∈ I.getD ti [], i < t.len := by
    intro i hi
    unfold InRange at hI
    rw [List.forall₂_iff_get] at hI
    have := hI.2 ti (by omega) (by simpa using htl)
    simp only [List.get_eq_getElem, List.getElem_map, hte] at this
    rw [List.getD_eq_getElem _ _ (by omega)] at hi
    exact this i hi
  have hmap : ∀ (j : ℕ) (hj : j < R.length), viewMap nr out R[j] (I[j]'(by omega)) = if j = ti then some ((I.getD ti []).map pos) else none := by
    intro j hj
    unfold viewMap mapTo
    rw [if_pos (coarser_isTime h)]
    split_ifs with e
    · subst e
      rw [hte, ← List.getD_eq_getElem I [] (by omega)]
      exact timeMap_coarser h hp nr _ hs
    · refine timeMap_classes fun e' => e ?_
      rw [sliceAxis_classes, h.cls, ← hte] at e'
      exact (hR.nodup.getElem_inj_iff).1 (classes_of_regular hR (List.getElem_mem hj) (List.getElem_mem htl) e'.symm)
  have hz : (R.zip I).length = R.length := by simp [hlen]
  rw [List.findSome?_eq_some_iff]
  refine ⟨((R.zip I).zipIdx).take ti, ((R[ti], I[ti]'(by omega)), ti), ((R.zip I).zipIdx).drop (ti + 1), ?_, ?_, ?_⟩
  · conv_lhs => rw [← List.take_append_drop ti ((R.zip I).zipIdx)]
    congr 1
    rw [List.drop_eq_getElem_cons (by simp [hlen]; omega)]
    simp
  · rw [hmap ti htl, if_pos rfl]; rfl
  · rintro ⟨⟨b, s⟩, j⟩ hb
    obtain ⟨k, hk, e⟩ := List.getElem_of_mem hb
    have hk' : k < ti := by
      have := hk; rw [List.length_take] at this; omega
    rw [List.getElem_take, List.getElem_zipIdx, List.getElem_zip] at e
    simp only [zero_add, Prod.mk.injEq] at e
    obtain ⟨⟨rfl, rfl⟩, rfl⟩ := e
    rw [hmap k (by omega), if_neg (by omega)]
    rfl

/-! ### reading the other variable -/

theorem uniq_length_one {ind : List ℕ} (h : ind.length = 1) : uniq ind = ind := by
  obtain ⟨a, rfl⟩ := List.length_eq_one_iff.1 h
  rfl

/-- The variable answers the request `J`: it contains the data, or its `getview` answers the request without repeats. -/
def Gives (y : Var α) (data : List ℕ → α) (J : List (List ℕ)) : Prop :=
  Contains y data ∨ DistinctReq J ∧ ∃ (junk : List ℕ → α) (f : View Axis → Option (NArr α)), y = Var.ofView junk y.axes f ∧
    ∃ r, f ⟨y.axes, J.map uniq⟩ = some r ∧ IsRead data (J.map uniq) r

theorem distinct_ne {J : List (List ℕ)} (hd : DistinctReq J) : ∀ ind ∈ J, ind ≠ [] := by
  intro ind hind e
  rcases hd ind hind with h | ⟨i, hi, _⟩
  · rw [e] at h; cases h
  · rw [e] at hi; cases hi

theorem inRange_uniq {lens : List ℕ} {J : List (List ℕ)} (h : InRange lens J) : InRange lens (J.map uniq) := by
  unfold InRange at h ⊢
  rw [List.forall₂_map_left_iff]
  exact h.imp fun a b h i hi => h i (mem_uniq.1 hi)

theorem uniq_ne {ind : List ℕ} (h : ind ≠ []) : uniq ind ≠ [] := by
  obtain ⟨a, ha⟩ := List.exists_mem_of_ne_nil ind h
  exact List.ne_nil_of_mem (mem_uniq.2 ha)

theorem gives_views {y : Var α} {data : List ℕ → α} {J : List (List ℕ)} (hJ : InRange (y.axes.map Axis.len) J) (hv : Views y data)
    (hd : DistinctReq J) : Gives y data J := by
  obtain ⟨junk, f, hy, hf⟩ := hv
  refine Or.inr ⟨hd, junk, f, hy, hf _ (inRange_uniq hJ) ?_⟩
  intro ind hind
  obtain ⟨l, hl, rfl⟩ := List.mem_map.1 hind
  exact ⟨uniq_ne (distinct_ne hd l hl), uniq_sorted l⟩

/-- `View.get` of a variable that answers the request -/
theorem get_any (eqv : Axis → Axis → Bool) (mapAx : Axis → Axis → List ℕ → Option (List ℕ)) (junk : List ℕ → α) (v : View Axis) (y : Var α)
    (data : List ℕ → α) (hv : v.axes.length = v.inds.length) (m : List (Option ℕ × List ℕ))
    (hm : v.mapTo eqv mapAx Axis.len true y.axes = some m)
    (hy : Gives y data (m.map Prod.snd))
    (hmapped : ∀ q ∈ m, ∃ i, q.1 = some i ∧ i < v.inds.length ∧ q.2.length = (v.inds.getD i []).length)
    (hinj : (m.map Prod.fst).Nodup) (hr : InRange (y.axes.map Axis.len) (m.map Prod.snd)) (hne : ∀ q ∈ m, q.2 ≠ []) :
    ∃ r, View.get eqv mapAx Axis.len junk v y.axes y.src = some r ∧
      r.shape = (List.range v.inds.length).map (fun i => if some i ∈ m.map Prod.fst then (v.inds.getD i []).length else 1) ∧
      ∀ k, InBounds r.shape k → r.get k = data (m.map fun q => q.2.getD (k.getD (q.1.getD 0) 0) 0) := by
  rcases hy with hc | ⟨hd, junk0, f, hyf, r0, hr0, hr1⟩
  · exact PyGeode.get_correct eqv mapAx Axis.len junk v y.axes y.src data hv hc m hm hmapped hinj hr hne
  classical
  set axes := y.axes with haxes
  set f' : View Axis → Option (NArr α) := fun v => if v.inds = (m.map Prod.snd).map uniq then f v
    else some ⟨v.inds.map List.length, fun k => data (cell v.inds k)⟩ with hf'
  have hc : Contains (Var.ofView junk0 axes f') data := by
    refine contains_ofView_tidy junk0 axes f' data fun J hJ ht => ?_
    by_cases hp : J = (m.map Prod.snd).map uniq
    · exact ⟨r0, by simp only [hf', if_pos hp]; rw [hp]; exact hr0, by rw [hp]; exact hr1⟩
    · exact ⟨_, by simp only [hf', if_neg hp]; rfl, rfl, fun _ _ => rfl⟩
  obtain ⟨r, h1, h2⟩ := PyGeode.get_correct eqv mapAx Axis.len junk v axes (Var.ofView junk0 axes f').src data hv hc m hm hmapped hinj hr hne
  refine ⟨r, ?_, h2⟩
  rw [← h1, hyf]
  unfold View.get
  simp only [Var.ofView]
  rw [hm]
  simp only [Option.map_some]
  have key : View.readUnique (.getview fun v => (f v).getD ⟨[], junk0⟩) ⟨axes, m.map Prod.snd⟩ =
      View.readUnique (.getview fun v => (f' v).getD ⟨[], junk0⟩) ⟨axes, m.map Prod.snd⟩ := by
    unfold View.readUnique
    simp only [View.read]
    split_ifs with hall
    · have hp : m.map Prod.snd = (m.map Prod.snd).map uniq := by
        conv_lhs => rw [← List.map_id (m.map Prod.snd)]
        refine List.map_congr_left fun ind hind => ?_
        have := List.all_eq_true.1 hall ind hind
        simp only [Bool.or_eq_true, decide_eq_true_eq] at this
        rcases this with hu | hu
        · exact hu.symm
        · rcases hd ind hind with h3 | ⟨i, hi, j, hj, hij⟩
          · exact (uniq_length_one h3).symm
          · exfalso
            obtain ⟨a, ha⟩ := List.length_eq_one_iff.1 hu
            have hi' := mem_uniq.2 hi
            have hj' := mem_uniq.2 hj
            rw [ha, List.mem_singleton] at hi' hj'
            exact hij (hi'.trans hj'.symm)
      simp only [hf', if_pos hp]
    · simp only [hf', if_true]
  rw [key]

/-- where the axes of the other variable are found -/
def mapOf (out : Axis) (ti : ℕ) (pos : ℕ → ℕ) (R : List Axis) (I : List (List ℕ)) (a : Axis) : Option ℕ × List ℕ :=
  if a = out then (some ti, (I.getD ti []).map pos) else (some (R.idxOf a), I.getD (R.idxOf a) [])

theorem mapTo_of (h : Coarser fs t out) {pos : ℕ → ℕ} (hp : FallsOn fs t out pos) {R : List Axis} (hR : Regular R) {ti : ℕ}
    (ht : R[ti]? = some t) (nr : List ℚ → ℚ) (I : List (List ℕ)) (hI : InRange (R.map Axis.len) I) (A : List Axis)
    (hA : ∀ a ∈ A, a = out ∨ a ∈ R ∧ a ≠ t) :
    View.mapTo axEq (viewMap nr) Axis.len true ⟨R, I⟩ A = some (A.map (mapOf out ti pos R I)) := by
  unfold View.mapTo
  apply mapM_forall₂
  rw [List.forall₂_map_right_iff, List.forall₂_same]
  intro a ha
  unfold mapOf
  rcases hA a ha with rfl | ⟨h1, h2⟩
  · rw [mapAxis_out h hp hR ht nr I hI]; simp
  · rw [mapAxis_own hR nr I h1]
    have hne : a ≠ out := by
      rintro rfl
      exact h2 (classes_of_regular hR h1 (List.mem_of_getElem? ht) h.cls)
    rw [if_neg hne]

theorem inRange_getD {lens : List ℕ} {I : List (List ℕ)} (h : InRange lens I) {i : ℕ} (hi : i < lens.length) :
    ∀ j ∈ I.getD i [], j < lens.getD i 0 := by
  unfold InRange at h
  have hl := h.length_eq
  rw [List.forall₂_iff_get] at h
  have := h.2 i (by omega) hi
  rw [List.getD_eq_getElem _ _ (by omega), List.getD_eq_getElem _ _ hi]
  exact this

/-- the other variable, read on the axes of the first -/
theorem read_out (h : Coarser fs t out) {pos : ℕ → ℕ} (hp : FallsOn fs t out pos) {R : List Axis} (hR : Regular R) {ti : ℕ}
    (ht : R[ti]? = some t) (nr : List ℚ → ℚ) (junk : List ℕ → α) (I : List (List ℕ)) (hI : InRange (R.map Axis.len) I)
    (hne : ∀ ind ∈ I, ind ≠ []) (y : Var α) (data : List ℕ → α) (hnd : y.axes.Nodup) (hA : ∀ a ∈ y.axes, a = out ∨ a ∈ R ∧ a ≠ t)
    (hy : Gives y data (y.axes.map fun a => (mapOf out ti pos R I a).2)) :
    ∃ r, read nr junk y ⟨R, I⟩ = some r ∧
      r.shape = (List.range I.length).map (fun i => if some i ∈ (y.axes.map (mapOf out ti pos R I)).map Prod.fst then (I.getD i []).length else 1) ∧
      ∀ k, InBounds (I.map List.length) k → r.get (bindex r.shape k) = data (onDates out ti pos y.axes R (cell I k)) := by
  obtain ⟨htl, hte⟩ := List.getElem?_eq_some_iff.1 ht
  have hlen : I.length = R.length := by simpa using hI.length_eq
  have hne' : ∀ i < I.length, I.getD i [] ≠ [] := fun i hi => by
    rw [List.getD_eq_getElem _ _ hi]; exact hne _ (List.getElem_mem _)
  have hidx : ∀ a ∈ y.axes, a ≠ out → R.idxOf a < R.length ∧ R.idxOf a ≠ ti := by
    intro a ha hao
    obtain ⟨h1, h2⟩ := (hA a ha).resolve_left hao
    have h3 := List.idxOf_lt_length_of_mem h1
    refine ⟨h3, fun e => h2 ?_⟩
    have := List.getElem_idxOf h3
    simp only [e, hte] at this
    exact this.symm
  have hmo : ∀ a ∈ y.axes, ∃ i, (mapOf out ti pos R I a).1 = some i ∧ i < I.length ∧
      (mapOf out ti pos R I a).2.length = (I.getD i []).length := by
    intro a ha
    unfold mapOf
    split_ifs with e
    · exact ⟨ti, rfl, by omega, by simp⟩
    · exact ⟨_, rfl, by rw [hlen]; exact (hidx a ha e).1, rfl⟩
  have hts : ∀ j ∈ I.getD ti [], j < t.len := by
    have := inRange_getD hI (i := ti) (by simpa using htl)
    rw [List.getD_eq_getElem (R.map Axis.len) _ (by simpa using htl), List.getElem_map, hte] at this
    exact this
  obtain ⟨r, h1, h2, h3⟩ := get_any axEq (viewMap nr) junk ⟨R, I⟩ y data hlen.symm _ (mapTo_of h hp hR ht nr I hI y.axes hA)
    (by rw [List.map_map]; exact hy)
    (by
      intro q hq
      obtain ⟨a, ha, rfl⟩ := List.mem_map.1 hq
      exact hmo a ha)
    (by
      rw [List.map_map]
      refine hnd.map_on ?_
      intro a ha b hb hab
      simp only [Function.comp_apply, mapOf] at hab
      split_ifs at hab with e1 e2 e2
      · rw [e1, e2]
      · exact absurd (by simpa using hab.symm) (hidx b hb e2).2
      · exact absurd (by simpa using hab) (hidx a ha e1).2
      · simp only [Option.some.injEq] at hab
        exact (List.idxOf_inj ((hA a ha).resolve_left e1).1).1 hab)
    (by
      rw [List.map_map]
      unfold InRange
      rw [List.forall₂_map_left_iff, List.forall₂_map_right_iff, List.forall₂_same]
      intro a ha i hi
      simp only [Function.comp_apply, mapOf] at hi
      split_ifs at hi with e
      · obtain ⟨j, hj, rfl⟩ := List.mem_map.1 hi
        rw [e]; exact (hp j (hts j hj)).1
      · have hlt := (hidx a ha e).1
        have := inRange_getD hI (i := R.idxOf a) (by simpa using hlt) i hi
        rw [List.getD_eq_getElem (R.map Axis.len) _ (by simpa using hlt), List.getElem_map, List.getElem_idxOf] at this
        exact this)
    (by
      intro q hq
      obtain ⟨a, ha, rfl⟩ := List.mem_map.1 hq
      obtain ⟨i, h1, h2, h3⟩ := hmo a ha
      intro e
      rw [e] at h3
      exact hne' i h2 (List.length_eq_zero_iff.1 h3.symm))
  refine ⟨r, h1, h2, fun k hk => ?_⟩
  have hkl : k.length = I.length := by simpa using hk.length_eq
  have hsl : r.shape.length = I.length := by rw [h2]; simp
  have hkb : ∀ i < I.length, k.getD i 0 < (I.getD i []).length := by
    intro i hi
    have := (inBounds_iff.1 hk).2 i (by simpa using hi)
    rw [List.getD_eq_getElem (I.map List.length) _ (by simpa using hi), List.getElem_map, ← List.getD_eq_getElem I [] hi] at this
    exact this
  have hbi : ∀ i < I.length, (bindex r.shape k).getD i 0 = if r.shape.getD i 0 = 1 then 0 else k.getD i 0 := by
    intro i hi
    unfold bindex
    rw [List.getD_eq_getElem _ _ (by simp [hsl, hkl, hi]), List.getElem_zipWith,
      List.getD_eq_getElem r.shape _ (by omega), List.getD_eq_getElem k _ (by omega)]
  have hmem : ∀ a ∈ y.axes, ∀ i, (mapOf out ti pos R I a).1 = some i → i < I.length → r.shape.getD i 0 = (I.getD i []).length := by
    intro a ha i hi hil
    rw [h2, List.getD_eq_getElem _ _ (by simpa using hil), List.getElem_map, List.getElem_range, if_pos]
    rw [List.map_map]
    exact List.mem_map.2 ⟨a, ha, hi⟩
  have hbk : ∀ a ∈ y.axes, ∀ i, (mapOf out ti pos R I a).1 = some i → i < I.length → (bindex r.shape k).getD i 0 = k.getD i 0 := by
    intro a ha i hi hil
    rw [hbi i hil, hmem a ha i hi hil]
    have := hkb i hil
    split_ifs with e
    · omega
    · rfl
  rw [h3 _ (by
    rw [inBounds_iff]
    refine ⟨by simp [bindex, hsl, hkl], fun i hi => ?_⟩
    have hi' : i < I.length := by omega
    rw [hbi i hi', h2, List.getD_eq_getElem _ _ (by simpa using hi'), List.getElem_map, List.getElem_range]
    have := hkb i hi'
    split_ifs <;> omega), List.map_map]
  congr 1
  unfold onDates
  refine List.map_congr_left fun a ha => ?_
  obtain ⟨i, g1, g2, _⟩ := hmo a ha
  have g3 := hbk a ha i g1 g2
  simp only [Function.comp_apply]
  rw [g1, Option.getD_some, g3]
  unfold mapOf at g1 ⊢
  have hcell : (cell I k).getD i 0 = (I.getD i []).getD (k.getD i 0) 0 := by
    unfold cell
    rw [List.getD_eq_getElem _ _ (by simp [hkl, g2]), List.getElem_zipWith, List.getD_eq_getElem I _ g2, List.getD_eq_getElem k _ (by omega)]
  split_ifs at g1 ⊢ with e
  · simp only [Option.some.injEq] at g1
    subst g1
    have := hkb ti g2
    rw [hcell]
    simp only
    rw [List.getD_eq_getElem (List.map pos _) _ (by simpa using this), List.getElem_map, ← List.getD_eq_getElem _ 0 this]
  · simp only [Option.some.injEq] at g1
    subst g1
    rw [hcell]

/-! ### the axes of the result -/

theorem slice_all (nr : List ℚ → ℚ) (a : Axis) : sliceAxis nr a (List.range a.len) = a := by
  unfold sliceAxis
  have : ((List.range a.len).map fun i : ℕ => a.values.getD i 0) = a.values := by
    refine List.ext_getElem (by simp [Axis.len]) fun i h1 h2 => ?_
    rw [List.getElem_map, List.getElem_range, List.getD_eq_getElem _ _ h2]
  simp only
  rw [if_pos this]

theorem canMap_out (h : Coarser fs t out) (hcl : t.classes ≠ []) : canMap out t = some (some t) ∧ canMap t out = some (some t) := by
  have hpar : ∀ a b : Axis, a.classes = t.classes → b.classes = t.classes → isParentOf a b = true := by
    intro a b ha hb
    unfold isParentOf
    rw [ha, hb]
    cases hc : t.classes with
    | nil => exact absurd hc hcl
    | cons c cs => simp
  have hpos : ∃ pos, FallsOn fs t out pos := by
    choose! pos h1 h2 using h.covers
    exact ⟨pos, fun i hi => ⟨h1 i hi, h2 i hi⟩⟩
  obtain ⟨pos, hp⟩ := hpos
  have hm : mapTo out t = some ((List.range t.len).map pos) := by
    unfold mapTo
    rw [if_pos (coarser_isTime h)]
    have := timeMap_coarser h hp (fun _ => 0) (List.range t.len) fun i hi => List.mem_range.1 hi
    rwa [slice_all] at this
  have htt : isTime t = true := by rw [← isTime_eq h.cls]; exact coarser_isTime h
  have hm' : mapTo t out = none := by
    unfold mapTo
    rw [if_pos htt]
    unfold timeMap
    obtain ⟨f, h1, h2⟩ := h.less
    rw [if_neg (by rw [h.cls]; simp), if_pos]
    intro h'
    have := h' f h1
    rw [h.fields] at this
    exact h2 this
  have e1 : axEq out t = false := by unfold axEq; rw [if_pos (coarser_isTime h)]; exact (coarser_timeEq h).1
  have e2 : axEq t out = false := by unfold axEq; rw [if_pos htt]; exact (coarser_timeEq h).2
  constructor
  · unfold canMap
    rw [hpar out t h.cls rfl, hpar t out rfl h.cls]
    simp only [Bool.not_true, Bool.false_and, if_true, e1, hm, hm', h.tag]
    simp
  · unfold canMap
    rw [hpar out t h.cls rfl, hpar t out rfl h.cls]
    simp only [Bool.not_true, Bool.false_and, if_true, e2, hm, hm', h.tag]
    simp

/-- the axis of the result that an axis becomes -/
def become (out t a : Axis) : Axis := if a = out then t else a

theorem compatible_symm (a b : Axis) : compatible a b = compatible b a := by
  unfold compatible; rw [Bool.or_comm]

theorem canMap_incompatible {a b : Axis} (h : compatible a b = false) : canMap a b = some none := by
  unfold compatible at h
  rw [Bool.or_eq_false_iff] at h
  unfold canMap
  rw [h.1, h.2]
  rfl

theorem isParentOf_self {a : Axis} (h : a.classes ≠ []) : isParentOf a a = true := by
  unfold isParentOf
  cases hc : a.classes with
  | nil => exact absurd hc h
  | cons c cs => simp

theorem axEq_refl (a : Axis) : axEq a a = true := by
  unfold axEq timeEq Axis.axEq
  split_ifs <;> simp

theorem regular_incompatible {R : List Axis} (hR : Regular R) {a b : Axis} (ha : a ∈ R) (hb : b ∈ R) (h : a ≠ b) : compatible a b = false := by
  obtain ⟨i, hi, rfl⟩ := List.getElem_of_mem ha
  obtain ⟨j, hj, rfl⟩ := List.getElem_of_mem hb
  exact hR.incompatible hi hj fun e => h (by subst e; rfl)

theorem canMap_become (h : Coarser fs t out) {R : List Axis} (hR : Regular R) (ht : t ∈ R) {a b : Axis} (ha : a = out ∨ a ∈ R)
    (hb : b = out ∨ b ∈ R) :
    canMap a b = some (if become out t a = become out t b then some (if a = b then a else t) else none) := by
  have hcl := hR.cls t ht
  by_cases hab : a = b
  · subst hab
    rw [if_pos rfl, if_pos rfl]
    have : a.classes ≠ [] := by
      rcases ha with rfl | ha
      · rw [h.cls]; exact hcl
      · exact hR.cls a ha
    unfold canMap
    rw [isParentOf_self this]
    simp [axEq_refl]
  rw [if_neg hab]
  unfold become
  rcases ha with rfl | ha <;> rcases hb with rfl | hb
  · exact absurd rfl hab
  · rw [if_pos rfl, if_neg (Ne.symm hab)]
    by_cases e : t = b
    · rw [if_pos e, ← e]; exact (canMap_out h hcl).1
    · rw [if_neg e]
      have := regular_incompatible hR ht hb e
      refine canMap_incompatible ?_
      unfold compatible isParentOf at this ⊢
      rwa [h.cls]
  · rw [if_pos rfl, if_neg hab]
    by_cases e : a = t
    · rw [if_pos e, e]; exact (canMap_out h hcl).2
    · rw [if_neg e]
      have := regular_incompatible hR ha ht e
      refine canMap_incompatible ?_
      unfold compatible isParentOf at this ⊢
      rwa [h.cls]
  · by_cases e1 : a = out
    · exfalso
      rw [e1] at ha
      exact coarser_ne h (classes_of_regular hR ha ht h.cls)
    by_cases e2 : b = out
    · exfalso
      rw [e2] at hb
      exact coarser_ne h (classes_of_regular hR hb ht h.cls)
    rw [if_neg e1, if_neg e2, if_neg hab]
    exact canMap_incompatible (regular_incompatible hR ha hb hab)

theorem insertAxis_become (h : Coarser fs t out) {R : List Axis} (hR : Regular R) (ht : t ∈ R) {a : Axis} (ha : a = out ∨ a ∈ R) :
    ∀ L : List Axis, (∀ b ∈ L, b = out ∨ b ∈ R) → ∃ L', insertAxis a L = some L' ∧ (∀ b ∈ L', b = out ∨ b ∈ R) ∧
      L'.map (become out t) = (if become out t a ∈ L.map (become out t) then L.map (become out t)
        else L.map (become out t) ++ [become out t a]) ∧ (t ∈ L → t ∈ L') ∧ (a = t → t ∈ L')
  | [], _ => ⟨[a], rfl, by simpa using ha, by simp, by simp, fun e => by simp [e]⟩
  | o :: os, hL => by
    obtain ⟨L', i1, i2, i3, i4, i5⟩ := insertAxis_become h hR ht ha os fun b hb => hL b (by simp [hb])
    have hout : become out t out = t := by unfold become; rw [if_pos rfl]
    have htt : become out t t = t := by unfold become; split_ifs <;> rfl
    have ho := hL o (by simp)
    rw [insertAxis, canMap_become h hR ht ha ho]
    by_cases e : become out t a = become out t o
    · rw [if_pos e]
      simp only
      by_cases e' : a = o
      · rw [if_pos e']
        exact ⟨a :: os, rfl, by rw [e']; exact hL, by rw [e']; simp, by rw [e']; exact id, fun e => by simp [e]⟩
      · rw [if_neg e']
        have hbt : become out t o = t := by
          unfold become at e ⊢
          by_cases e2 : o = out
          · rw [if_pos e2]
          · rw [if_neg e2] at e ⊢
            by_cases e1 : a = out
            · rw [if_pos e1] at e; exact e.symm
            · rw [if_neg e1] at e; exact absurd e e'
        refine ⟨t :: os, rfl, ?_, ?_, by simp, by simp⟩
        · intro b hb
          rcases List.mem_cons.1 hb with rfl | hb
          · exact Or.inr ht
          · exact hL b (by simp [hb])
        · rw [e, if_pos (by simp), List.map_cons, List.map_cons, htt, hbt]
    · rw [if_neg e]
      simp only
      rw [i1]
      refine ⟨o :: L', rfl, ?_, ?_, ?_, fun e => by simp [i5 e]⟩
      · intro b hb
        rcases List.mem_cons.1 hb with rfl | hb
        · exact ho
        · exact i2 b hb
      · rw [List.map_cons, i3, List.map_cons]
        by_cases hm : become out t a ∈ os.map (become out t)
        · rw [if_pos hm, if_pos (List.mem_cons_of_mem _ hm)]
        · rw [if_neg hm, if_neg (by rw [List.mem_cons]; exact fun h => h.elim e hm)]; rfl
      · intro hm
        rcases List.mem_cons.1 hm with rfl | hm
        · exact List.mem_cons_self
        · exact List.mem_cons_of_mem _ (i4 hm)

theorem foldl_become (h : Coarser fs t out) {R : List Axis} (hR : Regular R) (ht : t ∈ R) :
    ∀ (l L : List Axis), (∀ b ∈ l, b = out ∨ b ∈ R) → (∀ b ∈ L, b = out ∨ b ∈ R) → (L.map (become out t)).Nodup → ∃ L',
      l.foldl (fun (out : Option (List Axis)) (a : Axis) => out.bind (insertAxis a)) (some L) = some L' ∧ (∀ b ∈ L', b = out ∨ b ∈ R) ∧
        (L'.map (become out t)).Nodup ∧ (t ∈ L ∨ t ∈ l → t ∈ L')
  | [], L, _, hL, hn => ⟨L, rfl, hL, hn, fun h => h.elim id (by simp)⟩
  | a :: l, L, hl, hL, hn => by
    obtain ⟨L1, i1, i2, i3, i4, i5⟩ := insertAxis_become h hR ht (hl a (by simp)) L hL
    have hn1 : (L1.map (become out t)).Nodup := by
      rw [i3]
      split_ifs with e
      · exact hn
      · exact List.nodup_append.2 ⟨hn, by simp, fun x hx y hy => by
          rw [List.mem_singleton] at hy
          rintro rfl
          exact e (hy ▸ hx)⟩
    obtain ⟨L', j1, j2, j3, j4⟩ := foldl_become h hR ht l L1 (fun b hb => hl b (by simp [hb])) i2 hn1
    refine ⟨L', ?_, j2, j3, ?_⟩
    · rw [List.foldl_cons, Option.bind_some, i1]; exact j1
    · rintro (h' | h')
      · exact j4 (Or.inl (i4 h'))
      · rcases List.mem_cons.1 h' with e | h'
        · exact j4 (Or.inl (i5 e.symm))
        · exact j4 (Or.inr h')

/-- an operation between a variable on the axes `R` and one on `A` is a variable on the axes `R` -/
theorem combine_out (h : Coarser fs t out) {R : List Axis} (hR : Regular R) (ht : t ∈ R) {A : List Axis}
    (hA : ∀ a ∈ A, a = out ∨ a ∈ R ∧ a ≠ t) : combineAxes [R, A] = some R ∧ combineAxes [A, R] = some R := by
  have hA' : ∀ a ∈ A, a = out ∨ a ∈ R := fun a ha => (hA a ha).imp id And.left
  have main : ∀ l : List Axis, (∀ b ∈ l, b = out ∨ b ∈ R) → t ∈ l → ∃ L',
      l.foldl (fun (out : Option (List Axis)) (a : Axis) => out.bind (insertAxis a)) (some []) = some L' ∧ t ∈ L' ∧ ∀ b ∈ L', b ∈ R := by
    intro l hl htl
    obtain ⟨L', h1, h2, h3, h4⟩ := foldl_become h hR ht l [] hl (by simp) (by simp)
    have htL := h4 (Or.inr htl)
    refine ⟨L', h1, htL, fun b hb => ?_⟩
    rcases h2 b hb with rfl | hb'
    · exfalso
      have := List.inj_on_of_nodup_map h3 hb htL (by unfold become; rw [if_pos rfl]; split_ifs <;> rfl)
      exact coarser_ne h this
    · exact hb'
  have hall : ∀ L : List Axis, (∀ b ∈ L, b ∈ R) → (L.all fun outa => elem outa R) = true := by
    intro L hL
    rw [List.all_eq_true]
    intro o ho
    unfold elem
    rw [List.any_eq_true]
    exact ⟨o, hL o ho, axEq_refl o⟩
  have hnot : elem t A = false := by
    unfold elem
    rw [List.any_eq_false]
    intro e he
    rcases hA e he with rfl | ⟨h1, h2⟩
    · unfold axEq
      rw [if_pos (coarser_isTime h), (coarser_timeEq h).1]
      simp
    · rw [axEq_regular hR h1 ht]; simpa using h2
  constructor
  · obtain ⟨L, h1, h2, h3⟩ := main [R, A].flatten (by
      intro b hb
      simp only [List.flatten_cons, List.flatten_nil, List.append_nil, List.mem_append] at hb
      exact hb.elim Or.inr (hA' b)) (by simp [ht])
    unfold combineAxes outAxes
    rw [h1, Option.map_some, List.find?_cons_of_pos (by exact hall L h3)]
  · obtain ⟨L, h1, h2, h3⟩ := main [A, R].flatten (by
      intro b hb
      simp only [List.flatten_cons, List.flatten_nil, List.append_nil, List.mem_append] at hb
      exact hb.elim (hA' b) Or.inr) (by simp [ht])
    unfold combineAxes outAxes
    rw [h1, Option.map_some, List.find?_cons_of_neg, List.find?_cons_of_pos (by exact hall L h3)]
    rw [List.all_eq_true]
    intro h'
    have := h' t h2
    rw [hnot] at this
    cases this

/-! ### operations -/

/-- a variable read on its own axes -/
theorem read_self {R : List Axis} (hR : Regular R) (nr : List ℚ → ℚ) (junk : List ℕ → α) (I : List (List ℕ)) (hI : InRange (R.map Axis.len) I)
    (hne : ∀ ind ∈ I, ind ≠ []) (x : Var α) (hx : x.axes = R) (data : List ℕ → α)
    (hc : Gives x data I) :
    ∃ r, read nr junk x ⟨R, I⟩ = some r ∧ IsRead data I r := by
  subst hx
  have hlen : I.length = x.axes.length := by simpa using hI.length_eq
  set m : List (Option ℕ × List ℕ) := (List.range x.axes.length).map fun i => (some i, I.getD i []) with hm
  have hsnd : m.map Prod.snd = I := by
    rw [hm, List.map_map]
    refine List.ext_getElem (by simp [hlen]) fun i hi hi' => ?_
    simp only [List.getElem_map, List.getElem_range, Function.comp_apply]
    rw [List.getD_eq_getElem _ _ hi']
  have hfst : m.map Prod.fst = (List.range x.axes.length).map some := by
    rw [hm, List.map_map]; rfl
  have hmt : View.mapTo axEq (viewMap nr) Axis.len true ⟨x.axes, I⟩ x.axes = some m := by
    unfold View.mapTo
    apply mapM_forall₂
    rw [List.forall₂_iff_get]
    refine ⟨by simp [hm], fun i hi hi' => ?_⟩
    simp only [List.get_eq_getElem, hm, List.getElem_map, List.getElem_range]
    rw [mapAxis_own hR nr I (List.getElem_mem hi), hR.nodup.idxOf_getElem i hi]
  obtain ⟨r, h1, h2, h3⟩ := get_any axEq (viewMap nr) junk ⟨x.axes, I⟩ x data hlen.symm m hmt (by rw [hsnd]; exact hc)
    (by
      intro q hq
      obtain ⟨i, hi, rfl⟩ := List.mem_map.1 hq
      exact ⟨i, rfl, by rw [List.mem_range] at hi; simp only; omega, rfl⟩)
    (by rw [hfst]; exact List.nodup_range.map fun a b h => by simpa using h)
    (by rw [hsnd]; exact hI)
    (by
      intro q hq
      obtain ⟨i, hi, rfl⟩ := List.mem_map.1 hq
      rw [List.mem_range] at hi
      simp only
      rw [List.getD_eq_getElem _ _ (by omega)]
      exact hne _ (List.getElem_mem _))
  have hs : r.shape = I.map List.length := by
    rw [h2, hfst]
    refine List.ext_getElem (by simp) fun i hi hi' => ?_
    have hi'' : i < I.length := by simpa using hi'
    simp only [List.getElem_map, List.getElem_range]
    rw [if_pos (List.mem_map_of_mem (List.mem_range.2 (by omega))), List.getD_eq_getElem _ _ hi'']
  refine ⟨r, h1, hs, fun k hk => ?_⟩
  rw [h3 k (by rw [hs]; exact hk)]
  congr 1
  have hkl : k.length = I.length := by simpa using hk.length_eq
  unfold cell
  rw [hm, List.map_map]
  refine List.ext_getElem (by simp [hlen, hkl]) fun i hi hi' => ?_
  have hi'' : i < I.length := by have := hi; simp at this; omega
  simp only [List.getElem_map, List.getElem_range, Function.comp_apply, List.getElem_zipWith, Option.getD_some]
  rw [List.getD_eq_getElem I _ hi'', List.getD_eq_getElem k _ (by omega)]

theorem op_view (h : Coarser fs t out) {pos : ℕ → ℕ} (hp : FallsOn fs t out pos) (op : List α → β) (nr : List ℚ → ℚ)
    (junk : List ℕ → α) (x y : Var α) (dx dy : List ℕ → α) {ti : ℕ} (ht : x.axes[ti]? = some t) (hR : Regular x.axes)
    (hnd : y.axes.Nodup) (hA : ∀ a ∈ y.axes, a = out ∨ a ∈ x.axes ∧ a ≠ t) (I : List (List ℕ)) (hI : InRange (x.axes.map Axis.len) I)
    (hne : ∀ ind ∈ I, ind ≠ []) (hx : Gives x dx I) (hy : Gives y dy (y.axes.map fun a => (mapOf out ti pos x.axes I a).2)) :
    (∃ r, ufuncView op nr junk [x, y] ⟨x.axes, I⟩ = some r ∧ IsRead (fun K => op [dx K, dy (onDates out ti pos y.axes x.axes K)]) I r) ∧
    (∃ r, ufuncView op nr junk [y, x] ⟨x.axes, I⟩ = some r ∧ IsRead (fun K => op [dy (onDates out ti pos y.axes x.axes K), dx K]) I r) := by
  have hlen : I.length = x.axes.length := by simpa using hI.length_eq
  obtain ⟨r1, a1, a2, a3⟩ := read_self hR nr junk I hI hne x rfl dx hx
  obtain ⟨r2, b1, b2, b3⟩ := read_out h hp hR ht nr junk I hI hne y dy hnd hA hy
  have hs1 : r1.shape = List.zipWith (fun (n : ℕ) (b : Bool) => if b then n else 1) (I.map List.length) (I.map fun _ => true) := by
    rw [a2]
    refine List.ext_getElem (by simp) fun o ho ho' => ?_
    simp
  have hs2 : r2.shape = List.zipWith (fun (n : ℕ) (b : Bool) => if b then n else 1) (I.map List.length)
      ((List.range I.length).map fun i => decide (some i ∈ (y.axes.map (mapOf out ti pos x.axes I)).map Prod.fst)) := by
    rw [b2]
    refine List.ext_getElem (by simp) fun o ho ho' => ?_
    have ho2 : o < I.length := by simpa using ho
    simp only [List.getElem_map, List.getElem_range, List.getElem_zipWith, decide_eq_true_eq]
    rw [List.getD_eq_getElem _ _ ho2]
  have hk1 : ∀ k, InBounds (I.map List.length) k → r1.get (bindex r1.shape k) = dx (cell I k) := by
    intro k hk
    rw [a2, bindex_self hk]
    exact a3 k hk
  constructor
  · obtain ⟨r, c1, c2, c3⟩ := broadcast_spec op (I.map List.length) [r1, r2] _ (.cons ⟨by simp, hs1⟩ (.cons ⟨by simp, hs2⟩ .nil)) (by
      intro i hi
      have hi' : i < I.length := by simpa using hi
      exact ⟨_, List.mem_cons_self, by simp [hi']⟩)
    refine ⟨r, ?_, c2, fun k hk => ?_⟩
    · unfold ufuncView
      rw [List.mapM_cons, List.mapM_cons, a1, b1]
      change broadcast op x.axes.length [r1, r2] = some r
      rw [show x.axes.length = (I.map List.length).length by simp [hlen]]
      exact c1
    · rw [c3 k, List.map_cons, List.map_cons, List.map_nil, hk1 k hk, b3 k hk]
  · obtain ⟨r, c1, c2, c3⟩ := broadcast_spec op (I.map List.length) [r2, r1] _ (.cons ⟨by simp, hs2⟩ (.cons ⟨by simp, hs1⟩ .nil)) (by
      intro i hi
      have hi' : i < I.length := by simpa using hi
      exact ⟨_, List.mem_cons_of_mem _ List.mem_cons_self, by simp [hi']⟩)
    refine ⟨r, ?_, c2, fun k hk => ?_⟩
    · unfold ufuncView
      rw [List.mapM_cons, List.mapM_cons, a1, b1]
      change broadcast op x.axes.length [r2, r1] = some r
      rw [show x.axes.length = (I.map List.length).length by simp [hlen]]
      exact c1
    · rw [c3 k, List.map_cons, List.map_cons, List.map_nil, hk1 k hk, b3 k hk]

/-- a request for several dates leads to a request for different positions -/
theorem distinct_mapOf {pos : ℕ → ℕ} (hp : FallsOn fs t out pos) {R : List Axis} {ti : ℕ} (ht : R[ti]? = some t) {I : List (List ℕ)}
    (hI : InRange (R.map Axis.len) I) (hd : DistinctReq I) (hs : SeveralDates fs t ti I) {A : List Axis} (hA : ∀ a ∈ A, a = out ∨ a ∈ R ∧ a ≠ t) :
    DistinctReq (A.map fun a => (mapOf out ti pos R I a).2) := by
  obtain ⟨htl, hte⟩ := List.getElem?_eq_some_iff.1 ht
  have hlen : I.length = R.length := by simpa using hI.length_eq
  have hts : ∀ j ∈ I.getD ti [], j < t.len := by
    have := inRange_getD hI (i := ti) (by simpa using htl)
    rw [List.getD_eq_getElem (R.map Axis.len) _ (by simpa using htl), List.getElem_map, hte] at this
    exact this
  intro ind hind
  obtain ⟨a, ha, rfl⟩ := List.mem_map.1 hind
  simp only [mapOf]
  split_ifs with e
  · rcases hs with h3 | ⟨i, hi, j, hj, hij⟩
    · exact Or.inl (by simpa using h3)
    · refine Or.inr ⟨pos i, List.mem_map_of_mem hi, pos j, List.mem_map_of_mem hj, fun e' => hij ?_⟩
      rw [← (hp i (hts i hi)).2, ← (hp j (hts j hj)).2, e']
  · have := List.idxOf_lt_length_of_mem ((hA a ha).resolve_left e).1
    simp only
    rw [List.getD_eq_getElem _ _ (by omega)]
    exact hd _ (List.getElem_mem _)

theorem inRange_mapOf {pos : ℕ → ℕ} (hp : FallsOn fs t out pos) {R : List Axis} {ti : ℕ} (ht : R[ti]? = some t) {I : List (List ℕ)}
    (hI : InRange (R.map Axis.len) I) {A : List Axis} (hA : ∀ a ∈ A, a = out ∨ a ∈ R ∧ a ≠ t) :
    InRange (A.map Axis.len) (A.map fun a => (mapOf out ti pos R I a).2) := by
  obtain ⟨htl, hte⟩ := List.getElem?_eq_some_iff.1 ht
  have hts : ∀ j ∈ I.getD ti [], j < t.len := by
    have := inRange_getD hI (i := ti) (by simpa using htl)
    rw [List.getD_eq_getElem (R.map Axis.len) _ (by simpa using htl), List.getElem_map, hte] at this
    exact this
  unfold InRange
  rw [List.forall₂_map_left_iff, List.forall₂_map_right_iff, List.forall₂_same]
  intro a ha i hi
  simp only [mapOf] at hi
  split_ifs at hi with e
  · obtain ⟨j, hj, rfl⟩ := List.mem_map.1 hi
    rw [e]; exact (hp j (hts j hj)).1
  · have hlt := List.idxOf_lt_length_of_mem ((hA a ha).resolve_left e).1
    have := inRange_getD hI (i := R.idxOf a) (by simpa using hlt) i hi
    rw [List.getD_eq_getElem (R.map Axis.len) _ (by simpa using hlt), List.getElem_map, List.getElem_idxOf] at this
    exact this

theorem several_uniq {ti : ℕ} {I : List (List ℕ)} (h : SeveralDates fs t ti I) : SeveralDates fs t ti (I.map uniq) := by
  have e : (I.map uniq).getD ti [] = uniq (I.getD ti []) := by
    by_cases hl : ti < I.length
    · rw [List.getD_eq_getElem _ _ (by simpa using hl), List.getElem_map, List.getD_eq_getElem _ _ hl]
    · rw [List.getD_eq_default _ _ (by simpa using hl), List.getD_eq_default _ _ (by omega)]; rfl
  unfold SeveralDates at h ⊢
  rw [e]
  refine h.imp (fun h => by rw [uniq_length_one h]; exact h) ?_
  rintro ⟨i, hi, j, hj, hij⟩
  exact ⟨i, mem_uniq.2 hi, j, mem_uniq.2 hj, hij⟩

theorem distinct_uniq {I : List (List ℕ)} (h : DistinctReq I) : DistinctReq (I.map uniq) := by
  intro ind hind
  obtain ⟨l, hl, rfl⟩ := List.mem_map.1 hind
  refine (h l hl).imp (fun h => by rw [uniq_length_one h]; exact h) ?_
  rintro ⟨i, hi, j, hj, hij⟩
  exact ⟨i, mem_uniq.2 hi, j, mem_uniq.2 hj, hij⟩

/-- C108: an operation between a variable on the axes `R`, with the time axis `t`, and a variable on coarser times and some of the other
axes has the axes `R`, whichever comes first, and shows at every cell the result for the value of the first and the value of the second at
the date on which the time falls. A second variable that is computed when it is read is only right if the request is not for several
times that all fall on the same date (theorem `same_date_violated`). -/
theorem op_dates (h : Coarser fs t out) {pos : ℕ → ℕ} (hp : FallsOn fs t out pos) (op : List α → β) (nr : List ℚ → ℚ)
    (junk : List ℕ → α) (junk' : List ℕ → β) (x y : Var α) (dx dy : List ℕ → α) {ti : ℕ} (ht : x.axes[ti]? = some t) (hR : Regular x.axes)
    (hnd : y.axes.Nodup) (hA : ∀ a ∈ y.axes, a = out ∨ a ∈ x.axes ∧ a ≠ t) :
    ∃ z z' : Var β, ufunc op nr junk junk' [x, y] = some z ∧ ufunc op nr junk junk' [y, x] = some z' ∧ z.axes = x.axes ∧ z'.axes = x.axes ∧
      ∀ (junk'' : List ℕ → β) (I : List (List ℕ)), InRange (x.axes.map Axis.len) I → DistinctReq I →
        (Contains x dx ∨ Views x dx) → (Contains y dy ∨ Views y dy ∧ SeveralDates fs t ti I) →
        (∃ r, read nr junk'' z ⟨x.axes, I⟩ = some r ∧ IsRead (fun K => op [dx K, dy (onDates out ti pos y.axes x.axes K)]) I r) ∧
        (∃ r, read nr junk'' z' ⟨x.axes, I⟩ = some r ∧ IsRead (fun K => op [dy (onDates out ti pos y.axes x.axes K), dx K]) I r) := by
  obtain ⟨e1, e2⟩ := combine_out h hR (List.mem_of_getElem? ht) hA
  refine ⟨Var.ofView junk' x.axes (ufuncView op nr junk [x, y]), Var.ofView junk' x.axes (ufuncView op nr junk [y, x]), ?_, ?_, rfl, rfl, ?_⟩
  · unfold ufunc; rw [List.map_cons, List.map_cons, List.map_nil, e1]; rfl
  · unfold ufunc; rw [List.map_cons, List.map_cons, List.map_nil, e2]; rfl
  intro junk'' I hI hd hx hy
  have hne := distinct_ne hd
  have hI' := inRange_uniq hI
  have hd' := distinct_uniq hd
  have hgx : Gives x dx (I.map uniq) := hx.elim Or.inl fun hx => gives_views hI' hx hd'
  have hgy : Gives y dy (y.axes.map fun a => (mapOf out ti pos x.axes (I.map uniq) a).2) :=
    hy.elim Or.inl fun hy => gives_views (inRange_mapOf hp ht hI' hA) hy.1 (distinct_mapOf hp ht hI' hd' (several_uniq hy.2) hA)
  obtain ⟨g1, g2⟩ := op_view h hp op nr junk x y dx dy ht hR hnd hA _ hI' (distinct_ne hd') hgx hgy
  exact ⟨read_self hR nr junk'' I hI hne _ rfl _ (Or.inr ⟨hd, junk', _, rfl, g1⟩),
    read_self hR nr junk'' I hI hne _ rfl _ (Or.inr ⟨hd, junk', _, rfl, g2⟩)⟩

/-- C108, both variables in memory or read from a file: any request, also for several times that fall on the same date. -/
theorem op_dates_memory (h : Coarser fs t out) {pos : ℕ → ℕ} (hp : FallsOn fs t out pos) (op : List α → β) (nr : List ℚ → ℚ)
    (junk : List ℕ → α) (junk' : List ℕ → β) (x y : Var α) (dx dy : List ℕ → α) {ti : ℕ} (ht : x.axes[ti]? = some t) (hR : Regular x.axes)
    (hnd : y.axes.Nodup) (hA : ∀ a ∈ y.axes, a = out ∨ a ∈ x.axes ∧ a ≠ t) (hx : Contains x dx) (hy : Contains y dy) :
    ∃ z z' : Var β, ufunc op nr junk junk' [x, y] = some z ∧ ufunc op nr junk junk' [y, x] = some z' ∧ z.axes = x.axes ∧ z'.axes = x.axes ∧
      Contains z (fun K => op [dx K, dy (onDates out ti pos y.axes x.axes K)]) ∧
      Contains z' (fun K => op [dy (onDates out ti pos y.axes x.axes K), dx K]) := by
  obtain ⟨e1, e2⟩ := combine_out h hR (List.mem_of_getElem? ht) hA
  refine ⟨Var.ofView junk' x.axes (ufuncView op nr junk [x, y]), Var.ofView junk' x.axes (ufuncView op nr junk [y, x]), ?_, ?_, rfl, rfl, ?_, ?_⟩
  · unfold ufunc; rw [List.map_cons, List.map_cons, List.map_nil, e1]; rfl
  · unfold ufunc; rw [List.map_cons, List.map_cons, List.map_nil, e2]; rfl
  · exact contains_ofView_tidy _ _ _ _ fun I hI hti =>
      (op_view h hp op nr junk x y dx dy ht hR hnd hA I hI (fun ind hind => (hti ind hind).1) (Or.inl hx) (Or.inl hy)).1
  · exact contains_ofView_tidy _ _ _ _ fun I hI hti =>
      (op_view h hp op nr junk x y dx dy ht hR hnd hA I hI (fun ind hind => (hti ind hind).1) (Or.inl hx) (Or.inl hy)).2

end

end TimeMatch
end PyGeode
