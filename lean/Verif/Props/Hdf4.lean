/-
C136: the variables of an HDF4 file have the coordinates the file gives for their dimensions.
-/
import Verif.Model.Hdf4
import Verif.Props.NetCdf

namespace PyGeode
namespace Spec
open NetCdf Hdf4

/-- a data set that is used: one with a twin whose name ends in `:EOSGRID` is not -/
def Used (f : HdfFile) (s : Sd) : Prop :=
  s ∈ f.sds ∧ (eosgrid <:+ s.name ∨ ∀ t ∈ f.sds, t.name ≠ s.name ++ eosgrid)

/-- `s` gives the coordinates of the dimension `d`: it has this dimension only, and the file says that it is a coordinate, or no other data set has
this dimension only -/
def Coordinate (f : HdfFile) (d : ℕ) (s : Sd) : Prop :=
  Used f s ∧ s.dims = [d] ∧ (s.iscoord = true ∨ ∀ t, Used f t → t.dims = [d] → t = s)

/-- the axis of a dimension: made of the coordinates the file gives, otherwise of the name and size of the dimension -/
def AxisOfDim (nr : List ℚ → ℚ) (f : HdfFile) (d : ℕ) (a : Axis) : Prop :=
  (∀ s, Coordinate f d s → a = named nr s.name s.isFloat ((List.range (f.dim d).2).map fun i => (s.data [i]).getD 0)) ∧
  ((∀ s, ¬ Coordinate f d s) → a = dummy nr (f.dim d).1 (f.dim d).2)

/-- A file as the library gives it, in which different things have different names: the sizes agree, a dimension has at most one coordinate. -/
structure HdfGood (nr : List ℚ → ℚ) (f : HdfFile) : Prop where
  shapes : ∀ s ∈ f.sds, s.shape = s.dims.map fun d => (f.dim d).2
  names : (f.sds.map Sd.name).Nodup
  blank : ∀ s ∈ f.sds, s.name ≠ []
  coord : ∀ d s t, Used f s → Used f t → s.dims = [d] → t.dims = [d] → s.iscoord = true → t.iscoord = true → s = t
  axes : ∀ s ∈ f.sds, ∀ t ∈ f.sds, ∀ d ∈ s.dims, ∀ e ∈ t.dims, ∀ a b, AxisOfDim nr f d a → AxisOfDim nr f e b → a.name = b.name → d = e

end Spec

namespace Hdf4
open NetCdf Spec Combine NArr

variable {nr : List ℚ → ℚ} {junk : List ℕ → Cell}

theorem mem_visible (f : HdfFile) (s : Sd) : s ∈ visible f.sds ↔ Used f s := by
  unfold visible Used
  simp only [List.mem_filter, Bool.or_eq_true, decide_eq_true_eq, Bool.not_eq_true', List.any_eq_false]

theorem mem_oneD (f : HdfFile) (s : Sd) : s ∈ oneD (visible f.sds) ↔ Used f s ∧ ∃ d, s.dims = [d] := by
  unfold oneD
  rw [List.mem_filter, mem_visible, decide_eq_true_eq, List.length_eq_one_iff]

/-- the condition of the code is that the data set gives coordinates -/
theorem isDim_iff {f : HdfFile} (hf : HdfGood nr f) {s : Sd} {d : ℕ} (hs : Used f s) (hd : s.dims = [d]) :
    isDim (visible f.sds) s = true ↔ Coordinate f d s := by
  have hnd : (oneD (visible f.sds)).Nodup := by
    have h := hf.names.of_map
    exact (h.filter _).filter _
  have hmem : s ∈ oneD (visible f.sds) := (mem_oneD f s).2 ⟨hs, d, hd⟩
  unfold isDim Coordinate
  simp only [Bool.or_eq_true, decide_eq_true_eq, hd, List.headD_cons, hs, true_and]
  have e : (dimids (visible f.sds)).count d = ((oneD (visible f.sds)).filter fun t => decide (t.dims.headD 0 = d)).length := by
    unfold dimids
    rw [List.count_eq_countP, List.countP_map, List.countP_eq_length_filter]
    congr 1
  rw [e]
  have hm : s ∈ (oneD (visible f.sds)).filter fun t => decide (t.dims.headD 0 = d) := by
    rw [List.mem_filter]; exact ⟨hmem, by simp [hd]⟩
  rw [or_comm]
  refine or_congr Iff.rfl ?_
  rw [List.length_eq_one_iff]
  constructor
  · rintro ⟨a, ha⟩ t ht htd
    have h1 : t ∈ [a] := by
      rw [← ha, List.mem_filter]; exact ⟨(mem_oneD f t).2 ⟨ht, d, htd⟩, by simp [htd]⟩
    rw [ha] at hm
    rw [List.mem_singleton.1 h1, List.mem_singleton.1 hm]
  · intro h
    refine ⟨s, ?_⟩
    have hall : ∀ t ∈ (oneD (visible f.sds)).filter fun t => decide (t.dims.headD 0 = d), t = s := by
      intro t ht
      rw [List.mem_filter, decide_eq_true_eq] at ht
      obtain ⟨h1, e, he⟩ := (mem_oneD f t).1 ht.1
      refine h t h1 ?_
      rw [he] at ht ⊢
      simpa using ht.2
    have hn := hnd.filter fun t => decide (t.dims.headD 0 = d)
    match hL : (oneD (visible f.sds)).filter fun t => decide (t.dims.headD 0 = d) with
    | [] => rw [hL] at hm; cases hm
    | [a] => rw [hL] at hall; rw [hL, hall a (by simp)]
    | a :: b :: l =>
      rw [hL] at hall hn
      have h1 := hall a (by simp)
      have h2 := hall b (by simp)
      simp [h1, h2] at hn

theorem filter_prefix {A : Type} (p : A → Bool) {l : List A} (h : l.Pairwise fun s t => p t = true → p s = true) :
    l = l.filter p ++ l.filter fun s => !p s := by
  induction l with
  | nil => rfl
  | cons a l ih =>
    obtain ⟨h1, h2⟩ := List.pairwise_cons.1 h
    by_cases ha : p a = true
    · rw [List.filter_cons_of_pos ha, List.filter_cons_of_neg (by simp [ha]), List.cons_append, ← ih h2]
    · have : ∀ b ∈ l, p b = false := fun b hb => by
        cases hp : p b
        · rfl
        · exact absurd (h1 b hb hp) ha
      rw [List.filter_cons_of_neg ha, List.filter_cons_of_pos (by simp [ha])]
      rw [List.filter_eq_nil_iff.2 fun b hb => by simp [this b hb], List.nil_append, List.filter_eq_self.2 fun b hb => by simp [this b hb]]

/-- if the data sets with one dimension that are not coordinates come last, the axis found for a dimension is the right one -/
theorem axisFor_right {f : HdfFile} (hf : HdfGood nr f)
    (ho : (oneD (visible f.sds)).Pairwise fun s t => isDim (visible f.sds) t = true → isDim (visible f.sds) s = true) (d : ℕ) :
    AxisOfDim nr f d (axisFor nr f d) := by
  have hz : (dimids (visible f.sds)).zip ((dimsds (visible f.sds)).map (axisOf nr)) = (dimsds (visible f.sds)).map fun s => (s.dims.headD 0, axisOf nr s) := by
    unfold dimids
    have h1 := filter_prefix (isDim (visible f.sds)) ho
    rw [h1, List.map_append]
    show List.zip ((dimsds (visible f.sds)).map _ ++ _) _ = _
    rw [← List.append_nil ((dimsds (visible f.sds)).map (axisOf nr)), List.zip_append (by simp), List.zip_nil_right, List.append_nil, List.zip_map']
  have hmem : ∀ s, s ∈ dimsds (visible f.sds) ↔ ∃ e, Coordinate f e s := by
    intro s
    unfold dimsds
    rw [List.mem_filter, mem_oneD]
    constructor
    · rintro ⟨⟨h1, e, he⟩, h2⟩
      exact ⟨e, (isDim_iff hf h1 he).1 h2⟩
    · rintro ⟨e, h⟩
      exact ⟨⟨h.1, e, h.2.1⟩, (isDim_iff hf h.1 h.2.1).2 h⟩
  unfold AxisOfDim
  constructor
  · intro s hs
    have hl : lookup nr (visible f.sds) d = some (axisOf nr s) := by
      unfold lookup
      rw [hz]
      have hsome : (((dimsds (visible f.sds)).map fun s => (s.dims.headD 0, axisOf nr s)).reverse.find? fun p => decide (p.1 = d)).isSome := by
        rw [List.find?_isSome]
        refine ⟨(d, axisOf nr s), ?_, by simp⟩
        rw [List.mem_reverse, List.mem_map]
        exact ⟨s, (hmem s).2 ⟨d, hs⟩, by simp [hs.2.1]⟩
      obtain ⟨p, hp⟩ := Option.isSome_iff_exists.1 hsome
      rw [hp]
      have h1 := List.mem_of_find?_eq_some hp
      have h2 := List.find?_some hp
      rw [List.mem_reverse, List.mem_map] at h1
      obtain ⟨t, ht, rfl⟩ := h1
      obtain ⟨e, he⟩ := (hmem t).1 ht
      have hed : e = d := by simpa [he.2.1] using h2
      subst hed
      have hts : t = s := by
        rcases hs.2.2 with h3 | h3
        · rcases he.2.2 with h4 | h4
          · exact hf.coord e t s he.1 hs.1 he.2.1 hs.2.1 h4 h3
          · exact (h4 s hs.1 hs.2.1).symm
        · exact h3 t he.1 he.2.1
      rw [hts]; rfl
    unfold axisFor
    rw [hl, Option.getD_some]
    unfold axisOf values
    rw [hf.shapes s hs.1.1, hs.2.1]
    rfl
  · intro hno
    unfold axisFor
    have : lookup nr (visible f.sds) d = none := by
      unfold lookup
      rw [hz, Option.map_eq_none_iff, List.find?_eq_none]
      intro p hp
      rw [List.mem_reverse, List.mem_map] at hp
      obtain ⟨t, ht, rfl⟩ := hp
      obtain ⟨e, he⟩ := (hmem t).1 ht
      intro h
      have : e = d := by simpa [he.2.1] using h
      subst this
      exact hno t he
    rw [this]; rfl

theorem axisFor_len {f : HdfFile} (hf : HdfGood nr f) {d : ℕ} {a : Axis} (h : AxisOfDim nr f d a) : a.len = (f.dim d).2 := by
  by_cases hc : ∃ s, Coordinate f d s
  · obtain ⟨s, hs⟩ := hc
    rw [h.1 s hs]
    simp [Axis.len, named, mkNamed]
  · rw [h.2 fun s hs => hc ⟨s, hs⟩]
    simp [Axis.len, dummy, mkNamed, counting]

/-- **C136, part**: if the data sets with one dimension that do not give coordinates come after those that do, the variables of the dataset are the data sets
used that do not give coordinates, in their order; each has the data of the file, and along every dimension the coordinates the file gives, or
the dimension's name and size if it gives none. In full it is claimed for data sets in any order: see `open_violated`. -/
theorem open_partial {f : HdfFile} (hf : HdfGood nr f)
    (ho : f.sds.Pairwise fun s t => ∀ d e, Used f s → s.dims = [d] → Coordinate f e t → Coordinate f d s) :
    ∃ items, openFile nr junk f = some items ∧
      ∃ rest, rest.Sublist f.sds ∧ (∀ s, s ∈ rest ↔ Used f s ∧ ∀ d, ¬ Coordinate f d s) ∧
        List.Forall₂ (fun s (x : Item) => x.name = s.name ∧ List.Forall₂ (AxisOfDim nr f) s.dims x.var.axes ∧ Contains x.var s.data) rest items := by
  have hsub : (visible f.sds).Sublist f.sds := List.filter_sublist
  have ho' : (oneD (visible f.sds)).Pairwise fun s t => isDim (visible f.sds) t = true → isDim (visible f.sds) s = true := by
    have h1 : (oneD (visible f.sds)).Pairwise fun s t => ∀ d e, Used f s → s.dims = [d] → Coordinate f e t → Coordinate f d s :=
      (ho.sublist hsub).sublist List.filter_sublist
    refine h1.imp_of_mem fun {s t} hs ht h hd => ?_
    obtain ⟨h2, d, h3⟩ := (mem_oneD f s).1 hs
    obtain ⟨h4, e, h5⟩ := (mem_oneD f t).1 ht
    exact (isDim_iff hf h2 h3).2 (h d e h2 h3 ((isDim_iff hf h4 h5).1 hd))
  have hax := axisFor_right hf ho'
  set rest := (visible f.sds).filter (isVar (visible f.sds)) with hrest
  have hrm : ∀ s, s ∈ rest ↔ Used f s ∧ ∀ d, ¬ Coordinate f d s := by
    intro s
    rw [hrest, List.mem_filter, mem_visible]
    refine and_congr_right fun hs => ?_
    unfold isVar
    rw [Bool.not_eq_true', Bool.and_eq_false_iff]
    constructor
    · rintro (h | h) d hd
      · simp [hd.2.1] at h
      · rw [(isDim_iff hf hs hd.2.1).2 hd] at h; cases h
    · intro h
      by_cases hl : s.dims.length = 1
      · right
        obtain ⟨d, hd⟩ := List.length_eq_one_iff.1 hl
        rw [Bool.eq_false_iff]
        intro h2
        exact h d ((isDim_iff hf hs hd).1 h2)
      · left; simpa using hl
  have hrs : rest.Sublist f.sds := List.filter_sublist.trans hsub
  refine ⟨rest.map (makeItem nr junk f), ?_, rest, hrs, hrm, ?_⟩
  · unfold openFile
    rw [← hrest]
    apply mkDataset_id
    · rw [List.map_map]
      exact hf.names.sublist (hrs.map Sd.name)
    · intro x hx
      obtain ⟨s, hs, rfl⟩ := List.mem_map.1 hx
      exact hf.blank s (hrs.subset hs)
    · intro a ha b hb hab
      obtain ⟨x, hx, ha⟩ := List.mem_flatMap.1 ha
      obtain ⟨y, hy, hb⟩ := List.mem_flatMap.1 hb
      obtain ⟨s, hs, rfl⟩ := List.mem_map.1 hx
      obtain ⟨t, ht, rfl⟩ := List.mem_map.1 hy
      obtain ⟨d, hd, rfl⟩ := List.mem_map.1 ha
      obtain ⟨e, he, rfl⟩ := List.mem_map.1 hb
      rw [hf.axes s (hrs.subset hs) t (hrs.subset ht) d hd e he _ _ (hax d) (hax e) hab]
  · rw [List.forall₂_map_right_iff, List.forall₂_same]
    intro s hs
    refine ⟨rfl, ?_, ?_⟩
    · show List.Forall₂ _ s.dims (s.dims.map (axisFor nr f))
      rw [List.forall₂_map_right_iff, List.forall₂_same]
      exact fun d _ => hax d
    · unfold Contains
      have hsh : (makeItem nr junk f s).var.axes.map Axis.len = s.shape := by
        rw [hf.shapes s (hrs.subset hs)]
        show (s.dims.map (axisFor nr f)).map Axis.len = _
        rw [List.map_map]
        exact List.map_congr_left fun d _ => axisFor_len hf (hax d)
      rw [hsh]
      intro sc hsc
      exact ⟨rfl, fun k hk => rfl⟩

/-- a file with two dimensions: two times along the first and latitudes along the second -/
def sdEx (n : String) (dims shape : List ℕ) (data : List ℕ → Cell) : Sd := ⟨n.toList, true, dims, shape, false, data⟩

def hdfEx : HdfFile :=
  { sds := [sdEx "begin" [0] [2] (fun k => some (k.getD 0 0)), sdEx "end" [0] [2] (fun k => some (k.getD 0 0 + 1)),
      sdEx "lat" [1] [2] (fun k => some (10 * k.getD 0 0)), sdEx "t" [0, 1] [2, 2] fun k => some (100 * k.getD 0 0 + k.getD 1 0)]
    dim := fun d => if d = 0 then ("time".toList, 2) else ("y".toList, 2) }

/-- **C136 fails** if a data set with one dimension that gives no coordinates comes before one that does: the latitudes are taken for the coordinates of the
first dimension, and the second has none. -/
theorem open_violated :
    (openFile (fun _ => 0) (fun _ => none) hdfEx).map (fun l => l.map fun x => (x.name, x.var.axes.map fun a => (a.name, a.values))) =
      some [("begin".toList, [("lat".toList, [0, 10])]), ("end".toList, [("lat".toList, [0, 10])]),
        ("t".toList, [("lat".toList, [0, 10]), ("y".toList, [0, 1])])] ∧
    Coordinate hdfEx 1 (sdEx "lat" [1] [2] (fun k => some (10 * k.getD 0 0))) := by
  refine ⟨by decide +kernel, ⟨by simp [hdfEx], .inr ?_⟩, rfl, .inr ?_⟩
  · intro t ht
    simp only [hdfEx, List.mem_cons, List.not_mem_nil, or_false] at ht
    rcases ht with rfl | rfl | rfl | rfl <;> decide
  · intro t ht hd
    have := ht.1
    simp only [hdfEx, List.mem_cons, List.not_mem_nil, or_false] at this
    rcases this with rfl | rfl | rfl | rfl
    · simp [sdEx] at hd
    · simp [sdEx] at hd
    · rfl
    · simp [sdEx] at hd

/-- a file with coordinates for two of its three dimensions, of which the first also has another data set, and a data set hidden by its twin -/
def hdfEx2 : HdfFile :=
  { sds := [⟨"time".toList, true, [0], [2], true, fun k => some (k.getD 0 0)⟩, sdEx "lat" [1] [2] (fun k => some (10 * k.getD 0 0)),
      sdEx "hour" [0] [2] (fun k => some (k.getD 0 0 + 1)), sdEx "t" [0, 1] [2, 2] (fun _ => none),
      sdEx "t:EOSGRID" [0, 1, 2] [2, 2, 3] fun k => some (100 * k.getD 0 0 + k.getD 1 0)]
    dim := fun d => if d = 0 then ("XDim".toList, 2) else if d = 1 then ("YDim".toList, 2) else ("level".toList, 3) }

theorem used_ex2 (s : Sd) : Used hdfEx2 s ↔ s ∈ hdfEx2.sds ∧ s.name ≠ "t".toList := by
  unfold Used
  refine and_congr_right fun hs => ?_
  simp only [hdfEx2, List.mem_cons, List.not_mem_nil, or_false] at hs
  rcases hs with rfl | rfl | rfl | rfl | rfl <;> simp only [hdfEx2, sdEx, List.mem_cons, List.not_mem_nil, or_false, forall_eq_or_imp, forall_eq] <;> decide +kernel

theorem coordinate_ex2 (d : ℕ) (s : Sd) : Coordinate hdfEx2 d s ↔
    (d = 0 ∧ s = ⟨"time".toList, true, [0], [2], true, fun k => some (k.getD 0 0)⟩) ∨ (d = 1 ∧ s = sdEx "lat" [1] [2] (fun k => some (10 * k.getD 0 0))) := by
  constructor
  · rintro ⟨h1, h2, h3⟩
    have hs := h1.1
    simp only [hdfEx2, List.mem_cons, List.not_mem_nil, or_false] at hs
    rcases hs with rfl | rfl | rfl | rfl | rfl
    · left; exact ⟨by simpa using h2.symm, rfl⟩
    · right; exact ⟨by simpa [sdEx] using h2.symm, rfl⟩
    · rcases h3 with h | h
      · cases h
      · have hd : d = 0 := by simpa [sdEx] using h2.symm
        subst hd
        have := h ⟨"time".toList, true, [0], [2], true, fun k => some (k.getD 0 0)⟩ ((used_ex2 _).2 ⟨by simp [hdfEx2], by decide⟩) rfl
        have h4 := congrArg Sd.name this
        exact absurd h4 (by decide)
    · simp [sdEx] at h2
    · simp [sdEx] at h2
  · rintro (⟨rfl, rfl⟩ | ⟨rfl, rfl⟩)
    · exact ⟨(used_ex2 _).2 ⟨by simp [hdfEx2], by decide⟩, rfl, .inl rfl⟩
    · refine ⟨(used_ex2 _).2 ⟨by simp [hdfEx2], by decide⟩, rfl, .inr fun t ht hd => ?_⟩
      have hs := ht.1
      simp only [hdfEx2, List.mem_cons, List.not_mem_nil, or_false] at hs
      rcases hs with rfl | rfl | rfl | rfl | rfl
      · simp at hd
      · rfl
      · simp [sdEx] at hd
      · simp [sdEx] at hd
      · simp [sdEx] at hd

theorem axis_ex2 {nr : List ℚ → ℚ} {d : ℕ} {a : Axis} (h : AxisOfDim nr hdfEx2 d a) :
    a.name = if d = 0 then "time".toList else if d = 1 then "lat".toList else "level".toList := by
  rcases d with _ | _ | d
  · rw [h.1 _ ((coordinate_ex2 _ _).2 (.inl ⟨rfl, rfl⟩))]; rfl
  · rw [h.1 _ ((coordinate_ex2 _ _).2 (.inr ⟨rfl, rfl⟩))]; rfl
  · rw [h.2 fun s hs => by rcases (coordinate_ex2 _ _).1 hs with ⟨h, -⟩ | ⟨h, -⟩ <;> omega]; rfl

theorem good_ex2 : HdfGood (fun _ => 0) hdfEx2 where
  shapes := by
    intro s hs
    simp only [hdfEx2, List.mem_cons, List.not_mem_nil, or_false] at hs
    rcases hs with rfl | rfl | rfl | rfl | rfl <;> rfl
  names := by decide +kernel
  blank := by
    intro s hs
    simp only [hdfEx2, List.mem_cons, List.not_mem_nil, or_false] at hs
    rcases hs with rfl | rfl | rfl | rfl | rfl <;> decide
  coord := by
    intro d s t hs ht _ _ h1 h2
    have hs := hs.1
    have ht := ht.1
    simp only [hdfEx2, List.mem_cons, List.not_mem_nil, or_false] at hs ht
    rcases hs with rfl | rfl | rfl | rfl | rfl <;> try cases h1
    rcases ht with rfl | rfl | rfl | rfl | rfl <;> first | rfl | cases h2
  axes := by
    intro s hs t ht d hd e he a b ha hb hab
    rw [axis_ex2 ha, axis_ex2 hb] at hab
    have key : ∀ s ∈ hdfEx2.sds, ∀ d ∈ s.dims, d = 0 ∨ d = 1 ∨ d = 2 := by
      intro s hs
      simp only [hdfEx2, List.mem_cons, List.not_mem_nil, or_false] at hs
      rcases hs with rfl | rfl | rfl | rfl | rfl <;> simp [sdEx]
    rcases key s hs d hd with rfl | rfl | rfl <;> rcases key t ht e he with rfl | rfl | rfl <;> first | rfl | exact absurd hab (by decide)

/-- the example meets the hypotheses -/
example : HdfGood (fun _ => 0) hdfEx2 ∧
    hdfEx2.sds.Pairwise (fun s t => ∀ d e, Used hdfEx2 s → s.dims = [d] → Coordinate hdfEx2 e t → Coordinate hdfEx2 d s) ∧
    (openFile (fun _ => 0) (fun _ => none) hdfEx2).map (fun l => l.map fun x => (x.name, x.var.axes.map fun a => (a.name, a.values))) =
      some [("hour".toList, [("time".toList, [0, 1])]),
        ("t:EOSGRID".toList, [("time".toList, [0, 1]), ("lat".toList, [0, 10]), ("level".toList, [0, 1, 2])])] := by
  refine ⟨good_ex2, ?_, by decide +kernel⟩
  have no : ∀ t : Sd, t.name ≠ "time".toList → t.name ≠ "lat".toList → ∀ e, ¬ Coordinate hdfEx2 e t := by
    intro t h1 h2 e h
    rcases (coordinate_ex2 e t).1 h with ⟨-, rfl⟩ | ⟨-, rfl⟩
    · exact h1 rfl
    · exact h2 rfl
  have yes : ∀ d, ∀ s ∈ hdfEx2.sds, (s.name = "time".toList ∨ s.name = "lat".toList) → s.dims = [d] → Coordinate hdfEx2 d s := by
    intro d s hs hn hd
    simp only [hdfEx2, List.mem_cons, List.not_mem_nil, or_false] at hs
    rcases hs with rfl | rfl | rfl | rfl | rfl
    · exact (coordinate_ex2 _ _).2 (.inl ⟨by simpa using hd.symm, rfl⟩)
    · exact (coordinate_ex2 _ _).2 (.inr ⟨by simpa [sdEx] using hd.symm, rfl⟩)
    · exact absurd hn (by decide)
    · exact absurd hn (by decide)
    · exact absurd hn (by decide)
  refine .cons ?_ (.cons ?_ (.cons ?_ (.cons ?_ (.cons (by simp) .nil))))
  · intro t _ d e hs hd _
    exact yes d _ hs.1 (.inl rfl) hd
  · intro t _ d e hs hd _
    exact yes d _ hs.1 (.inr rfl) hd
  · intro t ht d e hs hd hc
    simp only [List.mem_cons, List.not_mem_nil, or_false] at ht
    rcases ht with rfl | rfl
    · exact absurd hc (no _ (by decide) (by decide) e)
    · exact absurd hc (no _ (by decide) (by decide) e)
  · intro t ht d e hs hd hc
    simp only [List.mem_cons, List.not_mem_nil, or_false] at ht
    subst ht
    exact absurd hc (no _ (by decide) (by decide) e)

end Hdf4
end PyGeode
