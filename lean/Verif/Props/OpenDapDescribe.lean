/-
Property C129: what the server describes.
-/
import Verif.Props.OpenDapServer
import Verif.Props.GetItem

namespace PyGeode
namespace OpenDap
open NArr Cf Spec

/-- an array at these positions of its axes -/
def sliceOf (x : VarD) (inds : List (List ℕ)) : VarD :=
  { x with axes := (x.axes.zip inds).map fun p => p.1.take p.2
           data := fun k => x.data (List.zipWith (fun l i => l.getD i 0) inds k) }

/-- the positions of slices -/
def Positions (x : VarD) (sl : List PySlice) (inds : List (List ℕ)) : Prop :=
  List.Forall₂ (fun (p : AxisD × PySlice) l => GetItem.npTake p.1.values.length (.slice p.2) = some l) (x.axes.zip sl) inds

theorem slice_eq (x : VarD) (sl : List PySlice) (inds : List (List ℕ)) (h : Positions x sl inds) : x.slice sl = some (sliceOf x inds) := by
  unfold VarD.slice
  rw [(GetItem.mapM_iff _ _ _).mpr h]
  rfl

theorem lookup_pairs {α β : Type} (l : List α) (f : α → Name) (g : α → β) (hn : (l.map f).Nodup) (a : α) (ha : a ∈ l) :
    (l.map fun a => (f a, g a)).lookup (f a) = some (g a) := by
  induction l with
  | nil => simp at ha
  | cons b l ih =>
    rw [List.map_cons, List.nodup_cons] at hn
    rw [List.map_cons, List.lookup_cons]
    rcases List.mem_cons.mp ha with rfl | ha
    · simp
    · have : (f a == f b) = false := by
        simpa using fun e => hn.1 (List.mem_map.mpr ⟨a, ha, e⟩)
      rw [this]
      exact ih hn.2 ha

theorem fieldsVar_axis (ds : Data) (hs : Servable ds) (v : VarD) (hv : v ∈ ds.vars) (sl : List PySlice) (hl : sl.length = v.axes.length)
    (p : AxisD × PySlice) (hp : p ∈ v.axes.zip sl) : (fieldsVar v sl).lookup p.1.name = some [p.2] := by
  unfold fieldsVar
  rw [List.lookup_cons]
  have : (p.1.name == v.name) = false := by
    simpa using axis_ne_var ds hs v hv p.1 (hs.known v hv _ (List.of_mem_zip hp).1)
  rw [this]
  exact lookup_pairs (v.axes.zip sl) (fun p => p.1.name) (fun p => [p.2]) (by rw [zip_names v sl hl]; exact hs.own v hv) p hp

theorem fieldsVar_self (v : VarD) (sl : List PySlice) : (fieldsVar v sl).lookup v.name = some sl := by simp [fieldsVar]

theorem asVar_positions (a : AxisD) (s : PySlice) (l : List ℕ) (h : GetItem.npTake a.values.length (.slice s) = some l) :
    Positions a.asVar [s] [l] := .cons h .nil

theorem makeEntry_self (ds : Data) (hs : Servable ds) (v : VarD) (hv : v ∈ ds.vars) (f : Fields) (sl : List PySlice)
    (hf : f.lookup v.name = some (fieldsVar v sl)) (inds : List (List ℕ)) (hi : Positions v sl inds) :
    makeEntry ds f v.name v.name = some (sliceOf v inds) := by
  unfold makeEntry
  rw [hf, Option.bind_some, fieldsVar_self, Option.bind_some, find_var ds hs v hv, Option.bind_some, if_pos rfl, slice_eq v sl inds hi]

theorem makeEntry_map (ds : Data) (hs : Servable ds) (v : VarD) (hv : v ∈ ds.vars) (f : Fields) (sl : List PySlice) (hl : sl.length = v.axes.length)
    (hf : f.lookup v.name = some (fieldsVar v sl)) (p : AxisD × PySlice) (hp : p ∈ v.axes.zip sl) (l : List ℕ)
    (h : GetItem.npTake p.1.values.length (.slice p.2) = some l) :
    makeEntry ds f v.name p.1.name = some (sliceOf p.1.asVar [l]) := by
  have ha := (List.of_mem_zip hp).1
  unfold makeEntry
  rw [hf, Option.bind_some, fieldsVar_axis ds hs v hv sl hl p hp, Option.bind_some, find_var ds hs v hv, Option.bind_some,
    if_neg (axis_ne_var ds hs v hv p.1 (hs.known v hv _ ha)), find_axis v.axes (hs.own v hv) p.1 ha, Option.map_some, Option.bind_some,
    slice_eq _ _ _ (asVar_positions p.1 p.2 l h)]

/-- the maps that are sent with an array -/
def mapsOf (v : VarD) (inds : List (List ℕ)) : List VarD := (v.axes.zip inds).map fun p => sliceOf p.1.asVar [p.2]

theorem maps_made (ds : Data) (hs : Servable ds) (v : VarD) (hv : v ∈ ds.vars) (f : Fields) (sl : List PySlice) (hl : sl.length = v.axes.length)
    (hf : f.lookup v.name = some (fieldsVar v sl)) (inds : List (List ℕ)) (hi : Positions v sl inds) :
    (v.axes.map AxisD.name).mapM (fun a => makeEntry ds f v.name a) = some (mapsOf v inds) := by
  rw [GetItem.mapM_iff]
  have key : ∀ (A : List AxisD) (S : List PySlice) (I : List (List ℕ)), S.length = A.length → (∀ p ∈ A.zip S, p ∈ v.axes.zip sl) →
      List.Forall₂ (fun (p : AxisD × PySlice) l => GetItem.npTake p.1.values.length (.slice p.2) = some l) (A.zip S) I →
      List.Forall₂ (fun b c => makeEntry ds f v.name b = some c) (A.map AxisD.name) ((A.zip I).map fun p => sliceOf p.1.asVar [p.2]) := by
    intro A
    induction A with
    | nil => intro S I _ _ _; simp
    | cons a A ih =>
      intro S I hS hm h
      cases S with
      | nil => simp at hS
      | cons s S =>
        rw [List.zip_cons_cons] at h hm
        cases h with
        | cons h1 h2 =>
          rw [List.map_cons, List.zip_cons_cons, List.map_cons]
          refine .cons ?_ (ih S _ (by simpa using hS) (fun p hp => hm p (by simp [hp])) h2)
          exact makeEntry_map ds hs v hv f sl hl hf (a, s) (hm _ (by simp)) _ h1
  exact key v.axes sl inds hl (fun p hp => hp) hi

/-- the description of a variable is a grid -/
theorem varEntry_grid (ds : Data) (hs : Servable ds) (v : VarD) (hv : v ∈ ds.vars) (f : Fields) (sl : List PySlice) (hl : sl.length = v.axes.length)
    (hf : f.lookup v.name = some (fieldsVar v sl)) (inds : List (List ℕ)) (hi : Positions v sl inds) :
    varEntry ds f v = some (itemText (sliceOf v inds, some (mapsOf v inds)), sliceOf v inds :: mapsOf v inds) := by
  have hsome : ∀ a ∈ v.axes.map AxisD.name, ((fieldsVar v sl).lookup a).isSome := by
    intro a ha
    rw [← zip_names v sl hl] at ha
    obtain ⟨p, hp, rfl⟩ := List.mem_map.mp ha
    rw [fieldsVar_axis ds hs v hv sl hl p hp]; rfl
  have heq : ((v.axes.map AxisD.name).map fun a => (((fieldsVar v sl).lookup a).getD []).headD full) = sl := by
    rw [← zip_names v sl hl, List.map_map]
    have : (v.axes.zip sl).map Prod.snd = sl := List.map_snd_zip (by omega)
    conv_rhs => rw [← this]
    apply List.map_congr_left
    intro p hp
    simp only [Function.comp]
    rw [fieldsVar_axis ds hs v hv sl hl p hp]
    rfl
  unfold varEntry
  rw [hf]
  simp only
  rw [if_pos ⟨by rw [fieldsVar_self]; rfl, hsome, by rw [heq, fieldsVar_self]⟩, makeEntry_self ds hs v hv f sl hf inds hi, Option.bind_some,
    maps_made ds hs v hv f sl hl hf inds hi, Option.map_some]
  rfl

theorem varEntry_none (ds : Data) (f : Fields) (v : VarD) (h : f.lookup v.name = none) : varEntry ds f v = some ([], []) := by
  unfold varEntry
  rw [h]

/-- a whole axis as it is sent -/
def wholeAxis (a : AxisD) : VarD := sliceOf a.asVar [List.range a.values.length]

theorem npTake_full (n : ℕ) : GetItem.npTake n (.slice full) = some (List.range n) := by
  simp [GetItem.npTake, full, arange, arangeLen]
  conv_rhs => rw [← List.map_id (List.range n)]
  apply List.map_congr_left
  intro k _
  simp

theorem npTake_part (n s c : ℕ) (hc : 0 < c) (h : s + c ≤ n) : GetItem.npTake n (.slice (part s c)) = some ((List.range c).map (s + ·)) := by
  have h1 : GetItem.adjust n 1 (s : ℤ) = s := by
    unfold GetItem.adjust
    rw [if_neg (by omega), if_neg (by omega)]
  have h2 : GetItem.adjust n 1 ((s + c : ℕ) : ℤ) = (s + c : ℕ) := by
    unfold GetItem.adjust
    rw [if_neg (by omega)]
    split_ifs <;> omega
  simp only [GetItem.npTake, part, Option.getD_none, Option.map_some, Option.getD_some, h1, h2]
  rw [if_neg (by omega), arange, arangeLen, if_pos (by omega), List.map_map]
  congr 1
  rw [show ((((s + c : ℕ) : ℤ) - s + (1 - 1)) / 1).toNat = c by push_cast; simp]
  apply List.map_congr_left
  intro k _
  simp only [Function.comp]
  omega

theorem makeEntry_axis (ds : Data) (hs : Servable ds) (a : AxisD) (ha : a ∈ ds.axes) (f : Fields)
    (hf : f.lookup a.name = some [(a.name, [full])]) : makeEntry ds f a.name a.name = some (wholeAxis a) := by
  unfold makeEntry
  rw [hf, Option.bind_some]
  have : List.lookup a.name [(a.name, [full])] = some [full] := by simp
  rw [this, Option.bind_some, find_asVar ds hs a ha, Option.bind_some, if_pos rfl, slice_eq _ _ _ (asVar_positions a full _ (npTake_full _))]
  rfl

theorem take_range (a : AxisD) : a.take (List.range a.values.length) = a := by
  obtain ⟨n, t, v⟩ := a
  simp only [AxisD.take, AxisD.mk.injEq, true_and]
  apply List.ext_getElem
  · simp
  · intro i h1 h2
    rw [List.getElem_map, List.getElem_range, List.getD_eq_getElem _ _ h2]

/-- the arrays of a part of a description -/
def arraysOf (i : Item) : List VarD := i.1 :: i.2.getD []

/-- the parts of an answer: the axes that were asked for, and grids -/
def itemsOf (ds : Data) (f : Fields) (I : VarD → Option (List (List ℕ))) : List Item :=
  ((ds.axes.filter fun a => (f.lookup a.name).isSome).map fun a => ((wholeAxis a, none) : Item)) ++
    ds.vars.filterMap fun v => (I v).map fun inds => (sliceOf v inds, some (mapsOf v inds))

/-- what a request gives is described -/
theorem describe_items (ds : Data) (hs : Servable ds) (file : Name) (f : Fields) (I : VarD → Option (List (List ℕ)))
    (ha : ∀ a ∈ ds.axes, f.lookup a.name = none ∨ f.lookup a.name = some [(a.name, [full])])
    (hI : ∀ v ∈ ds.vars, (f.lookup v.name = none ∧ I v = none) ∨ ∃ sl inds, f.lookup v.name = some (fieldsVar v sl) ∧ I v = some inds ∧
      sl.length = v.axes.length ∧ Positions v sl inds) :
    describe ds file f = some (ddsText (itemsOf ds f I) file, (itemsOf ds f I).flatMap arraysOf) := by
  have h1 : (ds.axes.filter fun a => (f.lookup a.name).isSome).mapM (fun a => makeEntry ds f a.name a.name) =
      some ((ds.axes.filter fun a => (f.lookup a.name).isSome).map wholeAxis) := by
    rw [GetItem.mapM_iff, List.forall₂_map_right_iff, List.forall₂_same]
    intro a hm
    obtain ⟨hm1, hm2⟩ := List.mem_filter.mp hm
    rcases ha a hm1 with h | h
    · rw [h] at hm2; simp at hm2
    · exact makeEntry_axis ds hs a hm1 f h
  have h2 : ∃ r, ds.vars.mapM (varEntry ds f) = some r ∧
      r.flatMap Prod.fst = (ds.vars.filterMap fun v => (I v).map fun inds => ((sliceOf v inds, some (mapsOf v inds)) : Item)).flatMap itemText ∧
      r.flatMap Prod.snd = (ds.vars.filterMap fun v => (I v).map fun inds => ((sliceOf v inds, some (mapsOf v inds)) : Item)).flatMap arraysOf := by
    have key : ∀ l : List VarD, (∀ v ∈ l, v ∈ ds.vars) → ∃ r, l.mapM (varEntry ds f) = some r ∧
        r.flatMap Prod.fst = (l.filterMap fun v => (I v).map fun inds => ((sliceOf v inds, some (mapsOf v inds)) : Item)).flatMap itemText ∧
        r.flatMap Prod.snd = (l.filterMap fun v => (I v).map fun inds => ((sliceOf v inds, some (mapsOf v inds)) : Item)).flatMap arraysOf := by
      intro l
      induction l with
      | nil => intro _; exact ⟨[], rfl, rfl, rfl⟩
      | cons w l ih =>
        intro hl
        obtain ⟨r, hr, h1, h2⟩ := ih fun v hv => hl v (by simp [hv])
        rcases hI w (hl w (by simp)) with ⟨h, hi⟩ | ⟨sl, inds, h, hi, hlen, hpos⟩
        · refine ⟨(([], []) : Name × List VarD) :: r, ?_, ?_, ?_⟩
          · rw [List.mapM_cons, varEntry_none ds f w h, hr]; rfl
          · rw [List.filterMap_cons_none (by rw [hi]; rfl)]; simpa using h1
          · rw [List.filterMap_cons_none (by rw [hi]; rfl)]; simpa using h2
        · refine ⟨(itemText (sliceOf w inds, some (mapsOf w inds)), sliceOf w inds :: mapsOf w inds) :: r, ?_, ?_, ?_⟩
          · rw [List.mapM_cons, varEntry_grid ds hs w (hl w (by simp)) f sl hlen h inds hpos, hr]; rfl
          · rw [List.filterMap_cons_some (by rw [hi]; rfl), List.flatMap_cons, List.flatMap_cons, h1]
          · rw [List.filterMap_cons_some (by rw [hi]; rfl), List.flatMap_cons, List.flatMap_cons, h2]; rfl
    exact key ds.vars fun v hv => hv
  obtain ⟨r, hr, h3, h4⟩ := h2
  unfold describe
  rw [h1, Option.bind_some, hr, Option.map_some, h3, h4]
  have e0 : ∀ l : List Item, ddsText l file = "Dataset {\n".toList ++ l.flatMap itemText ++ ("} ".toList ++ file ++ ";\n".toList) := fun _ => rfl
  have e1 : ∀ l : List AxisD, ((l.map wholeAxis).flatMap fun a => "    ".toList ++ entry a ++ ";\n".toList) =
      (l.map fun a => ((wholeAxis a, none) : Item)).flatMap itemText := by
    intro l
    rw [List.flatMap_map, List.flatMap_map]
    rfl
  have e2 : ∀ l : List AxisD, (l.map fun a => ((wholeAxis a, none) : Item)).flatMap arraysOf = l.map wholeAxis := by
    intro l
    rw [List.flatMap_map]
    induction l with
    | nil => rfl
    | cons a l ih => rw [List.flatMap_cons, ih]; rfl
  rw [e0, e1, itemsOf, List.flatMap_append, List.flatMap_append, e2]
  simp only [List.append_assoc]

end OpenDap
end PyGeode
