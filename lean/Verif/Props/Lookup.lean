/-
C143: looking things up by name.
-/
import Verif.Model.Lookup
import Verif.Props.Combine
import Verif.Props.DatasetOps
import Verif.Props.GetItem
import Verif.Props.Plot

namespace PyGeode
open Spec Axis Combine DatasetOps

namespace Lookup

variable {α : Type}

/-- **C143.** `getaxis` gives the first axis that answers to the name, class or axis, and fails exactly if there is none; `hasaxis` says which. -/
theorem getaxis_correct (axes : List Axis) (id : AxisId) (hid : ∀ n, id ≠ .int n) :
    (∀ a, getaxis axes id = some a ↔ ∃ l r, axes = l ++ a :: r ∧ Answers id a ∧ ∀ b ∈ l, ¬ Answers id b) ∧
    (getaxis axes id = none ↔ ∀ a ∈ axes, ¬ Answers id a) ∧ hasaxis axes id = some (getaxis axes id).isSome := by
  obtain ⟨h1, h2, h3⟩ := whichaxis_correct axes id hid
  unfold getaxis hasaxis
  cases hw : whichaxis axes id with
  | «at» i =>
    obtain ⟨⟨a, ha, hA⟩, hlt⟩ := (h1 i).1 hw
    have hilt := (List.getElem?_eq_some_iff.1 ha).1
    have hsplit : axes = axes.take i ++ a :: axes.drop (i + 1) := by
      rw [← (List.getElem?_eq_some_iff.1 ha).2, List.cons_getElem_drop_succ, List.take_append_drop]
    refine ⟨fun b => ?_, ?_, ?_⟩
    · simp only
      constructor
      · intro hb
        obtain rfl := Option.some_injective _ (ha.symm.trans hb)
        refine ⟨_, _, hsplit, hA, fun b hb => ?_⟩
        obtain ⟨j, hj, e⟩ := List.getElem_of_mem hb
        rw [List.length_take] at hj
        refine hlt j b (by omega) ?_
        rw [← e, List.getElem_take, List.getElem?_eq_getElem]
      · rintro ⟨l, r, e, hb, hl⟩
        have hpos : axes[l.length]? = some b := by rw [e]; simp
        have : i = l.length := by
          rcases lt_trichotomy i l.length with h | h | h
          · exfalso
            rw [e, List.getElem?_append_left h] at ha
            exact hl a (List.mem_of_getElem? ha) hA
          · exact h
          · exact absurd hb (hlt _ b h hpos)
        rw [this, hpos]
    · simp only [ha, reduceCtorEq, false_iff, not_forall]
      exact ⟨a, List.mem_of_getElem? ha, fun h => h hA⟩
    · simp [ha]
  | keyError =>
    have hk := h2.1 hw
    refine ⟨fun b => ⟨fun h => by simp at h, ?_⟩, by simpa using hk, rfl⟩
    rintro ⟨l, r, rfl, hb, -⟩
    exact absurd hb (hk b (by simp))
  | typeError => exact absurd hw h3

/-- **C143.** `var.name` is the first axis that answers to the name; an axis is found by its own name unless one before it answers to that name too. -/
theorem varAttr_correct (axes : List Axis) (name : Name) (hn : dunder name = false ∧ name ≠ "axes".toList ∧ name ≠ "values".toList) :
    varAttr axes name = getaxis axes (.name name) ∧
    ∀ a ∈ axes, a.name = name → (∀ b ∈ axes, b ≠ a → ¬ Answers (.name name) b) → varAttr axes name = some a := by
  have h0 : varAttr axes name = getaxis axes (.name name) := by
    unfold varAttr
    rw [if_neg (by
      rw [Bool.or_eq_true, hn.1, decide_eq_true_eq, List.mem_cons, List.mem_singleton]
      rintro (h | h | h)
      · cases h
      · exact hn.2.1 h
      · exact hn.2.2 h)]
  refine ⟨h0, fun a ha hname hu => ?_⟩
  have hA : Answers (.name name) a := Or.inl (by rw [hname])
  obtain ⟨g1, g2, -⟩ := getaxis_correct axes (.name name) (by simp)
  rw [h0]
  cases hg : getaxis axes (.name name) with
  | none => exact absurd hA (g2.1 hg a ha)
  | some b =>
    obtain ⟨l, r, e, hb, -⟩ := (g1 b).1 hg
    by_contra hne
    exact hu b (by rw [e]; simp) (fun h => hne (by rw [h])) hb

/-- **C143.** An attribute of an axis is the auxiliary array, or else the auxiliary attribute, with this name, or else the axis itself if it answers to it. -/
theorem axisAttr_correct (a : Axis) (name : Name) (hn : dunder name = false ∧ name ≠ "axes".toList ∧ name ≠ "values".toList) (h1 : (a.auxarrays.map Prod.fst).Nodup)
    (h2 : (a.auxatts.map Prod.fst).Nodup) :
    (∀ v, axisAttr a name = some (.array v) ↔ (name, v) ∈ a.auxarrays) ∧
    (∀ v, axisAttr a name = some (.att v) ↔ name ∉ a.auxarrays.map Prod.fst ∧ (name, v) ∈ a.auxatts) ∧
    (∀ b, axisAttr a name = some (.axis b) ↔ b = a ∧ name ∉ a.auxarrays.map Prod.fst ∧ name ∉ a.auxatts.map Prod.fst ∧ Answers (.name name) a) := by
  have key : ∀ {V : Type} (l : List (Name × V)), (l.map Prod.fst).Nodup → (∀ v, l.lookup name = some v ↔ (name, v) ∈ l) ∧
      (l.lookup name = none ↔ name ∉ l.map Prod.fst) := by
    intro V l hl
    induction l with
    | nil => simp
    | cons p l ih =>
      obtain ⟨k, w⟩ := p
      rw [List.map_cons, List.nodup_cons] at hl
      obtain ⟨i1, i2⟩ := ih hl.2
      by_cases hk : name = k
      · subst hk
        rw [List.lookup_cons_self]
        refine ⟨fun v => ?_, by simp⟩
        simp only [Option.some_inj, List.mem_cons, Prod.mk.injEq, true_and]
        constructor
        · rintro rfl; exact Or.inl rfl
        · rintro (rfl | h)
          · rfl
          · exact absurd (List.mem_map.2 ⟨_, h, rfl⟩) hl.1
      · rw [List.lookup_cons, beq_eq_false_iff_ne.2 hk]
        simp only [i1, i2, List.mem_cons, Prod.mk.injEq, hk, false_and, false_or, List.map_cons, true_and]
        exact ⟨fun _ => trivial, trivial⟩
  obtain ⟨a1, a2⟩ := key _ h1
  obtain ⟨b1, b2⟩ := key _ h2
  have hself : ∀ b, (varAttr [a] name) = some b ↔ b = a ∧ Answers (.name name) a := by
    intro b
    rw [(varAttr_correct [a] name hn).1, (getaxis_correct [a] (.name name) (by simp)).1]
    constructor
    · rintro ⟨l, r, e, hb, -⟩
      have : b ∈ [a] := by rw [e]; simp
      rw [List.mem_singleton] at this
      exact ⟨this, this ▸ hb⟩
    · rintro ⟨rfl, hb⟩
      exact ⟨[], [], rfl, hb, by simp⟩
  unfold axisAttr
  rw [if_neg (by simp [hn.1])]
  cases hv : a.auxarrays.lookup name with
  | some w =>
    have hmem : name ∈ a.auxarrays.map Prod.fst := by
      by_contra h; rw [a2.2 h] at hv; cases hv
    refine ⟨fun v => ?_, fun v => ?_, fun b => ?_⟩
    · rw [← a1, hv]; simp
    · simp [hmem]
    · simp [hmem]
  | none =>
    have hno := a2.1 hv
    have harr : ∀ v, (name, v) ∉ a.auxarrays := fun v h => by rw [← a1, hv] at h; cases h
    simp only
    cases hw : a.auxatts.lookup name with
    | some w =>
      have hmem : name ∈ a.auxatts.map Prod.fst := by
        by_contra h; rw [b2.2 h] at hw; cases hw
      refine ⟨fun v => ?_, fun v => ?_, fun b => ?_⟩
      · simp [harr]
      · rw [← b1, hw]; simp [hno]
      · simp [hmem]
    | none =>
      have hno' := b2.1 hw
      have hatt : ∀ v, (name, v) ∉ a.auxatts := fun v h => by rw [← b1, hw] at h; cases h
      refine ⟨fun v => ?_, fun v => ?_, fun b => ?_⟩
      · simp [harr]
      · simp [hatt]
      · simp only [Option.map_eq_some_iff, AxisAttr.axis.injEq, exists_eq_right, hself]
        tauto

/-- **C143.** `name in dataset` says whether `dataset[name]` succeeds, and `dataset.name` is `dataset[name]`. -/
theorem dataAttr_correct (d : Data α) (h : IsDataset d.vars) (name : Name) :
    (contains d name = true ↔ getitem d name ≠ none) ∧ (dunder name = false → dataAttr d name = getitem d name) := by
  obtain ⟨-, -, h3⟩ := getitem_correct d h name
  have hmem : name ∈ (DatasetOps.axes d.vars).map Axis.name ↔ name ∈ (allAxes d.vars).map Axis.name := by
    have : ∀ a, a ∈ DatasetOps.axes d.vars ↔ a ∈ allAxes d.vars := fun a => by
      unfold DatasetOps.axes allAxes
      rw [dedup_fold]; simp
    simp only [List.mem_map, this]
  have hc : contains d name = true ↔ getitem d name ≠ none := by
    unfold contains
    rw [Bool.or_eq_true, decide_eq_true_eq, decide_eq_true_eq, hmem, ne_eq, h3]
    tauto
  refine ⟨hc, fun hn => ?_⟩
  unfold dataAttr
  rw [if_neg (by simp [hn])]
  split_ifs with hh
  · rfl
  · have := mt hc.2 hh
    exact (not_not.1 this).symm

/-- **C143.** `dataset.getaxis(name)` is the axis that `dataset[name]` gives, if no other axis of the dataset answers to the name. -/
theorem data_getaxis (d : Data α) (h : IsDataset d.vars) (name : Name) (a : Axis) (ha : a ∈ allAxes d.vars) (hname : a.name = name)
    (hu : ∀ b ∈ allAxes d.vars, b ≠ a → ¬ Answers (.name name) b) :
    getaxis (DatasetOps.axes d.vars) (.name name) = some a ∧ (name ∉ d.vars.map Member.name → getitem d name = some (.inr a)) := by
  have hmem : ∀ a, a ∈ DatasetOps.axes d.vars ↔ a ∈ allAxes d.vars := fun a => by
    unfold DatasetOps.axes allAxes
    rw [dedup_fold]; simp
  refine ⟨?_, fun hn => ((getitem_correct d h name).2.1 a).2 ⟨hn, ha, hname⟩⟩
  obtain ⟨g1, g2, -⟩ := getaxis_correct (DatasetOps.axes d.vars) (.name name) (by simp)
  have hA : Answers (.name name) a := Or.inl (by rw [hname])
  cases hg : getaxis (DatasetOps.axes d.vars) (.name name) with
  | none => exact absurd hA (g2.1 hg a ((hmem a).2 ha))
  | some b =>
    obtain ⟨l, r, e, hb, -⟩ := (g1 b).1 hg
    by_contra hne
    exact hu b ((hmem b).1 (by rw [e]; simp)) (fun h => hne (by rw [h])) hb

/-- **C143.** A loaded dataset has the same variables on the same axes with the same data, all in memory. -/
theorem load_correct (nr : List ℚ → ℚ) (junk : List ℕ → α) (d : Data α) (h : IsDataset d.vars) (data : Member α → List ℕ → α)
    (hc : ∀ x ∈ d.vars, Contains x.var (data x)) (hr : ∀ x ∈ d.vars, Regular x.var.axes) (hp : ∀ x ∈ d.vars, ∀ a ∈ x.var.axes, 0 < a.len) :
    ∃ d', load nr junk d = some d' ∧ d'.atts = d.atts ∧ IsDataset d'.vars ∧
      List.Forall₂ (fun x y => y.name = x.name ∧ y.var.axes = x.var.axes ∧ Contains y.var (data x) ∧ ∃ v, y.var.src = .values v) d.vars d'.vars := by
  have key : ∀ l : List (Member α), (∀ x ∈ l, x ∈ d.vars) → ∃ l', (l.mapM fun x => (GetItem.load nr junk x.var).map fun y => (⟨x.name, y⟩ : Member α)) = some l' ∧
      List.Forall₂ (fun x y => y.name = x.name ∧ y.var.axes = x.var.axes ∧ Contains y.var (data x) ∧ ∃ v, y.var.src = .values v) l l' := by
    intro l
    induction l with
    | nil => intro _; exact ⟨[], rfl, .nil⟩
    | cons x l ih =>
      intro hl
      have hx := hl x (List.mem_cons_self ..)
      obtain ⟨y, y1, y2, y3, y4⟩ := GetItem.load_correct nr junk x.var (data x) (hc x hx) (hr x hx) (hp x hx)
      obtain ⟨l', e, hf⟩ := ih fun z hz => hl z (List.mem_cons_of_mem _ hz)
      refine ⟨⟨x.name, y⟩ :: l', ?_, .cons ⟨rfl, y2, y3, y4⟩ hf⟩
      rw [List.mapM_cons, y1, e]
      rfl
  obtain ⟨l', e, hf⟩ := key d.vars fun _ h => h
  have hnames : ∀ (l l' : List (Member α)), List.Forall₂ (fun x y => y.name = x.name ∧ y.var.axes = x.var.axes ∧ Contains y.var (data x) ∧
      ∃ v, y.var.src = .values v) l l' → l'.map Member.name = l.map Member.name ∧ allAxes l' = allAxes l := by
    intro l l' hf
    induction hf with
    | nil => exact ⟨rfl, rfl⟩
    | cons h _ ih =>
      refine ⟨by rw [List.map_cons, List.map_cons, h.1, ih.1], ?_⟩
      have := ih.2
      unfold allAxes at this ⊢
      rw [List.flatMap_cons, List.flatMap_cons, h.2.1, this]
  obtain ⟨n1, n2⟩ := hnames _ _ hf
  have hD : IsDataset l' := by
    refine ⟨by rw [n1]; exact h.names, fun x hx => ?_, by rw [n2]; exact h.same⟩
    have : x.name ∈ d.vars.map Member.name := by rw [← n1]; exact List.mem_map_of_mem hx
    obtain ⟨z, hz, ez⟩ := List.mem_map.1 this
    rw [← ez]; exact h.blank z hz
  exact ⟨⟨l', d.atts⟩, by unfold load; rw [e, Option.bind_some, make_id nr junk l' d.atts hD], rfl, hD, hf⟩

/-! ### findings -/

/-- heights, with all the names a `Pres` axis answers to: its class names and the default names of its classes -/
def upEx : Axis := ⟨["Pres".toList, "ZAxis".toList, "Axis".toList], ["pres".toList, "zaxis".toList, "lev".toList, "axis".toList, [] ], "p".toList,
  [1000, 500, 100], true, 1 / 100000, [], []⟩
def levEx : Axis := ⟨["ZAxis".toList, "Axis".toList], ["zaxis".toList, "lev".toList, "axis".toList, [] ], "lev".toList,
  [1, 2], true, 1 / 100000, [("units".toList, "m".toList)], [("weights".toList, [3, 4])]⟩

def twoEx : Data ℕ :=
  ⟨[⟨"T".toList, ⟨[upEx], .values ⟨[3], fun _ => 1⟩⟩⟩, ⟨"U".toList, ⟨[levEx], .values ⟨[2], fun _ => 2⟩⟩⟩], []⟩

/-- Finding: with a pressure axis before it, the axis named `lev` is not found by `getaxis("lev")` of the dataset, which gives the pressure axis; `dataset["lev"]`
gives the axis with this name. The same two names are looked up in two ways. -/
theorem getaxis_name_violated : getaxis (DatasetOps.axes twoEx.vars) (.name "lev".toList) = some upEx ∧
    (getitem twoEx "lev".toList).bind Sum.getRight? = some levEx ∧ upEx ≠ levEx := by decide +kernel

/-- Finding: `hasaxis` raises an error for a position outside the axes. -/
theorem hasaxis_violated : hasaxis [upEx, levEx] (.int 2) = none ∧ hasaxis [upEx, levEx] (.int (-1)) = none ∧ hasaxis [upEx, levEx] (.int 1) = some true := by
  decide +kernel

/-- Finding: an auxiliary array named like the axis hides it. -/
theorem axisAttr_violated : axisAttr { upEx with auxarrays := [("p".toList, [1])] } "p".toList = some (.array [1]) := by decide +kernel

/-! ### examples -/

example := getaxis_correct [upEx, lonEx] (.name "Longitude".toList) (by simp)
example : getaxis [upEx, lonEx] (.name "Longitude".toList) = some lonEx := by decide +kernel
example := (varAttr_correct [upEx, lonEx] "lon".toList (by decide +kernel)).2 lonEx (by simp) rfl
  (by
    intro b hb hne
    simp only [List.mem_cons, List.not_mem_nil, or_false] at hb
    rcases hb with rfl | rfl
    · unfold Answers; decide +kernel
    · exact absurd rfl hne)
example := axisAttr_correct levEx "weights".toList (by decide +kernel) (by decide +kernel) (by decide +kernel)
example : axisAttr levEx "weights".toList = some (.array [3, 4]) ∧ axisAttr levEx "units".toList = some (.att "m".toList) ∧
    axisAttr levEx "lev".toList = some (.axis levEx) ∧ axisAttr levEx "lat".toList = none := by decide +kernel
example := dataAttr_correct (dataEx 0 2) (dataEx_isDataset 0 2) "time".toList
example : (dataAttr (dataEx 0 2) "lon".toList).bind Sum.getRight? = some lonEx := by decide +kernel
theorem dataEx_vars {P : Var ℕ → Prop} (h : P (Concat.pieceEx 0 2).var) : ∀ x ∈ (dataEx 0 2).vars, P x.var := by
  intro x hx
  simp only [dataEx, List.mem_cons, List.not_mem_nil, or_false] at hx
  rcases hx with rfl | rfl <;> exact h

example := load_correct (fun _ => 0) (fun _ => 0) (dataEx 0 2) (dataEx_isDataset 0 2) (fun _ => (Concat.pieceEx 0 2).data)
  (dataEx_vars (P := fun v => Contains v (Concat.pieceEx 0 2).data) (Concat.pieceEx_joinable.cont _ (List.mem_cons_self ..)))
  (dataEx_vars (P := fun v => Regular v.axes) Concat.pieceEx_joinable.regular)
  (dataEx_vars (P := fun v => ∀ a ∈ v.axes, 0 < a.len) (by decide +kernel))

end Lookup
end PyGeode
