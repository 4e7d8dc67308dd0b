/-
C91: a dataset saved to a netCDF file with its CF metadata and opened again has the same variables, and on them the same axes:
of the same kind, with the same name, values and auxiliary arrays, times with the same calendar, unit, start and dates.
-/
import Verif.Model.CfFile
import Verif.Props.Cf
import Verif.Props.NetCdf
import Verif.Props.Ensemble
import Verif.Props.Station

namespace PyGeode
namespace Spec
open CfFile Cf Calendar

/-- A time axis a file can hold: dates of the calendar and a start date, all with years (and not all of them in year 0), or all
without. -/
def TimeKept (t : TimeAx) : Prop :=
  ∃ (s : Date) (dates : List Date), NonNeg s ∧ 1 ≤ s.month ∧ s.month ≤ 12 ∧ (∀ d ∈ dates, ValidDate t.cal d) ∧
    ((t.start = full s ∧ t.dates = dates.map full ∧ ¬(s.year = 0 ∧ ∀ d ∈ dates, d.year = 0)) ∨
     (t.start = dropYear (full s) ∧ t.dates = dates.map (fun d => dropYear (full d)) ∧ s.year = 0 ∧ ∀ d ∈ dates, d.year = 0))

/-- The units of an axis do not look like those of a time. -/
def NotTime (atts : Atts) : Prop := ¬ " since ".toList <:+: atts.units.getD []

/-- An axis a file can hold, with the auxiliary arrays its kind needs; nothing in its name or attributes suggests another
kind. -/
def AxisKept : CAx → Prop
  | .time n t _ => TimeKept t ∧ t.dates ≠ [] ∧ (t.start.year = none → n = "time".toList)
  | .coord k n _ vals aux atts => vals ≠ [] ∧ (aux ≠ [] → ' ' ∉ n) ∧ (∀ p ∈ aux, p.2.length = vals.length ∧ ' ' ∉ p.1) ∧
    match k with
    | .lat => "weights".toList ∈ aux.map Prod.fst
    | .lon => True
    | .pres => True
    | .hybrid => "A".toList ∈ aux.map Prod.fst ∧ "B".toList ∈ aux.map Prod.fst ∧ NotTime atts
    | .named => aux = [] ∧ PlainAtts n atts ∧ NotTime atts ∧
        atts.axis ∉ [some "X".toList, some "Y".toList, some "Z".toList, some "T".toList]
    | _ => PlainAtts n atts ∧ NotTime atts

/-- the variables auxiliary arrays are stored in -/
def auxNames (a : CAx) : List Name := a.aux.map fun p => a.name ++ ['_'] ++ p.1

/-- A dataset that can be saved with its metadata: valid and different names for different things, no empty axis. -/
structure CfSaveable (nr : List ℚ → ℚ) (d : CData) : Prop where
  names : (d.items.map NetCdf.Item.name).Nodup
  valid : ∀ x ∈ d.items, CfName x.name
  known : ∀ x ∈ d.items, ∀ a ∈ x.var.axes, ∃ c ∈ d.axes, c.axis nr = a
  regular : ∀ x ∈ d.items, Regular x.var.axes
  axes : d.axes.Nodup
  same : ∀ a ∈ d.axes, ∀ b ∈ d.axes, lower a.name = lower b.name → a = b
  free : ∀ a ∈ d.axes, lower a.name ∉ reservedNames
  kept : ∀ a ∈ d.axes, AxisKept a
  /-- no variable, and no variable an auxiliary array is stored in, has the name of an axis -/
  apart : ∀ a ∈ d.axes, (∀ x ∈ d.items, x.name ≠ a.name) ∧ ∀ b ∈ d.axes, a.name ∉ auxNames b
  /-- the auxiliary arrays are stored under names not used for anything else -/
  stored : (d.axes.flatMap auxNames).Nodup ∧ ∀ x ∈ d.items, x.name ∉ d.axes.flatMap auxNames
  /-- no variable has the name of an auxiliary array -/
  apartAux : ∀ a ∈ d.axes, ∀ p ∈ a.aux, (∀ x ∈ d.items, x.name ≠ p.1) ∧ p.1 ∉ d.axes.flatMap auxNames

end Spec

namespace CfFile
open NArr Combine Spec Dataset VarOps Reduce Axis NetCdf Cf Calendar

variable {nr : List ℚ → ℚ} {junk : List ℕ → Cell}

/-! ### one axis -/

/-- the axis in the file -/
def plainOf (nr : List ℚ → ℚ) (a : Axis) : Axis := NetCdf.named nr a.name a.isFloat a.values

theorem plainOf_name (a : Axis) : (plainOf nr a).name = a.name := rfl
theorem plainOf_len (a : Axis) : (plainOf nr a).len = a.len := rfl

theorem axis_name (c : CAx) : (c.axis nr).name = c.name := by
  cases c with
  | coord k n b vals aux atts => simp only [CAx.axis, mkAxis, CAx.name]; split_ifs <;> rfl
  | time n t atts => rfl

theorem mkAxis_plain (k : Kind) (n : Name) (b : Bool) (vals : List ℚ) (aux : List (Name × List ℚ)) :
    plainOf nr (mkAxis nr k n b vals aux) = NetCdf.named nr n b vals := by
  unfold mkAxis plainOf
  split_ifs <;> rfl

theorem mkAxis_len (k : Kind) (n : Name) (b : Bool) (vals : List ℚ) (aux : List (Name × List ℚ)) :
    (mkAxis nr k n b vals aux).len = vals.length := by
  unfold mkAxis
  split_ifs <;> rfl

theorem mapM_length {β γ : Type} {f : β → Option γ} : ∀ {l : List β} {r : List γ}, l.mapM f = some r → r.length = l.length
  | [], r, h => by
    simp only [List.mapM_nil, Option.pure_def, Option.some.injEq] at h
    subst h
    rfl
  | x :: l, r, h => by
    rw [List.mapM_cons] at h
    cases hx : f x with
    | none => simp [hx] at h
    | some y =>
      cases hl : l.mapM f with
      | none => simp [hx, hl] at h
      | some ys =>
        simp only [hx, hl, Option.bind_eq_bind, Option.bind_some, Option.pure_def, Option.some.injEq] at h
        subst h
        simp [mapM_length hl]

/-- the attributes in the file -/
def fattsOf (nr : List ℚ → ℚ) (c : CAx) : FAtts := ((encodeAxis nr c).map Prod.snd).getD {}

/-- A time axis that can be held is written and read. -/
theorem time_kept (t : TimeAx) (h : TimeKept t) : ∃ f, encodeTime t = some f ∧ f.calendar = encodeCalendar t.cal ∧
    f.units = encodeUnits (unitName t.units) t.start ∧ (t.dates.mapM fun d => dateAsValPy t.cal t.start d t.units) = some f.values ∧
    f.values.length = t.dates.length ∧ decodeTime f = some t := by
  have h1 : (encodeTime t).bind decodeTime = some t := by
    obtain ⟨c, u, start, dts⟩ := t
    obtain ⟨s, dates, hn, hm1, hm2, hd, ⟨rfl, rfl, hy⟩ | ⟨rfl, rfl, hy, hyd⟩⟩ := h
    · have h1 := time_roundtrip c u s dates hn ⟨hm1, hm2⟩ hd
      rwa [if_neg hy] at h1
    · exact climatology_roundtrip c u s dates hn hy ⟨hm1, hm2⟩ fun d hd' => ⟨hd d hd', hyd d hd'⟩
  unfold encodeTime at h1 ⊢
  cases hm : t.dates.mapM fun d => dateAsValPy t.cal t.start d t.units with
  | none => rw [hm] at h1; cases h1
  | some vals =>
    rw [hm, Option.map_some, Option.bind_some] at h1
    exact ⟨⟨encodeUnits (unitName t.units) t.start, encodeCalendar t.cal, vals⟩, rfl, rfl, rfl, rfl, mapM_length hm, h1⟩

theorem encodeAxis_eq (c : CAx) (h : AxisKept c) : encodeAxis nr c = some (plainOf nr (c.axis nr), fattsOf nr c) := by
  cases c with
  | coord k n b vals aux atts =>
    simp only [encodeAxis, fattsOf, CAx.axis, mkAxis_plain, Option.map_some, Option.getD_some]
  | time n t atts =>
    obtain ⟨f, h1, -, -, h2, -⟩ := time_kept t h.1
    simp only [encodeAxis, fattsOf, h1, CAx.axis, Option.map_some, Option.getD_some, plainOf, timeAxis, h2]

/-- The class that is chosen for an axis is the one it had. -/
theorem class_back (k : Kind) (n : Name) (b : Bool) (vals : List ℚ) (aux : List (Name × List ℚ)) (atts : Atts)
    (h : AxisKept (.coord k n b vals aux atts)) :
    decodeClass "NamedAxis".toList n (encodeAtts k.classes atts)
      (decide ("A".toList ∈ aux.map Prod.fst) && decide ("B".toList ∈ aux.map Prod.fst)) = k.classes.headD [] := by
  obtain ⟨-, -, -, h⟩ := h
  cases k with
  | lat => exact (class_roundtrip _ n atts _).1
  | lon => exact (class_roundtrip _ n atts _).2.1
  | pres => exact (class_roundtrip _ n atts _).2.2.1
  | hybrid =>
    rw [decide_eq_true h.1, decide_eq_true h.2.1]
    exact (class_roundtrip _ n atts true).2.2.2
  | xaxis => exact (plain_roundtrip _ n atts _ h.1).1
  | yaxis => exact (plain_roundtrip _ n atts _ h.1).2.1
  | zaxis => exact (plain_roundtrip _ n atts _ h.1).2.2.1
  | taxis => exact (plain_roundtrip _ n atts _ h.1).2.2.2
  | named =>
    obtain ⟨-, ⟨h1, h2⟩, -, h3⟩ := h
    simp only [List.mem_cons, List.not_mem_nil, or_false, not_or] at h1 h2 h3
    obtain ⟨a1, a2, a3, a4, a5⟩ := h1
    obtain ⟨b1, b2, b3, b4⟩ := h2
    obtain ⟨c1, c2, c3, c4⟩ := h3
    have e : encodeAtts Kind.named.classes atts = atts := by simp [encodeAtts, isa, Kind.classes]
    rw [e]
    unfold decodeClass
    simp only [a1, a2, a3, a4, a5, b1, b2, b3, b4, c1, c2, c3, c4, List.mem_cons, List.not_mem_nil, or_false, false_and, if_false]
    rfl

theorem not_time (k : Kind) (n : Name) (b : Bool) (vals : List ℚ) (aux : List (Name × List ℚ)) (atts : Atts)
    (h : AxisKept (.coord k n b vals aux atts)) (cls st : Name) : isTime cls st ((encodeAtts k.classes atts).units.getD []) = false := by
  have key : ∀ u : Name, ¬ " since ".toList <:+: u → isTime cls st u = false := fun u hu => by
    cases h : isTime cls st u with
    | false => rfl
    | true =>
      simp only [isTime, Bool.and_eq_true, decide_eq_true_eq] at h
      exact absurd h.2 hu
  apply key
  obtain ⟨-, -, -, h⟩ := h
  cases k with
  | lat =>
    rw [show (encodeAtts Kind.lat.classes atts).units = some "degrees_north".toList from by simp [encodeAtts, isa, Kind.classes]]
    decide +kernel
  | lon =>
    rw [show (encodeAtts Kind.lon.classes atts).units = some "degrees_east".toList from by simp [encodeAtts, isa, Kind.classes]]
    decide +kernel
  | pres =>
    rw [show (encodeAtts Kind.pres.classes atts).units = some "hPa".toList from by simp [encodeAtts, isa, Kind.classes]]
    decide +kernel
  | hybrid => exact h.2.2
  | xaxis => exact h.2
  | yaxis => exact h.2
  | zaxis => exact h.2
  | taxis => exact h.2
  | named => exact h.2.2.1

theorem aux_words (n : Name) (aux : List Name) (hne : aux ≠ []) (hn : ' ' ∉ n) (ha : ∀ a ∈ aux, ' ' ∉ a) :
    (encodeAux n aux).2.splitOn ' ' = aux.map fun a => n ++ ['_'] ++ a := by
  unfold encodeAux
  refine List.splitOn_intercalate _ (fun l hl => ?_) (by simpa using hne)
  obtain ⟨a, ha', rfl⟩ := List.mem_map.1 hl
  simp [hn, ha a ha']

theorem own_plain (a : Axis) : ownClass (plainOf nr a) = "NamedAxis".toList := by
  unfold ownClass plainOf
  rw [not_dummy_named]
  rfl

theorem kindOf_head (k : Kind) : kindOf (k.classes.headD []) = some k := by cases k <;> decide +kernel

theorem encodeAtts_time (c : Cal) (a : Atts) :
    encodeAtts [calClass c, "CalendarTime".toList, "Time".toList, "TAxis".toList, "Axis".toList] a = { a with axis := some "T".toList } := by
  have h : isa [calClass c, "CalendarTime".toList, "Time".toList, "TAxis".toList, "Axis".toList] "Lat" = false ∧
      isa [calClass c, "CalendarTime".toList, "Time".toList, "TAxis".toList, "Axis".toList] "Lon" = false ∧
      isa [calClass c, "CalendarTime".toList, "Time".toList, "TAxis".toList, "Axis".toList] "Pres" = false ∧
      isa [calClass c, "CalendarTime".toList, "Time".toList, "TAxis".toList, "Axis".toList] "Hybrid" = false ∧
      isa [calClass c, "CalendarTime".toList, "Time".toList, "TAxis".toList, "Axis".toList] "XAxis" = false ∧
      isa [calClass c, "CalendarTime".toList, "Time".toList, "TAxis".toList, "Axis".toList] "YAxis" = false ∧
      isa [calClass c, "CalendarTime".toList, "Time".toList, "TAxis".toList, "Axis".toList] "ZAxis" = false ∧
      isa [calClass c, "CalendarTime".toList, "Time".toList, "TAxis".toList, "Axis".toList] "TAxis" = true := by
    cases c <;> decide +kernel
  obtain ⟨h1, h2, h3, h4, h5, h6, h7, h8⟩ := h
  unfold encodeAtts
  simp only [h1, h2, h3, h4, h5, h6, h7, h8, Bool.false_eq_true, if_true, if_false]

theorem fatts_time (n : Name) (t : TimeAx) (atts : Atts) (f : TimeFile) (h : encodeTime t = some f) :
    fattsOf nr (.time n t atts) =
      { toAtts := { atts with standardName := some "time".toList, units := some f.units, axis := some "T".toList }
        calendar := some f.calendar } := by
  simp only [fattsOf, encodeAxis, h, encodeAtts_time, Option.map_some, Option.getD_some]

theorem time_units (u : Name) (start : DateDict) : " since ".toList <:+: encodeUnits u start := by
  unfold encodeUnits
  simp only [List.append_assoc]
  exact ⟨u, _, by simp only [List.append_assoc]; rfl⟩

theorem isTime_time (cls u : Name) (h : " since ".toList <:+: u) : isTime cls (lower "time".toList) u = true := by
  simp only [isTime, Bool.and_eq_true, decide_eq_true_eq]
  refine ⟨?_, h⟩
  rw [Bool.or_eq_true, Bool.or_eq_true]
  exact Or.inl (Or.inl (by decide +kernel))

/-- One axis is read back as it was, and the variables its auxiliary arrays were stored in are taken away. -/
theorem decode_step (weights : List ℚ → List ℚ) (fatts : List (Name × FAtts)) (c : CAx) (hk : AxisKept c)
    (hl : fatts.lookup c.name = some (fattsOf nr c)) (st : List (Name × Axis) × List Item)
    (hv : ∀ p ∈ c.aux, c.name ++ ['_'] ++ p.1 ∈ st.2.map Item.name ∧ oneDim nr junk st.2 (c.name ++ ['_'] ++ p.1) = some p.2) :
    decodeStep nr junk weights fatts st (plainOf nr (c.axis nr)) = some (st.1 ++ [(c.name, c.axis nr)],
      (st.2.filter fun x => decide (x.name ∉ auxNames c)).filter fun x => decide (x.name ∉ c.aux.map Prod.fst)) := by
  have hname : (plainOf nr (c.axis nr)).name = c.name := by rw [plainOf_name, axis_name]
  unfold decodeStep
  rw [hname, hl]
  simp only [Option.getD_some, own_plain]
  cases c with
  | time n t atts =>
    obtain ⟨f, h1, h2, h3, h4, -, h5⟩ := time_kept t hk.1
    rw [fatts_time n t atts f h1]
    have hsince : " since ".toList <:+: f.units := by rw [h3]; exact time_units _ _
    simp only [findAux, Option.bind_some, Option.getD_some]
    rw [isTime_time _ _ hsince, if_pos rfl]
    simp only [dropAux]
    have hcal : decodeCalendar f.calendar = some t.cal := by rw [h2, calendar_roundtrip]
    have hval : (plainOf nr ((CAx.time n t atts).axis nr)).values = f.values := by
      simp only [CAx.axis, plainOf, timeAxis, h4, Option.getD_some]; rfl
    unfold readTime
    rw [hcal, if_neg (by simp), hval, h5, hname]
    have hn : (if t.start.year = none then "time".toList else n) = n := by
      by_cases hy : t.start.year = none
      · rw [if_pos hy, hk.2.2 hy]
      · rw [if_neg hy]
    simp only [CAx.name, Option.map_some, hn]
    simp [CAx.axis, auxNames, CAx.aux]
  | coord k n b vals aux atts =>
    have hk' := hk
    obtain ⟨-, hn, haux, hkind⟩ := hk
    simp only [CAx.aux, CAx.name] at hv ⊢
    have hf : fattsOf nr (.coord k n b vals aux atts) = { toAtts := encodeAtts k.classes atts, ancillary := if aux = [] then none else some (encodeAux n (aux.map Prod.fst)).2 } := rfl
    rw [hf]
    have hfind : findAux nr junk st.2 n (if aux = [] then none else some (encodeAux n (aux.map Prod.fst)).2) = some aux := by
      by_cases he : aux = []
      · rw [if_pos he, he]; rfl
      · rw [if_neg he]
        simp only [findAux]
        rw [aux_roundtrip n (aux.map Prod.fst) _ (by simpa using he) (hn he) (by
            intro a ha; obtain ⟨p, hp, rfl⟩ := List.mem_map.1 ha; exact (haux p hp).2) (by
            intro m hm
            unfold encodeAux at hm
            obtain ⟨a, ha, rfl⟩ := List.mem_map.1 hm
            obtain ⟨p, hp, rfl⟩ := List.mem_map.1 ha
            exact (hv p hp).1), Option.bind_some, List.map_map, Ensemble.mapM_map]
        have : aux.mapM (fun p : Name × List ℚ => (oneDim nr junk st.2 (n ++ ['_'] ++ p.1)).map fun v => (p.1, v)) = some (aux.map id) := by
          apply Ensemble.mapM_of
          intro p hp
          rw [(hv p hp).2]
          rfl
        rw [List.map_id] at this
        exact this
    have hdrop : dropAux st.2 (if aux = [] then none else some (encodeAux n (aux.map Prod.fst)).2) =
        st.2.filter fun x => decide (x.name ∉ auxNames (.coord k n b vals aux atts)) := by
      by_cases he : aux = []
      · rw [if_pos he, he]
        simp [dropAux, auxNames, CAx.aux]
      · rw [if_neg he]
        simp only [dropAux]
        rw [aux_words n (aux.map Prod.fst) (by simpa using he) (hn he) (by
            intro a ha; obtain ⟨p, hp, rfl⟩ := List.mem_map.1 ha; exact (haux p hp).2), List.map_map]
        rfl
    simp only [hfind, hdrop, Option.bind_some]
    rw [class_back k n b vals aux atts hk', not_time k n b vals aux atts hk', if_neg (by simp)]
    by_cases hnamed : k = .named
    · subst hnamed
      obtain ⟨rfl, -⟩ := hkind
      rw [if_pos (by decide)]
      rfl
    · rw [if_neg (by revert hnamed; cases k <;> decide), kindOf_head, Option.map_some]
      have hw : withWeights weights k (plainOf nr (mkAxis nr k n b vals aux)).values aux = aux := by
        unfold withWeights
        refine if_neg fun h => ?_
        obtain ⟨rfl, h2⟩ := h
        exact h2 hkind
      simp only [CAx.axis]
      rw [hw, mkAxis_plain]
      rfl

/-! ### all variables -/

theorem forall₂_split {β γ : Type} {R : β → γ → Prop} : ∀ {l₁ l₂ : List β} {r : List γ}, List.Forall₂ R (l₁ ++ l₂) r →
    ∃ r₁ r₂, r = r₁ ++ r₂ ∧ List.Forall₂ R l₁ r₁ ∧ List.Forall₂ R l₂ r₂
  | [], _, r, h => ⟨[], r, rfl, .nil, h⟩
  | _ :: _, _, _, .cons h1 h2 => by
    obtain ⟨r₁, r₂, rfl, h3, h4⟩ := forall₂_split h2
    exact ⟨_ :: r₁, r₂, rfl, .cons h1 h3, h4⟩

theorem forall₂_comp {β γ δ : Type} {R : β → γ → Prop} {S : γ → δ → Prop} {T : β → δ → Prop} (hT : ∀ x y z, R x y → S y z → T x z) :
    ∀ {l : List β} {m : List γ} {r : List δ}, List.Forall₂ R l m → List.Forall₂ S m r → List.Forall₂ T l r
  | _, _, _, .nil, .nil => .nil
  | _, _, _, .cons h1 h2, .cons h3 h4 => .cons (hT _ _ _ h1 h3) (forall₂_comp hT h2 h4)

theorem forall₂_mem {β γ : Type} {R S : β → γ → Prop} {l : List β} {r : List γ} (h : List.Forall₂ R l r)
    (hs : ∀ x y, x ∈ l → R x y → S x y) : List.Forall₂ S l r := by
  induction h with
  | nil => exact List.Forall₂.nil
  | cons hx _ ih => exact List.Forall₂.cons (hs _ _ (by simp) hx) (ih fun x y hx => hs x y (List.mem_cons_of_mem _ hx))

theorem swap_name (new : List Axis) (a : Axis) : (swap new a).name = a.name := by
  unfold swap
  cases h : new.find? fun b => decide (b.name = a.name) with
  | none => rfl
  | some b => simpa using List.find?_some h

theorem swap_eq (new : List Axis) (a b : Axis) (hb : b ∈ new) (hn : b.name = a.name) (hu : ∀ c ∈ new, c.name = a.name → c = b) :
    swap new a = b := by
  unfold swap
  cases h : new.find? fun b => decide (b.name = a.name) with
  | none => exact absurd hn (by simpa using List.find?_eq_none.1 h b hb)
  | some c => exact hu c (List.mem_of_find?_eq_some h) (by simpa using List.find?_some h)

theorem swapBy_eq (nr : List ℚ → ℚ) (a : Axis) : ∀ l : List CAx, swapBy (l.map fun c => (c.name, c.axis nr)) a = swap (l.map (CAx.axis nr)) a
  | [] => rfl
  | c :: l => by
    have ih := swapBy_eq nr a l
    unfold swapBy swap at ih ⊢
    rw [List.map_cons, List.map_cons, List.lookup_cons, List.find?_cons, axis_name]
    by_cases h : a.name = c.name
    · rw [h]; simp
    · rw [show (a.name == c.name) = false by simpa using h, decide_eq_false (Ne.symm h)]
      exact ih

theorem unpacked_same (v : Option ℚ) : unpacked none 1 0 v = v := by cases v <;> simp [unpacked]

/-- Variables on other axes of the same lengths hold the same data. -/
theorem newAxes_correct (sw : Axis → Axis) (D : Name → List ℕ → Cell) (items : List Item)
    (hl : ∀ x ∈ items, ∀ a ∈ x.var.axes, (sw a).len = a.len) (hr : ∀ x ∈ items, Regular x.var.axes)
    (hc : ∀ x ∈ items, Contains x.var (D x.name)) :
    ∃ out, newAxes nr junk sw items = some out ∧ List.Forall₂ (fun x y => Back nr sw x (D x.name) y) items out := by
  have : ∀ x ∈ items, ∃ y, ((varNewaxes nr junk x.var (x.var.axes.map sw) none none none).map
      fun v => { x with var := v }) = some y ∧ Back nr sw x (D x.name) y := by
    intro x hx
    obtain ⟨y, h1, h2, h3⟩ := unpack_correct nr junk x.var (x.var.axes.map sw) none none none (D x.name) (hc x hx) (hr x hx) (by
      rw [List.map_map]
      exact (List.map_congr_left fun a ha => hl x hx a ha).symm)
    simp only [Option.getD_none, unpacked_same, Option.map_none] at h1 h3
    exact ⟨{ x with var := y }, by rw [h1]; rfl, rfl, rfl, h2, h3⟩
  obtain ⟨out, ho⟩ := forall₂_exists this
  refine ⟨out, ?_, ho.imp fun x y h => h.2⟩
  unfold newAxes
  exact mapM_forall₂ _ (ho.imp fun x y h => h.1)

theorem addAux_all : ∀ (l items : List Item), ((items ++ l).map Item.name).Nodup → l.foldlM addAux items = some (items ++ l)
  | [], items, _ => by simp
  | x :: l, items, h => by
    have hx : x.name ∉ items.map Item.name := by
      rw [List.map_append, List.map_cons, List.nodup_append] at h
      exact fun hm => h.2.2 _ hm _ (by simp) rfl
    have hs : addAux items x = some (items ++ [x]) := if_neg hx
    rw [List.foldlM_cons, hs, Option.bind_eq_bind, Option.bind_some, addAux_all l (items ++ [x]) (by simpa using h)]
    simp

/-- the variables that are written -/
def allItems (nr : List ℚ → ℚ) (d : CData) : List Item := d.items ++ d.axes.flatMap fun a => a.aux.map (auxItem nr a)

section
variable {d : CData} (h : CfSaveable nr d)
include h

theorem name_inj {a b : CAx} (ha : a ∈ d.axes) (hb : b ∈ d.axes) (he : a.name = b.name) : a = b :=
  h.same a ha b hb (by rw [he])

theorem all_names : (allItems nr d).map Item.name = d.items.map Item.name ++ d.axes.flatMap auxNames := by
  unfold allItems
  rw [List.map_append, List.map_flatMap]
  congr 1
  refine List.flatMap_congr fun a _ => ?_
  rw [List.map_map]
  rfl

theorem all_nodup : ((allItems nr d).map Item.name).Nodup := by
  rw [all_names h, List.nodup_append]
  refine ⟨h.names, h.stored.1, fun a ha b hb hab => ?_⟩
  obtain ⟨x, hx, rfl⟩ := List.mem_map.1 ha
  exact h.stored.2 x hx (hab ▸ hb)

theorem all_known : ∀ x ∈ allItems nr d, ∀ a ∈ x.var.axes, ∃ c ∈ d.axes, c.axis nr = a := by
  intro x hx a ha
  rcases List.mem_append.1 hx with hx | hx
  · exact h.known x hx a ha
  · obtain ⟨c, hc, hx⟩ := List.mem_flatMap.1 hx
    obtain ⟨p, hp, rfl⟩ := List.mem_map.1 hx
    simp only [auxItem, List.mem_singleton] at ha
    exact ⟨c, hc, ha.symm⟩

theorem axis_cls (c : CAx) : (c.axis nr).classes ≠ [] := by
  cases c with
  | coord k n b vals aux atts => simp only [CAx.axis, mkAxis]; split_ifs <;> cases k <;> simp [Kind.classes, NetCdf.named, mkNamed]
  | time n t atts => simp [CAx.axis, timeAxis]

theorem all_regular : ∀ x ∈ allItems nr d, Regular x.var.axes := by
  intro x hx
  rcases List.mem_append.1 hx with hx | hx
  · exact h.regular x hx
  · obtain ⟨c, hc, hx⟩ := List.mem_flatMap.1 hx
    obtain ⟨p, hp, rfl⟩ := List.mem_map.1 hx
    refine ⟨fun a ha => ?_, List.pairwise_singleton _ _⟩
    simp only [auxItem, List.mem_singleton] at ha
    subst ha
    exact axis_cls h c

theorem all_apart : ∀ x ∈ allItems nr d, x.name ≠ [] ∧ ∀ c ∈ d.axes, x.name ≠ c.name := by
  intro x hx
  rcases List.mem_append.1 hx with hx | hx
  · exact ⟨(h.valid x hx).1, fun c hc => (h.apart c hc).1 x hx⟩
  · obtain ⟨c, hc, hx⟩ := List.mem_flatMap.1 hx
    obtain ⟨p, hp, rfl⟩ := List.mem_map.1 hx
    refine ⟨by simp [auxItem], fun c' hc' he => (h.apart c' hc').2 c hc ?_⟩
    rw [← he]
    exact List.mem_map.2 ⟨p, hp, rfl⟩

theorem all_same : ∀ x ∈ allItems nr d, ∀ y ∈ allItems nr d, ∀ a ∈ x.var.axes, ∀ b ∈ y.var.axes, lower a.name = lower b.name → a = b := by
  intro x hx y hy a ha b hb hab
  obtain ⟨c, hc, rfl⟩ := all_known h x hx a ha
  obtain ⟨c', hc', rfl⟩ := all_known h y hy b hb
  rw [axis_name, axis_name] at hab
  rw [h.same c hc c' hc' hab]

theorem compat_self {a : Axis} (ha : a.classes ≠ []) : Axis.compatible a a = true := by
  unfold Axis.compatible Axis.isParentOf
  cases hc : a.classes with
  | nil => exact absurd hc ha
  | cons c l => simp

theorem all_once : ∀ x ∈ allItems nr d, (x.var.axes.map Axis.name).Nodup := by
  intro x hx
  have hr := all_regular h x hx
  unfold List.Nodup
  rw [List.pairwise_map]
  refine hr.inc.imp_of_mem fun {a b} ha hb hab hn => ?_
  have := all_same h x hx x hx a ha b hb (by rw [hn])
  subst this
  rw [compat_self h (hr.cls a ha)] at hab
  cases hab

theorem axis_filled (c : CAx) (hc : c ∈ d.axes) : (c.axis nr).len ≠ 0 := by
  have hk := h.kept c hc
  cases c with
  | coord k n b vals aux atts =>
    simp only [CAx.axis]
    rw [mkAxis_len]
    simpa using hk.1
  | time n t atts =>
    obtain ⟨f, -, -, -, h4, h5, -⟩ := time_kept t hk.1
    simp only [CAx.axis, timeAxis, h4, Axis.len, Option.getD_some]
    rw [h5]
    simpa using hk.2.1

/-- `encode_cf` gives each variable, and each auxiliary array as a variable, on plain axes. -/
theorem encode_correct (D : Name → List ℕ → Cell) (hD : ∀ x ∈ allItems nr d, Contains x.var (D x.name)) :
    ∃ items', encode nr junk d = some (items', d.axes.map fun c => (c.name, fattsOf nr c)) ∧
      List.Forall₂ (fun x y => Back nr (plainOf nr) x (D x.name) y) (allItems nr d) items' := by
  have h1 : (d.items.mapM fun x => (fixName x.name).map fun n => { x with name := n }) = some (d.items.map id) := by
    apply Ensemble.mapM_of
    intro x hx
    rw [fixName_id x.name (h.valid x hx)]
    rfl
  rw [List.map_id] at h1
  have h2 : ∀ x ∈ d.items, x.name ∉ d.axes.map CAx.name := by
    intro x hx hm
    obtain ⟨c, hc, he⟩ := List.mem_map.1 hm
    exact (h.apart c hc).1 x hx he.symm
  have h3 := addAux_all _ _ (all_nodup h)
  have h4 : d.axes.mapM (encodeAxis nr) = some (d.axes.map fun c => (plainOf nr (c.axis nr), fattsOf nr c)) := by
    apply Ensemble.mapM_of
    intro c hc
    exact encodeAxis_eq c (h.kept c hc)
  have hsw : ∀ x ∈ allItems nr d, ∀ a ∈ x.var.axes, swap (d.axes.map fun c => plainOf nr (c.axis nr)) a = plainOf nr a := by
    intro x hx a ha
    obtain ⟨c, hc, rfl⟩ := all_known h x hx a ha
    refine swap_eq _ _ _ (List.mem_map.2 ⟨c, hc, rfl⟩) rfl fun b hb hn => ?_
    obtain ⟨c', hc', rfl⟩ := List.mem_map.1 hb
    rw [plainOf_name, axis_name, axis_name] at hn
    rw [name_inj h hc' hc hn]
  obtain ⟨out, h5, h6⟩ := newAxes_correct (nr := nr) (junk := junk) (swap (d.axes.map fun c => plainOf nr (c.axis nr))) D (allItems nr d)
    (fun x hx a ha => by rw [hsw x hx a ha]; rfl) (all_regular h) hD
  have h7 : mkDataset nr junk out = some out := back_dataset (dat := fun x => D x.name) h6 (all_nodup h) (fun x hx => (all_apart h x hx).1)
    (fun x hx y hy a ha b hb hab => all_same h x hx y hy a ha b hb (by rw [hab])) (swap_name _)
  refine ⟨out, ?_, ?_⟩
  · unfold encode
    rw [h1, Option.bind_some, if_pos h2, h3, Option.bind_some, h4, Option.bind_some]
    have h5' : newAxes nr junk (swap (((d.axes.map fun c => (plainOf nr (c.axis nr), fattsOf nr c))).map Prod.fst))
        (d.items ++ d.axes.flatMap fun a => a.aux.map (auxItem nr a)) = some out := by
      rw [List.map_map]
      exact h5
    rw [h5', Option.bind_some, h7, Option.map_some]
    congr 2
    rw [List.map_map]
    refine List.map_congr_left fun c _ => ?_
    simp only [Function.comp, plainOf_name, axis_name]
  · refine forall₂_mem h6 fun x y hx hxy => ?_
    refine ⟨hxy.1, hxy.2.1, ?_, hxy.2.2.2⟩
    rw [hxy.2.2.1]
    exact List.map_congr_left fun a ha => hsw x hx a ha

/-- What is written can be saved. -/
theorem encoded_saveable {D : Name → List ℕ → Cell} {items' : List Item}
    (hb : List.Forall₂ (fun x y => Back nr (plainOf nr) x (D x.name) y) (allItems nr d) items') : Saveable nr items' := by
  have hm := back_mem (dat := fun x => D x.name) hb
  have hax : ∀ y ∈ items', ∀ a ∈ y.var.axes, ∃ c ∈ d.axes, a = plainOf nr (c.axis nr) := by
    intro y hy a ha
    obtain ⟨x, hx, hxy⟩ := hm y hy
    rw [hxy.2.2.1] at ha
    obtain ⟨b, hb, rfl⟩ := List.mem_map.1 ha
    obtain ⟨c, hc, rfl⟩ := all_known h x hx b hb
    exact ⟨c, hc, rfl⟩
  refine ⟨?_, ?_, ?_, ?_, ?_, ?_, ?_, ?_⟩
  · rw [back_names (dat := fun x => D x.name) hb]
    exact all_nodup h
  · intro y hy
    obtain ⟨x, hx, hxy⟩ := hm y hy
    rw [hxy.1]
    exact (all_apart h x hx).1
  · intro y hy a ha
    obtain ⟨c, hc, rfl⟩ := hax y hy a ha
    exact Or.inl ⟨_, _, _, rfl⟩
  · intro y hy z hz a ha b hb hab
    obtain ⟨c, hc, rfl⟩ := hax y hy a ha
    obtain ⟨c', hc', rfl⟩ := hax z hz b hb
    rw [plainOf_name, plainOf_name, axis_name, axis_name] at hab
    rw [h.same c hc c' hc' hab]
  · intro y hy a ha
    obtain ⟨c, hc, rfl⟩ := hax y hy a ha
    rw [plainOf_name, axis_name]
    exact h.free c hc
  · intro y hy z hz a ha
    obtain ⟨c, hc, rfl⟩ := hax z hz a ha
    obtain ⟨x, hx, hxy⟩ := hm y hy
    rw [hxy.1, plainOf_name, axis_name]
    exact (all_apart h x hx).2 c hc
  · intro y hy
    obtain ⟨x, hx, hxy⟩ := hm y hy
    rw [hxy.2.2.1]
    refine List.Nodup.of_map Axis.name ?_
    rw [List.map_map]
    exact all_once h x hx
  · intro y hy a ha
    obtain ⟨c, hc, rfl⟩ := hax y hy a ha
    rw [plainOf_len]
    exact axis_filled h c hc

theorem reopened_plain (a : Axis) : reopened nr (plainOf nr a) = plainOf nr a := by
  unfold reopened plainOf
  rw [not_dummy_named]
  rfl

theorem aux_disjoint {c c' : CAx} (hc : c ∈ d.axes) (hc' : c' ∈ d.axes) (hne : c ≠ c') {n : Name} (hn : n ∈ auxNames c) : n ∉ auxNames c' := by
  have hp := (List.nodup_flatMap.1 h.stored.1).2
  have hp' : ∀ a ∈ d.axes, ∀ b ∈ d.axes, a ≠ b → (auxNames a).Disjoint (auxNames b) :=
    haveI : Std.Symm (fun a b : CAx => a ≠ b → (auxNames a).Disjoint (auxNames b)) := ⟨fun x y hxy hne => (hxy hne.symm).symm⟩
    fun a ha b hb hab => List.Pairwise.forall_of_forall (R := fun a b => a ≠ b → (auxNames a).Disjoint (auxNames b))
      (fun x _ hx => absurd rfl hx) (hp.imp (S := fun a b => a ≠ b → (auxNames a).Disjoint (auxNames b)) fun hxy _ => hxy) ha hb hab
  exact hp' c hc c' hc' hne hn

/-- All axes are decoded, and the variables of the auxiliary arrays of these axes go. -/
theorem decode_fold (weights : List ℚ → List ℚ) {D : Name → List ℕ → Cell} {out : List Item}
    (hD : ∀ c ∈ d.axes, ∀ p ∈ c.aux, D (c.name ++ ['_'] ++ p.1) = fun k => some (p.2.getD (k.getD 0 0) 0))
    (hb : List.Forall₂ (fun x y => Back nr (plainOf nr) x (D x.name) y) (allItems nr d) out) :
    ∀ (cs done : List CAx), (done ++ cs).Nodup → (∀ c ∈ done ++ cs, c ∈ d.axes) →
      (cs.map fun c => plainOf nr (c.axis nr)).foldlM (decodeStep nr junk weights (d.axes.map fun c => (c.name, fattsOf nr c)))
        (done.map (fun c => (c.name, c.axis nr)), out.filter fun y => decide (y.name ∉ done.flatMap auxNames)) =
      some ((done ++ cs).map (fun c => (c.name, c.axis nr)), out.filter fun y => decide (y.name ∉ (done ++ cs).flatMap auxNames))
  | [], done, _, _ => by simp
  | c :: cs, done, hn, hall => by
    have hc : c ∈ d.axes := hall c (by simp)
    have hcd : c ∉ done := by
      rw [List.nodup_append] at hn
      exact fun hm => hn.2.2 c hm c (by simp) rfl
    have hnames : (out.map Item.name).Nodup := by
      rw [back_names (dat := fun x => D x.name) hb]
      exact all_nodup h
    have hlook : (d.axes.map fun c => (c.name, fattsOf nr c)).lookup c.name = some (fattsOf nr c) := by
      rw [Station.lookup_iff]
      · exact List.mem_map.2 ⟨c, hc, rfl⟩
      · rw [List.map_map]
        exact List.Nodup.map_on (fun a ha b hb he => name_inj h ha hb he) h.axes
    have hv : ∀ p ∈ c.aux, c.name ++ ['_'] ++ p.1 ∈ (out.filter fun y => decide (y.name ∉ done.flatMap auxNames)).map Item.name ∧
        oneDim nr junk (out.filter fun y => decide (y.name ∉ done.flatMap auxNames)) (c.name ++ ['_'] ++ p.1) = some p.2 := by
      intro p hp
      have hxm : auxItem nr c p ∈ allItems nr d :=
        List.mem_append_right _ (List.mem_flatMap.2 ⟨c, hc, List.mem_map.2 ⟨p, hp, rfl⟩⟩)
      obtain ⟨y, hy, hxy⟩ := back_mem' (dat := fun x => D x.name) hb _ hxm
      have hyn : y.name = c.name ++ ['_'] ++ p.1 := hxy.1
      have hcn : c.name ++ ['_'] ++ p.1 ∈ auxNames c := List.mem_map.2 ⟨p, hp, rfl⟩
      have hyf : y ∈ out.filter fun y => decide (y.name ∉ done.flatMap auxNames) := by
        rw [List.mem_filter]
        refine ⟨hy, decide_eq_true fun hm => ?_⟩
        obtain ⟨c', hc', hm⟩ := List.mem_flatMap.1 hm
        rw [hyn] at hm
        exact aux_disjoint h hc (hall c' (by simp [hc'])) (fun e => hcd (e ▸ hc')) hcn hm
      refine ⟨List.mem_map.2 ⟨y, hyf, hyn⟩, ?_⟩
      unfold oneDim
      have hfind : (out.filter fun y => decide (y.name ∉ done.flatMap auxNames)).find? (fun x => decide (x.name = c.name ++ ['_'] ++ p.1)) = some y := by
        cases hf : (out.filter fun y => decide (y.name ∉ done.flatMap auxNames)).find? (fun x => decide (x.name = c.name ++ ['_'] ++ p.1)) with
        | none => exact absurd hyn (by simpa using List.find?_eq_none.1 hf y hyf)
        | some z =>
          have hz := List.mem_of_find?_eq_some hf
          have hzn : z.name = c.name ++ ['_'] ++ p.1 := by simpa using List.find?_some hf
          rw [List.inj_on_of_nodup_map hnames (List.mem_filter.1 hz).1 hy (hzn.trans hyn.symm)]
      rw [hfind, Option.bind_some]
      have hlen : p.2.length = (plainOf nr (c.axis nr)).len := by
        have hk := h.kept c hc
        cases c with
        | coord k n b vals aux atts =>
          rw [plainOf_len]
          simp only [CAx.axis, mkAxis_len]
          exact (hk.2.2.1 p hp).1
        | time n t atts => cases hp
      have hcon := hxy.2.2.2
      rw [show (auxItem nr c p).name = c.name ++ ['_'] ++ p.1 from rfl, hD c hc p hp] at hcon
      rw [readAxis_correct y (plainOf nr (c.axis nr)) _ p.2 hxy.2.2.1 ⟨_, by decide, _, _, _, rfl⟩ rfl hlen (by
        rw [plainOf_len]; exact axis_filled h c hc) hcon]
      rfl
    rw [List.map_cons, List.foldlM_cons, decode_step weights _ c (h.kept c hc) hlook _ hv, Option.bind_eq_bind, Option.bind_some]
    have hst : ((out.filter fun y => decide (y.name ∉ done.flatMap auxNames)).filter fun y => decide (y.name ∉ auxNames c)).filter
        (fun y => decide (y.name ∉ c.aux.map Prod.fst)) = out.filter fun y => decide (y.name ∉ (done ++ [c]).flatMap auxNames) := by
      rw [List.filter_filter, List.filter_filter]
      refine List.filter_congr fun y hy => ?_
      obtain ⟨x, hx, hxy⟩ := back_mem (dat := fun x => D x.name) hb y hy
      have hkey : y.name ∉ c.aux.map Prod.fst := by
        intro hm
        obtain ⟨p, hp, he⟩ := List.mem_map.1 hm
        obtain ⟨h1, h2⟩ := h.apartAux c hc p hp
        have hxn : x.name ∈ (allItems nr d).map Item.name := List.mem_map.2 ⟨x, hx, rfl⟩
        rw [all_names h, ← hxy.1, ← he] at hxn
        rcases List.mem_append.1 hxn with hxn | hxn
        · obtain ⟨z, hz, hzn⟩ := List.mem_map.1 hxn
          exact h1 z hz hzn
        · exact h2 hxn
      simp only [List.flatMap_append, List.flatMap_cons, List.flatMap_nil, List.append_nil, List.mem_append, not_or]
      rw [← Bool.decide_and, ← Bool.decide_and]
      exact decide_eq_decide.2 ⟨fun h => ⟨h.2, h.1.2⟩, fun h => ⟨⟨hkey, h.2⟩, h.1⟩⟩
    have ih := decode_fold weights hD hb cs (done ++ [c]) (by simpa using hn) (by simpa using hall)
    simp only [hst]
    rw [show done.map (fun c => (c.name, c.axis nr)) ++ [(c.name, c.axis nr)] = (done ++ [c]).map (fun c => (c.name, c.axis nr)) from by simp, ih]
    simp

/-- C91: a dataset saved to a file with its metadata and opened again has the same variables in the same order, each with the same
name and data, on the same axes: of the same kind, with the same name, values, auxiliary arrays, units and start date. -/
theorem save_open_cf_partial (limit : ℕ) (hl : 1 ≤ limit) (fill : Cell) (weights : List ℚ → List ℚ) (data : Item → List ℕ → Cell)
    (hc : ∀ x ∈ d.items, Contains x.var (data x)) :
    ∃ f out, saveCf nr junk limit fill d = some f ∧ openCf nr junk weights f = some out ∧
      List.Forall₂ (fun x y => y.name = x.name ∧ y.isFloat = x.isFloat ∧ y.var.axes = x.var.axes ∧ Contains y.var (data x))
        d.items out := by
  -- the data by name
  obtain ⟨D, hD1, hD2⟩ : ∃ D : Name → List ℕ → Cell, (∀ x ∈ d.items, D x.name = data x) ∧
      ∀ c ∈ d.axes, ∀ p ∈ c.aux, D (c.name ++ ['_'] ++ p.1) = fun k => some (p.2.getD (k.getD 0 0) 0) := by
    have hpairs : ((d.items.map fun x => (x.name, data x)) ++ d.axes.flatMap fun c =>
        c.aux.map fun p => (c.name ++ ['_'] ++ p.1, fun k : List ℕ => (some (p.2.getD (k.getD 0 0) 0) : Cell))).map Prod.fst |>.Nodup := by
      have e := all_nodup h
      rw [all_names h] at e
      rw [List.map_append, List.map_map, List.map_flatMap]
      have e2 : (d.axes.flatMap fun c => (c.aux.map fun p => (c.name ++ ['_'] ++ p.1, fun k : List ℕ => (some (p.2.getD (k.getD 0 0) 0) : Cell))).map Prod.fst) =
          d.axes.flatMap auxNames := List.flatMap_congr fun a _ => by rw [List.map_map]; rfl
      rw [e2]
      exact e
    refine ⟨fun n => (((d.items.map fun x => (x.name, data x)) ++ d.axes.flatMap fun c =>
        c.aux.map fun p => (c.name ++ ['_'] ++ p.1, fun k : List ℕ => (some (p.2.getD (k.getD 0 0) 0) : Cell))).lookup n).getD (fun _ => none), ?_, ?_⟩
    · intro x hx
      simp only []
      rw [(Station.lookup_iff hpairs (k := x.name) (v := data x)).2 (List.mem_append_left _ (List.mem_map.2 ⟨x, hx, rfl⟩)), Option.getD_some]
    · intro c hc p hp
      simp only []
      rw [(Station.lookup_iff hpairs (k := c.name ++ ['_'] ++ p.1) (v := fun k : List ℕ => (some (p.2.getD (k.getD 0 0) 0) : Cell))).2
        (List.mem_append_right _ (List.mem_flatMap.2 ⟨c, hc, List.mem_map.2 ⟨p, hp, rfl⟩⟩)), Option.getD_some]
  have hD : ∀ x ∈ allItems nr d, Contains x.var (D x.name) := by
    intro x hx
    rcases List.mem_append.1 hx with hx | hx
    · rw [hD1 x hx]
      exact hc x hx
    · obtain ⟨c, hc', hx⟩ := List.mem_flatMap.1 hx
      obtain ⟨p, hp, rfl⟩ := List.mem_map.1 hx
      rw [show (auxItem nr c p).name = c.name ++ ['_'] ++ p.1 from rfl, hD2 c hc' p hp]
      exact ⟨rfl, fun k _ => rfl⟩
  obtain ⟨items', h1, h2⟩ := encode_correct (junk := junk) h D hD
  have hs := encoded_saveable h h2
  obtain ⟨f, out0, h3, h4, h5⟩ := save_open_partial (junk := junk) limit hl fill items' (fun y => D y.name) hs (by
    intro y hy
    obtain ⟨x, hx, hxy⟩ := back_mem (dat := fun x => D x.name) h2 y hy
    rw [hxy.1]
    exact hxy.2.2.2)
  have h6 : List.Forall₂ (fun x z => Back nr (plainOf nr) x (D x.name) z) (allItems nr d) out0 := by
    refine forall₂_comp (fun x y z hxy hyz => ?_) h2 h5
    refine ⟨hyz.1.trans hxy.1, hyz.2.1.trans hxy.2.1, ?_, ?_⟩
    · rw [hyz.2.2.1, hxy.2.2.1, List.map_map]
      exact List.map_congr_left fun a _ => reopened_plain h a
    · rw [← hxy.1]
      exact hyz.2.2.2
  -- the axes that are decoded
  obtain ⟨cs, hcs⟩ : ∃ cs : List CAx, List.Forall₂ (fun a c => c ∈ d.axes ∧ a = plainOf nr (c.axis nr)) (dataAxes out0) cs := by
    refine forall₂_exists fun a ha => ?_
    obtain ⟨y, hy, ha⟩ := (dataAxes_mem out0 a).1 ha
    obtain ⟨x, hx, hxy⟩ := back_mem (dat := fun x => D x.name) h6 y hy
    rw [hxy.2.2.1] at ha
    obtain ⟨b, hb, rfl⟩ := List.mem_map.1 ha
    obtain ⟨c, hc, rfl⟩ := all_known h x hx b hb
    exact ⟨c, hc, rfl⟩
  have hmap : dataAxes out0 = cs.map fun c => plainOf nr (c.axis nr) := by
    clear h6 h5 h4
    generalize dataAxes out0 = l at hcs
    induction hcs with
    | nil => rfl
    | cons hx _ ih => rw [List.map_cons, hx.2, ih]
  have hcsd : ∀ c ∈ cs, c ∈ d.axes := by
    clear h6 h5 h4 hmap
    generalize dataAxes out0 = l at hcs
    induction hcs with
    | nil => simp
    | cons hx _ ih => exact List.forall_mem_cons.2 ⟨hx.1, ih⟩
  have hcsn : cs.Nodup := by
    have := dataAxes_nodup out0
    rw [hmap] at this
    exact this.of_map
  have hfold := decode_fold (junk := junk) h weights hD2 h6 cs [] (by simpa using hcsn) (by simpa using hcsd)
  simp only [List.nil_append, List.map_nil, List.flatMap_nil, List.not_mem_nil, not_false_eq_true, decide_true, List.filter_true] at hfold
  rw [← hmap] at hfold
  -- the variables that are left
  obtain ⟨o1, o2, rfl, ho1, ho2⟩ := forall₂_split h6
  have hleft : (o1 ++ o2).filter (fun y => decide (y.name ∉ cs.flatMap auxNames)) = o1 := by
    rw [List.filter_append, List.filter_eq_self.2, List.filter_eq_nil_iff.2, List.append_nil]
    · intro z hz
      obtain ⟨x, hx, hxz⟩ := back_mem (dat := fun x => D x.name) ho2 z hz
      obtain ⟨c, hc', hx⟩ := List.mem_flatMap.1 hx
      obtain ⟨p, hp, rfl⟩ := List.mem_map.1 hx
      have hdz : plainOf nr (c.axis nr) ∈ dataAxes (o1 ++ o2) := by
        rw [dataAxes_mem]
        refine ⟨z, List.mem_append_right _ hz, ?_⟩
        rw [hxz.2.2.1]
        simp [auxItem]
      rw [hmap] at hdz
      obtain ⟨c', hc'', he⟩ := List.mem_map.1 hdz
      have hcc : c' = c := name_inj h (hcsd c' hc'') hc' (by
        have := congrArg Axis.name he
        rwa [plainOf_name, plainOf_name, axis_name, axis_name] at this)
      subst hcc
      simp only [decide_eq_true_eq, not_not]
      rw [hxz.1]
      exact List.mem_flatMap.2 ⟨c', hc'', List.mem_map.2 ⟨p, hp, rfl⟩⟩
    · intro y hy
      obtain ⟨x, hx, hxy⟩ := back_mem (dat := fun x => D x.name) ho1 y hy
      refine decide_eq_true fun hm => ?_
      rw [hxy.1] at hm
      obtain ⟨c, hc', hm⟩ := List.mem_flatMap.1 hm
      exact h.stored.2 x hx (List.mem_flatMap.2 ⟨c, hcsd c hc', hm⟩)
  rw [hleft] at hfold
  have hcov : ∀ y ∈ o1, ∀ a ∈ y.var.axes, ∃ c ∈ cs, a = plainOf nr (c.axis nr) := by
    intro y hy a ha
    have : a ∈ dataAxes (o1 ++ o2) := (dataAxes_mem _ _).2 ⟨y, List.mem_append_left _ hy, ha⟩
    rw [hmap] at this
    obtain ⟨c, hc', he⟩ := List.mem_map.1 this
    exact ⟨c, hc', he.symm⟩
  have hsw : ∀ c ∈ cs, swap (cs.map (CAx.axis nr)) (plainOf nr (c.axis nr)) = c.axis nr := by
    intro c hc'
    refine swap_eq _ _ _ (List.mem_map.2 ⟨c, hc', rfl⟩) rfl fun b hb hn => ?_
    obtain ⟨c', hc'', rfl⟩ := List.mem_map.1 hb
    rw [plainOf_name, axis_name, axis_name] at hn
    rw [name_inj h (hcsd c' hc'') (hcsd c hc') hn]
  have hinj : ∀ y ∈ o1, ∀ z ∈ o1, ∀ a ∈ y.var.axes, ∀ b ∈ z.var.axes, a.name = b.name → a = b := by
    intro y hy z hz a ha b hb hab
    obtain ⟨c, hc', rfl⟩ := hcov y hy a ha
    obtain ⟨c', hc'', rfl⟩ := hcov z hz b hb
    rw [plainOf_name, plainOf_name, axis_name, axis_name] at hab
    rw [name_inj h (hcsd c hc') (hcsd c' hc'') hab]
  obtain ⟨out, h7, h8⟩ := newAxes_correct (nr := nr) (junk := junk) (swap (cs.map (CAx.axis nr))) D o1 (by
      intro y hy a ha
      obtain ⟨c, hc', rfl⟩ := hcov y hy a ha
      rw [hsw c hc']
      rfl) (by
      intro y hy
      obtain ⟨x, hx, hxy⟩ := back_mem (dat := fun x => D x.name) ho1 y hy
      refine ⟨fun a ha => ?_, ?_⟩
      · obtain ⟨c, hc', rfl⟩ := hcov y hy a ha
        exact isNamed_cls (nr := nr) ⟨_, by decide, _, _, _, rfl⟩
      · rw [hxy.2.2.1, List.pairwise_map]
        have hn : (x.var.axes.map Axis.name).Nodup := all_once h x (List.mem_append_left _ hx)
        unfold List.Nodup at hn
        rw [List.pairwise_map] at hn
        exact hn.imp fun hab => compat_name (nr := nr) ⟨_, by decide, _, _, _, rfl⟩ ⟨_, by decide, _, _, _, rfl⟩ hab) (by
      intro y hy
      obtain ⟨x, hx, hxy⟩ := back_mem (dat := fun x => D x.name) ho1 y hy
      rw [hxy.1]
      exact hxy.2.2.2)
  have h9 : mkDataset nr junk out = some out := back_dataset (dat := fun x => D x.name) h8 (by
      rw [back_names (dat := fun x => D x.name) ho1]; exact h.names) (by
      intro y hy
      obtain ⟨x, hx, hxy⟩ := back_mem (dat := fun x => D x.name) ho1 y hy
      rw [hxy.1]
      exact (h.valid x hx).1) hinj (swap_name _)
  refine ⟨(f, d.axes.map fun c => (c.name, fattsOf nr c)), out, ?_, ?_, ?_⟩
  · unfold saveCf
    rw [h1, Option.bind_some, h3]
    rfl
  · unfold openCf decode
    rw [h4, Option.bind_some, hfold, Option.bind_some]
    simp only []
    rw [show swapBy (cs.map fun c => (c.name, c.axis nr)) = swap (cs.map (CAx.axis nr)) from funext fun a => swapBy_eq nr a cs, h7, Option.bind_some, h9]
  · refine forall₂_comp (R := fun x z => z ∈ o1 ∧ x ∈ d.items ∧ Back nr (plainOf nr) x (D x.name) z) (fun x y z hxy hyz => ?_) ?_ h8
    · obtain ⟨hy, hx, hxy⟩ := hxy
      refine ⟨hyz.1.trans hxy.1, hyz.2.1.trans hxy.2.1, ?_, ?_⟩
      · rw [hyz.2.2.1, hxy.2.2.1, List.map_map]
        conv_rhs => rw [← List.map_id x.var.axes]
        refine List.map_congr_left fun a ha => ?_
        obtain ⟨c, hc', he⟩ := hcov y hy (plainOf nr a) (by rw [hxy.2.2.1]; exact List.mem_map.2 ⟨a, ha, rfl⟩)
        obtain ⟨c', hc'', rfl⟩ := h.known x hx a ha
        have hcc : c' = c := name_inj h hc'' (hcsd c hc') (by
          have := congrArg Axis.name he
          rwa [plainOf_name, plainOf_name, axis_name, axis_name] at this)
        subst hcc
        exact hsw c' hc'
      · rw [← hD1 x hx, ← hxy.1]
        exact hyz.2.2.2
    · refine forall₂_mem (R := fun x z => z ∈ o1 ∧ Back nr (plainOf nr) x (D x.name) z) ?_ fun x z hx hxz => ⟨hxz.1, hx, hxz.2⟩
      exact (forall₂_mem ho1.flip (S := fun z x => z ∈ o1 ∧ Back nr (plainOf nr) x (D x.name) z) fun z x hz hxz => ⟨hz, hxz⟩).flip

end

/-! ### an example -/

/-- six-hourly times -/
def timeC : CAx := .time "time".toList ⟨.standard, .hours, full ⟨1979, 12, 31, 0, 0, 0⟩,
  [full ⟨1979, 12, 31, 18, 0, 0⟩, full ⟨1980, 1, 1, 0, 0, 0⟩, full ⟨1980, 2, 29, 6, 0, 0⟩]⟩ { longName := some "Time".toList }

/-- latitudes with their weights -/
def latC : CAx := .coord .lat "lat".toList true [-30, 30] [("weights".toList, [1 / 2, 1 / 2])] {}

/-- hybrid levels -/
def etaC : CAx := .coord .hybrid "eta".toList true [1, 2] [("A".toList, [10, 20]), ("B".toList, [0, 1])] {}

/-- a vertical axis of another kind, named like a variable attribute of it -/
def depthC : CAx := .coord .zaxis "depth".toList true [5, 10, 15] [] { units := some "m".toList }

/-- a temperature and a wind on levels, a salinity, and a number -/
def cfEx : CData where
  axes := [timeC, latC, etaC, depthC]
  items :=
    [memItem "T".toList [timeC.axis nrEx, latC.axis nrEx] fun k => some (10 * (k.getD 0 0 : ℚ) + (k.getD 1 0 : ℚ)),
     memItem "u".toList [timeC.axis nrEx, etaC.axis nrEx] fun k => if k = [1, 1] then none else some 7,
     memItem "s".toList [depthC.axis nrEx] fun _ => some 35,
     memItem "p0".toList [] fun _ => some 1000]

theorem cfEx_axes : ∀ x ∈ cfEx.items, x.var.axes ∈ [[timeC.axis nrEx, latC.axis nrEx], [timeC.axis nrEx, etaC.axis nrEx], [depthC.axis nrEx], []] := by
  intro x hx
  have hx' : x.var.axes ∈ cfEx.items.map fun x => x.var.axes := List.mem_map.2 ⟨x, hx, rfl⟩
  exact hx'

theorem cfEx_names : ∀ x ∈ cfEx.items, x.name ∈ ["T".toList, "u".toList, "s".toList, "p0".toList] := by
  intro x hx
  have hx' : x.name ∈ cfEx.items.map Item.name := List.mem_map.2 ⟨x, hx, rfl⟩
  exact hx'

theorem cfEx_kept : ∀ a ∈ cfEx.axes, AxisKept a := by
  intro a ha
  have ha' : a ∈ [timeC, latC, etaC, depthC] := ha
  rcases List.mem_cons.1 ha' with rfl | ha'
  · refine ⟨⟨⟨1979, 12, 31, 0, 0, 0⟩, [⟨1979, 12, 31, 18, 0, 0⟩, ⟨1980, 1, 1, 0, 0, 0⟩, ⟨1980, 2, 29, 6, 0, 0⟩], ?_, ?_, ?_, ?_, Or.inl ⟨rfl, rfl, ?_⟩⟩, ?_⟩
    · unfold NonNeg; decide
    · decide
    · decide
    · show ∀ d ∈ _, ValidDate .standard d
      decide
    · decide
    · exact ⟨by decide, fun h => absurd h (by decide)⟩
  rcases List.mem_cons.1 ha' with rfl | ha'
  · refine ⟨by decide +kernel, by decide, by decide +kernel, ?_⟩
    show "weights".toList ∈ _
    decide +kernel
  rcases List.mem_cons.1 ha' with rfl | ha'
  · refine ⟨by decide +kernel, by decide, by decide +kernel, ?_⟩
    show "A".toList ∈ _ ∧ "B".toList ∈ _ ∧ NotTime _
    unfold NotTime
    decide +kernel
  rcases List.mem_cons.1 ha' with rfl | ha'
  · refine ⟨by decide +kernel, by decide, by decide +kernel, ?_⟩
    show PlainAtts _ _ ∧ NotTime _
    unfold NotTime PlainAtts
    decide +kernel
  · cases ha'

theorem cfEx_saveable : CfSaveable nrEx cfEx where
  names := by decide
  valid := fun x hx => by
    have : ∀ n ∈ ["T".toList, "u".toList, "s".toList, "p0".toList], CfName n := by unfold CfName; decide
    exact this _ (cfEx_names x hx)
  known := fun x hx a ha => by
    have : ∀ A ∈ [[timeC.axis nrEx, latC.axis nrEx], [timeC.axis nrEx, etaC.axis nrEx], [depthC.axis nrEx], []], ∀ a ∈ A,
        ∃ c ∈ [timeC, latC, etaC, depthC], c.axis nrEx = a := by decide +kernel
    exact this _ (cfEx_axes x hx) a ha
  regular := fun x hx => by
    have : ∀ A ∈ [[timeC.axis nrEx, latC.axis nrEx], [timeC.axis nrEx, etaC.axis nrEx], [depthC.axis nrEx], []],
        (∀ a ∈ A, a.classes ≠ []) ∧ A.Pairwise fun a b => Axis.compatible a b = false := by decide +kernel
    exact ⟨(this _ (cfEx_axes x hx)).1, (this _ (cfEx_axes x hx)).2⟩
  axes := by decide +kernel
  same := by decide +kernel
  free := by decide +kernel
  kept := cfEx_kept
  apart := fun a ha => by
    have : ∀ a ∈ [timeC, latC, etaC, depthC], (∀ n ∈ ["T".toList, "u".toList, "s".toList, "p0".toList], n ≠ a.name) ∧
        ∀ b ∈ [timeC, latC, etaC, depthC], a.name ∉ auxNames b := by decide +kernel
    exact ⟨fun x hx => (this a ha).1 _ (cfEx_names x hx), (this a ha).2⟩
  stored := ⟨by decide +kernel, fun x hx => by
    have : ∀ n ∈ ["T".toList, "u".toList, "s".toList, "p0".toList], n ∉ [timeC, latC, etaC, depthC].flatMap auxNames := by decide +kernel
    exact this _ (cfEx_names x hx)⟩
  apartAux := fun a ha p hp => by
    have : ∀ a ∈ [timeC, latC, etaC, depthC], ∀ p ∈ a.aux, (∀ n ∈ ["T".toList, "u".toList, "s".toList, "p0".toList], n ≠ p.1) ∧
        p.1 ∉ [timeC, latC, etaC, depthC].flatMap auxNames := by decide +kernel
    exact ⟨fun x hx => (this a ha p hp).1 _ (cfEx_names x hx), (this a ha p hp).2⟩

example (data : Item → List ℕ → Cell) (hc : ∀ x ∈ cfEx.items, Contains x.var (data x)) :=
  save_open_cf_partial (junk := fun _ => none) cfEx_saveable 2 (by decide) none (fun v => v) data hc

/-- what is shown of an axis -/
structure ShownAxis where
  cls : Name
  name : Name
  values : List ℚ
  aux : List (Name × List ℚ)
  deriving DecidableEq

/-- the file opened again: names of the variables; class, name, values and auxiliary arrays of their axes -/
def shownCf (d : CData) : Option (List (Name × List ShownAxis)) :=
  ((saveCf nrEx (fun _ => none) 2 none d).bind (openCf nrEx (fun _ => none) fun v => v)).map fun out =>
    out.map fun y => (y.name, y.var.axes.map fun a => ⟨a.classes.headD [], a.name, a.values, a.auxarrays⟩)

/-- a climatology of two days, on an axis called `t` -/
def climC : CAx := .time "t".toList ⟨.standard, .days, dropYear (full ⟨0, 1, 1, 0, 0, 0⟩),
  [dropYear (full ⟨0, 1, 1, 0, 0, 0⟩), dropYear (full ⟨0, 1, 2, 0, 0, 0⟩)]⟩ {}

/-- The time axis of a climatology comes back with the name `time`, whatever it was called. -/
theorem climatology_name_violated : (shownCf ⟨[climC], [memItem "T".toList [climC.axis nrEx] fun _ => some 1]⟩).map
      (fun l => l.map fun p => p.2.map fun a => (a.name, a.values)) = some [[("time".toList, [0, 1])]] := by decide +kernel

/-- A variable that has the name of an auxiliary array of an axis is lost: here `weights`, which every latitude axis has. -/
theorem weights_violated : shownCf ⟨[latC], [memItem "T".toList [latC.axis nrEx] fun _ => some 1,
      memItem "weights".toList [latC.axis nrEx] fun _ => some 2]⟩ =
    some [("T".toList, [⟨"Lat".toList, "lat".toList, [-30, 30], [("weights".toList, [1 / 2, 1 / 2])]⟩])] := by decide +kernel

/-- The auxiliary arrays of a named axis are lost. -/
theorem named_aux_violated : shownCf ⟨[.coord .named "run".toList true [1, 2] [("seed".toList, [5, 6])] {}],
      [memItem "T".toList [(CAx.coord .named "run".toList true [1, 2] [("seed".toList, [5, 6])] {}).axis nrEx] fun _ => some 1]⟩ =
    some [("T".toList, [⟨"NamedAxis run".toList, "run".toList, [1, 2], []⟩])] := by decide +kernel

/-- A vertical axis with the units hPa of a difference of pressures becomes a pressure axis, and any axis with units like
`hours since midnight` stops the file from being opened. -/
theorem units_violated : shownCf ⟨[.coord .zaxis "dp".toList true [1, 2] [] { units := some "hPa".toList }],
      [memItem "T".toList [(CAx.coord .zaxis "dp".toList true [1, 2] [] { units := some "hPa".toList }).axis nrEx] fun _ => some 1]⟩ =
    some [("T".toList, [⟨"Pres".toList, "dp".toList, [1, 2], []⟩])] ∧
    shownCf ⟨[.coord .named "h".toList true [1, 2] [] { units := some "hours since midnight".toList }],
      [memItem "T".toList [(CAx.coord .named "h".toList true [1, 2] [] { units := some "hours since midnight".toList }).axis nrEx] fun _ => some 1]⟩ =
    none := by decide +kernel

/-- A dimension without values that is called `latitude` becomes a latitude axis, with the values 0, 1, ... -/
theorem dimension_name_violated : (decode nrEx (fun _ => none) (fun v => v)
      [memItem "T".toList [ncDim nrEx "latitude".toList 3] fun _ => some 1] []).map (fun out => out.map fun y =>
        y.var.axes.map fun a => (a.classes.headD [], a.values)) = some [[("Lat".toList, [0, 1, 2])]] := by decide +kernel

end CfFile
end PyGeode
