/-
C138: values and dates of a time axis agree. C139: differences of dates, wrapped dates, comparable values.
-/
import Verif.Spec.TimeInit
import Verif.Props.Calendar
import Mathlib.Tactic.Linarith
import Mathlib.Tactic.Ring

namespace PyGeode
namespace TimeInit
open Spec Calendar

theorem getDates_eq (d : DateDict) : getDates d = instant d := rfl

theorem unit_ticks (u : Units) : unitfactor u = ticks u := by cases u <;> norm_num [unitfactor, ticks]

theorem elapsed_iff {c : Cal} {a b : Date} (ha : ValidDate c a) (hb : ValidDate c b) (n : ℤ) :
    Elapsed c a b n ↔ (count c).abs b - (count c).abs a = n := by
  constructor
  · rintro (⟨h, e⟩ | ⟨h, e⟩)
    · have := (abs_iterate c a ha n.toNat).2
      rw [e] at this; omega
    · have := (abs_iterate c b hb (-n).toNat).2
      rw [e] at this; omega
  · intro h
    rcases le_total 0 n with hn | hn
    · refine Or.inl ⟨hn, ?_⟩
      obtain ⟨h1, h2⟩ := abs_iterate c a ha n.toNat
      exact (count_ok c).abs_inj h1 hb (by omega)
    · refine Or.inr ⟨hn, ?_⟩
      obtain ⟨h1, h2⟩ := abs_iterate c b hb (-n).toNat
      exact (count_ok c).abs_inj h1 ha (by omega)

theorem val_eq {c : Cal} {s d : DateDict} (u : Units) (hs : ValidDate c (instant s)) (hd : ValidDate c (instant d)) :
    dateAsValPy c s d u = some ((((count c).abs (instant d) - (count c).abs (instant s) : ℤ) : ℚ) / ticks u) := by
  rw [dateAsValPy, getDates_eq, getDates_eq, dateAsVal_eq c hs.month hd.month, Option.map_some, unit_ticks]

theorem dict_dates (m : Mask) (d : Date) : m.dict (getDates (m.dict d)) = m.dict d := by
  obtain ⟨a, b, c, d', e, f⟩ := m
  cases a <;> cases b <;> cases c <;> cases d' <;> cases e <;> cases f <;> rfl

theorem mapM_cons_some {α β : Type} {f : α → Option β} {a : α} {l : List α} {r : List β} (h : (a :: l).mapM f = some r) :
    ∃ b bs, f a = some b ∧ l.mapM f = some bs ∧ r = b :: bs := by
  rw [List.mapM_cons] at h
  cases hb : f a with
  | none => rw [hb] at h; exact absurd h (by simp)
  | some b =>
    rw [hb] at h
    cases hbs : l.mapM f with
    | none => rw [hbs] at h; exact absurd h (by simp)
    | some bs => rw [hbs] at h; exact ⟨b, bs, rfl, rfl, by simpa using h.symm⟩

theorem mapM_forall {α β : Type} {f : α → Option β} : ∀ {l : List α} {r : List β}, l.mapM f = some r ↔ List.Forall₂ (fun a b => f a = some b) l r
  | [], r => by
    constructor
    · intro h; cases (Option.some.inj h); exact .nil
    · intro h; cases h; rfl
  | a :: l, r => by
    constructor
    · intro h
      obtain ⟨b, bs, h1, h2, rfl⟩ := mapM_cons_some h
      exact .cons h1 (mapM_forall.mp h2)
    · intro h
      cases h with
      | cons h1 h2 => rw [List.mapM_cons, h1, mapM_forall.mpr h2]; rfl

/-- what every construction gives -/
structure Wf (t : TAx) : Prop where
  some_field : t.mask.list.any id = true
  start : ∃ s : Date, t.start = t.mask.dict s
  dates : ∃ ds : List Date, t.dates = ds.map t.mask.dict
  values : List.Forall₂ (fun d v => dateAsValPy t.cal t.start d t.units = some v) t.dates t.values

theorem finish_wf {c : Cal} {u : Units} {s : DateDict} {m : Mask} {dates : List DateDict} {t : TAx} (h : finish c u s m dates = some t)
    (hm : m.list.any id = true) (hs : ∃ s' : Date, s = m.dict s') (hd : ∃ ds : List Date, dates = ds.map m.dict) : Wf t := by
  rw [finish, Option.map_eq_some_iff] at h
  obtain ⟨v, hv, rfl⟩ := h
  exact ⟨hm, hs, hd, mapM_forall.mp hv⟩

theorem keep_all (s d : Date) : keepFields (allFields.dict s) false d = allFields.dict d := rfl

theorem vals_dates {c : Cal} {s : Date} {u : Units} : ∀ {vals : List ℚ} {dates : List DateDict},
    (vals.mapM fun x => valAsDatePy c (allFields.dict s) x u false) = some dates → ∃ ds : List Date, dates = ds.map allFields.dict
  | [], dates, h => ⟨[], by cases (Option.some.inj h); rfl⟩
  | x :: vals, dates, h => by
    obtain ⟨b, bs, h1, h2, rfl⟩ := mapM_cons_some h
    obtain ⟨ds, rfl⟩ := vals_dates h2
    rw [valAsDatePy, Option.map_eq_some_iff] at h1
    obtain ⟨d, _, rfl⟩ := h1
    exact ⟨d :: ds, by rw [keep_all]; rfl⟩

theorem made_wf {t : TAx} (h : MadeAxis t) : Wf t := by
  obtain ⟨values, units, start, fields, h⟩ := h
  rw [make] at h
  split at h
  · split_ifs at h
    rw [Option.bind_eq_some_iff] at h
    obtain ⟨vals, _, h⟩ := h
    rw [Option.bind_eq_some_iff] at h
    obtain ⟨s, _, h⟩ := h
    dsimp only at h
    rw [Option.bind_eq_some_iff] at h
    obtain ⟨dates, hd, h⟩ := h
    exact finish_wf h rfl ⟨_, rfl⟩ (vals_dates hd)
  · rename_i m ds hf
    have hm : m.list.any id = true := by
      rw [Option.filter_eq_some_iff] at hf
      exact hf.2
    dsimp only at h
    split at h
    · exact finish_wf h hm ⟨_, rfl⟩ ⟨_, rfl⟩
    · rw [Option.bind_eq_some_iff] at h
      obtain ⟨s, hs, h⟩ := h
      refine finish_wf h hm ?_ ⟨_, rfl⟩
      cases ds with
      | nil => exact absurd hs (by simp)
      | cons d ds => exact ⟨d, (Option.some.inj hs).symm⟩

/-- C138: without date fields, values, units and a start date are all needed. -/
theorem needs_all (c : Cal) (values : Option (List ℚ)) (units : Option Units) (start : Option DateDict) (t : TAx)
    (h : make c values units start none = some t) : values ≠ none ∧ units ≠ none ∧ start ≠ none := by
  rw [make, Option.filter_none] at h
  simp only at h
  split_ifs at h with hu
  refine ⟨?_, hu, ?_⟩
  · rintro rfl; exact absurd h (by simp)
  · rintro rfl
    cases values <;> exact absurd h (by simp)

example : ∃ t, make .standard (some [0, 1]) (some .days) (some {}) none = some t := by
  rw [← Option.isSome_iff_exists]; decide +kernel

/-- C138. Every value of a time axis, however it was made, is the time from the start date to its date, in the units of the axis. -/
theorem values_agree (t : TAx) (h : MadeAxis t) (hv : ValidAxis t) :
    List.Forall₂ (fun d v => ∃ n : ℤ, v = n / ticks t.units ∧ Elapsed t.cal (instant t.start) (instant d) n) t.dates t.values := by
  have hw := (made_wf h).values
  have hd := hv.2
  revert hw hd
  generalize t.dates = ds
  generalize t.values = vs
  intro hw hd
  induction hw with
  | nil => exact .nil
  | @cons d v _ _ h1 _ ih =>
    refine .cons ?_ (ih fun d hd' => hd d (by simp [hd']))
    have hd1 := hd d (by simp)
    rw [val_eq t.units hv.1 hd1] at h1
    exact ⟨_, (Option.some.inj h1).symm, (elapsed_iff hv.1 hd1 _).mpr rfl⟩

theorem finish_eq {c : Cal} {u : Units} {s : DateDict} {m : Mask} {dates : List DateDict} (hs : ValidDate c (instant s))
    (hd : ∀ d ∈ dates, ValidDate c (instant d)) : finish c u s m dates =
      some ⟨c, u, s, m, dates, dates.map fun d => (((count c).abs (instant d) - (count c).abs (instant s) : ℤ) : ℚ) / ticks u⟩ := by
  rw [finish]
  have : (dates.mapM fun d => dateAsValPy c s d u) =
      some (dates.map fun d => (((count c).abs (instant d) - (count c).abs (instant s) : ℤ) : ℚ) / ticks u) := by
    rw [mapM_forall, List.forall₂_map_right_iff, List.forall₂_same]
    exact fun d h => val_eq u hs (hd d h)
  rw [this, Option.map_some]

theorem ticks_pos (u : Units) : 0 < ticks u := by cases u <;> norm_num [ticks]

theorem val_date {c : Cal} {s : Date} (hs : ValidDate c s) (u : Units) (x : ℚ) : ∃ e, valAsDatePy c (allFields.dict s) x u false = some (fullDate e) ∧
    ValidDate c e ∧ (count c).abs e - (count c).abs s = npRound (x * ticks u) := by
  obtain ⟨e, h1, h2, h3⟩ := valAsDate_spec c s hs.month (npRound (x * unitfactor u))
  refine ⟨e, ?_, h2, ?_⟩
  · rw [valAsDatePy, show getDates (allFields.dict s) = s from rfl, h1, Option.map_some]
    rfl
  · rw [h3, unit_ticks]; omega

/-- C138. An axis made from values, units and a start date (in which a missing year is the year 1, and other missing fields have their first value): the date
of every value is the moment that many units after the start, to the nearest second; the values change by at most half a second, and not at all if they are
whole seconds. -/
theorem from_values (c : Cal) (vals : List ℚ) (u : Units) (s : DateDict) (hs : ValidDate c (instant { s with year := some (s.year.getD 1) })) :
    ∃ t, make c (some vals) (some u) (some s) none = some t ∧ t.cal = c ∧ t.units = u ∧ t.start = fullDate (instant { s with year := some (s.year.getD 1) }) ∧
      List.Forall₂ (fun x d => ∃ e n, d = fullDate e ∧ ValidDate c e ∧ Elapsed c (instant { s with year := some (s.year.getD 1) }) e n ∧
        |(n : ℚ) - x * ticks u| ≤ 1 / 2) vals t.dates ∧
      List.Forall₂ (fun x v => |v - x| * ticks u ≤ 1 / 2 ∧ ∀ k : ℤ, x * ticks u = k → v = x) vals t.values := by
  have e0 : fill s = instant { s with year := some (s.year.getD 1) } := rfl
  rw [← e0] at hs ⊢
  choose f h1 h2 h3 using fun x : ℚ => val_date hs u x
  have hm : (vals.mapM fun x => valAsDatePy c (allFields.dict (fill s)) x u false) = some (vals.map fun x => fullDate (f x)) := by
    rw [mapM_forall, List.forall₂_map_right_iff, List.forall₂_same]
    exact fun x _ => h1 x
  have hv : ∀ d ∈ vals.map fun x => fullDate (f x), ValidDate c (instant d) := by
    intro d hd
    rw [List.mem_map] at hd
    obtain ⟨x, _, rfl⟩ := hd
    exact h2 x
  refine ⟨⟨c, u, allFields.dict (fill s), allFields, vals.map fun x => fullDate (f x), (vals.map fun x => fullDate (f x)).map fun d =>
    (((count c).abs (instant d) - (count c).abs (instant (allFields.dict (fill s))) : ℤ) : ℚ) / ticks u⟩, ?_, rfl, rfl, rfl, ?_, ?_⟩
  · rw [make]
    simp only [Option.filter_none, reduceCtorEq, if_false, Option.bind_some, Option.getD_some]
    rw [hm, Option.bind_some, finish_eq (show ValidDate c (instant (allFields.dict (fill s))) from hs) hv]
  · rw [List.forall₂_map_right_iff, List.forall₂_same]
    intro x _
    exact ⟨f x, _, rfl, h2 x, (elapsed_iff hs (h2 x) _).mpr (h3 x), npRound_near _⟩
  · simp only [List.map_map]
    rw [List.forall₂_map_right_iff, List.forall₂_same]
    intro x _
    have e1 : (((count c).abs (instant (fullDate (f x))) - (count c).abs (instant (allFields.dict (fill s))) : ℤ) : ℚ) / ticks u =
        (npRound (x * ticks u) : ℚ) / ticks u := by
      rw [← h3 x]; rfl
    simp only [Function.comp]
    rw [e1]
    have hu := ticks_pos u
    constructor
    · have e : |(npRound (x * ticks u) : ℚ) / ticks u - x| * ticks u = |(npRound (x * ticks u) : ℚ) - x * ticks u| := by
        rw [← abs_of_pos hu, ← abs_mul, abs_of_pos hu]
        congr 1; field_simp
      rw [e]
      exact npRound_near _
    · intro k hk
      rw [hk, npRound_int, ← hk]
      field_simp

/-- C138. An axis made from date fields has exactly these fields; values given with them play no role. The start date has the same fields; it is the one given
(a missing year being the year 1, other missing fields having their first value), or the first date. -/
theorem from_fields (c : Cal) (values : Option (List ℚ)) (units : Option Units) (start : Option DateDict) (m : Mask) (ds : List Date)
    (hm : ∃ b ∈ m.list, b = true) (hs : ∀ s, start = some s → ValidDate c (instant (m.dict (instant { s with year := some (s.year.getD 1) }))))
    (h0 : start = none → ds ≠ []) (hd : ∀ d ∈ ds, ValidDate c (instant (m.dict d))) :
    ∃ t, make c values units start (some (m, ds)) = some t ∧ t.cal = c ∧ t.units = units.getD .days ∧ t.mask = m ∧ t.dates = ds.map m.dict ∧
      (∀ s, start = some s → t.start = m.dict (instant { s with year := some (s.year.getD 1) })) ∧ (start = none → t.dates.head? = some t.start) := by
  have hm' : (some (m, ds)).filter (fun p => p.1.list.any id) = some (m, ds) := by
    rw [Option.filter_some, if_pos]
    obtain ⟨b, hb, rfl⟩ := hm
    exact List.any_eq_true.mpr ⟨true, hb, rfl⟩
  have hd' : ∀ d ∈ ds.map m.dict, ValidDate c (instant d) := by
    intro d h
    rw [List.mem_map] at h
    obtain ⟨e, he, rfl⟩ := h
    exact hd e he
  rw [make, hm']
  cases start with
  | some s =>
    refine ⟨_, finish_eq (hs s rfl) hd', rfl, rfl, rfl, rfl, ?_, by simp⟩
    intro s' h
    cases h
    rfl
  | none =>
    cases ds with
    | nil => exact absurd rfl (h0 rfl)
    | cons d ds =>
      refine ⟨⟨c, units.getD .days, m.dict d, m, (d :: ds).map m.dict, ((d :: ds).map m.dict).map fun e =>
        (((count c).abs (instant e) - (count c).abs (instant (m.dict d)) : ℤ) : ℚ) / ticks (units.getD .days)⟩, ?_, rfl, rfl, rfl, rfl, by simp, fun _ => rfl⟩
      rw [← finish_eq (hd d (by simp)) hd']
      rfl

/-- C138. Values are in the order of the dates. -/
theorem values_order (t : TAx) (h : MadeAxis t) (hv : ValidAxis t) (i j : ℕ) (d e : DateDict) (v w : ℚ) (hi : t.dates[i]? = some d) (hj : t.dates[j]? = some e)
    (hiv : t.values[i]? = some v) (hjv : t.values[j]? = some w) :
    (v < w ↔ Earlier (instant d) (instant e)) ∧ (v = w ↔ instant d = instant e) := by
  have key : ∀ (k : ℕ) (d : DateDict) (v : ℚ), t.dates[k]? = some d → t.values[k]? = some v →
      ValidDate t.cal (instant d) ∧ v = (((count t.cal).abs (instant d) - (count t.cal).abs (instant t.start) : ℤ) : ℚ) / ticks t.units := by
    intro k d v hk hv'
    have hd := hv.2 d (List.mem_of_getElem? hk)
    have hw := (made_wf h).values
    rw [List.forall₂_iff_get] at hw
    obtain ⟨h1, rfl⟩ := List.getElem?_eq_some_iff.mp hk
    obtain ⟨h2, rfl⟩ := List.getElem?_eq_some_iff.mp hv'
    have := hw.2 k h1 h2
    rw [List.get_eq_getElem, List.get_eq_getElem, val_eq t.units hv.1 hd] at this
    exact ⟨hd, (Option.some.inj this).symm⟩
  obtain ⟨h1, rfl⟩ := key i d v hi hiv
  obtain ⟨h2, rfl⟩ := key j e w hj hjv
  have hu := ticks_pos t.units
  constructor
  · rw [div_lt_div_iff_of_pos_right hu, Int.cast_lt, ← (count_ok t.cal).abs_lt_iff h1 h2]
    omega
  · rw [div_left_inj' hu.ne', Int.cast_inj]
    constructor
    · intro h; exact (count_ok t.cal).abs_inj h1 h2 (by omega)
    · intro h; rw [h]

theorem fill_dict (m : Mask) (s : Date) : m.dict (fill (m.dict s)) = m.dict s := by
  obtain ⟨a, b, c, d', e, f⟩ := m
  cases a <;> cases b <;> cases c <;> cases d' <;> cases e <;> cases f <;> rfl

theorem filterMap_get {α β : Type} (l : List α) (g : α → β) : ∀ (P : List ℕ), (∀ i ∈ P, i < l.length) →
    ∃ r : List α, List.Forall₂ (fun i a => l[i]? = some a) P r ∧ (P.filterMap fun i => l[i]?.map g) = r.map g
  | [], _ => ⟨[], .nil, rfl⟩
  | i :: P, h => by
    obtain ⟨r, h1, h2⟩ := filterMap_get l g P fun j hj => h j (by simp [hj])
    have hi : l[i]? = some (l[i]'(h i (by simp))) := List.getElem?_eq_getElem _
    refine ⟨_ :: r, .cons hi h1, ?_⟩
    rw [List.filterMap_cons, hi, Option.map_some, h2]
    rfl

/-- dates of equal values are equal -/
theorem date_of_value {t : TAx} (h : MadeAxis t) (hv : ValidAxis t) {i j : ℕ} {d e : DateDict} {v : ℚ} (hi : t.dates[i]? = some d) (hj : t.dates[j]? = some e)
    (hiv : t.values[i]? = some v) (hjv : t.values[j]? = some v) : d = e := by
  have h1 := (values_order t h hv i j d e v v hi hj hiv hjv).2.mp rfl
  obtain ⟨ds, hds⟩ := (made_wf h).dates
  have key : ∀ x ∈ t.dates, t.mask.dict (getDates x) = x := by
    intro x hx
    rw [hds, List.mem_map] at hx
    obtain ⟨y, _, rfl⟩ := hx
    exact dict_dates _ _
  rw [← key d (List.mem_of_getElem? hi), ← key e (List.mem_of_getElem? hj), getDates_eq, getDates_eq, h1]

/-- positions at which the values are the same, one by one, are positions at which the dates are the same -/
theorem same_dates {δ : Type} (dates : List δ) (values : List ℚ) (hlen : dates.length = values.length)
    (hd : ∀ (i j : ℕ) (d e : δ) (v : ℚ), dates[i]? = some d → dates[j]? = some e → values[i]? = some v → values[j]? = some v → d = e)
    (P : List ℕ) (hP : ∀ i ∈ P, i < dates.length) (h : List.Forall₂ (fun i v => values[i]? = some v) P values) :
    List.Forall₂ (fun i d => dates[i]? = some d) P dates := by
  rw [List.forall₂_iff_get] at h ⊢
  refine ⟨h.1.trans hlen.symm, fun k hk hk' => ?_⟩
  have hkv : k < values.length := hlen ▸ hk'
  have h1 := h.2 k hk hkv
  rw [List.get_eq_getElem, List.get_eq_getElem] at h1 ⊢
  have hi : P[k] < dates.length := hP _ (List.getElem_mem hk)
  rw [List.getElem?_eq_getElem hi]
  congr 1
  exact hd _ _ _ _ _ (List.getElem?_eq_getElem hi) (List.getElem?_eq_getElem hk') h1 (List.getElem?_eq_getElem hkv)

/-- C138. Slicing a time axis keeps units and start date, and gives the dates and the values at the chosen positions. -/
theorem slice_correct (t : TAx) (h : MadeAxis t) (hva : ValidAxis t) (P : List ℕ) (hP : ∀ i ∈ P, i < t.dates.length) :
    ∃ t', slice t P = some t' ∧ t'.cal = t.cal ∧ t'.units = t.units ∧ t'.start = t.start ∧ t'.mask = t.mask ∧
      List.Forall₂ (fun i d => t.dates[i]? = some d) P t'.dates ∧ List.Forall₂ (fun i v => t.values[i]? = some v) P t'.values := by
  obtain ⟨hm, ⟨s, hs⟩, ⟨ds, hds⟩, hw⟩ := made_wf h
  obtain ⟨r, h1, h2⟩ := filterMap_get t.dates getDates P hP
  have hlen := hw.length_eq
  obtain ⟨vs, h3, g3⟩ := filterMap_get t.values (fun x => x) P fun i hi => hlen ▸ hP i hi
  have h3' : vs.map (fun x => x) = P.filterMap fun i => t.values[i]? := by rw [← g3]; simp
  clear g3
  have hr : (r.map getDates).map t.mask.dict = r := by
    rw [List.map_map]
    conv_rhs => rw [← List.map_id r]
    refine List.map_congr_left fun d hd => ?_
    obtain ⟨k, hk, he⟩ : ∃ i ∈ P, t.dates[i]? = some d := by
      clear h2 hw h3 h3'
      induction h1 with
      | nil => exact absurd hd (by simp)
      | @cons i a P' r' g1 _ ih =>
        rcases List.mem_cons.mp hd with rfl | hd
        · exact ⟨i, by simp, g1⟩
        · obtain ⟨k, hk, he⟩ := ih (fun j hj => hP j (by simp [hj])) hd
          exact ⟨k, by simp [hk], he⟩
    have : d ∈ t.dates := List.mem_of_getElem? he
    rw [hds, List.mem_map] at this
    obtain ⟨d0, _, rfl⟩ := this
    exact dict_dates _ _
  have hv : List.Forall₂ (fun d v => dateAsValPy t.cal t.start d t.units = some v) r vs := by
    rw [List.forall₂_iff_get] at hw
    clear h2 hr h3'
    induction h1 generalizing vs with
    | nil => cases h3; exact .nil
    | @cons i a P' r' g1 _ ih =>
      cases h3 with
      | @cons _ v _ vs' g2 g3 =>
        refine .cons ?_ (ih (fun j hj => hP j (by simp [hj])) vs' g3)
        obtain ⟨k1, rfl⟩ := List.getElem?_eq_some_iff.mp g1
        obtain ⟨k2, rfl⟩ := List.getElem?_eq_some_iff.mp g2
        have := hw.2 i k1 k2
        rwa [List.get_eq_getElem, List.get_eq_getElem] at this
  by_cases hsame : (P.filterMap fun i => t.values[i]?) = t.values
  · have hvs : vs = t.values := by rw [← hsame, ← h3', List.map_id']
    rw [hvs] at h3
    exact ⟨t, by rw [slice, if_pos hsame], rfl, rfl, rfl, rfl,
      same_dates t.dates t.values hlen (fun i j d e v a b c f => date_of_value h hva a b c f) P hP h3, h3⟩
  refine ⟨⟨t.cal, t.units, t.start, t.mask, r, vs⟩, ?_, rfl, rfl, rfl, rfl, h1, h3⟩
  rw [slice, if_neg hsame, make, Option.filter_some, if_pos hm]
  simp only [Option.getD_some]
  rw [h2, hr, hs, fill_dict, ← hs, finish, mapM_forall.mpr hv, Option.map_some]

/-- C139. `reltime` gives for every date the time from the start date asked for, in the units asked for (those of the axis if none are given). -/
theorem reltime_correct (t : TAx) (start : Option DateDict) (units : Option Units) (hs : ValidDate t.cal (instant (start.getD t.start)))
    (hd : ∀ d ∈ t.dates, ValidDate t.cal (instant d)) : ∃ vs, reltime t start units = some vs ∧
      List.Forall₂ (fun d v => ∃ n : ℤ, v = n / ticks (units.getD t.units) ∧ Elapsed t.cal (instant (start.getD t.start)) (instant d) n) t.dates vs := by
  refine ⟨t.dates.map fun d => (((count t.cal).abs (instant d) - (count t.cal).abs (instant (start.getD t.start)) : ℤ) : ℚ) / ticks (units.getD t.units),
    mapM_forall.mpr ?_, ?_⟩
  · rw [List.forall₂_map_right_iff, List.forall₂_same]
    exact fun d h => val_eq _ hs (hd d h)
  · rw [List.forall₂_map_right_iff, List.forall₂_same]
    exact fun d h => ⟨_, rfl, (elapsed_iff hs (hd d h) _).mpr rfl⟩

/-- C139. `wrapdate` of a date to which any number of days, hours, minutes and seconds was added is the date that much later, with all its fields or with those
of the axis. -/
theorem wrapdate_correct (t : TAx) (h : MadeAxis t) (hs : ValidDate t.cal (instant t.start)) (d : Date) (hd : ValidDate t.cal d) (kd kh km ks : ℤ) (all : Bool) :
    ∃ e, ValidDate t.cal e ∧ Elapsed t.cal d e (86400 * kd + 3600 * kh + 60 * km + ks) ∧
      wrapdate t (fullDate { d with day := d.day + kd, hour := d.hour + kh, minute := d.minute + km, second := d.second + ks }) all =
        some (if all then fullDate e else t.mask.dict e) := by
  obtain ⟨s, hst⟩ := (made_wf h).start
  generalize hx : ({ d with day := d.day + kd, hour := d.hour + kh, minute := d.minute + km, second := d.second + ks } : Date) = x
  have hxm : 1 ≤ x.month ∧ x.month ≤ 12 := by rw [← hx]; exact hd.month
  have hxa : (count t.cal).abs x = (count t.cal).abs d + (86400 * kd + 3600 * kh + 60 * km + ks) := by
    rw [← hx]
    simp only [DayCount.abs, tod]
    ring
  obtain ⟨e, h1, h2, h3⟩ := valAsDate_spec t.cal (instant t.start) hs.month ((count t.cal).abs x - (count t.cal).abs (instant t.start))
  refine ⟨e, h2, (elapsed_iff hd h2 _).mpr (by omega), ?_⟩
  rw [wrapdate, dateAsValPy, show getDates (fullDate x) = x from rfl, getDates_eq, dateAsVal_eq t.cal hs.month hxm, Option.map_some, Option.bind_some,
    valAsDatePy]
  have hu := unitfactor_pos t.units
  rw [div_mul_cancel₀ _ hu.ne', npRound_int, getDates_eq, h1, Option.map_some]
  congr 1
  rw [hst]
  cases all
  · obtain ⟨a, b, c, d', e', f⟩ := t.mask
    cases a <;> cases b <;> cases c <;> cases d' <;> cases e' <;> cases f <;> rfl
  · rfl

theorem leading_table : ∀ a1 a2 a3 a4 a5 a6 b1 b2 b3 b4 b5 b6 : Bool,
    (Mask.le ⟨b1, b2, b3, b4, b5, b6⟩ ⟨a1, a2, a3, a4, a5, a6⟩ &&
      trailing false ((Mask.list ⟨a1, a2, a3, a4, a5, a6⟩).zip (Mask.list ⟨b1, b2, b3, b4, b5, b6⟩))) = true ↔
    ∃ k < 7, Mask.list ⟨b1, b2, b3, b4, b5, b6⟩ = (Mask.list ⟨a1, a2, a3, a4, a5, a6⟩).zipIdx.map fun p => p.1 && decide (p.2 < k) := by
  decide +kernel

theorem leading_iff (a b : Mask) : (b.le a && trailing false (a.list.zip b.list)) = true ↔ Leading b a :=
  leading_table a.year a.month a.day a.hour a.minute a.second b.year b.month b.day b.hour b.minute b.second

theorem start_table : ∀ a1 a2 a3 a4 a5 a6 b1 b2 b3 b4 b5 b6 : Bool, (!(Mask.list ⟨b1, b2, b3, b4, b5, b6⟩).any id ||
    !(Mask.le ⟨b1, b2, b3, b4, b5, b6⟩ ⟨a1, a2, a3, a4, a5, a6⟩ &&
      trailing false ((Mask.list ⟨a1, a2, a3, a4, a5, a6⟩).zip (Mask.list ⟨b1, b2, b3, b4, b5, b6⟩))) ||
    ((b1 || !a1) && (!b2 || a2) && (!b3 || a3) && (!b4 || a4) && (!b5 || a5) && (!b6 || a6) && (!b1 || a1))) = true := by
  decide +kernel

/-- the start date of the coarser axis is the same moment on the finer one -/
theorem start_same (a b : Mask) (hb : b.list.any id = true) (h : Leading b a) (s : Date) : instant (a.dict (fill (b.dict s))) = instant (b.dict s) := by
  have key := start_table a.year a.month a.day a.hour a.minute a.second b.year b.month b.day b.hour b.minute b.second
  have hx := (leading_iff a b).mpr h
  rw [show (Mask.mk b.year b.month b.day b.hour b.minute b.second) = b from rfl, show (Mask.mk a.year a.month a.day a.hour a.minute a.second) = a from rfl,
    hb, hx] at key
  simp only [Bool.not_true, Bool.false_or, Bool.and_eq_true] at key
  obtain ⟨⟨⟨⟨⟨⟨h1, h2⟩, h3⟩, h4⟩, h5⟩, h6⟩, h7⟩ := key
  have imp : ∀ x y : Bool, (!x || y) = true → x = true → y = true := by decide
  have imp' : ∀ x y : Bool, (x || !y) = true → x = false → y = false := by decide
  replace h1 := imp' _ _ h1
  replace h2 := imp _ _ h2
  replace h3 := imp _ _ h3
  replace h4 := imp _ _ h4
  replace h5 := imp _ _ h5
  replace h6 := imp _ _ h6
  replace h7 := imp _ _ h7
  clear hx h hb
  obtain ⟨a1, a2, a3, a4, a5, a6⟩ := a
  obtain ⟨b1, b2, b3, b4, b5, b6⟩ := b
  have e1 : (if a1 = true then some (((if b1 = true then some s.year else none).getD 1)) else none).getD 0 = (if b1 = true then some s.year else none).getD 0 := by
    cases b1
    · rw [show a1 = false from h1 rfl]; rfl
    · rw [show a1 = true from h7 rfl]; rfl
  have aux : ∀ (x y : Bool) (v w : ℤ), (y = true → x = true) →
      (if x = true then some (((if y = true then some v else none).getD w)) else none).getD w = (if y = true then some v else none).getD w := by
    intro x y v w h
    cases y
    · cases x <;> rfl
    · rw [h rfl]; rfl
  simp only [instant, Mask.dict, fill, Date.mk.injEq]
  exact ⟨e1, aux _ _ _ _ h2, aux _ _ _ _ h3, aux _ _ _ _ h4, aux _ _ _ _ h5, aux _ _ _ _ h6⟩

theorem pair_values {t : TAx} (h : MadeAxis t) (hv : ValidAxis t) {k : ℕ} {d : DateDict} {v : ℚ} (hk : t.dates[k]? = some d) (hk' : t.values[k]? = some v) :
    ValidDate t.cal (instant d) ∧ v = (((count t.cal).abs (instant d) - (count t.cal).abs (instant t.start) : ℤ) : ℚ) / ticks t.units := by
  have hd := hv.2 d (List.mem_of_getElem? hk)
  have hw := (made_wf h).values
  rw [List.forall₂_iff_get] at hw
  obtain ⟨h1, rfl⟩ := List.getElem?_eq_some_iff.mp hk
  obtain ⟨h2, rfl⟩ := List.getElem?_eq_some_iff.mp hk'
  have := hw.2 k h1 h2
  rw [List.get_eq_getElem, List.get_eq_getElem, val_eq t.units hv.1 hd] at this
  exact ⟨hd, (Option.some.inj this).symm⟩

/-- the finer axis in the terms of the coarser one -/
theorem conform_pair {a b : TAx} (ha : MadeAxis a) (hb : MadeAxis b) (va : ValidAxis a) (vb : ValidAxis b) (hc : a.cal = b.cal) (hl : Leading b.mask a.mask) :
    ∃ r, make a.cal none (some b.units) (some b.start) (some (a.mask, a.dates.map getDates)) = some r ∧ r.units = b.units ∧ r.dates = a.dates ∧
      ∀ (i j : ℕ) (d e : DateDict) (v w : ℚ), r.dates[i]? = some d → r.values[i]? = some v → b.dates[j]? = some e → b.values[j]? = some w →
        ∃ n : ℤ, v - w = n / ticks b.units ∧ Elapsed b.cal (instant e) (instant d) n := by
  obtain ⟨s, hs⟩ := (made_wf hb).start
  obtain ⟨ds, hds⟩ := (made_wf ha).dates
  have hst : instant (a.mask.dict (fill b.start)) = instant b.start := by
    rw [hs]; exact start_same _ _ (made_wf hb).some_field hl s
  have hdt : (a.dates.map getDates).map a.mask.dict = a.dates := by
    rw [hds, List.map_map, List.map_map]
    exact List.map_congr_left fun d _ => dict_dates _ _
  have hmk : make a.cal none (some b.units) (some b.start) (some (a.mask, a.dates.map getDates)) =
      some ⟨a.cal, b.units, a.mask.dict (fill b.start), a.mask, a.dates, a.dates.map fun d =>
        (((count a.cal).abs (instant d) - (count a.cal).abs (instant (a.mask.dict (fill b.start))) : ℤ) : ℚ) / ticks b.units⟩ := by
    rw [make, Option.filter_some, if_pos (made_wf ha).some_field]
    simp only [Option.getD_some]
    rw [hdt, finish_eq (by rw [hst, hc]; exact vb.1) va.2]
  refine ⟨_, hmk, rfl, rfl, ?_⟩
  intro i j d e v w hi hiv hj hjw
  obtain ⟨he, rfl⟩ := pair_values hb vb hj hjw
  have hd : ValidDate b.cal (instant d) := hc ▸ va.2 d (List.mem_of_getElem? hi)
  simp only [List.getElem?_map] at hiv
  rw [show a.dates[i]? = some d from hi, Option.map_some, Option.some.injEq] at hiv
  refine ⟨_, ?_, (elapsed_iff he hd _).mpr rfl⟩
  rw [← hiv, hst, hc]
  push_cast
  ring

/-- C139. `conform_values` gives the finer axis and the coarser one, in the units of the coarser one, with values that can be compared: the difference of any two
values is the time between their dates. -/
theorem conform_correct (t1 t2 : TAx) (h1 : MadeAxis t1) (h2 : MadeAxis t2) (v1 : ValidAxis t1) (v2 : ValidAxis t2) (hc : t1.cal = t2.cal)
    (hl : Leading t2.mask t1.mask ∨ Leading t1.mask t2.mask) :
    ∃ a b, conform t1 t2 = some (a, b) ∧ ((a.dates = t1.dates ∧ b = t2) ∨ (a.dates = t2.dates ∧ b = t1)) ∧ a.units = b.units ∧
      ∀ (i j : ℕ) (d e : DateDict) (v w : ℚ), a.dates[i]? = some d → a.values[i]? = some v → b.dates[j]? = some e → b.values[j]? = some w →
        ∃ n : ℤ, v - w = n / ticks b.units ∧ Elapsed b.cal (instant e) (instant d) n := by
  by_cases h : (t1.mask.le t2.mask && !t2.mask.le t1.mask) = true
  · have hl' : Leading t1.mask t2.mask := by
      rcases hl with hl | hl
      · have := (leading_iff _ _).mpr hl
        rw [Bool.and_eq_true] at this
        rw [this.1] at h
        simp at h
      · exact hl
    obtain ⟨r, hr, hu, hd, hp⟩ := conform_pair h2 h1 v2 v1 hc.symm hl'
    refine ⟨r, t1, ?_, Or.inr ⟨hd, rfl⟩, hu, hp⟩
    rw [conform, if_pos hc, if_pos h]
    simp only
    rw [if_pos ((leading_iff _ _).mpr hl'), hr, Option.map_some]
  · have hl' : Leading t2.mask t1.mask := by
      rcases hl with hl | hl
      · exact hl
      · have := (leading_iff _ _).mpr hl
        rw [Bool.and_eq_true] at this
        have h' : t2.mask.le t1.mask = true := by
          rw [this.1] at h
          simpa using h
        have e : t1.mask = t2.mask := by
          have key : ∀ x y : Bool, (!x || y) = true → (!y || x) = true → x = y := by decide
          have g1 := this.1
          simp only [Mask.le, Mask.list, List.zip_cons_cons, List.zip_nil_right, List.all_cons, List.all_nil, Bool.and_true, Bool.and_eq_true] at g1 h'
          obtain ⟨a1, a2, a3, a4, a5, a6⟩ := g1
          obtain ⟨b1, b2, b3, b4, b5, b6⟩ := h'
          have := key _ _ a1 b1
          have := key _ _ a2 b2
          have := key _ _ a3 b3
          have := key _ _ a4 b4
          have := key _ _ a5 b5
          have := key _ _ a6 b6
          cases hm1 : t1.mask
          cases hm2 : t2.mask
          simp_all
        rw [e]; rw [e] at hl; exact hl
    obtain ⟨r, hr, hu, hd, hp⟩ := conform_pair h1 h2 v1 v2 hc hl'
    refine ⟨r, t2, ?_, Or.inl ⟨hd, rfl⟩, hu, hp⟩
    rw [conform, if_pos hc, if_neg h]
    simp only
    rw [if_pos ((leading_iff _ _).mpr hl'), hr, Option.map_some]

/-- C139. Axes of other fields, or of different calendars, are refused. -/
theorem conform_refuses (t1 t2 : TAx) (h : t1.cal ≠ t2.cal ∨ (¬ Leading t2.mask t1.mask ∧ ¬ Leading t1.mask t2.mask)) : conform t1 t2 = none := by
  rcases h with h | ⟨h, h'⟩
  · rw [conform, if_neg h]
  · rw [conform]
    by_cases hc : t1.cal = t2.cal
    · rw [if_pos hc]
      by_cases hm : (t1.mask.le t2.mask && !t2.mask.le t1.mask) = true
      · rw [if_pos hm]
        exact if_neg fun hl => h' ((leading_iff _ _).mp hl)
      · rw [if_neg hm]
        exact if_neg fun hl => h ((leading_iff _ _).mp hl)
    · rw [if_neg hc]

/-- an axis of days and one of months: the second has the fields of the first up to the month -/
def days : TAx := (make .standard (some [0, 31]) (some .days) (some { year := some 2000, month := some 2 }) none).getD ⟨.standard, .days, {}, allFields, [], []⟩

def months : TAx := (make .standard none (some .hours) (some { year := some 1999 }) (some (⟨true, true, false, false, false, false⟩, [⟨2000, 3, 1, 0, 0, 0⟩]))).getD
  ⟨.standard, .days, {}, allFields, [], []⟩

theorem days_made : MadeAxis days := ⟨some [0, 31], some .days, some { year := some 2000, month := some 2 }, none, by decide +kernel⟩

theorem months_made : MadeAxis months := ⟨none, some .hours, some { year := some 1999 }, some (⟨true, true, false, false, false, false⟩, [⟨2000, 3, 1, 0, 0, 0⟩]),
  by decide +kernel⟩

theorem days_valid : ValidAxis days := by
  have : days.start = fullDate ⟨2000, 2, 1, 0, 0, 0⟩ ∧ days.cal = .standard ∧ days.dates = [fullDate ⟨2000, 2, 1, 0, 0, 0⟩, fullDate ⟨2000, 3, 3, 0, 0, 0⟩] := by
    decide +kernel
  refine ⟨by rw [this.1, this.2.1]; decide +kernel, ?_⟩
  rw [this.2.1, this.2.2]
  decide +kernel

theorem months_valid : ValidAxis months := by
  have : months.start = { year := some 1999, month := some 1 } ∧ months.cal = .standard ∧ months.dates = [{ year := some 2000, month := some 3 }] := by
    decide +kernel
  refine ⟨by rw [this.1, this.2.1]; decide +kernel, ?_⟩
  rw [this.2.1, this.2.2]
  decide +kernel

example : Leading months.mask days.mask := (leading_iff _ _).mp (by decide +kernel)

/-- 10200 hours from January 1999 to March 2000, 9504 to 1 February and 10248 to 3 March 2000 -/
example : (conform months days).map (fun p => (p.1.values, p.2.values)) = some ([9504, 10248], [10200]) := by decide +kernel

end TimeInit
end PyGeode
