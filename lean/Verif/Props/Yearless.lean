/-
C141: time axes without years and months.
-/
import Verif.Spec.Yearless
import Verif.Props.TimeInit
import Verif.Props.Cf
import Mathlib.Tactic.FieldSimp

namespace PyGeode
namespace Yearless
open Spec Calendar
open TimeInit (Mask maskOf mapM_forall mapM_cons_some unit_ticks ticks_pos filterMap_get)

/-- seconds since day 0 -/
def secs (t : DayTime) : ℤ := t.day * 86400 + t.hour * 3600 + t.minute * 60 + t.second

theorem tick_ok (t : DayTime) (h : ClockTime t) : ClockTime (tick t) ∧ secs (tick t) = secs t + 1 := by
  obtain ⟨h1, h2, h3⟩ := h
  unfold tick
  split_ifs with a b c
  · exact ⟨⟨h1, h2, by dsimp only; omega⟩, by simp only [secs]; omega⟩
  · exact ⟨⟨h1, by dsimp only; omega, by dsimp only; omega⟩, by simp only [secs]; omega⟩
  · exact ⟨⟨by dsimp only; omega, by dsimp only; omega, by dsimp only; omega⟩, by simp only [secs]; omega⟩
  · exact ⟨⟨by dsimp only; omega, by dsimp only; omega, by dsimp only; omega⟩, by simp only [secs]; omega⟩

theorem ticks_ok (t : DayTime) (h : ClockTime t) : ∀ n : ℕ, ClockTime (tick^[n] t) ∧ secs (tick^[n] t) = secs t + n
  | 0 => ⟨h, by simp⟩
  | n + 1 => by
    obtain ⟨h1, h2⟩ := ticks_ok t h n
    rw [Function.iterate_succ_apply']
    obtain ⟨h3, h4⟩ := tick_ok _ h1
    exact ⟨h3, by rw [h4, h2]; push_cast; ring⟩

theorem secs_inj {a b : DayTime} (ha : ClockTime a) (hb : ClockTime b) (h : secs a = secs b) : a = b := by
  obtain ⟨d, hh, m, s⟩ := a
  obtain ⟨d', hh', m', s'⟩ := b
  obtain ⟨a1, a2, a3⟩ := ha
  obtain ⟨b1, b2, b3⟩ := hb
  simp only [secs] at *
  rw [DayTime.mk.injEq]
  omega

theorem passed_iff {a b : DayTime} (ha : ClockTime a) (hb : ClockTime b) (n : ℤ) : Passed a b n ↔ secs b - secs a = n := by
  constructor
  · rintro (⟨h, e⟩ | ⟨h, e⟩)
    · have := (ticks_ok a ha n.toNat).2
      rw [e] at this; omega
    · have := (ticks_ok b hb (-n).toNat).2
      rw [e] at this; omega
  · intro h
    rcases le_total 0 n with hn | hn
    · obtain ⟨h1, h2⟩ := ticks_ok a ha n.toNat
      exact Or.inl ⟨hn, secs_inj h1 hb (by omega)⟩
    · obtain ⟨h1, h2⟩ := ticks_ok b hb (-n).toNat
      exact Or.inr ⟨hn, secs_inj h1 ha (by omega)⟩

theorem dateAsVal_some {s d : DateDict} {u : Units} {v : ℚ} (h : dateAsVal s d u = some v) :
    startOk s = true ∧ v = ((secs (moment d) - secs (moment s) : ℤ) : ℚ) / ticks u := by
  rw [dateAsVal] at h
  split_ifs at h with h0
  refine ⟨h0, ?_⟩
  rw [dateAsValYearless] at h
  by_cases hm : (getDates d).month ≠ 1
  · rw [if_pos hm] at h; cases h
  rw [if_neg hm, Option.map_some, Option.some.injEq] at h
  rw [← h, unit_ticks]
  congr 2
  simp only [getDates, secs, moment]
  ring

theorem dateAsVal_of {s d : DateDict} {u : Units} (h : startOk s = true) (hm : d.month.getD 1 = 1) :
    dateAsVal s d u = some (((secs (moment d) - secs (moment s) : ℤ) : ℚ) / ticks u) := by
  rw [dateAsVal, if_pos h, dateAsValYearless, if_neg (by simpa [getDates] using hm), Option.map_some, unit_ticks]
  congr 3
  simp only [getDates, secs, moment]
  ring

theorem moment_allowed (d : DateDict) : moment (allowed d) = moment d := rfl

/-- what every construction gives -/
structure Wf (t : YAx) : Prop where
  some_field : (t.mask.day || t.mask.hour || t.mask.minute || t.mask.second) = true
  keys : (t.mask.day = false → t.start.day = none) ∧ (t.mask.hour = false → t.start.hour = none) ∧ (t.mask.minute = false → t.start.minute = none) ∧
    (t.mask.second = false → t.start.second = none)
  dates : ∃ ds : List Date, t.dates = ds.map t.mask.dict
  values : List.Forall₂ (fun d v => v = ((secs (moment d) - secs (moment t.start) : ℤ) : ℚ) / ticks t.units) t.dates t.values

theorem allowed_ok (d : DateDict) : startOk (allowed d) = true := rfl

theorem vals_dates {s : DateDict} {u : Units} : ∀ {vals : List ℚ} {dates : List DateDict}, (vals.mapM fun x => valAsDate s x u false) = some dates →
    ∃ ds : List Date, dates = ds.map (maskOf s).dict
  | [], dates, h => ⟨[], by cases (Option.some.inj h); rfl⟩
  | x :: vals, dates, h => by
    obtain ⟨b, bs, h1, h2, rfl⟩ := mapM_cons_some h
    obtain ⟨ds, rfl⟩ := vals_dates h2
    rw [valAsDate] at h1
    split_ifs at h1
    cases h1
    exact ⟨_ :: ds, rfl⟩

theorem made_wf {t : YAx} (h : MadeYearless t) : Wf t := by
  obtain ⟨values, units, start, fields, h⟩ := h
  rw [make] at h
  split at h
  · split_ifs at h
    rw [Option.bind_eq_some_iff] at h
    obtain ⟨vals, _, h⟩ := h
    rw [Option.bind_eq_some_iff] at h
    obtain ⟨s, _, h⟩ := h
    rw [Option.bind_eq_some_iff] at h
    obtain ⟨dates, hd, h⟩ := h
    rw [Option.map_eq_some_iff] at h
    obtain ⟨v, hv, rfl⟩ := h
    rw [mapM_forall] at hv
    refine ⟨?_, ?_, vals_dates hd, hv.imp fun d v e => (dateAsVal_some e).2⟩
    · simp [maskOf, fill]
    · simp [maskOf, fill]
  · rename_i m ds hf
    have hm : (m.day || m.hour || m.minute || m.second) = true := by
      rw [Option.filter_eq_some_iff] at hf
      exact hf.2
    rw [Option.bind_eq_some_iff] at h
    obtain ⟨s, hs, h⟩ := h
    have hsok : (m.day = false → s.day = none) ∧ (m.hour = false → s.hour = none) ∧ (m.minute = false → s.minute = none) ∧
        (m.second = false → s.second = none) := by
      cases start with
      | some s0 =>
        cases (Option.some.inj hs)
        refine ⟨?_, ?_, ?_, ?_⟩ <;> intro h0 <;> simp [allowed, only, h0]
      | none =>
        cases ds with
        | nil => exact absurd hs (by simp)
        | cons d ds =>
          cases (Option.some.inj hs)
          refine ⟨?_, ?_, ?_, ?_⟩ <;> intro h0 <;> simp [allowed, Mask.dict, h0]
    rw [Option.map_eq_some_iff] at h
    obtain ⟨v, hv, rfl⟩ := h
    rw [mapM_forall] at hv
    refine ⟨hm, hsok, ⟨ds, rfl⟩, ?_⟩
    rw [List.forall₂_map_left_iff]
    exact hv.imp fun d v e => (dateAsVal_some e).2

/-- C141. Every value of an axis, however it was made, is the time from the start to its date, in the units of the axis. -/
theorem values_agree (t : YAx) (h : MadeYearless t) (hv : OnClock t) :
    List.Forall₂ (fun d v => ∃ n : ℤ, v = n / ticks t.units ∧ Passed (moment t.start) (moment d) n) t.dates t.values := by
  have hw := (made_wf h).values
  have hd := hv.2
  revert hw hd
  generalize t.dates = ds
  generalize t.values = vs
  intro hw hd
  induction hw with
  | nil => exact .nil
  | @cons d v _ _ h1 _ ih =>
    exact .cons ⟨_, h1, (passed_iff hv.1 (hd d (by simp)) _).mpr rfl⟩ (ih fun d hd' => hd d (by simp [hd']))

/-- the time of a value -/
def timeOf (s : DateDict) (n : ℤ) : DayTime :=
  let d := valAsDateYearless (getDates s) n
  ⟨d.day, d.hour, d.minute, d.second⟩

theorem timeOf_ok (s : DateDict) (n : ℤ) : ClockTime (timeOf s n) ∧ secs (timeOf s n) - secs (moment s) = n := by
  obtain ⟨h1, h2, h3, h4, h5, h6⟩ := yearless_offset_roundtrip (getDates s) n
  refine ⟨⟨?_, ?_, ?_⟩, ?_⟩
  · change 0 ≤ (valAsDateYearless (getDates s) n).hour ∧ _; exact ⟨h4.1, by change (valAsDateYearless (getDates s) n).hour ≤ 23; omega⟩
  · change 0 ≤ (valAsDateYearless (getDates s) n).minute ∧ _; exact ⟨h5.1, by change (valAsDateYearless (getDates s) n).minute ≤ 59; omega⟩
  · change 0 ≤ (valAsDateYearless (getDates s) n).second ∧ _; exact ⟨h6.1, by change (valAsDateYearless (getDates s) n).second ≤ 59; omega⟩
  · rw [dateAsValYearless, if_neg (by omega), Option.some.injEq] at h1
    simp only [timeOf, secs, moment]
    generalize valAsDateYearless (getDates s) n = e at h1 ⊢
    rw [← h1]
    simp only [getDates]
    ring

theorem round_value (x : ℚ) (u : Units) : |(npRound (x * ticks u) : ℚ) / ticks u - x| * ticks u ≤ 1 / 2 ∧
    ∀ k : ℤ, x * ticks u = k → (npRound (x * ticks u) : ℚ) / ticks u = x := by
  have hu := ticks_pos u
  constructor
  · have e : |(npRound (x * ticks u) : ℚ) / ticks u - x| * ticks u = |(npRound (x * ticks u) : ℚ) - x * ticks u| := by
      rw [← abs_of_pos hu, ← abs_mul, abs_of_pos hu]
      congr 1; field_simp
    rw [e]
    exact npRound_near _
  · intro k hk
    rw [hk, npRound_int, ← hk]
    field_simp

theorem make_values (vals : List ℚ) (u : Units) (s : DateDict) (hs : startOk (fill s) = true) :
    make (some vals) (some u) (some s) none = some ⟨u, fill s, maskOf (fill s),
      vals.map fun x => keepFields (fill s) false (valAsDateYearless (getDates (fill s)) (npRound (x * ticks u))),
      vals.map fun x => (npRound (x * ticks u) : ℚ) / ticks u⟩ := by
  rw [make]
  simp only [Option.filter_none, reduceCtorEq, if_false, Option.bind_some, Option.getD_some]
  have h1 : (vals.mapM fun x => valAsDate (fill s) x u false) =
      some (vals.map fun x => keepFields (fill s) false (valAsDateYearless (getDates (fill s)) (npRound (x * ticks u)))) := by
    rw [mapM_forall, List.forall₂_map_right_iff, List.forall₂_same]
    intro x _
    rw [valAsDate, if_pos hs, unit_ticks]
  have h2 : ((vals.map fun x => keepFields (fill s) false (valAsDateYearless (getDates (fill s)) (npRound (x * ticks u)))).mapM
      fun d => dateAsVal (fill s) d u) = some (vals.map fun x => (npRound (x * ticks u) : ℚ) / ticks u) := by
    rw [mapM_forall, List.forall₂_map_left_iff, List.forall₂_map_right_iff, List.forall₂_same]
    intro x _
    have hm : (keepFields (fill s) false (valAsDateYearless (getDates (fill s)) (npRound (x * ticks u)))).month.getD 1 = 1 := by
      cases hmm : s.month <;> simp [keepFields, fill, hmm, valAsDateYearless]
    rw [dateAsVal_of hs hm]
    have := (timeOf_ok (fill s) (npRound (x * ticks u))).2
    rw [show moment (keepFields (fill s) false (valAsDateYearless (getDates (fill s)) (npRound (x * ticks u)))) =
      timeOf (fill s) (npRound (x * ticks u)) from rfl, this]
  rw [h1, Option.bind_some, h2, Option.map_some]

/-- C141. An axis made from values, units and a start (a missing day is day 1): the date of every value is the moment that many units after the start, to the
nearest second, before day 0 as well; the values change by at most half a second, and not at all if they are whole seconds. -/
theorem from_values (vals : List ℚ) (u : Units) (s : DateDict) (hs : s.year = none ∧ s.month = none) (hc : ClockTime (moment s)) :
    ∃ t, make (some vals) (some u) (some s) none = some t ∧ t.units = u ∧ t.start = dayDate (moment s) ∧
      List.Forall₂ (fun x d => ∃ e n, d = dayDate e ∧ ClockTime e ∧ Passed (moment s) e n ∧ |(n : ℚ) - x * ticks u| ≤ 1 / 2) vals t.dates ∧
      List.Forall₂ (fun x v => |v - x| * ticks u ≤ 1 / 2 ∧ ∀ k : ℤ, x * ticks u = k → v = x) vals t.values := by
  have hf : fill s = dayDate (moment s) := by
    obtain ⟨y, m, d, h, mi, se⟩ := s
    obtain ⟨rfl, rfl⟩ := hs
    rfl
  refine ⟨_, make_values vals u s (by rw [hf]; rfl), rfl, hf, ?_, ?_⟩
  · rw [List.forall₂_map_right_iff, List.forall₂_same]
    intro x _
    obtain ⟨h1, h2⟩ := timeOf_ok (fill s) (npRound (x * ticks u))
    refine ⟨timeOf (fill s) (npRound (x * ticks u)), npRound (x * ticks u), ?_, h1, ?_, npRound_near _⟩
    · rw [hf]; rfl
    · refine (passed_iff hc h1 _).mpr ?_
      exact h2
  · rw [List.forall₂_map_right_iff, List.forall₂_same]
    exact fun x _ => round_value x u

/-- C141. An axis made from days, hours, minutes and seconds (or some of them) has exactly these fields; the start is the one given (a missing day being day 1),
or the first date. -/
theorem from_fields (values : Option (List ℚ)) (units : Option Units) (start : Option DateDict) (m : Mask) (ds : List Date)
    (hm : m.year = false ∧ m.month = false ∧ (m.day = true ∨ m.hour = true ∨ m.minute = true ∨ m.second = true)) (h0 : start = none → ds ≠ []) :
    ∃ t, make values units start (some (m, ds)) = some t ∧ t.units = units.getD .days ∧ t.dates = ds.map m.dict ∧
      (∀ s, start = some s → t.start = only m (dayDate (moment s))) ∧ (start = none → t.dates.head? = some t.start) := by
  have hf : (some (m, ds)).filter (fun p => p.1.day || p.1.hour || p.1.minute || p.1.second) = some (m, ds) := by
    rw [Option.filter_some, if_pos]
    simp only [Bool.or_eq_true]
    tauto
  obtain ⟨my, mmo, md, mh, mmi, ms⟩ := m
  obtain ⟨rfl, rfl, -⟩ := hm
  have hall : ∀ s : DateDict, startOk s = true → (ds.mapM fun d => dateAsVal s (allowed (Mask.dict ⟨false, false, md, mh, mmi, ms⟩ d)) (units.getD .days)) =
      some (ds.map fun d => ((secs (moment (Mask.dict ⟨false, false, md, mh, mmi, ms⟩ d)) - secs (moment s) : ℤ) : ℚ) / ticks (units.getD .days)) := by
    intro s hs
    rw [mapM_forall, List.forall₂_map_right_iff, List.forall₂_same]
    intro d _
    rw [dateAsVal_of hs rfl, moment_allowed]
  rw [make, hf]
  cases start with
  | some s =>
    dsimp only
    rw [Option.bind_some, hall _ rfl, Option.map_some]
    refine ⟨_, rfl, rfl, rfl, ?_, by simp⟩
    intro s' h
    cases h
    rfl
  | none =>
    cases ds with
    | nil => exact absurd rfl (h0 rfl)
    | cons d ds =>
      dsimp only
      rw [List.head?_cons, Option.map_some, Option.bind_some, hall _ rfl, Option.map_some]
      exact ⟨_, rfl, rfl, rfl, by simp, fun _ => rfl⟩

/-- C141. A start date with a year other than 0 or a month other than 1 is refused. -/
theorem year_refused (vals : List ℚ) (units : Option Units) (s : DateDict) (hv : vals ≠ []) (h : (∃ y, s.year = some y ∧ y ≠ 0) ∨ ∃ m, s.month = some m ∧ m ≠ 1) :
    make (some vals) units (some s) none = none := by
  have hs : startOk (fill s) = false := by
    rcases h with ⟨y, h1, h2⟩ | ⟨y, h1, h2⟩ <;> simp [startOk, fill, h1, h2]
  rw [make, Option.filter_none]
  dsimp only
  split_ifs
  · rfl
  · cases vals with
    | nil => exact absurd rfl hv
    | cons x vals =>
      rw [Option.bind_some, Option.bind_some, List.mapM_cons, valAsDate, hs]
      rfl

theorem dict_dates (m : Mask) (d : Date) : m.dict (getDates (m.dict d)) = m.dict d := TimeInit.dict_dates m d

theorem only_moment (m : Mask) (s : DateDict) (h : (m.day = false → s.day = none) ∧ (m.hour = false → s.hour = none) ∧ (m.minute = false → s.minute = none) ∧
    (m.second = false → s.second = none)) : moment (allowed (only m (fill s))) = moment s := by
  obtain ⟨h1, h2, h3, h4⟩ := h
  have key : ∀ (b : Bool) (x : Option ℤ) (v : ℤ), (b = false → x = none) → (if b = true then some (x.getD v) else none).getD v = x.getD v := by
    intro b x v h
    cases b
    · rw [h rfl]; rfl
    · rfl
  simp only [moment, allowed, only, fill, DayTime.mk.injEq]
  exact ⟨key _ _ _ h1, key _ _ _ h2, key _ _ _ h3, key _ _ _ h4⟩

theorem make_fields (u : Units) (s : DateDict) (m : Mask) (values : Option (List ℚ)) (ds : List Date) (hm : (m.day || m.hour || m.minute || m.second) = true) :
    make values (some u) (some s) (some (m, ds)) = some ⟨u, allowed (only m (fill s)), m, ds.map m.dict,
      ds.map fun d => ((secs (moment (m.dict d)) - secs (moment (allowed (only m (fill s)))) : ℤ) : ℚ) / ticks u⟩ := by
  rw [make, Option.filter_some, if_pos hm]
  dsimp only
  rw [Option.bind_some, Option.getD_some]
  have : (ds.mapM fun d => dateAsVal (allowed (only m (fill s))) (allowed (m.dict d)) u) =
      some (ds.map fun d => ((secs (moment (m.dict d)) - secs (moment (allowed (only m (fill s)))) : ℤ) : ℚ) / ticks u) := by
    rw [mapM_forall, List.forall₂_map_right_iff, List.forall₂_same]
    intro d _
    rw [dateAsVal_of rfl rfl, moment_allowed]
  rw [this, Option.map_some]

/-- C141. Slicing an axis keeps the units and the moment of the start, and gives the dates and the values at the chosen positions. -/
theorem slice_correct (t : YAx) (h : MadeYearless t) (hv : OnClock t) (hy : t.mask.year = false ∧ t.mask.month = false) (P : List ℕ) (hP : ∀ i ∈ P, i < t.dates.length) :
    ∃ t', slice t P = some t' ∧ t'.units = t.units ∧ moment t'.start = moment t.start ∧ t'.mask = t.mask ∧
      List.Forall₂ (fun i d => t.dates[i]? = some d) P t'.dates ∧ List.Forall₂ (fun i v => t.values[i]? = some v) P t'.values := by
  obtain ⟨hm, hk, ⟨ds, hds⟩, hw⟩ := made_wf h
  obtain ⟨r, h1, h2⟩ := filterMap_get t.dates getDates P hP
  have hr : ∀ d ∈ r, t.mask.dict (getDates d) = d := by
    intro d hd
    have : d ∈ t.dates := by
      clear h2
      induction h1 with
      | nil => exact absurd hd (by simp)
      | cons g _ ih =>
        rcases List.mem_cons.mp hd with rfl | hd
        · exact List.mem_of_getElem? g
        · exact ih (fun j hj => hP j (by simp [hj])) hd
    rw [hds, List.mem_map] at this
    obtain ⟨d0, _, rfl⟩ := this
    exact dict_dates _ _
  have hlen := hw.length_eq
  by_cases hsame : (P.filterMap fun i => t.values[i]?) = t.values
  · obtain ⟨vs, h3, h3'⟩ := filterMap_get t.values (fun x => x) P fun i hi => hlen ▸ hP i hi
    have hvs : vs = t.values := by
      rw [← hsame, show (P.filterMap fun i => t.values[i]?) = P.filterMap fun i => t.values[i]?.map (fun x => x) by simp, h3', List.map_id']
    rw [hvs] at h3
    refine ⟨t, by rw [slice, if_pos hsame], rfl, rfl, rfl, TimeInit.same_dates t.dates t.values hlen ?_ P hP h3, h3⟩
    intro i j d e v hi hj hiv hjv
    have key : ∀ x ∈ t.dates, t.mask.dict ⟨0, 1, (moment x).day, (moment x).hour, (moment x).minute, (moment x).second⟩ = x := by
      intro x hx
      rw [hds, List.mem_map] at hx
      obtain ⟨y, _, rfl⟩ := hx
      generalize t.mask = m at hy
      obtain ⟨m1, m2, m3, m4, m5, m6⟩ := m
      obtain ⟨rfl, rfl⟩ := hy
      cases m3 <;> cases m4 <;> cases m5 <;> cases m6 <;> rfl
    have hval : ∀ (k : ℕ) (x : DateDict), t.dates[k]? = some x → t.values[k]? = some v → v = ((secs (moment x) - secs (moment t.start) : ℤ) : ℚ) / ticks t.units := by
      intro k x hx hxv
      rw [List.forall₂_iff_get] at hw
      obtain ⟨k1, rfl⟩ := List.getElem?_eq_some_iff.mp hx
      obtain ⟨k2, rfl⟩ := List.getElem?_eq_some_iff.mp hxv
      exact hw.2 k k1 k2
    have e : moment d = moment e := by
      refine secs_inj (hv.2 d (List.mem_of_getElem? hi)) (hv.2 e (List.mem_of_getElem? hj)) ?_
      have h4 := (hval i d hi hiv).symm.trans (hval j e hj hjv)
      rw [div_left_inj' (ticks_pos t.units).ne'] at h4
      have h5 : secs (moment d) - secs (moment t.start) = secs (moment e) - secs (moment t.start) := by exact_mod_cast h4
      omega
    rw [← key d (List.mem_of_getElem? hi), ← key _ (List.mem_of_getElem? hj), e]
  rw [slice, if_neg hsame]
  refine ⟨_, make_fields t.units t.start t.mask _ _ hm, rfl, only_moment _ _ hk, rfl, ?_, ?_⟩
  · dsimp only
    rw [h2, List.map_map, List.map_congr_left (f := t.mask.dict ∘ getDates) (g := id) (fun d hd => hr d hd), List.map_id]
    exact h1
  · dsimp only
    rw [h2, List.map_map, only_moment _ _ hk]
    rw [List.forall₂_iff_get] at hw
    clear h2 hsame
    induction h1 with
    | nil => exact .nil
    | @cons i d P' r' g1 _ ih =>
      refine .cons ?_ (ih (fun j hj => hP j (by simp [hj])) fun e he => hr e (by simp [he]))
      obtain ⟨k1, hkd⟩ := List.getElem?_eq_some_iff.mp g1
      have k2 : i < t.values.length := hw.1 ▸ k1
      have := hw.2 i k1 k2
      rw [List.get_eq_getElem, List.get_eq_getElem, hkd] at this
      rw [List.getElem?_eq_getElem k2, this]
      simp only [Function.comp]
      rw [hr d (by simp)]

/-- C141. An axis with the four fields and a start that is not before day 0 comes back from a file as it was. -/
theorem file_roundtrip (t : YAx) (h : MadeYearless t) (hv : OnClock t) (hm : t.mask = clock) (hs : t.start = dayDate (moment t.start))
    (h0 : 0 ≤ (moment t.start).day) : (encode t).bind decode = some t := by
  obtain ⟨-, -, ⟨ds, hds⟩, hw⟩ := made_wf h
  rw [hm] at hds
  obtain ⟨u, s, m, dates, values⟩ := t
  dsimp only at hds hw hm hs h0
  subst hm
  subst hds
  have hsok : startOk s = true := by rw [hs]; rfl
  have hval : values = ds.map fun d => ((secs (moment (clock.dict d)) - secs (moment s) : ℤ) : ℚ) / ticks u := by
    rw [List.forall₂_map_left_iff] at hw
    clear hv h
    induction hw with
    | nil => rfl
    | cons e _ ih => rw [List.map_cons, ih, e]
  have he : ((ds.map clock.dict).mapM fun d => dateAsVal s d u) = some values := by
    rw [hval, mapM_forall, List.forall₂_map_left_iff, List.forall₂_map_right_iff, List.forall₂_same]
    exact fun d _ => dateAsVal_of hsok rfl
  have hcs := hv.1
  dsimp only at hcs
  rw [encode]
  dsimp only
  rw [he, Option.map_some, Option.bind_some, decode, if_pos (List.infix_refl _)]
  dsimp only
  have hnn : NonNeg (getDates s) := by
    rw [hs]
    exact ⟨le_refl _, show (0 : ℤ) ≤ 1 by decide, h0, hcs.hour.1, hcs.minute.1, hcs.second.1⟩
  rw [Cf.units_roundtrip u s hnn, Option.bind_some]
  dsimp only
  rw [show Cf.unitOf (Cf.unitName u) = some u by cases u <;> decide +kernel, Option.bind_some]
  have hg : getDates s = ⟨0, 1, (moment s).day, (moment s).hour, (moment s).minute, (moment s).second⟩ := by rw [hs]; rfl
  have hfill : fill (Cf.full (getDates s)) = Cf.full (getDates s) := rfl
  rw [make_values _ u _ (by rw [hfill, hg]; rfl), Option.bind_some, hfill]
  dsimp only
  have hx : ∀ d ∈ ds, keepFields (Cf.full (getDates s)) false (valAsDateYearless (getDates (Cf.full (getDates s)))
      (npRound (((secs (moment (clock.dict d)) - secs (moment s) : ℤ) : ℚ) / ticks u * ticks u))) = Cf.full (getDates (clock.dict d)) := by
    intro d hd
    rw [div_mul_cancel₀ _ (ticks_pos u).ne', npRound_int]
    have hc := hv.2 (clock.dict d) (List.mem_map.2 ⟨d, hd, rfl⟩)
    have e2 : valAsDateYearless (getDates (Cf.full (getDates s))) (secs (moment (clock.dict d)) - secs (moment s)) = getDates (clock.dict d) := by
      have := yearless_date_roundtrip (getDates s) (getDates (clock.dict d)) rfl rfl ⟨hc.hour.1, by have := hc.hour.2; change d.hour < 24; change d.hour ≤ 23 at this; omega⟩
        ⟨hc.minute.1, by have := hc.minute.2; change d.minute < 60; change d.minute ≤ 59 at this; omega⟩
        ⟨hc.second.1, by have := hc.second.2; change d.second < 60; change d.second ≤ 59 at this; omega⟩
      rw [dateAsValYearless, if_neg (by simp [getDates, Mask.dict, clock]), Option.map_some, Option.some.injEq] at this
      rw [show getDates (Cf.full (getDates s)) = getDates s from rfl]
      conv_rhs => rw [← this]
      congr 1
      simp only [secs, moment, getDates]
      ring
    rw [e2]
    rfl
  have hd' : values.map (fun x => keepFields (Cf.full (getDates s)) false (valAsDateYearless (getDates (Cf.full (getDates s))) (npRound (x * ticks u)))) =
      ds.map fun d => Cf.full (getDates (clock.dict d)) := by
    rw [hval, List.map_map]
    exact List.map_congr_left fun d hd => hx d hd
  rw [hd', if_pos ⟨by rw [hg], by
    intro d hd
    obtain ⟨e, _, rfl⟩ := List.mem_map.1 hd
    rfl⟩, make_fields _ _ _ _ _ rfl]
  have hst : allowed (only clock (fill (Cf.full (getDates s)))) = s := by
    rw [hg]; conv_rhs => rw [hs]
    rfl
  rw [hst]
  congr 1
  rw [YAx.mk.injEq]
  refine ⟨rfl, rfl, rfl, ?_, ?_⟩
  · rw [List.map_map, List.map_map]
    exact List.map_congr_left fun d _ => rfl
  · rw [hval, List.map_map, List.map_map]
    exact List.map_congr_left fun d _ => rfl

/-! ### examples -/

/-- six-hourly times from the evening of day 3; the first is on day -1 -/
def timesEx : YAx := (make (some [-96, 0, 6]) (some .hours) (some { day := some 3, hour := some 18 }) none).getD ⟨.days, {}, clock, [], []⟩

theorem timesEx_made : MadeYearless timesEx := ⟨some [-96, 0, 6], some .hours, some { day := some 3, hour := some 18 }, none, by decide +kernel⟩

theorem timesEx_dates : timesEx.start = dayDate ⟨3, 18, 0, 0⟩ ∧ timesEx.dates = [dayDate ⟨-1, 18, 0, 0⟩, dayDate ⟨3, 18, 0, 0⟩, dayDate ⟨4, 0, 0, 0⟩] := by
  decide +kernel

theorem timesEx_clock : OnClock timesEx := by
  obtain ⟨h1, h2⟩ := timesEx_dates
  refine ⟨by rw [h1]; exact ⟨by decide, by decide, by decide⟩, ?_⟩
  rw [h2]
  intro d hd
  rcases List.mem_cons.1 hd with rfl | hd
  · exact ⟨by decide, by decide, by decide⟩
  rcases List.mem_cons.1 hd with rfl | hd
  · exact ⟨by decide, by decide, by decide⟩
  rcases List.mem_cons.1 hd with rfl | hd
  · exact ⟨by decide, by decide, by decide⟩
  · cases hd

example : (encode timesEx).bind decode = some timesEx :=
  file_roundtrip timesEx timesEx_made timesEx_clock (by decide +kernel) (by decide +kernel) (by decide +kernel)

/-- C141: a start before day 0 cannot be read back. -/
theorem negative_day_violated : ((make (some [0]) (some .days) (some { day := some (-5) }) none).map fun t => (t.dates, (encode t).bind decode)) =
    some ([dayDate ⟨-5, 0, 0, 0⟩], none) := by decide +kernel

/-- C141: an axis that has only days comes back with hours, minutes and seconds as well. -/
theorem fewer_fields_violated : ((make none (some .days) (some {}) (some (⟨false, false, true, false, false, false⟩, [⟨0, 1, 2, 0, 0, 0⟩]))).map fun t =>
    (t.dates, ((encode t).bind decode).map YAx.dates)) = some ([{ day := some 2 }], some [dayDate ⟨2, 0, 0, 0⟩]) := by decide +kernel

end Yearless
end PyGeode
