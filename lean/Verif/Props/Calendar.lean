/-
Properties C21-C29 (calendar conversions, pygeode/timeaxis.c:209-598) and C58-C60 (the Python
layer, pygeode/timeaxis.py).
-/
import Verif.Lemmas.Calendar
import Verif.Model.CalendarPy
import Mathlib.Tactic.FieldSimp
import Mathlib.Tactic.NormNum
import Mathlib.Algebra.BigOperators.Group.Finset.Basic
import Mathlib.Algebra.BigOperators.Intervals
import Mathlib.Logic.Function.Iterate

namespace PyGeode.Calendar
open PyGeode.Spec

/-! ### all three calendars at once -/

/-- the day count of a calendar (proof device) -/
def count : Cal → DayCount
  | .standard => stdCount
  | .noleap => noleapCount
  | .days360 => count360

theorem count_ok (c : Cal) : (count c).Ok c := by
  cases c
  · exact stdCount_ok
  · exact noleapCount_ok
  · exact count360_ok

theorem dateAsVal_eq (c : Cal) {s d : Date} (hs : 1 ≤ s.month ∧ s.month ≤ 12)
    (hd : 1 ≤ d.month ∧ d.month ≤ 12) :
    dateAsVal c s d = some ((count c).abs d - (count c).abs s) := by
  cases c
  · exact dateAsValStd_eq hs hd
  · exact dateAsVal365_eq hs hd
  · exact congrArg some (dateAsVal360_eq s d)

theorem valAsDate_spec (c : Cal) (s : Date) (hs : 1 ≤ s.month ∧ s.month ≤ 12) (v : ℤ) :
    ∃ d, valAsDate c s v = some d ∧ ValidDate c d ∧ (count c).abs d = (count c).abs s + v := by
  cases c
  · exact valAsDateStd_spec s hs v
  · exact valAsDate365_spec s hs v
  · exact ⟨_, rfl, valAsDate360_spec s v⟩

/-- C21/C23/C24 for every calendar: date → offset → date is the identity on valid dates, for any
start date with a month in 1..12. -/
theorem date_roundtrip (c : Cal) (s d : Date) (hs : 1 ≤ s.month ∧ s.month ≤ 12)
    (hd : ValidDate c d) : (dateAsVal c s d).bind (valAsDate c s) = some d := by
  rw [dateAsVal_eq c hs hd.month]
  obtain ⟨e, h1, h2, h3⟩ := valAsDate_spec c s hs ((count c).abs d - (count c).abs s)
  rw [Option.bind_some, h1]
  exact congrArg some ((count_ok c).abs_inj h2 hd (by omega))

/-- C22/C23/C24 for every calendar: every offset decodes to a valid date, which encodes back to
the same offset. -/
theorem offset_roundtrip (c : Cal) (s : Date) (hs : 1 ≤ s.month ∧ s.month ≤ 12) (v : ℤ) :
    ∃ d, valAsDate c s v = some d ∧ ValidDate c d ∧ dateAsVal c s d = some v := by
  obtain ⟨d, h1, h2, h3⟩ := valAsDate_spec c s hs v
  refine ⟨d, h1, h2, ?_⟩
  rw [dateAsVal_eq c hs h2.month]
  exact congrArg some (by omega)

/-- C27: a valid date is earlier than another iff its offset is smaller; they are equal iff the
offsets are equal. -/
theorem offset_order (c : Cal) (s a b : Date) (hs : 1 ≤ s.month ∧ s.month ≤ 12)
    (ha : ValidDate c a) (hb : ValidDate c b) :
    ∃ va vb, dateAsVal c s a = some va ∧ dateAsVal c s b = some vb ∧
      (va < vb ↔ Earlier a b) ∧ (va = vb ↔ a = b) := by
  refine ⟨_, _, dateAsVal_eq c hs ha.month, dateAsVal_eq c hs hb.month, ?_, ?_⟩
  · rw [← (count_ok c).abs_lt_iff ha hb]; omega
  · constructor
    · intro h; exact (count_ok c).abs_inj ha hb (by omega)
    · rintro rfl; rfl

/-- The start date itself has offset 0, and one second later on the clock has one more. These
two facts determine the offset of every valid date. -/
theorem offset_start (c : Cal) (s : Date) (hs : 1 ≤ s.month ∧ s.month ≤ 12) :
    dateAsVal c s s = some 0 := by
  rw [dateAsVal_eq c hs hs]; simp

theorem offset_nextSecond (c : Cal) (s d : Date) (hs : 1 ≤ s.month ∧ s.month ≤ 12)
    (hd : ValidDate c d) :
    dateAsVal c s (nextSecond c d) = (dateAsVal c s d).map (· + 1) := by
  rw [dateAsVal_eq c hs hd.month, dateAsVal_eq c hs (DayCount.nextSecond_valid hd).month,
    (count_ok c).abs_nextSecond hd]
  exact congrArg some (by ring)

theorem abs_iterate (c : Cal) (d : Date) (hd : ValidDate c d) (n : ℕ) :
    ValidDate c ((nextSecond c)^[n] d) ∧
      (count c).abs ((nextSecond c)^[n] d) = (count c).abs d + n := by
  induction n with
  | zero => exact ⟨hd, by simp⟩
  | succ n ih =>
    rw [Function.iterate_succ_apply']
    refine ⟨DayCount.nextSecond_valid ih.1, ?_⟩
    rw [(count_ok c).abs_nextSecond ih.1, ih.2]
    push_cast; ring

/-- Decoding offset `n` from a valid start date lets the clock tick `n` times; decoding `-n`
gives the date from which the clock reaches the start date in `n` ticks. -/
theorem decode_is_clock (c : Cal) (s : Date) (hs : ValidDate c s) (n : ℕ) :
    valAsDate c s n = some ((nextSecond c)^[n] s) ∧
    ∃ d, valAsDate c s (-(n : ℤ)) = some d ∧ ValidDate c d ∧ (nextSecond c)^[n] d = s := by
  constructor
  · obtain ⟨d, h1, h2, h3⟩ := valAsDate_spec c s hs.month n
    obtain ⟨h4, h5⟩ := abs_iterate c s hs n
    rw [h1]
    exact congrArg some ((count_ok c).abs_inj h2 h4 (by omega))
  · obtain ⟨d, h1, h2, h3⟩ := valAsDate_spec c s hs.month (-(n : ℤ))
    obtain ⟨h4, h5⟩ := abs_iterate c d h2 n
    exact ⟨d, h1, h2, (count_ok c).abs_inj h4 hs (by omega)⟩

/-- C28: changing the start date shifts all offsets by one constant (the offset of the new start
date from the old one), and decoding agrees. The date may have any day, hour, minute, second. -/
theorem start_shift (c : Cal) (s t d : Date) (hs : 1 ≤ s.month ∧ s.month ≤ 12)
    (ht : 1 ≤ t.month ∧ t.month ≤ 12) (hd : 1 ≤ d.month ∧ d.month ≤ 12) :
    ∃ k vs vt, dateAsVal c s t = some k ∧ dateAsVal c s d = some vs ∧ dateAsVal c t d = some vt ∧
      vs = vt + k := by
  exact ⟨_, _, _, dateAsVal_eq c hs ht, dateAsVal_eq c hs hd, dateAsVal_eq c ht hd, by ring⟩

theorem start_shift_decode (c : Cal) (s t : Date) (hs : 1 ≤ s.month ∧ s.month ≤ 12)
    (ht : 1 ≤ t.month ∧ t.month ≤ 12) (v : ℤ) :
    ∃ k, dateAsVal c s t = some k ∧ valAsDate c t v = valAsDate c s (v + k) := by
  refine ⟨_, dateAsVal_eq c hs ht, ?_⟩
  obtain ⟨d, h1, h2, h3⟩ := valAsDate_spec c t ht v
  obtain ⟨e, g1, g2, g3⟩ := valAsDate_spec c s hs (v + ((count c).abs t - (count c).abs s))
  rw [h1, g1]
  exact congrArg some ((count_ok c).abs_inj h2 g2 (by omega))

/-! ### C21, C22: standard calendar -/

theorem standard_date_roundtrip (s d : Date) (hs : 1 ≤ s.month ∧ s.month ≤ 12)
    (hd : ValidDate .standard d) : (dateAsValStd s d).bind (valAsDateStd s) = some d :=
  date_roundtrip .standard s d hs hd

theorem standard_offset_roundtrip (s : Date) (hs : 1 ≤ s.month ∧ s.month ≤ 12) (v : ℤ) :
    ∃ d, valAsDateStd s v = some d ∧ ValidDate .standard d ∧ dateAsValStd s d = some v :=
  offset_roundtrip .standard s hs v

/-- A start month outside 1..12 is rejected by both directions (standard and 365-day). -/
theorem bad_start_month (s d : Date) (v : ℤ) (hs : s.month < 1 ∨ 12 < s.month) :
    dateAsValStd s d = none ∧ valAsDateStd s v = none ∧
    dateAsVal365 s d = none ∧ valAsDate365 s v = none := by
  have : s.month ≤ 0 ∨ s.month > 12 := by omega
  refine ⟨?_, ?_, ?_, ?_⟩ <;> [unfold dateAsValStd; unfold valAsDateStd; unfold dateAsVal365;
    unfold valAsDate365] <;> rw [if_pos this]

example : ValidDate .standard ⟨2000, 2, 29, 12, 30, 59⟩ := by decide
example : dateAsValStd ⟨1900, 1, 1, 0, 0, 0⟩ ⟨2000, 2, 29, 12, 30, 59⟩ = some 3160816259 := by
  decide
example : valAsDateStd ⟨1900, 1, 1, 0, 0, 0⟩ 3160816259 = some ⟨2000, 2, 29, 12, 30, 59⟩ := by
  decide +kernel
example : valAsDateStd ⟨2001, 3, 1, 0, 0, 0⟩ (-1) = some ⟨2001, 2, 28, 23, 59, 59⟩ := by
  decide +kernel

/-! ### C23: 365-day calendar -/

theorem noleap_date_roundtrip (s d : Date) (hs : 1 ≤ s.month ∧ s.month ≤ 12)
    (hd : ValidDate .noleap d) : (dateAsVal365 s d).bind (valAsDate365 s) = some d :=
  date_roundtrip .noleap s d hs hd

theorem noleap_offset_roundtrip (s : Date) (hs : 1 ≤ s.month ∧ s.month ≤ 12) (v : ℤ) :
    ∃ d, valAsDate365 s v = some d ∧ ValidDate .noleap d ∧ dateAsVal365 s d = some v :=
  offset_roundtrip .noleap s hs v

example : valAsDate365 ⟨2001, 3, 1, 0, 0, 0⟩ (-1) = some ⟨2001, 2, 28, 23, 59, 59⟩ := by
  decide +kernel
example : ValidDate .noleap ⟨2000, 12, 31, 0, 0, 0⟩ := by decide

/-! ### C24: 360-day calendar (no condition on the start date at all) -/

theorem d360_date_roundtrip (s d : Date) (hd : ValidDate .days360 d) :
    valAsDate360 s (dateAsVal360 s d) = d := by
  obtain ⟨h1, h2⟩ := valAsDate360_spec s (dateAsVal360 s d)
  refine count360_ok.abs_inj h1 hd ?_
  rw [h2, dateAsVal360_eq]; ring

theorem d360_offset_roundtrip (s : Date) (v : ℤ) :
    ValidDate .days360 (valAsDate360 s v) ∧ dateAsVal360 s (valAsDate360 s v) = v := by
  obtain ⟨h1, h2⟩ := valAsDate360_spec s v
  exact ⟨h1, by rw [dateAsVal360_eq, h2]; ring⟩

example : ValidDate .days360 ⟨2000, 2, 30, 0, 0, 0⟩ := by decide
example : valAsDate360 ⟨2000, 2, 30, 0, 0, 0⟩ (-86400 * 59 - 1) = ⟨1999, 12, 30, 23, 59, 59⟩ := by
  decide +kernel

/-! ### C25: yearless calendar -/

theorem clock_split {r : ℤ} (h0 : 0 ≤ r) :
    r.tmod 60 = r % 60 ∧ (r.tdiv 60).tmod 60 = r / 60 % 60 ∧
    ((r.tdiv 60).tdiv 60).tmod 24 = r / 60 / 60 % 24 := by
  have h1 : 0 ≤ r / 60 := by omega
  have h2 : 0 ≤ r / 60 / 60 := by omega
  rw [tdiv_nonneg' _ h0, tdiv_nonneg' _ h1]
  exact ⟨Int.tmod_eq_emod_of_nonneg h0, Int.tmod_eq_emod_of_nonneg h1,
    Int.tmod_eq_emod_of_nonneg h2⟩

theorem yearless_date_roundtrip (s d : Date) (hy : d.year = 0) (hm : d.month = 1)
    (hh : 0 ≤ d.hour ∧ d.hour < 24) (hmi : 0 ≤ d.minute ∧ d.minute < 60)
    (hse : 0 ≤ d.second ∧ d.second < 60) :
    (dateAsValYearless s d).map (valAsDateYearless s) = some d := by
  unfold dateAsValYearless
  rw [if_neg (by omega), Option.map_some]
  congr 1
  unfold valAsDateYearless tod
  simp only
  obtain ⟨y, m, dd, h, mi, se⟩ := d
  simp only at *
  have e : (dd - s.day) * 86400 + (h - s.hour) * 3600 + (mi - s.minute) * 60 + (se - s.second) +
      (s.day * 86400 + (s.hour * 3600 + s.minute * 60 + s.second)) =
      dd * 86400 + (h * 3600 + mi * 60 + se) := by ring
  rw [e]
  have e2 : (dd * 86400 + (h * 3600 + mi * 60 + se)) / 86400 = dd := by omega
  rw [e2]
  have e3 : dd * 86400 + (h * 3600 + mi * 60 + se) - dd * 86400 = h * 3600 + mi * 60 + se := by ring
  rw [e3]
  obtain ⟨k1, k2, k3⟩ := clock_split (r := h * 3600 + mi * 60 + se) (by omega)
  rw [k1, k2, k3]
  rw [Date.mk.injEq]
  omega

theorem yearless_offset_roundtrip (s : Date) (v : ℤ) :
    dateAsValYearless s (valAsDateYearless s v) = some v ∧
    (valAsDateYearless s v).year = 0 ∧ (valAsDateYearless s v).month = 1 ∧
    (0 ≤ (valAsDateYearless s v).hour ∧ (valAsDateYearless s v).hour < 24) ∧
    (0 ≤ (valAsDateYearless s v).minute ∧ (valAsDateYearless s v).minute < 60) ∧
    (0 ≤ (valAsDateYearless s v).second ∧ (valAsDateYearless s v).second < 60) := by
  have hm : (valAsDateYearless s v).month = 1 := rfl
  unfold dateAsValYearless
  rw [if_neg (by rw [hm]; simp)]
  unfold valAsDateYearless tod
  simp only
  generalize hx : v + (s.day * 86400 + (s.hour * 3600 + s.minute * 60 + s.second)) = x
  have h0 : 0 ≤ x - x / 86400 * 86400 := by omega
  obtain ⟨k1, k2, k3⟩ := clock_split h0
  rw [k1, k2, k3]
  refine ⟨congrArg some ?_, trivial, trivial, ?_⟩ <;> omega

/-- A date with a month other than 1 is refused. -/
theorem yearless_bad_month (s d : Date) (hm : d.month ≠ 1) : dateAsValYearless s d = none := by
  unfold dateAsValYearless; rw [if_pos hm]

example : valAsDateYearless ⟨0, 1, 1, 0, 0, 0⟩ (-1) = ⟨0, 1, 0, 23, 59, 59⟩ := by decide +kernel

/-! ### C26: month wrapping -/

theorem wrapDy_add_mul (m k : ℤ) : wrapDy (m + 12 * k) = wrapDy m + k := by
  rw [wrapDy_eq, wrapDy_eq]; omega

/-- Twelve months are one year, on every calendar, for any month number and any number of
wrapped years. -/
theorem month_wrap (c : Cal) (s : Date) (y m k day hour minute second : ℤ) :
    dateAsVal c s ⟨y, m + 12 * k, day, hour, minute, second⟩ =
    dateAsVal c s ⟨y + k, m, day, hour, minute, second⟩ := by
  cases c
  · simp only [dateAsVal, dateAsValStd, wrapDy_add_mul]
    have e1 : y + (wrapDy m + k) = y + k + wrapDy m := by ring
    have e2 : m + 12 * k - (wrapDy m + k) * 12 = m - wrapDy m * 12 := by ring
    rw [e1, e2]; rfl
  · simp only [dateAsVal, dateAsVal365, wrapDy_add_mul]
    have e1 : y + (wrapDy m + k) = y + k + wrapDy m := by ring
    have e2 : m + 12 * k - (wrapDy m + k) * 12 = m - wrapDy m * 12 := by ring
    rw [e1, e2]; rfl
  · simp only [dateAsVal, dateAsVal360, tod]; congr 1; ring

/-- Month 13 of a year is January of the next, month 0 is December of the previous: as dates
obtained by decoding the offset again. -/
theorem month_wrap_decoded (c : Cal) (s : Date) (hs : 1 ≤ s.month ∧ s.month ≤ 12)
    (y k : ℤ) (d : Date) (hd : ValidDate c { d with year := y + k }) :
    (dateAsVal c s { d with year := y, month := d.month + 12 * k }).bind (valAsDate c s) =
      some { d with year := y + k } := by
  have h := month_wrap c s y d.month k d.day d.hour d.minute d.second
  rw [show ({ d with year := y, month := d.month + 12 * k } : Date) =
    ⟨y, d.month + 12 * k, d.day, d.hour, d.minute, d.second⟩ from rfl, h]
  exact date_roundtrip c s { d with year := y + k } hs hd

example : (dateAsValStd ⟨1980, 1, 1, 0, 0, 0⟩ ⟨1999, 14, 29, 0, 0, 0⟩).bind
    (valAsDateStd ⟨1980, 1, 1, 0, 0, 0⟩) = some ⟨2000, 2, 29, 0, 0, 0⟩ := by decide +kernel

/-! ### C29: day counts between years -/

theorem ndays_sum (y : ℤ) (k : ℕ) :
    ndays y (y + k) = ∑ i ∈ Finset.range k, yearLength (y + i) := by
  induction k with
  | zero => unfold ndays; simp
  | succ k ih =>
    rw [Finset.sum_range_succ, ← ih, ← ndays_succ]
    push_cast
    rw [ndays_add y (y + k), add_assoc]

theorem ndays_swap (a b : ℤ) : ndays b a = - ndays a b := by
  unfold ndays; simp only; ring

example : ndays 1896 1905 = 3287 := by decide

/-! ### the Python layer -/

theorem unitfactor_pos (u : Units) : 0 < unitfactor u := by
  cases u <;> norm_num [unitfactor]

theorem npRound_int (n : ℤ) : npRound (n : ℚ) = n := by
  unfold npRound
  rw [Int.floor_intCast]
  norm_num

theorem npRound_near (x : ℚ) : |(npRound x : ℚ) - x| ≤ 1 / 2 := by
  unfold npRound
  have h1 := Int.floor_le x
  have h2 := Int.lt_floor_add_one x
  split_ifs with a b c
  · rw [abs_le]; constructor <;> linarith
  · push_cast; rw [abs_le]; constructor <;> linarith
  · rw [abs_le]; constructor <;> linarith
  · push_cast; rw [abs_le]; constructor <;> linarith

/-- C58 (values): a date given with all six fields, converted to a value in any unit and back,
is the same date (exact arithmetic). -/
theorem py_date_roundtrip (c : Cal) (s d : Date) (u : Units) (hs : 1 ≤ s.month ∧ s.month ≤ 12)
    (hd : ValidDate c d) :
    ∃ v, dateAsValPy c ⟨some s.year, some s.month, some s.day, some s.hour, some s.minute,
        some s.second⟩ ⟨some d.year, some d.month, some d.day, some d.hour, some d.minute,
        some d.second⟩ u = some v ∧
      valAsDatePy c ⟨some s.year, some s.month, some s.day, some s.hour, some s.minute,
        some s.second⟩ v u false = some ⟨some d.year, some d.month, some d.day, some d.hour,
        some d.minute, some d.second⟩ := by
  have h := date_roundtrip c s d hs hd
  obtain ⟨v, hv⟩ : ∃ v, dateAsVal c s d = some v := ⟨_, dateAsVal_eq c hs hd.month⟩
  rw [hv, Option.bind_some] at h
  refine ⟨(v : ℚ) / unitfactor u, ?_, ?_⟩
  · simp only [dateAsValPy, getDates, Option.getD_some, hv, Option.map_some]
  · have hu := unitfactor_pos u
    have : (v : ℚ) / unitfactor u * unitfactor u = (v : ℚ) := by field_simp
    simp only [valAsDatePy, getDates, Option.getD_some, this, npRound_int, h, Option.map_some]
    simp [keepFields]

/-- The seconds in a unit of time. -/
def _root_.PyGeode.Spec.secondsIn : Units → ℕ
  | .seconds => 1
  | .minutes => 60
  | .hours => 60 * 60
  | .days => 24 * 60 * 60

/-- C58 (units): after `k` minutes (hours, days) on the clock the value has grown by `k`, counted from any valid start
date. -/
theorem py_value_is_clock (c : Cal) (s : Date) (hs : ValidDate c s) (u : Units) (k : ℕ) :
    ∃ d, d = (nextSecond c)^[k * Spec.secondsIn u] s ∧
      dateAsValPy c ⟨some s.year, some s.month, some s.day, some s.hour, some s.minute, some s.second⟩
        ⟨some d.year, some d.month, some d.day, some d.hour, some d.minute, some d.second⟩ u = some (k : ℚ) := by
  refine ⟨_, rfl, ?_⟩
  obtain ⟨h1, h2⟩ := abs_iterate c s hs (k * Spec.secondsIn u)
  simp only [dateAsValPy, getDates, Option.getD_some]
  rw [show (Date.mk ((nextSecond c)^[k * Spec.secondsIn u] s).year ((nextSecond c)^[k * Spec.secondsIn u] s).month
    ((nextSecond c)^[k * Spec.secondsIn u] s).day ((nextSecond c)^[k * Spec.secondsIn u] s).hour
    ((nextSecond c)^[k * Spec.secondsIn u] s).minute ((nextSecond c)^[k * Spec.secondsIn u] s).second) =
    (nextSecond c)^[k * Spec.secondsIn u] s from rfl]
  rw [show (Date.mk s.year s.month s.day s.hour s.minute s.second) = s from rfl]
  rw [dateAsVal_eq c hs.month h1.month, h2, Option.map_some]
  congr 1
  cases u <;> simp only [Spec.secondsIn, unitfactor] <;> push_cast <;> ring

example : ValidDate .standard ⟨2000, 2, 28, 23, 0, 0⟩ := by decide

/-- C58 (dates): a value converted to a date (all fields) and back changes by at most half a
second. -/
theorem py_value_roundtrip (c : Cal) (s : DateDict) (x : ℚ) (u : Units)
    (hs : 1 ≤ s.month.getD 1 ∧ s.month.getD 1 ≤ 12) :
    ∃ d v, valAsDatePy c s x u true = some d ∧ dateAsValPy c s d u = some v ∧
      |v - x| * unitfactor u ≤ 1 / 2 := by
  obtain ⟨d, h1, h2, h3⟩ := offset_roundtrip c (getDates s) hs (npRound (x * unitfactor u))
  refine ⟨keepFields s true d, (npRound (x * unitfactor u) : ℚ) / unitfactor u, ?_, ?_, ?_⟩
  · simp only [valAsDatePy, h1, Option.map_some]
  · have : getDates (keepFields s true d) = d := by simp [getDates, keepFields]
    simp only [dateAsValPy, this, h3, Option.map_some]
  · have hu := unitfactor_pos u
    have e : |(npRound (x * unitfactor u) : ℚ) / unitfactor u - x| * unitfactor u =
        |(npRound (x * unitfactor u) : ℚ) - x * unitfactor u| := by
      rw [← abs_of_pos hu, ← abs_mul, abs_of_pos hu]
      congr 1; field_simp
    rw [e]
    exact npRound_near _

example : valAsDatePy .standard { year := some 2000, month := some 1, day := some 1 } (45/2)
    .days false = some { year := some 2000, month := some 1, day := some 23 } := by decide +kernel

/-- C59: the number of days reported for a month is its length. -/
theorem days_in_month_correct (c : Cal) (yr mn : ℤ) (h : 1 ≤ mn ∧ mn ≤ 12) :
    daysInMonth c yr mn = some (monthLength c yr mn : ℚ) := by
  have key : dateAsVal c ⟨yr, mn, 1, 0, 0, 0⟩ ⟨yr, mn + 1, 1, 0, 0, 0⟩ =
      some (86400 * monthLength c yr mn) := by
    rcases eq_or_lt_of_le h.2 with e | hlt
    · have hw := month_wrap c ⟨yr, mn, 1, 0, 0, 0⟩ yr 1 1 1 0 0 0
      have e2 : mn + 1 = 1 + 12 * 1 := by omega
      rw [e2, hw, dateAsVal_eq c h (by simp)]
      simp only [DayCount.abs, tod]
      rw [(count_ok c).year, (count_ok c).jan, e]
      exact congrArg some (by ring)
    · rw [dateAsVal_eq c h (by simp only; omega)]
      simp only [DayCount.abs, tod]
      rw [(count_ok c).month _ _ h.1 hlt]
      exact congrArg some (by ring)
  simp only [daysInMonth, dateAsValPy, getDates, Option.getD_some, Option.getD_none, key,
    Option.map_some, unitfactor]
  congr 1; push_cast; field_simp

example : daysInMonth .standard 1900 2 = some 28 ∧ daysInMonth .standard 2000 12 = some 31 := by
  decide +kernel

/-- Spec: the day of the year (1 January = 1) of a valid date. -/
def dayOfYear (c : Cal) (y m d : ℤ) : ℤ :=
  ((List.range (m - 1).toNat).map fun k : ℕ => monthLength c y (k + 1)).sum + d

theorem month_offset (c : Cal) (y : ℤ) (m : ℕ) (hm : m < 12) :
    (count c).M y (m + 1) = ((List.range m).map fun k : ℕ => monthLength c y (k + 1)).sum := by
  induction m with
  | zero => simpa using (count_ok c).jan y
  | succ m ih =>
    rw [List.range_succ, List.map_append, List.sum_append, ← ih (by omega)]
    push_cast
    rw [(count_ok c).month y (m + 1) (by omega) (by omega)]
    simp

/-- What the code computes: the day of the year as if the year were 0 — a leap year in the
standard calendar. -/
theorem getdoy_eq (c : Cal) (d : Date) (hd : 1 ≤ d.month ∧ d.month ≤ 12) :
    getdoy c ⟨some d.year, some d.month, some d.day, some d.hour, some d.minute, some d.second⟩ =
      some ((dayOfYear c 0 d.month d.day : ℚ) + (tod d : ℚ) / 86400) := by
  have h := dateAsVal_eq c (s := ⟨0, 1, 0, 0, 0, 0⟩)
    (d := ⟨0, d.month, d.day, d.hour, d.minute, d.second⟩) (by simp) hd
  simp only [getdoy, dateAsValPy, getDates, Option.getD_some, Option.getD_none, h,
    Option.map_some, unitfactor]
  have hm := month_offset c 0 (d.month - 1).toNat (by omega)
  have e : (((d.month - 1).toNat : ℕ) : ℤ) + 1 = d.month := by omega
  rw [e] at hm
  simp only [DayCount.abs, hm, (count_ok c).jan, dayOfYear, tod]
  congr 1
  push_cast
  field_simp
  ring

/-- C60 (partial): the day of the year is right on the 365- and 360-day calendars, and on the
standard calendar in leap years and in January and February. -/
theorem getdoy_correct_partial (c : Cal) (d : Date) (hd : 1 ≤ d.month ∧ d.month ≤ 12)
    (hc : c ≠ .standard ∨ Leap d.year ∨ d.month ≤ 2) :
    getdoy c ⟨some d.year, some d.month, some d.day, some d.hour, some d.minute, some d.second⟩ =
      some ((dayOfYear c d.year d.month d.day : ℚ) + (tod d : ℚ) / 86400) := by
  rw [getdoy_eq c d hd]
  have : dayOfYear c 0 d.month d.day = dayOfYear c d.year d.month d.day := by
    unfold dayOfYear
    congr 2
    apply List.map_congr_left
    intro k hk
    rw [List.mem_range] at hk
    cases c
    · rcases hc with h | h | h
      · exact absurd rfl h
      · simp only [monthLength, h, if_true]
        have : Leap 0 := by decide
        simp only [this, if_true]
      · have : k = 0 := by omega
        subst this
        simp [monthLength]
    · rfl
    · rfl
  rw [this]

/-- C60 is false of the code: 1 March 2001 is day 60 of its year, the code says 61. -/
theorem getdoy_violated :
    dayOfYear .standard 2001 3 1 = 60 ∧
    getdoy .standard ⟨some 2001, some 3, some 1, some 0, some 0, some 0⟩ = some 61 := by
  decide +kernel

end PyGeode.Calendar
