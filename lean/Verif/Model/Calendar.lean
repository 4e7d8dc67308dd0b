/-
Model of the calendar conversions of /repo/pygeode/timeaxis.c (lines 209-600).
C `int` / `long long` are unbounded integers; C division and remainder truncate towards zero
(`Int.tdiv`, `Int.tmod`); `floor(x/4.)` is floor division (`/` on `ℤ` with a positive divisor).
Each C routine loops over an array of dates independently; the model is one iteration.
-/
import Mathlib.Data.Int.Notation
import Mathlib.Data.Nat.Notation
import Mathlib.Tactic.Linarith
import Mathlib.Tactic.Ring

namespace PyGeode.Calendar

/-- A date with all six fields (the six parallel C arrays). -/
structure Date where
  year : ℤ
  month : ℤ
  day : ℤ
  hour : ℤ
  minute : ℤ
  second : ℤ
  deriving DecidableEq, Repr

/-- The calendar classes with years and months, /repo/pygeode/timeaxis.py:783-815
(`StandardTime`, `ModelTime365`, `ModelTime360`). -/
inductive Cal
  | standard | noleap | days360
  deriving DecidableEq, Repr

/-- `isleap(y)`, /repo/pygeode/timeaxis.c:217. -/
def isleap (y : ℤ) : Bool :=
  decide (y.tmod 4 = 0) && (decide (y.tmod 100 ≠ 0) || decide (y.tmod 400 = 0))

/-- `ndays(year1, year2)`, /repo/pygeode/timeaxis.c:220-247. -/
def ndays (year1 year2 : ℤ) : ℤ :=
  let y1 := year1 - 1                                   -- line 231
  let y2 := year2 - 1
  (y2 - y1) * 365 + (y2 / 4 - y1 / 4) - (y2 / 100 - y1 / 100) + (y2 / 400 - y1 / 400)

/-- The table `month2doy` of /repo/pygeode/timeaxis.c:260-263 (rows: non-leap, leap). -/
def month2doy (leap : Bool) (m : ℕ) : ℤ :=
  if leap then ([0, 0, 31, 60, 91, 121, 152, 182, 213, 244, 274, 305, 335] : List ℤ).getD m 0
  else ([0, 0, 31, 59, 90, 120, 151, 181, 212, 243, 273, 304, 334] : List ℤ).getD m 0

/-- Month wrapping, /repo/pygeode/timeaxis.c:274-277 and 398-401: the year shift. -/
def wrapDy (m : ℤ) : ℤ := if m < 1 then (m - 12).tdiv 12 else (m - 1).tdiv 12

/-- time of day in seconds: `hour*3600 + minute*60 + second` (e.g. timeaxis.c:280) -/
def tod (d : Date) : ℤ := d.hour * 3600 + d.minute * 60 + d.second

/-- `ref` of the standard calendar, /repo/pygeode/timeaxis.c:266 and 302. -/
def refStd (s : Date) : ℤ :=
  (month2doy (isleap s.year) s.month.toNat + s.day - 1) * 86400 + tod s

/-- `date_as_val_std`, /repo/pygeode/timeaxis.c:254-286: seconds from start date `s` to `d`.
`none`: the start month is rejected by `check_month` (line 251). -/
def dateAsValStd (s d : Date) : Option ℤ :=
  if s.month ≤ 0 ∨ s.month > 12 then none
  else
    let dy := wrapDy d.month
    let y := d.year + dy                                  -- line 276
    let m := d.month - dy * 12                            -- line 277
    some ((ndays s.year y + month2doy (isleap y) m.toNat + d.day - 1) * 86400
      + tod d - refStd s)                                 -- lines 279-282

theorem ndays_succ_ge (y : ℤ) : 365 ≤ ndays y (y + 1) := by
  unfold ndays; simp only; omega

theorem ndays_back (y k : ℤ) (hk : 0 ≤ k) : 365 * k ≤ ndays (y - k) y := by
  unfold ndays; simp only; omega

/-- The loop making `s` non-negative, /repo/pygeode/timeaxis.c:310-315. -/
def backUp (s y : ℤ) : ℤ × ℤ :=
  if h : s < 0 then
    let yback := y - 1 - ((-s).tdiv 365).tdiv 86400       -- line 311
    backUp (s + ndays yback y * 86400) yback              -- lines 313-314
  else (s, y)
  termination_by (-s).toNat
  decreasing_by
    have h1 : 0 ≤ ((-s).tdiv 365).tdiv 86400 :=
      Int.tdiv_nonneg (Int.tdiv_nonneg (by omega) (by omega)) (by omega)
    have h2 := ndays_back y (1 + ((-s).tdiv 365).tdiv 86400) (by omega)
    have h3 : y - (1 + ((-s).tdiv 365).tdiv 86400) = y - 1 - ((-s).tdiv 365).tdiv 86400 := by ring
    rw [h3] at h2
    omega

/-- The loop stepping forward one year at a time, /repo/pygeode/timeaxis.c:343-346. -/
def stepYears (d y : ℤ) : ℤ × ℤ :=
  if h : d ≥ ndays y (y + 1) then stepYears (d - ndays y (y + 1)) (y + 1) else (d, y)
  termination_by d.toNat
  decreasing_by
    have := ndays_succ_ge y
    omega

/-- `while (month2doy[l][m] > d) m--`, /repo/pygeode/timeaxis.c:358. -/
def fixMonth (leap : Bool) (d : ℤ) : ℕ → ℕ
  | 0 => 0
  | m + 1 => if month2doy leap (m + 1) > d then fixMonth leap d m else m + 1

/-- month estimate and correction, /repo/pygeode/timeaxis.c:355-358 -/
def monthOfStd (leap : Bool) (d : ℤ) : ℕ :=
  let m := (d.tdiv 29 + 1).toNat
  let m := if m > 12 then 12 else m
  fixMonth leap d m

/-- `val_as_date_std`, /repo/pygeode/timeaxis.c:290-370. -/
def valAsDateStd (s : Date) (val : ℤ) : Option Date :=
  if s.month ≤ 0 ∨ s.month > 12 then none
  else
    let sy := backUp (val + refStd s) s.year              -- lines 305-315
    let d := sy.1.tdiv 86400                              -- line 318
    let r := sy.1 - d * 86400                             -- line 322
    let yf := sy.2 + d.tdiv 366                           -- line 335
    let dy := stepYears (d - ndays sy.2 yf) yf            -- lines 336-346
    let m := monthOfStd (isleap dy.2) dy.1
    some { year := dy.2
           month := m
           day := dy.1 - month2doy (isleap dy.2) m + 1    -- line 360
           hour := r.tdiv 3600                            -- line 323
           minute := (r.tmod 3600).tdiv 60                -- lines 324-325
           second := (r.tmod 3600).tmod 60 }              -- line 326

/-! 365-day calendar -/

/-- `date_as_val_365`, /repo/pygeode/timeaxis.c:381-410. -/
def dateAsVal365 (s d : Date) : Option ℤ :=
  if s.month ≤ 0 ∨ s.month > 12 then none
  else
    let ref := (month2doy false s.month.toNat + s.day - 1) * 86400 + tod s
    let dy := wrapDy d.month
    let y := d.year + dy
    let m := d.month - dy * 12
    some ((365 * (y - s.year) + month2doy false m.toNat + d.day - 1) * 86400 + tod d - ref)

/-- `while (month2doy[m] >= d) m--`, /repo/pygeode/timeaxis.c:455. -/
def fixMonth365 (d : ℤ) : ℕ → ℕ
  | 0 => 0
  | m + 1 => if month2doy false (m + 1) ≥ d then fixMonth365 d m else m + 1

/-- split of seconds into days and time of day with correction for negative values,
/repo/pygeode/timeaxis.c:430-433 and 506-509: `(days, seconds of day)` -/
def splitDay (x : ℤ) : ℤ × ℤ :=
  let d := x.tdiv 86400
  let s := x - d * 86400
  if s < 0 then (d - 1, s + 86400) else (d, s)

/-- Moving the day-of-year into `1..len` for a fixed year length,
/repo/pygeode/timeaxis.c:440-449 and 516-525: `(day of year, year)` -/
def fixedYear (len d y : ℤ) : ℤ × ℤ :=
  let ny := (len - d).tdiv len
  let dy : ℤ × ℤ := if d ≤ 0 then (d + len * ny, y - ny) else (d, y)
  let ny2 := (dy.1 - 1).tdiv len
  if dy.1 > len then (dy.1 - len * ny2, dy.2 + ny2) else dy

/-- `val_as_date_365`, /repo/pygeode/timeaxis.c:415-462. (Here `ref` uses `iday`, not `iday - 1`.) -/
def valAsDate365 (s : Date) (val : ℤ) : Option Date :=
  if s.month ≤ 0 ∨ s.month > 12 then none
  else
    let ref := (month2doy false s.month.toNat + s.day) * 86400 + tod s
    let ds := splitDay (val + ref)
    let dy := fixedYear 365 ds.1 s.year
    let m := (dy.1.tdiv 30 + 1).toNat
    let m := if m > 12 then 12 else m
    let m := fixMonth365 dy.1 m
    some { year := dy.2, month := m, day := dy.1 - month2doy false m,
           hour := ds.2.tdiv 3600, minute := (ds.2.tmod 3600).tdiv 60,
           second := (ds.2.tmod 3600).tmod 60 }

/-! 360-day calendar -/

/-- `date_as_val_360`, /repo/pygeode/timeaxis.c:472-491 (no month wrapping, no month check). -/
def dateAsVal360 (s d : Date) : ℤ :=
  let ref := ((s.month - 1) * 30 + s.day) * 86400 + tod s
  (360 * (d.year - s.year) + (d.month - 1) * 30 + d.day) * 86400 + tod d - ref

/-- `val_as_date_360`, /repo/pygeode/timeaxis.c:494-536. -/
def valAsDate360 (s : Date) (val : ℤ) : Date :=
  let ref := ((s.month - 1) * 30 + s.day) * 86400 + tod s
  let ds := splitDay (val + ref)
  let dy := fixedYear 360 ds.1 s.year
  let m := (dy.1 - 1).tdiv 30 + 1
  { year := dy.2, month := m, day := dy.1 - 30 * (m - 1),
    hour := ds.2.tdiv 3600, minute := (ds.2.tmod 3600).tdiv 60,
    second := (ds.2.tmod 3600).tmod 60 }

/-! yearless calendar -/

/-- `date_as_val_yearless`, /repo/pygeode/timeaxis.c:547-572: `none` when the month is not 1
(error return -1) — a nonzero year only prints a warning. The asserts on the start year/month
are preconditions of the caller. -/
def dateAsValYearless (s d : Date) : Option ℤ :=
  if d.month ≠ 1 then none
  else some ((d.day - s.day) * 86400 + (d.hour - s.hour) * 3600
    + (d.minute - s.minute) * 60 + (d.second - s.second))

/-- `val_as_date_yearless`, /repo/pygeode/timeaxis.c:575-598. `floor(x/86400.)` is floor
division (exact arithmetic instead of a double quotient). -/
def valAsDateYearless (s : Date) (val : ℤ) : Date :=
  let ref := s.day * 86400 + tod s
  let x := val + ref
  let day := x / 86400
  let x := x - day * 86400
  let second := x.tmod 60
  let x := x.tdiv 60
  let minute := x.tmod 60
  let x := x.tdiv 60
  let hour := x.tmod 24
  { year := 0, month := 1, day := day, hour := hour, minute := minute, second := second }

end PyGeode.Calendar
