/-
Model of the generators of time ticks, /repo/pygeode/timeticker.py:3-506: `TickGenerator` and its subclasses for years, months,
days of the month, hours, minutes and seconds. Not modelled: seasons, days of the year and plain days. Values are exact rationals.
-/
import Verif.Model.TimeRange

namespace PyGeode
namespace Ticks
open Calendar

/-- The time axis of a generator: calendar, start date, units. -/
structure TAxis where
  c : Cal
  start : DateDict
  u : Units

/-- `taxis.date_as_val(d)`, timeaxis.py:744-773 -/
def TAxis.value (t : TAxis) (d : DateDict) : Option ℚ := dateAsValPy t.c t.start d t.u

/-- `taxis.val_as_date(v, allfields=True)`, timeaxis.py:708-740 -/
def TAxis.date (t : TAxis) (v : ℚ) : Option DateDict := valAsDatePy t.c t.start v t.u true

/-- `wrapdate(taxis, d, allfields=True)`, /repo/pygeode/timeutils.py:124-129 -/
def TAxis.wrap (t : TAxis) (d : DateDict) : Option DateDict := (t.value d).bind t.date

/-- the class of the generator -/
inductive Gen | year | month | day | hour | minute | second
  deriving DecidableEq, Repr

/-- `YearTickGen.get_tick_prior`, timeticker.py:80-92. `floor_divide` is `/`: the multiple is positive. -/
def yearPrior (t : TAxis) (mult : ℤ) (v : ℚ) : Option DateDict := do
  let dt ← t.date v
  let yr := dt.year.getD 1
  let w ← t.value { year := some yr }
  let yr := if v > w then yr + 1 else yr
  some { year := some ((yr - 1) / mult * mult) }

/-- `YearTickGen.next_tick`, timeticker.py:94-99 -/
def yearNext (t : TAxis) (mult : ℤ) (v : ℚ) : Option ℚ := do
  let d ← t.date v
  t.value { d with year := some (d.year.getD 1 + mult) }

/-- timeticker.py:128-131 -/
def monthStep (t : TAxis) (v w : ℚ) (dt : DateDict) : Option DateDict :=
  if v > w then t.wrap { year := some (dt.year.getD 1), month := some (dt.month.getD 1 + 1) } else some dt

/-- `MonthTickGen.get_tick_prior`, timeticker.py:118-138 -/
def monthPrior (t : TAxis) (mult : ℤ) (v : ℚ) : Option DateDict := do
  let dt ← t.date v
  let w ← t.value { year := some (dt.year.getD 1), month := some (dt.month.getD 1) }
  let dt ← monthStep t v w dt
  t.wrap { year := some (dt.year.getD 1), month := some ((dt.month.getD 1 - 2) / mult * mult + 1) }

/-- `MonthTickGen.next_tick`, timeticker.py:140-145 -/
def monthNext (t : TAxis) (mult : ℤ) (v : ℚ) : Option ℚ := do
  let d ← t.date v
  t.value { d with month := some (d.month.getD 1 + mult) }

/-- the field of the hour, minute and second generators -/
inductive Level | hour | minute | second
  deriving DecidableEq, Repr

/-- the units of the differences, timeticker.py:343, 369, 403, 429, 463, 490 -/
def Level.units : Level → Units
  | .hour => .hours
  | .minute => .minutes
  | .second => .seconds

/-- the last component of `unpack`, timeticker.py:352, 412, 473 -/
def Level.field : Level → DateDict → ℤ
  | .hour, d => d.hour.getD 0
  | .minute, d => d.minute.getD 0
  | .second, d => d.second.getD 0

/-- `pack(yr, mn, dy, x)`, timeticker.py:353; with the hour, line 413; with the minute, line 474 -/
def Level.pack : Level → DateDict → ℤ → DateDict
  | .hour, d, x => { year := some (d.year.getD 1), month := some (d.month.getD 1), day := some (d.day.getD 1), hour := some x }
  | .minute, d, x => { year := some (d.year.getD 1), month := some (d.month.getD 1), day := some (d.day.getD 1),
                       hour := some (d.hour.getD 0), minute := some x }
  | .second, d, x => { year := some (d.year.getD 1), month := some (d.month.getD 1), day := some (d.day.getD 1),
                       hour := some (d.hour.getD 0), minute := some (d.minute.getD 0), second := some x }

/-- the beginning of the next day, hour or minute, timeticker.py:367, 427, 488 -/
def Level.after : Level → DateDict → DateDict
  | .hour, d => Level.pack .hour { d with day := some (d.day.getD 1 + 1) } 0
  | .minute, d => Level.pack .minute { d with hour := some (d.hour.getD 0 + 1) } 0
  | .second, d => Level.pack .second { d with minute := some (d.minute.getD 0 + 1) } 0

/-- `d['hour'] += mult`, timeticker.py:379, 439, 500 -/
def Level.add : Level → DateDict → ℤ → DateDict
  | .hour, d, m => { d with hour := some (d.hour.getD 0 + m) }
  | .minute, d, m => { d with minute := some (d.minute.getD 0 + m) }
  | .second, d, m => { d with second := some (d.second.getD 0 + m) }

/-- `d1['day'] += 1; d1['hour'] = 0`, timeticker.py:380, 440, 501 -/
def Level.bump : Level → DateDict → DateDict
  | .hour, d => { d with day := some (d.day.getD 1 + 1), hour := some 0 }
  | .minute, d => { d with hour := some (d.hour.getD 0 + 1), minute := some 0 }
  | .second, d => { d with minute := some (d.minute.getD 0 + 1), second := some 0 }

/-- timeticker.py:358-359 (and 418-419, 479-480) -/
def levelStep (t : TAxis) (lv : Level) (v w : ℚ) (dt : DateDict) : Option DateDict :=
  if v > w then t.wrap (lv.pack dt (lv.field dt + 1)) else some dt

/-- `get_tick_prior` of the hour, minute and second generators, timeticker.py:346-373, 406-433, 467-494 -/
def levelPrior (t : TAxis) (lv : Level) (mult : ℤ) (v : ℚ) : Option DateDict := do
  let dt ← t.date v
  let w ← t.value (lv.pack dt (lv.field dt))
  let dt ← levelStep t lv v w dt
  let d ← t.wrap (lv.pack dt ((lv.field dt - 1) / mult * mult))
  let d1 ← t.wrap (lv.after dt)
  let q ← dateAsValPy t.c d d1 lv.units
  if q < (mult : ℚ) / 2 then some d1 else some d

/-- `next_tick` of the hour, minute and second generators, timeticker.py:375-385, 435-445, 496-506 -/
def levelNext (t : TAxis) (lv : Level) (mult : ℤ) (v : ℚ) : Option ℚ := do
  let d ← t.date v
  let q ← dateAsValPy t.c (lv.add d mult) (lv.bump d) lv.units
  if q < (mult : ℚ) / 2 then t.value (lv.bump d) else t.value (lv.add d mult)

/-- timeticker.py:234-235 -/
def dayStep (t : TAxis) (v w : ℚ) (dt : DateDict) : Option DateDict :=
  if v > w then t.wrap { year := some (dt.year.getD 1), month := some (dt.month.getD 1), day := some (dt.day.getD 1 + 1) }
  else some dt

/-- `DayOfMonthTickGen.get_tick_prior`, timeticker.py:223-249 -/
def dayPrior (t : TAxis) (mult : ℤ) (v : ℚ) : Option DateDict := do
  let dt ← t.date v
  let w ← t.value { year := some (dt.year.getD 1), month := some (dt.month.getD 1), day := some (dt.day.getD 1) }
  let dt ← dayStep t v w dt
  let d ← t.wrap { year := some (dt.year.getD 1), month := some (dt.month.getD 1), day := some ((dt.day.getD 1 - 2) / mult * mult + 1) }
  let d1 ← t.wrap { year := some (dt.year.getD 1), month := some (dt.month.getD 1 + 1), day := some 1 }
  let q ← dateAsValPy t.c d d1 .days
  if q < (mult : ℚ) / 2 then some d1 else some d

/-- `DayOfMonthTickGen.next_tick`, timeticker.py:251-261 -/
def dayNext (t : TAxis) (mult : ℤ) (v : ℚ) : Option ℚ := do
  let d ← t.date v
  let e : DateDict := { d with day := some (d.day.getD 1 + mult) }
  let d1 : DateDict := { d with month := some (d.month.getD 1 + 1), day := some 1 }
  let q ← dateAsValPy t.c e d1 .days
  if q < (mult : ℚ) / 2 then t.value d1 else t.value e

/-- `self.get_tick_prior(v)` -/
def prior (t : TAxis) : Gen → ℤ → ℚ → Option DateDict
  | .year => yearPrior t
  | .month => monthPrior t
  | .day => dayPrior t
  | .hour => levelPrior t .hour
  | .minute => levelPrior t .minute
  | .second => levelPrior t .second

/-- `self.next_tick(v)` -/
def next (t : TAxis) : Gen → ℤ → ℚ → Option ℚ
  | .year => yearNext t
  | .month => monthNext t
  | .day => dayNext t
  | .hour => levelNext t .hour
  | .minute => levelNext t .minute
  | .second => levelNext t .second

/-- the loop of `ticks`, timeticker.py:35-37; `none` if it has not ended within the fuel (or a date cannot be converted) -/
def loop (next : ℚ → Option ℚ) (vf : ℚ) : ℕ → ℚ → Option (List ℚ)
  | 0, _ => none
  | fuel + 1, v => if v < vf then do
      let w ← next v
      let r ← loop next vf fuel w
      some (w :: r)
    else some []

/-- `TickGenerator.ticks(vmin, vmax, mult)`, timeticker.py:26-38 -/
def ticks (t : TAxis) (g : Gen) (mult : ℤ) (vmin vmax : ℚ) (fuel : ℕ) : Option (List ℚ) := do
  let d1 ← prior t g mult vmin
  let d2 ← prior t g mult vmax
  let v ← t.value d1
  let vf ← t.value d2
  loop (next t g mult) vf fuel v

/-- `nticks(vmin, vmax, mult)`, timeticker.py:101-108 (years), 147-160 (months), 337-344, 397-404, 457-465; 19-24 (days). The first two make `mult`
the multiple of the generator, the others go on with the one it has, `self`. -/
def nticks (t : TAxis) (g : Gen) (self mult : ℤ) (vmin vmax : ℚ) (fuel : ℕ) : Option ℚ :=
  match g with
  | .year => do
      let d1 ← prior t .year mult vmin
      let d2 ← prior t .year mult vmax
      some (((d2.year.getD 0 - d1.year.getD 0 : ℤ) : ℚ) / mult)
  | .month => do
      let d1 ← prior t .month mult vmin
      let d2 ← prior t .month mult vmax
      some (((12 * d2.year.getD 0 + d2.month.getD 0 - (12 * d1.year.getD 0 + d1.month.getD 0) : ℤ) : ℚ) / mult)
  | .day => (ticks t .day mult vmin vmax fuel).map fun l => (l.length : ℚ)
  | .hour => do
      let d1 ← prior t .hour self vmin
      let d2 ← prior t .hour self vmax
      let q ← dateAsValPy t.c d1 d2 .hours
      some (q / mult)
  | .minute => do
      let d1 ← prior t .minute self vmin
      let d2 ← prior t .minute self vmax
      let q ← dateAsValPy t.c d1 d2 .minutes
      some (q / mult)
  | .second => do
      let d1 ← prior t .second self vmin
      let d2 ← prior t .second self vmax
      let q ← dateAsValPy t.c d1 d2 .seconds
      some (q / mult)

/-- The loop of `TickGenerator.best_mult`, timeticker.py:51-64: `count i` is `self.nticks(vmin, vmax, mults[i])`, `n` the number of
multiples. `none` if it has not ended within the fuel. -/
def bestLoop (count : ℕ → ℚ) (n : ℕ) (want : ℚ) : ℕ → ℕ → ℚ → Option (ℚ × ℕ)
  | 0, _, _ => none
  | fuel + 1, i, nt =>
    if want < nt ∧ 0 < i then
      if nt - want ≤ want - count (i - 1) then some (nt, i)
      else if count (i - 1) ≤ want then some (count (i - 1), i - 1)
      else bestLoop count n want fuel (i - 1) (count (i - 1))
    else if nt < want ∧ i < n - 1 then
      if want - nt < count (i + 1) - want then some (nt, i)
      else if want < count (i + 1) then some (count (i + 1), i + 1)
      else bestLoop count n want fuel (i + 1) (count (i + 1))
    else some (nt, i)

/-- `TickGenerator.best_mult`, timeticker.py:40-68; `i` is `self.imult` -/
def bestMult (count : ℕ → ℚ) (n : ℕ) (want : ℚ) (i fuel : ℕ) : Option (ℚ × ℕ) := bestLoop count n want fuel i (count i)

end Ticks
end PyGeode
