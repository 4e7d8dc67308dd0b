/-
Model of the Python layer over the calendar routines: `CalendarTime` of
/repo/pygeode/timeaxis.py:455-774 and the seasonal axes (lines 820-1005).
Floating point values are exact rationals.
-/
import Verif.Model.Calendar
import Mathlib.Data.Rat.Floor

namespace PyGeode.Calendar

/-- dispatch to the C routine of the calendar class, /repo/pygeode/timeaxis.py:783-815 -/
def dateAsVal (c : Cal) (s d : Date) : Option ℤ :=
  match c with
  | .standard => dateAsValStd s d
  | .noleap => dateAsVal365 s d
  | .days360 => some (dateAsVal360 s d)

/-- dispatch to the C routine of the calendar class, /repo/pygeode/timeaxis.py:783-815 -/
def valAsDate (c : Cal) (s : Date) (v : ℤ) : Option Date :=
  match c with
  | .standard => valAsDateStd s v
  | .noleap => valAsDate365 s v
  | .days360 => some (valAsDate360 s v)

/-- A date dictionary: every field may be missing. -/
structure DateDict where
  year : Option ℤ := none
  month : Option ℤ := none
  day : Option ℤ := none
  hour : Option ℤ := none
  minute : Option ℤ := none
  second : Option ℤ := none
  deriving DecidableEq, Repr

/-- `CalendarTime._get_dates`, /repo/pygeode/timeaxis.py:662-702 (one date): missing fields. -/
def getDates (d : DateDict) : Date :=
  { year := d.year.getD 0, month := d.month.getD 1, day := d.day.getD 1,
    hour := d.hour.getD 0, minute := d.minute.getD 0, second := d.second.getD 0 }

/-- the units of a time axis, keys of `unitfactor`, /repo/pygeode/timeaxis.py:352 -/
inductive Units
  | seconds | minutes | hours | days
  deriving DecidableEq, Repr

/-- `CalendarTime.unitfactor`, /repo/pygeode/timeaxis.py:352 -/
def unitfactor : Units → ℚ
  | .seconds => 1
  | .minutes => 60
  | .hours => 3600
  | .days => 86400

/-- `np.round` to an integer: nearest, ties to even. -/
def npRound (x : ℚ) : ℤ :=
  if x - ⌊x⌋ < 1 / 2 then ⌊x⌋
  else if 1 / 2 < x - ⌊x⌋ then ⌊x⌋ + 1
  else if ⌊x⌋ % 2 = 0 then ⌊x⌋ else ⌊x⌋ + 1

/-- `CalendarTime.date_as_val` of one date, /repo/pygeode/timeaxis.py:744-773. -/
def dateAsValPy (c : Cal) (startdate dates : DateDict) (u : Units) : Option ℚ :=
  (dateAsVal c (getDates startdate) (getDates dates)).map fun v : ℤ => (v : ℚ) / unitfactor u

/-- lines 735-737: keep only the fields present in the start date -/
def keepFields (startdate : DateDict) (allfields : Bool) (d : Date) : DateDict :=
  let k (f : Option ℤ) (x : ℤ) : Option ℤ := if allfields || f.isSome then some x else none
  { year := k startdate.year d.year, month := k startdate.month d.month,
    day := k startdate.day d.day, hour := k startdate.hour d.hour,
    minute := k startdate.minute d.minute, second := k startdate.second d.second }

/-- `CalendarTime.val_as_date` of one value, /repo/pygeode/timeaxis.py:708-740. -/
def valAsDatePy (c : Cal) (startdate : DateDict) (val : ℚ) (u : Units) (allfields : Bool) :
    Option DateDict :=
  (valAsDate c (getDates startdate) (npRound (val * unitfactor u))).map
    (keepFields startdate allfields)

/-- `CalendarTime._getdoy`, /repo/pygeode/timeaxis.py:455-459: the year is removed (so it becomes
0) and the start date is day 0 of January of year 0. -/
def getdoy (c : Cal) (d : DateDict) : Option ℚ :=
  dateAsValPy c { month := some 1, day := some 0, hour := some 0, minute := some 0,
                  second := some 0 } { d with year := none } .days

/-- `CalendarTime.days_in_month`, /repo/pygeode/timeaxis.py:464-467. -/
def daysInMonth (c : Cal) (yr mn : ℤ) : Option ℚ :=
  dateAsValPy c { year := some yr, month := some mn } { year := some yr, month := some (mn + 1) }
    .days

/-- `season_boundaries`, /repo/pygeode/timeaxis.py:833 -/
def seasonBoundaries : List (ℚ × ℚ) := [(-30, 60), (60, 152), (152, 244), (244, 335)]

/-- One pass of the array branch of `_get_seasons`, /repo/pygeode/timeaxis.py:850-856, for one
element: state is `(year, season)`. -/
def seasonStep (doy : ℚ) (st : ℤ × ℤ) (i : ℕ) (b : ℚ × ℚ) : ℤ × ℤ :=
  let mplus : Bool := decide (b.1 ≤ doy - 365) && decide (doy - 365 < b.2)
  let m : Bool := decide (b.1 ≤ doy) && decide (doy < b.2)
  let mminus : Bool := decide (b.1 ≤ doy + 365) && decide (doy + 365 < b.2)
  let y := if mplus then st.1 + 1 else st.1
  let y := if mminus then y - 1 else y
  (y, if mplus || m || mminus then (i : ℤ) + 1 else st.2)

/-- `_get_seasons`, /repo/pygeode/timeaxis.py:842-863 (array branch), one date:
`(year, season)`, season 1 = DJF .. 4 = SON, 0 = none found. -/
def getSeasons (c : Cal) (d : DateDict) : Option (ℤ × ℤ) :=
  (getdoy c d).map fun doy =>
    seasonBoundaries.zipIdx.foldl (fun st bi => seasonStep doy st bi.2 bi.1)
      ((getDates d).year, 0)

end PyGeode.Calendar
