/-
Model of the construction of time axes, `CalendarTime.__init__` and `Time.__init__` (/repo/pygeode/timeaxis.py:355-420 and 72-126), of slicing them
(/repo/pygeode/axis.py:357-378) and of `reltime`, `wrapdate` and `conform_values` (/repo/pygeode/timeutils.py:86-93, 124-129, 141-177), for the three
calendars with years (`c`). Values are exact rationals, date fields unbounded integers. Encoded dates (`datefmt`) are in `Model/Cf`.
-/
import Verif.Model.CalendarPy

namespace PyGeode
namespace TimeInit
open Calendar

/-- which of the date fields are given -/
structure Mask where
  year : Bool
  month : Bool
  day : Bool
  hour : Bool
  minute : Bool
  second : Bool
deriving DecidableEq

/-- `allowed_fields` in order, timeaxis.py:349 -/
def Mask.list (m : Mask) : List Bool := [m.year, m.month, m.day, m.hour, m.minute, m.second]

/-- the dictionary of the given fields of a date -/
def Mask.dict (m : Mask) (d : Date) : DateDict :=
  { year := if m.year then some d.year else none, month := if m.month then some d.month else none, day := if m.day then some d.day else none
    hour := if m.hour then some d.hour else none, minute := if m.minute then some d.minute else none, second := if m.second then some d.second else none }

/-- the keys of a dictionary -/
def maskOf (d : DateDict) : Mask :=
  { year := d.year.isSome, month := d.month.isSome, day := d.day.isSome, hour := d.hour.isSome, minute := d.minute.isSome, second := d.second.isSome }

/-- `dict(default, **startdate)`, timeaxis.py:374-378: unlike in `_get_dates` the year is 1 if it is not given -/
def fill (s : DateDict) : Date :=
  { year := s.year.getD 1, month := s.month.getD 1, day := s.day.getD 1, hour := s.hour.getD 0, minute := s.minute.getD 0, second := s.second.getD 0 }

/-- all fields -/
def allFields : Mask := ⟨true, true, true, true, true, true⟩

/-- a time axis: `units`, `startdate`, the auxiliary arrays as a list of dates with the fields `mask`, and `values` -/
structure TAx where
  cal : Cal
  units : Units
  start : DateDict
  mask : Mask
  dates : List DateDict
  values : List ℚ
deriving DecidableEq

/-- timeaxis.py:108, 121, 124-125: the values are made from the dates, whatever values were given -/
def finish (c : Cal) (u : Units) (s : DateDict) (m : Mask) (dates : List DateDict) : Option TAx :=
  (dates.mapM fun d => dateAsValPy c s d u).map fun v => ⟨c, u, s, m, dates, v⟩

/-- the constructor, timeaxis.py:373-420 and 72-126. `fields` are the arrays given, all of the same length, as dates of which only the fields of the mask
are used. `none` is an exception. -/
def make (c : Cal) (values : Option (List ℚ)) (units : Option Units) (start : Option DateDict) (fields : Option (Mask × List Date)) : Option TAx :=
  match fields.filter fun p => p.1.list.any id with
  | none =>                                                                     -- lines 88-94; values without units are ignored, lines 407-411
    if units = none then none
    else values.bind fun vals => start.bind fun s =>
      let s := allFields.dict (fill s)
      (vals.mapM fun x => valAsDatePy c s x (units.getD .days) false).bind (finish c (units.getD .days) s allFields)
  | some (m, ds) =>
    let dates := ds.map m.dict
    match start with
    | some s => finish c (units.getD .days) (m.dict (fill s)) m dates            -- lines 382-383
    | none => dates.head?.bind fun s => finish c (units.getD .days) s m dates    -- lines 98-101

/-- `axis[slices]`, axis.py:357-378, for the positions `P` that the slice selects. If the values are the same, the axis itself is returned (line 364). -/
def slice (t : TAx) (P : List ℕ) : Option TAx :=
  if (P.filterMap fun i => t.values[i]?) = t.values then some t
  else make t.cal (some (P.filterMap fun i => t.values[i]?)) (some t.units) (some t.start) (some (t.mask, P.filterMap fun i => t.dates[i]?.map getDates))

/-- `reltime(taxis, startdate, units)`, timeutils.py:86-93 -/
def reltime (t : TAx) (start : Option DateDict) (units : Option Units) : Option (List ℚ) :=
  t.dates.mapM fun d => dateAsValPy t.cal (start.getD t.start) d (units.getD t.units)

/-- `wrapdate(taxis, dt, allfields)`, timeutils.py:124-129 -/
def wrapdate (t : TAx) (d : DateDict) (allfields : Bool) : Option DateDict :=
  (dateAsValPy t.cal t.start d t.units).bind fun v => valAsDatePy t.cal t.start v t.units allfields

/-- `set(a) <= set(b)` of the names of fields -/
def Mask.le (a b : Mask) : Bool := (a.list.zip b.list).all fun p => !p.1 || p.2

/-- the loop of `conform_values`, timeutils.py:161-168: `false` is an assertion that fails -/
def trailing : Bool → List (Bool × Bool) → Bool
  | _, [] => true
  | e, (x, y) :: l => if !x then trailing e l else if e && y then false else trailing (e || !y) l

/-- `conform_values(taxis1, taxis2)`, timeutils.py:141-177 -/
def conform (t1 t2 : TAx) : Option (TAx × TAx) :=
  if t1.cal = t2.cal then
    let p := if t1.mask.le t2.mask && !t2.mask.le t1.mask then (t2, t1) else (t1, t2)          -- lines 152-153
    if p.2.mask.le p.1.mask && trailing false (p.1.mask.list.zip p.2.mask.list) then
      (make p.1.cal none (some p.2.units) (some p.2.start) (some (p.1.mask, p.1.dates.map getDates))).map fun a => (a, p.2)
    else none
  else none

end TimeInit
end PyGeode
