/-
Model of time axes without years and months, `Yearless` (/repo/pygeode/timeaxis.py:1013-1056): construction (timeaxis.py:355-420, 72-126, with the allowed
fields day, hour, minute, second), slicing (/repo/pygeode/axis.py:357-378), and how they are written to and read from files (/repo/pygeode/formats/cfmeta.py:165-188,
383-422). Values are exact rationals, date fields unbounded integers. Arrays `year` or `month` are only ever given together with one of the allowed fields
(as when an axis that has them is sliced): they are kept, and play no role.
-/
import Verif.Model.TimeInit
import Verif.Model.Cf

namespace PyGeode
namespace Yearless
open Calendar TimeInit

/-- timeaxis.c:553-554, 581-582: the C routines stop unless the start date is in month 1 of year 0 -/
def startOk (s : DateDict) : Bool := decide (s.year.getD 0 = 0) && decide (s.month.getD 1 = 1)

/-- `date_as_val`, timeaxis.py:744-773, with `date_as_val_yearless` -/
def dateAsVal (s d : DateDict) (u : Units) : Option ℚ :=
  if startOk s then (dateAsValYearless (getDates s) (getDates d)).map fun v : ℤ => (v : ℚ) / unitfactor u else none

/-- `val_as_date`, timeaxis.py:708-740, with `val_as_date_yearless` -/
def valAsDate (s : DateDict) (x : ℚ) (u : Units) (allfields : Bool) : Option DateDict :=
  if startOk s then some (keepFields s allfields (valAsDateYearless (getDates s) (npRound (x * unitfactor u)))) else none

/-- `dict(default, **startdate)`, timeaxis.py:374-378: only the allowed fields have defaults -/
def fill (s : DateDict) : DateDict :=
  { s with day := some (s.day.getD 1), hour := some (s.hour.getD 0), minute := some (s.minute.getD 0), second := some (s.second.getD 0) }

/-- only the allowed fields, timeaxis.py:86 and 1025 -/
def allowed (d : DateDict) : DateDict := { d with year := none, month := none }

/-- the fields of `d` that are in `m` as well, timeaxis.py:383 -/
def only (m : Mask) (d : DateDict) : DateDict :=
  { year := if m.year then d.year else none, month := if m.month then d.month else none, day := if m.day then d.day else none
    hour := if m.hour then d.hour else none, minute := if m.minute then d.minute else none, second := if m.second then d.second else none }

/-- an axis: `units`, `startdate`, the auxiliary arrays as a list of dates with the fields `mask`, and `values` -/
structure YAx where
  units : Units
  start : DateDict
  mask : Mask
  dates : List DateDict
  values : List ℚ
deriving DecidableEq

/-- the constructor, timeaxis.py:373-420 and 72-126. `fields` are the arrays given, as dates of which only the fields of the mask are used. `none` is an
exception, or an assertion that fails in C. -/
def make (values : Option (List ℚ)) (units : Option Units) (start : Option DateDict) (fields : Option (Mask × List Date)) : Option YAx :=
  match fields.filter fun p => p.1.day || p.1.hour || p.1.minute || p.1.second with
  | none =>
    if units = none then none
    else values.bind fun vals => start.bind fun s =>
      (vals.mapM fun x => valAsDate (fill s) x (units.getD .days) false).bind fun dates =>
      (dates.mapM fun d => dateAsVal (fill s) d (units.getD .days)).map fun v => ⟨units.getD .days, fill s, maskOf (fill s), dates, v⟩
  | some (m, ds) =>
    (match start with
      | some s => some (allowed (only m (fill s)))                               -- lines 382-383
      | none => ds.head?.map fun d => allowed (m.dict d)).bind fun s =>          -- lines 98-101
    (ds.mapM fun d => dateAsVal s (allowed (m.dict d)) (units.getD .days)).map fun v => ⟨units.getD .days, s, m, ds.map m.dict, v⟩

/-- `axis[slices]`, axis.py:357-378, for the positions `P` that the slice selects. If the values are the same, the axis itself is returned (line 364). -/
def slice (t : YAx) (P : List ℕ) : Option YAx :=
  if (P.filterMap fun i => t.values[i]?) = t.values then some t
  else make (some (P.filterMap fun i => t.values[i]?)) (some t.units) (some t.start) (some (t.mask, P.filterMap fun i => t.dates[i]?.map getDates))

/-- the four fields -/
def clock : Mask := ⟨false, false, true, true, true, true⟩

/-- `encode_cf`, cfmeta.py:165-188: the values are `reltime(a)`, timeutils.py:86-93 -/
def encode (t : YAx) : Option Cf.TimeFile :=
  (t.dates.mapM fun d => dateAsVal t.start d t.units).map fun v => ⟨Cf.encodeUnits (Cf.unitName t.units) t.start, "none".toList, v⟩

/-- `decode_cf`, cfmeta.py:388 and 392-422. In year 0 (another year stops the C routine) the axis is remade by `modify(axis, exclude='year')`, timeutils.py:58-82,
which keeps the fields that are allowed. -/
def decode (f : Cf.TimeFile) : Option YAx :=
  if f.calendar <:+: "none".toList then
    (Cf.decodeUnits f.units).bind fun p => (Cf.unitOf p.1).bind fun u =>
    (make (some f.values) (some u) (some (Cf.full p.2)) none).bind fun t =>
    if p.2.year = 0 ∧ ∀ d ∈ t.dates, d.year = some 0 then make none (some t.units) (some t.start) (some (clock, t.dates.map getDates)) else some t
  else none

end Yearless
end PyGeode
