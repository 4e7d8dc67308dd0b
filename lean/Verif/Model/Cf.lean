/-
Model of the CF metadata conversion, /repo/pygeode/formats/cfmeta.py, and of compact dates, /repo/pygeode/timeaxis.py:385-407.
Strings are lists of characters; the regular expression classes `\s` and `\d` and the methods `lower`, `isdigit`,
`rstrip` are those of ASCII text.
-/
import Verif.Model.Axis
import Verif.Model.VarOps
import Verif.Model.CalendarPy
import Mathlib.Data.List.SplitOn

namespace PyGeode
namespace Cf
open NArr Combine VarOps Calendar

/-! ### names -/

/-- `fix_char`, cfmeta.py:64-68 -/
def fixChar (n : Char) : Char :=
  if 'a' ≤ n ∧ n ≤ 'z' then n
  else if 'A' ≤ n ∧ n ≤ 'Z' then n
  else if '0' ≤ n ∧ n ≤ '9' then n
  else '_'

/-- `fix_name`, cfmeta.py:69-74; `none`: `name[0]` of an empty name raises -/
def fixName (name : Name) : Option Name :=
  match name.map fixChar with
  | [] => none
  | c :: l => some (if c.isDigit then '_' :: c :: l else c :: l)

/-! ### time units -/

/-- `'%0wi' % z`: the sign counts for the width -/
def fmtInt (w : ℕ) (z : ℤ) : Name :=
  let digits := Nat.toDigits 10 z.natAbs
  if 0 ≤ z then List.replicate (w - digits.length) '0' ++ digits
  else '-' :: (List.replicate (w - 1 - digits.length) '0' ++ digits)

/-- the keys of `unitfactor`, timeaxis.py:352 -/
def unitName : Units → Name
  | .seconds => "seconds".toList
  | .minutes => "minutes".toList
  | .hours => "hours".toList
  | .days => "days".toList

/-- `self.unitfactor[units]`: the unit with that name -/
def unitOf (s : Name) : Option Units :=
  [Units.seconds, Units.minutes, Units.hours, Units.days].find? fun u => decide (unitName u = s)

/-- the units attribute of an encoded time axis, cfmeta.py:169-172 -/
def encodeUnits (units : Name) (start : DateDict) : Name :=
  units ++ " since ".toList ++ fmtInt 4 (start.year.getD 0) ++ ['-'] ++ fmtInt 2 (start.month.getD 1) ++ ['-'] ++
    fmtInt 2 (start.day.getD 1) ++ [' '] ++ fmtInt 2 (start.hour.getD 0) ++ [':'] ++ fmtInt 2 (start.minute.getD 0) ++ [':'] ++
    fmtInt 2 (start.second.getD 0)

/-- `\s`, ASCII -/
def isSpace (c : Char) : Bool := decide (c ∈ [' ', '\t', '\n', '\r', '\x0b', '\x0c'])

/-- `[a-zA-Z]` -/
def isAlpha (c : Char) : Bool := decide (('a' ≤ c ∧ c ≤ 'z') ∨ ('A' ≤ c ∧ c ≤ 'Z'))

/-- what `(.*)` matches: `.` is any character but a newline -/
def line (s : Name) : Name := s.takeWhile (· ≠ '\n')

/-- `re.match("([a-zA-Z]+)\s+since\s+(.*)", _units).groups()`, cfmeta.py:393; `none`: no match, so an exception -/
def matchSince (s : Name) : Option (Name × Name) :=
  let res := s.takeWhile isAlpha
  let r := s.dropWhile isAlpha
  let r' := r.dropWhile isSpace
  if res ≠ [] ∧ r ≠ r' ∧ "since".toList <+: r' then
    let t := r'.drop 5
    let t' := t.dropWhile isSpace
    if t ≠ t' then some (res, line t') else none
  else none

/-- `-?`, `:?` -/
def dropOne (c : Char) (s : Name) : Name := match s with
  | [] => []
  | d :: l => if d = c then l else d :: l

/-- `if len(date) > 0: x, date = re.match("(\d+)<sep>(.*)", date).groups()`, cfmeta.py:400-406 with the conversion to int
of line 409; `none`: no match -/
def field (default : ℕ) (sep : Name → Name) (date : Name) : Option (ℕ × Name) :=
  if date = [] then some (default, date)
  else
    let digits := date.takeWhile Char.isDigit
    if digits = [] then none
    else some (Nat.ofDigitChars 10 digits 0, line (sep (date.dropWhile Char.isDigit)))

/-- `str.rstrip()` -/
def rstrip (s : Name) : Name := (s.reverse.dropWhile isSpace).reverse

/-- cfmeta.py:398-409: the reference date, in the part of the units after `since` -/
def parseDate (s : Name) : Option Date :=
  (field 0 (dropOne '-') (rstrip s)).bind fun y =>
  (field 1 (dropOne '-') y.2).bind fun m =>
  (field 1 (List.dropWhile isSpace) m.2).bind fun d =>
  let date := if d.2.head? = some 'T' then d.2.tail else d.2                                 -- line 403
  (field 0 (dropOne ':') date).bind fun h =>
  (field 0 (dropOne ':') h.2).bind fun mi =>
  (if mi.2.head? = some ' ' then some (0, mi.2) else field 0 id mi.2).map fun sec =>         -- line 406
    { year := y.1, month := m.1, day := d.1, hour := h.1, minute := mi.1, second := sec.1 }

/-- cfmeta.py:395-396 -/
def plural (res : Name) : Name :=
  let r := lower res
  if r.getLast? = some 's' then r else r ++ ['s']

/-- the unit and the reference date in a units attribute, cfmeta.py:392-409 -/
def decodeUnits (s : Name) : Option (Name × Date) :=
  (matchSince s).bind fun p => (parseDate p.2).map fun d => (plural p.1, d)

/-! ### calendars, time axes -/

/-- the calendar attribute of an encoded time axis, cfmeta.py:173-176 -/
def encodeCalendar : Cal → Name
  | .standard => "standard".toList
  | .noleap => "365_day".toList
  | .days360 => "360_day".toList

/-- the class for a calendar attribute, cfmeta.py:384-391; `none`: unknown (or `none`, a yearless axis, not modelled) -/
def decodeCalendar (s : Name) : Option Cal :=
  if s ∈ ["standard".toList, "gregorian".toList, "proleptic_gregorian".toList] then some .standard
  else if s ∈ ["365_day".toList, "noleap".toList, "365day".toList] then some .noleap
  else if s ∈ ["360_day".toList, "360day".toList] then some .days360
  else none

/-- a time axis as it is written: the attributes and the values -/
structure TimeFile where
  units : Name
  calendar : Name
  values : List ℚ
  deriving DecidableEq

/-- a time axis: calendar, unit, start date, and the fields of every time -/
structure TimeAx where
  cal : Cal
  units : Units
  start : DateDict
  dates : List DateDict
  deriving DecidableEq

/-- `encode_cf` of a time axis, cfmeta.py:165-188: the values are `reltime(a)` -/
def encodeTime (t : TimeAx) : Option TimeFile :=
  (t.dates.mapM fun d => dateAsValPy t.cal t.start d t.units).map fun vals =>
    ⟨encodeUnits (unitName t.units) t.start, encodeCalendar t.cal, vals⟩

/-- all six fields -/
def full (d : Date) : DateDict := ⟨some d.year, some d.month, some d.day, some d.hour, some d.minute, some d.second⟩

/-- `timeutils.modify(axis, exclude='year')`, timeutils.py:38-82: the field is left out of the dates and, by
`CalendarTime.__init__` (timeaxis.py:382-383), of the start date -/
def dropYear (d : DateDict) : DateDict := { d with year := none }

/-- `decode_cf` of a time axis, cfmeta.py:383-422; `none`: an exception, or an axis that is left alone -/
def decodeTime (f : TimeFile) : Option TimeAx :=
  (decodeCalendar f.calendar).bind fun c =>
  (decodeUnits f.units).bind fun p =>
  (unitOf p.1).bind fun u =>
  (f.values.mapM fun v => valAsDatePy c (full p.2) v u false).map fun dates =>
    if p.2.year = 0 ∧ ∀ d ∈ dates, d.year = some 0 then ⟨c, u, dropYear (full p.2), dates.map dropYear⟩
    else ⟨c, u, full p.2, dates⟩

/-! ### auxiliary arrays of an axis -/

/-- the names of the variables the auxiliary arrays are stored in, and the attribute that lists them, cfmeta.py:261-267 -/
def encodeAux (axis : Name) (aux : List Name) : List Name × Name :=
  let names := aux.map fun a => axis ++ ['_'] ++ a
  (names, List.intercalate [' '] names)

/-- `newname[len(name)+1:]` if `newname.startswith(name+'_')`, cfmeta.py:338-339 -/
def dropPrefix (axis : Name) (s : Name) : Name :=
  if (axis ++ ['_']) <+: s then s.drop (axis.length + 1) else s

/-- the names of the auxiliary arrays, and the variables they come from, cfmeta.py:331-345; `none`: the assertion that the
variable exists fails -/
def decodeAux (axis : Name) (vars : List Name) (att : Name) : Option (List (Name × Name)) :=
  let l := att.splitOn ' '
  if ∀ a ∈ l, a ∈ vars then some (l.map fun a => (dropPrefix axis a, a)) else none

/-! ### axis classes -/

/-- the attributes of an axis `encode_cf` and `decode_cf` look at -/
structure Atts where
  standardName : Option Name := none
  longName : Option Name := none
  units : Option Name := none
  axis : Option Name := none
  deriving DecidableEq

/-- `isinstance` -/
def isa (classes : List Name) (c : String) : Bool := decide (c.toList ∈ classes)

/-- `encode_cf`, cfmeta.py:148-181, for an axis that is not a time axis: the attributes set from the class. Each `if` may
overwrite what is there. -/
def encodeAtts (classes : List Name) (a : Atts) : Atts :=
  let a := if isa classes "Lat" then { a with standardName := some "latitude".toList, units := some "degrees_north".toList } else a
  let a := if isa classes "Lon" then { a with standardName := some "longitude".toList, units := some "degrees_east".toList } else a
  let a := if isa classes "Pres" then { a with standardName := some "air_pressure".toList, units := some "hPa".toList } else a
  let a := if isa classes "Hybrid" then { a with standardName := some "atmosphere_hybrid_sigma_pressure_coordinate".toList } else a
  let a := if isa classes "XAxis" then { a with axis := some "X".toList } else a
  let a := if isa classes "YAxis" then { a with axis := some "Y".toList } else a
  let a := if isa classes "ZAxis" then { a with axis := some "Z".toList } else a
  if isa classes "TAxis" then { a with axis := some "T".toList } else a

/-- `decode_cf`, cfmeta.py:347-381, for an axis read as `own` without time units: the class that is chosen. `name` is the
name of the axis, `hasAB` says whether the auxiliary arrays A and B were found. -/
def decodeClass (own name : Name) (a : Atts) (hasAB : Bool) : Name :=
  let cls := own
  let cls := if a.axis = some "X".toList then "XAxis".toList else cls
  let cls := if a.axis = some "Y".toList then "YAxis".toList else cls
  let cls := if a.axis = some "Z".toList then "ZAxis".toList else cls
  let cls := if a.axis = some "T".toList then "TAxis".toList else cls
  let ln := lower (a.longName.getD name)
  let st := lower (a.standardName.getD ln)
  let un := a.units.getD []
  let cls := if st = "latitude".toList ∨ un = "degrees_north".toList then "Lat".toList else cls
  let cls := if st = "longitude".toList ∨ un = "degrees_east".toList then "Lon".toList else cls
  let cls := if st = "air_pressure".toList ∨ un ∈ ["hPa".toList, "mbar".toList] then "Pres".toList else cls
  let cls := if st = "atmosphere_hybrid_sigma_pressure_coordinate".toList ∧ hasAB = true then "Hybrid".toList else cls
  if st = "station".toList then "Station".toList else cls

/-! ### fill values, scale and offset -/

/-- `[_f for _f in fillvalue if _f]` and its first element, cfmeta.py:470-472: the three attributes in order; `some none`
is NaN, which is true in Python, as is every number but 0 -/
def pickFill (fillValue under missing : Option (Option ℚ)) : Option (Option ℚ) :=
  ([fillValue, under, missing].filter fun f => decide (f ≠ none ∧ f ≠ some (some 0))).headD none

/-- one value of `var_newaxes.getview`, cfmeta.py:49-54, exact arithmetic (the code computes in float32); `none` is NaN -/
def decodeCell (fill : Option (Option ℚ)) (scale offset : Option ℚ) (x : Option ℚ) : Option ℚ :=
  let hit : Bool := match fill with
    | some (some f) => decide (x = some f)
    | _ => false
  let x := match scale with
    | some s => x.map (· * s)
    | none => x
  let x := match offset with
    | some o => x.map (· + o)
    | none => x
  if hit then none else x

/-- `var_newaxes`, cfmeta.py:21-56: the positions are read on the old axes -/
def varNewaxes (nr : List ℚ → ℚ) (junk : List ℕ → Option ℚ) (x : Var (Option ℚ)) (new : List Axis) (fill : Option (Option ℚ))
    (scale offset : Option ℚ) : Option (Var (Option ℚ)) :=
  if x.axes.map Axis.len = new.map Axis.len then
    some (Var.ofView junk new fun v => (x.read nr junk { axes := x.axes, inds := v.inds }).map fun r => r.map (decodeCell fill scale offset))
  else none

/-! ### compact dates -/

/-- the date fields in a compact date, timeaxis.py:389-407 (`divmod` of numpy integers rounds down); `none`: the format is
not known -/
def decodeCompact (fmt : Name) (date : ℤ) : Option Date :=
  if lower fmt = "yyyymmddhh".toList then
    let y := Int.fdiv date 1000000
    let r := Int.fmod date 1000000
    let m := Int.fdiv r 10000
    let r := Int.fmod r 10000
    some { year := y, month := m, day := Int.fdiv r 100, hour := Int.fmod r 100, minute := 0, second := 0 }
  else if lower fmt = "yyyymmdd".toList then
    let y := Int.fdiv date 10000
    let r := Int.fmod date 10000
    some { year := y, month := Int.fdiv r 100, day := Int.fmod r 100, hour := 0, minute := 0, second := 0 }
  else none

end Cf
end PyGeode
