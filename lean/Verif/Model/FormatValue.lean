/-
Model of the texts of coordinates: `formatvalue` of variables, longitudes, latitudes and pressures (/repo/pygeode/var.py:582-616,
axis.py:807-863, 964-1016, 1146-1201) and of `AxisFormatter` (axis.py:12-26).

Python's `fmt % value` is the parameter `num fmt value` (`none`: an exception), `float(text)` is `toFloat` (`none`: ValueError). Exact arithmetic.
-/
import Mathlib.Algebra.Order.Field.Rat
import Mathlib.Data.Rat.Floor
import Verif.Model.Axis

namespace PyGeode
namespace FormatValue

/-- the arguments of `formatvalue` besides the value: `fmt`, `units`, `unitstr`, and `self.formatstr`, `self.units` -/
structure Ask where
  fmt : Option Name
  units : Bool
  unitstr : Option Name
  formatstr : Name
  ownUnits : Name

/-- `if fmt is None: fmt = self.formatstr` -/
def Ask.format (q : Ask) : Name := q.fmt.getD q.formatstr

/-- `Var.formatvalue`, var.py:608-615 -/
def plain (num : Name → ℚ → Option Name) (q : Ask) (value : ℚ) : Option Name :=
  (num q.format value).map fun s => if q.units then s ++ ' ' :: q.unitstr.getD q.ownUnits else s

/-- `if units: strval += ' ' + self.units`, axis.py:860-861, 1013-1014, 1198-1199 -/
def withUnits (q : Ask) (s : Name) : Name := if q.units then s ++ ' ' :: q.ownUnits else s

/-- `text.split(c)`; always at least one part -/
def split (c : Char) (s : Name) : List Name := s.splitOn c

/-- Python's `x % 360.` -/
def mod360 (x : ℚ) : ℚ := x - 360 * ⌊x / 360⌋

/-- `try: orig = 360. - float(orig[1:])`, `except ValueError: orig = 180.`, axis.py:851-852 -/
def origOf (toFloat : Name → Option ℚ) (orig : Name) : ℚ :=
  match toFloat (orig.drop 1) with
  | some b => 360 - b
  | none => 180

/-- `Lon.formatvalue`, axis.py:848-863 -/
def lon (num : Name → ℚ → Option Name) (toFloat : Name → Option ℚ) (q : Ask) (value : ℚ) : Option Name :=
  if 'E' ∈ q.format then
    match split 'E' q.format with                                              -- line 850
    | [fmt, orig] =>
      let o : ℚ := origOf toFloat orig
      let v := mod360 (value + o) - o                                          -- line 854
      if 0 ≤ v then (num fmt v).map fun s => withUnits q (s ++ ['E'])          -- line 855
      else (num fmt (-v)).map fun s => withUnits q (s ++ ['W'])                -- line 856
    | _ => none
  else (num q.format value).map (withUnits q)                                  -- line 858

/-- `Lat.formatvalue`, axis.py:1004-1016 -/
def lat (num : Name → ℚ → Option Name) (q : Ask) (value : ℚ) : Option Name :=
  match q.format.getLast? with
  | none => none                                                               -- IndexError
  | some c =>
    if c = 'N' then
      let fmt := q.format.dropLast                                             -- line 1006
      if 0 < value then (num fmt value).map fun s => withUnits q (s ++ ['N'])  -- line 1007
      else if value < 0 then (num fmt (-value)).map fun s => withUnits q (s ++ ['S'])
      else some (withUnits q ['E', 'Q'])                                       -- line 1009
    else (num q.format value).map (withUnits q)                                -- line 1011

/-- `Pres.formatvalue`, axis.py:1188-1201 -/
def pres (num : Name → ℚ → Option Name) (toFloat : Name → Option ℚ) (q : Ask) (value : ℚ) : Option Name :=
  if '<' ∈ q.format then
    match split '<' q.format with                                              -- line 1191
    | [lfmt, brk] => (toFloat brk).bind fun b =>
      (if b ≤ value then num ['%', 'd'] value else num lfmt value).map (withUnits q)   -- lines 1192-1193
    | _ => none
  else (num q.format value).map (withUnits q)                                  -- line 1195

/-- `AxisFormatter`, axis.py:12-26: what is asked for a tick; `plotfmt`, `plotunits` are plot attributes of the axis -/
def tick (plotfmt plotunits : Option Name) (formatstr units : Name) (fmt unitstr : Option Name) (showunits : Bool) : Ask where
  fmt := some (fmt.getD (plotfmt.getD formatstr))
  unitstr := some (unitstr.getD (plotunits.getD units))
  units := showunits
  formatstr := formatstr
  ownUnits := units

end FormatValue
end PyGeode
