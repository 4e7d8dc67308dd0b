/-
Model of the helpers that make time axes: `standardtimerange`, `modeltime365range`, `modeltime360range`, `standardtimen`,
`modeltime365n`, `modeltime360n`, `yearlessn`, /repo/pygeode/timeaxis.py:1062-1260. The three calendars have the same code; the class is
the argument `c`. Values are exact rationals. An axis is its start date (with all fields, timeaxis.py:373-378) and its values.
-/
import Verif.Model.DateText
import Mathlib.Algebra.Order.Floor.Ring
import Mathlib.Data.Rat.Floor

namespace PyGeode
namespace TimeRange
open Calendar Cf DateText

/-- `np.arange(0, stop, step)`; `none` is a ZeroDivisionError -/
def arange (stop step : ℚ) : Option (List ℚ) :=
  if step = 0 then none else some ((List.range ⌈stop / step⌉.toNat).map fun k : ℕ => (k : ℚ) * step)

/-- `date_diff(tdum, a, b, units)`, timeutils.py:132-137 -/
def dateDiff (c : Cal) (a b : DateDict) (u : Units) : Option ℚ := dateAsValPy c a b u

/-- the start date with defaults filled in, timeaxis.py:373-378: unlike in `_get_dates`, the year is 1 if it is not given -/
def fillStart (f : DateDict) : Date := getDates { f with year := some (f.year.getD 1) }

/-- timeaxis.py:1084-1085 -/
def refDate (s : DateDict) : Option Name → Option DateDict
  | none => some s
  | some r => strAsDate r

/-- `standardtimerange(start, end, step, units, ref, inc)`, timeaxis.py:1062-1092 (and 1120-1150, 1180-1210) -/
def timeRange (c : Cal) (u : Units) (start stop : Name) (step : ℚ) (ref : Option Name) (inc : Bool) : Option (Date × List ℚ) := do
  let s ← strAsDate start
  let e ← strAsDate stop
  let f ← refDate s ref
  let n ← dateDiff c s e u
  let o ← dateDiff c f s u
  let vals ← if inc then arange (n + step) step else arange n step
  some (fillStart f, vals.map (· + o))

/-- `standardtimen(start, n, step, units, ref)`, timeaxis.py:1094-1118 (and 1153-1177, 1213-1237) -/
def timeN (c : Cal) (u : Units) (start : Name) (n : ℕ) (step : ℚ) (ref : Option Name) : Option (Date × List ℚ) := do
  let s ← strAsDate start
  let f ← refDate s ref
  let o ← dateDiff c f s u
  let vals ← arange (n * step) step
  some (fillStart f, vals.map (· + o))

end TimeRange
end PyGeode
