/-
Model of `removeleapyears`, /repo/pygeode/timeutils.py:199-283, on the dates of the time axis. Times are exact rationals. The data
are sliced at the positions returned, and get the new dates as their time axis.
-/
import Verif.Model.Cf

namespace PyGeode
namespace LeapDays
open Calendar Cf

/-- `isleapyear`, timeutils.py:235, for one year (numpy's `%` has the sign of the divisor) -/
def isLeapPy (c : Cal) (y : ℤ) : Bool :=
  decide (c = .standard) && decide (y % 4 = 0) && (decide (y % 100 ≠ 0) || decide (y % 400 = 0))

/-- `sorted(set(taxis.year))` -/
def years (dates : List Date) : List ℤ := (dates.map Date.year).dedup.insertionSort (· ≤ ·)

/-- `reltime(taxis(year=y), startdate={'year':y, 'month':1, 'day':1}, units='days') + 1`, timeutils.py:239 and 268; `none`: an exception -/
def doysOfYear (c : Cal) (dates : List Date) (y : ℤ) : Option (List ℚ) :=
  (dates.filter fun d => decide (d.year = y)).mapM fun d =>
    (dateAsValPy c { year := some y, month := some 1, day := some 1 } (full d) .days).map (· + 1)

/-- one pass of the loop over omitted days, timeutils.py:270-272 -/
def dropDay (doy : List ℚ) (d : ℤ) : List ℚ :=
  (doy.filter fun x => decide (⌊x⌋ ≠ d)).map fun x : ℚ => if x > (d : ℚ) then x - 1 else x

/-- the dates of one year on the new calendar, timeutils.py:261-274 -/
def piece (c new : Cal) (omitLeap omitNo : List ℤ) (dates : List Date) (y : ℤ) : Option (List DateDict) := do
  let omitted := (if isLeapPy c y then omitLeap else omitNo).insertionSort (· ≥ ·)
  let doy ← doysOfYear c dates y
  (omitted.foldl dropDay doy).mapM fun x => valAsDatePy new (full ⟨y, 1, 1, 0, 0, 0⟩) (x - 1) .days false

/-- `removeleapyears(data, omitdoy_leap, omitdoy_noleap, new_axis_type)`: the positions kept, and the dates of the new axis -/
def removeleapyears (c : Cal) (omitLeap omitNo : List ℤ) (new : Cal) (dates : List Date) : Option (List ℕ × List DateDict) := do
  let doy ← (years dates).mapM (doysOfYear c dates)                                          -- lines 237-239
  let doy := doy.flatten.map fun x => ⌊x⌋                                                    -- line 240
  let isOut := fun (i : ℕ) (d : Date) =>
    if isLeapPy c d.year then decide (doy.getD i 0 ∈ omitLeap) else decide (doy.getD i 0 ∈ omitNo) -- lines 242-250
  let indices := (List.range dates.length).filter fun i => !isOut i (dates.getD i ⟨0, 1, 1, 0, 0, 0⟩) -- line 251
  let pieces ← (years dates).mapM (piece c new omitLeap omitNo dates)                        -- lines 260-274
  some (indices, pieces.flatten)                                                             -- lines 278-281

end LeapDays
end PyGeode
