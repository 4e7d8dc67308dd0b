/-
What a time axis without years and months is, stated with a clock that counts days.
-/
import Verif.Model.Yearless
import Verif.Spec.TimeInit

namespace PyGeode
namespace Spec
open Calendar

/-- a day and a time of the day -/
structure DayTime where
  day : ℤ
  hour : ℤ
  minute : ℤ
  second : ℤ
deriving DecidableEq

/-- a time a clock shows -/
structure ClockTime (t : DayTime) : Prop where
  hour : 0 ≤ t.hour ∧ t.hour ≤ 23
  minute : 0 ≤ t.minute ∧ t.minute ≤ 59
  second : 0 ≤ t.second ∧ t.second ≤ 59

/-- one second later -/
def tick (t : DayTime) : DayTime :=
  if t.second < 59 then { t with second := t.second + 1 }
  else if t.minute < 59 then { t with minute := t.minute + 1, second := 0 }
  else if t.hour < 23 then { t with hour := t.hour + 1, minute := 0, second := 0 }
  else ⟨t.day + 1, 0, 0, 0⟩

/-- the clock ticks `n` times from `a` to `b` (`-n` times from `b` to `a` if `n` is negative) -/
def Passed (a b : DayTime) (n : ℤ) : Prop := (0 ≤ n ∧ tick^[n.toNat] a = b) ∨ (n ≤ 0 ∧ tick^[(-n).toNat] b = a)

/-- the moment a date with some fields stands for: a missing day is day 1, a missing hour, minute or second is 0 -/
def moment (d : DateDict) : DayTime := ⟨d.day.getD 1, d.hour.getD 0, d.minute.getD 0, d.second.getD 0⟩

/-- the date with all of the four fields, and no other -/
def dayDate (t : DayTime) : DateDict := { day := some t.day, hour := some t.hour, minute := some t.minute, second := some t.second }

/-- an axis that some call of the constructor gave -/
def MadeYearless (t : Yearless.YAx) : Prop := ∃ values units start fields, Yearless.make values units start fields = some t

/-- the start date and all dates are times of a clock -/
def OnClock (t : Yearless.YAx) : Prop := ClockTime (moment t.start) ∧ ∀ d ∈ t.dates, ClockTime (moment d)

end Spec
end PyGeode
