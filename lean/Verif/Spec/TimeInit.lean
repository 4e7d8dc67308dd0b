/-
What a time axis is, stated with the clock of `Spec/Calendar` only.
-/
import Verif.Model.TimeInit
import Verif.Spec.Calendar
import Mathlib.Logic.Function.Iterate

namespace PyGeode
namespace Spec
open Calendar

/-- the moment a date with some fields stands for: a missing field has its first value, a missing year is the year 0 -/
def instant (d : DateDict) : Date :=
  ⟨d.year.getD 0, d.month.getD 1, d.day.getD 1, d.hour.getD 0, d.minute.getD 0, d.second.getD 0⟩

/-- the clock ticks `n` times from `a` to `b` (`-n` times from `b` to `a` if `n` is negative) -/
def Elapsed (c : Cal) (a b : Date) (n : ℤ) : Prop :=
  (0 ≤ n ∧ (nextSecond c)^[n.toNat] a = b) ∨ (n ≤ 0 ∧ (nextSecond c)^[(-n).toNat] b = a)

/-- the seconds in a unit -/
def ticks : Units → ℚ
  | .seconds => 1
  | .minutes => 60
  | .hours => 60 * 60
  | .days => 24 * 60 * 60

/-- a time axis that some call of the constructor gave -/
def MadeAxis (t : TimeInit.TAx) : Prop := ∃ values units start fields, TimeInit.make t.cal values units start fields = some t

/-- all its dates, and the start date, are dates of the calendar -/
def ValidAxis (t : TimeInit.TAx) : Prop := ValidDate t.cal (instant t.start) ∧ ∀ d ∈ t.dates, ValidDate t.cal (instant d)

/-- a date with all its fields -/
def fullDate (d : Date) : DateDict := ⟨some d.year, some d.month, some d.day, some d.hour, some d.minute, some d.second⟩

/-- `b` has exactly those fields of `a` that come before some point in the order year, month, day, hour, minute, second -/
def Leading (b a : TimeInit.Mask) : Prop := ∃ k < 7, b.list = a.list.zipIdx.map fun p => p.1 && decide (p.2 < k)

end Spec
end PyGeode
