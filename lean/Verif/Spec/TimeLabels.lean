/-
What the labels of a time plot tell, stated with dates only.
-/
import Verif.Spec.TimeInit

namespace PyGeode
namespace Spec
open Calendar

/-- the date of a tick: that many units after the start, to the nearest second -/
def DateOfTick (c : Cal) (start : Date) (u : Units) (x : ℚ) (d : Date) : Prop :=
  ValidDate c d ∧ ∃ n : ℤ, Elapsed c start d n ∧ |(n : ℚ) - x * ticks u| ≤ 1 / 2

/-- the mean distance between neighbouring ticks is `S` days -/
def MeanSpacing (u : Units) (locs : List ℚ) (S : ℚ) : Prop :=
  ∃ a ∈ locs, ∃ b ∈ locs, (∀ x ∈ locs, a ≤ x ∧ x ≤ b) ∧ S * (locs.length - 1) = (b - a) * ticks u / (24 * 60 * 60)

/-- the days of a year, as far as the labels are concerned -/
def yearDays : Cal → ℚ
  | .days360 => 360
  | _ => 365

/-- the same time of the day -/
def SameClock (d e : Date) : Prop := d.hour = e.hour ∧ d.minute = e.minute ∧ d.second = e.second

/-- the labels of ticks with mean distance `S` show: the year, for distances from about a year on; the date (only month and year with 360 days), from about a
month on; the day of the year, from about a day on; the hour and minute, from about an hour on; and otherwise the time of the day -/
def SameShown (c : Cal) (S : ℚ) (d e : Date) : Prop :=
  (yearDays c ≤ 11 / 10 * S → d.year = e.year) ∧
  (11 / 10 * S < yearDays c → 30 ≤ 11 / 10 * S → d.year = e.year ∧ d.month = e.month ∧ (c ≠ .days360 → d.day = e.day)) ∧
  (11 / 10 * S < 30 → 1 ≤ 11 / 10 * S → d.month = e.month ∧ d.day = e.day) ∧
  (11 / 10 * S < 1 → 1 / 24 ≤ 11 / 10 * S → d.hour = e.hour ∧ d.minute = e.minute) ∧
  (11 / 10 * S < 1 / 24 → SameClock d e)

/-- the beginning of month number `q`, counted from January of year 0 -/
def firstOf (q : ℤ) : Date := ⟨q / 12, q % 12 + 1, 1, 0, 0, 0⟩

/-- the tick is exactly at a date -/
def ExactlyAt (c : Cal) (start : Date) (u : Units) (x : ℚ) (d : Date) : Prop := ∃ n : ℤ, x * ticks u = n ∧ Elapsed c start d n

end Spec
end PyGeode
