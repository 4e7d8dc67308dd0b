/-
Specification of the calendars, written without reference to the implementation: month lengths,
valid dates, chronological order, and "the next second on the clock".
-/
import Verif.Model.Calendar

namespace PyGeode.Spec
open PyGeode.Calendar (Date Cal)

/-- Gregorian leap year rule. -/
def Leap (y : ℤ) : Prop := (4 ∣ y ∧ ¬ 100 ∣ y) ∨ 400 ∣ y

instance (y : ℤ) : Decidable (Leap y) := by unfold Leap; infer_instance

/-- Number of days of month `m` (1 = January) of year `y`. -/
def monthLength (c : Cal) (y m : ℤ) : ℤ :=
  match c with
  | .days360 => 30
  | .noleap => if m = 2 then 28 else if m = 4 ∨ m = 6 ∨ m = 9 ∨ m = 11 then 30 else 31
  | .standard =>
    if m = 2 then (if Leap y then 29 else 28)
    else if m = 4 ∨ m = 6 ∨ m = 9 ∨ m = 11 then 30 else 31

/-- Number of days of year `y` in the standard calendar. -/
def yearLength (y : ℤ) : ℤ := if Leap y then 366 else 365

/-- A date whose fields are all in their ordinary range. -/
structure ValidDate (c : Cal) (d : Date) : Prop where
  month : 1 ≤ d.month ∧ d.month ≤ 12
  day : 1 ≤ d.day ∧ d.day ≤ monthLength c d.year d.month
  hour : 0 ≤ d.hour ∧ d.hour < 24
  minute : 0 ≤ d.minute ∧ d.minute < 60
  second : 0 ≤ d.second ∧ d.second < 60

instance (c : Cal) (d : Date) : Decidable (ValidDate c d) :=
  decidable_of_iff
    ((1 ≤ d.month ∧ d.month ≤ 12) ∧ (1 ≤ d.day ∧ d.day ≤ monthLength c d.year d.month) ∧
      (0 ≤ d.hour ∧ d.hour < 24) ∧ (0 ≤ d.minute ∧ d.minute < 60) ∧ (0 ≤ d.second ∧ d.second < 60))
    ⟨fun ⟨a, b, c, d, e⟩ => ⟨a, b, c, d, e⟩, fun ⟨a, b, c, d, e⟩ => ⟨a, b, c, d, e⟩⟩

/-- Chronological order: compare the fields, most significant first. -/
def Earlier (a b : Date) : Prop :=
  a.year < b.year ∨ (a.year = b.year ∧
  (a.month < b.month ∨ (a.month = b.month ∧
  (a.day < b.day ∨ (a.day = b.day ∧
  (a.hour < b.hour ∨ (a.hour = b.hour ∧
  (a.minute < b.minute ∨ (a.minute = b.minute ∧ a.second < b.second)))))))))

/-- One second later on the clock and the calendar. -/
def nextSecond (c : Cal) (d : Date) : Date :=
  if d.second < 59 then { d with second := d.second + 1 }
  else if d.minute < 59 then { d with minute := d.minute + 1, second := 0 }
  else if d.hour < 23 then { d with hour := d.hour + 1, minute := 0, second := 0 }
  else if d.day < monthLength c d.year d.month then
    { d with day := d.day + 1, hour := 0, minute := 0, second := 0 }
  else if d.month < 12 then
    { d with month := d.month + 1, day := 1, hour := 0, minute := 0, second := 0 }
  else { year := d.year + 1, month := 1, day := 1, hour := 0, minute := 0, second := 0 }

end PyGeode.Spec
