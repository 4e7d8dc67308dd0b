/-
Specification of the seasonal time axes: the season of a date, its middle, and the times of a season.
-/
import Verif.Model.Seasonal
import Verif.Props.Seasons
import Verif.Spec.TimeInit
import Verif.Spec.ClimVar

namespace PyGeode
namespace Spec
open Calendar NArr
variable {α : Type}

/-- The calendar has seasons, and the date is one that its axes put into the season of its month. On the standard calendar these are not all: the last days
of the seasons are put into the next season, `season_standard_violated`. -/
def SeasonDate (c : Cal) (d : Date) : Prop :=
  ValidDate c d ∧ (c = .noleap ∨ (c = .standard ∧ ¬ (d.month = 2 ∧ d.day = 29) ∧ ¬ (d.month = 5 ∧ d.day = 31) ∧ ¬ (d.month = 8 ∧ d.day = 31) ∧
    ¬ (d.month = 11 ∧ d.day = 30)))

instance (c : Cal) (d : Date) : Decidable (SeasonDate c d) := by unfold SeasonDate; infer_instance

/-- the middle of a season: 16 January, 15 April, 16 July, 16 October -/
def middle (ys : ℤ × ℤ) : Date := ⟨ys.1, 3 * ys.2 - 2, if ys.2 = 2 then 15 else 16, 0, 0, 0⟩

/-- the year and season of a date -/
def seasonAt (d : Date) : ℤ × ℤ := seasonOf d.year d.month

/-- one season is before another -/
def SeasonLt (a b : ℤ × ℤ) : Prop := a.1 < b.1 ∨ (a.1 = b.1 ∧ a.2 < b.2)

/-- the positions of the dates in a season -/
def inSeason (dates : List DateDict) (ys : ℤ × ℤ) : List ℕ :=
  (List.range dates.length).filter fun i => decide (dates[i]?.map (fun d => seasonAt (instant d)) = some ys)

/-- the values at the dates in the season `ys`, at the place `K` -/
def ofSeason (dates : List DateDict) (ti : ℕ) (data : List ℕ → α) (ys : ℤ × ℤ) (K : List ℕ) : List α :=
  (inSeason dates ys).map fun i : ℕ => data (K.set ti i)

/-- `out` is a seasonal time axis with the seasons `S`, each of them before the next; its values are the times from the start date to the middle of the season. -/
structure IsSeasonal (c : Cal) (u : Units) (start : Date) (S : List (ℤ × ℤ)) (out : Axis) : Prop where
  order : S.Pairwise SeasonLt
  fields : out.auxarrays = [("year".toList, S.map fun d => (d.1 : ℚ)), ("season".toList, S.map fun d => (d.2 : ℚ))]
  values : List.Forall₂ (fun ys v => ∃ n : ℤ, v = n / ticks u ∧ Elapsed c start (middle ys) n) S out.values

/-- the start date of an axis: missing fields are filled, the year with 1; an axis without years starts in the year 0 -/
def startOf (s : DateDict) (years : Bool) : Date :=
  if years then instant { s with year := some (s.year.getD 1) } else instant { s with year := none }

/-- A variable whose time axis, number `ti`, has the dates `T`, all of them dates with a year that belong to the season of their month. No axis is seasonal
already. -/
structure SeasonInput (nr : List ℚ → ℚ) (n : Name) (T : Cf.TimeAx) (x : Var α) (ti : ℕ) : Prop where
  at_ : TimeAt x ti (CfFile.timeAxis nr n T)
  cal : T.cal = .noleap ∨ T.cal = .standard
  year : T.start.year.isSome
  start : ValidDate T.cal (instant T.start)
  dates : ∀ d ∈ T.dates, SeasonDate T.cal (instant d)
  fresh : ∀ a ∈ x.axes, "SeasonalStandardTime".toList ∉ a.classes ∧ "SeasonalModelTime365".toList ∉ a.classes

end Spec
end PyGeode
