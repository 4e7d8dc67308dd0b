/-
Model of the seasonal time axes (/repo/pygeode/timeaxis.py:820-1005) and of the seasonal means, standard deviations and counts of variables
(/repo/pygeode/climat.py:118-161, 169-185, 397-401, 425-430, 449, 467, 485). Values are exact rationals. `_get_seasons` is in `Model/CalendarPy`, the loops over the
data are in `Model/ClimVar`.
-/
import Verif.Model.ClimVar
import Verif.Model.TimeInit

namespace PyGeode
namespace Seasonal
open Calendar NArr Combine VarOps
variable {α β : Type}

/-- `cdates`, timeaxis.py:834-836, and `_get_cdates`, timeaxis.py:866-893, for one date. A missing year is the year 0. -/
def centralDate (year : Option ℤ) (season : ℤ) : DateDict :=
  let y := year.getD 0 + (season - 1) / 4                                                       -- lines 884-886
  let s := ((season - 1) % 4).toNat                                                             -- line 887
  { year := some (y + ([0, 0, 0, 0] : List ℤ).getD s 0), month := some (([1, 4, 7, 10] : List ℤ).getD s 0)
    day := some (([16, 15, 16, 16] : List ℤ).getD s 0), hour := some 0, minute := some 0, second := some 0 }

/-- a seasonal time axis: the start date (a field `season` in it is never read), whether there are years, the (year, season) of every time (the year is 0 if
there are none), and the values -/
structure SAx where
  cal : Cal
  units : Units
  start : DateDict
  years : Bool
  dates : List (ℤ × ℤ)
  values : List ℚ
deriving DecidableEq

/-- `date_as_val` of one (year, season), timeaxis.py:990-998 -/
def dateAsVal (c : Cal) (start : DateDict) (years : Bool) (u : Units) (d : ℤ × ℤ) : Option ℚ :=
  dateAsValPy c start (centralDate (if years then some d.1 else none) d.2) u

/-- `val_as_date` of one value as (year, season), timeaxis.py:979-988. The year is removed from the answer if the start date has none. -/
def valAsDate (c : Cal) (start : DateDict) (x : ℚ) (u : Units) : Option (ℤ × ℤ) :=
  (valAsDatePy c start x u false).bind fun d => (getSeasons c d).map fun r => if start.year.isSome then r else (0, r.2)

/-- timeaxis.py:108, 121, 124-125: the values are made from the seasons -/
def finish (c : Cal) (u : Units) (s : DateDict) (years : Bool) (dates : List (ℤ × ℤ)) : Option SAx :=
  (dates.mapM (dateAsVal c s years u)).map fun v => ⟨c, u, s, years, dates, v⟩

/-- the constructor from values and a start date, timeaxis.py:905-918 and 88-94 -/
def ofValues (c : Cal) (u : Units) (start : DateDict) (vals : List ℚ) : Option SAx :=
  let s := TimeInit.allFields.dict (TimeInit.fill start)                                         -- lines 907-908
  (vals.mapM fun x => valAsDate c s x u).bind (finish c u s true)

/-- the constructor from seasons, with or without years and a start date, timeaxis.py:905-918 and 98-101 -/
def ofFields (c : Cal) (u : Units) (start : Option DateDict) (years : Bool) (dates : List (ℤ × ℤ)) : Option SAx :=
  match start with
  | some s =>
    let s := TimeInit.allFields.dict (TimeInit.fill s)
    finish c u (if years then s else { s with year := none }) years dates                        -- line 909
  | none => dates.head?.bind fun d => finish c u { year := if years then some d.1 else none } years dates

/-- `ax.val_as_date()`, timeaxis.py:979-988 -/
def asDates (a : SAx) : Option (List (ℤ × ℤ)) := a.values.mapM fun x => valAsDate a.cal a.start x a.units

/-! ### seasonal means of variables -/

/-- `SeasonalTAxes`, timeaxis.py:1007-1008; the other calendars have no seasons -/
def seasonalClass : Cal → Option Name
  | .standard => some "SeasonalStandardTime".toList
  | .noleap => some "SeasonalModelTime365".toList
  | .days360 => none

/-- the axis as the rest of the library sees it. The name is the default. Only for axes with years. -/
def axis (nr : List ℚ → ℚ) (cls : Name) (a : SAx) : Axis :=
  { classes := [cls, CfFile.calClass a.cal, "CalendarTime".toList, "Time".toList, "TAxis".toList, "Axis".toList]
    aliases := [lower cls, lower (CfFile.calClass a.cal), "calendartime".toList, "time".toList, "taxis".toList, "axis".toList, []]
    name := "time".toList, values := a.values, isFloat := true, rtol := nr a.values
    auxatts := [("units".toList, Cf.unitName a.units), ("startdate".toList, CfFile.dateText a.start)]
    auxarrays := [("year".toList, a.dates.map fun d => (d.1 : ℚ)), ("season".toList, a.dates.map fun d => (d.2 : ℚ))] }

/-- `_uniquify` of the arrays of years and seasons, climat.py:139-140 and timeutils.py:13-29 -/
def uniquify (dates : List (ℤ × ℤ)) : List (ℤ × ℤ) :=
  (Climat.uniquifySorted (dates.map fun d => [d.1, d.2])).map fun r => (r.getD 0 0, r.getD 1 0)

/-- `get_intime`, climat.py:149-161: the time axis `T` with the values `vals` -/
def inTime (nr : List ℚ → ℚ) (T : Cf.TimeAx) (vals : List ℚ) : Option Axis :=
  (seasonalClass T.cal).bind fun cls => (ofValues T.cal T.units T.start vals).map (axis nr cls)

/-- `get_outtime`, climat.py:125-147. The axis made of values has years always (line 138). -/
def outTime (nr : List ℚ → ℚ) (T : Cf.TimeAx) (vals : List ℚ) : Option Axis :=
  (seasonalClass T.cal).bind fun cls => (ofValues T.cal T.units T.start vals).bind fun a =>
    (ofFields T.cal T.units (some T.start) true (uniquify a.dates)).map (axis nr cls)

/-- `TimeOp.__init__`, climat.py:169-185, for the seasonal operations: the time axis of the input is replaced as well. `T` is the time axis of `x`. -/
def seasonalOp (nr : List ℚ → ℚ) (junk : List ℕ → α) (junk' : List ℕ → β) (T : Cf.TimeAx) (x : Var α)
    (getview : Var α → Axis → ℕ → View Axis → Option (NArr β)) : Option (Var β) :=
  (foundAt (whichaxis x.axes (.cls "CalendarTime".toList))).bind fun ti => (x.axes[ti]?).bind fun t =>
  (outTime nr T t.values).bind fun out => (inTime nr T t.values).bind fun tin =>
  (replaceAxes nr junk x (x.axes.set ti tin)).map fun x' => Var.ofView junk' (x'.axes.set ti out) (getview x' tin ti)

/-- `seasonalmean(x)`, climat.py:397-401 -/
def mean (nr : List ℚ → ℚ) (junk : List ℕ → ℚ) (limit : ℕ) (T : Cf.TimeAx) (x : Var ℚ) : Option (Var ℚ) :=
  seasonalOp nr junk junk T x fun x t ti => ClimVar.meanView nr limit t ti (x.read nr junk)

/-- `seasonalnanmean(x)`, climat.py:425-429 -/
def nanmean (nr : List ℚ → ℚ) (junk : List ℕ → Option ℚ) (limit : ℕ) (T : Cf.TimeAx) (x : Var (Option ℚ)) : Option (Var (Option ℚ)) :=
  seasonalOp nr junk junk T x fun x t ti => ClimVar.nanMeanView nr limit t ti (x.read nr junk)

/-- `seasonalcount(x)`, climat.py:485-486 -/
def count (nr : List ℚ → ℚ) (junk : List ℕ → Option ℚ) (junk' : List ℕ → ℕ) (limit : ℕ) (T : Cf.TimeAx) (x : Var (Option ℚ)) : Option (Var ℕ) :=
  seasonalOp nr junk junk' T x fun x t ti => ClimVar.countView nr limit t ti (x.read nr junk)

/-- `seasonalstdev(x)`, climat.py:449-450, before the square root -/
def variance (nr : List ℚ → ℚ) (junk : List ℕ → ℚ) (limit : ℕ) (T : Cf.TimeAx) (x : Var ℚ) : Option (Var ℚ) :=
  seasonalOp nr junk junk T x fun x t ti => ClimVar.varianceView nr limit t ti (x.read nr junk)

/-- `seasonalnanstdev(x)`, climat.py:467-468, before the square root -/
def nanvariance (nr : List ℚ → ℚ) (junk : List ℕ → Option ℚ) (limit : ℕ) (T : Cf.TimeAx) (x : Var (Option ℚ)) : Option (Var (Option ℚ)) :=
  seasonalOp nr junk junk T x fun x t ti => ClimVar.nanVarianceView nr limit t ti (x.read nr junk)

end Seasonal
end PyGeode
