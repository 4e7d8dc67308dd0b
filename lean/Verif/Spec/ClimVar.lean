/-
Specification side of the time averages of variables: which times belong together.
-/
import Verif.Model.ClimVar
import Verif.Props.AxisSlice
import Verif.Spec.Var
import Verif.Spec.Stats

namespace PyGeode.Spec
open PyGeode NArr ClimVar

variable {α : Type}

/-- the date of the `i`-th time of a time axis: the values of the fields `fs` -/
def dateAt (t : Axis) (fs : List Name) (i : ℕ) : List ℤ := fs.map fun f => ⌊((t.auxarrays.lookup f).getD []).getD i 0⌋

/-- the times of a time axis with the date `key` -/
def timesLike (t : Axis) (fs : List Name) (key : List ℤ) : List ℕ :=
  (List.range t.len).filter fun i => decide (dateAt t fs i = key)

/-- the fields that are kept: a climatology forgets the year, a diurnal cycle the day as well; a daily mean keeps the day, a
monthly mean the month, a yearly mean the year only -/
def keptBy : Bin → List Name
  | .clim => ["month".toList, "day".toList, "hour".toList, "minute".toList, "second".toList]
  | .diurnal => ["hour".toList, "minute".toList, "second".toList]
  | .daily => ["year".toList, "month".toList, "day".toList]
  | .monthly => ["year".toList, "month".toList]
  | .yearly => ["year".toList]

/-- the fields of the time axis `t` that are kept -/
def fieldsKept (t : Axis) (b : Bin) : List Name := (keptBy b).filter fun f => decide (f ∈ t.auxarrays.map Prod.fst)

/-- The time axis `t` has what the average needs: any kept field, for daily, monthly and yearly means the day, month or year. -/
def Needs (t : Axis) : Bin → Prop
  | .clim => fieldsKept t .clim ≠ []
  | .diurnal => fieldsKept t .diurnal ≠ []
  | .daily => "day".toList ∈ t.auxarrays.map Prod.fst
  | .monthly => "month".toList ∈ t.auxarrays.map Prod.fst
  | .yearly => "year".toList ∈ t.auxarrays.map Prod.fst

/-- The times of `out` are the dates that occur in `t`, each once, in chronological order, on the fields `fs`. -/
structure IsBinned (fs : List Name) (t out : Axis) : Prop where
  cls : out.classes = t.classes
  fields : out.auxarrays.map Prod.fst = fs
  order : ((List.range out.len).map (dateAt out fs)).Pairwise (· < ·)
  same : ∀ key, key ∈ (List.range out.len).map (dateAt out fs) ↔ ∃ i < t.len, dateAt t fs i = key

/-- the values that go into the cell `K` of the output: those at the times of the same date, at the same place -/
def together (t out : Axis) (fs : List Name) (ti : ℕ) (data : List ℕ → α) (K : List ℕ) : List α :=
  (timesLike t fs (dateAt out fs (K.getD ti 0))).map fun i : ℕ => data (K.set ti i)

/-- the fields of a date, in the usual order -/
def sixFields : List Name := ["year".toList, "month".toList, "day".toList, "hour".toList, "minute".toList, "second".toList]

/-- `mk` makes time axes like `t` out of date fields: out of some fields of some times of `t`, no two alike, it makes an axis of
the same class that has these fields and no others, with one value for each time, no two alike, and increasing if the dates
increase. -/
def Remakes (t : Axis) (mk : List (Name × List ℚ) → Axis) : Prop :=
  ∀ (fs : List Name) (idx : List ℕ), fs ≠ [] → fs.Sublist sixFields → (∀ f ∈ fs, f ∈ t.auxarrays.map Prod.fst) →
    idx ≠ [] → (∀ i ∈ idx, i < t.len) → (idx.map (dateAt t fs)).Nodup →
    let aux := fs.map fun f => (f, idx.map fun i : ℕ => ((⌊((t.auxarrays.lookup f).getD []).getD i 0⌋ : ℤ) : ℚ))
    (mk aux).classes = t.classes ∧ (mk aux).auxarrays = aux ∧ (mk aux).len = idx.length ∧ (mk aux).values.Nodup ∧
    ((idx.map (dateAt t fs)).Pairwise (· < ·) → (mk aux).values.Pairwise (· < ·))

/-- A variable with one time axis `t`, number `ti`, of at least one time: its axes are of different kinds, and the values of the other axes are far
enough apart to be told from each other. -/
structure TimeAt (x : Var α) (ti : ℕ) (t : Axis) : Prop where
  reg : Regular x.axes
  time : x.axes[ti]? = some t
  pos : 0 < t.len
  cal : "CalendarTime".toList ∈ t.classes
  only : ∀ j a, j < ti → x.axes[j]? = some a → "CalendarTime".toList ∉ a.classes
  sep : ∀ j a, j ≠ ti → x.axes[j]? = some a → 0 ≤ a.rtol ∧ Separated a.values

/-- the same, with a time axis that is not seasonal -/
structure TimeInput (x : Var α) (ti : ℕ) (t : Axis) : Prop extends TimeAt x ti t where
  plain : "SeasonalStandardTime".toList ∉ t.classes ∧ "SeasonalModelTime365".toList ∉ t.classes

end PyGeode.Spec
