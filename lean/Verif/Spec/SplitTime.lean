/-
Specification side of splitting a time axis into years and the rest of the date, and of joining them.
-/
import Verif.Model.SplitTime
import Verif.Spec.TimeMatch

namespace PyGeode.Spec
open PyGeode NArr

variable {α : Type}

/-- the year of the `i`-th time -/
def yearAt (t : Axis) (i : ℕ) : ℤ := ⌊((t.auxarrays.lookup "year".toList).getD []).getD i 0⌋

/-- The axis `years` holds the years that occur in `t`, each once, in increasing order. -/
structure IsYears (t years : Axis) : Prop where
  name : years.name = "year".toList
  order : years.values.Pairwise (· < ·)
  same : ∀ v : ℚ, v ∈ years.values ↔ ∃ i < t.len, v = yearAt t i

/-- the times of `t` in the `y`-th of the years, on the `d`-th of the days -/
def timesOn (t years days : Axis) (y d : ℕ) : List ℕ :=
  (List.range t.len).filter fun i =>
    decide ((yearAt t i : ℚ) = years.values.getD y 0 ∧ dateAt t (fieldsKept t .clim) i = dateAt days (fieldsKept t .clim) d)

/-- the data, laid out by years (axis `ti`) and days (axis `ti + 1`): the value at the time of that date, the last one if there are
several, `nan` if there is none -/
def byYears (nan : α) (t years days : Axis) (ti : ℕ) (data : List ℕ → α) (K : List ℕ) : α :=
  match (timesOn t years days (K.getD ti 0) (K.getD (ti + 1) 0)).getLast? with
  | some i => data ((K.eraseIdx (ti + 1)).set ti i)
  | none => nan

/-- `mk` makes time axes out of any years and days of `t`, in all combinations: its fields are the given ones. -/
def Rejoins (t : Axis) (mk : List (Name × List ℚ) → Axis) : Prop :=
  ∀ (fs : List Name) (ys ds : List ℕ), fs ≠ [] → fs.Sublist sixFields → (∀ f ∈ fs, f ∈ t.auxarrays.map Prod.fst) →
    "year".toList ∈ t.auxarrays.map Prod.fst → "year".toList ∉ fs → ys ≠ [] → ds ≠ [] → (∀ i ∈ ys, i < t.len) → (∀ i ∈ ds, i < t.len) →
    let aux := ("year".toList, ys.flatMap fun i : ℕ => List.replicate ds.length (yearAt t i : ℚ)) ::
      fs.map fun f => (f, ys.flatMap fun _ => ds.map fun i : ℕ => ((⌊((t.auxarrays.lookup f).getD []).getD i 0⌋ : ℤ) : ℚ))
    (mk aux).classes = t.classes ∧ (mk aux).auxarrays = aux ∧ (mk aux).len = ys.length * ds.length

/-! ### joining -/

/-- A variable over years (axis `yi`) and days (the next axis): the years are whole numbers, in increasing order, far enough apart to be
told from each other; the days are times without a year, with the fields `fs`, in increasing order. The other axes are of other kinds. -/
structure YearsAndDays (x : Var α) (yi : ℕ) (years days : Axis) (fs : List Name) : Prop where
  reg : Regular x.axes
  year : x.axes[yi]? = some years
  day : x.axes[yi + 1]? = some days
  ykind : years.classes = ["NamedAxis year".toList]
  whole : ∀ v ∈ years.values, ((⌊v⌋ : ℤ) : ℚ) = v
  yorder : years.values.Pairwise (· < ·)
  ysep : Separated years.values
  ytol : 0 ≤ years.rtol
  ypos : 0 < years.len
  dpos : 0 < days.len
  cal : "CalendarTime".toList ∈ days.classes
  time : "Time".toList ∈ days.classes
  plain : "SeasonalStandardTime".toList ∉ days.classes ∧ "SeasonalModelTime365".toList ∉ days.classes
  fields : days.auxarrays.map Prod.fst = fs
  usual : fs.Sublist sixFields
  noYear : "year".toList ∉ fs
  some_ : fs ≠ []
  dvalues : days.values.Pairwise (· < ·)
  ddates : ((List.range days.len).map (dateAt days fs)).Pairwise (· < ·)

/-- the fields of the times in the years `ys` on the days `ds`, all days of the first year first -/
def combined (fs : List Name) (years days : Axis) (ys ds : List ℕ) : List (Name × List ℚ) :=
  ("year".toList, ys.flatMap fun i : ℕ => List.replicate ds.length (years.values.getD i 0)) ::
    fs.map fun f => (f, ys.flatMap fun _ => ds.map fun i : ℕ => ((⌊((days.auxarrays.lookup f).getD []).getD i 0⌋ : ℤ) : ℚ))

/-- `mk` makes time axes of the kind of `days` out of any years and days, with the given fields; the values increase. -/
def Joins (fs : List Name) (years days : Axis) (mk : List (Name × List ℚ) → Axis) : Prop :=
  ∀ ys ds : List ℕ, ys ≠ [] → ds ≠ [] → ys.Pairwise (· < ·) → ds.Pairwise (· < ·) → (∀ i ∈ ys, i < years.len) → (∀ i ∈ ds, i < days.len) →
    (mk (combined fs years days ys ds)).classes = days.classes ∧ (mk (combined fs years days ys ds)).auxarrays = combined fs years days ys ds ∧
    (mk (combined fs years days ys ds)).len = ys.length * ds.length ∧ (mk (combined fs years days ys ds)).values.Pairwise (· < ·)

/-- the data, with the years and the `nd` days in one axis `yi`, all days of the first year first -/
def inOneAxis (nd yi : ℕ) (data : List ℕ → α) (K : List ℕ) : α :=
  data ((K.set yi (K.getD yi 0 / nd)).insertIdx (yi + 1) (K.getD yi 0 % nd))

end PyGeode.Spec
