/-
Specification side of operations between variables on different time axes.
-/
import Verif.Model.TimeMatch
import Verif.Spec.ClimVar

namespace PyGeode.Spec
open PyGeode NArr

variable {α : Type}

/-- The time axis `out` is coarser than `t`: of the same calendar, with some but not all of the fields of `t`, its dates and its values
in increasing order; every time of `t` falls on one of its dates. Two times of `t` with the same value have the same date. -/
structure Coarser (fs : List Name) (t out : Axis) : Prop where
  cls : out.classes = t.classes
  time : "Time".toList ∈ t.classes
  plain : "SeasonalStandardTime".toList ∉ t.classes ∧ "SeasonalModelTime365".toList ∉ t.classes
  fields : out.auxarrays.map Prod.fst = fs
  usual : fs.Sublist sixFields
  some_ : fs ≠ []
  has : ∀ f ∈ fs, f ∈ t.auxarrays.map Prod.fst
  tag : t.auxatts.lookup "class".toList = none
  less : ∃ f ∈ t.auxarrays.map Prod.fst, f ∉ fs
  values : out.values.Pairwise (· < ·)
  dates : ((List.range out.len).map (dateAt out fs)).Pairwise (· < ·)
  covers : ∀ i < t.len, ∃ o < out.len, dateAt out fs o = dateAt t fs i
  same : ∀ i < t.len, ∀ j < t.len, t.values.getD i 0 = t.values.getD j 0 → dateAt t fs i = dateAt t fs j

/-- `pos` says on which date of `out` each time of `t` falls -/
def FallsOn (fs : List Name) (t out : Axis) (pos : ℕ → ℕ) : Prop :=
  ∀ i < t.len, pos i < out.len ∧ dateAt out fs (pos i) = dateAt t fs i

/-- the cell of a variable with axes `A`, `out` among them, that belongs to the cell `K` on the axes `R`: the same position on every
common axis, and on `out` the date on which the time falls -/
def onDates (out : Axis) (ti : ℕ) (pos : ℕ → ℕ) (A R : List Axis) (K : List ℕ) : List ℕ :=
  A.map fun a => if a = out then pos (K.getD ti 0) else K.getD (R.idxOf a) 0

/-- a request on the axes `R` that is not, along the time axis, for several times that all fall on the same date -/
def SeveralDates (fs : List Name) (t : Axis) (ti : ℕ) (I : List (List ℕ)) : Prop :=
  (I.getD ti []).length = 1 ∨ ∃ i ∈ I.getD ti [], ∃ j ∈ I.getD ti [], dateAt t fs i ≠ dateAt t fs j

end PyGeode.Spec
