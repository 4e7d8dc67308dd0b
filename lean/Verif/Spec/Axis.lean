/-
Specification side of axis selection: which positions a selection keyword describes.
-/
import Verif.Model.Axis

namespace PyGeode.Spec
open Axis

/-- position `i` is the first among those whose value is nearest to `v` -/
def FirstNearest (vals : List ℚ) (v : ℚ) (i : ℕ) : Prop :=
  ∃ x, vals[i]? = some x ∧ (∀ y ∈ vals, |v - x| ≤ |v - y|) ∧
    ∀ j y, j < i → vals[j]? = some y → |v - x| < |v - y|

/-- one requested value: floats match the nearest, other types exactly -/
def MatchesValue (isFloat : Bool) (vals : List ℚ) (v : ℚ) (i : ℕ) : Prop :=
  if isFloat then FirstNearest vals v i else vals[i]? = some v

/-- selection by index on an axis of length `n` (negative positions count from the end; two or three numbers
are a Python slice unless marked as a list) -/
def WantedIndex (n : ℕ) (asList : Bool) (i : ℕ) : Arg → Prop
  | .scalar v => (i : ℤ) = toInt v ∨ (i : ℤ) = toInt v + n
  | .seq vs =>
    if asList ∨ ¬ (vs.length = 2 ∨ vs.length = 3) then ∃ v, some v ∈ vs ∧ ((i : ℤ) = toInt v ∨ (i : ℤ) = toInt v + n)
    else i ∈ slicePositions ⟨(vs.getD 0 none).map toInt, (vs.getD 1 none).map toInt, (vs.getD 2 none).map toInt⟩ n

/-- selection by value: a nearest (or equal) value, a list of them, or a closed range given by its ends in any
order -/
def WantedValue (isFloat : Bool) (vals : List ℚ) (asList : Bool) (i : ℕ) : Arg → Prop
  | .scalar v => MatchesValue isFloat vals v i
  | .seq vs =>
    if asList then ∃ v, some v ∈ vs ∧ MatchesValue isFloat vals v i
    else ∃ a b x, vs = [some a, some b] ∧ vals[i]? = some x ∧ min a b ≤ x ∧ x ≤ max a b

/-- What a keyword means for an axis: by index (`i` prefix) or by value of the axis or of one of its auxiliary
arrays, complemented by the `n` prefix. -/
def Wanted (ax : Axis) (k : Name) (v : Arg) (i : ℕ) : Prop :=
  let pre := (splitKey ax.hasAlias k).1
  let nm := (splitKey ax.hasAlias k).2
  let plain :=
    if 'i' ∈ pre then WantedIndex ax.len (decide ('l' ∈ pre)) i v
    else if ax.hasAlias nm then WantedValue ax.isFloat ax.values (decide ('l' ∈ pre)) i v
    else WantedValue ax.isFloat ((ax.auxarrays.lookup nm).getD []) (decide ('l' ∈ pre)) i v
  if 'n' ∈ pre then ¬ plain else plain

/-- The keyword is about this axis. -/
def Accepts (ax : Axis) (k : Name) : Prop :=
  let pre := (splitKey ax.hasAlias k).1
  let nm := (splitKey ax.hasAlias k).2
  ax.hasAlias nm = true ∨ ('i' ∉ pre ∧ nm ∈ ax.auxarrays.map Prod.fst)

end PyGeode.Spec
