/-
Independent specification of Python / numpy indexing, used to state the index properties.
Nothing here is derived from pygeode's own code: it is the documented meaning of
`seq[start:stop:step]` and of integer-array indexing.
-/
import Verif.Model.Index

namespace PyGeode.Spec

/-- Where Python starts a slice on a sequence of length `n`: negative bounds count from the
end, and the result is clamped (to `0..n` going up, to `-1..n-1` going down). -/
def clampBound (n : ℕ) (up : Bool) (b : ℤ) : ℤ :=
  let b := if b < 0 then b + n else b
  if up then max 0 (min b n) else max (-1) (min b (n - 1))

/-- The positions selected by `seq[start:stop:step]` from a sequence of length `n`, said
declaratively: going up, every position `i` with `lo ≤ i < hi` that is a whole number of steps
from `lo`, ascending; going down, every `i` with `hi < i ≤ lo` a whole number of steps below
`lo`, descending. -/
def slicePositions (s : PySlice) (n : ℕ) : List ℕ :=
  let step := s.step.getD 1
  if 0 < step then
    let lo := (s.start.map (clampBound n true)).getD 0
    let hi := (s.stop.map (clampBound n true)).getD (n : ℤ)
    (List.range n).filter (fun i : ℕ => decide (lo ≤ (i : ℤ) ∧ (i : ℤ) < hi ∧ step ∣ ((i : ℤ) - lo)))
  else
    let lo := (s.start.map (clampBound n false)).getD ((n : ℤ) - 1)
    let hi := (s.stop.map (clampBound n false)).getD (-1)
    ((List.range n).filter
      (fun i : ℕ => decide (hi < (i : ℤ) ∧ (i : ℤ) ≤ lo ∧ step ∣ (lo - (i : ℤ))))).reverse

/-- The elements numpy returns for `a[ind]` with a one-dimensional `a`.
Integer lists pick element by element (non-negative indices; out of range = `none`);
an integer picks a single element (kept as a one-element list); a slice follows Python. -/
def npIndex {α : Type} (a : List α) : Ind → Option (List α)
  | .list l => l.mapM (fun i => if 0 ≤ i then a[i.toNat]? else none)
  | .int i => if 0 ≤ i then (a[i.toNat]?).map (fun x => [x]) else none
  | .slice s => if s.step = some 0 then none
      else (slicePositions s a.length).mapM (fun i => a[i]?)

end PyGeode.Spec
