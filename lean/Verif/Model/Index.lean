/-
Model of the index helpers of /repo/pygeode/view.py (lines 12-77).
Indices are numpy int32 in the source; here they are unbounded integers.
-/
import Mathlib.Data.List.Basic
import Mathlib.Data.List.Dedup
import Mathlib.Data.List.Sort
import Mathlib.Data.Int.Notation
import Mathlib.Data.Nat.Notation

namespace PyGeode

/-- A Python `slice(start, stop, step)` object (each part may be `None`). -/
structure PySlice where
  start : Option ℤ
  stop : Option ℤ
  step : Option ℤ
  deriving DecidableEq, Repr

/-- What a caller may pass as an index: a list/array, an int or a slice
(the three cases tested in /repo/pygeode/view.py:17-21). -/
inductive Ind where
  | list (l : List ℤ)
  | int (i : ℤ)
  | slice (s : PySlice)
  deriving DecidableEq, Repr

/-- Number of elements of `numpy.arange(start, stop, step)`, `step ≠ 0`:
`max(0, ceil((stop-start)/step))`. Library primitive used at /repo/pygeode/view.py:39. -/
def arangeLen (start stop step : ℤ) : ℕ :=
  if 0 < step then ((stop - start + (step - 1)) / step).toNat
  else ((start - stop + (-step - 1)) / (-step)).toNat

/-- `numpy.arange(start, stop, step)`. Library primitive used at /repo/pygeode/view.py:39. -/
def arange (start stop step : ℤ) : List ℤ :=
  (List.range (arangeLen start stop step)).map (fun k : ℕ => start + (k : ℤ) * step)

/-- `expand(ind, upper_bound)`, /repo/pygeode/view.py:12-40.
`none` models the `AssertionError` for `step == 0` (line 28). Note that, as in the source,
bounds are never clamped to the axis. -/
def expand (ind : Ind) (n : ℕ) : Option (List ℤ) :=
  match ind with
  | .list l => some l                                   -- line 17
  | .int i => some [i]                                  -- line 19
  | .slice s =>
    let step := s.step.getD 1                           -- line 27
    if step = 0 then none                               -- line 28
    else
      let start : ℤ := s.start.getD (if 0 < step then 0 else (n : ℤ) - 1)   -- lines 29-31
      let start : ℤ := if start < 0 then start + n else start               -- line 32
      let stop : ℤ := (s.stop.map (fun b : ℤ => if b < 0 then b + n else b)).getD
        (if 0 < step then (n : ℤ) else -1)                                  -- lines 34-37
      some (arange start stop step)                     -- line 39

/-- `numpy.diff` on a list. Library primitive used at /repo/pygeode/view.py:55,71. -/
def diffs : List ℤ → List ℤ
  | [] => []
  | [_] => []
  | a :: b :: l => (b - a) :: diffs (b :: l)

/-- `numpy.unique`: the distinct values in ascending order.
Library primitive used at /repo/pygeode/view.py:55. -/
def npUnique (l : List ℤ) : List ℤ := l.dedup.insertionSort (· ≤ ·)

/-- `simplify(ind)`, /repo/pygeode/view.py:43-64. -/
def simplify (ind : List ℤ) : Ind :=
  match ind with
  | [i] => .slice ⟨some i, some (i + 1), some 1⟩        -- lines 50-52
  | l =>
    match npUnique (diffs l) with                       -- line 55
    | [d] =>
      if d = 0 then .list l                             -- line 56
      else
        let start := l.headD 0                          -- line 58
        let stop := l.getLastD 0 + d
        .slice ⟨some start, if stop < 0 then none else some stop, some d⟩  -- lines 62-63
    | _ => .list l                                      -- line 56

/-- Positions `k+1` such that `diff[k] ≠ 1`, i.e. `np.where(delt != 1)[0] + 1`,
/repo/pygeode/view.py:73. `k` is the position of the head of the list. -/
def jumpStops (k : ℕ) : List ℤ → List ℕ
  | [] => []
  | d :: l => if d ≠ 1 then (k + 1) :: jumpStops (k + 1) l else jumpStops (k + 1) l

/-- `contiguate(ind)`, /repo/pygeode/view.py:66-77: a list of `(start, stop)` ranges of
positions in `ind`. -/
def contiguate (ind : List ℤ) : List (ℕ × ℕ) :=
  let stops := jumpStops 0 (diffs ind) ++ [ind.length]   -- line 74
  let starts := 0 :: stops.dropLast                      -- line 75
  starts.zip stops                                       -- line 76

end PyGeode
