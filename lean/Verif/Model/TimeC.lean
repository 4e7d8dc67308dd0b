/-
Model of the date lookup routines of /repo/pygeode/timeaxis.c:21-204 and of the Python code
around them. A date tuple (the `natts` fields of one time) is a list of integers; the flat C
arrays `values[i*natts + a]` are lists of rows. `natts > 0` (with no field at all `get_index`
does not terminate); C `int` is unbounded.
-/
import Mathlib.Data.Int.Notation
import Mathlib.Data.Nat.Notation
import Mathlib.Data.List.Sort
import Mathlib.Order.Basic
import Mathlib.Data.List.Lex

namespace PyGeode.TimeC

/-- one date tuple -/
abbrev Row := List ℤ

/-- The field scan of `get_index`, /repo/pygeode/timeaxis.c:44-55: `lt` if the key is before the
row (upper bound moves), `gt` if after (lower bound moves), `eq` on a match of all fields. -/
def scan : Row → Row → Ordering
  | k :: ks, v :: vs => if k < v then .lt else if k > v then .gt else scan ks vs
  | _, _ => .eq

/-- The search loop of `get_index`, /repo/pygeode/timeaxis.c:34-58. -/
def getIndexLoop (values : List Row) (key : Row) (lower upper : ℤ) : Option ℕ :=
  if _h : lower > upper then none                                   -- line 35-38
  else
    match scan key (values.getD ((lower + upper) / 2).toNat []) with  -- line 40
    | .lt => getIndexLoop values key lower ((lower + upper) / 2 - 1)  -- line 46
    | .gt => getIndexLoop values key ((lower + upper) / 2 + 1) upper  -- line 50
    | .eq => some ((lower + upper) / 2).toNat                         -- line 58
  termination_by (upper + 1 - lower).toNat
  decreasing_by all_goals omega

/-- `get_index`, /repo/pygeode/timeaxis.c:23-59; `none` is the return value -1. (The loop bounds
stay non-negative where the quotient is taken, so C division is floor division.) -/
def getIndex (values : List Row) (key : Row) : Option ℕ :=
  getIndexLoop values key 0 ((values.length : ℤ) - 1)

/-- `get_indices`, /repo/pygeode/timeaxis.c:62-71. -/
def getIndices (invalues outvalues : List Row) : List (Option ℕ) :=
  outvalues.map (getIndex invalues)

/-- `uniquify`, /repo/pygeode/timeaxis.c:76-100. -/
def uniquify (rows : List Row) : List Row :=
  rows.foldl (fun out x => if out.length = 0 ∨ getIndex out x = none then out ++ [x] else out) []

/-- `le` of `nearest_lower`, /repo/pygeode/timeaxis.c:124-128. -/
def leRow : Row → Row → Bool
  | s :: ss, l :: ls => if s < l then true else if s > l then false else leRow ss ls
  | _, _ => true

/-- The loop of `nearest_lower`, /repo/pygeode/timeaxis.c:121-150 (result -1 is `none`). -/
def nearestLoop (sorted : List Row) (lookup : Row) (lower upper : ℤ) : Option ℕ :=
  if _h : lower ≤ upper then
    if leRow (sorted.getD ((lower + upper + 1) / 2).toNat []) lookup then
      if (lower + upper + 1) / 2 = upper then some upper.toNat         -- lines 135-139, 149
      else nearestLoop sorted lookup ((lower + upper + 1) / 2) upper
    else nearestLoop sorted lookup lower ((lower + upper + 1) / 2 - 1)
  else none                                                            -- line 150: lower > upper
  termination_by (upper + 1 - lower).toNat
  decreasing_by all_goals omega

/-- `nearest_lower`, /repo/pygeode/timeaxis.c:112-153, one lookup. -/
def nearestLower (sorted : List Row) (lookup : Row) : Option ℕ :=
  nearestLoop sorted lookup 0 ((sorted.length : ℤ) - 1)

/-- `cmpval`, /repo/pygeode/timeaxis.c:156-162. -/
def cmpval : Row → Row → ℤ
  | x :: xs, y :: ys => if x - y ≠ 0 then x - y else cmpval xs ys
  | _, _ => 0

/-- `CMP(a,ai,a,ai+1) == 0` when there is a next element, lines 180 and 184 -/
def nextSame (x : Row) (xs : List Row) : Bool :=
  match xs with
  | [] => false
  | x' :: _ => cmpval x x' = 0

/-- The walk of `common_map`, /repo/pygeode/timeaxis.c:171-197, on the rest of both arrays
(`ai`, `bi` are the current positions). The bound `nmap` of the output buffers is not part of
the walk; see theorem `commonMap_fits`. -/
def commonWalk (a b : List Row) (ai bi : ℕ) : List (ℕ × ℕ) :=
  match a, b with
  | x :: xs, y :: ys =>
    if cmpval x y = 0 then
      (ai, bi) ::
        (if nextSame x xs then commonWalk xs (y :: ys) (ai + 1) bi
         else if nextSame y ys then commonWalk (x :: xs) ys ai (bi + 1)
         else commonWalk xs ys (ai + 1) (bi + 1))
    else if cmpval x y < 0 then commonWalk xs (y :: ys) (ai + 1) bi
    else commonWalk (x :: xs) ys ai (bi + 1)
  | _, _ => []
  termination_by a.length + b.length
  decreasing_by all_goals simp only [List.length_cons]; omega

/-- `_argsort`, /repo/pygeode/timeaxis.py:26-35 (`np.lexsort`): positions in lexicographic order of
their rows. -/
def argsortRows (rows : List Row) : List ℕ :=
  (List.range rows.length).insertionSort (fun i j => rows.getD i [] ≤ rows.getD j [])

/-- `Time.common_map`, /repo/pygeode/timeaxis.py:234-272, on the rows of the common fields: sort,
walk, and translate the positions back. -/
def commonMap (a b : List Row) : List (ℕ × ℕ) :=
  (commonWalk ((argsortRows a).map (fun i : ℕ => a.getD i [])) ((argsortRows b).map (fun i : ℕ => b.getD i [])) 0 0).map
    (fun p => ((argsortRows a).getD p.1 0, (argsortRows b).getD p.2 0))

/-- `Time.map_to`, /repo/pygeode/timeaxis.py:164-231, on rows: `order` is the argsort of the
*values* of the axis; misses are dropped. -/
def timeMapTo (order : List ℕ) (mine other : List Row) : List ℕ :=
  ((getIndices (order.map fun i : ℕ => mine.getD i []) other).filterMap id).map (fun k : ℕ => order.getD k 0)

end PyGeode.TimeC
