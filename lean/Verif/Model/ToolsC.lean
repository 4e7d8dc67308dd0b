/-
Model of the coordinate sorting and matching routines of /repo/pygeode/tools.c (lines 14-213)
and of their Python wrappers in /repo/pygeode/tools.py.
Doubles are modelled by exact rationals; an array element paired with its original position
(the two parallel C arrays `a` and `a_ind`) is a pair `(value, position)`.
-/
import Mathlib.Data.List.Sort
import Mathlib.Algebra.Order.Field.Rat
import Mathlib.Data.Rat.Floor
import Mathlib.Algebra.Order.Group.Abs

namespace PyGeode.ToolsC

/-- The merge loop of `msort`, /repo/pygeode/tools.c:38-54: take from the left run when the right
run is exhausted or the left head is `<=` the right head, else from the right run.
(The two index variables `i`, `j` of the C loop are the heads of the two lists.) -/
def merge : List (ℚ × ℕ) → List (ℚ × ℕ) → List (ℚ × ℕ)
  | [], ys => ys
  | xs, [] => xs
  | x :: xs, y :: ys =>
    if x.1 ≤ y.1 then x :: merge xs (y :: ys) else y :: merge (x :: xs) ys
  termination_by xs ys => xs.length + ys.length

/-- `msort`, /repo/pygeode/tools.c:16-65. The first argument bounds the recursion depth
(the C recursion halves `na`, so `na` itself is always enough; see `msortFuel_sorted`). -/
def msortFuel : ℕ → List (ℚ × ℕ) → List (ℚ × ℕ)
  | 0, l => l
  | fuel + 1, l =>
    if l.length ≤ 1 then l                       -- lines 21-24
    else
      let m1 := l.length / 2                     -- line 27
      merge (msortFuel fuel (l.take m1)) (msortFuel fuel (l.drop m1))   -- lines 30-54

/-- Pair each value with its position (`a_ind[0] = offset` in the base case, tools.c:22). -/
def withPos (a : List ℚ) : List (ℚ × ℕ) := a.zipIdx

/-- `msort(na, a, a_ind, 0)`. -/
def msort (a : List ℚ) : List (ℚ × ℕ) := msortFuel a.length (withPos a)

/-- the flag `sorted` computed by the loop at /repo/pygeode/tools.c:75-78 -/
def isSorted : List ℚ → Bool
  | [] => true
  | [_] => true
  | x :: y :: l => (!decide (x > y)) && isSorted (y :: l)

/-- the flag `rsorted` computed by the loop at /repo/pygeode/tools.c:75-78
(cleared only in the `else if` branch) -/
def isRSorted : List ℚ → Bool
  | [] => true
  | [_] => true
  | x :: y :: l => (decide (x > y) || !decide (x < y)) && isRSorted (y :: l)

/-- `sort(na, a, a_ind)`, /repo/pygeode/tools.c:71-96: the sorted values with their original
positions. -/
def sort (a : List ℚ) : List (ℚ × ℕ) :=
  if isSorted a then withPos a                   -- lines 79-82
  else if isRSorted a then (withPos a).reverse   -- lines 83-90
  else msort a                                   -- line 93

/-- The `while` loop of `map_to`, /repo/pygeode/tools.c:136-139: move right while the next
coordinate is strictly closer to `B`. The state is the current element and those to its right. -/
def advance (B : ℚ) : (ℚ × ℕ) → List (ℚ × ℕ) → (ℚ × ℕ) × List (ℚ × ℕ)
  | cur, [] => (cur, [])
  | cur, nxt :: rest =>
    if |nxt.1 - B| < |cur.1 - B| then advance B nxt rest else (cur, nxt :: rest)

/-- The `for` loop of `map_to`, /repo/pygeode/tools.c:132-145, over the sorted requests,
writing into `indices` (`none` = -1). -/
def matchLoop (rtol : ℚ) : (ℚ × ℕ) → List (ℚ × ℕ) → List (ℚ × ℕ) → List (Option ℕ) →
    List (Option ℕ)
  | _, _, [], out => out
  | cur, rest, b :: bs, out =>
    let st := advance b.1 cur rest
    let out := if |st.1.1 - b.1| ≤ rtol * |b.1| then out.set b.2 (some st.1.2) else out  -- line 142
    matchLoop rtol st.1 st.2 bs out

/-- `map_to(na, a, nb, b, indices, rtol)`, /repo/pygeode/tools.c:101-150. -/
def mapToC (a b : List ℚ) (rtol : ℚ) : List (Option ℕ) :=
  let indices := List.replicate b.length none    -- line 124
  match sort a with
  | [] => indices                                -- lines 127-130
  | x :: xs => matchLoop rtol x xs (sort b) indices

/-- `map_to(a, b, rtol)` of /repo/pygeode/tools.py:288-294: unmatched requests are dropped. -/
def mapTo (a b : List ℚ) (rtol : ℚ) : List ℕ := (mapToC a b rtol).filterMap id

/-- C conversion of a double to `int` (truncation towards zero), used implicitly at
/repo/pygeode/tools.c:166. -/
def truncToInt (q : ℚ) : ℤ := if 0 ≤ q then ⌊q⌋ else ⌈q⌉

/-- `common_map` of /repo/pygeode/tools.c:158-213 on two sorted arrays: the list of
`(a_map[m], b_map[m])`. `ai`, `bi` are the positions of the heads of the remaining lists.
The comparison is `int cmp = a[ai] - b[bi]` (line 166). -/
def commonMapC : List ℚ → List ℚ → ℕ → ℕ → List (ℕ × ℕ)
  | [], _, _, _ => []
  | _, [], _, _ => []
  | x :: xs, y :: ys, ai, bi =>
    let cmp := truncToInt (x - y)
    if cmp = 0 then
      (ai, bi) ::
        (if xs.head? = some x then commonMapC xs (y :: ys) (ai + 1) bi           -- lines 173-176
         else if ys.head? = some y then commonMapC (x :: xs) ys ai (bi + 1)      -- lines 177-180
         else commonMapC xs ys (ai + 1) (bi + 1))                                -- lines 182-184
    else if cmp < 0 then commonMapC xs (y :: ys) (ai + 1) bi                     -- line 188
    else commonMapC (x :: xs) ys ai (bi + 1)                                     -- line 189
  termination_by xs ys => xs.length + ys.length

end PyGeode.ToolsC
