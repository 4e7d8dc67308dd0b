/-
Model of `_DataVar.getview` of /repo/pygeode/formats/data_scanner.py:697-737: reading a variable that is put together from
pieces in several files, with the intersection of axes of lines 292-344 and numpy's `searchsorted`.

Axes are lists of values (without auxiliary arrays); the axes of every piece are in the order of the axes of the variable.
A list of slices used as an index is taken as a tuple (newer versions of numpy refuse it).
-/
import Mathlib.Algebra.Order.Field.Rat
import Mathlib.Data.List.Sort
import Verif.Model.Index
import Verif.Model.NArr

namespace PyGeode
namespace Scan

/-- the bisection of `np.searchsorted(a, key)` between `lo` and `hi`; `fuel` bounds the number of steps by `hi - lo` -/
def bisect (a : List ℚ) (key : ℚ) : ℕ → ℕ → ℕ → ℕ
  | 0, lo, _ => lo
  | fuel + 1, lo, hi =>
    if lo < hi then
      let mid := lo + (hi - lo) / 2
      if a.getD mid 0 < key then bisect a key fuel (mid + 1) hi else bisect a key fuel lo mid
    else lo

/-- `np.searchsorted(a, keys)` (numpy's `binsearch`): the search for a key uses the result `r` for the key `last` before it -/
def searchLoop (a : List ℚ) : ℚ → ℕ → ℕ → List ℚ → List ℕ
  | _, _, _, [] => []
  | last, lo, hi, key :: keys =>
    let lo' := if last < key then lo else 0
    let hi' := if last < key then a.length else if hi < a.length then hi + 1 else a.length
    let r := bisect a key (hi' - lo') lo' hi'
    r :: searchLoop a key r r keys

def searchsorted (a keys : List ℚ) : List ℕ := searchLoop a (keys.headD 0) 0 a.length keys

/-- one piece: the values of its axes and the data -/
structure Piece (α : Type) where
  coords : List (List ℚ)
  data : List ℕ → α

/-- `_get_axis_intersection([a1, a2])`, lines 336-344, with `_unsettify_axis`, lines 299-302: sorted, backwards if the first of the
axes starts downwards -/
def inter (a1 a2 : List ℚ) : List ℚ :=
  let values := ((a1.filter fun x => decide (x ∈ a2)).dedup).insertionSort (· ≤ ·)
  match a1 with
  | x :: y :: _ => if y < x then values.reverse else values
  | _ => values

/-- `m`, the positions of the output axis that the piece has, lines 715-718 -/
def maskOf (a1 a2 : List ℚ) : List ℕ :=
  (List.range a1.length).filter fun i : ℕ =>
    let r := (searchsorted a2 a1).getD i 0
    decide (r < a2.length) && decide (a2.getD r 0 = a1.getD i 0)

/-- `re`, their positions in the piece, lines 713 and 721 -/
def reorderOf (a1 a2 : List ℚ) : List ℕ := (maskOf a1 a2).map fun i => (searchsorted a2 a1).getD i 0

/-- an index that is not a slice -/
def Ind.isList : Ind → Bool
  | .list _ => true
  | _ => false

/-- is the mask an array after `simplify`, line 720 -/
def maskIrregular (a1 a2 : List ℚ) : Bool := Ind.isList (simplify ((maskOf a1 a2).map fun i : ℕ => (i : ℤ)))

/-- is the order an array after lines 723-724 -/
def reorderIrregular (a1 a2 : List ℚ) : Bool :=
  let re := reorderOf a1 a2
  if re = re.insertionSort (· ≤ ·) then Ind.isList (simplify (re.map fun i : ℕ => (i : ℤ))) else true

/-- `View(subaxes).get(var)` of lines 727-729: the data of the piece at the values of the axes `subs` (exact matches; that reading at
values of an axis gives the data at these values is C14 and C15) -/
def chunk {α : Type} (p : Piece α) (subs : List (List ℚ)) (q : List ℕ) : α :=
  p.data ((List.range subs.length).map fun j : ℕ => (p.coords.getD j []).idxOf ((subs.getD j []).getD (q.getD j 0) 0))

/-- one turn of the loop over the files, lines 706-735, with the common parts `subs` of the axes; `none`: an assertion fails -/
def overlayOn {α : Type} (xs subs : List (List ℚ)) (out : List ℕ → α) (p : Piece α) : Option (List ℕ → α) :=
  if subs.any (fun a => decide (a = [])) then some out                                  -- line 710
  else if 1 < (List.zipWith reorderIrregular xs subs).count true ∨ 1 < (List.zipWith maskIrregular xs subs).count true then none
  else some fun k =>                                                                    -- line 733: out[mask] = chunk[reorder]
    if (List.range xs.length).all fun j : ℕ => decide (k.getD j 0 ∈ maskOf (xs.getD j []) (subs.getD j [])) then
      chunk p subs ((List.range xs.length).map fun j : ℕ =>
        (reorderOf (xs.getD j []) (subs.getD j [])).getD ((maskOf (xs.getD j []) (subs.getD j [])).idxOf (k.getD j 0)) 0)
    else out k

/-- one turn of the loop over the files, lines 706-735 -/
def overlay {α : Type} (xs : List (List ℚ)) (out : List ℕ → α) (p : Piece α) : Option (List ℕ → α) :=
  overlayOn xs (List.zipWith inter xs p.coords) out p

/-- `_DataVar.getview`, lines 697-737: `xs` are the values of the requested positions on every axis -/
def getview {α : Type} (nan : α) (xs : List (List ℚ)) (table : List (Piece α)) : Option (List ℕ → α) :=
  table.foldlM (overlay xs) fun _ => nan

end Scan
end PyGeode
