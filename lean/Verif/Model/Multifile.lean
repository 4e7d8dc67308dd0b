/-
Model of variables spread over many files, /repo/pygeode/formats/multifile.py:336-418 (`Multifile_Var.getview`). One request
is a list of times, each given by its date fields; what a file holds for one time (the array along the other axes, read
with `newview.get`) is a value of an arbitrary type. The messages of the exceptions are left out.
-/
import Verif.Model.TimeC
import Mathlib.Data.Rat.Floor

namespace PyGeode
namespace Multifile
open TimeC

/-- An opened file, for one variable: the date fields of its times (of the file itself, if the variable has no time axis,
lines 374-381), the order that sorts the values of its time axis, and the data of every time. -/
structure File (β : Type) where
  rows : List Row
  order : List ℕ
  data : ℕ → β

/-- Python indexing of a list -/
def pyGet {γ : Type} (l : List γ) (i : ℤ) : Option γ :=
  if 0 ≤ i then l[i.toNat]? else if -(l.length : ℤ) ≤ i then l[(i + l.length).toNat]? else none

/-- `np.searchsorted(self.faxis.values, x, side='right') - 1`, line 355, on sorted starts -/
def fileIndex (starts : List ℚ) (x : ℚ) : ℤ := (starts.countP (fun s => decide (s ≤ x)) : ℤ) - 1

/-- the positions where a new file is opened, lines 357-361 -/
def newFilePos (idx : List ℤ) : List ℕ :=
  0 :: (List.range idx.length).filter fun p => decide (0 < p ∧ idx.getD p 0 ≠ idx.getD (p - 1) 0)

/-- `out[slices] = data; handled_times[bigmap] = True`, lines 398-399: the last of repeated positions wins -/
def store {β : Type} (out : List (Option β)) (bigmap : List ℕ) (data : List β) : List (Option β) :=
  (bigmap.zip data).foldl (fun o p => o.set p.1 (some p.2)) out

/-- the body of the loop, lines 364-399. `files` holds `none` for a file that cannot be opened or has no such variable.
`newview.get(var)` finds the times in the file again (`Time.map_to`). -/
def step {β : Type} (files : List (Option (File β))) (times : List Row) (idx : List ℤ) (out : List (Option β)) (p : ℕ) :
    Option (List (Option β)) :=
  match (pyGet files (idx.getD p 0)).getD none with
  | none => none                                                                          -- lines 366-371
  | some f =>
    let bigmap := (commonMap times f.rows).map Prod.fst                                   -- line 382
    if bigmap.length = 0 then none                                                        -- lines 386-387
    else
      let pos := timeMapTo f.order f.rows (bigmap.map fun i : ℕ => times.getD i [])       -- lines 392-394
      if pos.length = bigmap.length then some (store out bigmap (pos.map f.data)) else none

/-- `Multifile_Var.getview`, lines 336-418: `none` is an exception. `val` gives the position of a time on the axis of the
files (`reltime`). -/
def getview {β : Type} (files : List (Option (File β))) (starts : List ℚ) (val : Row → ℚ) (times : List Row) : Option (List β) :=
  let idx := times.map fun t => fileIndex starts (val t)
  ((newFilePos idx).foldlM (step files times idx) (List.replicate times.length none)).bind fun out => out.mapM id   -- line 401

end Multifile
end PyGeode
