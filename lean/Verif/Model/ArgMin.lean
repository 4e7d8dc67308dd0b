/-
Model of `ArgMinVar`, /repo/pygeode/reduce.py:151-180, and of the functions `argmax`, `argmin`, lines 555-597.
-/
import Verif.Model.Reduce

namespace PyGeode
namespace Reduce
open NArr

/-- `np.argmin` over a list (first position of the smallest value) -/
def argminList (l : List ℚ) : ℕ := l.findIdx fun x => l.all fun y => decide (x ≤ y)

/-- `np.argmin(indata, index)` -/
def npArgmin (a : NArr ℚ) (i : ℕ) : NArr ℕ :=
  { shape := a.shape.eraseIdx i
    get := fun k => argminList ((List.range (a.shape.getD i 0)).map fun j : ℕ => a.get (k.insertIdx i j)) }

/-- `ArgMinVar.getview`, reduce.py:171-178: each chunk overwrites the output. `junk` is the content of `np.empty` -/
def argMinVar (limit : ℕ) (lens : List ℕ) (index : ℕ) (outInds : List (List ℕ)) (junk : List ℕ → ℕ)
    (chunk : View ℕ → NArr ℚ) : NArr ℕ :=
  ((inView lens [index] outInds).loopMem limit []).foldl
    (fun out c => updateOuter (fun _ x => x) out (outPos lens [index] outInds c) (npArgmin (chunk c) index))
    { shape := outInds.map List.length, get := junk }

end Reduce
end PyGeode
