/-
Model of /repo/pygeode/ensemble.py: variables collected along a new first axis. A dataset is its list of named variables.
-/
import Verif.Model.Concat

namespace PyGeode
namespace Ensemble
variable {α : Type}

/-- `Ensemble(n)`, ensemble.py:4-9 and axis.py:1223-1227 (one axis per length is kept in a dictionary); `rtol` is that of the constructor -/
def ensembleAxis (nr : List ℚ → ℚ) (n : ℕ) : Axis :=
  { classes := ["Ensemble".toList, "Index".toList, "Axis".toList], aliases := ["ensemble".toList], name := "ensemble".toList
    values := (List.range n).map fun i : ℕ => (i : ℚ), isFloat := false, rtol := nr ((List.range n).map fun i : ℕ => (i : ℚ))
    auxatts := [], auxarrays := [] }

/-- `[a]`: a list of one array is one more dimension, ensemble.py:29 -/
def expandFirst (a : NArr α) : NArr α := { shape := 1 :: a.shape, get := fun k => a.get k.tail }

/-- `EnsembleVar.getview`, ensemble.py:25-31 -/
def ensembleView (nr : List ℚ → ℚ) (junk : List ℕ → α) (varlist : List (Var α)) (v : View Axis) : Option (NArr α) := do
  let chunks ← (v.inds.headD []).mapM fun i => (varlist[i]?).bind fun x =>
    (x.read nr junk { axes := v.axes.tail, inds := v.inds.tail }).map expandFirst
  Concat.concatenate junk 0 chunks

/-- `EnsembleVar(varlist)`, ensemble.py:13-23 -/
def ensembleVar (nr : List ℚ → ℚ) (junk : List ℕ → α) (varlist : List (Var α)) : Option (Var α) := do
  let var0 ← varlist.head?
  some (Var.ofView junk (ensembleAxis nr varlist.length :: var0.axes) (ensembleView nr junk varlist))

/-- `var.axes == var0.axes` (tuples of axes) -/
def axesEq (A B : List Axis) : Bool := decide (A.length = B.length) && (List.zipWith Axis.axEq A B).all id

/-- `set(a) == set(b)` -/
def sameSet (a b : List Name) : Bool := decide (∀ n ∈ a, n ∈ b) && decide (∀ n ∈ b, n ∈ a)

/-- `ensemble(*datasets)`, ensemble.py:37-73: the named variables of the result; `none` is an exception. (A variable is a dataset of one.) -/
def ensemble (nr : List ℚ → ℚ) (junk : List ℕ → α) (datasets : List (List (Name × Var α))) : Option (List (Name × Var α)) := do
  let first ← datasets.head?
  let varnames := first.map Prod.fst
  if datasets.all fun d => sameSet (d.map Prod.fst) varnames then
    let lists ← varnames.mapM fun n => datasets.mapM fun d => d.lookup n
    if lists.all fun l => l.all fun x => axesEq x.axes ((l.head?.map Var.axes).getD []) then
      (varnames.zip lists).mapM fun p => (ensembleVar nr junk p.2).map fun y => (p.1, y)
    else none
  else none

end Ensemble
end PyGeode
