/-
Model of what `var.sorted(...)` is asked, `varoperations.sorted`, /repo/pygeode/varoperations.py:197-271, of `Axis.argsort`,
/repo/pygeode/axis.py:292-331, and of `interp.sorted`, /repo/pygeode/interp.py:11-31.

Not modelled: attributes (copied). `down a`: the `plotorder` of the axis is -1 (otherwise 1; any other number would be the step of a slice).
-/
import Verif.Model.VarOps

namespace PyGeode
namespace SortKeys
open Combine VarOps
variable {α : Type}

/-- an argument `reverse` -/
inductive Reverse where
  | none
  | bool (b : Bool)
  /-- any other object, as 1 or `np.True_`, with its truth -/
  | other (truth : Bool)
  deriving DecidableEq

/-- whether the step of `S[::step]` is -1, axis.py:327-330 -/
def backwards (down : Axis → Bool) (a : Axis) : Reverse → Bool
  | .none => down a                                                                                 -- line 328
  | .bool b => b                                                                                    -- line 329: `reverse is True`
  | .other _ => false

/-- `axis.argsort(reverse)`, axis.py:325-330 -/
def argsortOf (down : Axis → Bool) (a : Axis) (r : Reverse) : List ℕ := axisArgsort a (backwards down a r)

/-- `{1:False, 0:None, -1:True}[o]`, varoperations.py:189; `none`: KeyError -/
def reverseOf (o : ℤ) : Option Reverse :=
  if o = 1 then some (.bool false) else if o = 0 then some .none else if o = -1 then some (.bool true) else .none

/-- the entries put into `order`, varoperations.py:256-269, in this order; `none`: KeyError, TypeError or AssertionError -/
def entries (axes : List Axis) (ids : List AxisId) (kw : List (Name × ℤ)) : Option (List (ℕ × ℤ)) :=
  (ids.mapM fun id => (foundAt (whichaxis axes id)).map fun i => (i, (0 : ℤ))).bind fun l =>         -- lines 257-259
    (kw.mapM fun p => (foundAt (whichaxis axes (.name p.1))).bind fun i =>                           -- lines 261-264
      if p.2 = 1 ∨ p.2 = 0 ∨ p.2 = -1 then some (i, p.2) else none).map fun k =>
      if l ++ k = [] then (List.range axes.length).map fun i => (i, 0) else l ++ k                   -- lines 266-268

/-- `order.get(i)`: the entry written last -/
def lookup (order : List (ℕ × ℤ)) (i : ℕ) : Option ℤ := (order.reverse.find? fun p => p.1 = i).map Prod.snd

/-- `sorted(var, *ids, **kw)`, varoperations.py:198-271 -/
def sorted (nr : List ℚ → ℚ) (junk : List ℕ → α) (down : Axis → Bool) (x : Var α) (ids : List AxisId) (kw : List (Name × ℤ)) :
    Option (Var α) :=
  (entries x.axes ids kw).map fun order => sortedVar nr junk x fun i =>
    (lookup order i).bind fun o => (reverseOf o).bind fun r => (x.axes[i]?).map fun a => backwards down a r

/-- `interp.sorted(var, iaxis, reverse)`, interp.py:13-31: with the lookup of `iaxis` in the new variable; `none`: KeyError -/
def sortedOne (nr : List ℚ → ℚ) (junk : List ℕ → α) (down : Axis → Bool) (x : Var α) (id : AxisId) (r : Reverse) : Option (Var α) :=
  (foundAt (whichaxis x.axes id)).bind fun i =>                                                      -- line 16
    let y := sortedVar nr junk x fun k => if k = i then (x.axes[k]?).map fun a => backwards down a r else none
    (foundAt (whichaxis y.axes id)).map fun j => if y.axes[j]? = x.axes[i]? then x else y            -- line 30

end SortKeys
end PyGeode
