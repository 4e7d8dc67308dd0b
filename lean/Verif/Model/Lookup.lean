/-
Model of looking things up by name: `Var.getaxis`, `hasaxis`, `__getattr__` (/repo/pygeode/var.py:443-459, 496-580), `Axis.__getattr__`
(axis.py:493-504), `Dataset.__getattr__`, `__contains__`, `getaxis`, `hasaxis`, `load` (dataset.py:46-60, 533-544, 580-605). `__getattr__` is called
for names that are not attributes of the object or its class; these come first.
-/
import Verif.Model.DatasetOps
import Verif.Model.GetItem

namespace PyGeode
namespace Lookup
open Combine DatasetOps

variable {α : Type}

/-- `self.axes[whichaxis(self.axes, iaxis)]`, var.py:514 and dataset.py:603-605; `none` is a KeyError or TypeError -/
def getaxis (axes : List Axis) (id : AxisId) : Option Axis := match whichaxis axes id with
  | .at i => axes[i]?
  | _ => none

/-- `hasaxis(iaxis)`, var.py:577-580 and dataset.py:588-593: only the KeyError is caught -/
def hasaxis (axes : List Axis) (id : AxisId) : Option Bool := match whichaxis axes id with
  | .at _ => some true
  | .keyError => some false
  | .typeError => none

/-- `name.startswith('__')` -/
def dunder (name : Name) : Bool := decide (name.take 2 = "__".toList)

/-- `var.name`, var.py:448-457 -/
def varAttr (axes : List Axis) (name : Name) : Option Axis :=
  if dunder name || decide (name ∈ ["axes".toList, "values".toList]) then none else getaxis axes (.name name)

/-- what an attribute of an axis can be -/
inductive AxisAttr where
  | array (v : List ℚ)
  | att (v : Name)
  | axis (a : Axis)
deriving DecidableEq

/-- `axis.name`, axis.py:495-503: an axis is a variable on itself -/
def axisAttr (a : Axis) (name : Name) : Option AxisAttr :=
  if dunder name then none
  else match a.auxarrays.lookup name with
    | some v => some (.array v)
    | none => match a.auxatts.lookup name with
      | some v => some (.att v)
      | none => (varAttr [a] name).map .axis

/-- `name in dataset`, dataset.py:48-51 -/
def contains (d : Data α) (name : Name) : Bool :=
  decide (name ∈ d.vars.map Member.name) || decide (name ∈ (DatasetOps.axes d.vars).map Axis.name)

/-- `dataset.name`, dataset.py:54-60 -/
def dataAttr (d : Data α) (name : Name) : Option (Var α ⊕ Axis) :=
  if dunder name then none else if contains d name then getitem d name else none

/-- `dataset.load()`, dataset.py:542-544 -/
def load (nr : List ℚ → ℚ) (junk : List ℕ → α) (d : Data α) : Option (Data α) :=
  (d.vars.mapM fun x => (GetItem.load nr junk x.var).map fun y => (⟨x.name, y⟩ : Member α)).bind fun l => make nr junk l d.atts

end Lookup
end PyGeode
