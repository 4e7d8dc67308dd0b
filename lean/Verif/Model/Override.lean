/-
Model of values given on opening a file: `override_values`, /repo/pygeode/formats/netcdf4.py:151-168 (the same in formats/netcdf.py), with
`replace_vars`, dataset.py:452-491. Types of the values and attributes of variables are not modelled.
-/
import Verif.Model.Lookup

namespace PyGeode
namespace Override
open Combine DatasetOps Lookup

variable {α : Type}

/-- one turn of the loop, netcdf4.py:156-165: the outer `none` is an exception, the inner one a warning -/
def overrideOne (d : Data α) (name : Name) (values : NArr α) : Option (Option (Name × Member α)) :=
  if contains d name then
    (getitem d name).bind fun old => match old with
      | .inl x => if values.shape = x.axes.map Axis.len then some (some (name, ⟨name, ⟨x.axes, .values values⟩⟩)) else none
      | .inr a => if values.shape = [Axis.len a] then some (some (name, ⟨a.name, ⟨[a], .values values⟩⟩)) else none
  else some none

/-- `override_values(dataset, value_override)`, netcdf4.py:151-168 -/
def overrideValues (nr : List ℚ → ℚ) (junk : List ℕ → α) (d : Data α) (given : List (Name × NArr α)) : Option (Data α) :=
  (given.mapM fun p => overrideOne d p.1 p.2).bind fun l => replaceVars nr junk d (l.filterMap id)

end Override
end PyGeode
