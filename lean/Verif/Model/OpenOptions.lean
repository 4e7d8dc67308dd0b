/-
Model of the options of opening and saving files, /repo/pygeode/formats/__init__.py:22-24 and 56-88 (`autodetectformat`), 206-247
(`set_axistypes`), 250-257 (`whitelist`), 259-283 (`finalize_open`) and 285-306 (`finalize_save`), with `rename_axes` and `replace_axes`,
/repo/pygeode/varoperations.py:275-306 and 480-486. The decoding and encoding of CF metadata are modelled in `CfFile`.
-/
import Verif.Model.DatasetOps
import Verif.Model.Pack

namespace PyGeode
namespace OpenOptions
open Combine Dataset DatasetOps

variable {α : Type}

/-! ### the format -/

/-- `extdict`, formats/__init__.py:22-24 -/
def extdict : List (Name × Name) :=
  [(".nc".toList, "netcdf4".toList), (".hdf".toList, "hdf4".toList), (".grib".toList, "grib".toList)]

/-- `os.path.splitext(filename)[1]`: what follows the last dot of the last part of the path, with the dot, unless only dots come before -/
def ext (f : Name) : Name :=
  let base := (f.reverse.takeWhile (· ≠ '/')).reverse
  if '.' ∈ base then
    let e := (base.reverse.takeWhile (· ≠ '.')).reverse
    let root := base.take (base.length - e.length - 1)
    if root.all (· == '.') then [] else '.' :: e
  else []

/-- `autodetectformat(filename)`, formats/__init__.py:82-87; `none` is a ValueError -/
def autodetect (f : Name) : Option Name := extdict.lookup (ext f)

/-! ### the types of the axes -/

/-- what `dimtypes` can say of an axis: an axis, a class, a class and arguments (with or without values), a function. `none` is an
exception of the function. -/
inductive DimType where
  | inst (a : Axis)
  | cls (mk : List ℚ → Axis)
  | args (mk : List ℚ → Axis) (values : Option (List ℚ))
  | fn (f : Axis → Option Axis)

/-- the new axis, formats/__init__.py:220-241; `copy_meta`, var.py:799-804, copies the name; `none` is an exception -/
def build (t : DimType) (old : Axis) : Option Axis :=
  match t with
  | .inst a => if a.len ≠ old.len then none else some a
  | .cls mk => some { mk old.values with name := old.name }
  | .args mk vs => some (mk (vs.getD old.values))
  | .fn f => f old

/-- formats/__init__.py:243-244 -/
def checked (t : DimType) (old : Axis) : Option (Name × Axis) :=
  (build t old).bind fun a => if a.len = old.len then some (old.name, a) else none

/-- formats/__init__.py:215-218: what is done with one axis -/
def dimStep (dimtypes : List (Name × DimType)) (a : Axis) : Option (Option (Name × Axis)) :=
  match dimtypes.lookup a.name with
  | none => some none
  | some t => (checked t a).map some

/-- one turn of the loop of `Replace_axes.__init__`, varoperations.py:286-302, with `ignore_mismatch`: the axis that answers to the name
is replaced -/
def replaceStep (axes new : List Axis) (p : Name × Axis) : List Axis :=
  match VarOps.foundAt (whichaxis axes (.name p.1)) with
  | some i => new.set i p.2
  | none => new

/-- `var.replace_axes(axisdict=reps)` -/
def replaceNamed (nr : List ℚ → ℚ) (junk : List ℕ → α) (x : Var α) (reps : List (Name × Axis)) : Option (Var α) :=
  VarOps.replaceAxes nr junk x (reps.foldl (replaceStep x.axes) x.axes)

/-- a method of the variables applied to each variable of a dataset, dataset.py:728-739 -/
def each (nr : List ℚ → ℚ) (junk : List ℕ → α) (f : Var α → Option (Var α)) (d : Data α) : Option (Data α) :=
  DatasetOps.map nr junk (fun x => (f x.var).map fun y => some ⟨x.name, y⟩) d

/-- `set_axistypes(dataset, dimtypes)`, formats/__init__.py:206-247 -/
def setAxisTypes (nr : List ℚ → ℚ) (junk : List ℕ → α) (d : Data α) (dimtypes : List (Name × DimType)) : Option (Data α) :=
  ((axes d.vars).mapM (dimStep dimtypes)).bind fun reps => each nr junk (fun x => replaceNamed nr junk x (reps.filterMap id)) d

/-! ### the choice of variables -/

/-- `whitelist(dataset, varlist)`, formats/__init__.py:250-257 -/
def whitelist (nr : List ℚ → ℚ) (junk : List ℕ → α) (d : Data α) (varlist : List Name) : Option (Data α) :=
  make nr junk (varlist.filterMap fun n => ((vardict (d.vars.map fun x => (x.name, x.var))).lookup n).map (Member.mk n)) d.atts

/-! ### the names -/

/-- the class of a `NamedAxis` is modelled with the name of the axis in it -/
def reclass (old new c : Name) : Name := if (' ' :: old).isSuffixOf c then c.take (c.length - old.length) ++ new else c

/-- `axis.rename(name)`, axis.py:551-570: the tolerance is computed anew -/
def renameAxis (nr : List ℚ → ℚ) (a : Axis) (n : Name) : Axis :=
  { a with name := n, classes := a.classes.map (reclass a.name n), rtol := nr a.values }

/-- one item of `axisdict`, varoperations.py:485 -/
def renamedAxis (nr : List ℚ → ℚ) (axes : List Axis) (p : Name × Name) : Option (Name × Axis) :=
  (VarOps.foundAt (whichaxis axes (.name p.1))).bind fun i => axes[i]?.map fun a => (p.1, renameAxis nr a p.2)

/-- `var.rename_axes(axisdict=namemap, ignore_mismatch=True)`, varoperations.py:480-486 -/
def renameAxes (nr : List ℚ → ℚ) (junk : List ℕ → α) (namemap : List (Name × Name)) (x : Var α) : Option (Var α) :=
  replaceNamed nr junk x (namemap.filterMap (renamedAxis nr x.axes))

/-! ### opening -/

/-- `if len(option) > 0: dataset = ...` -/
def given {β : Type} (opts : List β) (f : Data α → Option (Data α)) (d : Data α) : Option (Data α) := if opts = [] then some d else f d

/-- `finalize_open(dataset, dimtypes, namemap, varlist)`, formats/__init__.py:268-282: what follows the decoding -/
def finalizeOpen (nr : List ℚ → ℚ) (junk : List ℕ → α) (dimtypes : List (Name × DimType)) (namemap : List (Name × Name)) (varlist : List Name)
    (d : Data α) : Option (Data α) :=
  (given dimtypes (fun d => setAxisTypes nr junk d dimtypes) d).bind fun d =>
  (given varlist (fun d => whitelist nr junk d varlist) d).bind fun d =>
  given namemap (fun d => (renameVars nr junk d namemap).bind (each nr junk (renameAxes nr junk namemap))) d

/-! ### saving -/

/-- the option `pack` of `save` -/
inductive PackOpt where
  | flag (b : Bool)
  | names (l : List Name)
  | text (s : Name)

/-- `bool(pack)`, formats/__init__.py:291 -/
def PackOpt.isSet : PackOpt → Bool
  | .flag b => b
  | .names l => decide (l ≠ [])
  | .text s => decide (s ≠ [])

/-- `v.name in pack`, formats/__init__.py:292-295 -/
def PackOpt.holds : PackOpt → Name → Bool
  | .flag _, _ => true
  | .names l, n => decide (n ∈ l)
  | .text s, n => decide (n <:+: s)

/-- a variable as it is saved, with the scale and the offset if it is packed -/
def packOne (nr : List ℚ → ℚ) (junk : List ℕ → Option ℚ) (limit : ℕ) (bad : ℤ) (pack : PackOpt) (x : Member (Option ℚ)) :
    Option (Member (Option ℚ) × Option (Option ℚ × Option ℚ)) :=
  if pack.holds x.name then (Pack.packVar nr junk limit bad x.var).map fun r => (⟨x.name, r.1⟩, some r.2) else some (x, none)

/-- `finalize_save(dataset, pack=pack)`, formats/__init__.py:285-299: what precedes the encoding; beside the dataset, the scale and
the offset of each variable -/
def finalizeSave (nr : List ℚ → ℚ) (junk : List ℕ → Option ℚ) (limit : ℕ) (bad : ℤ) (pack : PackOpt) (d : Data (Option ℚ)) :
    Option (Data (Option ℚ) × List (Option (Option ℚ × Option ℚ))) :=
  if pack.isSet then
    (d.vars.mapM (packOne nr junk limit bad pack)).bind fun l =>
    (asDataset nr junk (l.map fun r => Part.var r.1)).map fun d' => (⟨d'.vars, d.atts⟩, l.map Prod.snd)
  else some (d, d.vars.map fun _ => none)

end OpenOptions
end PyGeode
