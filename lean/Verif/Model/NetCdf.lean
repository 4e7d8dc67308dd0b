/-
Model of saving and opening a netCDF file: /repo/pygeode/formats/netcdf4.py:8-146 and 172-196 (formats/netcdf.py:279-312
has the same `dims2axes`). The file is the list of its dimensions and variables, in the order in which they were made.
Attributes are left out (they are the subject of C50-C52 and C68), and so is everything `finalize_open` and
`finalize_save` do: the dataset written has been through `encode_cf`, so that its axes are all `NamedAxis` or `DummyAxis`.
-/
import Verif.Model.Dataset

namespace PyGeode
namespace NetCdf
open Combine

/-- a number of the file; `none` is NaN -/
abbrev Cell := Option ℚ

/-! ### axes known by their name -/

/-- `NamedAxis` and the classes derived from it (own class first), /repo/pygeode/axis.py:752-788: two of them can be equal or
mapped to each other only if their names are the same, so a class stands here for the class and the name. The tolerance is
that computed by the constructor. -/
def mkNamed (kinds : List Name) (nr : List ℚ → ℚ) (n : Name) (isFloat : Bool) (vals : List ℚ) : Axis :=
  { classes := kinds.map fun c => c ++ ' ' :: n
    aliases := kinds.map lower ++ ["axis".toList, []]
    name := n, values := vals, isFloat := isFloat, rtol := nr vals, auxatts := [], auxarrays := [] }

/-- `NamedAxis(values, name)` -/
def named : (nr : List ℚ → ℚ) → Name → Bool → List ℚ → Axis := mkNamed ["NamedAxis".toList]

/-- the values of an axis made from a length: 0, 1, ... -/
def counting (len : ℕ) : List ℚ := (List.range len).map fun i : ℕ => (i : ℚ)

/-- `DummyAxis(len, name)` -/
def dummy (nr : List ℚ → ℚ) (n : Name) (len : ℕ) : Axis :=
  mkNamed ["DummyAxis".toList, "NamedAxis".toList] nr n false (counting len)

/-- `make_dim(name, size)`, netcdf4.py:5 and 9-12: one object for each name and size -/
def ncDim (nr : List ℚ → ℚ) (n : Name) (len : ℕ) : Axis :=
  mkNamed ["NCDim".toList, "DummyAxis".toList, "NamedAxis".toList] nr n false (counting len)

/-- `isinstance(a, DummyAxis)` -/
def isDummy (a : Axis) : Bool := decide ("DummyAxis".toList ++ ' ' :: a.name ∈ a.classes)

/-! ### datasets -/

/-- a variable of a dataset, with its name and the kind of its dtype -/
structure Item where
  name : Name
  isFloat : Bool
  var : Var Cell

/-- `Dataset(vars)`, /repo/pygeode/dataset.py:74-177 -/
def mkDataset (nr : List ℚ → ℚ) (junk : List ℕ → Cell) (items : List Item) : Option (List Item) :=
  ((Dataset.withAxes nr junk (items.map Item.var)).mapM id).map fun vars =>
    List.zipWith (fun (p : Item × Name) (v : Var Cell) => { name := p.2, isFloat := p.1.isFloat, var := v })
      (items.zip (Dataset.uniqueNames (items.map Item.name))) vars

/-- `dataset[key]` is a DummyAxis, dataset.py:48-50: the variables are looked at first -/
def isDummyKey (items : List Item) (axes : List Axis) (key : Name) : Bool :=
  if key ∈ items.map Item.name then false
  else ((axes.filter fun a => decide (a.name = key)).getLast?).any isDummy

/-- an axis as a variable on itself -/
def axisVar (a : Axis) : Var Cell :=
  { axes := [a], src := .values { shape := [a.len], get := fun k => some (a.values.getD (k.getD 0 0) 0) } }

/-! ### saving -/

/-- `tidy_axes(dataset)`, netcdf4.py:69-94 -/
def tidyAxes (nr : List ℚ → ℚ) (junk : List ℕ → Cell) (items : List Item) : Option (List Item) := do
  let axes ← combineAxes (items.map fun x => x.var.axes)
  let vars := items ++ (axes.filter fun a => !isDummyKey items (items.flatMap fun x => x.var.axes) a.name).map fun a =>
    { name := a.name, isFloat := a.isFloat, var := axisVar a }
  guard ((vars.map Item.name).Nodup)
  mkDataset nr junk vars

/-- a variable of a file -/
structure NcVar where
  name : Name
  isFloat : Bool
  dims : List Name
  shape : List ℕ
  data : List ℕ → Cell

structure NcFile where
  dims : List (Name × ℕ)
  vars : List NcVar

/-- `ncvar[v.slices] = values`: what the variable holds afterwards -/
def writePiece (inds : List (List ℕ)) (values : NArr Cell) (out : List ℕ → Cell) : List ℕ → Cell := fun k =>
  if k ∈ product inds then values.get (List.zipWith (fun (ind : List ℕ) (i : ℕ) => ind.idxOf i) inds k) else out k

/-- the data of one variable, netcdf4.py:133-140; `limit` is `MAX_ARRAY_SIZE`, `fill` what the library puts into a new variable.
An axis without values: `range(0, 0, 0)` raises in `loop_mem`, view.py:508. -/
def writeData (nr : List ℚ → ℚ) (junk : List ℕ → Cell) (limit : ℕ) (fill : Cell) (x : Var Cell) : Option (List ℕ → Cell) :=
  if x.axes.any fun a => decide (a.len = 0) then none
  else (x.whole.loopMem limit []).foldlM (fun (out : List ℕ → Cell) (v : View Axis) =>
    (x.read nr junk v).map fun r => writePiece v.inds r out) (fun _ => fill)

/-- `write_var(ncfile, dataset)`, netcdf4.py:96-143: a dimension cannot be made twice, a variable needs its dimensions -/
def writeVar (nr : List ℚ → ℚ) (junk : List ℕ → Cell) (limit : ℕ) (fill : Cell) (items : List Item) : Option NcFile := do
  let axes ← combineAxes (items.map fun x => x.var.axes)
  let dims := axes.map fun a => (a.name, a.len)
  guard ((dims.map Prod.fst).Nodup)
  let vars ← items.mapM fun x => do
    let shape ← (x.var.axes.map Axis.name).mapM fun n => dims.lookup n
    let data ← writeData nr junk limit fill x.var
    pure ({ name := x.name, isFloat := x.isFloat, dims := x.var.axes.map Axis.name, shape := shape, data := data } : NcVar)
  pure { dims := dims, vars := vars }

/-- `save(filename, dataset)`, netcdf4.py:280-282 -/
def save (nr : List ℚ → ℚ) (junk : List ℕ → Cell) (limit : ℕ) (fill : Cell) (items : List Item) : Option NcFile :=
  (tidyAxes nr junk items).bind (writeVar nr junk limit fill)

/-! ### opening -/

/-- `make_var(ncvar)` with `NCVar.getvalues`, netcdf4.py:34-55 -/
def makeVar (nr : List ℚ → ℚ) (junk : List ℕ → Cell) (v : NcVar) : Item :=
  { name := v.name, isFloat := v.isFloat
    var := { axes := List.zipWith (ncDim nr) v.dims v.shape
             src := .getvalues junk fun sc =>
               { shape := sc.map Prod.snd, get := fun k => v.data (List.zipWith (fun (p : ℕ × ℕ) (i : ℕ) => p.1 + i) sc k) } } }

/-- `make_dataset(ncfile)`, netcdf4.py:58-66 -/
def makeDataset (nr : List ℚ → ℚ) (junk : List ℕ → Cell) (f : NcFile) : Option (List Item) :=
  mkDataset nr junk (f.vars.map (makeVar nr junk))

/-- `dataset.axes`, dataset.py:140-147 -/
def dataAxes (items : List Item) : List Axis :=
  (items.flatMap fun x => x.var.axes).foldl (fun l a => if a ∈ l then l else l ++ [a]) []

/-- `NamedAxis(name=var.name, values=var.get())`, netcdf4.py:187. An axis value that is NaN cannot be in the model: `none`. -/
def readAxis (nr : List ℚ → ℚ) (junk : List ℕ → Cell) (x : Item) : Option Axis := do
  let r ← x.var.read nr junk x.var.whole
  let vals ← ((List.range (r.shape.getD 0 0)).map fun i => r.get [i]).mapM id
  pure (named nr x.name x.isFloat vals)

/-- the axis that takes the place of a dimension, if any, netcdf4.py:178-189: made of the variable with its name if that has one
axis -/
def dimAxis (nr : List ℚ → ℚ) (junk : List ℕ → Cell) (items : List Item) (dim : Axis) : Option (Option Axis) :=
  match items.find? (fun x => decide (x.name = dim.name)) with
  | none => some none
  | some x => if x.var.axes.length ≠ 1 then some none else (readAxis nr junk x).map some

/-- `replacements`, netcdf4.py:177-189 -/
def replacements (nr : List ℚ → ℚ) (junk : List ℕ → Cell) (items : List Item) : Option (List Axis) :=
  ((dataAxes items).mapM (dimAxis nr junk items)).map fun l => l.filterMap id

/-- one replacement, /repo/pygeode/varoperations.py:286-302: the axis is looked up by `whichaxis`, by its name or its class, lower
or upper case -/
def replaceStep (axes new : List Axis) (a : Axis) : List Axis :=
  match VarOps.foundAt (whichaxis axes (.name a.name)) with
  | some i => new.set i a
  | none => new

/-- `replace_axes(axisdict)` of one variable, varoperations.py:275-306 -/
def replaceByName (nr : List ℚ → ℚ) (junk : List ℕ → Cell) (x : Var Cell) (reps : List Axis) : Option (Var Cell) :=
  VarOps.replaceAxes nr junk x (reps.foldl (replaceStep x.axes) x.axes)

/-- `dims2axes(dataset)`, netcdf4.py:172-195; `Dataset.map`, dataset.py:496-527; `Dataset.remove`, dataset.py:362-367 -/
def dims2axes (nr : List ℚ → ℚ) (junk : List ℕ → Cell) (items : List Item) : Option (List Item) := do
  let reps ← replacements nr junk items
  let new ← items.mapM fun x => (replaceByName nr junk x.var reps).map fun v => { x with var := v }
  let ds ← mkDataset nr junk new
  mkDataset nr junk (ds.filter fun x => decide (x.name ∉ reps.map Axis.name))

/-- `open(filename, cfmeta=False)`, netcdf4.py:243, 262-263 -/
def openFile (nr : List ℚ → ℚ) (junk : List ℕ → Cell) (f : NcFile) : Option (List Item) :=
  (makeDataset nr junk f).bind (dims2axes nr junk)

end NetCdf
end PyGeode
