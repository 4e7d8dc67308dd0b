/-
Model of the operations of /repo/pygeode/varoperations.py that rearrange a variable: squeeze, extend, transpose,
sorted, replace_axes, rename, slicing, fill and unfill. A variable is its axes and the way its data are read; a derived
variable reads the variable it wraps when it is asked for a view.
-/
import Verif.Model.Combine
import Verif.Model.NArr

namespace PyGeode

/-- A variable: axes and data source (`values`, `getview` or `getvalues`), /repo/pygeode/var.py:40-130. Metadata are left
out. -/
structure Var (α : Type) where
  axes : List Axis
  src : View.Source Axis α

namespace Var
variable {α β : Type}

/-- `view.get(var)`, view.py:197-315. `nr` is the tolerance computed by the axis constructor, `junk` the content of
uninitialised memory. -/
def read (nr : List ℚ → ℚ) (junk : List ℕ → α) (x : Var α) (v : View Axis) : Option (NArr α) :=
  View.get Axis.axEq (Axis.viewMapAx nr) Axis.len junk v x.axes x.src

/-- A variable with axes `axes` and the method `getview = f`. Where `f` raises an exception the source holds junk. -/
def ofView (junk : List ℕ → α) (axes : List Axis) (f : View Axis → Option (NArr α)) : Var α :=
  { axes := axes, src := .getview fun v => (f v).getD { shape := [], get := junk } }

/-- `View(var.axes)`: everything -/
def whole (x : Var α) : View Axis := { axes := x.axes, inds := x.axes.map fun a => List.range a.len }

end Var

namespace VarOps
variable {α β : Type}
open Combine

/-- the position found; `none` is an exception -/
def foundAt : Found → Option ℕ
  | .at i => some i
  | _ => none

/-- `[var.whichaxis(a) for a in ids]` (varoperations.py:15, 172); `none` is an exception -/
def whichAll (axes : List Axis) (ids : List AxisId) : Option (List ℕ) :=
  ids.mapM fun a => foundAt (whichaxis axes a)

/-! ### transpose -/

/-- `alist`, varoperations.py:172-176 -/
def transposeOrder (axes : List Axis) (ids : List AxisId) : Option (List ℕ) :=
  (whichAll axes ids).map fun alist => alist ++ (List.range axes.length).filter fun a => a ∉ alist

/-- `transpose(var, *axes)`, varoperations.py:125-131 and 170-180 -/
def transpose (nr : List ℚ → ℚ) (junk : List ℕ → α) (x : Var α) (ids : List AxisId) : Option (Var α) :=
  if ids = [] then none
  else (transposeOrder x.axes ids).map fun alist =>
    if alist = List.range x.axes.length then x
    else Var.ofView junk (alist.filterMap fun i => x.axes[i]?) (x.read nr junk)

/-! ### squeeze -/

/-- the axes removed, varoperations.py:11-16 -/
def squeezeAxes (axes : List Axis) (ids : List AxisId) : Option (List ℕ) :=
  (if ids = [] then some ((List.range axes.length).filter fun i => (axes[i]?.map Axis.len) = some 1)
    else whichAll axes ids).map fun l => l.filter fun i => (axes[i]?.map Axis.len) = some 1

/-- `view.get(var, strict=..., conform=False)`, view.py:197-315: the array has the variable's axes; axes of the variable
that are not in the view are read whole if `strict` is False. -/
def getRaw (strict : Bool) (nr : List ℚ → ℚ) (junk : List ℕ → α) (x : Var α) (v : View Axis) : Option (NArr α) :=
  (v.mapTo Axis.axEq (Axis.viewMapAx nr) Axis.len strict x.axes).map fun m =>
    if 0 ∈ m.map (fun p => p.2.length) then
      { shape := List.zipWith (fun (s : ℕ) (o : Option ℕ) => if o.isSome then s else 1)
          (m.map fun p => p.2.length) (View.orderOf v.axes.length m)
        get := junk }
    else View.readUnique x.src { axes := x.axes, inds := m.map Prod.snd }

/-- `squeeze(var, *iaxes)`, varoperations.py:7-33 (the selection keywords slice first, `var(**kwargs)`) -/
def squeeze (nr : List ℚ → ℚ) (junk : List ℕ → α) (x : Var α) (ids : List AxisId) : Option (Var α) :=
  (squeezeAxes x.axes ids).map fun l =>
    Var.ofView junk (((List.range x.axes.length).filter fun i => i ∉ l).filterMap fun i => x.axes[i]?)
      (fun v => (getRaw false nr junk x v).map fun r => r.reshape v.shape)

/-! ### extend -/

/-- `extend(var, pos, *newaxes)`, varoperations.py:58-73 (`pos` not negative): the assignment `out[()] = values`
repeats axes of length one -/
def extend (nr : List ℚ → ℚ) (junk : List ℕ → α) (x : Var α) (pos : ℕ) (new : List Axis) : Var α :=
  Var.ofView junk (x.axes.take pos ++ new ++ x.axes.drop pos)
    (fun v => (x.read nr junk v).map fun values =>
      { shape := v.shape, get := fun k => values.get (bindex values.shape k) })

/-! ### slicing and sorting -/

/-- `SlicedVar`, varoperations.py:494-534, on expanded positions -/
def sliceVar (nr : List ℚ → ℚ) (junk : List ℕ → α) (x : Var α) (S : List (List ℕ)) : Var α :=
  Var.ofView junk (List.zipWith (Axis.sliceAxis nr) x.axes S) (x.read nr junk)

/-- the Ellipsis handling of `SlicedVar`, varoperations.py:505-522: `none` in the list is Ellipsis; result `none` is an
AssertionError -/
def ellipsisSlices (naxes : ℕ) (slices : List (Option Ind)) : Option (List Ind) :=
  let slices := if none ∈ slices then slices else slices ++ [none]
  if slices.count none ≠ 1 then none
  else if naxes + 1 < slices.length then none
  else
    let i := slices.idxOf none
    some ((slices.take i).filterMap id ++ List.replicate (naxes + 1 - slices.length) (.slice ⟨none, none, none⟩) ++
      (slices.drop (i + 1)).filterMap id)

/-- `np.argsort(values)`: here equal values keep their order -/
def argsort (vals : List ℚ) : List ℕ :=
  (List.range vals.length).insertionSort fun i j => vals.getD i 0 ≤ vals.getD j 0

/-- `axis.argsort(reverse)[::step]`, axis.py:292-331 -/
def axisArgsort (a : Axis) (reverse : Bool) : List ℕ := if reverse then (argsort a.values).reverse else argsort a.values

/-- `SortedVar`, varoperations.py:182-196: `order i` is `none` for an axis left alone, else whether to reverse -/
def sortedVar (nr : List ℚ → ℚ) (junk : List ℕ → α) (x : Var α) (order : ℕ → Option Bool) : Var α :=
  Var.ofView junk (x.axes.zipIdx.map fun p => match order p.2 with
      | some rev => Axis.sliceAxis nr p.1 (axisArgsort p.1 rev)
      | none => p.1) (x.read nr junk)

/-! ### replacing axes, renaming -/

/-- `Replace_axes`, varoperations.py:275-313: the same positions are read on the old axes -/
def replaceAxes (nr : List ℚ → ℚ) (junk : List ℕ → α) (x : Var α) (new : List Axis) : Option (Var α) :=
  if x.axes.map Axis.len = new.map Axis.len then
    some (Var.ofView junk new fun v => x.read nr junk { axes := x.axes, inds := v.inds })
  else none

/-- `RenamedVar`, varoperations.py:388-395 (the name is not part of the model) -/
def rename (nr : List ℚ → ℚ) (junk : List ℕ → α) (x : Var α) : Var α := Var.ofView junk x.axes (x.read nr junk)

/-! ### fill, unfill -/

/-- an element by element wrapper: `getview` reads the variable and maps the array -/
def mapVar (nr : List ℚ → ℚ) (junk : List ℕ → α) (junk' : List ℕ → β) (f : α → β) (x : Var α) : Var β :=
  Var.ofView junk' x.axes fun v => (x.read nr junk v).map fun r => r.map f

/-- `FillVar.getview`, varoperations.py:544-557; `none` is NaN -/
def fillValue (fill : ℚ) : Option ℚ → Option ℚ
  | none => some fill
  | some y => some y

/-- `UnfillVar.getview`, varoperations.py:584-601 -/
def unfillValue (fill : ℚ) : Option ℚ → Option ℚ
  | none => none
  | some y => if y = fill then none else some y

def fill (nr : List ℚ → ℚ) (junk : List ℕ → Option ℚ) (v : ℚ) (x : Var (Option ℚ)) : Var (Option ℚ) :=
  mapVar nr junk junk (fillValue v) x

def unfill (nr : List ℚ → ℚ) (junk : List ℕ → Option ℚ) (v : ℚ) (x : Var (Option ℚ)) : Var (Option ℚ) :=
  mapVar nr junk junk (unfillValue v) x

end VarOps
end PyGeode
