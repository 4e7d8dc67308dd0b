/-
Model of `var[...]`, `var.slice[...]`, `var.get()` and `var.load()`: `Var.__getitem__`, `_getitem_asvar`, `get` (without keywords) and
`load`, /repo/pygeode/var.py:195-305, 654-725 and 760-778, on indices as numpy takes them. The slicing of the values of an axis is
numpy's: slice objects are read as CPython does (`PySlice_AdjustIndices`).
-/
import Verif.Model.VarOps

namespace PyGeode
namespace GetItem
open VarOps
variable {α : Type}

/-- One index: an int, a slice or a list of ints; an integer that is not an `int` (one taken from an array); `...` -/
inductive Item where
  | ind (i : Ind)
  | npInt (i : ℤ)
  | dots
  deriving DecidableEq, Repr

/-- What stands between the brackets: a tuple, a single index that is not a list, a list (or array) of integers -/
inductive Key where
  | tuple (l : List Item)
  | one (i : Item)
  | list (l : List ℤ)

/-- an integer index of numpy; `none`: IndexError -/
def npPos (n : ℕ) (i : ℤ) : Option ℕ :=
  if 0 ≤ i then if i < n then some i.toNat else none
  else if 0 ≤ i + n then some (i + n).toNat else none

/-- one bound of a slice, `PySlice_AdjustIndices` -/
def adjust (n : ℕ) (step : ℤ) (b : ℤ) : ℤ :=
  if b < 0 then if b + n < 0 then (if step < 0 then -1 else 0) else b + n
  else if (n : ℤ) ≤ b then (if step < 0 then (n : ℤ) - 1 else n) else b

/-- the positions of `values[ind]` for an array of `n` values; `none`: IndexError, or ValueError for a step of 0. (A list of numbers
and an integer of numpy are treated alike, `np.array(…, ndmin=1)`, axis.py:361.) -/
def npTake (n : ℕ) : Ind → Option (List ℕ)
  | .list l => l.mapM (npPos n)
  | .int i => (npPos n i).map fun p => [p]
  | .slice s =>
    let step := s.step.getD 1
    if step = 0 then none
    else
      let start := (s.start.map (adjust n step)).getD (if step < 0 then (n : ℤ) - 1 else 0)
      let stop := (s.stop.map (adjust n step)).getD (if step < 0 then -1 else (n : ℤ))
      some ((arange start stop step).map Int.toNat)

/-- `list(slices)`, varoperations.py:505-507 -/
def Key.items : Key → List Item
  | .tuple l => l
  | .one i => [i]
  | .list l => l.map fun i => .ind (.int i)

/-- an item as `SlicedVar` sees it (`none` is `...`): the kinds of integers make no difference -/
def Item.asInd : Item → Option Ind
  | .ind i => some i
  | .npInt i => some (.int i)
  | .dots => none

/-- `_getitem_asvar(slices)`, var.py:196-261 with varoperations.py:497-529: the variable itself when no axis changes -/
def asVar (nr : List ℚ → ℚ) (junk : List ℕ → α) (x : Var α) (items : List Item) : Option (Var α) :=
  (ellipsisSlices x.axes.length (items.map Item.asInd)).bind fun inds =>                        -- varoperations.py:509-523
    ((x.axes.zip inds).mapM fun p : Axis × Ind => npTake p.1.len p.2).map fun S =>              -- varoperations.py:526
      if List.zipWith (Axis.sliceAxis nr) x.axes S = x.axes then x                              -- var.py:255
      else sliceVar nr junk x S

/-- `var.get()`, var.py:718-724 (without keywords) -/
def get (nr : List ℚ → ℚ) (junk : List ℕ → α) (x : Var α) : Option (NArr α) := x.read nr junk x.whole

/-- whether the axis is removed, var.py:300: an `int` is, an integer of numpy is not -/
def Item.isInt : Item → Bool
  | .ind (.int _) => true
  | _ => false

/-- the flags of `extra_slicing` for every axis, var.py:300: numpy fills in the axes at `...`, or else at the end -/
def flags (naxes : ℕ) (items : List Item) : List Bool :=
  let before := items.takeWhile (· ≠ .dots)
  let after := (items.dropWhile (· ≠ .dots)).drop 1
  before.map Item.isInt ++ List.replicate (naxes - before.length - after.length) false ++ after.map Item.isInt

/-- the index of `array` behind an index of `array[extra_slicing]`: 0 for the axes removed -/
def refill : List Bool → List ℕ → List ℕ
  | [], _ => []
  | true :: fs, k => 0 :: refill fs k
  | false :: fs, k => k.headD 0 :: refill fs k.tail

/-- `array[extra_slicing]`, var.py:301 -/
def dropInts (fs : List Bool) (a : NArr α) : NArr α :=
  { shape := ((fs.zip a.shape).filter fun p => !p.1).map Prod.snd
    get := fun k => a.get (refill fs k) }

/-- `var[key]`, var.py:265-304 -/
def getItem (nr : List ℚ → ℚ) (junk : List ℕ → α) (x : Var α) (key : Key) : Option (NArr α) :=
  (asVar nr junk x key.items).bind fun y =>
    (get nr junk y).map fun array =>
      match key with
      | .tuple l => dropInts (flags x.axes.length l) array                                      -- var.py:299-301
      | .one (.ind (.int i)) => dropInts (flags x.axes.length [.ind (.int i)]) array            -- var.py:302-303: array[0]
      | _ => array

/-- `var.load()`, var.py:762-777 -/
def load (nr : List ℚ → ℚ) (junk : List ℕ → α) (x : Var α) : Option (Var α) :=
  match x.src with
  | .values _ => some x                                                                         -- var.py:772
  | _ => (get nr junk x).map fun v => { axes := x.axes, src := .values v }                      -- var.py:775

end GetItem
end PyGeode
