/-
Model of non-coordinate (station) axes: how `encode_cf` and `decode_cf` (/repo/pygeode/formats/cfmeta.py) store their auxiliary
arrays as variables, and matching and lookup of /repo/pygeode/axis.py:1235-1313. Strings are lists of ASCII characters; the numbers
of variables and arrays are opaque.
-/
import Verif.Model.Cf

namespace PyGeode
namespace Station
open Axis Cf

variable {δ : Type}

/-! ### Encoding -/

/-- the contents of an array: numbers (opaque), strings, or the rows of a character array -/
inductive Arr (δ : Type) where
  | nums (v : δ)
  | strs (v : List Name)
  | chars (rows : List Name)
  deriving DecidableEq

/-- the parts of a variable that matter here: its name, the names of its axes, the attributes `coordinates` and
`ancillary_variables`, its contents -/
structure CVar (δ : Type) where
  name : Name
  axes : List Name
  coords : Option Name := none
  anc : Option Name := none
  arr : Arr δ
  deriving DecidableEq

/-- the character NUL, which fills up character arrays -/
def nul : Char := Char.ofNat 0

/-- the contents of `encode_string_var`, cfmeta.py:80-95: rows of equal length filled up with NUL. `none`: there are no strings, or
all are empty (`max` of nothing; a view as `|S0`). -/
def encodeStrings (v : List Name) : Option (List Name) :=
  let n := (v.map List.length).foldl Max.max 0
  if n = 0 then none else some (v.map fun s => s ++ List.replicate (n - s.length) nul)

/-- `encode_string_var`, cfmeta.py:80-95 -/
def encodeStringVar (v : CVar δ) : Option (CVar δ) :=
  match v.arr with
  | .strs s => (encodeStrings s).map fun r =>
      { name := v.name ++ "_name".toList, axes := v.axes ++ [v.name ++ "_strlen".toList], arr := .chars r }
  | _ => some v

/-- `decode_string_var`, cfmeta.py:99-107, where `decode_cf` applies it, lines 304-306: a NUL of a character array is the empty
string for numpy, and disappears -/
def decodeStringVar (v : CVar δ) : CVar δ :=
  match v.arr with
  | .chars rows =>
    if "_name".toList <:+ v.name ∧ "_strlen".toList <:+ v.axes.getLastD [] then
      { name := v.name.take (v.name.length - 5), axes := v.axes.dropLast, arr := .strs (rows.map fun r => r.filter (· ≠ nul)) }
    else v
  | _ => v

/-- the attribute `coordinates`, cfmeta.py:198-214: `lat` and `lon`, if there -/
def coordNames (aux : List (Name × Arr δ)) : List Name :=
  ["lat".toList, "lon".toList].filter fun n => decide (n ∈ aux.map Prod.fst)

/-- the auxiliary arrays that are stored as ancillary variables, cfmeta.py:216-220: those whose name does not occur *in the string*
`coordinates` -/
def ancillary (aux : List (Name × Arr δ)) : List (Name × Arr δ) :=
  aux.filter fun p => !decide (p.1 <:+: List.intercalate [' '] (coordNames aux))

/-- the attributes of a variable with the axis, cfmeta.py:231-241 -/
def mark (a coordinates anc : Name) (v : CVar δ) : CVar δ :=
  if a ∈ v.axes then
    { name := v.name, axes := v.axes, arr := v.arr
      coords := if coordinates.length > 0 then some coordinates else v.coords
      anc := if anc.length > 0 then some anc else v.anc }
  else v

/-- `encode_cf` for one non-coordinate axis `a` with auxiliary arrays `aux`, cfmeta.py:193-247. `none`: an exception. Attributes
other than the two are left out. -/
def encode (a : Name) (aux : List (Name × Arr δ)) (vars : List (CVar δ)) : Option (List (CVar δ)) := do
  let lookup := fun n => aux.filter fun p => decide (p.1 = n)
  let coord := (coordNames aux).flatMap fun n => (lookup n).map fun p => ({ name := n, axes := [a], arr := p.2 } : CVar δ)
  let coordinates := List.intercalate [' '] (coordNames aux)
  let other ← (ancillary aux).mapM fun p => encodeStringVar { name := p.1, axes := [a], arr := p.2 }
  let anc := List.intercalate [' '] ((ancillary aux).map Prod.fst)
  some (vars.map (mark a coordinates anc) ++ coord ++ other)

/-- `s.split()`: the words of a text -/
def words (s : Name) : List Name := (s.splitOnP isSpace).filter (· ≠ [])

/-- `var.hasaxis(name)` for the axes a file is read with: names are compared without regard to case. Class names, which also
match, are left out. -/
def hasaxis (v : CVar δ) (a : Name) : Bool := v.axes.any fun b => decide (lower b = lower a)

/-- `decode_cf` for the axis `a`, cfmeta.py:431-451: the auxiliary arrays found, and the variables left -/
def decode (a : Name) (vars : List (CVar δ)) : List (Name × Arr δ) × List (CVar δ) :=
  let vars := vars.map decodeStringVar
  let deps := (vars.filter fun v => hasaxis v a).flatMap fun v => words (v.coords.getD []) ++ words (v.anc.getD [])
  let dependencies := vars.filter fun v => decide (v.name ∈ deps) && decide (v.axes.length = 1) && hasaxis v a
  let aux := dependencies.map fun v => (v.name, v.arr)
  (aux, vars.filter fun v => decide (v.name ∉ aux.map Prod.fst))

/-! ### Matching and lookup. The entries of an axis are the tuples of its auxiliary values. -/

variable {κ : Type} [DecidableEq κ]

/-- a value of an auxiliary array; `none` is NaN, which is equal to nothing -/
def valEq (x y : Option κ) : Bool := match x, y with
  | some x, some y => decide (x = y)
  | _, _ => false

/-- `l1 == l2` of two lists of values -/
def listEq : List (Option κ) → List (Option κ) → Bool
  | [], [] => true
  | x :: l, y :: m => valEq x y && listEq l m
  | _, _ => false

/-- a non-coordinate axis: its class, and its auxiliary arrays in the order of the dictionary -/
structure NAxis (κ : Type) where
  cls : Name
  aux : List (Name × List (Option κ))

/-- `NonCoordinateAxis.__eq__`, axis.py:1253-1260 -/
def eq (s t : NAxis κ) : Bool :=
  decide (s.cls = t.cls) &&
  decide (∀ k ∈ s.aux.map Prod.fst, k ∈ t.aux.map Prod.fst) && decide (∀ k ∈ t.aux.map Prod.fst, k ∈ s.aux.map Prod.fst) &&
  s.aux.all fun p => listEq p.2 ((t.aux.lookup p.1).getD [])

/-- the entries of an axis under the names `keys`: `zip(*[auxarrays[k] for k in keys])`, axis.py:1303-1304; `zip` stops at the end of the shortest -/
def entries (s : NAxis κ) (keys : List Name) : List (List (Option κ)) :=
  let cols := keys.map fun k => (s.aux.lookup k).getD []
  (List.range ((cols.map List.length).min?.getD 0)).map fun i => cols.map fun c => c.getD i none

/-- `NonCoordinateAxis.map_to`, axis.py:1294-1312. The order of `keys` (a Python set) is that of the first axis here. `isinstance`
is equality of classes. -/
def mapTo (s t : NAxis κ) : Option (List ℕ) :=
  if s.cls ≠ t.cls then none
  else
    let keys := (s.aux.map Prod.fst).filter fun k => decide (k ∈ t.aux.map Prod.fst)
    if keys = [] then none
    else some ((entries t keys).filterMap fun v => (entries s keys).findIdx? fun u => listEq u v)

/-- `NonCoordinateAxis.str_as_val`, axis.py:1263-1272: the position of a string among the values of the auxiliary array with the name of
the axis, -1 if it is not there -/
def strAsVal (values : List Name) (s : Name) : ℤ :=
  match values.findIdx? fun v => decide (v = s) with
  | some i => i
  | none => -1

/-- `NonCoordinateAxis.formatvalue`, axis.py:1275-1283, with an auxiliary array of that name -/
def formatvalue (values : List Name) (i : ℤ) : Option Name :=
  if 0 ≤ i ∧ i < values.length then values[i.toNat]? else none

end Station
end PyGeode
