/-
Model of the axes of /repo/pygeode/axis.py: equality (`is_equivalent`, 652-747), mapping (`map_to`, 220-256),
slicing (`_getitem_asvar`, 357-380), selection by keyword (`get_slice`, 389-482), and of the selection keywords of
a variable (`Var.__call__`, /repo/pygeode/var.py:384-421).

Values are exact rationals. String-valued requests (`str_as_val`) are taken after conversion. Names are lists of
characters.
-/
import Verif.Model.Index
import Verif.Model.ToolsC
import Verif.Model.View
import Verif.Spec.Index

namespace PyGeode

abbrev Name := List Char

/-- `str.lower()` -/
def lower (s : Name) : Name := s.map Char.toLower

/-- An axis. `classes`: the names of its class and of the bases of its class, own class first (`isinstance`);
`aliases`: the strings its classes answer to, lower case (`class_has_alias`, axis.py:574-586). -/
structure Axis where
  classes : List Name
  aliases : List Name
  name : Name
  values : List ℚ
  /-- `vals.dtype.name.startswith('float')` -/
  isFloat : Bool
  rtol : ℚ
  auxatts : List (Name × Name)
  auxarrays : List (Name × List ℚ)
  deriving DecidableEq

namespace Axis

/-- `len(axis)` -/
def len (a : Axis) : ℕ := a.values.length

/-- `isinstance(other, type(self))`: `self.isparentof(other)`, axis.py:150-166 -/
def isParentOf (a b : Axis) : Bool := decide (a.classes.headD [] ∈ b.classes)

/-- `self.isparentof(other) or other.isparentof(self)` -/
def compatible (a b : Axis) : Bool := isParentOf a b || isParentOf b a

/-- `numpy.allclose(a, b, rtol, atol=1e-8)` on arrays of the same length: `|a - b| <= atol + rtol*|b|` -/
def allclose (rtol : ℚ) (a b : List ℚ) : Bool :=
  (List.zipWith (fun x y => decide (|x - y| ≤ 1 / 100000000 + rtol * |y|)) a b).all id

/-- equality of dictionaries as compared at axis.py:723-743: the same keys, equivalent values -/
def dictEq {V : Type} (eq : V → V → Bool) (d e : List (Name × V)) : Bool :=
  decide (∀ k ∈ d.map Prod.fst, k ∈ e.map Prod.fst) && decide (∀ k ∈ e.map Prod.fst, k ∈ d.map Prod.fst) &&
  d.all fun p => match e.lookup p.1 with
    | some v => eq p.2 v
    | none => false

/-- class name of the generic axis -/
def genericClass : Name := "Axis".toList

/-- `is_equivalent(ax1, ax2)` with default options, axis.py:652-747, for two distinct objects. The relative
tolerance is `max(auxatts.get('rtol', 1e-5), ...)`; no constructor puts `rtol` into `auxatts`, so it is 1e-5. -/
def isEquivalent (a b : Axis) : Bool :=
  compatible a b &&                                                              -- lines 696-699
  (!(decide (a.classes.headD [] = genericClass) && decide (b.classes.headD [] = genericClass)) ||
    decide (a.name = b.name)) &&                                                 -- lines 702-703
  decide (a.values.length = b.values.length) &&                                  -- lines 706-708
  allclose (1 / 100000) a.values b.values &&                                     -- lines 712-719
  dictEq (fun x y => decide (x = y)) a.auxatts b.auxatts &&                      -- lines 723-725
  dictEq (fun x y => decide (x.length = y.length) && allclose (1 / 100000) x y) a.auxarrays b.auxarrays

/-- `ax1 == ax2`: `is_equivalent` with its test for the same object first, axis.py:689 (here:
no difference at all, which the other tests accept too, theorem `isEquivalent_refl`) -/
def axEq (a b : Axis) : Bool := decide (a = b) || isEquivalent a b

/-- `Axis.map_to(self, other)`, axis.py:220-256 -/
def axisMapTo (a b : Axis) : Option (List ℕ) :=
  if !compatible a b then none                                                   -- line 247
  else if axEq a b then some (List.range a.len)                          -- line 250
  else some (ToolsC.mapTo a.values b.values a.rtol)                              -- line 255

/-- `Axis._getitem_asvar`, axis.py:357-380, on expanded positions: values and auxiliary arrays are indexed, the rest
is kept; `self` is returned when the values do not change (so the auxiliary arrays are kept as they are). `rtol`
is recomputed by the constructor from the new values: `newRtol`. -/
def sliceAxis (newRtol : List ℚ → ℚ) (a : Axis) (s : List ℕ) : Axis :=
  let vals := s.map fun i : ℕ => a.values.getD i 0
  if vals = a.values then a
  else { a with values := vals, rtol := newRtol vals
                auxarrays := a.auxarrays.map fun p => (p.1, s.map fun i : ℕ => p.2.getD i 0) }

/-- the mapping function of a view, /repo/pygeode/view.py:151-156: `out_a.map_to(in_a.slice[inds])` -/
def viewMapAx (newRtol : List ℚ → ℚ) (out inp : Axis) (inds : List ℕ) : Option (List ℕ) :=
  axisMapTo out (sliceAxis newRtol inp inds)

/-! ### selection by keyword -/

/-- value of a selection keyword: a scalar, or a sequence (elements may be `None` for index slices) -/
inductive Arg where
  | scalar (v : ℚ)
  | seq (vs : List (Option ℚ))
  deriving DecidableEq

/-- `has_alias`, axis.py:592-596 -/
def hasAlias (a : Axis) (k : Name) : Bool := decide (lower k = lower a.name) || decide (lower k ∈ a.aliases)

/-- `'_' in k and not self.has_alias(k)`: `k.split('_', 1)`, axis.py:401-404 -/
def splitKey (isAlias : Name → Bool) (k : Name) : Name × Name :=
  if decide ('_' ∈ k) && !isAlias k then (k.takeWhile (· ≠ '_'), (k.dropWhile (· ≠ '_')).tail) else ([], k)

/-- numpy integer index on an axis of length `n`; `none` is an IndexError -/
def wrap (n : ℕ) (v : ℤ) : Option ℕ :=
  if 0 ≤ v ∧ v < n then some v.toNat else if -(n : ℤ) ≤ v ∧ v < 0 then some (v + n).toNat else none

/-- an integer argument (index arguments are integers; fractional ones are truncated here) -/
def toInt (v : ℚ) : ℤ := v.floor

/-- `kp` for selection by index, axis.py:414-425; `none` is an exception -/
def indexMask (n : ℕ) (pre : Name) : Arg → Option (ℕ → Bool)
  | .scalar v => (wrap n (toInt v)).map fun p i => decide (i = p)
  | .seq vs =>
    if vs.length > 3 ∨ vs.length < 2 ∨ 'l' ∈ pre then
      (vs.mapM fun o : Option ℚ => o.bind fun v => wrap n (toInt v)).map fun ps i => decide (i ∈ ps)
    else
      let sl : PySlice := ⟨(vs.getD 0 none).map toInt, (vs.getD 1 none).map toInt, (vs.getD 2 none).map toInt⟩
      if sl.step = some 0 then none
      else some fun i => decide (i ∈ Spec.slicePositions sl n)

/-- `np.argmin`: the first position of the smallest element -/
def argmin : List ℚ → ℕ
  | [] => 0
  | [_] => 0
  | x :: l => if x ≤ l.getD (argmin l) 0 then 0 else argmin l + 1

/-- the positions for one value, axis.py:443-447 and 454-457 -/
def oneValue (isFloat : Bool) (vals : List ℚ) (v : ℚ) : Option (ℕ → Bool) :=
  if isFloat then
    if vals = [] then none else some fun i => decide (i = argmin (vals.map fun x => |v - x|))
  else some fun i => decide (vals[i]? = some v)

/-- `kp` for selection by value, axis.py:437-467; `none` is an exception -/
def valueMask (isFloat : Bool) (vals : List ℚ) (pre : Name) : Arg → Option (ℕ → Bool)
  | .scalar v => oneValue isFloat vals v
  | .seq vs =>
    if 'l' ∈ pre then
      (vs.mapM fun o : Option ℚ => o.bind fun v => oneValue isFloat vals v).map fun ms i => ms.any fun m => m i
    else
      match vs with
      | [some a, some b] => some fun i => match vals[i]? with
          | some x => decide (min a b ≤ x) && decide (x ≤ max a b)
          | none => false
      | _ => none

/-- one keyword, axis.py:399-473: `none` is an exception, `some none` a keyword that is not for this axis -/
def keyMask (ax : Axis) (ignoreMismatch : Bool) (k : Name) (v : Arg) : Option (Option (ℕ → Bool)) :=
  let (pre, nm) := splitKey ax.hasAlias k
  let neg := fun m : ℕ → Bool => fun i => if 'n' ∈ pre then !m i else m i
  if 'i' ∈ pre then
    if ax.hasAlias nm then (indexMask ax.len pre v).map fun m => some (neg m)
    else if ignoreMismatch then some none else none
  else if ax.hasAlias nm then (valueMask ax.isFloat ax.values pre v).map fun m => some (neg m)
  else match ax.auxarrays.lookup nm with
    | some vals => (valueMask ax.isFloat vals pre v).map fun m => some (neg m)
    | none => if ignoreMismatch then some none else none

/-- `get_slice`, axis.py:389-482: the index of the positions kept, and the keywords that were not used.
(Simplification: an auxiliary array has the kind of number, float or not, of the axis.) -/
def getSlice (ax : Axis) (ignoreMismatch : Bool) (kw : List (Name × Arg)) : Option (Ind × List (Name × Arg)) := do
  let masks ← kw.mapM fun p => (keyMask ax ignoreMismatch p.1 p.2).map fun m => (p, m)
  let keep := fun i : ℕ => masks.all fun pm => match pm.2 with
    | some m => m i
    | none => true
  let left := (masks.filter fun pm => pm.2.isNone).map Prod.fst
  some (simplify (((List.range ax.len).filter keep).map fun i : ℕ => (i : ℤ)), left)

/-- Keyword normalisation of `Var.__call__`, var.py:391-414: `m` and `s` (mean, squeeze) are removed from the
prefix. -/
def stripKey (hasAxis : Name → Bool) (k : Name) : Name :=
  let (pre, nm) := splitKey hasAxis k
  let pre' := (pre.filter (· ≠ 'm')).filter (· ≠ 's')
  if pre' ≠ [] then pre' ++ '_' :: nm else nm

/-- `newargs[k] = v`: dictionary assignment -/
def dictSet {V : Type} (d : List (Name × V)) (k : Name) (v : V) : List (Name × V) :=
  if k ∈ d.map Prod.fst then d.map fun p => if p.1 = k then (k, v) else p else d ++ [(k, v)]

/-- `newargs` of `Var.__call__` -/
def newArgs (hasAxis : Name → Bool) (kw : List (Name × Arg)) : List (Name × Arg) :=
  kw.foldl (fun d p => dictSet d (stripKey hasAxis p.1) p.2) []

/-- `slices = [a.get_slice(newargs, ignore_mismatch=True) for a in self.axes]`, var.py:417: each axis removes the
keywords it uses from `newargs`. -/
def varSlices : List Axis → List (Name × Arg) → Option (List Ind × List (Name × Arg))
  | [], kw => some ([], kw)
  | ax :: axs, kw => do
    let (s, kw') ← getSlice ax true kw
    let (ss, kw'') ← varSlices axs kw'
    some (s :: ss, kw'')

end Axis
end PyGeode
