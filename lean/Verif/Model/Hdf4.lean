/-
Model of opening an HDF4 file: /repo/pygeode/formats/hdf4.py:161-236. The file is the list of its scientific data sets as the library gives them,
and the names and sizes of its dimensions. Attributes and `finalize_open` are left out.
-/
import Verif.Model.NetCdf

namespace PyGeode
namespace Hdf4
open NetCdf

/-- `HDF4_SD`, hdf4.py:102-125: a data set of the file -/
structure Sd where
  name : Name
  isFloat : Bool
  dims : List ℕ
  shape : List ℕ
  iscoord : Bool
  data : List ℕ → Cell

structure HdfFile where
  sds : List Sd
  /-- `SDdiminfo`: name and size of a dimension -/
  dim : ℕ → Name × ℕ

/-- `':EOSGRID'` -/
def eosgrid : Name := ":EOSGRID".toList

/-- the data sets used, hdf4.py:186-189 -/
def visible (sds : List Sd) : List Sd :=
  sds.filter fun s => decide (eosgrid <:+ s.name) || !(sds.any fun t => decide (t.name = s.name ++ eosgrid))

/-- `sd_1d`, hdf4.py:193 -/
def oneD (sds : List Sd) : List Sd := sds.filter fun s => decide (s.dims.length = 1)

/-- `dimids`, hdf4.py:195 -/
def dimids (sds : List Sd) : List ℕ := (oneD sds).map fun s => s.dims.headD 0

/-- the condition for a data set of `sd_1d` to be an axis, hdf4.py:196 -/
def isDim (sds : List Sd) (s : Sd) : Bool := decide ((dimids sds).count (s.dims.headD 0) = 1) || s.iscoord

/-- `dimsds`, hdf4.py:196 -/
def dimsds (sds : List Sd) : List Sd := (oneD sds).filter (isDim sds)

/-- the values of a one-dimensional data set, hdf4.py:199-201 -/
def values (s : Sd) : List ℚ := (List.range (s.shape.headD 0)).map fun i => (s.data [i]).getD 0

/-- `NamedAxis(s.values, s.name)`, hdf4.py:207-212 -/
def axisOf (nr : List ℚ → ℚ) (s : Sd) : Axis := named nr s.name s.isFloat (values s)

/-- `axis_lookup` before the dummy axes, hdf4.py:215-216: `axis_lookup[dimids[i]] = a` for the axes in order. Note that `dimids` numbers the
data sets of `sd_1d` and not those of `dimsds`. The last assignment to a key counts. -/
def lookup (nr : List ℚ → ℚ) (sds : List Sd) (d : ℕ) : Option Axis :=
  ((((dimids sds).zip ((dimsds sds).map (axisOf nr))).reverse).find? fun p => decide (p.1 = d)).map Prod.snd

/-- the axis of a dimension, hdf4.py:219-223 and 228 -/
def axisFor (nr : List ℚ → ℚ) (f : HdfFile) (d : ℕ) : Axis :=
  (lookup nr (visible f.sds) d).getD (dummy nr (f.dim d).1 (f.dim d).2)

/-- `HDF4_Var(s, axes)` with `getvalues`, hdf4.py:136-158 and 226-229 -/
def makeItem (nr : List ℚ → ℚ) (junk : List ℕ → Cell) (f : HdfFile) (s : Sd) : Item :=
  { name := s.name, isFloat := s.isFloat
    var := { axes := s.dims.map (axisFor nr f)
             src := .getvalues junk fun sc =>
               { shape := sc.map Prod.snd, get := fun k => s.data (List.zipWith (fun (p : ℕ × ℕ) (i : ℕ) => p.1 + i) sc k) } } }

/-- the data sets that become variables, hdf4.py:230: those that are not in `dimsds` -/
def isVar (sds : List Sd) (s : Sd) : Bool := !(decide (s.dims.length = 1) && isDim sds s)

/-- `open(filename)`, hdf4.py:161-236 -/
def openFile (nr : List ℚ → ℚ) (junk : List ℕ → Cell) (f : HdfFile) : Option (List Item) :=
  mkDataset nr junk (((visible f.sds).filter (isVar (visible f.sds))).map (makeItem nr junk f))

end Hdf4
end PyGeode
