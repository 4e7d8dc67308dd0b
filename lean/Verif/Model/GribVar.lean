/-
Model of the variables of a GRIB file: /repo/pygeode/formats/grib.py:22-146. The functions of the C module are taken to work
on the index and on the file (as they are called, they do not: grib.c:1020 makes a new capsule out of the one it is given).
The time axis and the latitudes of a Gaussian grid are given from outside. Names and attributes are not modelled.
-/
import Verif.Model.Grib
import Verif.Model.CfFile

namespace PyGeode
namespace Grib
open CfFile (Kind)

/-- the levels that are looked at, grib.py:39-41: the second of the two bytes only -/
def lev2 (v : IndexVar) : List ℕ := (getLevels v).map Prod.snd

/-- `level_type`, grib.py:28 and grib.c:390 -/
def levelType (v : IndexVar) : ℕ := at' v.code 3

/-- fields without a vertical axis, grib.py:54-57 -/
def isSurface (v : IndexVar) : Bool :=
  decide (levelType v ≤ 99) || decide (levelType v ∈ [102, 200, 201]) || (decide (levelType v = 109) && decide (lev2 v = [1]))

/-- the vertical axis, grib.py:42-51 -/
def zAxis (nr : List ℚ → ℚ) (v : IndexVar) : Axis :=
  let vals := ((lev2 v).insertionSort (· ≤ ·)).map fun l : ℕ => (l : ℚ)
  if 0 < v.a.length ∧ (lev2 v).length + 1 = v.a.length then
    CfFile.mkAxis nr Kind.hybrid "eta".toList false vals [("A".toList, v.a.drop 1), ("B".toList, v.b.drop 1)]
  else CfFile.mkAxis nr Kind.zaxis "lev".toList false vals []

/-- `a + np.arange(n)/(n-1)*(b-a)`, grib.py:72 and 79: not a number if there is only one point -/
def between (n : ℕ) (a b : ℚ) : Option (List ℚ) :=
  if n = 1 then none else some ((List.range n).map fun k : ℕ => a + (k : ℚ) / ((n : ℚ) - 1) * (b - a))

/-- degrees, and degrees east, grib.py:61-66 -/
def degrees (z : ℤ) : ℚ := (z : ℚ) / 1000
/-- as above -/
def degreesEast (z : ℤ) : ℚ := if degrees z < 0 then degrees z + 360 else degrees z

/-- the latitudes, grib.py:69-77; `gauss n south` is the Gaussian grid, from the south if `south` -/
def latAxis (nr : List ℚ → ℚ) (gauss : ℕ → Bool → Axis) (v : IndexVar) : Option Axis :=
  if v.gds.gridType = 0 then
    (between v.gds.nj (degrees v.gds.la1) (degrees v.gds.la2)).map fun l => CfFile.mkAxis nr Kind.lat "lat".toList true l []
  else if v.gds.gridType = 4 then some (gauss v.gds.nj (decide (degrees v.gds.la1 < degrees v.gds.la2)))
  else none

/-- the longitudes, grib.py:79 -/
def lonAxis (nr : List ℚ → ℚ) (v : IndexVar) : Option Axis :=
  (between v.gds.ni (degreesEast v.gds.lo1) (degreesEast v.gds.lo2)).map fun l => CfFile.mkAxis nr Kind.lon "lon".toList true l []

/-- `np.where(zorder==lev)[0][0]`, grib.py:124 -/
def firstWhere (zorder : List ℕ) (lev : ℚ) : Option ℕ := zorder.findIdx? fun l : ℕ => decide ((l : ℚ) = lev)

/-- `GribVar.getview`, grib.py:110-146. The axes are looked up by class; they are those of the variable, in the order time,
level, latitude, longitude (grib.py:81). -/
def getview (junk : ℕ → Byte) (f : List Byte) (v : IndexVar) (view : View Axis) : Option (NArr ℚ) :=
  match view.axes, view.inds with
  | [_, z, _, _], [ts, zs, ys, xs] =>
    (zs.mapM fun i => (z.values[i]?).bind (firstWhere (lev2 v))).bind fun zs' =>
    (readDataLoop junk f v ts zs' ys xs).map fun out => { shape := view.shape, get := fun k => out.getD (NArr.ravel view.shape k) 0 }
  | [_, _, _], [ts, ys, xs] =>
    (readDataLoop junk f v ts [0] ys xs).map fun out => { shape := view.shape, get := fun k => out.getD (NArr.ravel view.shape k) 0 }
  | _, _ => none

/-- `GribVar(file, v)`, grib.py:23-107 -/
def openVar (nr : List ℚ → ℚ) (gauss : ℕ → Bool → Axis) (junkA : List ℕ → ℚ) (junk : ℕ → Byte) (f : List Byte) (time : Axis)
    (v : IndexVar) : Option (Var ℚ) :=
  (latAxis nr gauss v).bind fun lat =>
  (lonAxis nr v).bind fun lon =>
  some (Var.ofView junkA (if isSurface v then [time, lat, lon] else [time, zAxis nr v, lat, lon]) (getview junk f v))

end Grib
end PyGeode
