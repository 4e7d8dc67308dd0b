/-
Model of `rotatelon`, /repo/pygeode/axis.py:884-939. Exact arithmetic.
-/
import Verif.Model.VarOps
import Verif.Model.Concat

namespace PyGeode
namespace Rotate
open NArr Combine VarOps
variable {α : Type}

/-- `x % 360` on numbers (Python, numpy: the result has the sign of 360) -/
def mod360 (x : ℚ) : ℚ := x - 360 * (⌊x / 360⌋ : ℤ)

/-- `Lon(values=...)`, axis.py:794-800: no auxiliary arrays; `rtol` from the values -/
def newLon (nr : List ℚ → ℚ) (values : List ℚ) : Axis :=
  { classes := ["Lon".toList, "XAxis".toList, "Axis".toList], aliases := ["lon".toList, "longitude".toList], name := "lon".toList
    values := values, isFloat := true, rtol := nr values, auxatts := [], auxarrays := [] }

/-- the new longitudes, axis.py:929-931 -/
def rotateValues (origin : ℚ) (lons : List ℚ) : List ℚ :=
  let o := mod360 origin
  let off := o - origin
  lons.map fun l => mod360 (l - o) + o - off

/-- `rotatelon(v, origin)`, axis.py:926-932; `none`: an exception -/
def rotatelon (nr : List ℚ → ℚ) (junk : List ℕ → α) (x : Var α) (origin : ℚ) : Option (Var α) :=
  match whichaxis x.axes (.name "lon".toList) with
  | .at d => do
    let ax ← x.axes[d]?
    let v ← replaceAxes nr junk x (x.axes.set d (newLon nr (rotateValues origin ax.values)))   -- line 932
    let e ← foundAt (whichaxis v.axes (.name "lon".toList))
    some (sortedVar nr junk v fun i => if i = e then some false else none)
  | _ => some x                                                                          -- line 926

/-- `rotatelon(v, origin, duplicate=True)`, axis.py:934-936: the positions selected by `lon=0`, moved to `origin + 360` and
appended. (`concatenate` finds the longitude axis by itself, as the only one that differs.) -/
def rotatelonDup (nr : List ℚ → ℚ) (junk : List ℕ → α) (x : Var α) (origin : ℚ) : Option (Var α) :=
  match whichaxis x.axes (.name "lon".toList) with
  | .at d => do
    let v0 ← rotatelon nr junk x origin
    let ax ← v0.axes[d]?
    let sel ← Axis.getSlice ax true [("lon".toList, .scalar 0)]
    let pos ← expand sel.1 ax.len
    let part := sliceVar nr junk v0 ((v0.axes.map fun a => List.range a.len).set d (pos.map Int.toNat))
    let last ← replaceAxes nr junk part (part.axes.set d (newLon nr [origin + 360]))
    Concat.concatVar nr junk d [v0, last]
  | _ => some x

end Rotate
end PyGeode
