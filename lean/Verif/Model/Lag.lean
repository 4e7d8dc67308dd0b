/-
Model of lagged copies of a variable, /repo/pygeode/timeutils.py:287-351. Lists of slices (lines 328-337) are taken as
tuples, as numpy did up to version 1.22. The variable is of floating type (`none` is NaN); for an integer variable the
assignment of NaN at line 337 raises.
-/
import Verif.Model.VarOps

namespace PyGeode
namespace Lag
open NArr Combine VarOps

/-- `Lag(values=delt*lags, ...)`, timeutils.py:184-194 and 305; the date fields are left out -/
def lagAxis (values : List ℚ) : Axis :=
  { classes := ["Lag".toList, "Yearless".toList, "CalendarTime".toList, "Time".toList, "TAxis".toList, "Axis".toList]
    aliases := ["lag".toList], name := "lag".toList, values := values, isFloat := true, rtol := 1 / 100000, auxatts := [], auxarrays := [] }

/-- the body of the loop, timeutils.py:330-337: row `i` of the lag axis is filled, with the source where `t + l` exists and
with NaN elsewhere -/
def lagStep (src : NArr (Option ℚ)) (d N imin : ℕ) (tind : List ℕ) (out : NArr (Option ℚ)) (p : ℤ × ℕ) : NArr (Option ℚ) :=
  { shape := out.shape
    get := fun k =>
      if k.getD (d + 1) 0 = p.2 then
        let t : ℤ := (tind.getD (k.getD d 0) 0 : ℤ) + p.1
        if 0 ≤ t ∧ t < (N : ℤ) then src.get ((k.eraseIdx (d + 1)).set d (t - (imin : ℤ)).toNat) else none
      else out.get k }

/-- `LagVar.getview`, timeutils.py:312-340 -/
def lagView (nr : List ℚ → ℚ) (junk : List ℕ → Option ℚ) (x : Var (Option ℚ)) (d N : ℕ) (lags : List ℤ) (v : View Axis) :
    Option (NArr (Option ℚ)) := do
  let lind := (v.inds.getD (d + 1) []).map fun i => lags.getD i 0                       -- line 315
  let loff ← lind.min?                                                                  -- line 316
  let roff ← lind.max?
  let tind := v.inds.getD d []                                                          -- line 318
  let tmin ← tind.min?
  let tmax ← tind.max?
  let start : ℤ := Max.max ((tmin : ℤ) + loff) 0                                        -- line 321
  let stop : ℤ := Min.min ((tmax : ℤ) + roff + 1) (N : ℤ)
  let sl ← expand (.slice ⟨some start, some stop, none⟩) N                              -- line 323
  let src ← x.read nr junk ⟨x.axes, (v.inds.eraseIdx (d + 1)).set d (sl.map Int.toNat)⟩ -- line 324
  some (lind.zipIdx.foldl (lagStep src d N start.toNat tind) { shape := v.shape, get := junk })

/-- `lag(var, iaxis, lags, reverse)`, timeutils.py:289-310. `none`: no such axis, not a time axis, or a single time step. -/
def lag (nr : List ℚ → ℚ) (junk : List ℕ → Option ℚ) (x : Var (Option ℚ)) (id : AxisId) (lags : List ℤ) (reverse : Bool) :
    Option (Var (Option ℚ)) := do
  let d ← foundAt (whichaxis x.axes id)
  let ax ← x.axes[d]?
  if "Time".toList ∈ ax.classes ∧ 2 ≤ ax.len then                                       -- lines 298-299
    let delt := ax.values.getD 1 0 - ax.values.getD 0 0
    let delt := if reverse then -delt else delt                                         -- lines 300-302
    let lags := if reverse then lags.reverse else lags
    some (Var.ofView junk (x.axes.take (d + 1) ++ lagAxis (lags.map fun l : ℤ => delt * (l : ℚ)) :: x.axes.drop (d + 1))
      (lagView nr junk x d ax.len lags))
  else none

end Lag
end PyGeode
