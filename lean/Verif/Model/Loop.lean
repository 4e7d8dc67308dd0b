/-
Model of `loopover` (/repo/pygeode/tools.py:406-450) on real axes, and of the reductions of /repo/pygeode/reduce.py as
variables: which axes are removed, how a request on the remaining axes is answered. `limit` is `MAX_ARRAY_SIZE`. The
arithmetic of the individual reductions is in Verif/Model/Reduce.lean.
-/
import Verif.Model.VarOps
import Verif.Model.Reduce

namespace PyGeode
namespace Loop
open NArr Combine VarOps Reduce
variable {α β : Type}

/-- `View.clip`, view.py:184-194: the selected part of the axes, all of it selected -/
def clip (nr : List ℚ → ℚ) (v : View Axis) : View Axis :=
  let axes := List.zipWith (Axis.sliceAxis nr) v.axes v.inds
  { axes := axes, inds := axes.map fun a => List.range a.len }

/-- where a chunk goes in the output: `inv.map_to(outview.axes).slices`, tools.py:435 and 449 -/
def outSlices (nr : List ℚ → ℚ) (outaxes : List Axis) (inv : View Axis) : Option (List (List ℕ)) :=
  (inv.mapTo Axis.axEq (Axis.viewMapAx nr) Axis.len true outaxes).map fun o => o.map Prod.snd

/-- `loopover(vars, outview, inaxes, preserve)`, tools.py:406-450: the places in the output array and the chunks, in
order. Reading the variables on each chunk is left to the caller. `none`: an axis of the output cannot be matched. -/
def loopover (nr : List ℚ → ℚ) (limit : ℕ) (inaxes : List Axis) (preserve : List ℕ) (outview : View Axis) :
    Option (List (List (List ℕ) × View Axis)) := do
  let outview := clip nr outview                                                        -- line 421
  let m ← outview.mapTo Axis.axEq (Axis.viewMapAx nr) Axis.len false inaxes             -- line 429
  let inview : View Axis := { axes := inaxes, inds := m.map Prod.snd }
  (inview.loopMem limit preserve).mapM fun inv =>                                       -- lines 432-449
    (outSlices nr outview.axes inv).map fun o => (o, inv)

/-! ### Reductions as variables -/

/-- one step of the loops of reduce.py: `out[outsl] = op(out[outsl], npop(f(indata), indices))` -/
def reduceStep (op : β → β → β) (e : β) (f : α → β) (nr : List ℚ → ℚ) (junk : List ℕ → α) (x : Var α) (R : List ℕ)
    (out : NArr β) (p : List (List ℕ) × View Axis) : Option (NArr β) :=
  (x.read nr junk p.2).map fun indata => updateOuter op out p.1 (npReduce op e (indata.map f) R)

/-- the loop of the `getview`s of reduce.py, e.g. 181-189: an array filled with `e`, into which every chunk, changed by
`f` (identity, square, validity) and reduced, is combined -/
def reduceView (op : β → β → β) (e : β) (f : α → β) (nr : List ℚ → ℚ) (junk : List ℕ → α) (limit : ℕ) (x : Var α)
    (R : List ℕ) (v : View Axis) : Option (NArr β) := do
  let L ← loopover nr limit x.axes [] v
  L.foldlM (reduceStep op e f nr junk x R) { shape := v.shape, get := fun _ => e }

/-- `ReducedVar.__init__`, reduce.py:37-69: the positions of the reduced axes; `none`: an exception (no such axis, an axis
of length zero, no axis at all - with no axes given `__new__` reduces over all of them, lines 23-25) -/
def reduceAxes (axes : List Axis) (ids : List AxisId) : Option (List ℕ) := do
  let R ← whichAll axes ids
  let R := if ids = [] then List.range axes.length else R.insertionSort (· ≤ ·)         -- lines 24, 51
  if R = [] ∨ R.any (fun i => decide ((axes[i]?.map Axis.len).getD 0 = 0)) then none    -- lines 52-57
  else some R

/-- a reduced variable: the axes not reduced (reduce.py:66), and a `getview` -/
def reducedVar (junk : List ℕ → β) (x : Var α) (ids : List AxisId)
    (getview : List ℕ → View Axis → Option (NArr β)) : Option (Var β) :=
  (reduceAxes x.axes ids).map fun R =>
    Var.ofView junk ((keptAxes x.axes.length R).filterMap fun i => x.axes[i]?) (getview R)

/-- `var.sum(*ids)`, reduce.py:181-189 -/
def sum (nr : List ℚ → ℚ) (junk : List ℕ → ℚ) (limit : ℕ) (x : Var ℚ) (ids : List AxisId) : Option (Var ℚ) :=
  reducedVar junk x ids (reduceView (· + ·) 0 id nr junk limit x)

/-- `var.mean(*ids)`, reduce.py:255-265 -/
def mean (nr : List ℚ → ℚ) (junk : List ℕ → ℚ) (limit : ℕ) (x : Var ℚ) (ids : List AxisId) : Option (Var ℚ) :=
  reducedVar junk x ids fun R v => (reduceView (· + ·) 0 id nr junk limit x R v).map fun s =>
    s.map fun t => t / (count (x.axes.map Axis.len) R : ℚ)

/-- `var.min(*ids)`, reduce.py:74-83; `none` is `inf` -/
def min (nr : List ℚ → ℚ) (junk : List ℕ → ℚ) (junk' : List ℕ → Option ℚ) (limit : ℕ) (x : Var ℚ) (ids : List AxisId) :
    Option (Var (Option ℚ)) :=
  reducedVar junk' x ids (reduceView minInf none some nr junk limit x)

/-- `var.max(*ids)`, reduce.py:98-107; `none` is `-inf` -/
def max (nr : List ℚ → ℚ) (junk : List ℕ → ℚ) (junk' : List ℕ → Option ℚ) (limit : ℕ) (x : Var ℚ) (ids : List AxisId) :
    Option (Var (Option ℚ)) :=
  reducedVar junk' x ids (reduceView maxInf none some nr junk limit x)

/-- `var.variance(*ids)`, reduce.py:353-367 -/
def variance (nr : List ℚ → ℚ) (junk : List ℕ → ℚ) (limit : ℕ) (x : Var ℚ) (ids : List AxisId) : Option (Var ℚ) :=
  reducedVar junk x ids fun R v => do
    let s ← reduceView (· + ·) 0 id nr junk limit x R v
    let s2 ← reduceView (· + ·) 0 (· ^ 2) nr junk limit x R v
    let N : ℚ := (count (x.axes.map Axis.len) R : ℚ)
    some (zip2 (fun x x2 => (x2 - N * (x / N) ^ 2) / (N - 1)) s s2)

/-- `var.nansum(*ids)`, reduce.py:216-225; `none` is NaN -/
def nansum (nr : List ℚ → ℚ) (junk : List ℕ → Option ℚ) (limit : ℕ) (x : Var (Option ℚ)) (ids : List AxisId) :
    Option (Var (Option ℚ)) :=
  reducedVar junk x ids (reduceView nanAdd none id nr junk limit x)

/-- `var.nanmean(*ids)`, reduce.py:296-315 -/
def nanmean (nr : List ℚ → ℚ) (junk : List ℕ → Option ℚ) (limit : ℕ) (x : Var (Option ℚ)) (ids : List AxisId) :
    Option (Var (Option ℚ)) :=
  reducedVar junk x ids fun R v => do
    let s ← reduceView nanAdd none id nr junk limit x R v
    let n ← reduceView nanAdd none notNan nr junk limit x R v
    some (zip2 maskedDiv s n)

/-- `var.nanmin(*ids)`, reduce.py:86-95 -/
def nanmin (nr : List ℚ → ℚ) (junk : List ℕ → Option ℚ) (limit : ℕ) (x : Var (Option ℚ)) (ids : List AxisId) :
    Option (Var (Option ℚ)) :=
  reducedVar junk x ids (reduceView minInf none id nr junk limit x)

/-- `var.nanmax(*ids)`, reduce.py:110-119 -/
def nanmax (nr : List ℚ → ℚ) (junk : List ℕ → Option ℚ) (limit : ℕ) (x : Var (Option ℚ)) (ids : List AxisId) :
    Option (Var (Option ℚ)) :=
  reducedVar junk x ids (reduceView maxInf none id nr junk limit x)

end Loop
end PyGeode
