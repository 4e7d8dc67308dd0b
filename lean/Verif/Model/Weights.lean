/-
Model of weighted reductions of variables: `Var.getweights` (/repo/pygeode/var.py:727-758) and `sum`, `nansum`, `mean`,
`nanmean`, `variance` with their `weights` argument (/repo/pygeode/reduce.py:191-396 and 601-844), and of `nanvariance`
(reduce.py:400-424). Exact arithmetic; `none` is NaN in data; weights are numbers. `limit` is `MAX_ARRAY_SIZE`.
-/
import Verif.Model.Loop

namespace PyGeode
namespace Weights
open NArr Combine VarOps Reduce Loop
variable {α β : Type}

/-- the value of the keyword argument `weights` -/
inductive WeightArg where
  /-- `weights=False` or `None` -/
  | no
  /-- `weights=True` -/
  | default
  /-- a variable -/
  | given (W : Var ℚ)

/-- the array `a.weights` of an axis (axis.py:495-503: `hasattr` looks in `auxarrays`; an attribute in `auxatts` of that
name is left out) -/
def axisWeights (a : Axis) : Option (List ℚ) := a.auxarrays.lookup "weights".toList

/-- `a.auxasvar('weights')`, axis.py:506-526, as an operand -/
def weightOperand (a : Axis) : Option (Operand ℚ) :=
  (axisWeights a).map fun ws => .var [a] (.values { shape := [ws.length], get := fun k => ws.getD (k.getD 0 0) 0 })

/-- `vprod`, ufunc.py:264-269 -/
def vprod : List ℚ → ℚ
  | [] => 1
  | a :: l => l.foldl (· * ·) a

/-- `Var.getweights(iaxes)`, var.py:727-758: the product of the weights of the axes named (of all of them when none are
named) that have weights; the number 1 when there are none -/
def getweights (nr : List ℚ → ℚ) (junk : List ℕ → ℚ) (axes : List Axis) (ids : List AxisId) : Option (Var ℚ) :=
  (if ids = [] then some axes else (whichAll axes ids).map fun l => l.filterMap fun i => axes[i]?).bind fun l =>
    let wt := l.filterMap weightOperand
    if wt.length = 0 then some { axes := [], src := .values { shape := [], get := fun _ => 1 } }
    else (ufuncAxes wt).map fun R => Var.ofView junk R (ufuncView vprod nr junk wt)

/-- the weights used, reduce.py:706-710 (also 628-632, 665-669, 745-749, 836-840): inner `none`: unweighted; outer: an exception -/
def chooseWeights (nr : List ℚ → ℚ) (junk : List ℕ → ℚ) (axes : List Axis) (ids : List AxisId) : WeightArg → Option (Option (Var ℚ))
  | .no => some none
  | .default => (getweights nr junk axes ids).map fun W => if W.axes.length = 0 then none else some W
  | .given W => some (if W.axes.length = 0 then none else some W)

/-- "Confirm that weights are defined for the reduction axes", reduce.py:199-201 (also 234-236, 274-276, 325-327, 376-378) -/
def weightsMatch (axes : List Axis) (R : List ℕ) (waxes : List Axis) : Bool :=
  let kept := (keptAxes axes.length R).filterMap fun i => axes[i]?
  let raxes := axes.filter fun a => !(kept.any fun b => Axis.axEq a b)
  waxes.all fun a => raxes.any fun b => Axis.axEq a b

/-- one step of a loop over data and weights: `out[outsl] = op(out[outsl], npop(f(indata, inw), indices))` -/
def pairStep (op : β → β → β) (e : β) (f : α → ℚ → β) (nr : List ℚ → ℚ) (junk : List ℕ → α) (junkw : List ℕ → ℚ)
    (x : Var α) (W : Var ℚ) (R : List ℕ) (out : NArr β) (p : List (List ℕ) × View Axis) : Option (NArr β) :=
  (x.read nr junk p.2).bind fun indata => (W.read nr junkw p.2).map fun inw =>
    updateOuter op out p.1 (npReduce op e (broadcast2 f indata inw) R)

/-- the loops `for outsl, (indata, inw) in loopover([self.var, self.mweights], view, self.var.axes)` of reduce.py:210-211,
246-249, 286-287, 336-343, 389-391: what is done with the products of data and weights -/
def pairView (op : β → β → β) (e : β) (f : α → ℚ → β) (nr : List ℚ → ℚ) (junk : List ℕ → α) (junkw : List ℕ → ℚ)
    (limit : ℕ) (x : Var α) (W : Var ℚ) (R : List ℕ) (v : View Axis) : Option (NArr β) :=
  (loopover nr limit x.axes [] v).bind fun L =>
    L.foldlM (pairStep op e f nr junk junkw x W R) { shape := v.shape, get := fun _ => e }

/-- one step of the sum of the weights, reduce.py:289-290: `f = indata.size / (inw.size * out[outsl].size)`,
`W[outsl] += npsum(inw, indices) * f` -/
def weightStep (nr : List ℚ → ℚ) (junk : List ℕ → α) (junkw : List ℕ → ℚ) (x : Var α) (W : Var ℚ) (R : List ℕ)
    (out : NArr ℚ) (p : List (List ℕ) × View Axis) : Option (NArr ℚ) :=
  (x.read nr junk p.2).bind fun indata => (W.read nr junkw p.2).map fun inw =>
    let f : ℚ := (indata.shape.prod : ℚ) / ((inw.shape.prod : ℚ) * ((p.1.map List.length).prod : ℚ))
    let s := npReduce (· + ·) 0 inw R
    updateOuter (· + ·) out p.1 { shape := p.1.map List.length, get := fun _ => s.get (s.shape.map fun _ => 0) * f }

/-- the loop of the sum of the weights, reduce.py:286-290 and 389-393 -/
def weightView (nr : List ℚ → ℚ) (junk : List ℕ → α) (junkw : List ℕ → ℚ) (limit : ℕ) (x : Var α) (W : Var ℚ) (R : List ℕ)
    (v : View Axis) : Option (NArr ℚ) :=
  (loopover nr limit x.axes [] v).bind fun L =>
    L.foldlM (weightStep nr junk junkw x W R) { shape := v.shape, get := fun _ => 0 }

/-- a weighted reduction: the reduced variable, after the check of the weights -/
def weightedVar (junk : List ℕ → β) (x : Var α) (ids : List AxisId) (W : Var ℚ)
    (getview : List ℕ → View Axis → Option (NArr β)) : Option (Var β) :=
  (reduceAxes x.axes ids).bind fun R =>
    if weightsMatch x.axes R W.axes then reducedVar junk x ids getview else none

/-- the unweighted or the weighted reduction, reduce.py:706-714 -/
def select (nr : List ℚ → ℚ) (junkw : List ℕ → ℚ) (junk : List ℕ → β) (x : Var α) (ids : List AxisId) (arg : WeightArg)
    (plain : Option (Var β)) (weighted : Var ℚ → List ℕ → View Axis → Option (NArr β)) : Option (Var β) :=
  (chooseWeights nr junkw x.axes ids arg).bind fun o =>
    match o with
    | none => plain
    | some W => weightedVar junk x ids W (weighted W)

/-- `var.sum(*ids, weights=arg)` (`False` when not given), reduce.py:601-637 and 191-213 -/
def sum (nr : List ℚ → ℚ) (junk : List ℕ → ℚ) (limit : ℕ) (x : Var ℚ) (ids : List AxisId) (arg : WeightArg := .no) : Option (Var ℚ) :=
  select nr junk junk x ids arg (Loop.sum nr junk limit x ids) fun W R v =>
    pairView (· + ·) 0 (· * ·) nr junk junk limit x W R v

/-- `var.mean(*ids, weights=arg)` (`True` when not given), reduce.py:676-715 and 267-293 -/
def mean (nr : List ℚ → ℚ) (junk : List ℕ → ℚ) (limit : ℕ) (x : Var ℚ) (ids : List AxisId) (arg : WeightArg := .default) : Option (Var ℚ) :=
  select nr junk junk x ids arg (Loop.mean nr junk limit x ids) fun W R v =>
    (pairView (· + ·) 0 (· * ·) nr junk junk limit x W R v).bind fun out =>
    (weightView nr junk junk limit x W R v).map fun Wt => zip2 (· / ·) out Wt

/-- `var.variance(*ids, weights=arg)` (`False` when not given), reduce.py:807-845 and 368-396 -/
def variance (nr : List ℚ → ℚ) (junk : List ℕ → ℚ) (limit : ℕ) (x : Var ℚ) (ids : List AxisId) (arg : WeightArg := .no) : Option (Var ℚ) :=
  select nr junk junk x ids arg (Loop.variance nr junk limit x ids) fun W R v =>
    (pairView (· + ·) 0 (· * ·) nr junk junk limit x W R v).bind fun s =>
    (pairView (· + ·) 0 (fun d w => d ^ 2 * w) nr junk junk limit x W R v).bind fun s2 =>
    (weightView nr junk junk limit x W R v).map fun Wt =>
      { shape := s.shape, get := fun k => (s2.get k - s.get k * s.get k / Wt.get k) / (Wt.get k - 1) }

/-- `var.nansum(*ids, weights=arg)` (`True` when not given), reduce.py:638-674 and 227-252 -/
def nansum (nr : List ℚ → ℚ) (junk : List ℕ → Option ℚ) (junkw : List ℕ → ℚ) (limit : ℕ) (x : Var (Option ℚ)) (ids : List AxisId)
    (arg : WeightArg := .default) : Option (Var (Option ℚ)) :=
  select nr junkw junk x ids arg (Loop.nansum nr junk limit x ids) fun W R v =>
    pairView nanAdd none nanMul nr junk junkw limit x W R v

/-- `var.nanmean(*ids, weights=arg)` (`True` when not given), reduce.py:716-754 and 316-351 -/
def nanmean (nr : List ℚ → ℚ) (junk : List ℕ → Option ℚ) (junkw : List ℕ → ℚ) (limit : ℕ) (x : Var (Option ℚ)) (ids : List AxisId)
    (arg : WeightArg := .default) : Option (Var (Option ℚ)) :=
  select nr junkw junk x ids arg (Loop.nanmean nr junk limit x ids) fun W R v =>
    (pairView nanAdd none nanMul nr junk junkw limit x W R v).bind fun out =>
    (pairView nanAdd none (fun d w => some ((if d.isSome then 1 else 0) * w)) nr junk junkw limit x W R v).map fun Wt =>
      zip2 maskedDiv out Wt

/-- `var.nanvariance(*ids)`, reduce.py:400-424 and 846-870 -/
def nanvariance (nr : List ℚ → ℚ) (junk : List ℕ → Option ℚ) (limit : ℕ) (x : Var (Option ℚ)) (ids : List AxisId) :
    Option (Var (Option ℚ)) :=
  reducedVar junk x ids fun R v =>
    (reduceView nanAdd none id nr junk limit x R v).bind fun s =>
    (reduceView nanAdd none (Option.map (· ^ 2)) nr junk limit x R v).bind fun s2 =>
    (reduceView nanAdd none notNan nr junk limit x R v).map fun N =>
      { shape := s.shape
        get := fun k =>
          let n := (N.get k).getD 0
          if 1 < n then some ((((s2.get k).getD 0) - ((s.get k).getD 0) ^ 2 / n) / (n - 1)) else none }

end Weights
end PyGeode
