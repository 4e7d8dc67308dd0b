/-
Model of the plots of variables: /repo/pygeode/plot/pyg_helpers.py:20-128 (titles, scaling, limits), 317-380 (`vplot`), 413-448 (`vscatter`),
450-565 (`vcontour`), 567-660 (`vsigmask`), 662-716 (`vstreamplot`) and 718-782 (`vquiver`): what is handed to matplotlib. Exact
arithmetic, no NaNs; a scale factor or offset that cannot be stored in the type of an integer array (numpy refuses `v *= sf` there) is not
modelled, nor are colours, maps and labels. The plot attributes of an axis are given by a function of the axis.
-/
import Verif.Model.VarOps
import Verif.Model.GetItem
import Mathlib.Algebra.Order.Field.Rat

namespace PyGeode
namespace Plot
open Combine VarOps

/-- the entries of `plotatts` that change numbers -/
structure PlotAtts where
  scalefactor : Option ℚ
  offset : Option ℚ
  /-- `plotorder` is -1 -/
  down : Bool

/-- `v *= sf` and `v += of`, pyg_helpers.py:49-53 -/
def PlotAtts.scale (p : PlotAtts) (v : ℚ) : ℚ :=
  let v := match p.scalefactor with
    | some sf => v * sf
    | none => v
  match p.offset with
  | some o => v + o
  | none => v

/-- `scalevalues(axis)`, pyg_helpers.py:47-55 -/
def scaleAxis (pa : Axis → PlotAtts) (a : Axis) : List ℚ := a.values.map (pa a).scale

/-- `scalevalues(var)`, pyg_helpers.py:47-55 -/
def scaleVar (nr : List ℚ → ℚ) (junk : List ℕ → ℚ) (p : PlotAtts) (x : Var ℚ) : Option (NArr ℚ) :=
  (GetItem.get nr junk x).map (NArr.map p.scale)

/-- the limits, pyg_helpers.py:59-60 and 63; `none` is the exception of `nanmin` of nothing -/
def limits (down : Bool) (vals : List ℚ) : Option (ℚ × ℚ) := match vals with
  | [] => none
  | v :: vs =>
    let lo := vs.foldl min v
    let hi := vs.foldl max v
    some (if down then (hi, lo) else (lo, hi))

/-- `isinstance(axis, c)` -/
def isA (a : Axis) (c : String) : Bool := decide (c.toList ∈ a.classes)

/-- which axis is drawn along x and which along y, pyg_helpers.py:505-514 (the same lines are at 623-632, 678-686 and 741-749) -/
def orient (transpose : Option Bool) (X Y : Axis) : Axis × Axis := match transpose with
  | none =>
    let p := if isA X "ZAxis" then (Y, X) else (X, Y)
    if isA p.1 "Lat" && isA p.2 "Lon" then (p.2, p.1) else p
  | some true => (Y, X)
  | some false => (X, Y)

/-- `scalevalues(Z.transpose(Y, X))`, pyg_helpers.py:518 -/
def field (nr : List ℚ → ℚ) (junk : List ℕ → ℚ) (p : PlotAtts) (Z : Var ℚ) (X Y : Axis) : Option (NArr ℚ) :=
  (VarOps.transpose nr junk Z [.axis Y, .axis X]).bind (scaleVar nr junk p)

/-- levels of contours: their number or the values -/
inductive Levels where
  | number (n : ℕ)
  | at (l : List ℚ)

/-- a contour plot as matplotlib gets it: the axes drawn, their coordinates, the field, its contours (filled or lines) in the order in which they are drawn,
and whether it is drawn on a map -/
structure Contours where
  X : Axis
  Y : Axis
  x : List ℚ
  y : List ℚ
  z : NArr ℚ
  calls : List (Bool × Levels)
  onMap : Bool

/-- `vcontour(var, clevs, clines, transpose)`, pyg_helpers.py:500-545, without given `axes`; `none` is an exception -/
def vcontour (nr : List ℚ → ℚ) (junk : List ℕ → ℚ) (pa : Axis → PlotAtts) (p : PlotAtts) (var : Var ℚ) (clevs clines : Option Levels)
    (tr : Option Bool) : Option Contours :=
  (squeeze nr junk var []).bind fun Z => match Z.axes with
    | [A, B] =>
      let o := orient tr A B
      (field nr junk p Z o.1 o.2).map fun z =>
        { X := o.1, Y := o.2, x := scaleAxis pa o.1, y := scaleAxis pa o.2, z := z
          calls := (if clevs.isNone && clines.isNone then [(true, .number 21)] else []) ++                       -- lines 529-531
            (clevs.toList.map fun l => (true, l)) ++ (clines.toList.map fun l => (false, l))                     -- lines 533-544
          onMap := isA o.1 "Lon" && isA o.2 "Lat" }                                                              -- lines 523-527
    | _ => none

/-- a plot of a vector field as matplotlib gets it -/
structure Vectors where
  X : Axis
  Y : Axis
  x : List ℚ
  y : List ℚ
  u : NArr ℚ
  v : NArr ℚ

/-- `vstreamplot(varu, varv, transpose)`, pyg_helpers.py:671-700 -/
def vstreamplot (nr : List ℚ → ℚ) (junk : List ℕ → ℚ) (pa : Axis → PlotAtts) (pu pv : PlotAtts) (varu varv : Var ℚ) (tr : Option Bool) :
    Option Vectors :=
  (squeeze nr junk varu []).bind fun U => (squeeze nr junk varv []).bind fun V =>
    if V.axes.length = 2 then match U.axes with
      | [A, B] =>
        let o := orient tr A B
        (field nr junk pu U o.1 o.2).bind fun u => (field nr junk pv V o.1 o.2).map fun v =>
          { X := o.1, Y := o.2, x := scaleAxis pa o.1, y := scaleAxis pa o.2, u := u, v := v }
      | _ => none
    else none

/-- `U.axes == V.axes` of two tuples of axes, pyg_helpers.py:730 -/
def sameAxes (A B : List Axis) : Bool := decide (A.length = B.length) && (A.zip B).all fun p => Axis.axEq p.1 p.2

/-- `vquiver(varu, varv, transpose)` without colours, pyg_helpers.py:727-768 -/
def vquiver (nr : List ℚ → ℚ) (junk : List ℕ → ℚ) (pa : Axis → PlotAtts) (pu pv : PlotAtts) (varu varv : Var ℚ) (tr : Option Bool) :
    Option Vectors :=
  (squeeze nr junk varu []).bind fun U => (squeeze nr junk varv []).bind fun V =>
    if sameAxes U.axes V.axes then vstreamplot nr junk pa pu pv varu varv tr else none

/-- a line as matplotlib gets it, with the limits set along x and y -/
structure Line where
  x : List ℚ
  y : List ℚ
  xlim : Option (ℚ × ℚ)
  ylim : Option (ℚ × ℚ)

/-- the values of a one-dimensional array -/
def row (a : NArr ℚ) : List ℚ := (List.range (a.shape.getD 0 0)).map fun i => a.get [i]

/-- `vplot(var, transpose)`, pyg_helpers.py:331-377 (with the default `scalex` and `scaley`) -/
def vplot (nr : List ℚ → ℚ) (junk : List ℕ → ℚ) (pa : Axis → PlotAtts) (p : PlotAtts) (var : Var ℚ) (tr : Bool) : Option Line :=
  ((squeeze nr junk var []).bind (GetItem.load nr junk)).bind fun Y => match Y.axes with
    | [X] => (scaleVar nr junk p Y).bind fun values =>
      let c := scaleAxis pa X
      let lim := limits (pa X).down c
      -- lines 337-355: `yord` says that the coordinates are along x
      let yord := if isA X "ZAxis" then tr else !tr
      lim.map fun lim =>
        if yord then { x := c, y := row values, xlim := some lim, ylim := none }
        else { x := row values, y := c, xlim := none, ylim := some lim }
    | _ => none

/-- `vscatter(varx, vary)`, pyg_helpers.py:430-438: the points in the order drawn -/
def vscatter (nr : List ℚ → ℚ) (junk : List ℕ → ℚ) (px py : PlotAtts) (varx vary : Var ℚ) : Option (List (ℚ × ℚ)) :=
  if (varx.axes.map Axis.len).prod = (vary.axes.map Axis.len).prod then
    (scaleVar nr junk px varx).bind fun x => (scaleVar nr junk py vary).map fun y =>
      (List.range (varx.axes.map Axis.len).prod).map fun i => (x.get (NArr.unravel x.shape i), y.get (NArr.unravel y.shape i))
  else none

/-- how a region is drawn by `vsigmask` -/
inductive Style where
  | major
  | minor
  | none
deriving DecidableEq

/-- the levels of `vsigmask` and how the regions between them are drawn, pyg_helpers.py:643-656 -/
def sigLevels (mj : ℚ) (mn : Option ℚ) : List ℚ × List Style := match mn with
  | none => ([-11 / 10, -mj, mj, 11 / 10], [.major, .none, .major])
  | some mn => ([-11 / 10, -mn, -mj, mj, mn, 11 / 10], [.major, .minor, .none, .minor, .major])

/-- `contourf` with given levels: an exception (`none`) unless they increase, otherwise the region in which the value is, counted
from the lowest (`none` if outside) -/
def contourf (levels : List ℚ) (v : ℚ) : Option (Option ℕ) :=
  if levels.Pairwise (· < ·) then
    some ((List.range (levels.length - 1)).find? fun i => decide (levels.getD i 0 ≤ v) && decide (v < levels.getD (i + 1) 0))
  else none

/-- how `vsigmask(pval, axes, mjsig, mnsig)` draws a place with the p-value `v`; the outer `none` is an exception -/
def sigmask (mj : ℚ) (mn : Option ℚ) (v : ℚ) : Option (Option Style) :=
  (contourf (sigLevels mj mn).1 v).map fun i => i.bind fun i => (sigLevels mj mn).2[i]?

/-- `title` with the units, pyg_helpers.py:35-38 -/
def nameAndUnits (name units : Option Name) : Name :=
  name.getD [] ++ match units with
    | some u => if u = [] then [] else " [".toList ++ u ++ "]".toList
    | none => []

/-- `_buildvartitle(axes, **plt)`, pyg_helpers.py:31-45; `fmt` is `axis.formatvalue(axis.values[0])` -/
def varTitle (fmt : Axis → Name) (axes : List Axis) (title name units : Option Name) : Name := match title with
  | some t => t
  | none => nameAndUnits name units ++ (axes.filter fun a => decide (a.len = 1)).flatMap fun a => ", ".toList ++ fmt a

end Plot
end PyGeode
