/-
Model of /repo/pygeode/stats.py: correlation, regression and differences of means. Exact arithmetic; `none` is NaN. The
p-values and the confidence intervals (the distribution function of Student's t) are left out; the quantities they are
computed from are kept. `limit` is `MAX_ARRAY_SIZE`.
-/
import Verif.Model.Loop
import Mathlib.Algebra.Order.Floor.Defs
import Mathlib.Data.Rat.Floor

namespace PyGeode
namespace Stats
open NArr Combine VarOps Reduce Loop

/-- `shared_axes(axes, sets)`, tools.py:267-284: positions of the axes that are in one of the sets only, and of the others -/
def sharedAxes (axes S T : List Axis) : List ℕ × List ℕ :=
  let inSet := fun (S : List Axis) (a : Axis) => S.any fun s => (Axis.axisMapTo s a).isSome
  let xor := fun i : ℕ => match axes[i]? with
    | some a => inSet S a != inSet T a
    | none => false
  ((List.range axes.length).filter fun i => xor i, (List.range axes.length).filter fun i => !xor i)

/-- the axes kept and the axes reduced, stats.py:66-78, 245-256, 474-483; `none`: an exception. -/
def splitAxes (S X Y : List Axis) (ids : Option (List AxisId)) : Option (List ℕ × List ℕ) :=
  let (oi, ri) := sharedAxes S X Y
  match ids with
  | none => some (oi, ri)
  | some ids => (whichAll S ids).bind fun new =>
    if new.all fun i => decide (i ∈ ri) then some (oi ++ ri.filter fun r => r ∉ new, new) else none

/-- `View(axes)` -/
def wholeView (axes : List Axis) : View Axis := ⟨axes, axes.map fun a => List.range a.len⟩

/-- One of the sums made by the loops of stats.py, e.g. lines 94-118: `rd` is the array made from the data of one chunk. (The
code makes all its sums in one loop; they do not depend on each other.) -/
def accumulate {β : Type} (op : β → β → β) (e : β) (nr : List ℚ → ℚ) (limit : ℕ) (inaxes : List Axis) (R : List ℕ)
    (rd : View Axis → Option (NArr β)) (v : View Axis) : Option (NArr β) := do
  let L ← loopover nr limit inaxes [] v
  L.foldlM (fun out p => (rd p.2).map fun d => updateOuter op out p.1 (npReduce op e d R)) { shape := v.shape, get := fun _ => e }

/-- the product, sum, ... of two arrays of the same rank, with broadcasting -/
def bcast {α β γ : Type} (f : α → β → γ) (a : NArr α) (b : NArr β) : NArr γ :=
  { shape := List.zipWith (fun (m n : ℕ) => if m = 1 then n else m) a.shape b.shape
    get := fun k => f (a.get (bindex a.shape k)) (b.get (bindex b.shape k)) }

/-- `np.tile(a, [s1 // s2 for s1, s2 in zip(shape, a.shape)])` -/
def tileTo {α : Type} (a : NArr α) (shape : List ℕ) : NArr α :=
  { shape := List.zipWith (fun (s t : ℕ) => s / t * t) shape a.shape
    get := fun k => a.get (List.zipWith (fun (t i : ℕ) => i % t) a.shape k) }

/-- `x * y`, NaN if one of them is NaN -/
def mulNan (a b : Option ℚ) : Option ℚ := a.bind fun x => b.map fun y => x * y

/-- `a[np.isnan(m)] = nan` -/
def maskBy (a m : NArr (Option ℚ)) : NArr (Option ℚ) := zip2 (fun x m => m.bind fun _ => x) a m

/-- `xdata`, `ydata` and `xydata` of one chunk, stats.py:95-104 -/
def pairChunk (nr : List ℚ → ℚ) (junk : List ℕ → Option ℚ) (X Y : Var (Option ℚ)) (v : View Axis) :
    Option (NArr (Option ℚ) × NArr (Option ℚ) × NArr (Option ℚ)) := do
  let x ← X.read nr junk v
  let y ← Y.read nr junk v
  let xy := bcast mulNan x y
  some (maskBy (tileTo x xy.shape) xy, maskBy (tileTo y xy.shape) xy, xy)

/-- the six sums of `correlate` and `regress` for one output cell -/
structure Sums where
  x : ℚ
  y : ℚ
  xx : ℚ
  yy : ℚ
  xy : ℚ
  n : ℚ

/-- the sums of `correlate` and `regress`, stats.py:86-118 and 268-299; `n`: number of combined axes -/
def pairSums (nr : List ℚ → ℚ) (junk : List ℕ → Option ℚ) (limit : ℕ) (X Y : Var (Option ℚ)) (oaxes raxes : List Axis) (n : ℕ) :
    Option (NArr Sums) := do
  let R := List.range' oaxes.length (n - oaxes.length)                                    -- `siaxes`
  let acc := fun f => accumulate nanAdd none nr limit (oaxes ++ raxes) R (fun v => (pairChunk nr junk X Y v).map f) (wholeView oaxes)
  let sq := fun a : NArr (Option ℚ) => a.map fun o => o.map fun t => t ^ 2
  let x ← acc fun p => p.1
  let y ← acc fun p => p.2.1
  let xx ← acc fun p => sq p.1
  let yy ← acc fun p => sq p.2.1
  let xy ← acc fun p => p.2.2
  let n ← acc fun p => p.2.2.map notNan
  some { shape := (wholeView oaxes).shape
         get := fun k => ⟨(x.get k).getD 0, (y.get k).getD 0, (xx.get k).getD 0, (yy.get k).getD 0, (xy.get k).getD 0, (n.get k).getD 0⟩ }

/-- slope, intercept, coefficient of determination, variance of the residual and of the slope -/
structure Line where
  m : Option ℚ
  b : Option ℚ
  r2 : Option ℚ
  se2 : Option ℚ
  sm2 : Option ℚ

/-- `N_eff`, stats.py:301-304 -/
def effDof (n : ℚ) : Option ℚ → ℚ
  | none => n - 2
  | some f => n / f - 2

/-- stats.py:301-346 for one cell; `se` and `sm` before the square root -/
def regressCell (fac : Option ℚ) (s : Sums) : Line :=
  let Neff := effDof s.n fac
  let nmsk : Bool := decide (0 < Neff)                                                    -- line 306
  let xx := if nmsk then s.xx - s.x * s.x / s.n else s.xx
  let yy := if nmsk then s.yy - s.y * s.y / s.n else s.yy
  let xy := if nmsk then s.xy - s.x * s.y / s.n else s.xy
  let dmsk : Bool := decide (0 < xx)                                                      -- line 312
  let m := if dmsk then xy / xx else 0
  let b := if nmsk then (s.y - m * s.x) / s.n else 0
  let d2msk : Bool := decide (0 < xx * yy)                                                -- line 322
  let r2 := if d2msk then xy ^ 2 / (xx * yy) else 0
  let se2 := if dmsk then (yy - m * xy) / Neff else 0
  let sm2 := if dmsk then se2 / xx else 0
  let mask := fun (c : Bool) (q : ℚ) => if c then some q else none                        -- lines 337-346
  ⟨mask (nmsk && dmsk) m, mask (nmsk && dmsk) b, mask (nmsk && d2msk) r2, mask (nmsk && dmsk) se2, mask (nmsk && dmsk) sm2⟩

/-- covariance (`xy`), and the variances with negative ones set to 0, stats.py:120-128; the correlation coefficient is
`xy / sqrt(xx * yy)` where that product is positive (lines 130-137), and NaN elsewhere (lines 149-153) -/
def correlateCell (s : Sums) : Option (ℚ × ℚ × ℚ) :=
  let imsk : Bool := decide (0 < s.n)
  let xx := if imsk then s.xx - s.x * s.x / s.n else s.xx
  let yy := if imsk then s.yy - s.y * s.y / s.n else s.yy
  let xy := if imsk then s.xy - s.x * s.y / s.n else s.xy
  let xx := if xx ≤ 0 then 0 else xx
  let yy := if yy ≤ 0 then 0 else yy
  let dmsk : Bool := imsk && decide (0 < xx * yy)
  if dmsk then some (xy, xx, yy) else none

/-- `regress(X, Y, axes, N_fac)`, stats.py:184-389: the output axes and the results -/
def regress (nr : List ℚ → ℚ) (junk : List ℕ → Option ℚ) (limit : ℕ) (X Y : Var (Option ℚ)) (ids : Option (List AxisId))
    (fac : Option ℚ) : Option (List Axis × NArr Line) := do
  let S ← combineAxes [X.axes, Y.axes]
  let (oi, ri) ← splitAxes S X.axes Y.axes ids
  let oaxes := oi.filterMap fun i => S[i]?
  let raxes := ri.filterMap fun i => S[i]?
  guard (ri ≠ [])                                                                         -- line 266
  let s ← pairSums nr junk limit X Y oaxes raxes S.length
  some (oaxes, s.map (regressCell fac))

/-- `correlate(X, Y, axes)`, stats.py:8-181 -/
def correlate (nr : List ℚ → ℚ) (junk : List ℕ → Option ℚ) (limit : ℕ) (X Y : Var (Option ℚ)) (ids : Option (List AxisId)) :
    Option (List Axis × NArr (Option (ℚ × ℚ × ℚ))) := do
  let S ← combineAxes [X.axes, Y.axes]
  let (oi, ri) ← splitAxes S X.axes Y.axes ids
  let oaxes := oi.filterMap fun i => S[i]?
  let raxes := ri.filterMap fun i => S[i]?
  let s ← pairSums nr junk limit X Y oaxes raxes S.length
  some (oaxes, s.map correlateCell)

/-! ### differences of means -/

/-- the sums of one variable for one output cell -/
structure Sums1 where
  x : ℚ
  xx : ℚ
  n : ℚ

/-- the sums over the axes `R` of one variable, stats.py:704-711, 713-719, 1072-1079 -/
def varSums (nr : List ℚ → ℚ) (limit : ℕ) (inaxes : List Axis) (R : List ℕ) (oaxes : List Axis)
    (rd : View Axis → Option (NArr (Option ℚ))) : Option (NArr Sums1) := do
  let acc := fun (f : Option ℚ → Option ℚ) => accumulate nanAdd none nr limit inaxes R (fun v => (rd v).map fun a => a.map f) (wholeView oaxes)
  let x ← acc id
  let xx ← acc fun o => o.map fun t => t ^ 2
  let n ← acc notNan
  some { shape := (wholeView oaxes).shape, get := fun k => ⟨(x.get k).getD 0, (xx.get k).getD 0, (n.get k).getD 0⟩ }

/-- `N // fac` -/
def effective (n : ℚ) : Option ℚ → ℚ
  | none => n
  | some f => ⌊n / f⌋

/-- the difference, its degrees of freedom and the square of its standard error (`den`) -/
structure Diff where
  d : ℚ
  df : Option ℚ
  se2 : Option ℚ

/-- stats.py:721-779 for one cell -/
def differenceCell (fx fy : Option ℚ) (s t : Sums1) : Diff :=
  let imsk : Bool := decide (1 < s.n) && decide (1 < t.n)
  let xx := if imsk then (s.xx - s.x * s.x / s.n) / (s.n - 1) else s.xx
  let x := if imsk then s.x / s.n else s.x
  let yy := if imsk then (t.xx - t.x * t.x / t.n) / (t.n - 1) else t.xx
  let y := if imsk then t.x / t.n else t.x
  let xx := if xx ≤ 0 then 0 else xx
  let yy := if yy ≤ 0 then 0 else yy
  let eNx := effective s.n fx
  let eNy := effective t.n fy
  let emsk : Bool := decide (1 < eNx) && decide (1 < eNy)
  let xx := if emsk then xx / eNx else xx
  let yy := if emsk then yy / eNy else yy
  let den := if emsk then xx ^ 2 / (eNx - 1) + yy ^ 2 / (eNy - 1) else 0
  let dmsk : Bool := decide (0 < den)
  let df := if dmsk then (xx + yy) ^ 2 / den else 0
  let den := if emsk then xx + yy else den
  let dmsk := dmsk && decide (0 < den)
  ⟨x - y, if dmsk then some df else none, if dmsk then some den else none⟩

/-- `whichaxis` if `hasaxis`, var.py:559-580: only a KeyError means that the axis is missing -/
def present (axes : List Axis) (a : AxisId) : Option (Option ℕ) :=
  match whichaxis axes a with
  | .at i => some (some i)
  | .keyError => some none
  | .typeError => none

/-- `[X.whichaxis(n) for n in axes if X.hasaxis(n)]`, stats.py:681-682, 892-896 -/
def whichPresent (axes : List Axis) (ids : List AxisId) : Option (List ℕ) :=
  (ids.mapM (present axes)).map fun l : List (Option ℕ) => l.filterMap id

/-- `difference(X, Y, axes, Nx_fac, Ny_fac)`, stats.py:596-809. The default `axes=None` raises (line 684 iterates over it). -/
def difference (nr : List ℚ → ℚ) (junk : List ℕ → Option ℚ) (limit : ℕ) (X Y : Var (Option ℚ)) (ids : Option (List AxisId))
    (fx fy : Option ℚ) : Option (List Axis × NArr Diff) := do
  let S ← combineAxes [X.axes, Y.axes]
  let (_, ri) ← splitAxes S X.axes Y.axes ids
  let oaxes := (keptAxes S.length ri).filterMap fun i => S[i]?                            -- line 678
  let ids ← ids
  let ix ← whichPresent X.axes ids                                                         -- lines 681-682
  let iy ← whichPresent Y.axes ids
  guard (1 < count (X.axes.map Axis.len) ix ∧ 1 < count (Y.axes.map Axis.len) iy)         -- lines 684-687
  let s ← varSums nr limit X.axes ix oaxes (X.read nr junk)
  let t ← varSums nr limit Y.axes iy oaxes (Y.read nr junk)
  some (oaxes, zip2 (differenceCell fx fy) s t)

/-- stats.py:930-959 for one cell; where `se2` is NaN the code reports a p-value of 0 and an interval of width 0 -/
def pairedCell (fac : Option ℚ) (s : Sums1) : Diff :=
  let imsk : Bool := decide (1 < s.n)
  let dd := if imsk then (s.xx - s.x * s.x / s.n) / (s.n - 1) else s.xx
  let d := if imsk then s.x / s.n else s.x
  let dd := if dd ≤ 0 then 0 else dd
  let eN := effective s.n fac
  let emsk : Bool := decide (1 < eN)
  let den := if emsk then dd / (eN - 1) else 0
  ⟨d, some (eN - 1), if 0 < den then some den else none⟩

/-- `paired_difference(X, Y, axes, N_fac)`, stats.py:811-985 -/
def pairedDifference (nr : List ℚ → ℚ) (junk : List ℕ → Option ℚ) (limit : ℕ) (X Y : Var (Option ℚ)) (ids : Option (List AxisId))
    (fac : Option ℚ) : Option (List Axis × NArr Diff) := do
  let S ← combineAxes [X.axes, Y.axes]
  let (_, ri) ← splitAxes S X.axes Y.axes ids
  let oaxes := (keptAxes S.length ri).filterMap fun i => S[i]?
  let ids ← ids
  let ix ← whichPresent X.axes ids
  let iy ← whichPresent Y.axes ids
  guard (ix = iy ∧ count (X.axes.map Axis.len) ix = count (Y.axes.map Axis.len) iy ∧ 1 < count (X.axes.map Axis.len) ix)
  let s ← varSums nr limit S ix oaxes fun v =>
    (X.read nr junk v).bind fun x => (Y.read nr junk v).map fun y => bcast (fun a b => a.bind fun p => b.map fun q => p - q) x y
  some (oaxes, s.map (pairedCell fac))

/-- stats.py:1081-1108 for one cell: the mean, and the square of its standard error; where that is NaN or 0 ... -/
def isnonzeroCell (fac : Option ℚ) (s : Sums1) : Diff :=
  let imsk : Bool := decide (0 < s.n)
  let m := if imsk then s.x / s.n else s.x
  let eN := effective s.n fac
  let sd : Option ℚ := if imsk then (if s.n = 1 ∨ eN = 0 then none else some ((s.xx - s.x ^ 2 / s.n) / (s.n - 1) / eN)) else some 0
  ⟨m, some (eN - 1), sd⟩

/-- `isnonzero(X, axes, N_fac)`, stats.py:987-1129 -/
def isnonzero (nr : List ℚ → ℚ) (junk : List ℕ → Option ℚ) (limit : ℕ) (X : Var (Option ℚ)) (ids : List AxisId)
    (fac : Option ℚ) : Option (List Axis × NArr Diff) := do
  let ri ← whichAll X.axes ids
  let oaxes := (keptAxes X.axes.length ri).filterMap fun i => X.axes[i]?
  guard (1 < count (X.axes.map Axis.len) ri)
  let s ← varSums nr limit X.axes ri oaxes (X.read nr junk)
  some (oaxes, s.map (isnonzeroCell fac))

end Stats
end PyGeode
