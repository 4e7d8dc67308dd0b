/-
Model of the operations along one axis: differences (/repo/pygeode/diff.py), derivatives (/repo/pygeode/deriv.py) and
running integrals (/repo/pygeode/intgr.py). Arithmetic is exact (the source uses float64); `none` is NaN or infinity.
-/
import Verif.Model.VarOps
import Verif.Model.Concat
import Mathlib.Algebra.Group.Basic
import Mathlib.Algebra.BigOperators.Group.List.Basic

namespace PyGeode
namespace Along
open NArr Combine VarOps
variable {α : Type}

/-! ### diff -/

/-- `np.diff(a, axis=d)` -/
def diff1 [Sub α] (a : NArr α) (d : ℕ) : NArr α :=
  { shape := a.shape.set d (a.shape.getD d 0 - 1)
    get := fun k => a.get (k.set d (k.getD d 0 + 1)) - a.get k }

/-- `np.diff(a, axis=d, n=n)` -/
def npDiff [Sub α] (a : NArr α) (d : ℕ) : ℕ → NArr α
  | 0 => a
  | n + 1 => diff1 (npDiff a d n) d

/-- `reduce(np.union1d, [left+i for i in range(n+1)])`, diff.py:53 -/
def allPoints (left : List ℕ) (n : ℕ) : List ℕ := uniq ((List.range (n + 1)).flatMap fun i => left.map fun p => p + i)

/-- `ForwardDifferenceVar.getview`, diff.py:41-74; `ax` is the difference axis of the variable -/
def diffView [Sub α] (nr : List ℚ → ℚ) (junk : List ℕ → α) (x : Var α) (d : ℕ) (ax : Axis) (n : ℕ) (v : View Axis) :
    Option (NArr α) :=
  let left := v.inds.getD d []                                                          -- line 49
  let all := allPoints left n                                                           -- line 52
  (x.read nr junk (Concat.replaceAxis v d ax all)).map fun allvalues =>                 -- lines 55-58
    (npDiff allvalues d n).takeAxis d (left.map (searchsorted all))                     -- lines 61-71

/-- the positions of `axis.slice[:-n]`, diff.py:36 -/
def leadPositions (len n : ℕ) : List ℕ :=
  ((expand (.slice ⟨none, some (-(n : ℤ)), none⟩) len).getD []).map Int.toNat

/-- `diff(var, axis, n)`, diff.py:9-39 and 104; `none` is an exception (no such axis, axis too short) -/
def diff [Sub α] (nr : List ℚ → ℚ) (junk : List ℕ → α) (x : Var α) (id : AxisId) (n : ℕ) : Option (Var α) := do
  let d ← foundAt (whichaxis x.axes id)                                                 -- line 19
  let ax ← x.axes[d]?
  if n < ax.len then                                                                    -- line 20
    some (Var.ofView junk (x.axes.set d (Axis.sliceAxis nr ax (leadPositions ax.len n))) (diffView nr junk x d ax n))
  else none

/-! ### derivatives -/

inductive Df where
  | centre | left | right
  deriving DecidableEq

/-- the two points used at `i`, deriv.py:53-72: the neighbours, moved inside the axis (of length `N`) at its ends -/
def neighbours (df : Df) (N : ℕ) (i : ℕ) : ℤ × ℤ :=
  let p : ℤ × ℤ := match df with
    | .centre => ((i : ℤ) - 1, (i : ℤ) + 1)
    | .left => ((i : ℤ) - 1, (i : ℤ))
    | .right => ((i : ℤ), (i : ℤ) + 1)
  let p := if p.1 = -1 then (0, 1) else p                                               -- lines 68-69
  if p.2 = (N : ℤ) then ((N : ℤ) - 2, (N : ℤ) - 1) else p                               -- lines 70-71

/-- `(R-L)/(Ra-La)`, deriv.py:96, cast to the type of the variable (line 97): `cast` is the identity for floats. The
coordinate is finite; NaN in the data gives NaN; division by zero gives infinity or NaN. -/
def slope (cast : ℚ → ℚ) : Option ℚ → Option ℚ → ℚ → ℚ → Option ℚ
  | some r, some l, ra, la => if ra - la = 0 then none else some (cast ((r - l) / (ra - la)))
  | _, _, _, _ => none

/-- `DerivativeVar.getview`, deriv.py:44-99. `dx` may lack axes of the variable (numpy then repeats it). -/
def derivView (cast : ℚ → ℚ) (nr : List ℚ → ℚ) (junk : List ℕ → Option ℚ) (junk' : List ℕ → ℚ) (x : Var (Option ℚ)) (dx : Var ℚ)
    (d N : ℕ) (df : Df) (v : View Axis) : Option (NArr (Option ℚ)) := do
  let ind := v.inds.getD d []                                                           -- line 52
  let left := ind.map fun i => (neighbours df N i).1.toNat
  let right := ind.map fun i => (neighbours df N i).2.toNat
  let all := uniq (left ++ right)                                                       -- line 74
  let allview : View Axis := { axes := v.axes, inds := v.inds.set d all }               -- line 76
  let values ← x.read nr junk allview                                                   -- line 79
  let axis ← dx.read nr junk' allview                                                   -- line 80
  let getl := left.map (searchsorted all)
  let getr := right.map (searchsorted all)
  let L := values.takeAxis d getl
  let R := values.takeAxis d getr
  let La := axis.takeAxis d getl
  let Ra := axis.takeAxis d getr
  some { shape := R.shape
         get := fun k => slope cast (R.get k) (L.get k) (Ra.get (bindex Ra.shape k)) (La.get (bindex La.shape k)) }

/-- An axis used as a variable: it holds its own values (axis.py: `Axis` is a subclass of `Var`). -/
def axisVar (a : Axis) : Var ℚ := { axes := [a], src := .values ⟨[a.len], fun k => a.values.getD (k.getD 0 0) 0⟩ }

/-- the coordinate: the axis itself by default (deriv.py:27, intgr.py:43); a one dimensional `dx` is put on the axis
(deriv.py:18-20, intgr.py:35-37); any other must have the axis and no axes beyond those of the variable (deriv.py:21-25,
intgr.py:38-41). `none`: an assertion fails. -/
def coordinate (nr : List ℚ → ℚ) (junk : List ℕ → ℚ) (axes : List Axis) (ax : Axis) : Option (Var ℚ) → Option (Var ℚ)
  | none => some (axisVar ax)
  | some dx =>
    if dx.axes.length = 1 then replaceAxes nr junk dx [ax]
    else if elem ax dx.axes && dx.axes.all (fun a => elem a axes) then some dx
    else none

/-- `deriv(var, axis, dx, df)`, deriv.py:8-42 and 250 -/
def deriv (cast : ℚ → ℚ) (nr : List ℚ → ℚ) (junk : List ℕ → Option ℚ) (junk' : List ℕ → ℚ) (x : Var (Option ℚ)) (id : AxisId)
    (dx : Option (Var ℚ)) (df : Df) : Option (Var (Option ℚ)) := do
  let d ← foundAt (whichaxis x.axes id)                                                 -- line 16
  let ax ← x.axes[d]?
  let dx ← coordinate nr junk' x.axes ax dx
  if 1 < ax.len then                                                                    -- line 17
    some (Var.ofView junk x.axes (derivView cast nr junk junk' x dx d ax.len df))
  else none

/-- the three points used at `i` by the second derivative, deriv.py:147-156 -/
def stencil3 (N : ℕ) (i : ℕ) : ℤ × ℤ × ℤ :=
  (if (i : ℤ) - 1 = -1 then 2 else (i : ℤ) - 1, (i : ℤ), if (i : ℤ) + 1 = (N : ℤ) then (N : ℤ) - 3 else (i : ℤ) + 1)

/-- `dL * L + dC * C + dR * R`, deriv.py:184-188 -/
def curvature (cast : ℚ → ℚ) : Option ℚ → Option ℚ → Option ℚ → ℚ → ℚ → ℚ → Option ℚ
  | some l, some c, some r, la, ca, ra =>
    if (ra - ca) * (ca - la) * (ra - la) = 0 then none
    else
      let den := 2 / ((ra - ca) * (ca - la) * (ra - la))
      some (cast ((ra - ca) * den * l + (la - ra) * den * c + (ca - la) * den * r))
  | _, _, _, _, _, _ => none

/-- `SecondDerivativeVar.getview`, deriv.py:138-189. (A negative position wraps around in numpy; this only happens on
axes of two points, which no theorem about values includes.) -/
def deriv2View (cast : ℚ → ℚ) (nr : List ℚ → ℚ) (junk : List ℕ → Option ℚ) (junk' : List ℕ → ℚ) (x : Var (Option ℚ)) (dx : Var ℚ)
    (d N : ℕ) (v : View Axis) : Option (NArr (Option ℚ)) := do
  let ind := v.inds.getD d []
  let left := ind.map fun i => (stencil3 N i).1.toNat
  let centre := ind.map fun i => (stencil3 N i).2.1.toNat
  let right := ind.map fun i => (stencil3 N i).2.2.toNat
  let all := uniq (left ++ uniq (centre ++ right))                                      -- line 163
  let allview : View Axis := { axes := v.axes, inds := v.inds.set d all }
  let values ← x.read nr junk allview
  let axis ← dx.read nr junk' allview
  let take (p : List ℕ) := values.takeAxis d (p.map (searchsorted all))
  let takeA (p : List ℕ) (k : List ℕ) :=
    let a := axis.takeAxis d (p.map (searchsorted all))
    a.get (bindex a.shape k)
  some { shape := (take right).shape
         get := fun k => curvature cast ((take left).get k) ((take centre).get k) ((take right).get k)
           (takeA left k) (takeA centre k) (takeA right k) }

/-- `deriv(var, axis, dx, df='2')`, deriv.py:105-136 and 248 -/
def deriv2 (cast : ℚ → ℚ) (nr : List ℚ → ℚ) (junk : List ℕ → Option ℚ) (junk' : List ℕ → ℚ) (x : Var (Option ℚ)) (id : AxisId)
    (dx : Option (Var ℚ)) : Option (Var (Option ℚ)) := do
  let d ← foundAt (whichaxis x.axes id)
  let ax ← x.axes[d]?
  let dx ← coordinate nr junk' x.axes ax dx
  if 1 < ax.len then
    some (Var.ofView junk x.axes (deriv2View cast nr junk junk' x dx d ax.len))
  else none

/-! ### integrals -/

inductive Rule where
  | trapz | rectl | rectr | cumsum
  deriving DecidableEq

/-- `np.add.accumulate(a, d)` -/
def accumulate (a : NArr ℚ) (d : ℕ) : NArr ℚ :=
  { shape := a.shape, get := fun k => ((List.range (k.getD d 0 + 1)).map fun p => a.get (k.set d p)).sum }

/-- `a[slr]` with `slr = [::order]` on axis `d`, intgr.py:90 (`order` is 1 or -1; `rev`: -1) -/
def flip (rev : Bool) (a : NArr ℚ) (d : ℕ) : NArr ℚ :=
  if rev then { shape := a.shape, get := fun k => a.get (k.set d (a.shape.getD d 0 - 1 - k.getD d 0)) } else a

/-- the increments, intgr.py:81-103. `c` is the coordinate (`inview.get(self.dx)`), read with numpy's broadcasting -/
def increments (rule : Rule) (data c : NArr ℚ) (d : ℕ) : NArr ℚ :=
  let at1 (a : NArr ℚ) (k : List ℕ) := a.get (bindex a.shape (k.set d (k.getD d 0 + 1)))
  let at0 (a : NArr ℚ) (k : List ℕ) := a.get (bindex a.shape k)
  { shape := data.shape.set d (data.shape.getD d 0 - 1)
    get := fun k => match rule with
      | .trapz => 1 / 2 * (at1 c k - at0 c k) * (at0 data k + at1 data k)
      | .rectl => (at1 c k - at0 c k) * at0 data k
      | .rectr => (at1 c k - at0 c k) * at1 data k
      | .cumsum => at1 data k }

/-- where the constant of integration comes from, intgr.py:23-32, 73-79 -/
inductive Start where
  | number (v : ℚ)
  | var (x : Var ℚ)

/-- `d0`, intgr.py:73-79 -/
def startArr (nr : List ℚ → ℚ) (junk : List ℕ → ℚ) (v : View Axis) (d : ℕ) : Start → Option (NArr ℚ)
  | .number c => some { shape := v.shape.set d 1, get := fun _ => c }
  | .var x => (x.read nr junk v).map fun r => { shape := v.shape.set d 1, get := fun k => r.get (bindex r.shape k) }

/-- `IntegrateVar.getview`, intgr.py:61-113 -/
def integrateView (nr : List ℚ → ℚ) (junk : List ℕ → ℚ) (x dx : Var ℚ) (v0 : Start) (rev : Bool) (rule : Rule) (d N : ℕ)
    (v : View Axis) : Option (NArr ℚ) := do
  let inview : View Axis := { axes := v.axes, inds := v.inds.set d (List.range N) }     -- line 66
  let data ← x.read nr junk inview                                                      -- line 67
  let d0 ← startArr nr junk v d v0
  let c ← dx.read nr junk inview                                                        -- line 79
  let dat ← Concat.concatenate junk d [d0, flip rev (increments rule data c d) d]
  some ((flip rev (accumulate dat d) d).takeAxis d (v.inds.getD d []))                  -- lines 106-113

/-- the constant of integration, intgr.py:23-32: zero by default; a variable must not have the axis integrated along, nor
axes beyond those of the integrand. `none`: ValueError. -/
def startOf (axes : List Axis) (ax : Axis) : Option Start → Option Start
  | none => some (.number 0)
  | some (.number c) => some (.number c)
  | some (.var z) => if elem ax z.axes || !z.axes.all (fun a => elem a axes) then none else some (.var z)

/-- `integrate(var, axis, dx, v0, order, type)`, intgr.py:10-59 -/
def integrate (nr : List ℚ → ℚ) (junk : List ℕ → ℚ) (x : Var ℚ) (id : AxisId) (dx : Option (Var ℚ)) (v0 : Option Start)
    (rev : Bool) (rule : Rule) : Option (Var ℚ) := do
  let d ← foundAt (whichaxis x.axes id)
  let ax ← x.axes[d]?
  let v0 ← startOf x.axes ax v0
  let dx ← coordinate nr junk x.axes ax dx
  if 2 ≤ ax.len then                                                                    -- line 17
    some (Var.ofView junk x.axes (integrateView nr junk x dx v0 rev rule d ax.len))
  else none

end Along
end PyGeode
