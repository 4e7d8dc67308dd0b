/-
Model of interpolation: /repo/pygeode/interp.c:31-162 (`interpgsl`) and /repo/pygeode/interp.py. Exact arithmetic; `none` is
a double that is not finite (NaN or infinite). The interpolation methods of the GNU Scientific Library are a parameter
(`Method`); `linear` describes one of them. The allocation failures are left out.
-/
import Verif.Model.VarOps
import Verif.Model.Along
import Verif.Model.Concat

namespace PyGeode
namespace Interp
open NArr Combine VarOps

/-- a `gsl_interp_type`: the least number of points, and `gsl_interp_eval_e` for points with strictly increasing
coordinates -/
structure Method where
  minSize : ℕ
  eval : List (ℚ × ℚ) → ℚ → Option ℚ

/-- `gsl_interp_linear`: on the interval `[x_i, x_{i+1})` that holds `x` (the last interval also holds its end) -/
def linearEval : List (ℚ × ℚ) → ℚ → Option ℚ
  | p :: q :: l, x =>
    if l = [] ∨ x < q.1 then some (p.2 + (x - p.1) / (q.1 - p.1) * (q.2 - p.2)) else linearEval (q :: l) x
  | _, _ => none

def linear : Method := ⟨2, linearEval⟩

/-- the first finite difference of neighbouring coordinates, interp.c:42-50. The loop also looks at `xin[nxin]`, one
position too far (the first coordinate of the next array, or memory after the array). `none`: there is none. -/
def firstStep (nxin : ℕ) (xin : ℕ → Option ℚ) : Option ℚ :=
  if 1 < nxin then
    (List.range nxin).findSome? fun i : ℕ => (xin (i + 1)).bind fun b => (xin i).map fun a => b - a
  else some 1

/-- interp.c:80-90: the points that are finite, in the order they are met; with `skip`, those that step back are left out -/
def collect (skip : Bool) : List (Option ℚ × Option ℚ) → List (ℚ × ℚ) → List (ℚ × ℚ)
  | [], acc => acc
  | (some x, some y) :: l, acc =>
    if skip && acc.getLast?.any (fun p => decide (x < p.1)) then collect skip l acc else collect skip l (acc ++ [(x, y)])
  | _ :: l, acc => collect skip l acc

/-- one output value, interp.c:118-130; `none` as `x` is NaN -/
def evalAt (M : Method) (below above : Option ℚ) (pts : List (ℚ × ℚ)) : Option ℚ → Option ℚ
  | none => none
  | some x =>
    let xmin := (pts.headD (0, 0)).1
    let xmax := (pts.getLastD (0, 0)).1
    if x < xmin then (M.eval pts xmin).bind fun y => below.map fun s => y + s * (x - xmin)
    else if x > xmax then (M.eval pts xmax).bind fun y => above.map fun s => y + s * (x - xmax)
    else M.eval pts x

/-- one array, interp.c:80-130; `none`: `gsl_interp_init` fails, the coordinates do not increase strictly -/
def rowOut (M : Method) (skip : Bool) (below above : Option ℚ) (points : List (Option ℚ × Option ℚ)) (xout : List (Option ℚ)) :
    Option (List (Option ℚ)) :=
  let pts := collect skip points []
  if pts.length < M.minSize then some (xout.map fun _ => none)                            -- lines 102-111
  else if pts.IsChain (fun p q => p.1 < q.1) then some (xout.map (evalAt M below above pts))
  else none

/-- the pointers of the loop, and the output written so far -/
structure St where
  xin : ℕ
  yin : ℕ
  xout : ℕ
  yout : List (Option ℚ)

/-- the body of the loop over the arrays, interp.c:78-138 -/
def body (M : Method) (skip : Bool) (below above : Option ℚ) (nxin nxout : ℕ) (xin yin xout : ℕ → Option ℚ)
    (loopIn loopOut rev : Bool) (st : St) : Option St :=
  let idx := if rev then (List.range nxin).reverse else List.range nxin                   -- lines 54-62
  let points := idx.map fun i : ℕ => (xin (st.xin + i), yin (st.yin + i))
  (rowOut M skip below above points ((List.range nxout).map fun j : ℕ => xout (st.xout + j))).map fun row =>
    { xin := if loopIn then st.xin + nxin else st.xin                                     -- line 135
      xout := if loopOut then st.xout + nxout else st.xout + nxout - nxout                -- lines 121, 136
      yin := st.yin + nxin                                                                -- line 137
      yout := st.yout ++ row }

/-- `interpgsl`, interp.c:31-162: the output array; `none`: an error -/
def interpgsl (M : Method) (skip : Bool) (below above : Option ℚ) (narrays nxin nxout : ℕ) (xin yin xout : ℕ → Option ℚ)
    (loopIn loopOut : Bool) : Option (List (Option ℚ)) :=
  (firstStep nxin xin).bind fun dx =>                                                     -- line 52
    if dx = 0 then none
    else ((List.range narrays).foldlM (fun st _ => body M skip below above nxin nxout xin yin xout loopIn loopOut (decide (dx < 0)) st)
      ⟨0, 0, 0, []⟩).map St.yout

/-! ### the variable -/

/-- a contiguous array as a flat buffer -/
def flat {α : Type} (a : NArr α) (j : ℕ) : α := a.get (unravel a.shape j)

/-- `np.repeat` along all axes of length one, interp.py:121-123 and 131-133 -/
def repeatTo {α : Type} (a : NArr α) (shape : List ℕ) : NArr α := { shape := shape, get := fun k => a.get (bindex a.shape k) }

/-- `Interp.getview`, interp.py:94-167; `x` has the interpolation axis last -/
def interpView (M : Method) (skip : Bool) (below above : Option ℚ) (nr : List ℚ → ℚ) (junk : List ℕ → Option ℚ)
    (junk' : List ℕ → ℚ) (x : Var (Option ℚ)) (inx outx : Var ℚ) (v : View Axis) : Option (NArr (Option ℚ)) := do
  let n := v.axes.length - 1
  let ax ← x.axes[n]?
  let inview := Concat.replaceAxis v n ax (List.range ax.len)                             -- line 107
  let indata ← x.read nr junk inview
  let inx_data ← inx.read nr junk' inview                                                 -- line 116
  let inx_data := if inx.axes.length = 1 then inx_data else repeatTo inx_data indata.shape
  let outx_data ← outx.read nr junk' v                                                    -- line 126
  let outx_data := if outx.axes.length = 1 then outx_data else repeatTo outx_data v.shape
  let out ← interpgsl M skip below above (indata.shape.prod / indata.shape.getD n 0) (inx_data.shape.getD n 0)
    (outx_data.shape.getD n 0) (fun j => some (flat inx_data j)) (flat indata) (fun j => some (flat outx_data j))
    (decide (inx.axes.length ≠ 1)) (decide (outx.axes.length ≠ 1))
  some { shape := v.shape, get := fun k => out.getD (ravel v.shape k) none }

/-- `Interp.__init__`, interp.py:38-92: the variable with the interpolation axis last, and the interpolated variable; `none`:
an exception -/
def interp (M : Method) (skip : Bool) (below above : Option ℚ) (nr : List ℚ → ℚ) (junk : List ℕ → Option ℚ)
    (junk' : List ℕ → ℚ) (x : Var (Option ℚ)) (id : AxisId) (outaxis : Axis) (inx outx : Option (Var ℚ)) :
    Option (Var (Option ℚ)) := do
  let d ← foundAt (whichaxis x.axes id)
  let ax ← x.axes[d]?
  let inx := inx.getD (Along.axisVar ax)                                                  -- lines 48-49
  let outx := outx.getD (Along.axisVar outaxis)
  let order := (List.range d ++ List.range' (d + 1) (x.axes.length - (d + 1))) ++ [d]     -- line 60
  let y ← transpose nr junk x (order.map fun i : ℕ => AxisId.int i)
  if inx.axes.all (fun a => elem a y.axes) && outx.axes.all (fun a => decide (a = outaxis) || elem a y.axes)
      && elem ax inx.axes && elem outaxis outx.axes then                                  -- lines 70-81
    some (Var.ofView junk (y.axes.set (y.axes.length - 1) outaxis) (interpView M skip below above nr junk junk' y inx outx))
  else none

/-- `interpolate`, interp.py:171-267 -/
def interpolate (M : Method) (skip : Bool) (below above : Option ℚ) (nr : List ℚ → ℚ) (junk : List ℕ → Option ℚ)
    (junk' : List ℕ → ℚ) (x : Var (Option ℚ)) (id : AxisId) (outaxis : Axis) (inx outx : Option (Var ℚ)) (transposeFlag : Bool) :
    Option (Var (Option ℚ)) := do
  let out ← interp M skip below above nr junk junk' x id outaxis inx outx
  let d ← foundAt (whichaxis x.axes id)
  let ids := (x.axes.map fun a => AxisId.cls (a.classes.headD [])).set d (.cls (outaxis.classes.headD []))
  if transposeFlag then some out else transpose nr junk out ids                           -- lines 262-265

end Interp
end PyGeode
