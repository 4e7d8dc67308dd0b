/-
Model of /repo/pygeode/concat.py: joining variables along an axis, and of `Axis.concat`, /repo/pygeode/axis.py:603-640.
-/
import Verif.Model.VarOps

namespace PyGeode
namespace Concat
variable {α : Type}

/-- `Axis.concat(axes)`, axis.py:603-640, for axes of one class (`cls` is then that class, axis.py:1322-1334; one axis
is returned as it is): values and common auxiliary arrays are joined, equal auxiliary attributes kept. -/
def concatAxis (nr : List ℚ → ℚ) : List Axis → Option Axis
  | [] => none
  | [a] => some a
  | a :: as =>
    let vals := (a :: as).flatMap Axis.values
    some { a with
      values := vals
      rtol := nr vals
      auxatts := a.auxatts.filter fun p => as.all fun b => decide (b.auxatts.lookup p.1 = some p.2)
      auxarrays := (a.auxarrays.filter fun p => as.all fun b => (b.auxarrays.lookup p.1).isSome).map fun p =>
        (p.1, p.2 ++ as.flatMap fun b => (b.auxarrays.lookup p.1).getD []) }

/-- what `iaxis=None` finds, concat.py:26-56 -/
inductive Where where
  | axis (i : ℕ)
  | newAxis
  | error
  deriving DecidableEq

/-- `is_equivalent(axes[i], v.axes[i])`, concat.py:29 -/
def agrees (A : List Axis) (i : ℕ) (B : List Axis) : Bool :=
  match A[i]?, B[i]? with
  | some a, some b => Axis.axEq a b
  | _, _ => false

/-- one axis is shared by all (`all(axmatch)`), by none (`not any`), or by some, concat.py:28-38. -/
def varies (vars : List (List Axis)) (i : ℕ) : Option Bool :=
  match vars with
  | [] => some false
  | A :: rest =>
    let axmatch := rest.map (agrees A i)
    if axmatch.all id then some false else if !axmatch.any id then some true else none

/-- the axis to join along, concat.py:26-56 -/
def findAxis (vars : List (List Axis)) : Where :=
  let n := (vars.headD []).length
  let flags := (List.range n).map (varies vars)
  if none ∈ flags then .error
  else match (List.range n).filter fun i => varies vars i = some true with
    | [] => .newAxis
    | [i] => .axis i
    | _ => .error

/-- the contents of `np.concatenate(chunks, axis=j)` -/
def joinGet (d : List ℕ → α) (j : ℕ) : List (NArr α) → List ℕ → α
  | [], k => d k
  | a :: as, k =>
    if k.getD j 0 < a.shape.getD j 0 then a.get k else joinGet d j as (k.set j (k.getD j 0 - a.shape.getD j 0))

/-- `np.concatenate(chunks, axis=j)`: `none` (ValueError) without arrays or when other lengths differ -/
def concatenate (d : List ℕ → α) (j : ℕ) : List (NArr α) → Option (NArr α)
  | [] => none
  | a :: as =>
    if as.all fun b => decide (b.shape.set j 0 = a.shape.set j 0) then
      some { shape := a.shape.set j ((a :: as).map fun b => b.shape.getD j 0).sum, get := joinGet d j (a :: as) }
    else none

/-- `view.replace_axis(j, ax, sl)`, view.py:345-353 -/
def replaceAxis (v : View Axis) (j : ℕ) (ax : Axis) (sl : List ℕ) : View Axis :=
  { axes := v.axes.set j ax, inds := v.inds.set j sl }

/-- `ConcatVar.getview` along an existing axis, concat.py:84-100 -/
def concatView (nr : List ℚ → ℚ) (junk : List ℕ → α) (j : ℕ) (pieces : List (Var α)) (v : View Axis) : Option (NArr α) := do
  let outAx ← (v.axes[j]?).map fun a => Axis.sliceAxis nr a (v.inds.getD j [])
  let slices ← pieces.mapM fun x => (x.axes[j]?).bind fun ax => Axis.axisMapTo ax outAx
  let chunks ← ((pieces.zip slices).filter fun p => p.2 ≠ []).mapM fun p =>
    (p.1.axes[j]?).bind fun ax => VarOps.getRaw true nr junk p.1 (replaceAxis v j ax p.2)
  concatenate junk j chunks

/-- `concat(*vars, iaxis=j)`, concat.py:9-100 -/
def concatVar (nr : List ℚ → ℚ) (junk : List ℕ → α) (j : ℕ) (pieces : List (Var α)) : Option (Var α) := do
  let first ← pieces.head?
  let axs ← pieces.mapM fun x => x.axes[j]?
  let ax ← concatAxis nr axs
  some (Var.ofView junk (first.axes.set j ax) (concatView nr junk j pieces))

/-- `np.expand_dims(a, i)` at the end -/
def expandLast (a : NArr α) : NArr α := { shape := a.shape ++ [1], get := fun k => a.get k.dropLast }

/-- `ConcatVar.getview` for a new axis, concat.py:74-82 -/
def stackView (nr : List ℚ → ℚ) (junk : List ℕ → α) (pieces : List (Var α)) (v : View Axis) : Option (NArr α) := do
  let n := v.axes.length - 1
  let chunks ← (v.inds.getD n []).mapM fun i => (pieces[i]?).bind fun x =>
    (x.read nr junk { axes := v.axes.take n, inds := v.inds.take n }).map expandLast
  concatenate junk n chunks

/-- `concat(*vars)` when all axes are identical, concat.py:47-51; `ax` is the new axis `concat`. -/
def stackVar (nr : List ℚ → ℚ) (junk : List ℕ → α) (ax : Axis) (pieces : List (Var α)) : Option (Var α) := do
  let first ← pieces.head?
  some (Var.ofView junk (first.axes ++ [ax]) (stackView nr junk pieces))

end Concat
end PyGeode
