/-
Model of selection by keywords as a whole: `Var.__call__`, /repo/pygeode/var.py:309-425, with `Var._getitem_asvar`
(var.py:250-262). The selection of positions along one axis is in Model/Axis, the mean in Model/Weights, squeezing in
Model/VarOps. Metadata are left out.
-/
import Verif.Model.Weights

namespace PyGeode
namespace Call
open NArr Axis Combine VarOps

/-- `self.hasaxis(name)`, var.py:559-580 -/
def hasAxis (axes : List Axis) (k : Name) : Bool := (foundAt (whichaxis axes (.name k))).isSome

/-- the variables of the loop of var.py:385-414 -/
structure State where
  means : List Name
  squeezes : List Name
  newargs : List (Name × Arg)

/-- one turn of the loop, var.py:391-414; `none` is an AssertionError -/
def step (has : Name → Bool) (ignore : Bool) (st : State) (p : Name × Arg) : Option State :=
  let ax := (splitKey has p.1).2
  let m := decide ('m' ∈ (splitKey has p.1).1)
  let s := decide ('s' ∈ (splitKey has p.1).1.filter (· ≠ 'm'))
  if m && !has ax then (if ignore then some st else none)                              -- lines 397-399
  else
    let means := if m then st.means ++ [ax] else st.means
    if s && !has ax then (if ignore then some { st with means := means } else none)    -- lines 403-405
    else
      let squeezes := if s && decide (ax ∉ means) then st.squeezes ++ [ax] else st.squeezes
      some ⟨means, squeezes, dictSet st.newargs (stripKey has p.1) p.2⟩                -- lines 408-414

/-- the loop, var.py:385-414 -/
def args (axes : List Axis) (ignore : Bool) (kw : List (Name × Arg)) : Option State :=
  kw.foldlM (step (hasAxis axes) ignore) ⟨[], [], []⟩

/-- the positions meant by the slices of the axes -/
def positionsOf (axes : List Axis) (slices : List Ind) : Option (List (List ℕ)) :=
  (axes.zip slices).mapM fun p => (expand p.2 p.1.len).map fun l => l.map Int.toNat

/-- `_getitem_asvar(slices)`, var.py:250-262: the variable itself when no axis changes -/
def getitem {α : Type} (nr : List ℚ → ℚ) (junk : List ℕ → α) (x : Var α) (S : List (List ℕ)) : Var α :=
  if (sliceVar nr junk x S).axes = x.axes then x else sliceVar nr junk x S

/-- `var(ignore_mismatch=ignore, **kw)`, var.py:309-425. `limit` is `MAX_ARRAY_SIZE`. -/
def call (nr : List ℚ → ℚ) (junk : List ℕ → ℚ) (limit : ℕ) (x : Var ℚ) (ignore : Bool) (kw : List (Name × Arg)) : Option (Var ℚ) :=
  (args x.axes ignore kw).bind fun st =>
  (varSlices x.axes st.newargs).bind fun sl =>
  if decide (sl.2 ≠ []) && !ignore then none                                           -- line 418
  else (positionsOf x.axes sl.1).bind fun S =>
    let ret := getitem nr junk x S
    (if 0 < st.means.length then Weights.mean nr junk limit ret (st.means.map .name) else some ret).bind fun ret =>
    if 0 < st.squeezes.length then squeeze nr junk ret (st.squeezes.map .name) else some ret

end Call
end PyGeode
