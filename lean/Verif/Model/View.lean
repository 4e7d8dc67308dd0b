/-
Model of `View` of /repo/pygeode/view.py:90-545. A view is a list of axes and, for each, the
positions selected (`integer_indices`; the `slices` attribute is `simplify` of these and expands
back to them, theorem `expand_simplify`). Positions are non-negative. Axes are abstract objects;
`eqv` is axis equality (`==`), `mapAx out in inds` is `out.map_to(in.slice[inds])`.
-/
import Verif.Model.NArr
import Verif.Model.Index

namespace PyGeode

structure View (Ax : Type) where
  axes : List Ax
  inds : List (List ℕ)

namespace View
variable {Ax α : Type}

/-- `self.shape`, view.py:117 -/
def shape (v : View Ax) : List ℕ := v.inds.map List.length

/-- `self.size`, view.py:118-119 -/
def size (v : View Ax) : ℕ := v.shape.prod

/-! ### loop_mem -/

/-- `[input_indices[j:min(j+n,N)] for j in range(0,N,n)]`, view.py:508 (`n > 0`). -/
def chunks (l : List ℕ) (n : ℕ) : List (List ℕ) :=
  (List.range ((l.length + n - 1) / n)).map fun i : ℕ => (l.drop (i * n)).take n

/-- the preserved axes, view.py:488-496: state `(maxsize, indices)` -/
def preserveStep (inds : List (List ℕ)) (st : ℕ × List (List (List ℕ))) (i : ℕ) :
    ℕ × List (List (List ℕ)) :=
  let N := (inds.getD i []).length
  (if st.1 < N then 1 else st.1 / N, st.2.set i [inds.getD i []])

/-- the other axes, view.py:502-510 -/
def otherStep (inds : List (List ℕ)) (st : ℕ × List (List (List ℕ))) (i : ℕ) :
    ℕ × List (List (List ℕ)) :=
  let N := (inds.getD i []).length
  let n := min st.1 N
  (st.1 / n, st.2.set i (chunks (inds.getD i []) n))

/-- the chunk lists of `loop_mem` per axis, view.py:483-510; `maxsize` is `MAX_ARRAY_SIZE` -/
def memIndices (v : View Ax) (maxsize : ℕ) (preserve : List ℕ) : List (List (List ℕ)) :=
  let st := preserve.foldl (preserveStep v.inds) (maxsize, v.inds.map fun _ => [])
  let others := (List.range v.inds.length).filter (fun i => i ∉ preserve)
  (others.reverse.foldl (otherStep v.inds) st).2

/-- `View.loop_mem(preserve)`, view.py:469-515 (`preserve=None` is the empty list). -/
def loopMem (v : View Ax) (maxsize : ℕ) (preserve : List ℕ) : List (View Ax) :=
  (product (v.memIndices maxsize preserve)).map fun ind => { axes := v.axes, inds := ind }

/-! ### loop_contiguous -/

/-- `inslices` of one axis, view.py:430, as `(start, count)` (lines 432-433): each run of the
index list starts at its first index and has its length. -/
def runOf (ind : List ℕ) (s : ℕ × ℕ) : ℕ × ℕ :=
  let sl := simplify (((ind.drop s.1).take (s.2 - s.1)).map (fun i : ℕ => (i : ℤ)))
  match sl with
  | .slice p => ((p.start.getD 0).toNat, (p.stop.getD 0 - p.start.getD 0).toNat)
  | .list l => ((l.headD 0).toNat, 1)
  | .int i => (i.toNat, 1)

/-- `View.loop_contiguous`, view.py:414-434: `(outsl, start/count)` -/
def loopContiguous (v : View Ax) : List (List (ℕ × ℕ) × List (ℕ × ℕ)) :=
  let outslices := v.inds.map fun ind => contiguate (ind.map (fun i : ℕ => (i : ℤ)))
  let inslices := List.zipWith (fun ind outsl => outsl.map (runOf ind)) v.inds outslices
  (product outslices).zip (product inslices)

/-- filling the output from `getvalues(start, count)`, view.py:268-273 -/
def readContiguous (v : View Ax) (init : NArr α) (getvalues : List (ℕ × ℕ) → NArr α) : NArr α :=
  v.loopContiguous.foldl (fun values p => values.setBox p.1 (getvalues p.2)) init

/-! ### map_to and get -/

/-- first match of one axis of the variable among the axes of the view, view.py:143-158:
`(in_i, positions)` -/
def mapAxis (eqv : Ax → Ax → Bool) (mapAx : Ax → Ax → List ℕ → Option (List ℕ)) (v : View Ax)
    (out : Ax) : Option (ℕ × List ℕ) :=
  match v.axes.findIdx? (fun a => eqv out a) with
  | some i => some (i, v.inds.getD i [])
  | none =>
    (v.axes.zip v.inds).zipIdx.findSome? fun p => (mapAx out p.1.1 p.1.2).map fun l => (p.2, l)

/-- `View.map_to(axes, strict)`, view.py:128-172: for each axis of the variable the axis of the
view it comes from (`none`: not mapped, whole axis) and the positions. `none`: the strict
assertion fails. -/
def mapTo (eqv : Ax → Ax → Bool) (mapAx : Ax → Ax → List ℕ → Option (List ℕ)) (len : Ax → ℕ)
    (strict : Bool) (v : View Ax) (axes : List Ax) : Option (List (Option ℕ × List ℕ)) :=
  axes.mapM fun out =>
    match v.mapAxis eqv mapAx out with
    | some (i, l) => some (some i, l)
    | none => if strict then none else some (none, List.range (len out))

/-- `order`, view.py:141, 148, 156: for each axis of the view the axis of the variable mapped to
it (the last one written wins); `none` is -1. -/
def orderOf (n : ℕ) (m : List (Option ℕ × List ℕ)) : List (Option ℕ) :=
  (List.range n).map fun i =>
    ((List.range m.length).filter fun o => (m.getD o (none, [])).1 == some i).getLast?

/-- The three ways of reading a variable, view.py:248-276. -/
inductive Source (Ax α : Type)
  /-- an array in memory (`var.values`) -/
  | values (a : NArr α)
  /-- `var.getview(view)` -/
  | getview (f : View Ax → NArr α)
  /-- `var.getvalues(start, count)`; `init` is the content of `np.empty` -/
  | getvalues (init : List ℕ → α) (f : List (ℕ × ℕ) → NArr α)

/-- reading the positions of a view on the variable's own axes, view.py:248-276 -/
def read (src : Source Ax α) (v : View Ax) : NArr α :=
  match src with
  | .values a => v.inds.zipIdx.foldl (fun acc p => acc.takeAxis p.2 p.1) a
  | .getview f => f v
  | .getvalues init f => v.readContiguous { shape := v.shape, get := init } f

/-- unique elements only, then duplicate, view.py:235-245 and 291. `np.all(u == ind)` also holds
when `u` has length one (broadcasting). -/
def readUnique (src : Source Ax α) (v : View Ax) : NArr α :=
  if v.inds.all (fun ind => decide (uniq ind = ind) || decide ((uniq ind).length = 1)) then
    read src v
  else
    (read src { v with inds := v.inds.map uniq }).outer
      (v.inds.map fun ind => ind.map (searchsorted (uniq ind)))

/-- `View.get(var, strict=True, conform=True)`, view.py:197-315, for a variable with axes `axes`.
Lines 223-231: when a mapped axis is empty an uninitialised array (`junk`) is returned, whose shape
zips the lengths along the variable's axes with the order of the view's axes.
Lines 302-304: transpose to the order of the view, then insert axes of length 1. -/
def get (eqv : Ax → Ax → Bool) (mapAx : Ax → Ax → List ℕ → Option (List ℕ)) (len : Ax → ℕ)
    (junk : List ℕ → α) (v : View Ax) (axes : List Ax) (src : Source Ax α) : Option (NArr α) :=
  (v.mapTo eqv mapAx len true axes).map fun m =>
    let order := orderOf v.axes.length m
    if 0 ∈ m.map (fun p => p.2.length) then
      { shape := List.zipWith (fun (s : ℕ) (o : Option ℕ) => if o.isSome then s else 1)
          (m.map fun p => p.2.length) order
        get := junk }
    else
    let values := readUnique src { axes := axes, inds := m.map Prod.snd }
    let p := order.filterMap id
    (values.transpose p).reshape
      ((List.range v.axes.length).map fun i =>
        if (order.getD i none).isSome then (v.shape.getD i 0) else 1)

end View
end PyGeode
