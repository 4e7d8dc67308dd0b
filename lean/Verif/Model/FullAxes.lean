/-
Model of `need_full_axes` of /repo/pygeode/tools.py:604-662: a `getview` that can only work on complete axes is given views that have them
complete, and what was asked for is cut out of what it returns. `f` is the wrapped `getview`, `limit` is `MAX_ARRAY_SIZE`. Left out: how the axes
are named (`full` are their positions), the progress bar, and two cases of numpy's indexing, see `choose` and `assign`.
-/
import Verif.Model.Loop

namespace PyGeode
namespace FullAxes
open NArr Reduce Loop

variable {α : Type}

/-- whether `simplify(l)` (view.py:43-64) is an array of positions, not a slice -/
def isArray (l : List ℕ) : Bool := match simplify (l.map fun i : ℕ => (i : ℤ)) with
  | .list _ => true
  | _ => false

/-- the positions that an index of this kind selects of `n`: an array must be in range, a slice stops at the end -/
def pick (n : ℕ) (l : List ℕ) : Option (List ℕ) :=
  if isArray l then (if l.all (· < n) then some l else none) else some (l.filter (· < n))

/-- the positions selected by a tuple of indices, of an array of this shape; `none` in the list is `slice(None)`. Two arrays of positions are
matched with one another by numpy, which is never what is meant here: `none` -/
def choose (shape : List ℕ) (ls : List (Option (List ℕ))) : Option (List (List ℕ)) :=
  if 1 < (ls.filter fun l => l.any isArray).length then none
  else (List.range ls.length).mapM fun i => match ls.getD i none with
    | none => some (List.range (shape.getD i 0))
    | some l => pick (shape.getD i 0) l

/-- `out[places] = piece`; numpy could also repeat an axis of length 1 of the piece: `none` -/
def assign (out : NArr α) (places : List (List ℕ)) (piece : NArr α) : Option (NArr α) :=
  if piece.shape = places.map List.length then some (updateOuter (fun _ b => b) out places piece) else none

/-- lines 615, 622: the other axes, and then these -/
def newOrder (n : ℕ) (full : List ℕ) : Option (List ℕ) :=
  if full.Nodup ∧ ∀ i ∈ full, i < n then some ((List.range n).filter (fun i => i ∉ full) ++ full) else none

/-- lines 624-627: the view in this order, with *the axes at the positions `full` of the new order* complete -/
def bigView (A : List Axis) (ind full : List ℕ) (I : List (List ℕ)) : View Axis :=
  { axes := ind.map fun i => A.getD i ⟨[], [], [], [], false, 0, [], []⟩
    inds := (List.range ind.length).map fun p =>
      if p ∈ full then List.range (A.getD (ind.getD p 0) ⟨[], [], [], [], false, 0, [], []⟩).len else I.getD (ind.getD p 0) [] }

/-- one turn of the loop, lines 631-657 -/
def fullStep (nr : List ℚ → ℚ) (A : List Axis) (ind full : List ℕ) (f : View Axis → Option (NArr α)) (I : List (List ℕ)) (big : View Axis)
    (out : NArr α) (c : View Axis) : Option (NArr α) :=
  if full.all fun p => decide ((c.inds.getD p []).length = (big.inds.getD p []).length) then                     -- lines 633-634
    (outSlices nr (clip nr big).axes c).bind fun o =>                                                            -- line 637
    let rind := (List.range A.length).map fun i => ind.idxOf i                                                  -- lines 618-620
    let insl := (List.range A.length).map fun i => if i ∈ full then some (I.getD i []) else none                -- lines 649-650
    (f ⟨A, rind.map fun p => c.inds.getD p []⟩).bind fun tmp =>                                                  -- lines 640-643, 655
    (choose out.shape (rind.map fun p => some (o.getD p []))).bind fun dst =>
    (choose tmp.shape insl).bind fun src =>
    assign out dst (tmp.outer src)                                                                               -- line 658
  else none

/-- `need_full_axes(*full)(getview)(self, view)`, tools.py:609-660, for a view of the variable's own axes; `init` is the content of `np.empty` -/
def fullView (nr : List ℚ → ℚ) (init : List ℕ → α) (limit : ℕ) (A : List Axis) (full : List ℕ) (f : View Axis → Option (NArr α))
    (I : List (List ℕ)) : Option (NArr α) :=
  (newOrder A.length full).bind fun ind =>
  let big := bigView A ind full I
  (big.loopMem limit []).foldlM (fullStep nr A ind full f I big) ⟨I.map List.length, init⟩

end FullAxes
end PyGeode
