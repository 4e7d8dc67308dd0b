/-
Model of the flattening of two adjacent axes into one, `FlattenVar` and `flatten`, /repo/pygeode/composite.py:206-295.
-/
import Verif.Model.VarOps

namespace PyGeode
namespace Flatten
open NArr Combine VarOps

variable {α : Type}

/-- the values of the flattened axis for `inner` given, composite.py:223-225 -/
def flatValues (out inner : List ℚ) : List ℚ :=
  (List.range out.length).flatMap fun i : ℕ => inner.map fun v => (i : ℚ) * (inner.length : ℚ) + v

/-- one piece of a request, composite.py:267-269 and 287-291: the positions `slo` of the outer axis and `sli` of the inner
axis, as a block of `n` positions of the flattened axis. A position past the end of an axis is refused by `View.get`, a wrong
number of elements by `reshape`. -/
def piece (nr : List ℚ → ℚ) (junk : List ℕ → α) (x : Var α) (d lo li : ℕ) (v : View Axis) (slo sli : ℤ × ℤ) (n : ℕ) :
    Option (NArr α) :=
  (expand (.slice ⟨some slo.1, some slo.2, none⟩) lo).bind fun po =>
  (expand (.slice ⟨some sli.1, some sli.2, none⟩) li).bind fun pi =>
  if po.any (fun p => decide ((lo : ℤ) ≤ p)) || pi.any (fun p => decide ((li : ℤ) ≤ p)) then none
  else
    (x.read nr junk ⟨x.axes, v.inds.take d ++ po.map Int.toNat :: pi.map Int.toNat :: v.inds.drop (d + 1)⟩).bind fun r =>
      if r.shape.prod = (v.shape.set d n).prod then some (r.reshape (v.shape.set d n)) else none

/-- `np.concatenate([a, b, c], d)` of arrays that differ along axis `d` only -/
def concat3 (d : ℕ) (shape : List ℕ) (a b c : NArr α) : NArr α :=
  let na := a.shape.getD d 0
  let nb := b.shape.getD d 0
  { shape := shape.set d (na + nb + c.shape.getD d 0)
    get := fun k =>
      let i := k.getD d 0
      if i < na then a.get k else if i < na + nb then b.get (k.set d (i - na)) else c.get (k.set d (i - na - nb)) }

/-- `FlattenVar.getview`, composite.py:243-291, the flattened axis at `d`, the outer and inner axes of the source at `d` and
`d + 1` with `lo` and `li` (`stride`) values. `none`: `slf` is not a slice with both ends (line 254), or a piece is refused.
Quotients of integers (lines 255-256) are taken exactly. -/
def flattenView (nr : List ℚ → ℚ) (junk : List ℕ → α) (x : Var α) (d lo li : ℕ) (v : View Axis) : Option (NArr α) :=
  match simplify ((v.inds.getD d []).map fun i : ℕ => (i : ℤ)) with
  | .slice ⟨some a, some b, _⟩ =>
    let s0 : ℤ := a / (li : ℤ)
    let s1 : ℤ := -((-b) / (li : ℤ))
    if s1 - s0 = 1 then                                                                              -- line 262
      piece nr junk x d lo li v (s0, s1) (a - s0 * li, b - s0 * li) (v.shape.getD d 0)               -- lines 264-269
    else
      (piece nr junk x d lo li v (s0, s0 + 1) (a - s0 * li, li) ((li : ℤ) - (a - s0 * li)).toNat).bind fun p0 =>
      (piece nr junk x d lo li v (s0 + 1, s1 - 1) (0, li) ((s1 - 1 - (s0 + 1)) * li).toNat).bind fun p1 =>
      (piece nr junk x d lo li v (s1 - 1, s1) (0, b - (s1 - 1) * li) (b - (s1 - 1) * li).toNat).bind fun p2 =>
      some (concat3 d v.shape p0 p1 p2)
  | _ => none

/-- `flatten(var, inner)`, composite.py:210-240 and 294-295, for `inner > 0`; `mk` is the class of the outer axis (line 228-231) or
the given `naxis` -/
def flatten (nr : List ℚ → ℚ) (junk : List ℕ → α) (mk : List ℚ → Axis) (x : Var α) (inner : ℕ) : Option (Var α) :=
  if inner = 0 then none
  else
    (x.axes[inner - 1]?).bind fun ao => (x.axes[inner]?).map fun ai =>
      Var.ofView junk (x.axes.take (inner - 1) ++ mk (flatValues ao.values ai.values) :: x.axes.drop (inner + 1))
        (flattenView nr junk x (inner - 1) ao.len ai.len)

end Flatten
end PyGeode
