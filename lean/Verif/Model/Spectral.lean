import Mathlib.Data.Real.Sqrt
import Mathlib.Algebra.Order.Floor.Defs
/-!
# The axis of spherical harmonics (`pygeode/spectral.py`)
-/
namespace PyGeode.Spectral

/-- What the caller gives: a truncation, or the values of the axis (only their number matters)
perhaps with a truncation. -/
inductive Given where
  | trunc (t : ℕ)
  | values (len : ℕ) (trunc : Option ℕ)

/-- `np.concatenate([np.arange(n, trunc+1) for n in np.arange(0, trunc+1)])`, spectral.py:25;
`steps` is `trunc + 1`.  (`np.concatenate` of no arrays raises ValueError: see `harmonics`.) -/
def degrees (steps : ℕ) : List ℕ :=
  ((List.range steps).map fun n => (List.range (steps - n)).map fun i => n + i).flatten

/-- `np.concatenate([n*np.ones(trunc+1-n, 'i') for n in np.arange(0, trunc+1)])`,
spectral.py:26. -/
def orders (steps : ℕ) : List ℕ :=
  ((List.range steps).map fun n => List.replicate (steps - n) n).flatten

/-- `int(np.sqrt(len(values) * 2 + 0.25) - 1.5)`, spectral.py:22, plus one: the number of steps.
`int` of a number above minus one rounds down or gives zero; the only length for which it is not
above minus one is zero, which gives minus one, that is no steps. -/
noncomputable def inferred (len : ℕ) : ℕ :=
  ⌊Real.sqrt (len * 2 + 1 / 4) - 3 / 2 + 1⌋.toNat

/-- `Spectral(values, trunc)`, spectral.py:14-29, for an axis without degrees and orders of its
own: the number of values, the degrees `N` and the orders `M`.  The auxiliary arrays must have
the shape of the values (axis.py:137-138). -/
noncomputable def harmonics (g : Given) : Option (ℕ × List ℕ × List ℕ) :=
  let len := match g with
    | .trunc t => (t + 1) * (t + 2) / 2                                              -- line 18
    | .values n _ => n
  let steps := match g with
    | .trunc t => t + 1
    | .values _ (some t) => t + 1
    | .values n none => inferred n
  if steps = 0 then none else
  if (degrees steps).length = len ∧ (orders steps).length = len then
    some (len, degrees steps, orders steps)
  else none

end PyGeode.Spectral
