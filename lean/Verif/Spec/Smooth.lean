/-
Specification side of smoothing.
-/
import Verif.Spec.Var

namespace PyGeode.Spec

/-- positions outside `0 .. N-1` are reflected at the nearest end, the end value being repeated -/
def reflect (N : ℕ) (p : ℤ) : ℕ :=
  if p < 0 then (-1 - p).toNat else if p < (N : ℤ) then p.toNat else (2 * (N : ℤ) - 1 - p).toNat

/-- the average of the data around `k` along axis `d` (of length `N`), weighted with the kernel: the `j`-th weight goes to
the position `j - (len - 1) // 2` places before -/
def smoothed (kernel : List ℚ) (d N : ℕ) (data : List ℕ → ℚ) (k : List ℕ) : ℚ :=
  ((List.range kernel.length).map fun j : ℕ =>
    kernel.getD j 0 * data (k.set d (reflect N ((k.getD d 0 : ℤ) + ((kernel.length - 1) / 2 : ℕ) - (j : ℤ))))).sum / kernel.sum

end PyGeode.Spec
