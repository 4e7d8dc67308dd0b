/-
Model of the limits that two-sided logarithmic colours take from data, `LogNorm2Sided.autoscale` and `autoscale_None`,
/repo/pygeode/plot/cnt_helpers.py:88-107, and of the labels `lfmt`, cnt_helpers.py:341-350, in exact arithmetic. A label is the numbers
written, not the text.
-/
import Verif.Model.LogNorm
import Mathlib.Data.Int.Log
import Mathlib.Data.Rat.Floor

namespace PyGeode
namespace LogLabels
open LogNorm

/-- `ma.masked_less_equal(np.abs(A), 1e-16)`, cnt_helpers.py:92, 101, without what is masked -/
noncomputable def magnitudes (A : List ℝ) : List ℝ := (A.map fun a => |a|).filter fun a => 1 / 10 ^ 16 < a

/-- the attributes `vmin`, `vmax`, `vin`, that may be None, and `cin`, cnt_helpers.py:17-20 -/
structure Limits where
  vmin : Option ℝ
  vmax : Option ℝ
  vin : Option ℝ
  cin : ℝ

/-- `autoscale_None(A)`, cnt_helpers.py:97-107; `none`: a limit is `masked`, there being no value that counts -/
noncomputable def autoscaleNone (L : Limits) (A : List ℝ) : Option Norm :=
  let M := magnitudes A
  (L.vmin.or (M.max?.map fun m => -m)).bind fun vmin =>                     -- lines 102-103
    (L.vmax.or M.max?).bind fun vmax =>                                     -- lines 104-105
      (L.vin.or M.min?).map fun vin => ⟨vmin, vmax, vin, L.cin⟩             -- lines 106-107

/-- `autoscale(A)`, cnt_helpers.py:88-95 -/
noncomputable def autoscale (L : Limits) (A : List ℝ) : Option Norm := autoscaleNone { L with vmin := none, vmax := none, vin := none } A

/-- rounding to the nearest integer, halves to the even one: `np.round`, and `%.1f` of ten times the number -/
def roundHalfEven (q : ℚ) : ℤ :=
  if q - ⌊q⌋ < 1 / 2 then ⌊q⌋
  else if 1 / 2 < q - ⌊q⌋ then ⌊q⌋ + 1
  else if ⌊q⌋ % 2 = 0 then ⌊q⌋ else ⌊q⌋ + 1

inductive Label where
  | zero
  /-- tenths -/
  | plain (n : ℤ)
  /-- `n` times ten to the power `e` -/
  | power (n e : ℤ)
  deriving DecidableEq

/-- `lfmt(x)`, cnt_helpers.py:341-350 -/
def lfmt (x : ℚ) : Label :=
  if x = 0 then .zero                                                       -- line 344
  else
    let e := Int.log 10 |x|                                                 -- line 346
    if |e| < 2 then .plain (roundHalfEven (10 * x))                         -- lines 347-348
    else .power (roundHalfEven (x / 10 ^ e)) e                              -- line 350

end LogLabels
end PyGeode
