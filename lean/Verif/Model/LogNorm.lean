/-
Model of two-sided logarithmic colours: `LogNorm2Sided`, `log1sdict` and `log2sdict` of /repo/pygeode/plot/cnt_helpers.py, in exact real
arithmetic. Left out: masks, clipping, colour maps and labels. (`__call__` uses `np.float`, which numpy 1.24 removed.)
-/
import Mathlib.Analysis.SpecialFunctions.Log.Basic
import Mathlib.Analysis.SpecialFunctions.Pow.Real

namespace PyGeode
namespace LogNorm

/-- the attributes, cnt_helpers.py:17-20 -/
structure Norm where
  vmin : ℝ
  vmax : ℝ
  vin : ℝ
  cin : ℝ

/-- `LogNorm2Sided.__call__(value)`, cnt_helpers.py:22-62, for one number, the limits being set; `none`: `ValueError` -/
noncomputable def Norm.apply (N : Norm) (val : ℝ) : Option ℝ :=
  if N.vmax < N.vmin then none                                                          -- line 36
  else if 0 < N.vmin then none                                                          -- line 38
  else if N.vmax < 0 then none                                                          -- line 40
  else if N.vmin = N.vmax then some (0 * val)                                           -- lines 42-43
  else if N.vin < val then some (1 / 2 + N.cin + (1 / 2 - N.cin) *
      (Real.log val - Real.log N.vin) / (Real.log N.vmax - Real.log N.vin))             -- lines 49, 55-56
  else if val < -N.vin then some (1 / 2 - N.cin - (1 / 2 - N.cin) *
      (Real.log (-val) - Real.log N.vin) / (Real.log (-N.vmin) - Real.log N.vin))       -- lines 50, 57-58
  else some (1 / 2 + N.cin * val / N.vin)                                               -- lines 51, 54

/-- `LogNorm2Sided.inverse(value)`, cnt_helpers.py:64-86, for one number (line 82-85; for arrays line 79 has `val[min]` for `val[ineg]`, which
raises) -/
noncomputable def Norm.inverse (N : Norm) (value : ℝ) : ℝ :=
  if 1 / 2 + N.cin < value then N.vin * (N.vmax / N.vin) ^ ((value - (1 / 2 + N.cin)) / (1 / 2 - N.cin))
  else if value < 1 / 2 - N.cin then -N.vin * (-N.vmin / N.vin) ^ ((1 / 2 - N.cin - value) / (1 / 2 - N.cin))
  else (value - 1 / 2) * N.vin / N.cin

/-- `np.linspace(a, b, n)` -/
noncomputable def linspace (a b : ℝ) (n : ℕ) : List ℝ := (List.range n).map fun i : ℕ => a + i * ((b - a) / ((n : ℝ) - 1))

/-- `l[1:-1]` -/
def inner (l : List ℝ) : List ℝ := (l.drop 1).dropLast

/-- the levels and the scale -/
structure Scale where
  fills : Option (List ℝ)
  lines : Option (List ℝ)
  ticks : List ℝ
  norm : Norm

/-- `log2sdict(cmin, cdelt, nf, nl, ndiv, nozero)`, cnt_helpers.py:391-438; `ndiv > 0` -/
noncomputable def log2s (cmin cdelt : ℝ) (nf nl ndiv : ℕ) (nozero : Bool) : Scale :=
  let ce := (linspace 0 ((ndiv : ℝ) - 1) (nf * (ndiv - 1) + 1)).map fun x => cmin * cdelt ^ x         -- line 395
  let cel := (linspace 0 ((ndiv : ℝ) - 1) (nl * (ndiv - 1) + 1)).map fun x => cmin * cdelt ^ x        -- line 396
  let tks := (List.range ndiv).map fun i : ℕ => cmin * cdelt ^ (i : ℝ)                                -- line 397
  let cmax := tks.getLastD 0                                                                          -- line 398
  let ci := inner (linspace (-cmin) 0 (nf + 1)) ++ inner (linspace 0 cmin (nf + 1))                   -- lines 404-405
  let cil := if nozero then inner (linspace (-cmin) 0 (nl + 1)) ++ inner (linspace 0 cmin (nl + 1))   -- line 412
    else inner (linspace (-cmin) cmin (2 * nl + 1))                                                   -- line 414
  { fills := if 0 < nf then some ((ce.map Neg.neg).reverse ++ ci ++ ce) else none                     -- lines 402-408
    lines := if 0 < nl then some ((cel.map Neg.neg).reverse ++ cil ++ cel) else none                  -- lines 410-417
    ticks := (tks.map Neg.neg).reverse ++ [0] ++ tks                                                  -- line 400
    norm := { vmin := -cmax, vmax := cmax, vin := cmin, cin := 1 / (2 * ndiv) } }                     -- lines 419-420

/-- `log1sdict(cmin, cdelt, nf, nl, ndiv)`, cnt_helpers.py:353-388: colours, lines, ticks, and the ends of the scale (line 371) -/
noncomputable def log1s (cmin cdelt : ℝ) (nf nl ndiv : ℕ) : Option (List ℝ) × Option (List ℝ) × List ℝ × ℝ × ℝ :=
  (if 0 < nf then some ((linspace 0 ndiv (nf * ndiv + 1)).map fun x => cmin * cdelt ^ x) else none,   -- lines 361-364
   if 0 < nl then some ((linspace 0 ndiv (nl * ndiv + 1)).map fun x => cmin * cdelt ^ x) else none,   -- lines 366-369
   (List.range (ndiv + 1)).map fun i : ℕ => cmin * cdelt ^ (i : ℝ),                                   -- line 360
   cmin, cmin * cdelt ^ (ndiv : ℝ))                                                                   -- line 358

end LogNorm
end PyGeode
