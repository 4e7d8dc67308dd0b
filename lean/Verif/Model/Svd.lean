/-
Model of the iteration that finds coupled patterns of two fields, /repo/pygeode/svd.py:12-291 and /repo/pygeode/svd.c:22-159, and of the
same iteration for one field, `EOF_iter`, /repo/pygeode/eof.py:182-292.

The fields are matrices: `d t x` is the value at time `t` and place `x`, weighted and scaled (svd.py:82-142 and `prep` of eof.py) before the
iteration begins. Arrays that C functions work on are flat, as in C: functions of the offset. Numbers are exact. `np.linalg.lstsq`
and `np.linalg.eig` are parameters. The variables built from the results (svd.py:261-289), the printed lines and the
random seed are not modelled: the iteration may start anywhere.
-/
import Mathlib.Data.Real.Sqrt
import Mathlib.Data.List.Range

namespace PyGeode
namespace Svd

/-- the loop `for (int i = 0; i < n; i++)` of C, with everything the body changes as its state -/
def cfor {σ : Type} (n : ℕ) (body : ℕ → σ → σ) (s : σ) : σ := (List.range n).foldl (fun s i => body i s) s

/-- the assignment `a[i] = v` -/
def assign {K : Type} (a : ℕ → K) (i : ℕ) (v : K) : ℕ → K := fun j => if j = i then v else a j

section field
variable {K : Type} [Field K]

/-- `build_svds`, svd.c:22-41. The array `pcs` is passed from offset `p` on (svd.py:210, 213: `pcs[t,...]`). -/
def buildSvds (num nt nx1 nx2 : ℕ) (input1 input2 oldeofs : ℕ → K) (p : ℕ) (st : (ℕ → K) × (ℕ → K)) : (ℕ → K) × (ℕ → K) :=
  cfor num (fun n st =>                                                                                          -- line 26
    cfor nt (fun t st =>                                                                                         -- line 29
      let PC := cfor nx2 (fun x s => s + input2 (t * nx2 + x) * oldeofs (n * nx2 + x)) 0                         -- line 33
      (cfor nx1 (fun x new => assign new (n * nx1 + x) (new (n * nx1 + x) + PC * input1 (t * nx1 + x))) st.1,    -- line 34
       assign st.2 (p + (t * num + n)) PC)) st) st                                                               -- line 35

/-- `build_eofs`, svd.c:52-71 -/
def buildEofs (num nt nx : ℕ) (input oldeofs : ℕ → K) (p : ℕ) (st : (ℕ → K) × (ℕ → K)) : (ℕ → K) × (ℕ → K) :=
  cfor num (fun e st =>                                                                                          -- line 55
    cfor nt (fun t st =>                                                                                         -- line 59
      let PC := cfor nx (fun x s => s + input (t * nx + x) * oldeofs (e * nx + x)) 0                             -- line 62
      (cfor nx (fun x new => assign new (e * nx + x) (new (e * nx + x) + PC * input (t * nx + x))) st.1,         -- line 63
       assign st.2 (p + (t * num + e)) PC)) st) st                                                               -- line 65

/-- `dot`, svd.c:78-91 -/
def dot (num nx : ℕ) (U V out : ℕ → K) : ℕ → K :=
  cfor num (fun e1 out => cfor num (fun e2 out =>
    assign out (e1 * num + e2) (cfor nx (fun x w => w + U (e1 * nx + x) * V (e2 * nx + x)) 0)) out) out

/-- `transform`, svd.c:127-141: place by place, through a work array -/
def transform (num nx : ℕ) (P U : ℕ → K) : ℕ → K :=
  cfor nx (fun x U =>
    let work := cfor num (fun e1 w => assign w e1 (cfor num (fun e2 s => s + P (e2 * num + e1) * U (e2 * nx + x)) 0)) fun _ => 0
    cfor num (fun e1 U => assign U (e1 * nx + x) (work e1)) U) U

end field

/-- `fixcov`, svd.c:148-159 -/
def fixcov {K : Type} [Field K] [LinearOrder K] (num nt nx : ℕ) (pcA pcB eofB : ℕ → K) : (ℕ → K) × (ℕ → K) :=
  cfor num (fun e st =>
    if cfor nt (fun t s => s + pcA (t * num + e) * st.1 (t * num + e)) 0 < 0 then                               -- lines 150-152
      (cfor nt (fun t b => assign b (t * num + e) (b (t * num + e) * -1)) st.1,                                 -- line 153
       cfor nx (fun x b => assign b (e * nx + x) (b (e * nx + x) * -1)) st.2)                                   -- lines 154-155
    else st) (pcB, eofB)

/-- `normalize`, svd.c:100-120. Simplified: a pattern that is 0 everywhere stays 0, in C it becomes NaN. -/
noncomputable def normalize (num nx : ℕ) (U : ℕ → ℝ) : ℕ → ℝ :=
  let V := cfor num (fun e U =>
    let n := Real.sqrt (cfor nx (fun x s => s + U (e * nx + x) * U (e * nx + x)) 0)                              -- lines 104-106
    cfor nx (fun x U => assign U (e * nx + x) (U (e * nx + x) / n)) U) U                                         -- line 108
  cfor num (fun e U =>                                                                                           -- line 112
    if U (e * nx) < 0 then cfor nx (fun x U => assign U (e * nx + x) (U (e * nx + x) * -1)) U else U) V          -- lines 114-116

/-- what numpy is asked for, between the C functions -/
structure Numpy where
  /-- `np.linalg.lstsq(a, b)[0]` of `k` by `k` matrices -/
  lstsq : ℕ → (ℕ → ℝ) → (ℕ → ℝ) → ℕ → ℝ
  /-- the eigenvectors of `np.linalg.eig(a)`, as columns, after sorting (svd.py:232-237, eof.py:259-263) -/
  eig : ℕ → (ℕ → ℝ) → ℕ → ℝ

/-- `np.allclose(a, b, atol=0)` of the first `n` numbers: numpy's `rtol` is 1e-5 -/
def Close (n : ℕ) (a b : ℕ → ℝ) : Prop := ∀ i < n, |a i - b i| ≤ 1 / 100000 * |b i|

/-- `np.dot(a, b)` of `k` by `k` matrices -/
def matmul {K : Type} [Field K] (k : ℕ) (a b : ℕ → K) : ℕ → K := fun i =>
  ((List.range k).map fun m => a (i / k * k + m) * b (m * k + i % k)).sum

/-- a chunk of the field: `view.modify_slice(0, slice(t,t+nt)).get(var)`, svd.py:204-207 -/
def chunk {K : Type} (d : ℕ → ℕ → K) (nx t0 : ℕ) : ℕ → K := fun i => d (t0 + i / nx) (i % nx)

/-- the chunks of `for t in range(0,NT,dt)`: where each begins and how many times it has, svd.py:199-201 -/
def chunks (NT dt : ℕ) : List (ℕ × ℕ) := (List.range ((NT + dt - 1) / dt)).map fun i => (i * dt, min dt (NT - i * dt))

/-- what an iteration leaves -/
structure State where
  Y : ℕ → ℝ
  V : ℕ → ℝ
  pcs1 : ℕ → ℝ
  pcs2 : ℕ → ℝ

/-- one pass over the data, svd.py:195-214: `U`, `X` are the patterns before, `Y` and `V` those after -/
def accumulate {K : Type} [Field K] (k NX1 NX2 : ℕ) (d1 d2 : ℕ → ℕ → K) (parts : List (ℕ × ℕ)) (U X pcs1 pcs2 : ℕ → K) :
    ((ℕ → K) × (ℕ → K)) × ((ℕ → K) × (ℕ → K)) :=
  parts.foldl (fun st p =>
    (buildSvds k p.2 NX1 NX2 (chunk d1 NX1 p.1) (chunk d2 NX2 p.1) X (p.1 * k) st.1,                            -- lines 209-210
     buildSvds k p.2 NX2 NX1 (chunk d2 NX2 p.1) (chunk d1 NX1 p.1) U (p.1 * k) st.2))                           -- lines 212-213
    ((fun _ => 0, pcs2), (fun _ => 0, pcs1))                                                                     -- lines 195-196

/-- one iteration, svd.py:189-249 -/
noncomputable def svdStep (np : Numpy) (k NX1 NX2 NT dt : ℕ) (d1 d2 : ℕ → ℕ → ℝ) (s : State) : State :=
  let U := s.Y                                                                                                   -- line 191
  let X := s.V                                                                                                   -- line 192
  let acc := accumulate k NX1 NX2 d1 d2 (chunks NT dt) U X s.pcs1 s.pcs2
  let Y := acc.1.1
  let V := acc.2.1
  let UtAX := dot k NX1 U Y fun _ => 0                                                                           -- line 218
  let VtV := dot k NX2 V V fun _ => 0                                                                            -- line 219
  let XtAtU := dot k NX1 Y U fun _ => 0                                                                          -- line 220
  let YtY := dot k NX1 Y Y fun _ => 0                                                                            -- line 221
  let A1 := np.lstsq k UtAX VtV                                                                                  -- line 224
  let A2 := np.lstsq k XtAtU YtY                                                                                 -- line 225
  let Qy := np.eig k (matmul k A1 A2)                                                                            -- lines 228, 234
  let Qv := np.eig k (matmul k A2 A1)                                                                            -- lines 229, 237
  { Y := normalize k NX1 (transform k NX1 Qy Y)                                                                  -- lines 244, 248
    V := normalize k NX2 (transform k NX2 Qv V)                                                                  -- lines 245, 249
    pcs1 := acc.2.2
    pcs2 := acc.1.2 }

open Classical in
/-- the iterations, svd.py:185-256: `fuel` of them are left; `none`: the last one is reached (line 256, also if it converged) -/
noncomputable def svdLoop (np : Numpy) (num k NX1 NX2 NT dt : ℕ) (d1 d2 : ℕ → ℕ → ℝ) : ℕ → State → Option State
  | 0, _ => none
  | fuel + 1, s =>
    let s' := svdStep np k NX1 NX2 NT dt d1 d2 s
    if Close (num * NX1) s.Y s'.Y ∧ Close (num * NX2) s.V s'.V then                                       -- lines 251-252
      if fuel = 0 then none else some s'                                                                         -- lines 254, 256
    else svdLoop np num k NX1 NX2 NT dt d1 d2 fuel s'

/-- `SVD`, svd.py:70-259, from the fields as matrices; `none`: no convergence or too large a field -/
noncomputable def svd (np : Numpy) (num subspace NX1 NX2 NT limit : ℕ) (d1 d2 : ℕ → ℕ → ℝ) (seed : State) : Option State :=
  let k := max (if subspace = 0 then 2 * num + 8 else subspace) num                                              -- lines 75-76
  if NX1 ≤ limit ∧ NX2 ≤ limit then                                                                              -- lines 149-151
    (svdLoop np num k NX1 NX2 NT (limit / max NX1 NX2) d1 d2 1000 seed).map fun s =>                             -- lines 70, 156
      let f := fixcov k NT NX2 s.pcs1 s.pcs2 s.V                                                                 -- line 259
      { s with pcs2 := f.1, V := f.2 }
  else none

/-! ### one field -/

/-- one iteration of `EOF_iter`, eof.py:228-269; `parts` are the chunks of `loop_mem` -/
noncomputable def eofStep (np : Numpy) (k NX : ℕ) (d : ℕ → ℕ → ℝ) (parts : List (ℕ × ℕ)) (s : (ℕ → ℝ) × (ℕ → ℝ)) : (ℕ → ℝ) × (ℕ → ℝ) :=
  let old := s.1                                                                                                 -- line 228
  let acc := parts.foldl (fun st p => buildEofs k p.2 NX (chunk d NX p.1) old (p.1 * k) st) (fun _ => 0, s.2)    -- lines 231-242
  let work1 := dot k NX old acc.1 fun _ => 0                                                                     -- line 249
  let work2 := dot k NX acc.1 acc.1 fun _ => 0                                                                   -- line 250
  let P := np.eig k (np.lstsq k work1 work2)                                                                     -- lines 253-263
  (normalize k NX (transform k NX P acc.1), acc.2)                                                               -- lines 266-269

open Classical in
/-- the iterations, eof.py:224-279 -/
noncomputable def eofLoop (np : Numpy) (num k NX : ℕ) (d : ℕ → ℕ → ℝ) (parts : List (ℕ × ℕ)) :
    ℕ → (ℕ → ℝ) × (ℕ → ℝ) → Option ((ℕ → ℝ) × (ℕ → ℝ))
  | 0, _ => none
  | fuel + 1, s =>
    let s' := eofStep np k NX d parts s
    if Close (num * NX) s.1 s'.1 then if fuel = 0 then none else some s' else eofLoop np num k NX d parts fuel s'

/-- `EOF_iter`, eof.py:182-292, between `prep` and `finalize`: patterns, sizes and principal components -/
noncomputable def eofIter (np : Numpy) (num subspace NX NT maxIter : ℕ) (d : ℕ → ℕ → ℝ) (parts : List (ℕ × ℕ)) (seed : (ℕ → ℝ) × (ℕ → ℝ)) :
    Option ((ℕ → ℕ → ℝ) × (ℕ → ℝ) × (ℕ → ℕ → ℝ)) :=
  let k := max subspace num                                                                                      -- line 194
  (eofLoop np num k NX d parts maxIter seed).map fun s =>
    let eig := fun i => Real.sqrt ((List.range NT).map fun t => s.2 (t * k + i) ^ 2).sum                         -- line 289
    (fun i x => s.1 (i * NX + x), eig, fun i t => 1 / eig i * s.2 (t * k + i))                                   -- lines 283-290

end Svd
end PyGeode
