/-
Model of `multiple_regress`, /repo/pygeode/stats.py:391-594. Exact arithmetic, and no NaNs: `npsum` (unlike the sums of
`regress`) lets them through. Square roots are not taken (`se2`, `sb2`), and the p-value (the distribution function of
Student's t) is represented by the square of its argument. `inv` is `np.linalg.inv`; `none`: it raises.
-/
import Verif.Model.Stats
import Mathlib.Algebra.BigOperators.Fin

namespace PyGeode
namespace MultiRegress
open NArr Combine VarOps Reduce Loop Stats

/-- an array repeated along its axes of length one, as numpy does when it is added to a part of an array -/
def stretch {α : Type} (shape : List ℕ) (a : NArr α) : NArr α := { shape := shape, get := fun k => a.get (bindex a.shape k) }

/-- One of the sums of the loop at stats.py:502-510: `out[outsl] += npsum(data, siaxes)`. (The code makes all its sums in one
loop; they do not depend on each other.) -/
def accumulate (nr : List ℚ → ℚ) (limit : ℕ) (inaxes : List Axis) (R : List ℕ) (rd : View Axis → Option (NArr ℚ)) (v : View Axis) :
    Option (NArr ℚ) := do
  let L ← loopover nr limit inaxes [] v
  L.foldlM (fun out p => (rd p.2).map fun d =>
    updateOuter (· + ·) out p.1 (stretch (p.1.map List.length) (npReduce (· + ·) 0 d R))) { shape := v.shape, get := fun _ => 0 }

/-- the product of the data of two variables in one chunk, stats.py:508, 510 -/
def readMul (nr : List ℚ → ℚ) (junk : List ℕ → ℚ) (X Z : Var ℚ) (v : View Axis) : Option (NArr ℚ) :=
  (X.read nr junk v).bind fun x => (Z.read nr junk v).map fun z => bcast (· * ·) x z

/-- the sums for one output cell -/
structure Sums (n : ℕ) where
  y : ℚ
  yy : ℚ
  xy : Fin n → ℚ
  xx : Fin n → Fin n → ℚ

/-- entry `i` of a list of arrays -/
def nthArr (l : List (NArr ℚ)) (i : ℕ) : NArr ℚ := l.getD i ⟨[], fun _ => 0⟩

/-- stats.py:481, 489-515; `n`: number of combined axes. Above the diagonal `xx` is filled in from below (lines 512-515). -/
def sums (nr : List ℚ → ℚ) (junk : List ℕ → ℚ) (limit : ℕ) (Xs : List (Var ℚ)) (Y : Var ℚ) (oaxes raxes : List Axis) (n : ℕ) :
    Option (NArr (Sums Xs.length)) :=
  let R := List.range' oaxes.length (n - oaxes.length)                                    -- `siaxes`
  let acc := fun rd => accumulate nr limit (oaxes ++ raxes) R rd (wholeView oaxes)
  (acc (Y.read nr junk)).bind fun y =>
  (acc fun v => (Y.read nr junk v).map fun a => a.map fun t => t ^ 2).bind fun yy =>
  (Xs.mapM fun X => acc (readMul nr junk X Y)).bind fun xy =>
  ((List.range Xs.length).mapM fun i => (Xs[i]?).bind fun X => (Xs.take (i + 1)).mapM fun Z => acc (readMul nr junk X Z)).map fun xx =>
    { shape := (wholeView oaxes).shape
      get := fun k => ⟨y.get k, yy.get k, fun i => (nthArr xy i).get k,
        fun i j => if j ≤ i then (nthArr (xx.getD i []) j).get k else (nthArr (xx.getD j []) i).get k⟩ }

/-- the results for one output cell -/
structure Fit (n : ℕ) where
  beta : Fin n → ℚ
  r2 : Option ℚ
  t2 : Fin n → Option ℚ
  sb2 : Fin n → Option ℚ
  covb : Fin n → Fin n → Option ℚ
  se2 : Option ℚ

/-- a quotient; `none`: the divisor is 0, and numpy gives NaN or an infinity -/
def quot (a b : ℚ) : Option ℚ := if b = 0 then none else some (a / b)

/-- `N_eff`, stats.py:529-530; `N // 0` is 0 (with a warning), as in Lean -/
def numEff (N : ℕ) : Option ℕ → ℕ
  | none => N
  | some f => N / f

/-- stats.py:526-532 and 554-586 for one output cell; `ixx` is the inverse of `xx`, `N` the number of values (line 499) -/
def fitCell {n : ℕ} (N : ℕ) (fac : Option ℕ) (s : Sums n) (ixx : Fin n → Fin n → ℚ) : Fit n :=
  let beta := fun i => ∑ j, s.xy j * ixx i j                                              -- line 526
  let vare := ∑ i, s.xy i * beta i                                                        -- line 527
  let Neff := numEff N fac
  let sb2 := fun i => quot ((s.yy - vare) * ixx i i) Neff                                 -- line 532
  { beta := beta
    r2 := (quot (s.yy - vare) (s.yy - s.y ^ 2 / N)).map fun q => 1 - q                    -- lines 555-556
    t2 := fun i => (sb2 i).bind fun q => quot (beta i ^ 2) q                              -- line 562
    sb2 := sb2
    covb := fun i j => quot ((s.yy - vare) * ixx i j) Neff                                -- line 579
    se2 := quot (s.yy - vare) Neff }                                                      -- line 585

/-- The axes kept, the axes reduced, and the results for every output cell; stats.py:463-532. `none`: an exception. -/
def fits (nr : List ℚ → ℚ) (junk : List ℕ → ℚ) (limit : ℕ) (inv : (n : ℕ) → (Fin n → Fin n → ℚ) → Option (Fin n → Fin n → ℚ))
    (Xs : List (Var ℚ)) (Y : Var ℚ) (ids : Option (List AxisId)) (fac : Option ℕ) : Option (List Axis × NArr (Fit Xs.length)) :=
  (combineAxes (Xs.map Var.axes)).bind fun Xaxes =>                                       -- line 465
  (combineAxes [Xaxes, Y.axes]).bind fun S =>                                             -- line 467
  (splitAxes S Xaxes Y.axes ids).bind fun sp =>                                           -- lines 468-476
  let oaxes := sp.1.filterMap fun i => S[i]?
  let raxes := sp.2.filterMap fun i => S[i]?
  if sp.2 = [] then none else                                                             -- line 487
  (sums nr junk limit Xs Y oaxes raxes S.length).bind fun s =>
  let N := (raxes.map Axis.len).prod                                                      -- line 499
  let cells := product ((wholeView oaxes).inds)
  if cells.all fun k => (inv _ (s.get k).xx).isSome then                                  -- lines 521-522
    some (oaxes, { shape := s.shape, get := fun k => fitCell N fac (s.get k) ((inv _ (s.get k).xx).getD fun _ _ => 0) })
  else none

/-- a variable of the result -/
structure Out where
  name : List Char
  axes : List Axis
  values : NArr (Option ℚ)

/-- `ra` and `ra2`, stats.py:543-544 (without the names of the regressors) -/
def regressorAxis (name : List Char) (n : ℕ) : Axis :=
  ⟨["NonCoordinateAxis".toList, "Axis".toList], [], name, (List.range n).map fun i : ℕ => (i : ℚ), false, 0, [], []⟩

/-- entry `j` of a vector -/
def nth {α : Type} {n : ℕ} (d : α) (f : Fin n → α) (j : ℕ) : α := if h : j < n then f ⟨j, h⟩ else d

/-- `Var(axes, values=values, name=name)` refuses values of another shape (var.py:139-142) -/
def mkOut (name : List Char) (axes : List Axis) (values : NArr (Option ℚ)) : Option Out :=
  if values.shape = axes.map Axis.len then some ⟨name, axes, values⟩ else none

/-- `np.transpose(np.array(l), [Nd] + list(range(Nd)))`, stats.py:563 and 569, for the list `l` of the `n` arrays of shape `os` -/
def stacked {n : ℕ} (os : List ℕ) (f : List ℕ → Fin n → Option ℚ) : NArr (Option ℚ) :=
  NArr.transpose { shape := n :: os, get := fun k => nth none (f k.tail) (k.headD 0) } (os.length :: List.range os.length)

/-- one of the results, stats.py:549-588 -/
def output {n : ℕ} (oaxes : List Axis) (F : NArr (Fit n)) (o : List Char) : Option Out :=
  let Nd := oaxes.length
  let os := oaxes.map Axis.len
  let ra := regressorAxis "regressor".toList n
  let ra2 := regressorAxis "regressor2".toList n
  if o = "beta".toList then
    mkOut o (oaxes ++ [ra]) { shape := os ++ [n], get := fun k => some (nth 0 (F.get (k.take Nd)).beta (k.getD Nd 0)) }
  else if o = "r2".toList then mkOut "R2".toList oaxes { shape := os, get := fun k => (F.get k).r2 }
  else if o = "p".toList then mkOut o (oaxes ++ [ra]) (stacked os fun k => (F.get k).t2)
  else if o = "sb".toList then mkOut o (oaxes ++ [ra]) (stacked os fun k => (F.get k).sb2)
  else if o = "covb".toList then
    mkOut o (oaxes ++ [ra, ra2]) { shape := os ++ [n, n], get := fun k => nth none (nth (fun _ => none) (F.get (k.take Nd)).covb (k.getD Nd 0)) (k.getD (Nd + 1) 0) }
  else mkOut o oaxes { shape := os, get := fun k => (F.get k).se2 }

/-- stats.py:459 -/
def ovars : List (List Char) := ["beta".toList, "r2".toList, "p".toList, "sb".toList, "covb".toList, "se".toList]

/-- `multiple_regress(Xs, Y, axes, N_fac, output)`, stats.py:391-594; the variables of the dataset. `none`: an exception. -/
def multipleRegress (nr : List ℚ → ℚ) (junk : List ℕ → ℚ) (limit : ℕ)
    (inv : (n : ℕ) → (Fin n → Fin n → ℚ) → Option (Fin n → Fin n → ℚ)) (Xs : List (Var ℚ)) (Y : Var ℚ) (ids : Option (List AxisId))
    (fac : Option ℕ) (request : List Char) : Option (List Out) :=
  let req := (request.splitOn ',').filter fun o => decide (o ∈ ovars)                     -- line 460
  if req = [] then none else                                                              -- line 461
  (fits nr junk limit inv Xs Y ids fac).bind fun r =>
  (ovars.filter fun o => decide (o ∈ req)).mapM (output r.1 r.2)                          -- lines 547-588

end MultiRegress
end PyGeode
