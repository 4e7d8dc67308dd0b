/-
Model of EOF analysis: /repo/pygeode/eof.py (weights, record axes, `EOF_svd`, `EOF_cov`, the outputs and the choice of the method in
`EOF`). Data are exact real numbers, weights rational. `np.linalg.svd` and `np.linalg.eigh` are parameters: the theorems assume of them
what numpy documents. `EOF_iter` and `EOF_guess` are not modelled here (`EOF` takes the former as a parameter).
-/
import Verif.Model.Weights
import Verif.Model.GetItem
import Mathlib.Data.Real.Sqrt
import Mathlib.Algebra.BigOperators.Group.Finset.Basic

namespace PyGeode
namespace Eof
open NArr Combine VarOps Finset
variable {α β : Type}

/-- the argument `weight` -/
inductive Weight where
  | false
  | none
  | true
  | given (W : Var ℚ)

/-- the argument `iaxis`: absent, one identifier, a list or tuple of them -/
inductive Iaxis where
  | default
  | one (a : AxisId)
  | many (l : List AxisId)

/-- `np.linalg.svd(a, full_matrices=False)`: `u`, `s`, `v` by row and column -/
structure Svd where
  u : ℕ → ℕ → ℝ
  s : ℕ → ℝ
  v : ℕ → ℕ → ℝ

/-- `np.linalg.eigh(a)`: the eigenvalues, and the matrix whose columns are the eigenvectors -/
structure Eigh where
  w : ℕ → ℝ
  v : ℕ → ℕ → ℝ

/-! ### Weights -/

/-- an element by element operation as a variable, ufunc.py:24-107 -/
def ufuncVar (op : List α → β) (nr : List ℚ → ℚ) (junk : List ℕ → α) (junk' : List ℕ → β) (args : List (Operand α)) : Option (Var β) :=
  (ufuncAxes args).map fun R => Var.ofView junk' R (ufuncView op nr junk args)

/-- a variable as an operand -/
def operand (x : Var α) : Operand α := .var x.axes x.src

/-- eof.py:17-18 and 30-31: inner `none`: no weighting; outer: `None` has no method `sum` -/
def weightVar (nr : List ℚ → ℚ) (junk : List ℕ → ℚ) (axes : List Axis) : Weight → Option (Option (Var ℚ))
  | .false => some Option.none
  | .none => Option.none
  | .true => (Weights.getweights nr junk axes []).map some
  | .given W => some (some W)

/-- `weight.sum()`: reduce.py:17, 25-27 -/
def total (nr : List ℚ → ℚ) (junk : List ℕ → ℚ) (limit : ℕ) (W : Var ℚ) : Option ℚ :=
  if W.axes.length = 0 then (GetItem.get nr junk W).map fun r => r.get []
  else (Loop.sum nr junk limit W []).bind fun s => (GetItem.get nr junk s).map fun r => r.get []

/-- `weight.size` -/
def size (x : Var α) : ℕ := (x.axes.map Axis.len).prod

/-- the quotient of two operands -/
def div2 [Div α] [Inhabited α] (l : List α) : α := l.headI / l.tail.headI

/-- the product of two operands -/
def mul2 [Mul α] [Inhabited α] (l : List α) : α := l.headI * l.tail.headI

/-- the square root of the only operand -/
noncomputable def sqrt1 (l : List ℚ) : ℝ := Real.sqrt ((l.headI : ℚ) : ℝ)

/-- `weight = (weight / (weight.sum() / weight.size)).sqrt()`, eof.py:19-21 and 32-34 -/
noncomputable def rootWeights (nr : List ℚ → ℚ) (junkw : List ℕ → ℚ) (junk : List ℕ → ℝ) (limit : ℕ) (W : Var ℚ) : Option (Var ℝ) :=
  (total nr junkw limit W).bind fun t =>
    (ufuncVar div2 nr junkw junkw [operand W, .scalar (t / (size W : ℚ))]).bind fun n =>
      ufuncVar sqrt1 nr junkw junk [operand n]

/-- `apply_weights(var, weight)`, eof.py:15-25 -/
noncomputable def applyWeights (nr : List ℚ → ℚ) (junkw : List ℕ → ℚ) (junk : List ℕ → ℝ) (limit : ℕ) (x : Var ℝ) (weight : Weight) :
    Option (Var ℝ) :=
  (weightVar nr junkw x.axes weight).bind fun o => match o with
    | Option.none => some x
    | some W => (rootWeights nr junkw junk limit W).bind fun r => ufuncVar mul2 nr junk junk [operand x, operand r]

/-- `remove_weights(var, weight)`, eof.py:27-38 -/
noncomputable def removeWeights (nr : List ℚ → ℚ) (junkw : List ℕ → ℚ) (junk : List ℕ → ℝ) (limit : ℕ) (x : Var ℝ) (weight : Weight) :
    Option (Var ℝ) :=
  (weightVar nr junkw x.axes weight).bind fun o => match o with
    | Option.none => some x
    | some W => (rootWeights nr junkw junk limit W).bind fun r => ufuncVar div2 nr junk junk [operand x, operand r]

/-! ### Record axes -/

/-- eof.py:82-92: `none`: TypeError (`issubclass` of something that is not a class) -/
def recordIds (axes : List Axis) : Iaxis → Option (List AxisId)
  | .default => some [if axes.any (fun a => decide ("Time".toList ∈ a.classes)) then .cls "Time".toList else .int 0]
  | .one (.int i) => some [.int i]
  | .one (.cls c) => some [.cls c]
  | .one _ => none
  | .many l => some l

/-- `prep(var, iaxis, weight)`, eof.py:58-112 (without the check of `out`): the weighted variable, the record axes, the others -/
noncomputable def prep (nr : List ℚ → ℚ) (junkw : List ℕ → ℚ) (junk : List ℕ → ℝ) (limit : ℕ) (x : Var ℝ) (iaxis : Iaxis) (weight : Weight) :
    Option (Var ℝ × List Axis × List Axis) :=
  if x.axes.length < 2 then none                                                                -- line 67
  else (applyWeights nr junkw junk limit x weight).bind fun y =>                                -- line 77
    (recordIds y.axes iaxis).bind fun ids => (whichAll y.axes ids).bind fun l =>                -- lines 80-95
      let time := l.filterMap fun i => y.axes[i]?
      let space := ((List.range y.axes.length).filter fun i => i ∉ l).filterMap fun i => y.axes[i]?
      (if size y ≤ limit then GetItem.load nr junk y else some y).map fun y => (y, time, space) -- line 110

/-! ### Outputs -/

/-- the valid options, eof.py:43-45 -/
def outNames : List Name :=
  ["eof", "eofs", "eig", "eigenvalue", "eigenvalues", "pc", "timeseries", "var", "variance", "frac", "varfrac", "eig2"].map String.toList

/-- the parts of a string between commas: `out.split(',')` -/
def splitComma : List Char → List Name
  | [] => [[]]
  | c :: s => if c = ',' then [] :: splitComma s else match splitComma s with
    | [] => [[c]]
    | p :: ps => (c :: p) :: ps

/-- the argument `out`: absent, a string, a list of strings -/
inductive Out where
  | default
  | text (s : List Char)
  | names (l : List Name)

/-- `whichout(out)`, eof.py:41-55; `none`: AssertionError -/
def whichout (out : Out) : Option (List Name) :=
  let l := (match out with
    | .default => ["eof", "eig", "pc"].map String.toList
    | .text s => splitComma s
    | .names l => l).map lower
  if l.all fun o => decide (o ∈ outNames) then some l else none

/-- all that can be asked for -/
structure Result where
  eof : Var ℝ
  eig : Var ℝ
  pc : Var ℝ
  frac : Var ℝ
  eig2 : Var ℝ
  var : ℝ

/-- one of the values returned -/
inductive Value where
  | var (x : Var ℝ)
  | number (c : ℝ)

/-- `outdict[o]`, eof.py:165-167; `none`: KeyError -/
def lookupOut (r : Result) (o : Name) : Option Value :=
  if o = "eof".toList then some (.var r.eof)
  else if o = "eig".toList then some (.var r.eig)
  else if o = "eig2".toList then some (.var r.eig2)
  else if o = "pc".toList then some (.var r.pc)
  else if o = "var".toList then some (.number r.var)
  else if o = "frac".toList then some (.var r.frac)
  else none

/-- `order(num, name="order")`, eof.py:6-11 and 144; `rtol` is that of the constructor -/
def orderAxis (nr : List ℚ → ℚ) (n : ℕ) : Axis :=
  let values := (List.range n).map fun i : ℕ => (i : ℚ)
  { classes := ["order".toList, "Axis".toList], aliases := ["order".toList], name := "order".toList
    values := values, isFloat := false, rtol := nr values, auxatts := [], auxarrays := [] }

/-- the sign of a pattern, eof.py:131: -1 if its first element is negative -/
noncomputable def signOf (eof : ℕ → ℕ → ℝ) (i : ℕ) : ℝ := if eof i 0 < 0 then -1 else 1

/-- `finalize(var, time, space, eof, eig, pc, variance, weight)`, eof.py:117-169, on `num` patterns as rows of matrices. The element by
element operations on `eig` are on arrays in memory. -/
noncomputable def finalize (nr : List ℚ → ℚ) (junkw : List ℕ → ℚ) (junk : List ℕ → ℝ) (limit : ℕ) (time space : List Axis) (num : ℕ)
    (eof : ℕ → ℕ → ℝ) (eig : ℕ → ℝ) (pc : ℕ → ℕ → ℝ) (variance : ℝ) (weight : Weight) : Option Result :=
  let order := orderAxis nr num
  let var1 (f : ℕ → ℝ) : Var ℝ := { axes := [order], src := .values { shape := [num], get := fun k => f (k.getD 0 0) } }
  let eofv : Var ℝ :=
    { axes := order :: space
      src := .values
        { shape := num :: space.map Axis.len
          get := fun k => eof (k.headD 0) (ravel (space.map Axis.len) k.tail) * signOf eof (k.headD 0) } }        -- lines 126, 131-133, 145
  let pcv : Var ℝ :=
    { axes := order :: time
      src := .values
        { shape := num :: time.map Axis.len
          get := fun k => pc (k.headD 0) (ravel (time.map Axis.len) k.tail) * signOf eof (k.headD 0) } }          -- lines 127, 134, 147
  (removeWeights nr junkw junk limit eofv weight).bind fun e => (GetItem.load nr junk e).map fun e =>             -- line 150
    { eof := e, eig := var1 eig, pc := pcv, frac := var1 fun k => eig k ^ 2 / variance                            -- line 158
      eig2 := var1 fun k => eig k ^ 2, var := variance }                                                          -- line 161

/-- what a method returns: the outputs asked for -/
def answer (out : Out) (r : Option Result) : Option (List Value) :=
  (whichout out).bind fun l => r.bind fun r => l.mapM (lookupOut r)

/-! ### The singular value decomposition of the data -/

/-- the data as a matrix of `time.size` rows: `x.get().reshape([time.size, space.size])`, eof.py:356; `none`: ValueError -/
noncomputable def dataMatrix (nr : List ℚ → ℚ) (junk : List ℕ → ℝ) (x : Var ℝ) (m n : ℕ) : Option (ℕ → ℕ → ℝ) :=
  (GetItem.get nr junk x).bind fun r =>
    if r.shape.prod = m * n then some fun i j => r.get (unravel r.shape (i * n + j)) else none

/-- the number of values of a list of axes: `View.size` -/
def axesSize (axes : List Axis) : ℕ := (axes.map Axis.len).prod

/-- `EOF_svd(x, num, iaxis, weight)`, eof.py:349-367, before the outputs are picked -/
noncomputable def eofSvd (svd : ℕ → ℕ → (ℕ → ℕ → ℝ) → Svd) (nr : List ℚ → ℚ) (junkw : List ℕ → ℚ) (junk : List ℕ → ℝ) (limit : ℕ)
    (x : Var ℝ) (num : ℕ) (iaxis : Iaxis) (weight : Weight) : Option Result :=
  (prep nr junkw junk limit x iaxis weight).bind fun p =>
    let m := axesSize p.2.1
    let n := axesSize p.2.2
    (dataMatrix nr junk p.1 m n).bind fun D =>
      let r := svd m n D
      finalize nr junkw junk limit p.2.1 p.2.2 (min num (min m n)) r.v r.s (fun k t => r.u t k)                  -- lines 361-363
        (∑ i ∈ range m, ∑ j ∈ range n, D i j ^ 2) weight

/-! ### The eigenvectors of the covariance matrix -/

/-- the rows of one chunk: `X.reshape(-1, space.size)`, eof.py:390-392; `none`: AssertionError or ValueError -/
def chunkRows (n : ℕ) (r : NArr ℝ) : Option (List (ℕ → ℝ)) :=
  if r.shape.prod < n then none
  else if r.shape.prod % n ≠ 0 then none
  else some ((List.range (r.shape.prod / n)).map fun i j => r.get (unravel r.shape (i * n + j)))

/-- the rows of all the chunks, one list per chunk, in the order of the loops at eof.py:389-392 and 405-407 -/
noncomputable def chunksOf (nr : List ℚ → ℚ) (junk : List ℕ → ℝ) (limit : ℕ) (x : Var ℝ) (n : ℕ) : Option (List (List (ℕ → ℝ))) :=
  (x.whole.loopMem limit []).mapM fun v => (x.read nr junk v).bind (chunkRows n)

/-- `cov += np.dot(X.transpose(), X)`, eof.py:394 -/
noncomputable def covStep (cov : ℕ → ℕ → ℝ) (X : List (ℕ → ℝ)) : ℕ → ℕ → ℝ :=
  fun a b => cov a b + (X.map fun row => row a * row b).sum

/-- `EOF_cov(x, num, iaxis, weight)`, eof.py:378-413, before the outputs are picked -/
noncomputable def eofCov (eigh : ℕ → (ℕ → ℕ → ℝ) → Eigh) (nr : List ℚ → ℚ) (junkw : List ℕ → ℚ) (junk : List ℕ → ℝ) (limit : ℕ)
    (x : Var ℝ) (num : ℕ) (iaxis : Iaxis) (weight : Weight) : Option Result :=
  (prep nr junkw junk limit x iaxis weight).bind fun p =>
    let m := axesSize p.2.1
    let n := axesSize p.2.2
    (chunksOf nr junk limit p.1 n).bind fun chunks =>
      let cov := chunks.foldl covStep fun _ _ => 0
      let r := eigh n fun a b => cov a b / ((m : ℝ) - 1)                                                          -- line 397
      let variance := ∑ k ∈ range n, r.w k                                                                        -- line 399
      let eig := fun k => Real.sqrt (r.w (n - 1 - k))                                                             -- line 400
      let eof := fun k j => r.v j (n - 1 - k)                                                                     -- line 401
      let rows := chunks.flatten
      let pc := fun k t => (∑ j ∈ range n, eof k j * (rows.getD t fun _ => 0) j) / eig k                          -- lines 404-411
      if num ≤ n ∧ rows.length = m then finalize nr junkw junk limit p.2.1 p.2.2 num eof eig pc variance weight
      else none                                                                                                   -- lines 411, 127

/-! ### The choice of the method -/

/-- `EOF(x, num, iaxis, weight, out)`, eof.py:421-506: `iter` stands for `EOF_iter` -/
noncomputable def eof (svd : ℕ → ℕ → (ℕ → ℕ → ℝ) → Svd) (eigh : ℕ → (ℕ → ℕ → ℝ) → Eigh)
    (iter : Var ℝ → ℕ → Iaxis → Weight → Option Result) (nr : List ℚ → ℚ) (junkw : List ℕ → ℚ) (junk : List ℕ → ℝ) (limit : ℕ)
    (x : Var ℝ) (num : ℕ) (iaxis : Iaxis) (weight : Weight) : Option Result :=
  (prep nr junkw junk limit x iaxis weight).bind fun p =>                                                         -- line 502
    if size x ≤ Nat.sqrt limit then eofSvd svd nr junkw junk limit x num iaxis weight                             -- line 503
    else if axesSize p.2.2 ^ 2 ≤ Nat.sqrt limit then eofCov eigh nr junkw junk limit x num iaxis weight           -- line 504
    else iter x num iaxis weight

end Eof
end PyGeode
