/-
Model of the reductions of /repo/pygeode/reduce.py and of `loopover`, `npsum`, `npmin`, ... of
/repo/pygeode/tools.py:360-450.

An input variable has axis lengths `lens`; `R` are the (sorted) positions of the reduced axes
(`self.indices`, reduce.py:51, 61); `outInds` are the positions requested along the remaining axes.
`limit` is `MAX_ARRAY_SIZE`. Arithmetic is exact.
-/
import Verif.Model.View
import Mathlib.Data.Rat.Defs
import Mathlib.Algebra.Field.Rat
import Mathlib.Algebra.Order.Ring.Unbundled.Rat
import Mathlib.Data.List.InsertIdx

namespace PyGeode
namespace Reduce
open NArr
variable {α : Type}

/-- `data.sum(i)`, `np.amin(data, axis=i)`, ...: combine along one axis with `op` (neutral `e`). -/
def reduceAxis (op : α → α → α) (e : α) (a : NArr α) (i : ℕ) : NArr α :=
  { shape := a.shape.eraseIdx i
    get := fun k => ((List.range (a.shape.getD i 0)).map fun j : ℕ => a.get (k.insertIdx i j)).foldr op e }

/-- `npsum`, `npnansum`, `npmin`, `npnanmin`, `npmax`, `npnanmax` (tools.py:360-404): the axes from
right to left. `op` is the elementary operation. -/
def npReduce (op : α → α → α) (e : α) (a : NArr α) (axes : List ℕ) : NArr α :=
  (axes.insertionSort (· ≥ ·)).foldl (reduceAxis op e) a

/-- the axes that are not reduced (reduce.py:66) -/
def keptAxes (n : ℕ) (R : List ℕ) : List ℕ := (List.range n).filter (fun i => i ∉ R)

/-- `outview.map_to(inaxes, strict=False)` (tools.py:429): the requested positions on the remaining
axes, the entire axis for the reduced ones (view.py:160-162). -/
def inView (lens : List ℕ) (R : List ℕ) (outInds : List (List ℕ)) : View ℕ :=
  { axes := List.range lens.length
    inds := (List.range lens.length).map fun i =>
      if i ∈ R then List.range (lens.getD i 0)
      else outInds.getD ((keptAxes lens.length R).idxOf i) [] }

/-- `inv.map_to(outview.axes)` (tools.py:435): where the positions of a chunk are along the clipped
output axes. Matching coordinates against the clipped axis is position lookup for pairwise distinct
coordinates (theorems of C13-C15). -/
def outPos (lens : List ℕ) (R : List ℕ) (outInds : List (List ℕ)) (c : View ℕ) : List (List ℕ) :=
  List.zipWith (fun (i : ℕ) (out : List ℕ) => (c.inds.getD i []).map fun p : ℕ => out.idxOf p)
    (keptAxes lens.length R) outInds

/-- `out[outsl] = op(out[outsl], piece)`. The positions `pos` are runs, so that numpy selects the
outer product of them. -/
def updateOuter (op : α → α → α) (out : NArr α) (pos : List (List ℕ)) (piece : NArr α) : NArr α :=
  { shape := out.shape
    get := fun k =>
      if (List.zipWith (fun (l : List ℕ) (i : ℕ) => decide (i ∈ l)) pos k).all id then
        op (out.get k) (piece.get (List.zipWith (fun (l : List ℕ) (i : ℕ) => l.idxOf i) pos k))
      else out.get k }

/-- The loop shared by the `getview`s of reduce.py: start from an array filled with `e`, go over the
chunks of `loopover`, reduce each chunk and combine it into its place.
`chunk c` is the input array of chunk `c` (`inv.get(var)`, theorem `get_correct`). -/
def reduceLoop (op : α → α → α) (e : α) (limit : ℕ) (lens : List ℕ) (R : List ℕ)
    (outInds : List (List ℕ)) (chunk : View ℕ → NArr α) : NArr α :=
  ((inView lens R outInds).loopMem limit []).foldl
    (fun out c => updateOuter op out (outPos lens R outInds c) (npReduce op e (chunk c) R))
    { shape := outInds.map List.length, get := fun _ => e }

/-! ### The individual reductions -/

/-- `SumVar.getview`, reduce.py:181-189 -/
def sumVar (limit : ℕ) (lens R : List ℕ) (outInds : List (List ℕ)) (chunk : View ℕ → NArr ℚ) : NArr ℚ :=
  reduceLoop (· + ·) 0 limit lens R outInds chunk

/-- number of values reduced over, reduce.py:54-59 -/
def count (lens R : List ℕ) : ℕ := (R.map fun i => lens.getD i 0).prod

/-- `MeanVar.getview`, reduce.py:255-265 -/
def meanVar (limit : ℕ) (lens R : List ℕ) (outInds : List (List ℕ)) (chunk : View ℕ → NArr ℚ) : NArr ℚ :=
  (sumVar limit lens R outInds chunk).map fun x => x / (count lens R : ℚ)

/-- `np.minimum` on floats without NaN, `none` is `inf` -/
def minInf (a b : Option ℚ) : Option ℚ :=
  match a, b with
  | none, y => y
  | x, none => x
  | some x, some y => some (min x y)

/-- `np.maximum` on floats without NaN, `none` is `-inf` -/
def maxInf (a b : Option ℚ) : Option ℚ :=
  match a, b with
  | none, y => y
  | x, none => x
  | some x, some y => some (max x y)

/-- `MinVar.getview`, reduce.py:74-83 (`none` is `inf`), and `NANMinVar.getview`, reduce.py:86-95,
where `none` is NaN: `np.nanmin` of two values ignores NaN, and is NaN when both are. -/
def minVar (limit : ℕ) (lens R : List ℕ) (outInds : List (List ℕ)) (chunk : View ℕ → NArr (Option ℚ)) :
    NArr (Option ℚ) :=
  reduceLoop minInf none limit lens R outInds chunk

/-- `MaxVar.getview`, reduce.py:98-107 (`none` is `-inf`) and `NANMaxVar.getview`, 110-119 (`none` is NaN). -/
def maxVar (limit : ℕ) (lens R : List ℕ) (outInds : List (List ℕ)) (chunk : View ℕ → NArr (Option ℚ)) :
    NArr (Option ℚ) :=
  reduceLoop maxInf none limit lens R outInds chunk

/-- `np.nansum` of two values: NaN (`none`) counts as 0, the result is a number -/
def nanAdd (a b : Option ℚ) : Option ℚ := some (a.getD 0 + b.getD 0)

/-- `NANSumVar.getview`, reduce.py:216-225. (`np.nansum` over an axis of non-zero length is a
repeated `nanAdd`, starting from 0.) -/
def nanSumVar (limit : ℕ) (lens R : List ℕ) (outInds : List (List ℕ))
    (chunk : View ℕ → NArr (Option ℚ)) : NArr (Option ℚ) :=
  reduceLoop nanAdd none limit lens R outInds chunk

/-- `~np.isnan(indata)` as numbers -/
def notNan (a : Option ℚ) : Option ℚ := some (if a.isSome then 1 else 0)

/-- division `out[nmsk] /= N[nmsk]; out[~nmsk] = nan`, reduce.py:310-312 -/
def maskedDiv (x n : Option ℚ) : Option ℚ :=
  if 0 < n.getD 0 then some (x.getD 0 / n.getD 0) else none

/-- elementwise combination of two arrays of the same shape -/
def zip2 {β γ : Type} (f : α → β → γ) (a : NArr α) (b : NArr β) : NArr γ :=
  { shape := a.shape, get := fun k => f (a.get k) (b.get k) }

/-- `NANMeanVar.getview`, reduce.py:296-315 -/
def nanMeanVar (limit : ℕ) (lens R : List ℕ) (outInds : List (List ℕ))
    (chunk : View ℕ → NArr (Option ℚ)) : NArr (Option ℚ) :=
  zip2 maskedDiv (nanSumVar limit lens R outInds chunk)
    (nanSumVar limit lens R outInds fun c => (chunk c).map notNan)

/-- `VarianceVar.getview`, reduce.py:353-367 -/
def varianceVar (limit : ℕ) (lens R : List ℕ) (outInds : List (List ℕ)) (chunk : View ℕ → NArr ℚ) :
    NArr ℚ :=
  let N : ℚ := (count lens R : ℚ)
  zip2 (fun x x2 => (x2 - N * (x / N) ^ 2) / (N - 1)) (sumVar limit lens R outInds chunk)
    (sumVar limit lens R outInds fun c => (chunk c).map (· ^ 2))

/-- `NANVarianceVar.getview`, reduce.py:400-424; `none` is NaN -/
def nanVarianceVar (limit : ℕ) (lens R : List ℕ) (outInds : List (List ℕ))
    (chunk : View ℕ → NArr (Option ℚ)) : NArr (Option ℚ) :=
  let x := nanSumVar limit lens R outInds chunk
  let x2 := nanSumVar limit lens R outInds fun c => (chunk c).map (Option.map (· ^ 2))
  let N := nanSumVar limit lens R outInds fun c => (chunk c).map notNan
  { shape := x.shape
    get := fun k =>
      let n := (N.get k).getD 0
      if 1 < n then some ((((x2.get k).getD 0) - ((x.get k).getD 0) ^ 2 / n) / (n - 1)) else none }

/-- numpy broadcasting of two arrays of the same rank: a dimension of length 1 is repeated -/
def broadcast2 {β γ : Type} (f : α → β → γ) (a : NArr α) (b : NArr β) : NArr γ :=
  { shape := a.shape
    get := fun k => f (a.get k) (b.get (List.zipWith (fun (n : ℕ) (i : ℕ) => if n = 1 then 0 else i) b.shape k)) }

/-- `WeightedSumVar.getview`, reduce.py:206-212. `wchunk c` is `inw`, the weights conformed to the
chunk (length 1 along axes the weights do not have). -/
def weightedSumVar (limit : ℕ) (lens R : List ℕ) (outInds : List (List ℕ))
    (chunk wchunk : View ℕ → NArr ℚ) : NArr ℚ :=
  sumVar limit lens R outInds fun c => broadcast2 (· * ·) (chunk c) (wchunk c)

/-- the sum of weights of `WeightedMeanVar.getview`, reduce.py:289-290: each chunk adds
`npsum(inw, indices) * f` with `f = indata.size / (inw.size * out[outsl].size)`. `npsum(inw)` has
length 1 along the remaining axes and is broadcast over them. -/
def weightSum (limit : ℕ) (lens R : List ℕ) (outInds : List (List ℕ))
    (chunk wchunk : View ℕ → NArr ℚ) : NArr ℚ :=
  ((inView lens R outInds).loopMem limit []).foldl
    (fun W c =>
      let pos := outPos lens R outInds c
      let f : ℚ := ((chunk c).shape.prod : ℚ) / (((wchunk c).shape.prod : ℚ) * ((pos.map List.length).prod : ℚ))
      let s := npReduce (· + ·) 0 (wchunk c) R
      updateOuter (· + ·) W pos
        { shape := pos.map List.length, get := fun _ => s.get (s.shape.map fun _ => 0) * f })
    { shape := outInds.map List.length, get := fun _ => 0 }

/-- `WeightedMeanVar.getview`, reduce.py:281-293 -/
def weightedMeanVar (limit : ℕ) (lens R : List ℕ) (outInds : List (List ℕ))
    (chunk wchunk : View ℕ → NArr ℚ) : NArr ℚ :=
  zip2 (· / ·) (weightedSumVar limit lens R outInds chunk wchunk)
    (weightSum limit lens R outInds chunk wchunk)

/-- `WeightedVarianceVar.getview`, reduce.py:383-396 -/
def weightedVarianceVar (limit : ℕ) (lens R : List ℕ) (outInds : List (List ℕ))
    (chunk wchunk : View ℕ → NArr ℚ) : NArr ℚ :=
  let x := weightedSumVar limit lens R outInds chunk wchunk
  let x2 := sumVar limit lens R outInds fun c => broadcast2 (fun d w => d ^ 2 * w) (chunk c) (wchunk c)
  let W := weightSum limit lens R outInds chunk wchunk
  { shape := x.shape
    get := fun k => (x2.get k - x.get k * x.get k / W.get k) / (W.get k - 1) }

/-- product of data, which may be NaN, and a weight -/
def nanMul (d : Option ℚ) (w : ℚ) : Option ℚ := d.map (· * w)

/-- `WeightedNANSumVar.getview`, reduce.py:241-251 -/
def weightedNanSumVar (limit : ℕ) (lens R : List ℕ) (outInds : List (List ℕ))
    (chunk : View ℕ → NArr (Option ℚ)) (wchunk : View ℕ → NArr ℚ) : NArr (Option ℚ) :=
  nanSumVar limit lens R outInds fun c => broadcast2 nanMul (chunk c) (wchunk c)

/-- `WeightedNANMeanVar.getview`, reduce.py:331-350 -/
def weightedNanMeanVar (limit : ℕ) (lens R : List ℕ) (outInds : List (List ℕ))
    (chunk : View ℕ → NArr (Option ℚ)) (wchunk : View ℕ → NArr ℚ) : NArr (Option ℚ) :=
  zip2 maskedDiv (weightedNanSumVar limit lens R outInds chunk wchunk)
    (nanSumVar limit lens R outInds fun c =>
      broadcast2 (fun d w => some ((if d.isSome then 1 else 0) * w)) (chunk c) (wchunk c))

/-- `np.asarray(values, var.dtype)` when an integer-typed variable returns floating point values
(view.py:282-284): truncation towards zero -/
def castInt (x : ℚ) : ℤ := Int.tdiv x.num x.den

/-- `np.argmax` over a list (first position of the largest value) -/
def argmaxList (l : List ℚ) : ℕ := l.findIdx fun x => l.all fun y => decide (y ≤ x)

/-- `np.argmax(indata, index)` -/
def npArgmax (a : NArr ℚ) (i : ℕ) : NArr ℕ :=
  { shape := a.shape.eraseIdx i
    get := fun k => argmaxList ((List.range (a.shape.getD i 0)).map fun j : ℕ => a.get (k.insertIdx i j)) }

/-- `ArgMaxVar.getview`, reduce.py:141-149: each chunk *overwrites* the output. `junk` is the content
of `np.empty`. `ArgMinVar` (172-180) is the same with `argmin`. -/
def argMaxVar (limit : ℕ) (lens : List ℕ) (index : ℕ) (outInds : List (List ℕ)) (junk : List ℕ → ℕ)
    (chunk : View ℕ → NArr ℚ) : NArr ℕ :=
  ((inView lens [index] outInds).loopMem limit []).foldl
    (fun out c => updateOuter (fun _ x => x) out (outPos lens [index] outInds c) (npArgmax (chunk c) index))
    { shape := outInds.map List.length, get := junk }

end Reduce
end PyGeode
