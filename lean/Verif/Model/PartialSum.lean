/-
Model of the C partial sums of /repo/pygeode/tools.c:216-262 and of their numpy wrappers,
/repo/pygeode/tools.py:452-522. Buffers are functions of the flat position; arithmetic is exact.
-/
import Verif.Model.NArr
import Mathlib.Algebra.Group.Defs
import Mathlib.Algebra.Group.Nat.Defs

namespace PyGeode
namespace PartialSum
variable {α : Type}

/-- `buf[j] += v` -/
def addAt [Add α] (buf : ℕ → α) (j : ℕ) (v : α) : ℕ → α := fun i => if i = j then buf i + v else buf i

/-- `partial_sum_TYPE`, tools.c:217-235: `(out, count)` after the three loops. -/
def partialSumC [Add α] (nx nin nout ny : ℕ) (inp : ℕ → α) (out : ℕ → α) (count : ℕ → ℕ)
    (outmap : ℕ → ℕ) : (ℕ → α) × (ℕ → ℕ) :=
  (List.range nx).foldl (fun st x =>
    (List.range nin).foldl (fun st i =>
      (List.range ny).foldl (fun st y =>
        (addAt st.1 (x * nout * ny + outmap i * ny + y) (inp (x * nin * ny + i * ny + y)),
          addAt st.2 (x * nout * ny + outmap i * ny + y) 1)) st) st) (out, count)

/-- `partial_nan_sum_TYPE`, tools.c:238-258; `none` is NaN. -/
def partialNanSumC [Add α] (nx nin nout ny : ℕ) (inp : ℕ → Option α) (out : ℕ → α) (count : ℕ → ℕ)
    (outmap : ℕ → ℕ) : (ℕ → α) × (ℕ → ℕ) :=
  (List.range nx).foldl (fun st x =>
    (List.range nin).foldl (fun st i =>
      (List.range ny).foldl (fun st y =>
        match inp (x * nin * ny + i * ny + y) with
        | none => st
        | some v => (addAt st.1 (x * nout * ny + outmap i * ny + y) v,
            addAt st.2 (x * nout * ny + outmap i * ny + y) 1)) st) st) (out, count)

/-- `out`, `count` of `partial_sum`, tools.py:460-486: zeros of the shape of the array with the axis
`iaxis` replaced by `nout` bins, filled by the C routine. (`tools.py:488-489` then adds them to a part
of the caller's arrays.) -/
def partialSum [Add α] [Zero α] (arr : NArr α) (iaxis nout : ℕ) (outmap : List ℕ) : NArr α × NArr ℕ :=
  let oshape := arr.shape.set iaxis nout
  let st := partialSumC (arr.shape.take iaxis).prod (arr.shape.getD iaxis 0) nout
    (arr.shape.drop (iaxis + 1)).prod (fun j => arr.get (NArr.unravel arr.shape j)) (fun _ => 0) (fun _ => 0)
    (fun i => outmap.getD i 0)
  ({ shape := oshape, get := fun k => st.1 (NArr.ravel oshape k) },
    { shape := oshape, get := fun k => st.2 (NArr.ravel oshape k) })

/-- `partial_nan_sum`, tools.py:492-522 -/
def partialNanSum [Add α] [Zero α] (arr : NArr (Option α)) (iaxis nout : ℕ) (outmap : List ℕ) :
    NArr α × NArr ℕ :=
  let oshape := arr.shape.set iaxis nout
  let st := partialNanSumC (arr.shape.take iaxis).prod (arr.shape.getD iaxis 0) nout
    (arr.shape.drop (iaxis + 1)).prod (fun j => arr.get (NArr.unravel arr.shape j)) (fun _ => 0) (fun _ => 0)
    (fun i => outmap.getD i 0)
  ({ shape := oshape, get := fun k => st.1 (NArr.ravel oshape k) },
    { shape := oshape, get := fun k => st.2 (NArr.ravel oshape k) })

end PartialSum
end PyGeode
