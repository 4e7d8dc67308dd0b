/-
Model of smoothing, /repo/pygeode/smooth.py. Arithmetic is exact (the source uses float64), the variable is of floating
type (an integer variable would be truncated, line 77). `scipy.signal.convolve` and `fftconvolve` in mode 'same' are
described by `convolveSame`.
-/
import Verif.Model.Loop

namespace PyGeode
namespace Smooth
open NArr Combine VarOps Reduce Loop

/-- `src = zeros; src[..., ml : L - mr, ...] = indata`, smooth.py:81-83; `none`: the lengths do not agree -/
def placeIn (a : NArr ℚ) (d L ml mr : ℕ) : Option (NArr ℚ) :=
  if a.shape.getD d 0 = L - mr - ml then
    some { shape := a.shape.set d L
           get := fun k => if ml ≤ k.getD d 0 ∧ k.getD d 0 < L - mr then a.get (k.set d (k.getD d 0 - ml)) else 0 }
  else none

/-- `src[..., 0:ml, ...] = src[..., 2*ml-1 : ml-1 : -1, ...]`, smooth.py:86-89; `none`: there are not enough values -/
def mirrorLeft (a : NArr ℚ) (d ml : ℕ) : Option (NArr ℚ) :=
  if 0 < ml then
    if 2 * ml ≤ a.shape.getD d 0 then
      some { shape := a.shape
             get := fun k => if k.getD d 0 < ml then a.get (k.set d (2 * ml - 1 - k.getD d 0)) else a.get k }
    else none
  else some a

/-- `src[..., -mr:, ...] = src[..., -mr-1 : -2*mr-1 : -1, ...]`, smooth.py:92-95; `none`: there are not enough values -/
def mirrorRight (a : NArr ℚ) (d mr : ℕ) : Option (NArr ℚ) :=
  if 0 < mr then
    let L := a.shape.getD d 0
    if 2 * mr ≤ L then
      some { shape := a.shape
             get := fun k => if L - mr ≤ k.getD d 0 then a.get (k.set d (L - mr - 1 - (k.getD d 0 - (L - mr)))) else a.get k }
    else none
  else some a

/-- `scipy.signal.convolve(a, w, 'same')` along axis `d` (the kernel has length 1 along the other axes): the part of the
full convolution that starts at `(len(w) - 1) // 2`, of the length of `a` -/
def convolveSame (a : NArr ℚ) (w : List ℚ) (d : ℕ) : NArr ℚ :=
  { shape := a.shape
    get := fun k => ((List.range w.length).map fun j : ℕ =>
      let p : ℤ := (k.getD d 0 : ℤ) + ((w.length - 1) / 2 : ℕ) - (j : ℤ)
      if 0 ≤ p ∧ p < (a.shape.getD d 0 : ℤ) then w.getD j 0 * a.get (k.set d p.toNat) else 0).sum }

/-- `out[outsl] = piece`, smooth.py:97: `outsl` is a slice from 0 along `d`, cut off at the end of `out`. `none`: the
lengths do not agree. -/
def assign (out : NArr ℚ) (pos : List (List ℕ)) (d : ℕ) (piece : NArr ℚ) : Option (NArr ℚ) :=
  let n := out.shape.getD d 0
  let along := (pos.getD d []).filter fun p => decide (p < n)
  if along.length = piece.shape.getD d 0 then some (updateOuter (fun _ b => b) out (pos.set d along) piece) else none

/-- the body of the loop, smooth.py:79-97 -/
def smoothStep (nr : List ℚ → ℚ) (junk : List ℕ → ℚ) (x : Var ℚ) (w : List ℚ) (d L ml mr : ℕ) (cnv : List ℕ)
    (out : NArr ℚ) (p : List (List ℕ) × View Axis) : Option (NArr ℚ) := do
  let indata ← x.read nr junk p.2
  let src ← placeIn indata d L ml mr
  let src ← mirrorLeft src d ml
  let src ← mirrorRight src d mr
  assign out p.1 d ((convolveSame src w d).takeAxis d cnv)

/-- `SmoothVar.getview`, smooth.py:46-100; `w` is the normalised kernel -/
def smoothView (nr : List ℚ → ℚ) (junk : List ℕ → ℚ) (limit : ℕ) (x : Var ℚ) (w : List ℚ) (d N : ℕ) (v : View Axis) :
    Option (NArr ℚ) := do
  let ind := v.inds.getD d []
  let st ← ind.min?                                                                     -- line 55
  let sp ← ind.max?
  let loffs := w.length / 2                                                             -- lines 58-59
  let roffs := w.length - loffs
  let ml := loffs - st                                                                  -- line 64
  let mr := Max.max (sp + roffs) N - N                                                      -- line 65
  let insl := List.range' (st - loffs) (Min.min (sp + roffs) N - (st - loffs))              -- line 68
  let aview : View Axis := { axes := v.axes, inds := v.inds.set d insl }
  let cnv := ind.map fun i => i + loffs - st                                            -- line 72
  let chunks ← loopover nr limit x.axes [d] aview                                       -- line 79
  chunks.foldlM (smoothStep nr junk x w d (sp - st + w.length) ml mr cnv) { shape := v.shape, get := fun _ => 0 }

/-- `smooth(var, saxis, kernel)`, smooth.py:9-44 and 138-147. `none`: an exception, or a kernel that cannot be normalised
(its sum is zero: division by zero). An integer `kernel` stands for a Hanning window, a list of numbers. -/
def smooth (nr : List ℚ → ℚ) (junk : List ℕ → ℚ) (limit : ℕ) (x : Var ℚ) (id : AxisId) (kernel : List ℚ) :
    Option (Var ℚ) :=
  if kernel.length ≤ 2 then some x                                                      -- line 144
  else do
    let d ← foundAt (whichaxis x.axes id)
    let ax ← x.axes[d]?
    if kernel.length ≤ ax.len ∧ kernel.sum ≠ 0 then                                     -- lines 14, 24
      some (Var.ofView junk x.axes (smoothView nr junk limit x (kernel.map (· / kernel.sum)) d ax.len))
    else none

end Smooth
end PyGeode
