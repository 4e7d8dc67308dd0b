/-
Model of smoothing by harmonics, /repo/pygeode/fft_smooth.py. Arithmetic is exact, on real and complex numbers (the
source uses float64 and complex128); the variable is of floating or complex type (an integer variable would be truncated,
line 48). The transforms of `numpy.fft` are described by their defining sums.
-/
import Verif.Model.VarOps
import Mathlib.Analysis.SpecialFunctions.Complex.Circle

namespace PyGeode
namespace FftSmooth
open NArr Combine VarOps

/-- `e^(2πi t/n)` -/
noncomputable def root (n : ℕ) (t : ℤ) : ℂ := Complex.exp (2 * Real.pi * Complex.I * t / n)

/-- `numpy.fft.fft(x, n)`, the coefficient number `k` -/
noncomputable def fft (n : ℕ) (x : ℕ → ℂ) (k : ℤ) : ℂ := ∑ j ∈ Finset.range n, x j * root n (-(j * k))

/-- `numpy.fft.ifft(c, n)` -/
noncomputable def ifft (n : ℕ) (c : ℕ → ℂ) (j : ℕ) : ℂ := (∑ k ∈ Finset.range n, c k * root n (j * k)) / n

/-- `numpy.fft.rfft(x, n)`: the coefficients `0 .. n/2` of a real line -/
noncomputable def rfft (n : ℕ) (x : ℕ → ℝ) (k : ℕ) : ℂ := fft n (fun j => x j) k

/-- the coefficients `0 .. n-1` that `irfft` takes `n/2 + 1` coefficients to stand for: those of a real line (the
imaginary parts of the first, and of the last when `n` is even, are ignored) -/
noncomputable def hermitian (n : ℕ) (c : ℕ → ℂ) (k : ℕ) : ℂ :=
  if k = 0 ∨ 2 * k = n then ((c k).re : ℂ) else if 2 * k < n then c k else (starRingEnd ℂ) (c (n - k))

/-- `numpy.fft.irfft(c, n)` -/
noncomputable def irfft (n : ℕ) (c : ℕ → ℂ) (j : ℕ) : ℝ := (ifft n (hermitian n c) j).re

/-- a bound of a Python slice of a list of length `n`: counted from the end if negative, moved inside the list -/
def sliceBound (n : ℕ) (b : ℤ) : ℤ := max 0 (min (if b < 0 then b + n else b) n)

/-- `c[start:stop] = 0` on an axis of length `n` (`stop = none`: up to the end) -/
noncomputable def zeroed (n : ℕ) (start : ℤ) (stop : Option ℤ) (c : ℕ → ℂ) (k : ℕ) : ℂ :=
  if sliceBound n start ≤ (k : ℤ) ∧ (k : ℤ) < (stop.map (sliceBound n)).getD n then 0 else c k

/-- what happens to one line of real data, fft_smooth.py:34-35 and 44-46 -/
noncomputable def smoothLine (n : ℕ) (m : ℤ) (x : ℕ → ℝ) : ℕ → ℝ :=
  irfft n (zeroed (n / 2 + 1) m none (rfft n x))

/-- what happens to one line of complex data, fft_smooth.py:39-42. (`ct[smsl] = 0` on line 41 has a list of slices for
its index, which numpy versions before 1.23 take for a tuple; later ones raise an exception.) -/
noncomputable def smoothLineC (n : ℕ) (m : ℤ) (x : ℕ → ℂ) : ℕ → ℂ :=
  ifft n (zeroed n m (some (-m + 1)) (fun k : ℕ => fft n x k))

/-- an operation on lines, done to every line of an array along axis `d` -/
def alongLines {α β : Type} (f : (ℕ → α) → ℕ → β) (a : NArr α) (d : ℕ) : NArr β :=
  { shape := a.shape, get := fun k => f (fun p => a.get (k.set d p)) (k.getD d 0) }

/-- `FFTSmoothVar.getview`, fft_smooth.py:18-48; `N` is the length of the axis, `line` what is done to each line -/
def smoothView {α : Type} (nr : List ℚ → ℚ) (junk : List ℕ → α) (line : (ℕ → α) → ℕ → α) (x : Var α) (d N : ℕ) (v : View Axis) :
    Option (NArr α) :=
  let ind := v.inds.getD d []                                                           -- line 23
  if ind = [] then none                                                                 -- line 24: `numpy.min` of nothing
  else
    let aview : View Axis := { axes := v.axes, inds := v.inds.set d (List.range N) }    -- lines 26, 31
    (x.read nr junk aview).map fun src => (alongLines line src d).takeAxis d ind        -- lines 28-29, 32-48

/-- `fft_smooth(var, saxis, maxharm)` for a real variable, fft_smooth.py:8-16 and 86 -/
noncomputable def fftSmooth (nr : List ℚ → ℚ) (junk : List ℕ → ℝ) (x : Var ℝ) (id : AxisId) (m : ℤ) : Option (Var ℝ) :=
  (foundAt (whichaxis x.axes id)).bind fun d => x.axes[d]?.map fun ax =>
    Var.ofView junk x.axes (smoothView nr junk (smoothLine ax.len m) x d ax.len)

/-- `fft_smooth(var, saxis, maxharm)` for a complex variable, fft_smooth.py:8-16 and 86 -/
noncomputable def fftSmoothC (nr : List ℚ → ℚ) (junk : List ℕ → ℂ) (x : Var ℂ) (id : AxisId) (m : ℤ) : Option (Var ℂ) :=
  (foundAt (whichaxis x.axes id)).bind fun d => x.axes[d]?.map fun ax =>
    Var.ofView junk x.axes (smoothView nr junk (smoothLineC ax.len m) x d ax.len)

end FftSmooth
end PyGeode
