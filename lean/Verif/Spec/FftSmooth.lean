/-
Specification side of smoothing by harmonics: what it is to keep the part of a series made of its first harmonics. On a
line of `n` points the harmonic number `k` is made of the cosine and the sine that go `k` times round over the line.
-/
import Mathlib.Analysis.SpecialFunctions.Trigonometric.Basic
import Mathlib.Analysis.SpecialFunctions.Complex.Circle

namespace PyGeode.Spec

/-- the cosine of harmonic `k` at the point `j` of a line of `n` points -/
noncomputable def cosine (n k j : ℕ) : ℝ := Real.cos (2 * Real.pi * k * j / n)

/-- the sine of harmonic `k` at the point `j` of a line of `n` points -/
noncomputable def sine (n k j : ℕ) : ℝ := Real.sin (2 * Real.pi * k * j / n)

/-- `y` is made of the harmonics below `m` only -/
def MadeOfHarmonics (n m : ℕ) (y : ℕ → ℝ) : Prop :=
  ∃ a b : ℕ → ℝ, ∀ j < n, y j = ∑ k ∈ Finset.range m, (a k * cosine n k j + b k * sine n k j)

/-- `z` has nothing in common with any harmonic below `m` -/
def NoHarmonics (n m : ℕ) (z : ℕ → ℝ) : Prop :=
  ∀ k < m, ∑ j ∈ Finset.range n, z j * cosine n k j = 0 ∧ ∑ j ∈ Finset.range n, z j * sine n k j = 0

/-- `y` is the part of `x` made of the harmonics below `m`: it is made of them, and what has been taken away has nothing
in common with them -/
structure LowHarmonics (n m : ℕ) (x y : ℕ → ℝ) : Prop where
  made : MadeOfHarmonics n m y
  rest : NoHarmonics n m fun j => x j - y j

/-- the complex harmonic that goes `k` times round over the line (backwards for negative `k`) -/
noncomputable def wave (n : ℕ) (k : ℤ) (j : ℕ) : ℂ := Complex.exp (2 * Real.pi * Complex.I * k * j / n)

/-- the same for complex series: `y` is made of the waves `-m < k < m`, and what has been taken away has nothing in common
with them -/
structure LowWaves (n m : ℕ) (x y : ℕ → ℂ) : Prop where
  made : ∃ a : ℤ → ℂ, ∀ j < n, y j = ∑ k ∈ Finset.Ioo (-(m : ℤ)) m, a k * wave n k j
  rest : ∀ k : ℤ, -(m : ℤ) < k → k < m → ∑ j ∈ Finset.range n, (x j - y j) * (starRingEnd ℂ) (wave n k j) = 0

end PyGeode.Spec
