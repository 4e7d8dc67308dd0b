/-
Specification of contour levels, for C115 and C116.
-/
import Verif.Model.Contours

namespace PyGeode.Spec
open PyGeode Contours

/-- `n` numbers from `start`, `step` apart -/
def evenly (start step : ℚ) (n : ℕ) : List ℚ := (List.range n).map fun i : ℕ => start + i * step

/-- There are levels on both sides of `x`. -/
def Reaches (levels : List ℚ) (x : ℚ) : Prop := (∃ a ∈ levels, a ≤ x) ∧ ∃ b ∈ levels, x ≤ b

/-- 1, 1.5, 2, 3, 4, 5, 6 or 10, times a power of ten -/
def RoundNumber (c : ℚ) : Prop := ∃ (r : ℚ) (p : ℤ), r ∈ ([1, 3 / 2, 2, 3, 4, 5, 6, 10] : List ℚ) ∧ c = r * 10 ^ p

/-- An outlier: below the second percentile, when the lowest value is more than 50 times as far from the median as that -/
def LowOutlier (l : List ℚ) (x : ℚ) : Prop :=
  x < percentile l 2 ∧ percentile l 2 < percentile l 50 ∧
    ∃ m ∈ l, 50 * (percentile l 50 - percentile l 2) < percentile l 50 - m

/-- An outlier: above the 98th percentile, when the highest value is more than 50 times as far from the median as that -/
def HighOutlier (l : List ℚ) (x : ℚ) : Prop :=
  percentile l 98 < x ∧ percentile l 50 < percentile l 98 ∧
    ∃ m ∈ l, 50 * (percentile l 98 - percentile l 50) < m - percentile l 50

/-- not all values are the same -/
def NotConstant (l : List ℚ) : Prop := ∃ x ∈ l, ∃ y ∈ l, x < y

/-- The style chosen when none is asked for: divergent for values (but for 2% at each end) on both sides of zero, and for a constant. -/
def GuessedStyle (l : List ℚ) (s : Style) : Prop :=
  s = .div ↔ ¬ NotConstant l ∨ (percentile l 2 < 0 ∧ 0 < percentile l 98)

end PyGeode.Spec
