/-
C01 for integers: an integer index selects the one element Python's `l[i]` gives.
-/
import Verif.Props.Index

namespace PyGeode
open Spec

/-- **C01**: an integer selects one element, the one numpy gives for it. -/
theorem expand_int {α : Type} (a : List α) (i : ℕ) (h : i < a.length) :
    ∃ l, expand (.int i) a.length = some l ∧ npIndex a (.list l) = some [a[i]] ∧ npIndex a (.int i) = some [a[i]] :=
  ⟨[i], rfl, by simp [npIndex, h], by simp [npIndex, h]⟩

/-- the second of three elements -/
example : expand (.int 1) 3 = some [1] ∧ npIndex [10, 20, 30] (.list [1]) = some [20] := by decide

end PyGeode
