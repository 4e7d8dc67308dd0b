/-
Property C34: two axes that can be mapped to each other are combined to what the mapping gives, in either order.
-/
import Verif.Props.Ufunc

namespace PyGeode
namespace Combine
open Axis

/-- C34: two variables on one axis each are combined on the axis that both can be mapped to (or one that compares equal to it); the error and
the case that neither can be mapped are decided by `can_map` alone -/
theorem combineAxes_pair (o a : Axis) :
    (∀ ap, canMap a o = some (some ap) → ∃ r, combineAxes [[o], [a]] = some [r] ∧ (r = ap ∨ axEq r ap = true)) ∧
    (canMap a o = none → combineAxes [[o], [a]] = none) ∧
    (canMap a o = some none → ∃ r, combineAxes [[o], [a]] = some r ∧ (r = [o, a] ∨ ∃ x, r = [x] ∧ axEq x o = true ∧ axEq x a = true)) := by
  have hout : outAxes [[o], [a]] = insertAxis a [o] := rfl
  refine ⟨fun ap h => ?_, fun h => ?_, fun h => ?_⟩
  · have hi : insertAxis a [o] = some [ap] := by simp only [insertAxis, h]
    unfold combineAxes
    simp only [hout, hi, Option.map_some, List.find?_cons, List.find?_nil, List.all_cons, List.all_nil, Bool.and_true]
    by_cases h1 : elem ap [o] = true
    · exact ⟨o, by simp [h1], .inr (by simpa [elem] using h1)⟩
    · by_cases h2 : elem ap [a] = true
      · exact ⟨a, by simp [h1, h2], .inr (by simpa [elem] using h2)⟩
      · exact ⟨ap, by simp [h1, h2], .inl rfl⟩
  · have hi : insertAxis a [o] = none := by simp only [insertAxis, h]
    unfold combineAxes
    simp only [hout, hi, Option.map_none]
  · have hi : insertAxis a [o] = some [o, a] := by simp only [insertAxis, h, Option.map_some]
    unfold combineAxes
    simp only [hout, hi, Option.map_some, List.find?_cons, List.find?_nil, List.all_cons, List.all_nil, Bool.and_true]
    by_cases h1 : (elem o [o] && elem a [o]) = true
    · refine ⟨[o], by simp [h1], .inr ⟨o, rfl, ?_⟩⟩
      simpa [elem] using h1
    · by_cases h2 : (elem o [a] && elem a [a]) = true
      · refine ⟨[a], by simp [h1, h2], .inr ⟨a, rfl, ?_⟩⟩
        simpa [elem] using h2
      · exact ⟨[o, a], by simp [h1, h2], .inl rfl⟩

/-- the smaller of two axes is kept, in either order -/
example : combineAxes [[mkEx [20]], [mkEx [10, 20, 30]]] = some [mkEx [20]] ∧ combineAxes [[mkEx [10, 20, 30]], [mkEx [20]]] = some [mkEx [20]] := by
  decide +kernel

example : ∃ r, combineAxes [[mkEx [20]], [mkEx [10, 20, 30]]] = some [r] ∧ (r = mkEx [20] ∨ axEq r (mkEx [20]) = true) :=
  (combineAxes_pair (mkEx [20]) (mkEx [10, 20, 30])).1 (mkEx [20]) (by decide +kernel)

end Combine
end PyGeode
