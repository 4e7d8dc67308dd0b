/-
Specification of tick counts, for C118.
-/
import Verif.Model.Locator

namespace PyGeode.Spec
open PyGeode Locator

/-- The numbers of ticks hang together: a generator that has fewer ticks than wanted with its finest multiple has not more than wanted with
its coarsest one, whichever multiple it uses. -/
def Sensible (G : Gens) (want : ℚ) : Prop :=
  ∀ g < G.n, ∀ s < G.size g, ∀ s' < G.size g, G.count g s (G.size g - 1) < want → G.count g s' 0 ≤ want

/-- The numbers of ticks do not depend on the multiples in use, and they grow from the coarsest multiple of the first generator to the finest
one of the last. -/
def Graded (G : Gens) (c : ℕ → ℕ → ℚ) : Prop :=
  (∀ g < G.n, ∀ s < G.size g, ∀ i < G.size g, G.count g s i = c g i) ∧
  ∀ g i h j, g < G.n → h < G.n → i < G.size g → j < G.size h → (g < h ∨ g = h ∧ i ≤ j) → c g i ≤ c h j

end PyGeode.Spec
