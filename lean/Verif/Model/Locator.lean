/-
Model of the choice of tick marks on a time axis, `AutoCalendarLocator.__call__` (/repo/pygeode/timeticker.py:564-633). The numbers of ticks
are a parameter (for those of the generators see Verif/Model/Ticks.lean).
-/
import Verif.Model.Ticks

namespace PyGeode
namespace Locator
open Ticks

/-- The tick generators of a time axis, from years to seconds, for one view. `count g s i`: what `nticks(vmin, vmax, mults[i])` of generator
`g` returns when its multiple is number `s` (the generators of hours, minutes and seconds use both, timeticker.py:337-344). -/
structure Gens where
  n : ℕ
  size : ℕ → ℕ
  count : ℕ → ℕ → ℕ → ℚ

/-- `tk.best_mult(vmin, vmax, nticks)` of generator `g`, timeticker.py:40-68, when its multiple is number `s`; the search ends within `size`
steps (theorem `best_ends`) -/
def best (G : Gens) (want : ℚ) (g s : ℕ) : Option (ℚ × ℕ) := bestMult (G.count g s) (G.size g) want s (G.size g + 1)

/-- the generators' multiples, the generator in use, its number of ticks and its multiple -/
structure State where
  mults : ℕ → ℕ
  gen : ℕ
  nt : ℚ
  im : ℕ

/-- `best_mult` makes the multiple it finds the one of the generator, timeticker.py:66-67. -/
def setMult (f : ℕ → ℕ) (g i : ℕ) : ℕ → ℕ := fun h => if h = g then i else f h

/-- the loop, timeticker.py:598-623; `none` if it has not ended within the fuel -/
def search (G : Gens) (want : ℚ) : ℕ → State → Option State
  | 0, _ => none
  | fuel + 1, s =>
    if s.nt < want ∧ s.im = G.size s.gen - 1 ∧ s.gen < G.n - 1 then                     -- line 600
      (best G want (s.gen + 1) (s.mults (s.gen + 1))).bind fun r =>                     -- lines 601-602
        let f := setMult s.mults (s.gen + 1) r.2
        if r.2 = 0 ∧ want - s.nt ≤ r.1 - want then some { s with mults := f }           -- line 605
        else search G want fuel ⟨f, s.gen + 1, r.1, r.2⟩                                -- lines 607-610
    else if want < s.nt ∧ s.im = 0 ∧ 0 < s.gen then                                     -- line 611
      (best G want (s.gen - 1) (s.mults (s.gen - 1))).bind fun r =>                     -- lines 612-613
        let f := setMult s.mults (s.gen - 1) r.2
        if r.2 = G.size (s.gen - 1) - 1 ∧ |s.nt - want| ≤ |want - r.1| then some { s with mults := f }   -- line 616
        else search G want fuel ⟨f, s.gen - 1, r.1, r.2⟩                                -- lines 618-621
    else some s                                                                         -- lines 622-623

/-- `AutoCalendarLocator.__call__()`, timeticker.py:575-631: the generator and multiple whose ticks are shown (line 626), with the state left
for the next call (line 625 and the multiples of the generators) -/
def locate (G : Gens) (want : ℚ) (mults : ℕ → ℕ) (gen fuel : ℕ) : Option State :=
  (best G want gen (mults gen)).bind fun r =>                                           -- lines 593-596
    search G want fuel ⟨setMult mults gen r.2, gen, r.1, r.2⟩

/-- the calls of a locator for a sequence of views -/
def calls (want : ℚ) (fuel : ℕ) : List Gens → (ℕ → ℕ) → ℕ → Option (List State)
  | [], _, _ => some []
  | G :: l, mults, gen => (locate G want mults gen fuel).bind fun s => (calls want fuel l s.mults s.gen).map fun r => s :: r

/-- the calls of a new locator: it starts with the first generator and their first multiples, timeticker.py:570 and 11-12 -/
def run (want : ℚ) (views : List Gens) (fuel : ℕ) : Option (List State) := calls want fuel views (fun _ => 0) 0

end Locator
end PyGeode
