/-
Specification side of the statistics: the values that belong to an output cell, and textbook quantities of lists of pairs.
-/
import Verif.Spec.Reduce
import Verif.Spec.Var

namespace PyGeode.Spec
open PyGeode

/-- the positions `pos`, replaced along `raxes` by `t` -/
def over (raxes : List Axis) (t : List ℕ) (pos : Axis → ℕ) (a : Axis) : ℕ :=
  if a ∈ raxes then t.getD (raxes.idxOf a) 0 else pos a

/-- all choices of one position on each of the axes -/
def positions (raxes : List Axis) : List (List ℕ) := product (raxes.map fun a => List.range a.len)

/-- the pairs of values of two variables at the positions `pos` of the other axes and all positions of the axes `raxes`, as
far as both are not NaN -/
def jointSamples (raxes : List Axis) (f g : (Axis → ℕ) → Option ℚ) (pos : Axis → ℕ) : List (ℚ × ℚ) :=
  (positions raxes).filterMap fun t => (f (over raxes t pos)).bind fun a => (g (over raxes t pos)).map fun b => (a, b)

/-- the values of a variable at the positions `pos` of the other axes and all positions of the axes `raxes` that are not NaN -/
def samples (raxes : List Axis) (f : (Axis → ℕ) → Option ℚ) (pos : Axis → ℕ) : List ℚ :=
  (positions raxes).filterMap fun t => f (over raxes t pos)

def avg (l : List ℚ) : ℚ := l.sum / l.length

/-- sum of the products of the deviations from the means -/
def codev (P : List (ℚ × ℚ)) : ℚ := (P.map fun p => (p.1 - avg (P.map Prod.fst)) * (p.2 - avg (P.map Prod.snd))).sum

/-- sum of the squared deviations from the mean -/
def dev2 (l : List ℚ) : ℚ := (l.map fun x => (x - avg l) ^ 2).sum

/-- sample variance -/
def svar (l : List ℚ) : ℚ := dev2 l / (l.length - 1)

/-- sum of the squared distances of the points from the line `m x + b` -/
def misfit (P : List (ℚ × ℚ)) (m b : ℚ) : ℚ := (P.map fun p => (p.2 - (m * p.1 + b)) ^ 2).sum

end PyGeode.Spec
