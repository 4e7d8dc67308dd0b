/-
Model of the progress bars, /repo/pygeode/progress.py:88-133. Rational numbers stand for floats. The display class (lines
19-86, a subclass of the external `progressbar`) is left out: what a bar tells it is the list of values given to `update`.
-/
import Mathlib.Data.Rat.Floor
import Mathlib.Tactic

namespace PyGeode
namespace Progress

/-- `PBar`, progress.py:88-105; `parent` is true for the bar that made the display -/
structure PBar where
  lower : ℚ
  upper : ℚ
  parent : Bool
  deriving DecidableEq

/-- what the display hears -/
inductive Event
  | update (y : ℚ)
  | finish
  deriving DecidableEq

/-- `PBar()`, progress.py:89-105 -/
def root : PBar := ⟨0, 100, true⟩

/-- `y` in `PBar.update`, progress.py:107-114 -/
def PBar.scale (b : PBar) (x : ℚ) : ℚ :=
  let y := b.lower + (b.upper - b.lower) * x / 100
  min (max 0 y) 100

/-- `PBar.update`, progress.py:107-118 -/
def PBar.update (b : PBar) (x : ℚ) : List Event :=
  let y := b.scale x
  .update y :: (if 100 ≤ y ∧ b.parent = true then [.finish] else [])

/-- `PBar.subset`, progress.py:120-127 -/
def PBar.subset (b : PBar) (L U : ℚ) : PBar :=
  ⟨b.lower + (b.upper - b.lower) * L / 100, b.lower + (b.upper - b.lower) * U / 100, false⟩

/-- `PBar.part`, progress.py:131; `n = 0` raises in Python and is not asked for below -/
def PBar.part (b : PBar) (i n : ℕ) : PBar := b.subset (100 / n * i) (100 / n * (i + 1))

/-- What a calculation does with the bar it is given: report a value, or hand `subset(L, U)` to another calculation, or
hand `part(i, n)` to it. -/
inductive Step
  | say (x : ℚ)
  | sub (L U : ℚ) (body : List Step)
  | part (i n : ℕ) (body : List Step)

mutual
/-- the events a calculation causes, in order -/
def Step.run (b : PBar) : Step → List Event
  | .say x => b.update x
  | .sub L U body => runAll (b.subset L U) body
  | .part i n body => runAll (b.part i n) body
def runAll (b : PBar) : List Step → List Event
  | [] => []
  | s :: l => s.run b ++ runAll b l
end

end Progress
end PyGeode
