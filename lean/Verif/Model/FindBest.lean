/-
Model of `DataInterface` of /repo/pygeode/formats/data_scanner.py:744-874: looking for variables in a list of datasets.

A dataset is the list of its variables and the list of its axes (their names are different, C31, C32). `requirement` is a function of the dataset; `maximize` and
`minimize` are given as lists of functions (a single function is a list of one: the order of the values is the same).
-/
import Mathlib.Algebra.Order.Field.Rat
import Mathlib.Data.Char
import Mathlib.Data.List.Lex
import Mathlib.Data.List.Sort
import Mathlib.Data.Prod.Lex
import Verif.Model.Axis

namespace PyGeode
namespace FindBest
variable {V : Type}

/-- the members of a dataset; an axis is a variable -/
structure Members (V : Type) where
  vars : List V
  axes : List V

/-- `v in dataset` and `dataset[v]`, /repo/pygeode/dataset.py:29-53 -/
def lookup (name : V → Name) (d : Members V) (n : Name) : Option V := (d.vars ++ d.axes).find? fun v => decide (name v = n)

/-- one turn of the loop of `find`, lines 779-789 -/
def match? (name : V → Name) (names : List Name) (requirement : Option (Members V → Bool)) (d : Members V) : Option (List V) :=
  if (requirement.map fun f => f d) = some false then none                               -- lines 781-783
  else names.mapM (lookup name d)                                                        -- lines 785-787

/-- `DataInterface.find(*vars, requirement=...)`, lines 762-789 -/
def find (name : V → Name) (datasets : List (Members V)) (names : List Name) (requirement : Option (Members V → Bool)) : List (List V) :=
  datasets.filterMap (match? name names requirement)

/-- `DataInterface.have(var)`, lines 792-798 -/
def have? (name : V → Name) (datasets : List (Members V)) (n : Name) : Bool := datasets.any fun d => (lookup name d n).isSome

/-- `domain_size(varlist)`, lines 845-846 -/
def domainSize (name : V → Name) (shape : V → List ℕ) (c : List V) : List (Name ×ₗ List ℕ) :=
  (c.map fun v => toLex (name v, shape v)).insertionSort (· ≤ ·)

/-- the candidates in the order of preference, lines 839-867: two sorts of Python, which keep the order of equals, the first with
`reverse=True` (which does so too) -/
def ranked (name : V → Name) (shape : V → List ℕ) (datasets : List (Members V)) (names : List Name) (requirement : Option (Members V → Bool))
    (maximize minimize : Option (List (List V → ℚ))) : List (List V) :=
  let candidates := (find name datasets names requirement).insertionSort fun a b => domainSize name shape b ≤ domainSize name shape a   -- line 847
  match maximize, minimize with
  | some F, _ => candidates.insertionSort fun a b => F.map (fun f => -f a) ≤ F.map fun f => -f b        -- lines 849-855, 862-863
  | none, some F => candidates.insertionSort fun a b => F.map (fun f => f a) ≤ F.map fun f => f b       -- lines 857-858, 864-865
  | none, none => candidates

/-- `DataInterface.find_best(varnames, requirement, maximize, minimize)`, lines 801-874; `none`: KeyError -/
def findBest (name : V → Name) (shape : V → List ℕ) (datasets : List (Members V)) (names : List Name) (requirement : Option (Members V → Bool))
    (maximize minimize : Option (List (List V → ℚ))) : Option (List V) :=
  (ranked name shape datasets names requirement maximize minimize).head?

end FindBest
end PyGeode
