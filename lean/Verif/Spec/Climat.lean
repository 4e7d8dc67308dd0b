/-
Specification side of climatological means: which input times belong to an output time.
-/
import Verif.Spec.Reduce

namespace PyGeode.Spec

/-- the kept fields of a date tuple -/
def keptFields (keep : List ℕ) (r : List ℤ) : List ℤ := keep.map fun i => r.getD i 0

/-- the positions of the input times `rows` whose kept fields are `key` -/
def timesWith (keep : List ℕ) (rows : List (List ℤ)) (key : List ℤ) : List ℕ :=
  (List.range rows.length).filter fun i => decide (keptFields keep (rows.getD i []) = key)

/-- A meaningful request to a time average: the requested output has shape `m` with time dimension `ti`, along
which the output times `sel` are asked for; no dimension is empty and no output time is repeated. `nout` is the
number of output times. -/
structure ClimReq (m : List ℕ) (ti : ℕ) (sel : List ℕ) (nout : ℕ) : Prop where
  dim : ti < m.length
  time : m.getD ti 0 = sel.length
  pos : ∀ n ∈ m, 0 < n
  nd : sel.Nodup
  range : ∀ o ∈ sel, o < nout

end PyGeode.Spec
