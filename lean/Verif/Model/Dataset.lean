/-
Model of how a Dataset names its variables and axes: /repo/pygeode/dataset.py:75-182 (`Dataset.__init__`), 657-681
(`axis_name_clumping`) and 683-723 (`concat` of datasets).
-/
import Verif.Model.VarOps

namespace PyGeode
namespace Dataset

/-- `"%02d" % c` -/
def fmt02 (c : ℕ) : Name := if c < 10 then '0' :: Nat.toDigits 10 c else Nat.toDigits 10 c

/-- longest name (only used to see that the next loop ends) -/
def maxLen (taken : List Name) : ℕ := taken.foldr (fun m acc => max m.length acc) 0

theorem le_maxLen {taken : List Name} {n : Name} (h : n ∈ taken) : n.length ≤ maxLen taken := by
  induction taken with
  | nil => simp at h
  | cons m taken ih =>
    rcases List.mem_cons.1 h with rfl | h
    · exact le_max_left _ _
    · exact le_trans (ih h) (le_max_right _ _)

/-- `while newname in namecount: newname += 'x'`, dataset.py:123 and 177 -/
def fresh (taken : List Name) (n : Name) : Name :=
  if h : n ∈ taken then fresh taken (n ++ ['x']) else n
  termination_by maxLen taken + 1 - n.length
  decreasing_by
    have := le_maxLen h
    simp only [List.length_append, List.length_singleton]
    omega

/-- the default name, dataset.py:153-158 -/
def fillBlank (n : Name) : Name := if n = [] then "var".toList else n

/-- the renaming loop, dataset.py:167-178; `counts` is `namecount`, whose keys are `taken` -/
def renameLoop (taken : List Name) (dup : Name → Bool) : List Name → (Name → ℕ) → List Name
  | [], _ => []
  | n :: ns, counts =>
    if dup n then
      fresh taken (n ++ fmt02 (counts n + 1)) ::
        renameLoop taken dup ns (fun m => if m = n then counts n + 1 else counts m)
    else n :: renameLoop taken dup ns counts

/-- the names of the variables of a dataset, dataset.py:153-178 -/
def uniqueNames (names : List Name) : List Name :=
  let old := names.map fillBlank
  renameLoop old (fun n => decide (old.count n ≠ 1)) old (fun _ => 0)

/-- `dict([v.name, v] for v in vars)`, dataset.py:182 -/
def vardict {V : Type} (l : List (Name × V)) : List (Name × V) := l.foldl (fun d p => Axis.dictSet d p.1 p.2) []

/-! ### axes -/

/-- families of equal axes with one name -/
abbrev Families := List (List Axis)

/-- dataset.py:668-679: the object is known already, or goes to the first family it is equal to, or starts one.
(Objects without any difference are taken as one object.) -/
def addAxis (a : Axis) : Families → Families
  | [] => [[a]]
  | e :: es => if a ∈ e then e :: es else if Axis.axEq a (e.headD a) then (e ++ [a]) :: es else e :: addAxis a es

/-- one axis of `axis_name_clumping`, dataset.py:665-679 -/
def clumpStep (d : List (Name × Families)) (a : Axis) : List (Name × Families) :=
  if a.name ∈ d.map Prod.fst then d.map fun p => if p.1 = a.name then (p.1, addAxis a p.2) else p
  else d ++ [(a.name, addAxis a [])]

/-- `axis_name_clumping(varlist)`, dataset.py:657-681 -/
def clump (axes : List Axis) : List (Name × Families) := axes.foldl clumpStep []

/-- `newaxes[id(a)]`, dataset.py:111-128 -/
def newAxis (d : List (Name × Families)) (a : Axis) : Axis :=
  match d.lookup a.name with
  | none => a
  | some [e] => e.headD a
  | some es =>
    let i := es.findIdx fun e => decide (a ∈ e)
    let h := (es.getD i []).headD a
    { h with name := fresh (d.map Prod.fst) (a.name ++ fmt02 (i + 1)) }

variable {α : Type}

/-- the variables with the new axes, dataset.py:130-135 -/
def withAxes (nr : List ℚ → ℚ) (junk : List ℕ → α) (vars : List (Var α)) : List (Option (Var α)) :=
  let d := clump (vars.flatMap Var.axes)
  vars.map fun v =>
    let axes := v.axes.map (newAxis d)
    if v.axes = axes then some v else VarOps.replaceAxes nr junk v axes

/-! ### joining datasets -/

/-- the segments by name, in the order found, dataset.py:699-706 -/
def segments {V : Type} (l : List (Name × V)) : List (Name × List V) :=
  l.foldl (fun d p => if p.1 ∈ d.map Prod.fst then d.map fun q => if q.1 = p.1 then (q.1, q.2 ++ [p.2]) else q
    else d ++ [(p.1, [p.2])]) []

end Dataset
end PyGeode
