/-
Model of editing a dataset: /repo/pygeode/dataset.py:29-50 (`__getitem__`, `__contains__`), 75-182 (`Dataset.__init__` as a whole), 245-302
(`rename_vars`), 305-368 (`remove`), 377-443 (`add`), 452-492 (`replace_vars`), 496-530 (`map`), 551-578 (`__call__`), 612-655
(`asdataset`) and 683-723 (`concat`, with the joining of the variables themselves). A global attribute is a name with a text; the metadata
of the variables are left out.
-/
import Verif.Model.Dataset
import Verif.Model.Call
import Verif.Model.Concat

namespace PyGeode
namespace DatasetOps
open Combine Dataset

variable {α : Type}

/-- a variable with its name -/
structure Member (α : Type) where
  name : Name
  var : Var α

/-- `dataset.vars` and `dataset.atts` -/
structure Data (α : Type) where
  vars : List (Member α)
  atts : List (Name × Name)

/-- `Dataset(vars, atts)`, dataset.py:75-182: the axes first, then the names; `none` is an exception -/
def make (nr : List ℚ → ℚ) (junk : List ℕ → α) (vars : List (Member α)) (atts : List (Name × Name)) : Option (Data α) :=
  ((withAxes nr junk (vars.map Member.var)).mapM id).map fun vs =>
    ⟨List.zipWith Member.mk (uniqueNames (vars.map Member.name)) vs, atts⟩

/-- `dataset.axes`, dataset.py:138-148: each axis once, in the order found -/
def axes (vars : List (Member α)) : List Axis :=
  (vars.flatMap fun x => x.var.axes).foldl (fun l a => if a ∈ l then l else l ++ [a]) []

/-- `dataset[key]`, dataset.py:42-44: a variable, or else an axis, or else a KeyError -/
def getitem (d : Data α) (key : Name) : Option (Var α ⊕ Axis) :=
  match (vardict (d.vars.map fun x => (x.name, x.var))).lookup key with
  | some v => some (.inl v)
  | none => ((vardict ((axes d.vars).map fun a => (a.name, a))).lookup key).map .inr

/-- one turn of the loop, dataset.py:294-300 -/
def renameOne (names : List (Name × Name)) (x : Member α) : Member α :=
  match names.lookup x.name with
  | some n => ⟨n, x.var⟩
  | none => x

/-- `rename_vars(names)`, dataset.py:292-301 -/
def renameVars (nr : List ℚ → ℚ) (junk : List ℕ → α) (d : Data α) (names : List (Name × Name)) : Option (Data α) :=
  make nr junk (d.vars.map (renameOne names)) d.atts

/-- `remove(*names)`, dataset.py:362-367; `none` is an AssertionError -/
def remove (nr : List ℚ → ℚ) (junk : List ℕ → α) (d : Data α) (names : List Name) : Option (Data α) :=
  if names.all (fun n => decide (n ∈ d.vars.map Member.name)) then
    make nr junk (d.vars.filter fun x => decide (x.name ∉ names)) d.atts
  else none

/-- what can be added: a variable or a dataset -/
inductive Part (α : Type) where
  | var : Member α → Part α
  | data : Data α → Part α

/-- `isinstance(v, Var)` -/
def Part.var? : Part α → Option (Member α)
  | .var x => some x
  | .data _ => none

/-- `isinstance(d, Dataset)` -/
def Part.data? : Part α → Option (Data α)
  | .var _ => none
  | .data d => some d

/-- the variables among the arguments, dataset.py:438 -/
def ownVars (parts : List (Part α)) : List (Member α) := parts.filterMap Part.var?

/-- the datasets among the arguments, dataset.py:439 -/
def ownData (parts : List (Part α)) : List (Data α) := parts.filterMap Part.data?

/-- `add(*parts)`, dataset.py:430-442: the common attributes are computed, but those of the dataset itself are used -/
def add (nr : List ℚ → ℚ) (junk : List ℕ → α) (d : Data α) (parts : List (Part α)) : Option (Data α) :=
  make nr junk (d.vars ++ (ownVars parts ++ (ownData parts).flatMap Data.vars)) d.atts

/-- `replace_vars(new)`, dataset.py:486-491 -/
def replaceVars (nr : List ℚ → ℚ) (junk : List ℕ → α) (d : Data α) (new : List (Name × Member α)) : Option (Data α) :=
  make nr junk (d.vars.map fun x => (new.lookup x.name).getD x) d.atts

/-- `map(f)`, dataset.py:515-529: the outer `none` of `f` is an exception, the inner one is the result None -/
def map {β : Type} (nr : List ℚ → ℚ) (junk : List ℕ → β) (f : Member α → Option (Option (Member β))) (d : Data α) : Option (Data β) :=
  (d.vars.mapM f).bind fun l => make nr junk (l.filterMap id) d.atts

/-- `dataset(**kw)`, dataset.py:578: `map('__call__')`, in which mismatches are ignored -/
def call (nr : List ℚ → ℚ) (junk : List ℕ → ℚ) (limit : ℕ) (d : Data ℚ) (kw : List (Name × Axis.Arg)) : Option (Data ℚ) :=
  map nr junk (fun x => (Call.call nr junk limit x.var true kw).map fun y => some ⟨x.name, y⟩) d

/-- `asdataset(parts)` of a list, dataset.py:637-642 and 653-654 -/
def asDataset (nr : List ℚ → ℚ) (junk : List ℕ → α) (parts : List (Part α)) : Option (Data α) :=
  match ownData parts with
  | d :: ds => add nr junk d (ds.map .data ++ (ownVars parts).map .var)
  | [] => make nr junk (ownVars parts) []

/-- `assert all(v.naxes == naxes)` and `axes[i].isparentof(v.axes[i])`, concat.py:21-24 -/
def sameKinds (vs : List (Var α)) : Bool := match vs with
  | [] => false
  | v :: ws => ws.all fun w => decide (w.axes.length = v.axes.length) &&
    (v.axes.zip w.axes).all fun p => decide (p.1.classes.headD [] ∈ p.2.classes)

/-- `concat(*vars)` of variables, concat.py:9-58 and 102-114: along the one axis that differs, or along a new axis `new`; `none` is
an exception -/
def joinVars (nr : List ℚ → ℚ) (junk : List ℕ → α) (new : ℕ → Axis) (vs : List (Var α)) : Option (Var α) :=
  match vs with
  | [v] => some v
  | vs => if sameKinds vs then match Concat.findAxis (vs.map Var.axes) with
      | .axis j => Concat.concatVar nr junk j vs
      | .newAxis => Concat.stackVar nr junk (new vs.length) vs
      | .error => none
    else none

/-- `concat(*datasets)`, dataset.py:683-723 -/
def concat (nr : List ℚ → ℚ) (junk : List ℕ → α) (new : ℕ → Axis) (ds : List (Data α)) : Option (Data α) :=
  match ds with
  | [d] => some d
  | ds =>
    ((segments (ds.flatMap fun d => d.vars.map fun x => (x.name, x.var))).mapM fun p =>
      (joinVars nr junk new p.2).map fun y => (⟨p.1, y⟩ : Member α)).bind fun vars =>
    make nr junk vars (commonDict (fun a b => decide (a ≠ b)) (ds.map Data.atts))

end DatasetOps
end PyGeode
