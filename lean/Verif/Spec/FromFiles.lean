/-
Specification side of `from_files`: which collections of files, what they hold, and histories of reading.
-/
import Verif.Model.FromFiles

namespace PyGeode.Spec
open PyGeode FromFiles

variable {α O : Type} [DecidableEq O]

/-- A collection of variables in files that can be put together: no variable has two axes of the same name, no axis is called
`varlist`; the values of every axis increase; a variable has the same axes in all files, and any two variables have their common axes
in the same order; axes have the same name exactly if they are of the same class, and then their values refer to the same thing. -/
structure Scannable (entries : List (Entry α O)) : Prop where
  nodup : ∀ e ∈ entries, (e.axes.map Ax.name).Nodup
  novarlist : ∀ e ∈ entries, varlist ∉ e.axes.map Ax.name
  up : ∀ e ∈ entries, ∀ a ∈ e.axes, a.values.Pairwise (· < ·) ∧ a.values ≠ []
  same : ∀ e ∈ entries, ∀ e' ∈ entries, e.name = e'.name → e.axes.map Ax.name = e'.axes.map Ax.name
  order : ∀ e ∈ entries, ∀ e' ∈ entries, (e.axes.map Ax.name).filter (fun n => decide (n ∈ e'.axes.map Ax.name)) =
    (e'.axes.map Ax.name).filter (fun n => decide (n ∈ e.axes.map Ax.name))
  kind : ∀ e ∈ entries, ∀ e' ∈ entries, ∀ a ∈ e.axes, ∀ a' ∈ e'.axes, (a.name = a'.name ↔ a.cls = a'.cls) ∧
    (a.name = a'.name → a.origin = a'.origin)

/-- the entry has the value `v` at the point with the coordinate `pt n` on the axis called `n` -/
def HasValue (e : Entry α O) (pt : Name → ℚ) (v : α) : Prop :=
  ∃ k : List ℕ, k.length = e.axes.length ∧ (∀ j a, e.axes[j]? = some a → a.values[k.getD j 0]? = some (pt a.name)) ∧ e.data k = v

/-- the point lies on the axes -/
def OnAxes (axes : List (Ax O)) (pt : Name → ℚ) : Prop := ∀ a ∈ axes, pt a.name ∈ a.values

/-- sample axes: for every name an axis of that name found in the files -/
def Samples (entries : List (Entry α O)) (pick : Name → Ax O) : Prop :=
  ∀ e ∈ entries, ∀ a ∈ e.axes, (pick a.name).name = a.name ∧ ∃ e' ∈ entries, pick a.name ∈ e'.axes

/-- a request for positions on the axes, each once and in increasing order (as views make them) -/
def Ascending (axes : List (Ax O)) (I : List (List ℕ)) : Prop :=
  List.Forall₂ (fun (a : Ax O) (l : List ℕ) => l.Pairwise (· < ·) ∧ ∀ i ∈ l, i < a.values.length) axes I

/-- what the manager remembers after any number of requests of parts of the variables -/
inductive AfterReads (nan : α) (sets : List (List (DVar α O))) (M : Manager O) : Manager O → Prop
  | start : AfterReads nan sets M M
  | read {M' M'' : Manager O} {ds : List (DVar α O)} {x : DVar α O} {I : List (List ℕ)} {out : List ℕ → α} :
      AfterReads nan sets M M' → ds ∈ sets → x ∈ ds → Ascending x.axes I → getview nan M' x I = some (out, M'') →
      AfterReads nan sets M M''

/-- the names of the axes, their classes and what their values refer to -/
def labels (axes : List (Ax O)) : List (Name × Name × O) := axes.map fun a => (a.name, a.cls, a.origin)

/-- a dataset that makes sense: every variable is one of the files, with its axes; the values of axes increase; no two variables have
the same name; variables share their axes -/
structure Assembled (entries : List (Entry α O)) (ds : List (DVar α O)) : Prop where
  own : ∀ x ∈ ds, ∃ e ∈ entries, e.name = x.name ∧ labels x.axes = labels e.axes
  up : ∀ x ∈ ds, ∀ a ∈ x.axes, a.values.Pairwise (· < ·) ∧ a.values ≠ []
  nodup : (ds.map DVar.name).Nodup
  shared : ∀ x ∈ ds, ∀ y ∈ ds, ∀ a ∈ x.axes, ∀ b ∈ y.axes, a.name = b.name → a = b

/-- cell `k` of the part `I` of the variable lies at the point `pt` -/
def CellAt (x : DVar α O) (I : List (List ℕ)) (k : List ℕ) (pt : Name → ℚ) : Prop :=
  ∀ j a, x.axes[j]? = some a → k.getD j 0 < (I.getD j []).length ∧ a.values[(I.getD j []).getD (k.getD j 0) 0]? = some (pt a.name)

/-- `v` is what the last of the entries called `name` that has the point says -/
def LastSays (entries : List (Entry α O)) (name : Name) (pt : Name → ℚ) (v : α) : Prop :=
  ∃ l1 e l2, entries = l1 ++ e :: l2 ∧ e.name = name ∧ HasValue e pt v ∧ ∀ e' ∈ l2, e'.name = name → ¬ ∃ v', HasValue e' pt v'

end PyGeode.Spec
