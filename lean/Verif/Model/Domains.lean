/-
Model of the domains of /repo/pygeode/formats/data_scanner.py:347-578: how the pieces of data found in a set of files are
put together into datasets (`_Domain`, `_get_axis_names`, `_aggregate_along_axis`, `_get_prime_domains`, `_merge_domains`,
`_merge_all_domains`, `_cleanup_subdomains`, `_get_domains`).

Python sets of domains are lists here; their order, which Python does not fix, is arbitrary, and repeated elements are removed
where the code relies on it. The sets of coordinates are `Finset`s of values of an arbitrary type (the variable names are the
values of an axis `varlist`).
-/
import Mathlib.Data.Finset.Lattice.Fold
import Mathlib.Data.List.Sort
import Verif.Model.Axis

namespace PyGeode
namespace Domains
variable {β : Type} [DecidableEq β]

/-- `_Domain`, lines 348-361: the names of the axes and their values; two domains are equal if these are. (The sample axes
are left out.) -/
structure Domain (β : Type) where
  names : List Name
  vals : List (Finset β)

instance : DecidableEq (Domain β) := fun a b =>
  decidable_of_iff (a.names = b.names ∧ a.vals = b.vals) (by cases a; cases b; simp)

/-- `which_axis`, lines 364-369 -/
def which (d : Domain β) (n : Name) : Option ℕ := d.names.findIdx? fun m => decide (m = n)

/-- `get_axis_values(name)`, lines 390-391 -/
def valuesOf (d : Domain β) (n : Name) : Finset β :=
  match which d n with
  | some i => d.vals.getD i ∅
  | none => ∅

/-- the order of the pairs (position, name): tuples of Python, highest first (`sorted(..., reverse=True)`) -/
def after (p q : ℕ × Name) : Prop := q.1 < p.1 ∨ (p.1 = q.1 ∧ q.2 ≤ p.2)

instance : DecidableRel after := fun p q => inferInstanceAs (Decidable (q.1 < p.1 ∨ (p.1 = q.1 ∧ q.2 ≤ p.2)))

/-- `for i,name in sorted(...): if name not in names: names.append(name)`, lines 403-405 -/
def firsts (l : List (ℕ × Name)) : List Name := l.foldl (fun acc p => if p.2 ∈ acc then acc else acc ++ [p.2]) []

/-- `_get_axis_names(domains)`, lines 398-411 -/
def axisNames (ds : List (Domain β)) : List Name :=
  let ordered := (ds.flatMap fun d => d.names.zipIdx.map fun p => (p.2, p.1)).dedup
  let names := (firsts (ordered.insertionSort after)).reverse
  if "time".toList ∈ names then "time".toList :: names.erase "time".toList else names

/-- `without_axis`, lines 370-375: the key of a group of domains -/
def group (d : Domain β) (i : ℕ) : List Name × List (Option (Finset β)) := (d.names, (d.vals.map some).set i none)

/-- `_aggregate_along_axis(domains, axis_name)`, lines 424-447: domains that differ only in the values of that axis become
one, with the union of the values. -/
def aggregate (ds : List (Domain β)) (n : Name) : List (Domain β) :=
  (ds.map fun d => match which d n with
    | none => d                                                                          -- lines 429-431
    | some i =>
      let bin := (ds.filter fun e => decide (which e n = some i) && decide (group e i = group d i)).map fun e => e.vals.getD i ∅
      { d with vals := d.vals.set i (bin.foldl (· ∪ ·) ∅) }).dedup                      -- lines 432-445

/-- `_get_prime_domains(domains)`, lines 451-457 -/
def prime (ds : List (Domain β)) : List (Domain β) := (axisNames ds).foldl aggregate ds

/-- `d2`'s values of an axis of `d1`, lines 487-490: those of `d1` if `d2` does not have the axis -/
def otherVals (d1 d2 : Domain β) (n : Name) (v1 : Finset β) : Finset β :=
  if n ∈ d2.names then valuesOf d2 n else v1

/-- `_merge_domains(d1, d2)` once `d1` is the domain that has all the axes, lines 478-523 -/
def mergeInto (d1 d2 : Domain β) : List (Domain β) :=
  let v2 := List.zipWith (otherVals d1 d2) d1.names d1.vals
  let inter := List.zipWith (· ∩ ·) d1.vals v2
  let union := List.zipWith (· ∪ ·) d1.vals v2
  let mergeAxes := (List.range d1.vals.length).filter fun i =>
    decide ((d1.vals.getD i ∅).card < (union.getD i ∅).card) && decide ((v2.getD i ∅).card < (union.getD i ∅).card)  -- line 499
  if 1 < (inter.filter fun v => decide (v = ∅)).length then []                           -- lines 507-508
  else (mergeAxes.map fun i => inter.set i (union.getD i ∅)).filterMap fun vs =>
    if ∅ ∈ vs then none else some { d1 with vals := vs }                                 -- lines 514-521

/-- `_merge_domains(d1, d2)`, lines 462-523 -/
def merge (d1 d2 : Domain β) : List (Domain β) :=
  if axisNames [d1] = axisNames [d1, d2] then mergeInto d1 d2
  else if axisNames [d2] = axisNames [d1, d2] then mergeInto d2 d1
  else []

/-- `new_merged_domains - merged_domains` of one round, lines 528-533 -/
def mergeRound (ds merged : List (Domain β)) : List (Domain β) :=
  (ds.flatMap fun d1 => merged.flatMap fun d2 => if d1 = d2 then [] else merge d1 d2).dedup.filter fun d => d ∉ merged

/-- the loop of `_merge_all_domains(domains)`, lines 527-535; `none`: not finished after `fuel` rounds -/
def mergeLoop (ds : List (Domain β)) : ℕ → List (Domain β) → Option (List (Domain β))
  | 0, _ => none
  | fuel + 1, merged =>
    let new := mergeRound ds merged
    if new = [] then some merged else mergeLoop ds fuel (merged ++ new)

/-- `_merge_all_domains(domains)`, lines 525-537 -/
def mergeAll (fuel : ℕ) (ds : List (Domain β)) : Option (List (Domain β)) :=
  (mergeLoop ds fuel ds).map fun merged => ds ++ merged.filter fun d => d ∉ ds

/-- `_cleanup_subdomains(domains)`, lines 541-553: `d1` is junk -/
def isJunk (ds : List (Domain β)) (d1 : Domain β) : Bool :=
  ds.any fun d2 => decide (d1 ≠ d2) && decide (axisNames [d1] = axisNames [d2]) &&
    (axisNames [d2]).all fun a => decide (valuesOf d1 a ⊆ valuesOf d2 a)

/-- `_cleanup_subdomains(domains)`, lines 541-553 -/
def cleanup (ds : List (Domain β)) : List (Domain β) := ds.filter fun d => !isJunk ds d

/-- the loop of `_get_domains`, lines 573-577 -/
def domainLoop : ℕ → List (Domain β) → Option (List (Domain β))
  | 0, _ => none
  | fuel + 1, ds =>
    (mergeAll fuel ds).bind fun m =>
      let new := cleanup m
      if new.length = ds.length then some new else domainLoop fuel new

/-- `_get_domains(manifest, axis_manager)`, lines 558-578, on the domains of the entries -/
def getDomains (fuel : ℕ) (entries : List (Domain β)) : Option (List (Domain β)) := domainLoop fuel (prime entries.dedup)

end Domains
end PyGeode
