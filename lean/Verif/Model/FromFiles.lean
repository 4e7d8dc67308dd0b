/-
Model of `from_files` of /repo/pygeode/formats/data_scanner.py:595-674 from the table of files to the datasets, and of reading the
variables: the axis manager with its memories (lines 184-344), `_get_domains` (Verif/Model/Domains.lean), `_domain_as_dataset`,
`_DataVar.construct` and `_DataVar.getview` (697-737, with Verif/Model/Scan.lean); `DataInterface` (740-874).

Left out: auxiliary arrays of axes, attributes, the manifest (Verif/Model/Manifest.lean) and the progress bar. Python's identity of
axis objects: the manager keeps every axis it has seen (lines 222-223), so that an identity stands for the same axis for ever; the
memory of intersections, which the code keys by identities, is keyed by the axes themselves here. `lookup_axis` returns an axis with
the same name, class and values that is equal to the one given, so it does not show here.
-/
import Mathlib.Data.Char
import Mathlib.Data.List.Lex
import Mathlib.Data.List.Sort
import Verif.Model.Domains
import Verif.Model.Scan

namespace PyGeode
namespace FromFiles
open Domains Scan

/-- An axis: name, class, what its values refer to (units; reference date of times) and values. -/
structure Ax (O : Type) where
  name : Name
  cls : Name
  origin : O
  values : List ℚ
  deriving DecidableEq

/-- an entry of the table: a variable of a file, lines 117-122 -/
structure Entry (α O : Type) where
  name : Name
  axes : List (Ax O)
  data : List ℕ → α

/-- the name of the axis of variables, lines 163-164 -/
def varlist : Name := "varlist".toList

/-- coordinates: the names of variables on the axis `varlist`, numbers on the others -/
abbrev Coord := Name ⊕ ℚ

variable {α O : Type} [DecidableEq O]

/-! ### the axis manager -/

/-- `AxisManager._settify_axis(axis)`, lines 261-289 -/
def settify (a : Ax O) : Finset Coord := (a.values.map Sum.inr).toFinset

/-- Python's `sorted(set)`, line 299 -/
def sorted {β : Type} [LinearOrder β] (s : Finset β) : List β :=
  Quotient.liftOn s.1 (fun l => l.insertionSort (· ≤ ·)) fun a b h =>
    List.Perm.eq_of_pairwise' (List.pairwise_insertionSort _ a) (List.pairwise_insertionSort _ b)
      (((List.perm_insertionSort _ a).trans h).trans (List.perm_insertionSort _ b).symm)

/-- the numbers of a set of coordinates in increasing order, line 299 -/
def numbers (V : Finset Coord) : List ℚ := sorted (V.1.filterMap Sum.getRight?).toFinset

/-- the names of a set of coordinates in increasing order, line 299 -/
def namesIn (V : Finset Coord) : List Name := sorted (V.1.filterMap Sum.getLeft?).toFinset

/-- what the manager remembers, lines 201-207: the axes it has made, and the intersections -/
structure Manager (O : Type) where
  made : List ((Name × Finset Coord) × Ax O) := []
  crossed : List ((Ax O × Ax O) × Ax O) := []

/-- the axis like `sample` with the values `V`, lines 299-328 -/
def rebuild (sample : Ax O) (V : Finset Coord) : Ax O :=
  { sample with values := match sample.values with
    | x :: y :: _ => if y < x then (numbers V).reverse else numbers V                    -- lines 301-302
    | _ => numbers V }

/-- `AxisManager._unsettify_axis(sample, values)`, lines 292-333: remembered by the class of the sample and the values -/
def unsettify (M : Manager O) (sample : Ax O) (V : Finset Coord) : Ax O × Manager O :=
  match M.made.lookup (sample.cls, V) with
  | some a => (a, M)                                                                     -- lines 296-297
  | none => (rebuild sample V, { M with made := ((sample.cls, V), rebuild sample V) :: M.made })

/-- `AxisManager._get_axis_intersection([a, b])`, lines 336-344. The key is sorted: the order of the axes does not count. -/
def intersect (M : Manager O) (a b : Ax O) : Ax O × Manager O :=
  match (M.crossed.lookup (a, b)).or (M.crossed.lookup (b, a)) with
  | some c => (c, M)                                                                     -- line 338
  | none =>
    let r := unsettify M a (settify a ∩ settify b)                                       -- lines 339-341
    if r.1.values = [] then r else (r.1, { r.2 with crossed := ((a, b), r.1) :: r.2.crossed })   -- lines 342-344

/-! ### the datasets -/

/-- the domain of an entry, lines 563-568 -/
def entryDomain (e : Entry α O) : Domain Coord :=
  { names := varlist :: e.axes.map Ax.name, vals := {Sum.inl e.name} :: e.axes.map settify }

/-- a variable made by `_DataVar.construct`: the axes and the files that have it, lines 682-695 -/
structure DVar (α O : Type) where
  name : Name
  axes : List (Ax O)
  table : List (Entry α O)

/-- `domain.make_axes`, lines 384-385, without the list of variables: `pick` gives the sample axis of each name -/
def makeAxes (M : Manager O) (pick : Name → Ax O) : List (Name × Finset Coord) → List (Ax O) × Manager O
  | [] => ([], M)
  | (n, V) :: rest =>
    if n = varlist then makeAxes M pick rest
    else
      let r := unsettify M (pick n) V
      let s := makeAxes r.2 pick rest
      (r.1 :: s.1, s.2)

/-- `_DataVar.construct`, lines 683-695, with the rows of the table for that name (`_get_var_info`, lines 582-592) -/
def construct (entries : List (Entry α O)) (axes : List (Ax O)) (name : Name) : DVar α O :=
  let table := entries.filter fun e => decide (e.name = name)
  { name := name
    axes := axes.filter fun a => decide (a.name ∈ table.flatMap fun e => e.axes.map Ax.name)     -- lines 686-687
    table := table }

/-- `_domain_as_dataset`, lines 667-674 -/
def asDataset (entries : List (Entry α O)) (pick : Name → Ax O) (M : Manager O) (d : Domain Coord) : List (DVar α O) × Manager O :=
  let r := makeAxes M pick (d.names.zip d.vals)
  ((namesIn (valuesOf d varlist)).map (construct entries r.1), r.2)

/-- the list of datasets, line 663; `pick d` are the samples of the domain `d` -/
def asDatasets (entries : List (Entry α O)) (pick : Domain Coord → Name → Ax O) :
    Manager O → List (Domain Coord) → List (List (DVar α O)) × Manager O
  | M, [] => ([], M)
  | M, d :: ds =>
    let r := asDataset entries (pick d) M d
    let s := asDatasets entries pick r.2 ds
    (r.1 :: s.1, s.2)

/-- `from_files`, lines 595-664, from the table on: `files` are the files listed, in this order, each with its variables. `fuel` bounds
the rounds of the search for domains (`none`: not finished). -/
def fromFiles (fuel : ℕ) (pick : Domain Coord → Name → Ax O) (files : List (List (Entry α O))) : Option (List (List (DVar α O)) × Manager O) :=
  (getDomains fuel (files.flatten.map entryDomain)).map fun domains => asDatasets files.flatten pick {} domains

/-! ### reading -/

/-- the axes of the request, line 704 -/
def clipped (x : DVar α O) (I : List (List ℕ)) : List (Ax O) :=
  List.zipWith (fun (a : Ax O) l => { a with values := l.map fun i : ℕ => a.values.getD i 0 }) x.axes I

/-- the common parts of the axes, line 707 -/
def subaxes (M : Manager O) : List (Ax O × Ax O) → List (Ax O) × Manager O
  | [] => ([], M)
  | (a, b) :: rest =>
    let r := intersect M a b
    let s := subaxes r.2 rest
    (r.1 :: s.1, s.2)

/-- the file of an entry as a piece -/
def piece (e : Entry α O) : Piece α := { coords := e.axes.map Ax.values, data := e.data }

/-- one turn of the loop, lines 706-735 -/
def readStep (out_axes : List (Ax O)) (st : (List ℕ → α) × Manager O) (e : Entry α O) : Option ((List ℕ → α) × Manager O) :=
  let r := subaxes st.2 (out_axes.zip e.axes)
  (overlayOn (out_axes.map Ax.values) (r.1.map Ax.values) st.1 (piece e)).map fun out => (out, r.2)

/-- `_DataVar.getview`, lines 697-737, with what the manager remembers before and after; `none`: an assertion fails -/
def getview (nan : α) (M : Manager O) (x : DVar α O) (I : List (List ℕ)) : Option ((List ℕ → α) × Manager O) :=
  x.table.foldlM (readStep (clipped x I)) (fun _ => nan, M)

end FromFiles
end PyGeode
