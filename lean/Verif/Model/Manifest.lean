/-
Model of the manifest of /repo/pygeode/formats/data_scanner.py:34-158: a table of the contents of data files that is kept on
disk between runs and brought up to date when files change (`_Manifest.__init__`, `scan_files`, `get_table`, `save`), as a
state machine: files are written by other programs, runs are started, scan one file after another, save, and may be killed at
any point.

What the opener finds in a file is an opaque value (`γ`); `none` if the opener raises on it (a file it cannot read). The entries
recorded before the exception are lost with the run. Times are seconds, rational numbers (`getmtime`).
-/
import Mathlib.Data.Rat.Floor
import Mathlib.Algebra.Order.Floor.Ring

namespace PyGeode
namespace Manifest
variable {P γ : Type} [DecidableEq P]

/-- a data file: when it was last written, and what the opener finds in it -/
structure File (γ : Type) where
  mtime : ℚ
  contents : Option γ

/-- a `_Manifest` in memory, lines 37-80 -/
structure Sess (P γ : Type) where
  table : P → Option γ
  mtime : ℚ
  modified : Bool
  selected : List P

/-- the manifest file on disk: not there, cut off while it was written, or a table with the version that wrote it (is it the
current one?) and the modification time of the file -/
inductive Disk (P γ : Type) where
  | absent
  | torn
  | good (current : Bool) (table : P → Option γ) (mtime : ℚ)

/-- `_Manifest.__init__`, lines 37-80; `none`: raises. A file that is cut off ends inside `pickle.load(f)` or `f.read()` (lines
48-49), outside the `try`. -/
def load : Disk P γ → Option (Sess P γ)
  | .absent => some ⟨fun _ => none, 0, false, []⟩                                      -- lines 60-62
  | .torn => none
  | .good true t m => some ⟨t, m, false, []⟩                                           -- lines 46-57
  | .good false _ _ => some ⟨fun _ => none, 0, false, []⟩                              -- lines 60-62

/-- the body of the loop of `scan_files` for one file, lines 103-124; `none`: raises -/
def scanOne (fs : P → Option (File γ)) (s : Sess P γ) (f : P) : Option (Sess P γ) :=
  match fs f with
  | none => none                                                                       -- getmtime raises
  | some file =>
    if (s.table f).isSome ∧ ¬ s.mtime < (⌊file.mtime⌋ : ℚ) then some s                 -- lines 105-112
    else match file.contents with
      | none => none
      | some c => some { s with                                                        -- lines 115-124
          table := fun g => if g = f then some c else s.table g
          mtime := max s.mtime (⌊file.mtime⌋ : ℚ)
          modified := true }

/-- `get_table`, lines 133-134; `none`: KeyError -/
def getTable (s : Sess P γ) : Option (List (P × γ)) := s.selected.mapM fun f => (s.table f).map fun c => (f, c)

/-- how far the saving of a run has come: not begun, file opened (and so emptied), data written, modification time set -/
inductive Phase where
  | scanning | opened | written | saved
  deriving DecidableEq

/-- a run: the manifest in memory, the (normalised) files still to be scanned, the state of the saving -/
structure Proc (P γ : Type) where
  sess : Sess P γ
  todo : List P
  phase : Phase

/-- everything -/
structure World (P γ : Type) where
  fs : P → Option (File γ)
  disk : Disk P γ
  clock : ℚ
  proc : Option (Proc P γ)

/-- what can happen: another program writes a file (contents, the modification time it gets, the time of the event), or removes
one; a run is started on a list of files (`from_files`) at a time; the run scans the next file, opens the manifest for writing, writes it, sets its modification time; the run ends
(it returns, raises, or is killed) -/
inductive Event (P γ : Type) where
  | write (f : P) (c : Option γ) (m t : ℚ)
  | remove (f : P)
  | start (files : List P) (t : ℚ)
  | scan
  | openFile
  | writeData (t : ℚ)
  | setTime
  | stop

/-- One event; `none`: it cannot happen (or raises, which leaves everything as `stop` does). `norm` is `normpath`. -/
def step (norm : P → P) (w : World P γ) : Event P γ → Option (World P γ)
  | .write f c m t => if w.clock ≤ t ∧ m ≤ t then
      some { w with fs := fun g => if g = f then some ⟨m, c⟩ else w.fs g, clock := t } else none
  | .remove f => some { w with fs := fun g => if g = f then none else w.fs g }
  | .start files t => match w.proc with
    | some _ => none
    | none => if w.clock ≤ t then (load w.disk).map fun s =>
      { w with clock := t, proc := some ⟨{ s with selected := files }, files.map norm, .scanning⟩ } else none  -- lines 88-99
  | .scan => match w.proc with
    | some ⟨s, f :: rest, .scanning⟩ => (scanOne w.fs s f).map fun s' => { w with proc := some ⟨s', rest, .scanning⟩ }
    | _ => none
  | .openFile => match w.proc with                                                     -- lines 150-151
    | some ⟨s, [], .scanning⟩ => if s.modified then some { w with disk := .torn, proc := some ⟨s, [], .opened⟩ } else none
    | _ => none
  | .writeData t => match w.proc with                                                  -- lines 152-154
    | some ⟨s, [], .opened⟩ =>
      if w.clock ≤ t then some { w with disk := .good true s.table t, clock := t, proc := some ⟨s, [], .written⟩ } else none
    | _ => none
  | .setTime => match w.proc with                                                      -- lines 156-157
    | some ⟨s, [], .written⟩ => some { w with disk := .good true s.table s.mtime, proc := some ⟨s, [], .saved⟩ }
    | _ => none
  | .stop => match w.proc with
    | some _ => some { w with proc := none }
    | none => none

/-- a history -/
def run (norm : P → P) : World P γ → List (Event P γ) → Option (World P γ)
  | w, [] => some w
  | w, e :: es => (step norm w e).bind fun w' => run norm w' es

/-- before anything happened -/
def initial : World P γ := ⟨fun _ => none, .absent, 0, none⟩

end Manifest
end PyGeode
