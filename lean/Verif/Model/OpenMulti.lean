/-
Model of opening many files as one dataset from two of them, /repo/pygeode/formats/multifile.py:100-302 (`open_multi`), and
of the scan that verifies them, lines 433-549 (`check_multi`), for one variable with a time axis. Reading is
`Multifile.getview`. Dates have all six fields: those a file name does not give are 1 (month, day) or 0, as `_get_dates`
(/repo/pygeode/timeaxis.py:662-702) and the constructor (/repo/pygeode/timeaxis.py:374-383) fill them in. Floating point values are exact
rationals. Every file can be opened and has the variable.
-/
import Verif.Model.Multifile
import Verif.Model.CalendarPy
import Mathlib.Algebra.Order.Field.Rat

namespace PyGeode
namespace OpenMulti
open Calendar TimeC Multifile

/-- One file: the date in its name, and its variable: the time axis (start date, units, dates) and the data of each time. -/
structure MFile (β : Type) where
  stamp : Date
  start : Date
  unit : Units
  times : List Date
  data : ℕ → β

variable {β : Type}

/-- `reltime`, /repo/pygeode/timeutils.py:86-93 -/
def reltime (c : Cal) (dates : List Date) (start : Date) (u : Units) : Option (List ℚ) :=
  dates.mapM fun d => (dateAsVal c start d).map fun v : ℤ => (v : ℚ) / unitfactor u

/-- `np.diff` -/
def diffs : List ℚ → List ℚ
  | a :: b :: l => (b - a) :: diffs (b :: l)
  | _ => []

/-- one comparison of `np.allclose` -/
def close (a b : ℚ) : Bool := decide (|a - b| ≤ 1 / 100000000 + 1 / 100000 * |b|)

/-- `delta`, /repo/pygeode/timeutils.py:97-121, on the values of the axis in its own units. `none` is the exception for
unequal steps. -/
def delta (vals : List ℚ) : Option ℚ :=
  match diffs vals with
  | [] => some 0
  | d :: ds => if (d :: ds).all fun e => close e d then some d else none

/-- `Axis.withnewvalues`, /repo/pygeode/axis.py:645-649, of a time axis: the dates of the values,
/repo/pygeode/timeaxis.py:87-94 and 708-740 -/
def withnewvalues (c : Cal) (start : Date) (u : Units) (vals : List ℚ) : Option (List Date) :=
  vals.mapM fun x => valAsDate c start (npRound (x * unitfactor u))

/-- The files in the order of their dates, lines 246-253. The first axis of the files starts at the first name. -/
def sortFiles (c : Cal) (fs : List (MFile β)) : Option (List (MFile β)) :=
  match fs with
  | [] => none
  | f :: _ =>
    (fs.mapM fun g => (dateAsVal c f.stamp g.stamp).map fun v : ℤ => ((v : ℚ) / unitfactor .days, g)).map fun l =>
      (l.insertionSort (fun a b => a.1 ≤ b.1)).map Prod.snd

/-- The dates of the time axis, made from the first and the last file, lines 264-293. `stamps` are the dates of the
files, in order. -/
def timeAxis (c : Cal) (t1 t2 : MFile β) (stamps : List Date) : Option (List Date) :=
  if max t1.times.length t2.times.length = 1 then                                              -- line 274
    (reltime c t1.times t1.stamp .days).bind fun off =>                                        -- line 275
      (reltime c stamps t1.stamp .days).bind fun fvals =>
        withnewvalues c t1.stamp .days (fvals.map fun x => x + off.getD 0 0)                   -- line 276
  else if t1.unit ≠ t2.unit then none                                                          -- line 279
  else
    (reltime c t1.times t1.start t1.unit).bind fun v1 =>
      (reltime c t2.times t2.start t2.unit).bind fun v2 =>
        (delta v1).bind fun d1 => (delta v2).bind fun d2 =>
          (reltime c t2.times t1.start t2.unit).bind fun w2 =>                                 -- line 283
            let dt := max d1 d2                                                                -- line 280
            if dt ≤ 0 then none                                                                -- line 281
            else
              match v1.head?, w2.getLast? with
              | some val1, some val2 =>
                let ntf := (val2 - val1) / dt                                                  -- line 284
                let nt := npRound ntf                                                          -- line 285
                if |ntf - nt| > 1 / 10 * dt then none                                          -- lines 286-287
                else if nt + 1 ≤ 0 then none                                                   -- lines 288-290
                else withnewvalues c t1.start t1.unit
                  ((List.range (nt + 1).toNat).map fun k : ℕ => (k : ℚ) * dt + val1)           -- line 291
              | _, _ => none

/-- the date with the given fields -/
def ofRow (r : Row) : Date := ⟨r.getD 0 0, r.getD 1 0, r.getD 2 0, r.getD 3 0, r.getD 4 0, r.getD 5 0⟩

/-- the fields of a date, slowest first, `Time.common_fields`, /repo/pygeode/timeaxis.py:280-286 -/
def toRow (d : Date) : Row := [d.year, d.month, d.day, d.hour, d.minute, d.second]

/-- the value of a date on the axis of the files, `reltime(times, startdate=faxis.startdate, units=faxis.units)` -/
def fileVal (c : Cal) (s d : Date) : ℚ := ((dateAsVal c s d).getD 0 : ℤ) / unitfactor .days

/-- what `getview` uses of an opened file; the order is `np.argsort(self.values)`, /repo/pygeode/timeaxis.py:212 -/
def toFile (c : Cal) (f : MFile β) : File β :=
  { rows := f.times.map toRow
    order := (List.range f.times.length).insertionSort fun i j =>
      (f.times.map fun d => (dateAsVal c f.start d).getD 0).getD i 0 ≤ (f.times.map fun d => (dateAsVal c f.start d).getD 0).getD j 0
    data := f.data }

/-- the variable of the dataset: the dates of its time axis, and what a read of the given positions along it returns -/
structure Opened (β : Type) where
  axis : List Date
  read : List ℕ → Option (List β)

/-- reading the combined variable: `Multifile_Var.getview` on the dates of the requested positions,
/repo/pygeode/formats/multifile.py:336-418 -/
def readFiles (c : Cal) (gs : List (MFile β)) (s : Date) (axis : List Date) (idx : List ℕ) : Option (List β) :=
  getview (gs.map fun g => some (toFile c g)) (gs.map fun g => fileVal c s g.stamp) (fun r => fileVal c s (ofRow r))
    (idx.map fun i : ℕ => toRow (axis.getD i ⟨0, 1, 1, 0, 0, 0⟩))

/-- `open_multi`, /repo/pygeode/formats/multifile.py:100-302, on the files in the order of their names -/
def openMulti (c : Cal) (fs : List (MFile β)) : Option (Opened β) :=
  match fs with
  | [f] => some ⟨f.times, fun idx => some (idx.map f.data)⟩                                    -- line 204
  | _ =>
    (sortFiles c fs).bind fun gs =>
      match gs.head?, gs.getLast? with
      | some f, some l =>
        (timeAxis c f l (gs.map MFile.stamp)).map fun axis => ⟨axis, readFiles c gs f.stamp axis⟩
      | _, _ => none

/-- The part of `check_multi` that concerns the times,
/repo/pygeode/formats/multifile.py:524-543: no time of a file is at or past the date of the next
one or before its own date, and the times of all files are exactly those of the axis. `s` and `u` are the start date
and the units of the axis. (The comparison of the data read in both ways, lines 492-522, the comparison of variable names and the search for gaps are left out.) -/
def checkTimes (c : Cal) (gs : List (MFile β)) (axis : List Date) (s : Date) (u : Units) : Bool :=
  let val (d : Date) : ℚ := ((dateAsVal c s d).getD 0 : ℤ) / unitfactor u
  match gs.head? with
  | some f =>
    let fvals := gs.map fun g => fileVal c f.stamp g.stamp
    let covered := gs.flatMap fun g => g.times.map val
    (gs.zipIdx.all fun gi => gi.1.times.all fun d =>
      (match fvals[gi.2 + 1]? with
        | some x => decide (fileVal c f.stamp d < x)                                           -- lines 525-527
        | none => true) && decide (fvals.getD gi.2 0 ≤ fileVal c f.stamp d)) &&                -- lines 528-530
    ((axis.map val).all fun x => covered.contains x) &&                                        -- lines 532-537
    (covered.all fun x => (axis.map val).contains x)                                           -- lines 538-543
  | none => false

end OpenMulti
end PyGeode
