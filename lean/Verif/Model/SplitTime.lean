/-
Model of splitting a time axis into years and the rest and of joining them again, /repo/pygeode/timeutils.py:353-562. Floating-point
data only: assigning NaN to an array of integers fails (line 455). Names and attributes of variables are left out.
-/
import Verif.Model.TimeMatch
import Verif.Model.NetCdf

namespace PyGeode
namespace SplitTime
open NArr Combine VarOps ClimVar
variable {α : Type}

/-- `_splittime(taxis)`, timeutils.py:354-370: the years, and the dates without their years; `none`: no years, or nothing else -/
def splitAxis (nr : List ℚ → ℚ) (mk : List (Name × List ℚ) → Axis) (t : Axis) : Option (Axis × Axis) :=
  if hasField t "year".toList then                                                                      -- line 361
    let years := ((((List.range t.len).map (fieldAt t "year".toList)).dedup).insertionSort (· ≤ ·))      -- line 364
    (distinct mk t (modifyFields t none ["year".toList])).map fun days =>                                -- line 368
      (NetCdf.named nr "year".toList false (years.map fun y : ℤ => (y : ℚ)), { days with name := "day".toList })
  else none

/-- the date fields of `_jointime(years, days)`, timeutils.py:392-399: all days of the first year, all days of the second, ... The
fields of `days` are whole numbers. -/
def joinFields (years days : Axis) : List (Name × List ℚ) :=
  ("year".toList, years.values.flatMap fun y => List.replicate days.len y) ::
    days.auxarrays.map fun p =>
      (p.1, (List.range years.len).flatMap fun _ => (List.range days.len).map fun d => (fieldAt days p.1 d : ℚ))

/-- `_jointime(years, days)`, timeutils.py:376-404. `mk` makes a time axis of the class of `days`, with its units, out of date fields.
The assertion of line 382 looks at the values of `days`, not at its fields, and never fails. -/
def joinAxes (mk : List (Name × List ℚ) → Axis) (years days : Axis) : Axis := mk (joinFields years days)

/-- `timetype(units=timeunits, **fields)`, timeutils.py:402: a time axis out of date fields, without a start date, which is then the
first date (timeaxis.py:98-108) -/
def fromFields (nr : List ℚ → ℚ) (c : Calendar.Cal) (u : Calendar.Units) (aux : List (Name × List ℚ)) : Axis :=
  let dates := (List.range ((aux.map fun p => p.2.length).headD 0)).map fun i : ℕ =>
    dictOf fun f => (aux.lookup f).map fun col => ⌊col.getD i 0⌋
  CfFile.timeAxis nr "time".toList { cal := c, units := u, start := dates.headD {}, dates := dates }

/-- the last of the numbers below `n` with a property -/
def lastWith (p : ℕ → Bool) : ℕ → Option ℕ
  | 0 => none
  | n + 1 => if p n then some n else lastWith p n

/-- `SplitTime.getview`, timeutils.py:435-475. `ti` is the number of the time axis `t`. The output is filled with NaN, then the values
read are put where `out_sl` says (the last one, if there are several). -/
def splitView (nr : List ℚ → ℚ) (nan : α) (junk : List ℕ → α) (mk : List (Name × List ℚ) → Axis) (x : Var α) (ti : ℕ) (t : Axis)
    (view : View Axis) : Option (NArr α) :=
  (view.axes[ti]?).bind fun years => (view.axes[ti + 1]?).bind fun days =>
  let ys := Axis.sliceAxis nr years (view.inds.getD ti [])                                              -- lines 441-442
  let ds := Axis.sliceAxis nr days (view.inds.getD (ti + 1) [])
  (pairsOf t (joinAxes mk ys ds)).bind fun pairs =>                                                     -- lines 448-452
  let inview : View Axis :=                                                                             -- line 459
    ⟨(view.axes.eraseIdx (ti + 1)).set ti t, (view.inds.eraseIdx (ti + 1)).set ti (pairs.map Prod.fst)⟩
  (x.read nr junk inview).map fun indata =>                                                             -- line 460
  { shape := view.shape
    get := fun k =>                                                                                     -- lines 464-473
      match lastWith (fun p => decide ((pairs.getD p (0, 0)).2 = k.getD ti 0 * ds.len + k.getD (ti + 1) 0)) pairs.length with
      | some p => indata.get ((k.eraseIdx (ti + 1)).set ti p)
      | none => nan }

/-- `splittimeaxis(x, iaxis)`, timeutils.py:410-430 and 478-481; `none`: no such axis, not a time axis, or nothing to split -/
def split (nr : List ℚ → ℚ) (nan : α) (junk : List ℕ → α) (mk mk' : List (Name × List ℚ) → Axis) (iaxis : AxisId) (x : Var α) :
    Option (Var α) :=
  (foundAt (whichaxis x.axes iaxis)).bind fun ti => (x.axes[ti]?).bind fun t =>
  if "CalendarTime".toList ∈ t.classes then                                                             -- line 360
    (splitAxis nr mk t).map fun yd =>
      Var.ofView junk (x.axes.take ti ++ [yd.1, yd.2] ++ x.axes.drop (ti + 1)) (splitView nr nan junk mk' x ti t)
  else none

/-- `JoinTime.getview`, timeutils.py:514-555, for a day axis right after the year axis, at `yi`. Line 541 puts the day axis there if it is
elsewhere, line 544 then joins the wrong axes. -/
def joinView (nr : List ℚ → ℚ) (junk : List ℕ → α) (mk mk' : List (Name × List ℚ) → Axis) (x : Var α) (yi : ℕ) (view : View Axis) :
    Option (NArr α) :=
  (view.axes[yi]?).bind fun taxis =>
  let times := Axis.sliceAxis nr taxis (view.inds.getD yi [])                                           -- line 525
  (splitAxis nr mk times).bind fun yd =>                                                                -- line 528
  let inview : View Axis :=                                                                             -- line 535
    ⟨(view.axes.set yi yd.1).insertIdx (yi + 1) yd.2,
     (view.inds.set yi (List.range yd.1.len)).insertIdx (yi + 1) (List.range yd.2.len)⟩
  (TimeMatch.read nr junk x inview).bind fun data =>                                                    -- line 536
  let rows := data.shape.getD (yi + 1) 0
  let flat : NArr α :=                                                                                  -- lines 541-545
    { shape := (data.shape.eraseIdx (yi + 1)).set yi (data.shape.getD yi 0 * rows)
      get := fun k => data.get ((k.set yi (k.getD yi 0 / rows)).insertIdx (yi + 1) (k.getD yi 0 % rows)) }
  (TimeMatch.timeMap (joinAxes mk' yd.1 yd.2) times).map fun sel => flat.takeAxis yi sel                 -- lines 550-555

/-- `jointimeaxes(x, yaxis, daxis)`, timeutils.py:489-512 and 559-562, for a day axis right after the year axis; `none`: no such axes,
they are not next to each other, or the second is not a time axis -/
def join (nr : List ℚ → ℚ) (junk : List ℕ → α) (mk mk' : List (Name × List ℚ) → Axis) (yaxis daxis : AxisId) (x : Var α) :
    Option (Var α) :=
  (foundAt (whichaxis x.axes yaxis)).bind fun yi => (foundAt (whichaxis x.axes daxis)).bind fun di =>
  (x.axes[yi]?).bind fun years => (x.axes[di]?).bind fun days =>
  if di = yi + 1 ∧ "CalendarTime".toList ∈ days.classes then                                            -- lines 381 and 496
    some (Var.ofView junk ((x.axes.eraseIdx di).set yi (joinAxes mk' years days)) (joinView nr junk mk mk' x yi))
  else none

end SplitTime
end PyGeode
