/-
Model of the labels of a time plot: `TimeFormatter`, /repo/pygeode/timeticker.py:515-560, with `Time.formatter` (timeaxis.py:128-134) and
`autofmts` of the calendars with years (timeaxis.py:338-344, 807-811). Texts of dates are those of `Model/DateText`. The numbers `30.`, `1/24.`
and `1.1` are exact. numpy's 0/0 of a single tick, which is `nan` and is below every range, is `none`.
-/
import Verif.Model.DateText

namespace PyGeode
namespace TimeLabels
open Calendar Cf DateText

/-- `autofmts`, timeaxis.py:340-344 and, for 360 days, 807-811 -/
def autofmts : Cal → List (ℚ × Name × Name)
  | .days360 => [(360, "$Y".toList, []), (30, "$b $Y".toList, []), (1, "$d $b".toList, "$Y".toList),
      (1 / 24, "$H:$M".toList, "$d $b $Y".toList), (0, "$H:$M:$S".toList, "$d $b $Y".toList)]
  | _ => [(365, "$Y".toList, []), (30, "$d $b $Y".toList, []), (1, "$d $b".toList, "$Y".toList),
      (1 / 24, "$H:$M".toList, "$d $b $Y".toList), (0, "$H:$M:$S".toList, "$d $b $Y".toList)]

/-- `autoformat_range(delt)`, timeticker.py:549-556; `none` is an empty list of formats -/
def autoformatRange : List (ℚ × Name × Name) → Option ℚ → Option (Name × Name)
  | [], _ => none
  | [e], _ => some e.2
  | e :: l, none => autoformatRange l none
  | e :: l, some delt => if e.1 ≤ |delt| * (11 / 10) then some e.2 else autoformatRange l (some delt)

/-- `formatstr`, timeaxis.py:339 -/
def formatstr : Name := "$b $d, $Y $H:$M:$S".toList

/-- a `TimeFormatter` -/
structure Formatter where
  fmt : Option Name
  ofsfmt : Option Name
  auto : Bool
  offset : Name

/-- `TimeFormatter(taxis, fmt, ofsfmt, auto)`, timeticker.py:517-534; `plotfmt` and `plotofsfmt` are those of `taxis.plotatts` -/
def init (plotfmt plotofsfmt fmt ofsfmt : Option Name) (auto : Bool) : Formatter :=
  match fmt with
  | none => if auto then ⟨none, ofsfmt, true, []⟩ else ⟨some (plotfmt.getD formatstr), ofsfmt.or plotofsfmt, false, []⟩
  | some f => ⟨some f, some (ofsfmt.getD []), false, []⟩

/-- `(max(locs) - min(locs)) * unitfactor[units] / ((len(locs)-1) * 86400.)`, timeticker.py:542-543 -/
def delt (u : Units) (x : ℚ) (l : List ℚ) : Option ℚ :=
  if l = [] then none else some ((l.foldl max x - l.foldl min x) * unitfactor u / (l.length * 86400))

/-- the formats that `set_locs(x :: l)` leaves, timeticker.py:541-544 -/
def pick (c : Cal) (u : Units) (f : Formatter) (x : ℚ) (l : List ℚ) : Formatter :=
  if f.auto then match autoformatRange (autofmts c) (delt u x l) with
    | some p => { f with fmt := some p.1, ofsfmt := some p.2 }
    | none => f
  else f

/-- `set_locs(locs)`, timeticker.py:539-547; `none` is an exception -/
def setLocs (c : Cal) (start : Date) (u : Units) (f : Formatter) : List ℚ → Option Formatter
  | [] => some { f with offset := [] }
  | x :: l => (formatvalue c start u x ((pick c u f x l).ofsfmt.getD formatstr)).map fun o => { pick c u f x l with offset := o }

/-- `formatter(x)`, timeticker.py:536-537 -/
def call (c : Cal) (start : Date) (u : Units) (f : Formatter) (x : ℚ) : Option Name := formatvalue c start u x (f.fmt.getD formatstr)

/-- the offset and the labels of an axis with these ticks: matplotlib calls `set_locs`, then the formatter for every tick, then `get_offset` -/
def labels (c : Cal) (start : Date) (u : Units) (f : Formatter) (locs : List ℚ) : Option (List Name × Name) :=
  (setLocs c start u f locs).bind fun g => (locs.mapM (call c start u g)).map fun ls => (ls, g.offset)

end TimeLabels
end PyGeode
