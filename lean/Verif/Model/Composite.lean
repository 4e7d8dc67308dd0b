/-
Model of composites, /repo/pygeode/composite.py:15-204, and of flattening two axes into one, composite.py:206-295.
The variable is of floating type (`none` is NaN); for an integer variable the assignment of NaN at line 92 raises.
-/
import Verif.Model.VarOps

namespace PyGeode
namespace Composite
open NArr Combine VarOps

/-- `evlen` and `evoff`: one number, or one number for each event, composite.py:31-47 -/
inductive EvArg
  | one (n : ℤ)
  | each (l : List ℤ)
  deriving DecidableEq

/-- `evoff` for each event, and `mevoff`, composite.py:32-38. `none`: the assertion, or `max` of no events. -/
def eventOffs (n : ℕ) : EvArg → Option (List ℤ × ℤ)
  | .one o => some (List.replicate n o, o)
  | .each l => l.max?.bind fun m => if l.length = n then some (l, m) else none

/-- `evlen` for each event, and `mevlen`, composite.py:41-47 -/
def eventLens (n : ℕ) (offs : List ℤ × ℤ) : EvArg → Option (List ℤ × ℤ)
  | .one m => some (List.replicate n m, m)
  | .each l =>
    (List.zipWith (fun a o : ℤ => a - o + offs.2) l offs.1).max?.bind fun m => if l.length = n then some (l, m) else none

/-- the body of the loop over events, composite.py:69-74: `(evlens[i], evoffs[i])` after it. `el` and `eo` are the numbers
before the loop (lines 71-72 change the arrays, not the loop variables). -/
def clipEvent (N : ℕ) (iev : ℕ) (el eo : ℤ) : ℤ × ℤ :=
  let s : ℤ := (iev : ℤ) - eo
  let p : ℤ × ℤ := if s < 0 then (el - s, eo + s) else (el, eo)
  if s + el ≥ (N : ℤ) then ((N : ℤ) - s, p.2) else p

/-- `timeutils.delta(axis, units, allow_multiple=True)`, timeutils.py:97-121, in the units of the axis -/
def delta (values : List ℚ) : ℚ :=
  let delt := List.zipWith (fun a b : ℚ => b - a) values values.tail
  match delt with
  | [] => 0
  | d :: ds => if Axis.allclose (1 / 100000) (d :: ds) (List.replicate (ds.length + 1) d) then d else (d :: ds).min?.getD 0

/-- `Event(np.arange(n)+1, indices=ievents)`, composite.py:15 and 52 -/
def eventAxis (ievents : List ℕ) : Axis :=
  { classes := ["Event".toList, "Axis".toList], aliases := ["event".toList], name := "event".toList
    values := (List.range ievents.length).map fun i : ℕ => (i : ℚ) + 1, isFloat := false, rtol := 1 / 100000, auxatts := []
    auxarrays := [("indices".toList, ievents.map fun i : ℕ => (i : ℚ))] }

/-- the offset axis, composite.py:53-58: for a time axis a calendar without years (its date fields are left out) -/
def offsetAxis (caxis : Axis) (mevoff mevlen : ℤ) : Axis :=
  let steps : List ℤ := (List.range mevlen.toNat).map fun i : ℕ => -mevoff + (i : ℤ)
  if "Time".toList ∈ caxis.classes then
    { classes := ["Yearless".toList, "CalendarTime".toList, "Time".toList, "TAxis".toList, "Axis".toList]
      aliases := ["time".toList, "taxis".toList, "yearless".toList], name := "time".toList
      values := steps.map fun i : ℤ => delta caxis.values * (i : ℚ), isFloat := true, rtol := 1 / 100000, auxatts := [], auxarrays := [] }
  else
    { classes := ["Offset".toList, "Axis".toList], aliases := ["offset".toList], name := "offset".toList
      values := steps.map fun i : ℤ => (i : ℚ), isFloat := false, rtol := 1 / 100000, auxatts := [], auxarrays := [] }

/-- positions within the requested offsets that fall in the event, composite.py:110: `mask` -/
def inEvent (icm : List ℤ) (el eo : ℤ) : List ℕ :=
  (List.range icm.length).filter fun j => decide (-eo ≤ icm.getD j 0) && decide (icm.getD j 0 < el - eo)

/-- one turn of the loop over events, composite.py:108-117, up to the assignment. A position past the end of the axis is
refused by `View.get` (view.py:248-296: an index error or the assertion on the shape). -/
def eventRow (nr : List ℚ → ℚ) (junk : List ℕ → Option ℚ) (x : Var (Option ℚ)) (d N : ℕ) (events : List ℕ)
    (lens offs : List ℤ) (icm : List ℤ) (v : View Axis) (e : ℕ) : Option (List ℕ × NArr (Option ℚ)) :=
  let J := inEvent icm (lens.getD e 0) (offs.getD e 0)
  let icsl := J.map fun j => icm.getD j 0 + (events.getD e 0 : ℤ)
  if icsl.any fun t : ℤ => decide (t < 0) || decide ((N : ℤ) ≤ t) then none
  else (x.read nr junk ⟨x.axes, (v.inds.eraseIdx (d + 1)).set d (icsl.map Int.toNat)⟩).map fun r => (J, r)

/-- `out[tuple(outsl)] = ...`, composite.py:115-117 -/
def putRow (d : ℕ) (out : NArr (Option ℚ)) (p : (List ℕ × NArr (Option ℚ)) × ℕ) : NArr (Option ℚ) :=
  { shape := out.shape
    get := fun k =>
      if k.getD d 0 = p.2 ∧ k.getD (d + 1) 0 ∈ p.1.1 then
        p.1.2.get ((k.eraseIdx (d + 1)).set d (p.1.1.idxOf (k.getD (d + 1) 0)))
      else out.get k }

/-- `CompositeVar.getview`, composite.py:81-119 -/
def compositeView (nr : List ℚ → ℚ) (junk : List ℕ → Option ℚ) (x : Var (Option ℚ)) (d N : ℕ) (events : List ℕ)
    (lens offs : List ℤ) (mevoff : ℤ) (v : View Axis) : Option (NArr (Option ℚ)) :=
  let icm : List ℤ := (v.inds.getD (d + 1) []).map fun i : ℕ => (i : ℤ) - mevoff                       -- line 97
  ((v.inds.getD d []).mapM (eventRow nr junk x d N events lens offs icm v)).map fun rows =>
    rows.zipIdx.foldl (putRow d) { shape := v.shape, get := fun _ => none }

/-- `CompositeVar(var, iaxis, ievents, evlen, evoff)`, composite.py:22-78 -/
def compositeVar (nr : List ℚ → ℚ) (junk : List ℕ → Option ℚ) (x : Var (Option ℚ)) (d : ℕ) (ievents : List ℕ)
    (evlen evoff : EvArg) : Option (Var (Option ℚ)) := do
  let caxis ← x.axes[d]?
  let offs ← eventOffs ievents.length evoff
  let lens ← eventLens ievents.length offs evlen
  let clipped := List.zipWith (fun (i : ℕ) (p : ℤ × ℤ) => clipEvent caxis.len i p.1 p.2) ievents (lens.1.zip offs.1)
  some (Var.ofView junk
    (x.axes.take d ++ eventAxis ievents :: offsetAxis caxis offs.2 lens.2 :: x.axes.drop (d + 1))
    (compositeView nr junk x d caxis.len ievents (clipped.map Prod.fst) (clipped.map Prod.snd) offs.2))

/-- the axis and the positions matched by the keyword, composite.py:188-196: the last axis that accepts it -/
def matchedAxis (axes : List Axis) (kw : Name × Axis.Arg) : Option (ℕ × List ℕ) :=
  (axes.zipIdx.filterMap fun p => (Axis.getSlice p.1 false [kw]).bind fun sl =>
    (expand sl.1 p.1.len).map fun l => (p.2, l.map Int.toNat)).getLast?

/-- `composite(var, <keyword>, evlen, evoff)`, composite.py:122-205 -/
def composite (nr : List ℚ → ℚ) (junk : List ℕ → Option ℚ) (x : Var (Option ℚ)) (kw : Name × Axis.Arg)
    (evlen evoff : EvArg) : Option (Var (Option ℚ)) :=
  (matchedAxis x.axes kw).bind fun p => compositeVar nr junk x p.1 p.2 evlen evoff

end Composite
end PyGeode
