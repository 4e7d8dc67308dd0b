/-
Model of the helpers that combine variables: `common_dict`, `whichaxis`, `can_map`, `combine_axes` of
/repo/pygeode/tools.py:113-264, `combine_meta` of /repo/pygeode/var.py:809-824, and `UfuncVar.getview` of
/repo/pygeode/ufunc.py:87-107 with numpy's broadcasting.
-/
import Verif.Model.Axis

namespace PyGeode
namespace Combine

/-! ### dictionaries -/

/-- `dict([(k,v) for x in dicts for k,v in x.items()])`, tools.py:118: later values replace earlier ones -/
def mergeDicts {V : Type} (dicts : List (List (Name × V))) : List (Name × V) :=
  dicts.flatten.foldl (fun d p => Axis.dictSet d p.1 p.2) []

/-- the loop of tools.py:121-132 for one key: keep it unless some dictionary lacks it or has another value.
`ne` is `!=` (for arrays: `any(x != y)`). -/
def consistent {V : Type} (ne : V → V → Bool) (dicts : List (List (Name × V))) (p : Name × V) : Bool :=
  dicts.all fun x => match x.lookup p.1 with
    | some v => !ne v p.2
    | none => false

/-- `common_dict(dicts)`, tools.py:115-133 -/
def commonDict {V : Type} (ne : V → V → Bool) (dicts : List (List (Name × V))) : List (Name × V) :=
  (mergeDicts dicts).filter (consistent ne dicts)

/-- the name (or the units) given by `combine_meta`, var.py:814-816: the common one if there is just one, else
what the output variable had -/
def combineName (names : List Name) (old : Name) : Name :=
  match names.dedup with
  | [s] => s
  | _ => old

/-! ### axis lookup -/

/-- what an axis is looked up by -/
inductive AxisId where
  | name (s : Name)
  | int (i : ℤ)
  | axis (a : Axis)
  /-- a class, by name -/
  | cls (c : Name)

inductive Found where
  | at (i : ℕ)
  | keyError
  /-- `issubclass` of something that is not a class -/
  | typeError
  deriving DecidableEq

/-- `whichaxis(axes, id)`, tools.py:136-178 -/
def whichaxis (axes : List Axis) : AxisId → Found
  | .name s => match axes.findIdx? (fun a => a.hasAlias s) with
    | some i => .at i
    | none => .keyError
  | .int i => if 0 ≤ i ∧ i < axes.length then .at i.toNat else .typeError            -- line 160, 172
  | .axis x => match axes.findIdx? (fun a => Axis.axEq a x) with
    | some i => .at i
    | none => .keyError
  | .cls c => match axes.findIdx? (fun a => decide (c ∈ a.classes)) with
    | some i => .at i
    | none => .keyError

/-! ### combining axes -/

/-- `can_map(a1, a2)`, tools.py:180-217. Outer `none`: ValueError; inner `none`: the result None. -/
def canMap (a1 a2 : Axis) : Option (Option Axis) :=
  if !Axis.isParentOf a1 a2 && !Axis.isParentOf a2 a1 then some none                 -- lines 190-191
  else
    let ap := if Axis.isParentOf a1 a2 then a1 else a2                               -- lines 184-189
    let ac := if Axis.isParentOf a1 a2 then a2 else a1
    if Axis.axEq ap ac then some (some ap)                                           -- line 194
    else
      let cl1 := ap.auxatts.lookup "class".toList
      let cl2 := ac.auxatts.lookup "class".toList
      if cl1.isSome && cl2.isSome && decide (cl1 ≠ cl2) then some none               -- lines 197-201
      else
        let mp := Axis.axisMapTo ap ac
        let mc := Axis.axisMapTo ac ap
        if mc.any (fun m => decide (m.length = ap.len)) then some (some ap)          -- lines 207-208
        else if mp.any (fun m => decide (m.length = ac.len)) then some (some ac)     -- lines 210-211
        else if mp.isSome && mc.isSome then none                                     -- lines 213-215
        else some none

/-- the inner loop of `combine_axes`, tools.py:245-254, for one axis `a` -/
def insertAxis (a : Axis) : List Axis → Option (List Axis)
  | [] => some [a]
  | o :: os => match canMap a o with
    | none => none
    | some (some ap) => some (ap :: os)
    | some none => (insertAxis a os).map (o :: ·)

/-- `out_axes`, tools.py:242-254 -/
def outAxes (lists : List (List Axis)) : Option (List Axis) :=
  lists.flatten.foldl (fun (out : Option (List Axis)) (a : Axis) => out.bind (insertAxis a)) (some [])

/-- `outa in A`: `any(e is outa or e == outa for e in A)` -/
def elem (outa : Axis) (A : List Axis) : Bool := A.any fun e => Axis.axEq e outa

/-- `combine_axes(axis_lists)`, tools.py:224-264 -/
def combineAxes (lists : List (List Axis)) : Option (List Axis) :=
  match lists with
  | [A] => some A                                                                    -- line 239
  | _ => (outAxes lists).map fun out =>
    match lists.find? (fun A => out.all fun outa => elem outa A) with                -- line 257
    | some A => A
    | none => out

/-! ### element by element operations -/

/-- length of axis `i` of the broadcast of arrays with shapes `ss` -/
def bdim (ss : List (List ℕ)) (i : ℕ) : ℕ := ((ss.map fun s => s.getD i 1).find? (fun n => decide (n ≠ 1))).getD 1

/-- index into an array of shape `s` for a cell of the broadcast array: axes of length one are repeated -/
def bindex (s k : List ℕ) : List ℕ := List.zipWith (fun (n i : ℕ) => if n = 1 then 0 else i) s k

/-- numpy's broadcasting of arrays of rank `r`; `none`: the shapes do not match -/
def broadcast {α β : Type} (op : List α → β) (r : ℕ) (args : List (NArr α)) : Option (NArr β) :=
  let ss := args.map NArr.shape
  if (List.range r).all fun i => ss.all fun s => decide (s.getD i 1 = 1) || decide (s.getD i 1 = bdim ss i) then
    some { shape := (List.range r).map (bdim ss)
           get := fun k => op (args.map fun a => a.get (bindex a.shape k)) }
  else none

/-- an operand: a number or a variable -/
inductive Operand (α : Type) where
  | scalar (c : α)
  | var (axes : List Axis) (src : View.Source Axis α)

/-- the axes of the operands that are variables -/
def Operand.axes? {α : Type} : Operand α → Option (List Axis)
  | .scalar _ => none
  | .var axes _ => some axes

/-- `view.get(arg)` for a variable, ufunc.py:97; a number is repeated by the broadcasting -/
def Operand.read {α : Type} (nr : List ℚ → ℚ) (junk : List ℕ → α) (v : View Axis) : Operand α → Option (NArr α)
  | .scalar c => some { shape := v.axes.map fun _ => 1, get := fun _ => c }
  | .var axes src => View.get Axis.axEq (Axis.viewMapAx nr) Axis.len junk v axes src

/-- `UfuncVar.getview`, ufunc.py:87-107 -/
def ufuncView {α β : Type} (op : List α → β) (nr : List ℚ → ℚ) (junk : List ℕ → α) (args : List (Operand α))
    (v : View Axis) : Option (NArr β) :=
  (args.mapM (Operand.read nr junk v)).bind (broadcast op v.axes.length)

/-- the variable `op(args)`: its axes (`combine_axes` of the operands that are variables, ufunc.py:33-36) and its
contents -/
def ufuncAxes {α : Type} (args : List (Operand α)) : Option (List Axis) := combineAxes (args.filterMap Operand.axes?)

end Combine
end PyGeode
