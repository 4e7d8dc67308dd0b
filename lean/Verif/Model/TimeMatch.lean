/-
Model of operations between variables whose time axes have different fields, such as a series minus its climatology: the equality
and the mapping of time axes (/repo/pygeode/timeaxis.py:144-231), which take the place of those of other axes
(Verif/Model/Axis.lean) in views, in `can_map` and in `combine_axes`; and `from_trend` and `detrend` of /repo/pygeode/climat.py.
-/
import Verif.Model.ClimVar
import Verif.Model.GetItem

namespace PyGeode
namespace TimeMatch
open NArr Combine VarOps ClimVar
variable {α β : Type}

/-- `isinstance(a, Time)` -/
def isTime (a : Axis) : Bool := decide ("Time".toList ∈ a.classes)

/-- `Time.__eq__`, timeaxis.py:144-159. The same object: here, no difference at all. -/
def timeEq (a b : Axis) : Bool :=
  decide (a = b) ||                                                                                  -- line 147
  (decide (a.classes = b.classes) &&                                                                 -- line 148
   decide (∀ f ∈ a.auxarrays.map Prod.fst, f ∈ b.auxarrays.map Prod.fst) &&                          -- line 150
   decide (∀ f ∈ b.auxarrays.map Prod.fst, f ∈ a.auxarrays.map Prod.fst) &&
   decide (a.len = b.len) &&                                                                         -- line 152
   a.auxarrays.all fun p => Axis.allclose (1 / 100000) p.2 ((b.auxarrays.lookup p.1).getD []))       -- lines 155-156

/-- `Time.map_to(self, other)`, timeaxis.py:162-231. Without any common field the values, cut to integers, are compared. -/
def timeMap (a b : Axis) : Option (List ℕ) :=
  if ¬ a.classes = b.classes then none                                                               -- line 191
  else if ¬ ∀ f ∈ a.auxarrays.map Prod.fst, f ∈ b.auxarrays.map Prod.fst then none                    -- lines 195-196
  else
    let fs := commonFields a b                                                                       -- line 200
    if fs = [] then some (TimeC.timeMapTo (argsort a.values) (a.values.map fun v => [(⌊v⌋ : ℤ)]) (b.values.map fun v => [(⌊v⌋ : ℤ)]))
    else some (TimeC.timeMapTo (argsort a.values) (rowsOf a fs) (rowsOf b fs))                        -- lines 208-231

/-- `a == b` -/
def axEq (a b : Axis) : Bool := if isTime a then timeEq a b else Axis.axEq a b

/-- `a.map_to(b)` -/
def mapTo (a b : Axis) : Option (List ℕ) := if isTime a then timeMap a b else Axis.axisMapTo a b

/-- the mapping function of a view, view.py:151-156 -/
def viewMap (nr : List ℚ → ℚ) (out inp : Axis) (inds : List ℕ) : Option (List ℕ) := mapTo out (Axis.sliceAxis nr inp inds)

/-- `view.get(x)`, view.py:197-315 -/
def read (nr : List ℚ → ℚ) (junk : List ℕ → α) (x : Var α) (v : View Axis) : Option (NArr α) :=
  View.get axEq (viewMap nr) Axis.len junk v x.axes x.src

/-- `can_map(a1, a2)`, tools.py:180-217. Outer `none`: ValueError; inner `none`: the result None. -/
def canMap (a1 a2 : Axis) : Option (Option Axis) :=
  if !Axis.isParentOf a1 a2 && !Axis.isParentOf a2 a1 then some none                 -- lines 190-191
  else
    let ap := if Axis.isParentOf a1 a2 then a1 else a2                               -- lines 184-189
    let ac := if Axis.isParentOf a1 a2 then a2 else a1
    if axEq ap ac then some (some ap)                                                -- line 194
    else
      let cl1 := ap.auxatts.lookup "class".toList
      let cl2 := ac.auxatts.lookup "class".toList
      if cl1.isSome && cl2.isSome && decide (cl1 ≠ cl2) then some none               -- lines 197-201
      else
        let mp := mapTo ap ac
        let mc := mapTo ac ap
        if mc.any (fun m => decide (m.length = ap.len)) then some (some ap)          -- lines 207-208
        else if mp.any (fun m => decide (m.length = ac.len)) then some (some ac)     -- lines 210-211
        else if mp.isSome && mc.isSome then none                                     -- lines 213-215
        else some none

/-- the inner loop of `combine_axes`, tools.py:245-254, for one axis `a` -/
def insertAxis (a : Axis) : List Axis → Option (List Axis)
  | [] => some [a]
  | o :: os => match canMap a o with
    | none => none
    | some (some ap) => some (ap :: os)
    | some none => (insertAxis a os).map (o :: ·)

/-- `out_axes`, tools.py:242-254 -/
def outAxes (lists : List (List Axis)) : Option (List Axis) :=
  lists.flatten.foldl (fun (out : Option (List Axis)) (a : Axis) => out.bind (insertAxis a)) (some [])

/-- `outa in A` -/
def elem (outa : Axis) (A : List Axis) : Bool := A.any fun e => axEq e outa

/-- `combine_axes(axis_lists)`, tools.py:224-264, for at least two lists -/
def combineAxes (lists : List (List Axis)) : Option (List Axis) :=
  (outAxes lists).map fun out =>
    match lists.find? (fun A => out.all fun outa => elem outa A) with                -- line 258
    | some A => A
    | none => out

/-- `UfuncVar.getview`, ufunc.py:87-107 -/
def ufuncView (op : List α → β) (nr : List ℚ → ℚ) (junk : List ℕ → α) (args : List (Var α)) (v : View Axis) : Option (NArr β) :=
  (args.mapM fun x => read nr junk x v).bind (broadcast op v.axes.length)

/-- the variable `op(args)`, ufunc.py:25-56, for at least two variables -/
def ufunc (op : List α → β) (nr : List ℚ → ℚ) (junk : List ℕ → α) (junk' : List ℕ → β) (args : List (Var α)) : Option (Var β) :=
  (combineAxes (args.map Var.axes)).map fun axes => Var.ofView junk' axes (ufuncView op nr junk args)

/-- the two values of a cell, subtracted -/
def minus (l : List ℚ) : ℚ := l.getD 0 0 - l.getD 1 0

/-! ### from_trend, detrend -/

/-- the coefficients read in `from_trend.getview`, climat.py:538-544: the axis of coefficients is put in front and taken whole -/
def fromTrendView (nr : List ℚ → ℚ) (junk : List ℕ → ℚ) (coef : Var ℚ) (caxis : Axis) (secs : Var ℚ) (v : View Axis) : Option (NArr ℚ) :=
  (read nr junk coef ⟨caxis :: v.axes, List.range caxis.len :: v.inds⟩).bind fun c =>              -- lines 539-540
  (read nr junk secs v).map fun s =>                                                                -- line 543
  { shape := v.shape
    get := fun k => c.get (bindex c.shape (1 :: k)) * s.get (bindex s.shape k) + c.get (bindex c.shape (0 :: k)) }   -- lines 541-544

/-- `from_trend(taxis, coef)`, climat.py:502-537; `none`: an axis is missing or the assertion of line 530 fails. The coefficients have no
`year` field here (lines 512-522 remove it when it is constant). -/
def fromTrend (nr : List ℚ → ℚ) (junk : List ℕ → ℚ) (taxis : Axis) (secs : List ℚ) (coef : Var ℚ) : Option (Var ℚ) :=
  (foundAt (whichaxis coef.axes (.cls "Time".toList))).bind fun ti =>                               -- line 526
  (foundAt (whichaxis coef.axes (.name "coef".toList))).bind fun ci =>                              -- line 527
  (coef.axes[ti]?).bind fun ct => (coef.axes[ci]?).bind fun caxis =>
  if (mapTo ct taxis).isSome then                                                                    -- line 530
    some (Var.ofView junk ((coef.axes.set ti taxis).eraseIdx ci)                                    -- lines 534-537
      (fromTrendView nr junk coef caxis { axes := [taxis], src := .values ⟨[taxis.len], fun k => secs.getD (k.getD 0 0) 0⟩ }))
  else none

/-- `detrend(x)`, climat.py:554-560. `secs` are the times of `x` in seconds. -/
def detrend (nr : List ℚ → ℚ) (junk : List ℕ → ℚ) (limit : ℕ) (mk : List (Name × List ℚ) → Axis) (secs : List ℚ) (x : Var ℚ) :
    Option (Var ℚ) :=
  (climtrend nr junk limit mk secs x).bind fun c => (GetItem.load nr junk c).bind fun coef =>
  (foundAt (whichaxis x.axes (.cls "Time".toList))).bind fun ti => (x.axes[ti]?).bind fun t =>
  (fromTrend nr junk t secs coef).bind fun clim => ufunc minus nr junk junk [x, clim]

end TimeMatch
end PyGeode
