/-
Model of the time averages of /repo/pygeode/climat.py as operations on variables: which times go together (64-161), the output
variable (166-186), the loop over the data (20-60) and what is done with the sums (188-370). The sums themselves are in
Verif/Model/Climat.lean. Integer data are left out (`sum /= count` fails on them), so are names and attributes; arithmetic is
exact. `mk` makes a time axis of the class of the input out of date fields (`type(taxis)(**kwargs)`, timeutils.py:80-81).
-/
import Verif.Model.Climat
import Verif.Model.Loop
import Verif.Model.CfFile
import Verif.Model.Stats

namespace PyGeode
namespace ClimVar
open NArr Combine VarOps Reduce PartialSum Loop
variable {α β γ : Type}

/-! ### date fields of a time axis -/

/-- `allowed_fields`, timeaxis.py:349 and 824 -/
def allowedFields (a : Axis) : List Name :=
  if "SeasonalStandardTime".toList ∈ a.classes ∨ "SeasonalModelTime365".toList ∈ a.classes then ["year".toList, "season".toList]
  else ["year".toList, "month".toList, "day".toList, "hour".toList, "minute".toList, "second".toList]

/-- `f in a.auxarrays` -/
def hasField (a : Axis) (f : Name) : Bool := decide (f ∈ a.auxarrays.map Prod.fst)

/-- `a.auxarrays[f][i]`, a whole number -/
def fieldAt (a : Axis) (f : Name) (i : ℕ) : ℤ := ⌊((a.auxarrays.lookup f).getD []).getD i 0⌋

/-- `np.vstack([auxarrays[f] for f in fs]).transpose()`, e.g. timeaxis.py:249 -/
def rowsOf (a : Axis) (fs : List Name) : List TimeC.Row := (List.range a.len).map fun i : ℕ => fs.map fun f => fieldAt a f i

/-- the names of the fields kept by `modify(taxis, resolution, exclude)`, timeutils.py:58-70 -/
def modifyFields (a : Axis) (resolution : Option Name) (exclude : List Name) : List Name :=
  let fnames := (a.auxarrays.map Prod.fst).filter fun f => decide (f ∉ exclude)
  let fnames := match resolution with
    | none => fnames
    | some r => fnames.filter fun f => decide (f ∉ (allowedFields a).drop ((allowedFields a).findIdx (fun g => decide (g = r)) + 1))
  (allowedFields a).filter fun f => decide (f ∈ fnames)

/-- rows back to named arrays, timeutils.py:26 and 78 -/
def columns (fs : List Name) (rows : List TimeC.Row) : List (Name × List ℚ) :=
  fs.zipIdx.map fun p => (p.1, rows.map fun r => ((r.getD p.2 0 : ℤ) : ℚ))

/-- the times of an axis on some of its fields, without repetitions, timeutils.py:13-29 and 75-81; `none`: no field -/
def distinct (mk : List (Name × List ℚ) → Axis) (a : Axis) (fs : List Name) : Option Axis :=
  if fs = [] then none else some (mk (columns fs (Climat.uniquifySorted (rowsOf a fs))))

/-- a date dictionary out of its fields -/
def dictOf (get : Name → Option ℤ) : Calendar.DateDict :=
  { year := get "year".toList, month := get "month".toList, day := get "day".toList, hour := get "hour".toList,
    minute := get "minute".toList, second := get "second".toList }

/-- `type(taxis)(**kwargs)` with the units and the start date of the axis and the fields `aux`, timeutils.py:80-81: the start date
is filled up and then restricted to these fields (timeaxis.py:377-387). The name is not passed on. `aux` is not empty. -/
def remake (nr : List ℚ → ℚ) (T : Cf.TimeAx) (aux : List (Name × List ℚ)) : Axis :=
  let start : List (Name × ℤ) := [("year".toList, T.start.year.getD 1), ("month".toList, T.start.month.getD 1),
    ("day".toList, T.start.day.getD 1), ("hour".toList, T.start.hour.getD 0), ("minute".toList, T.start.minute.getD 0),
    ("second".toList, T.start.second.getD 0)]
  CfFile.timeAxis nr "time".toList
    { T with
      start := dictOf fun f => if f ∈ aux.map Prod.fst then start.lookup f else none
      dates := (List.range ((aux.map fun p => p.2.length).headD 0)).map fun i : ℕ =>
        dictOf fun f => (aux.lookup f).map fun col => ⌊col.getD i 0⌋ }

/-- the time maps, climat.py:76-161 -/
inductive Bin
  | clim | diurnal | daily | monthly | yearly
  deriving DecidableEq

/-- `get_outtime`, climat.py:76-117; `none`: an assertion fails -/
def outTime (mk : List (Name × List ℚ) → Axis) (t : Axis) : Bin → Option Axis
  | .clim => distinct mk t (modifyFields t none ["year".toList])
  | .diurnal => distinct mk t (modifyFields t none ["year".toList, "month".toList, "day".toList])
  | .daily => (distinct mk t (modifyFields t (some "day".toList) [])).filter fun o => hasField o "day".toList
  | .monthly => (distinct mk t (modifyFields t (some "month".toList) [])).filter fun o => hasField o "month".toList
  | .yearly => (distinct mk t (modifyFields t (some "year".toList) [])).filter fun o => hasField o "year".toList

/-- `common_fields`, timeaxis.py:280-286 -/
def commonFields (a b : Axis) : List Name := (allowedFields a).filter fun f => hasField a f && hasField b f

/-- `Time.common_map(t, ct)`, climat.py:37 and timeaxis.py:234-272; `none`: no common field -/
def pairsOf (t ct : Axis) : Option (List (ℕ × ℕ)) :=
  if commonFields t ct = [] then none
  else some (TimeC.commonMap (rowsOf t (commonFields t ct)) (rowsOf ct (commonFields t ct)))

/-! ### the loop -/

/-- `loopover`, climat.py:20-60: the chunks of the input and of the output; `none`: no common field, or the assertion of line 39
fails. `t` is the time axis of the variable, `ti` the number of the time axis. -/
def loopover (nr : List ℚ → ℚ) (limit : ℕ) (t : Axis) (ti : ℕ) (view : View Axis) : Option (List (View Axis × View Axis)) :=
  let v := clip nr view                                                                  -- line 31
  (v.axes[ti]?).bind fun ct => (pairsOf t ct).bind fun pairs =>                          -- lines 34-37
  if uniq (pairs.map Prod.snd) = uniq (v.inds.getD ti []) then                           -- line 39
    let inview : View Axis := { axes := v.axes.set ti t, inds := v.inds.set ti (pairs.map Prod.fst) }   -- line 40
    let climview : View Axis := { axes := v.axes, inds := v.inds.set ti (pairs.map Prod.snd) }          -- line 41
    some ((inview.loopMem limit []).zip (climview.loopMem limit []))                     -- line 50
  else none

/-- one chunk, climat.py:54-60 and 201-202: the sums and the numbers of values are added to their places -/
def step [Add α] [Zero α] (ps : NArr β → ℕ → ℕ → List ℕ → NArr α × NArr ℕ) (n ti : ℕ) (reader : View Axis → Option (NArr β))
    (st : NArr α × NArr ℕ) (c : View Axis × View Axis) : Option (NArr α × NArr ℕ) :=
  (reader c.1).map fun data =>
    let r := ps data ti n (c.2.inds.getD ti [])
    let pos := c.2.inds.set ti (List.range n)
    (updateOuter (· + ·) st.1 pos r.1, updateOuter (· + ·) st.2 pos r.2)

/-- the sums over all chunks, climat.py:198-202. `ps` is `partial_sum` or `partial_nan_sum`; `reader` reads the variables on a
chunk. -/
def accumulate [Add α] [Zero α] (ps : NArr β → ℕ → ℕ → List ℕ → NArr α × NArr ℕ) (nr : List ℚ → ℚ) (limit : ℕ) (t : Axis) (ti : ℕ)
    (reader : View Axis → Option (NArr β)) (view : View Axis) : Option (NArr α × NArr ℕ) :=
  (loopover nr limit t ti view).bind fun L =>
    L.foldlM (step ps (view.shape.getD ti 0) ti reader)
      ({ shape := view.shape, get := fun _ => 0 }, { shape := view.shape, get := fun _ => 0 })

/-! ### the operations -/

/-- `Mean.getview`, climat.py:192-205 -/
def meanView (nr : List ℚ → ℚ) (limit : ℕ) (t : Axis) (ti : ℕ) (reader : View Axis → Option (NArr ℚ)) (view : View Axis) :
    Option (NArr ℚ) :=
  (accumulate partialSum nr limit t ti reader view).map fun st => zip2 (fun s (n : ℕ) => s / (n : ℚ)) st.1 st.2

/-- `NANMean.getview`, climat.py:212-230; `none` is NaN -/
def nanMeanView (nr : List ℚ → ℚ) (limit : ℕ) (t : Axis) (ti : ℕ) (reader : View Axis → Option (NArr (Option ℚ))) (view : View Axis) :
    Option (NArr (Option ℚ)) :=
  (accumulate partialNanSum nr limit t ti reader view).map fun st =>
    zip2 (fun s (n : ℕ) => if n = 0 then none else some (s / (n : ℚ))) st.1 st.2

/-- `Count.getview`, climat.py:290-302 -/
def countView (nr : List ℚ → ℚ) (limit : ℕ) (t : Axis) (ti : ℕ) (reader : View Axis → Option (NArr (Option ℚ))) (view : View Axis) :
    Option (NArr ℕ) :=
  (accumulate (α := ℚ) partialNanSum nr limit t ti reader view).map Prod.snd

/-- `Stdev.getview` before the square root, climat.py:237-254 -/
def varianceView (nr : List ℚ → ℚ) (limit : ℕ) (t : Axis) (ti : ℕ) (reader : View Axis → Option (NArr ℚ)) (view : View Axis) :
    Option (NArr ℚ) :=
  (accumulate partialSum nr limit t ti reader view).bind fun st =>
  (accumulate partialSum nr limit t ti (fun c => (reader c).map fun d => d.map (· ^ 2)) view).map fun st2 =>
  { shape := view.shape
    get := fun k =>
      let n : ℚ := st.2.get k
      let x := st.1.get k / n
      (st2.1.get k - n * x ^ 2) / (n - 1) }

/-- `NANStdev.getview` before the square root, climat.py:261-283; `none` is NaN -/
def nanVarianceView (nr : List ℚ → ℚ) (limit : ℕ) (t : Axis) (ti : ℕ) (reader : View Axis → Option (NArr (Option ℚ))) (view : View Axis) :
    Option (NArr (Option ℚ)) :=
  (accumulate partialNanSum nr limit t ti reader view).bind fun st =>
  (accumulate partialNanSum nr limit t ti (fun c => (reader c).map fun d => d.map (Option.map (· ^ 2))) view).map fun st2 =>
  { shape := view.shape
    get := fun k =>
      let n : ℚ := st.2.get k
      let x := st.1.get k / n
      if st.2.get k = 0 then none else some ((st2.1.get k - n * x ^ 2) / (n - 1)) }

/-- `TimeOp.__init__`, climat.py:169-185: the number and the axis of the time, and the output variable -/
def timeOp (mk : List (Name × List ℚ) → Axis) (b : Bin) (junk : List ℕ → β) (x : Var α)
    (getview : Axis → ℕ → View Axis → Option (NArr β)) : Option (Var β) :=
  (foundAt (whichaxis x.axes (.cls "CalendarTime".toList))).bind fun ti =>
  (x.axes[ti]?).bind fun t => (outTime mk t b).map fun out => Var.ofView junk (x.axes.set ti out) (getview t ti)

/-- `climatology(x)`, `dailymean(x)`, ..., climat.py:375-401 -/
def mean (nr : List ℚ → ℚ) (junk : List ℕ → ℚ) (limit : ℕ) (mk : List (Name × List ℚ) → Axis) (b : Bin) (x : Var ℚ) : Option (Var ℚ) :=
  timeOp mk b junk x fun t ti => meanView nr limit t ti (x.read nr junk)

/-- `nanclimatology(x)`, `dailynanmean(x)`, ..., climat.py:403-430 -/
def nanmean (nr : List ℚ → ℚ) (junk : List ℕ → Option ℚ) (limit : ℕ) (mk : List (Name × List ℚ) → Axis) (b : Bin) (x : Var (Option ℚ)) :
    Option (Var (Option ℚ)) :=
  timeOp mk b junk x fun t ti => nanMeanView nr limit t ti (x.read nr junk)

/-- `climcount(x)`, `dailycount(x)`, ..., climat.py:476-494 -/
def count (nr : List ℚ → ℚ) (junk : List ℕ → Option ℚ) (junk' : List ℕ → ℕ) (limit : ℕ) (mk : List (Name × List ℚ) → Axis) (b : Bin)
    (x : Var (Option ℚ)) : Option (Var ℕ) :=
  timeOp mk b junk' x fun t ti => countView nr limit t ti (x.read nr junk)

/-- `climstdev(x)`, `dailystdev(x)`, ..., climat.py:438-456, before the square root -/
def variance (nr : List ℚ → ℚ) (junk : List ℕ → ℚ) (limit : ℕ) (mk : List (Name × List ℚ) → Axis) (b : Bin) (x : Var ℚ) : Option (Var ℚ) :=
  timeOp mk b junk x fun t ti => varianceView nr limit t ti (x.read nr junk)

/-- `climnanstdev(x)`, `dailynanstdev(x)`, ..., climat.py:458-475, before the square root -/
def nanvariance (nr : List ℚ → ℚ) (junk : List ℕ → Option ℚ) (limit : ℕ) (mk : List (Name × List ℚ) → Axis) (b : Bin)
    (x : Var (Option ℚ)) : Option (Var (Option ℚ)) :=
  timeOp mk b junk x fun t ti => nanVarianceView nr limit t ti (x.read nr junk)

/-! ### the trend -/

/-- `Coef(2)`, climat.py:309 and axis.py:1231 -/
def coefAxis (nr : List ℚ → ℚ) : Axis :=
  { classes := ["Coef".toList, "Index".toList, "Axis".toList], aliases := ["coef".toList, "index".toList, "axis".toList, []]
    name := "coef".toList, values := [0, 1], isFloat := false, rtol := nr [0, 1], auxatts := [], auxarrays := [] }

/-- the data and the seconds on a chunk, climat.py:326-328 and 342. Simplified: the seconds are broadcast to the shape of the data
before they are summed, not after. -/
def pairReader (nr : List ℚ → ℚ) (junk : List ℕ → ℚ) (x : Var ℚ) (t : Axis) (secs : List ℚ) (c : View Axis) : Option (NArr (ℚ × ℚ)) :=
  (x.read nr junk c).bind fun d =>
  (({ axes := [t], src := .values ⟨[t.len], fun k => secs.getD (k.getD 0 0) 0⟩ } : Var ℚ).read nr junk c).map fun s =>
    ⟨d.shape, fun k => (d.get k, s.get (bindex s.shape k))⟩

/-- `Trend.getview`, climat.py:317-369. `secs` are the seconds since the start date; the axis of coefficients is the last one. -/
def trendView (nr : List ℚ → ℚ) (junk : List ℕ → ℚ) (limit : ℕ) (x : Var ℚ) (secs : List ℚ) (t : Axis) (ti : ℕ) (view : View Axis) :
    Option (NArr ℚ) :=
  let cview : View Axis := ⟨view.axes.dropLast, view.inds.dropLast⟩                                           -- line 330
  let acc := fun f : ℚ × ℚ → ℚ => accumulate partialSum nr limit t ti (fun c => (pairReader nr junk x t secs c).map (NArr.map f)) cview
  (acc Prod.fst).bind fun F => (acc Prod.snd).bind fun X => (acc fun p => p.1 * p.2).bind fun XF => (acc fun p => p.2 ^ 2).map fun X2 =>
  let mean := fun (st : NArr ℚ × NArr ℕ) k => st.1.get k / (st.2.get k : ℚ)                                    -- lines 348-351
  let A := fun k => mean XF k - mean X k * mean F k                                                            -- line 355
  let B := fun k => mean X2 k * mean F k - mean X k * mean XF k                                                -- line 356
  { shape := view.shape
    get := fun k =>                                                                                            -- lines 358-369
      let c := (view.inds.getLastD []).getD (k.getLastD 0) 0
      let v := if c = 1 then A k.dropLast else if c = 0 then B k.dropLast else junk k
      v / (mean X2 k.dropLast - mean X k.dropLast ^ 2) }

/-- `climtrend(x)`, climat.py:312-315 and 431: at least two times are needed -/
def climtrend (nr : List ℚ → ℚ) (junk : List ℕ → ℚ) (limit : ℕ) (mk : List (Name × List ℚ) → Axis) (secs : List ℚ) (x : Var ℚ) :
    Option (Var ℚ) :=
  (foundAt (whichaxis x.axes (.cls "CalendarTime".toList))).bind fun ti =>
  (x.axes[ti]?).bind fun t => if 1 < t.len then (outTime mk t .clim).map fun out =>
      Var.ofView junk (x.axes.set ti out ++ [coefAxis nr]) (trendView nr junk limit x secs t ti)
    else none

end ClimVar
end PyGeode
