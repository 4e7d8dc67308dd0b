/-
Model of the time averages of /repo/pygeode/climat.py: `loopover` (20-60), `Mean` (188-206),
`NANMean` (208-231), `Stdev` (233-255), `NANStdev` (257-284), `Count` (286-303), `Trend` (305-370).

`m` is the shape of the (clipped) requested output, `ti` the time dimension, `pairs` the result of
`Time.common_map(t, ct)` (model `TimeC.commonMap`): input time position, output time position.
`chunk` reads the variable on the axes of the clipped view, the time axis being the input one
(`inv.get(var)`, theorem `get_correct`). Arithmetic is exact.
-/
import Verif.Model.Reduce
import Verif.Model.PartialSum
import Verif.Model.TimeC

namespace PyGeode
namespace Climat
open NArr View Reduce PartialSum
variable {α β : Type}

/-- the kept fields of a date tuple (`fnames` of `modify`, /repo/pygeode/timeutils.py:60-75, as positions:
`Clim` keeps `[1,2,3,4,5]`, `Diurnal` `[3,4,5]`, `Daily` `[0,1,2]`, `Monthly` `[0,1]`, `Yearly` `[0]`,
climat.py:76-117) -/
def project (keep : List ℕ) (r : TimeC.Row) : TimeC.Row := keep.map fun i => r.getD i 0

/-- `_uniquify`, /repo/pygeode/timeutils.py:13-29: sort, then drop repetitions. -/
def uniquifySorted (rows : List TimeC.Row) : List TimeC.Row :=
  TimeC.uniquify ((TimeC.argsortRows rows).map fun i : ℕ => rows.getD i [])

/-- the output time axis: `modify(intime, ..., uniquify=True)`, /repo/pygeode/timeutils.py:36-83 -/
def outTime (keep : List ℕ) (rows : List TimeC.Row) : List TimeC.Row := uniquifySorted (rows.map (project keep))

/-- `Time.common_map(t, ct)`, climat.py:37, `ct` being the requested part `sel` of the output axis: both axes
are compared on the fields they have in common, the kept ones (/repo/pygeode/timeaxis.py:240-250). -/
def binPairs (keep : List ℕ) (rows : List TimeC.Row) (sel : List ℕ) : List (ℕ × ℕ) :=
  TimeC.commonMap (rows.map (project keep)) (sel.map fun o : ℕ => (outTime keep rows).getD o [])

/-- `view.replace_axis(Time, t, inmap)`, climat.py:40 -/
def inView (m : List ℕ) (ti : ℕ) (pairs : List (ℕ × ℕ)) : View ℕ :=
  { axes := List.range m.length, inds := (m.map List.range).set ti (pairs.map Prod.fst) }

/-- `view.replace_axis(Time, ct, outmap)`, climat.py:41 -/
def climView (m : List ℕ) (ti : ℕ) (pairs : List (ℕ × ℕ)) : View ℕ :=
  { axes := List.range m.length, inds := (m.map List.range).set ti (pairs.map Prod.snd) }

/-- `loopover` with the accumulation of the callers: each chunk is partially summed into the bins
`climv.integer_indices[ti]` (climat.py:53-60) and added to its place, all of the time axis
(`slices[ti] = slice(None)`, climat.py:59; tools.py:488-489). `ps` is `partial_sum` or `partial_nan_sum`. -/
def climLoop [Add α] [Zero α] (ps : NArr β → ℕ → ℕ → List ℕ → NArr α × NArr ℕ) (limit : ℕ) (m : List ℕ) (ti : ℕ)
    (pairs : List (ℕ × ℕ)) (chunk : View ℕ → NArr β) : NArr α × NArr ℕ :=
  (((inView m ti pairs).loopMem limit []).zip ((climView m ti pairs).loopMem limit [])).foldl
    (fun st c =>
      let r := ps (chunk c.1) ti (m.getD ti 0) (c.2.inds.getD ti [])
      let pos := c.2.inds.set ti (List.range (m.getD ti 0))
      (updateOuter (· + ·) st.1 pos r.1, updateOuter (· + ·) st.2 pos r.2))
    ({ shape := m, get := fun _ => 0 }, { shape := m, get := fun _ => 0 })

/-- `Mean.getview`, climat.py:192-205 -/
def climMean (limit : ℕ) (m : List ℕ) (ti : ℕ) (pairs : List (ℕ × ℕ)) (chunk : View ℕ → NArr ℚ) : NArr ℚ :=
  let st := climLoop partialSum limit m ti pairs chunk
  zip2 (fun s (n : ℕ) => s / (n : ℚ)) st.1 st.2

/-- `NANMean.getview`, climat.py:212-230; `none` is NaN -/
def climNanMean (limit : ℕ) (m : List ℕ) (ti : ℕ) (pairs : List (ℕ × ℕ)) (chunk : View ℕ → NArr (Option ℚ)) :
    NArr (Option ℚ) :=
  let st := climLoop partialNanSum limit m ti pairs chunk
  zip2 (fun s (n : ℕ) => if n = 0 then none else some (s / (n : ℚ))) st.1 st.2

/-- `Count.getview`, climat.py:290-302 -/
def climCount (limit : ℕ) (m : List ℕ) (ti : ℕ) (pairs : List (ℕ × ℕ)) (chunk : View ℕ → NArr (Option ℚ)) : NArr ℕ :=
  (climLoop (α := ℚ) partialNanSum limit m ti pairs chunk).2

/-- `Stdev.getview`, climat.py:237-254, before the square root -/
def climVariance (limit : ℕ) (m : List ℕ) (ti : ℕ) (pairs : List (ℕ × ℕ)) (chunk : View ℕ → NArr ℚ) : NArr ℚ :=
  let st := climLoop partialSum limit m ti pairs chunk
  let st2 := climLoop partialSum limit m ti pairs fun c => (chunk c).map (· ^ 2)
  { shape := m
    get := fun k =>
      let n : ℚ := st.2.get k
      let x := st.1.get k / n
      (st2.1.get k - n * x ^ 2) / (n - 1) }

/-- `NANStdev.getview`, climat.py:261-283, before the square root; `none` is NaN (no value) -/
def climNanVariance (limit : ℕ) (m : List ℕ) (ti : ℕ) (pairs : List (ℕ × ℕ)) (chunk : View ℕ → NArr (Option ℚ)) :
    NArr (Option ℚ) :=
  let st := climLoop partialNanSum limit m ti pairs chunk
  let st2 := climLoop partialNanSum limit m ti pairs fun c => (chunk c).map (Option.map (· ^ 2))
  { shape := m
    get := fun k =>
      let n : ℚ := st.2.get k
      let x := st.1.get k / n
      if st.2.get k = 0 then none else some ((st2.1.get k - n * x ^ 2) / (n - 1)) }

/-- `Trend.getview`, climat.py:317-369: `(B, A)`, the constant and the linear coefficient. Simplified: `t` (seconds since the
start) is read as an array of the shape of the data that is constant along the other axes, instead of being
broadcast. -/
def climTrend (limit : ℕ) (m : List ℕ) (ti : ℕ) (pairs : List (ℕ × ℕ)) (chunk tchunk : View ℕ → NArr ℚ) :
    NArr (ℚ × ℚ) :=
  let mean := fun ch => climMean limit m ti pairs ch
  let F := mean chunk
  let X := mean tchunk
  let XF := mean fun c => zip2 (· * ·) (chunk c) (tchunk c)
  let X2 := mean fun c => (tchunk c).map (· ^ 2)
  { shape := m
    get := fun k =>
      let d := X2.get k - X.get k ^ 2
      ((X2.get k * F.get k - X.get k * XF.get k) / d, (XF.get k - X.get k * F.get k) / d) }

end Climat
end PyGeode
