/-
Model of the choice of contours, /repo/pygeode/plot/cnt_helpers.py: `guessclimits`, `clfdict`, `cldict`, and how `showvar` puts them
together (/repo/pygeode/plot/pyg_helpers.py:243-292). Exact arithmetic; the descriptions of `np.percentile`, `np.linspace` and
`np.arange` are trusted. Left out: colours and the other options passed through.
-/
import Mathlib.Algebra.Order.Field.Rat
import Mathlib.Algebra.Order.Archimedean.Basic
import Mathlib.Data.Int.Log
import Mathlib.Data.List.Sort
import Mathlib.Data.Rat.Floor

namespace PyGeode
namespace Contours

/-- `np.percentile(l, q)`: linear interpolation in the sorted values -/
def percentile (l : List ℚ) (q : ℚ) : ℚ :=
  let s := l.insertionSort (· ≤ ·)
  let h := q / 100 * ((l.length : ℚ) - 1)
  let i := ⌊h⌋₊
  s.getD i 0 + (h - i) * (s.getD (min (i + 1) (l.length - 1)) 0 - s.getD i 0)

/-- `np.linspace(a, b, n)` -/
def linspace (a b : ℚ) (n : ℕ) : List ℚ := (List.range n).map fun i : ℕ => a + i * ((b - a) / ((n : ℚ) - 1))

/-- `np.arange(a, b, step)`, `step > 0` -/
def arange (a b step : ℚ) : List ℚ := (List.range ⌈(b - a) / step⌉₊).map fun i : ℕ => a + i * step

inductive Style
  | div
  | seq
  deriving DecidableEq

/-- the round number for `m`, and how many colours to a division, cnt_helpers.py:180-187 (divergent) -/
def roundDiv (m : ℚ) : ℚ × ℕ :=
  if m > 6 then (10, 5) else if m > 5 then (6, 6) else if m > 4 then (5, 6) else if m > 3 then (4, 4)
  else if m > 2 then (3, 6) else if m > 3 / 2 then (2, 6) else if m > 1 then (3 / 2, 6) else (1, 5)

/-- the same for sequential contours, cnt_helpers.py:205-211 -/
def roundSeq (m : ℚ) : ℚ × ℕ :=
  if m > 6 then (10, 5) else if m > 5 then (6, 6) else if m > 4 then (5, 5) else if m > 3 then (4, 4)
  else if m > 2 then (3, 6) else if m > 3 / 2 then (2, 6) else (3 / 2, 6)

/-- `np.floor(np.log10(np.abs(div)))`, cnt_helpers.py:177 and 202 -/
def decade (d : ℚ) : ℤ := Int.log 10 |d|

/-- the spacing and the number of colours, cnt_helpers.py:177-191 and 202-215 -/
def spacing (round : ℚ → ℚ × ℕ) (d : ℚ) : ℚ × ℕ :=
  let r := round (d / 10 ^ decade d)
  (r.1 * 10 ^ decade d, r.2)

/-- the range to be shown, cnt_helpers.py:133-161: the lowest and the highest value, or percentiles if these are outliers. (`dl` and
`dm` are the distances of these from the median; their sum, used at line 200, is `hi - lo`.) -/
def limits (zn : List ℚ) : ℚ × ℚ :=
  let mn := percentile zn 0
  let p2 := percentile zn 2
  let md := percentile zn 50
  let p98 := percentile zn 98
  let mx := percentile zn 100
  if mx - mn > 0 then                                                       -- line 145
    (if md - p2 > 0 ∧ (md - mn) / (md - p2) > 50 then p2 else mn,           -- lines 146-151
     if p98 - md > 0 ∧ (mx - md) / (p98 - md) > 50 then p98 else mx)        -- lines 152-157
  else (mn - 1, mn + 1)                                                     -- lines 159-162

/-- the style, cnt_helpers.py:163-167 -/
def styleOf (zn : List ℚ) : Option Style → Style
  | some s => s
  | none =>
    if ¬ percentile zn 100 - percentile zn 0 > 0 then .div                  -- line 163
    else if percentile zn 2 < 0 ∧ percentile zn 98 > 0 then .div else .seq  -- lines 166-167

/-- what `guessclimits` returns: the spacing, and the keywords for `clfdict` or `cldict` -/
structure Guess where
  cdelt : ℚ
  ndiv : ℕ
  nf : ℕ
  min : Option ℚ
  range : ℚ
  style : Style

/-- `guessclimits(z, style, ndiv, clf)`, cnt_helpers.py:110-224; `none` in `z`: a value that is not finite. The keyword `nf` that is
not given (line 128-131) is the default of `clfdict`. -/
def guess (z : List (Option ℚ)) (style : Option Style) (ndiv : Option ℕ) (clf : Bool) : Guess :=
  let zn := z.filterMap id                                                  -- lines 121-122
  if zn = [] then
    match style.getD .div with                                              -- lines 124-133
    | .div => { cdelt := 1, ndiv := ndiv.getD 3, nf := 6, min := none, range := 10, style := .div }
    | .seq => { cdelt := 1, ndiv := ndiv.getD 5, nf := 6, min := some 0, range := 10, style := .seq }
  else
    let lim := limits zn
    match styleOf zn style with
    | .div =>
      let n := ndiv.getD (if clf then 3 else 10)                            -- lines 170-172
      let s := spacing roundDiv (max (-lim.1) lim.2 / n)                    -- line 174
      { cdelt := s.1, ndiv := n, nf := s.2, min := none, range := n * s.1, style := .div }   -- lines 192-193
    | .seq =>
      let n := ndiv.getD (if clf then 5 else 10)                            -- lines 196-198
      let s := spacing roundSeq ((lim.2 - lim.1) / n)                       -- line 200
      { cdelt := s.1, ndiv := n, nf := s.2, min := some (lim.1 - (lim.1 - s.1 * ⌊lim.1 / s.1⌋)),   -- line 216
        range := n * s.1 / 2, style := .seq }                               -- lines 217-218

/-- the contours: filled levels, lines, ticks of the colour bar -/
structure Levels where
  fills : List ℚ
  lines : Option (List ℚ)
  ticks : List ℚ

/-- `clfdict(cdelt, min, mid, nf, nl, ndiv, nozero, style)`, cnt_helpers.py:251-338 -/
def fillLevels (cdelt : ℚ) (min : Option ℚ) (mid : ℚ) (nf nl ndiv : ℕ) (nozero : Bool) (style : Option Style) : Levels :=
  let style := style.getD (if min.isSome then .seq else .div)               -- lines 283-286
  let crange := if style = .div then cdelt * ndiv * 2 else cdelt * ndiv     -- lines 290-291
  let cmin := min.getD (mid - crange / 2)                                   -- lines 293-300
  let cmax := match min with
    | some m => m + crange
    | none => mid + crange / 2
  let mid := if min.isSome then (cmin + cmax) / 2 else mid
  let lines := match style with
    | .div =>
      if nozero then (linspace cmin 0 (nl * ndiv + 1)).dropLast ++ (linspace 0 cmax (nl * ndiv + 1)).drop 1   -- lines 308-310
      else linspace cmin cmax (2 * nl * ndiv + 1)                           -- line 312
    | .seq => linspace cmin cmax (nl * ndiv + 1)                            -- line 316
  { fills := match style with
      | .div => (linspace cmin mid (nf * ndiv + 1)).dropLast ++ (linspace mid cmax (nf * ndiv + 1)).drop 1    -- lines 306-307
      | .seq => linspace cmin cmax (nf * ndiv + 1)                          -- line 315
    lines := if nl = 0 then none else some lines                            -- line 318
    ticks := match style with
      | .div => linspace cmin cmax (2 * ndiv + 1)                           -- line 305
      | .seq => linspace cmin cmax (ndiv + 1) }                             -- line 314

/-- `cldict(cdelt, range, min, mid, cidelt, nozero)`, cnt_helpers.py:227-248: the lines -/
def lineLevels (cdelt : ℚ) (range : Option ℚ) (min : Option ℚ) (mid : ℚ) (cidelt : ℚ) (nozero : Bool) : List ℚ :=
  let cidelt := if nozero then 2 * cdelt else cidelt                        -- line 231
  let range := range.getD (10 * cdelt)                                      -- line 232
  if cidelt > 0 then
    arange (-range) (-cdelt) cdelt ++ arange (-cdelt) cdelt cidelt ++ arange cdelt (range + cdelt / 2) cdelt   -- lines 235-237
  else
    match min with
    | none => arange (mid - range) (mid + range + cdelt / 2) cdelt          -- line 239
    | some m => arange m (m + 2 * range + cdelt / 2) cdelt                  -- line 241

/-- the filled contours that `showvar` chooses for the values `z`, pyg_helpers.py:258-272 -/
def autoFill (z : List (Option ℚ)) (style : Option Style) (ndiv : Option ℕ) : Levels :=
  let g := guess z style ndiv true
  fillLevels g.cdelt g.min 0 g.nf 2 g.ndiv false (some g.style)

/-- the contour lines that `showvar(type='cl')` chooses, pyg_helpers.py:274-288. (If no value is finite, `ndiv` and `style` are passed
on to the plot, which does not know them: not modelled.) -/
def autoLines (z : List (Option ℚ)) (style : Option Style) (ndiv : Option ℕ) : List ℚ :=
  let g := guess z style ndiv false
  lineLevels g.cdelt (some g.range) g.min 0 0 false

end Contours
end PyGeode
