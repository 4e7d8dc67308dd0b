/-
Model of `showgrid`, /repo/pygeode/plot/pyg_helpers.py:931-1050: contour plots of several variables in a table. What each panel shows is
`vcontour` (`Model/Plot`), how the table is laid out is `grid` (`Model/Layout`). Panels on maps, the colour bar (`Layout.colorbar`) and styles are
not modelled; `label` is not given.
-/
import Verif.Model.Layout

namespace PyGeode
namespace ShowGrid
open Layout

/-- one panel: the positions in `vf` and `vl` of the variables drawn in it, whether coordinates are written along x and y, its margins and
its size -/
structure Panel where
  fill : ℕ
  lines : Option ℕ
  lblx : Bool
  lbly : Bool
  pad : ℚ × ℚ × ℚ × ℚ
  size : ℚ × ℚ
deriving DecidableEq

/-- the arguments `size`, `lbl`, `axpad`, `aypad`, `lblxpad`, `lblypad` -/
structure Options where
  axw : ℚ
  axh : ℚ
  lbl : Bool
  axpad : ℚ
  aypad : ℚ
  lblxpad : ℚ
  lblypad : ℚ

/-- `axpadl`, lines 990-995 -/
def Options.axpadl (o : Options) : ℚ := if o.lbl then o.axpad + o.lblxpad else o.axpad
/-- `aypadl`, lines 990-995 -/
def Options.aypadl (o : Options) : ℚ := if o.lbl then o.aypad + o.lblypad else o.aypad

/-- the margins on the right and at the top that `vcontour` leaves, pyg_helpers.py:94-96 and 124-126 -/
def padRight : ℚ := 1 / 10
/-- the same at the top -/
def padTop : ℚ := 3 / 10

/-- one pass of the loop, lines 1001-1031, without where the panel is put; `nrow` is `np.ceil(nV / float(ncol))`, line 986 -/
def panel (o : Options) (nVf nVl ncol i : ℕ) : Panel :=
  let nV := max nVl nVf
  let nrow := (nV + ncol - 1) / ncol
  let lblx := decide (i / ncol + 1 = nrow)
  let lbly := decide (i % ncol = 0)
  let py := if lblx then o.aypadl else o.aypad
  let px := if lbly then o.axpadl else o.axpad
  { fill := i % nVf, lines := if 0 < nVl then some (i % nVl) else none, lblx := lblx, lbly := lbly
    pad := (px - padRight, py - padTop, padRight, padTop), size := (o.axw + px, o.axh + py) }

/-- the rows made so far and the row being filled, lines 1032-1035 -/
def addPanel (ncol : ℕ) (s : List (List (Option ℕ)) × List (Option ℕ)) (i : ℕ) : List (List (Option ℕ)) × List (Option ℕ) :=
  let row := s.2 ++ [some i]
  if i % ncol = ncol - 1 then (s.1 ++ [row], []) else (s.1, row)

/-- `axs`, lines 999-1039: the table of `n` panels in `ncol` columns -/
def table (ncol n : ℕ) : List (List (Option ℕ)) :=
  let s := (List.range n).foldl (addPanel ncol) ([], [])
  if 0 < s.2.length then s.1 ++ [s.2 ++ List.replicate (ncol - s.2.length) none] else s.1

/-- `showgrid(vf, vl, ncol, size, lbl)` of `nVf` filled and `nVl` line variables: the panels, the wrappers and which of them holds the table.
`none` is an exception: of `vf[0]` for an empty `vf` (line 958), of the assertion about the numbers of variables (line 954), of a division by `ncol`, of `grid`. -/
def showGrid (o : Options) (nVf nVl ncol : ℕ) : Option (List Panel × Heap × ℕ) :=
  if nVf = 0 then none
  else if 1 < nVf ∧ 1 < nVl ∧ nVl ≠ nVf then none
  else if ncol = 0 then none
  else
    let panels := (List.range (max nVl nVf)).map (panel o nVf nVl ncol)
    (grid (panels.map fun P => { fresh P.size with pad := some P.pad, makeAxis := true }) (table ncol (max nVl nVf)) none).map fun r => (panels, r.1, r.2)

end ShowGrid
end PyGeode
