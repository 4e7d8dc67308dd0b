/-
Model of `savepages`, /repo/pygeode/plot/pyg_helpers.py:1102-1163: figures are put on pages, one after the other in rows. Exact
arithmetic; drawing and writing the file are not modelled.
-/
import Mathlib.Algebra.Order.Field.Rat
import Mathlib.Data.List.Sort

namespace PyGeode
namespace Pages

/-- a figure put on a page: `ax.add_axis(f, [x0, y0, x1, y1])`, in parts of the page, from the lower left corner -/
structure Placed where
  fig : ℕ
  page : ℕ
  x0 : ℚ
  y0 : ℚ
  x1 : ℚ
  y1 : ℚ
deriving DecidableEq

/-- the variables of the loop -/
structure State where
  x : ℚ
  y : ℚ
  hlast : ℚ
  nfigs : ℕ
  page : ℕ
  done : List Placed

/-- the size of the paper, the margins and the scale -/
structure Paper where
  width : ℚ
  height : ℚ
  marg : ℚ
  scl : ℚ

/-- `xmarg`, line 1118 -/
def Paper.xmarg (p : Paper) : ℚ := p.marg / p.width
/-- `ymarg`, line 1117 -/
def Paper.ymarg (p : Paper) : ℚ := p.marg / p.height

/-- before the loop, lines 1120-1129 -/
def start (p : Paper) : State := { x := p.xmarg, y := 1 - p.ymarg, hlast := 0, nfigs := 0, page := 1, done := [] }

/-- one figure of the given size, lines 1131-1157 -/
def step (p : Paper) (s : State) (f : (ℚ × ℚ) × ℕ) : State :=
  let w := f.1.1 / p.width * p.scl
  let h := f.1.2 / p.height * p.scl
  if s.x + w < 1 - p.xmarg then
    { s with x := s.x + w, hlast := max h s.hlast, nfigs := s.nfigs + 1, done := s.done ++ [⟨f.2, s.page, s.x, s.y - h, s.x + w, s.y⟩] }
  else
    let y := s.y - s.hlast
    let new := decide (0 < s.nfigs) && decide (y - h < p.ymarg)                                          -- line 1143
    let y := if new then 1 - p.ymarg else y
    let page := if new then s.page + 1 else s.page
    { x := p.xmarg + w, y := y, hlast := h, nfigs := if new then 1 else s.nfigs + 1, page := page
      done := s.done ++ [⟨f.2, page, p.xmarg, y - h, p.xmarg + w, y⟩] }

/-- `savepages(figs, fn, psize, marg, scl)` for figures of the given sizes: where they are put, and the number of pages -/
def savePages (p : Paper) (figs : List (ℚ × ℚ)) : List Placed × ℕ :=
  let s := figs.zipIdx.foldl (step p) (start p)
  (s.done, s.page)

end Pages
end PyGeode
