import Verif.Model.Layout
/-!
# What a user expects of a page of panels
-/
namespace PyGeode.Spec
open PyGeode.Layout

/-- The panel `c` stands in row `i`, column `j` of the table. -/
def InCell (cells : List (List (Option ℕ))) (i j c : ℕ) : Prop :=
  ∃ row, cells[i]? = some row ∧ row[j]? = some (some c)

/-- The panel `c` is held by the wrapper `p`, in the box `b`. -/
def HeldIn (h : Heap) (p c : ℕ) (b : Box) : Prop :=
  ∃ (w : Wrapper) (k : ℕ), h[p]? = some w ∧ w.axes[k]? = some c ∧ w.boxes[k]? = some b

/-- The box `b`, given in fractions of `B`, on the page `B` lies on. -/
def scaled (B b : Box) : Box :=
  ⟨B.x0 + b.x0 * (B.x1 - B.x0), B.y0 + b.y0 * (B.y1 - B.y0),
   B.x0 + b.x1 * (B.x1 - B.x0), B.y0 + b.y1 * (B.y1 - B.y0)⟩

/-- The whole page. -/
def page : Box := ⟨0, 0, 1, 1⟩

/-- The area of the page a panel is given when `root` is drawn: `root` has the whole page, and
whatever a wrapper holds has its box within the wrapper's own area. -/
inductive Area (h : Heap) (root : ℕ) : ℕ → Box → Prop
  | root : Area h root root page
  | held {p c : ℕ} {B b : Box} : Area h root p B → HeldIn h p c b → Area h root c (scaled B b)

/-- One box inside another. -/
def BoxWithin (a b : Box) : Prop := b.x0 ≤ a.x0 ∧ b.y0 ≤ a.y0 ∧ a.x1 ≤ b.x1 ∧ a.y1 ≤ b.y1

/-- Two boxes which have no interior point in common, because one is beside or below the other. -/
def BoxesApart (a b : Box) : Prop := a.x1 ≤ b.x0 ∨ b.x1 ≤ a.x0 ∨ a.y1 ≤ b.y0 ∨ b.y1 ≤ a.y0

/-- A box with something in it. -/
def RealBox (b : Box) : Prop := b.x0 < b.x1 ∧ b.y0 < b.y1

/-- The box covered by a rectangle. -/
def boxOf (r : Rect) : Box := ⟨r.l, r.b, r.l + r.w, r.b + r.h⟩

/-- Wrappers hold panels properly: every panel a wrapper holds was made before it, knows its
holder, is held once, and has a box which is not empty; and a panel which has a holder is held
by it. -/
structure Hierarchy (h : Heap) : Prop where
  lens : ∀ (p : ℕ) (w : Wrapper), h[p]? = some w → w.axes.length = w.boxes.length
  once : ∀ (p : ℕ) (w : Wrapper), h[p]? = some w → w.axes.Nodup
  down : ∀ (p : ℕ) (w : Wrapper) (c : ℕ), h[p]? = some w → c ∈ w.axes → c < p ∧ ∃ v : Wrapper, h[c]? = some v ∧ v.parent = some p
  up : ∀ (c : ℕ) (v : Wrapper) (p : ℕ), h[c]? = some v → v.parent = some p → ∃ w : Wrapper, h[p]? = some w ∧ c ∈ w.axes
  real : ∀ (p : ℕ) (w : Wrapper) (b : Box), h[p]? = some w → b ∈ w.boxes → RealBox b

/-- Panels which may be put in a new wrapper: they exist, have no holder yet, and are all
different. -/
def Loose (h : Heap) (cs : List ℕ) : Prop :=
  cs.Nodup ∧ ∀ c ∈ cs, ∃ w : Wrapper, h[c]? = some w ∧ w.parent = none

/-- Pages a user can make: panels of their own (of some size), tables of loose panels (at their natural size),
colour bars and annotations. -/
inductive Made : Heap → Prop
  | empty : Made []
  | panel {h : Heap} {w : Wrapper} : Made h → w.parent = none → w.axes = [] → w.boxes = [] →
      0 < w.size.1 → 0 < w.size.2 → Made (h ++ [w])
  | table {h h' : Heap} {g : ℕ} {cells : List (List (Option ℕ))} : Made h →
      Loose h (cells.flatten.filterMap id) → grid h cells none = some (h', g) → Made h'
  | bar {h h' : Heap} {g c : ℕ} {pos : Pos} {v : Option Bool} {t : Option ℚ} : Made h →
      Loose h [c] → (∀ x, t = some x → 0 < x) → colorbar h c pos v t = some (h', g) → Made h'
  | note {h h' : Heap} {g c : ℕ} : Made h → Loose h [c] → annotate h c = some (h', g) → Made h'

/-- `colw` lists the widths of the columns of the table, each the greatest width of the panels
in it, and `rowh` the heights of the rows. -/
structure Measures (h : Heap) (cells : List (List (Option ℕ))) (colw rowh : List ℚ) : Prop where
  rows : rowh.length = cells.length
  cols : ∀ row ∈ cells, row.length = colw.length
  colOf : ∀ (j : ℕ) (m : ℚ), colw[j]? = some m → (∃ i c, InCell cells i j c ∧ (sizeOf h c).1 = m) ∧
    ∀ i c, InCell cells i j c → (sizeOf h c).1 ≤ m
  rowOf : ∀ (i : ℕ) (m : ℚ), rowh[i]? = some m → (∃ j c, InCell cells i j c ∧ (sizeOf h c).2 = m) ∧
    ∀ j c, InCell cells i j c → (sizeOf h c).2 ≤ m

/-- What `grid` is documented to make of a table: column `j` is as wide as its widest panel, row
`i` as high as its highest; the columns stand side by side from the left, the rows below each
other from the top, filling the page; and every panel is centred in its cell, at its own size. -/
def Tabled (h : Heap) (colw rowh : List ℚ)
    (i j c : ℕ) (b : Box) : Prop :=
  let W := colw.sum
  let H := rowh.sum
  let size := sizeOf h c
  (b.x1 - b.x0) * W = size.1 ∧ (b.y1 - b.y0) * H = size.2 ∧
  b.x0 * W + b.x1 * W = (colw.take j).sum + (colw.take (j + 1)).sum ∧
  (1 - b.y0) * H + (1 - b.y1) * H = (rowh.take i).sum + (rowh.take (i + 1)).sum

/-- The panels of a table have sizes. -/
def Sized (h : Heap) (cells : List (List (Option ℕ))) : Prop :=
  ∀ i j c, InCell cells i j c → 0 < (sizeOf h c).1 ∧ 0 < (sizeOf h c).2

/-- The rectangle a panel is given within its area: a fraction of it, or what is left when the
margins (in inches) are taken off. -/
def InArea (w : Wrapper) (fsize : ℚ × ℚ) (B : Box) (r : Rect) : Prop :=
  match w.pad with
  | none => boxOf r = scaled B (boxOf w.rect)
  | some (pl, pb, pr, pt) => (boxOf r).x0 = B.x0 + pl / fsize.1 ∧
      (boxOf r).y0 = B.y0 + pb / fsize.2 ∧ (boxOf r).x1 = B.x1 - pr / fsize.1 ∧
      (boxOf r).y1 = B.y1 - pt / fsize.2

end PyGeode.Spec
