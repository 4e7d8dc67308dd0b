import Mathlib.Algebra.Order.Field.Rat
import Mathlib.Tactic.Common
/-!
# Panels of a figure (`pygeode/plot/wrappers.py`)

A figure is a hierarchy of `AxesWrapper` objects.  Each one may carry a plot of its own and may
hold other wrappers, each in a box given as a fraction of the holder's own area.  `grid` makes a
new wrapper holding a table of panels, `colorbar` and `annotate` make a new wrapper holding one
panel and something beside it, and `render` walks down the hierarchy giving every panel a
rectangle on the page.

Wrappers are mutable objects which point at each other, so the model has a heap: a wrapper is a
position in a list.  Floats are exact rationals.
-/
namespace PyGeode.Layout

/-- A box given by its extents, `[x0, y0, x1, y1]`. -/
structure Box where
  x0 : ℚ
  y0 : ℚ
  x1 : ℚ
  y1 : ℚ
deriving DecidableEq, Repr

/-- A rectangle given by a corner and a size, `[left, bottom, width, height]`. -/
structure Rect where
  l : ℚ
  b : ℚ
  w : ℚ
  h : ℚ
deriving DecidableEq, Repr

/-- The fields of an `AxesWrapper` which decide where it is drawn (wrappers.py:11-42).  `pad` is
in inches: left, bottom, right, top.  Left out: the list of plots, the arguments of the axes, the
projection and the name. -/
structure Wrapper where
  parent : Option ℕ
  axes : List ℕ
  boxes : List Box
  rect : Rect
  pad : Option (ℚ × ℚ × ℚ × ℚ)
  size : ℚ × ℚ
  makeAxis : Bool
deriving DecidableEq, Repr

/-- The objects there are. -/
abbrev Heap := List Wrapper

/-- `rect is None`: the rectangle of matplotlib's defaults (wrappers.py:25-28), which are left
0.125, bottom 0.11, right 0.9, top 0.88. -/
def defaultRect : Rect := ⟨1/8, 11/100, 9/10 - 1/8, 88/100 - 11/100⟩

/-- `AxesWrapper(size=..)` (wrappers.py:13-42): nothing in it, no plot, no holder. -/
def fresh (size : ℚ × ℚ) : Wrapper := ⟨none, [], [], defaultRect, none, size, false⟩

/-- `add_axis` (wrappers.py:44-52): the box must have a positive width and height; the panel is
given its new holder, and the holder the panel and its box. -/
def addAxis (h : Heap) (p c : ℕ) (r : Box) : Option Heap :=
  if 0 < r.x1 - r.x0 ∧ 0 < r.y1 - r.y0 then
    some ((h.modify c fun w => { w with parent := some p }).modify p
      fun w => { w with axes := w.axes ++ [c], boxes := w.boxes ++ [r] })
  else none

/-- The size of a panel. -/
def sizeOf (h : Heap) (c : ℕ) : ℚ × ℚ := (h[c]?.map Wrapper.size).getD (0, 0)

/-- `rowh` (wrappers.py:522): the greatest height in every row; a row with no panel at all has
no greatest height. -/
def rowHeights (h : Heap) (cells : List (List (Option ℕ))) : Option (List ℚ) :=
  cells.mapM fun row => ((row.filterMap id).map fun c => (sizeOf h c).2).max?

/-- `colw` (wrappers.py:523): the greatest width in every column. -/
def colWidths (h : Heap) (cells : List (List (Option ℕ))) (nx : ℕ) : Option (List ℚ) :=
  (List.range nx).mapM fun j =>
    ((cells.filterMap fun row => (row[j]?).join).map fun c => (sizeOf h c).1).max?

/-- The inner loop of `grid` (wrappers.py:532-543): the boxes of one row, from left to right.
The boxes depend on the sizes only, which placing a panel does not change. -/
def rowBoxes (h : Heap) (ts : ℚ × ℚ) (rh y : ℚ) :
    ℚ → List (Option ℕ) → List ℚ → List (ℕ × Box)
  | x, none :: row, cw :: cs => rowBoxes h ts rh y (x + cw / ts.1) row cs
  | x, some c :: row, cw :: cs =>
    let w := (sizeOf h c).1 / ts.1
    let px := (cw - (sizeOf h c).1) / ts.1 / 2
    let ht := (sizeOf h c).2 / ts.2
    let py := (rh - (sizeOf h c).2) / ts.2 / 2
    (c, ⟨x + px, y - ht - py, x + w + px, y - py⟩) :: rowBoxes h ts rh y (x + cw / ts.1) row cs
  | _, _, _ => []

/-- The outer loop of `grid` (wrappers.py:531-545): the rows, from the top down. -/
def gridBoxes (h : Heap) (ts : ℚ × ℚ) (colw : List ℚ) :
    ℚ → List (List (Option ℕ)) → List ℚ → List (ℕ × Box)
  | y, row :: rows, rh :: rhs =>
    rowBoxes h ts rh y 0 row colw ++ gridBoxes h ts colw (y - rh / ts.2) rows rhs
  | _, _, _ => []

/-- Put the panels in their boxes, one after another. -/
def placeAll (g : ℕ) : Heap → List (ℕ × Box) → Option Heap
  | h, [] => some h
  | h, (c, r) :: l => (addAxis h g c r).bind fun h' => placeAll g h' l

/-- `grid(axes, size)` (wrappers.py:515-548). -/
def grid (h : Heap) (cells : List (List (Option ℕ))) (size : Option (ℚ × ℚ)) :
    Option (Heap × ℕ) :=
  (cells.head?).bind fun first =>
  if cells.all fun row => row.length == first.length then
    (rowHeights h cells).bind fun rowh =>
    (colWidths h cells first.length).bind fun colw =>
    let ts : ℚ × ℚ := (colw.sum, rowh.sum)
    let g := h.length
    (placeAll g (h ++ [fresh (size.getD ts)]) (gridBoxes h ts colw 1 cells rowh)).map
      fun h' => (h', g)
  else none

/-- Where a colour bar goes: `pos` (wrappers.py:392). -/
inductive Pos where
  | r
  | l
  | b
  | t
deriving DecidableEq, Repr

/-- The layout of `colorbar(axes, cnt, pos=.., orientation=.., width=.., height=..)`
(wrappers.py:389-421): a new panel, as wide or as high as the panel of the plot, in a grid with
it.  `vertical` is the orientation; if it is not given it follows from the position
(wrappers.py:393-394).  `thick` is the width or height asked for; the defaults are 0.8 and 0.4.
Left out: the plot operation itself, its ticks. -/
def colorbar (h : Heap) (c : ℕ) (pos : Pos) (vertical : Option Bool) (thick : Option ℚ) :
    Option (Heap × ℕ) :=
  let vert := vertical.getD (match pos with | .r => true | .l => true | .b => false | .t => false)
  let size : ℚ × ℚ :=
    if vert then (thick.getD (8/10), (sizeOf h c).2) else ((sizeOf h c).1, thick.getD (4/10))
  let rect : Rect := if vert then ⟨1/10, 15/100, 2/10, 75/100⟩ else ⟨15/100, 1/2, 75/100, 4/10⟩
  let cax := h.length
  let h1 := h ++ [{ fresh size with rect := rect, makeAxis := true }]
  match pos with
  | .b => grid h1 [[some c], [some cax]] none
  | .l => grid h1 [[some cax, some c]] none
  | .t => grid h1 [[some cax], [some c]] none
  | .r => grid h1 [[some c, some cax]] none

/-- The layout of `annotate(axes, text)` (wrappers.py:550-558): half an inch is added below the
panel.  Left out: the text. -/
def annotate (h : Heap) (c : ℕ) : Option (Heap × ℕ) :=
  let size : ℚ × ℚ := ((sizeOf h c).1, (sizeOf h c).2 + 1/2)
  (addAxis (h ++ [fresh size]) h.length c ⟨0, 1/2 / size.2, 1, 1⟩).map fun h' => (h', h.length)

/-- matplotlib's `BboxTransformTo(box)`: takes the unit square to the box. -/
def boxTransform (b : Box) (p : ℚ × ℚ) : ℚ × ℚ :=
  (b.x0 + p.1 * (b.x1 - b.x0), b.y0 + p.2 * (b.y1 - b.y0))

/-- `get_transform(root)` (wrappers.py:102-113): where a point of the panel's own area is on the
page.  The panel looks for itself in the list of its holder; the holder is asked for its own
transform, but is *not* told the root.  `fuel` is Python's limit on recursion. -/
def getTransform (h : Heap) : ℕ → Option ℕ → ℕ → Option (ℚ × ℚ → ℚ × ℚ)
  | 0, _, _ => none
  | fuel + 1, root, self =>
    (h[self]?).bind fun w =>
    match w.parent with
    | none => some id
    | some p =>
      if root = some self then some id else
      (h[p]?).bind fun wp =>
      if self ∈ wp.axes then
        (wp.boxes[wp.axes.idxOf self]?).bind fun b =>
        (getTransform h fuel none p).map fun tp => tp ∘ boxTransform b
      else none

/-- The rectangle of one panel (wrappers.py:117-135), given its transform and the size of the
page in inches. -/
def axesRect (w : Wrapper) (fsize : ℚ × ℚ) (tfm : ℚ × ℚ → ℚ × ℚ) : Rect :=
  match w.pad with
  | some (pl, pb, pr, pt) =>
    let l := (tfm (0, 0)).1 + pl / fsize.1
    let b := (tfm (0, 0)).2 + pb / fsize.2
    ⟨l, b, (tfm (1, 1)).1 - l - pr / fsize.1, (tfm (1, 1)).2 - b - pt / fsize.2⟩
  | none =>
    let lb := tfm (w.rect.l, w.rect.b)
    let rt := tfm (w.rect.l + w.rect.w, w.rect.b + w.rect.h)
    ⟨lb.1, lb.2, rt.1 - lb.1, rt.2 - lb.2⟩

/-- `for a in self.axes: ..` gathering what each call draws. -/
def gather (f : ℕ → Option (List (ℕ × Rect))) : List ℕ → Option (List (ℕ × Rect))
  | [] => some []
  | a :: l => (f a).bind fun x => (gather f l).map fun y => x ++ y

/-- `_build_axes(fig, root)` (wrappers.py:115-152): the panel itself if it has a plot, then the
panels it holds. -/
def buildAxes (h : Heap) (depth : ℕ) (fsize : ℚ × ℚ) (root : ℕ) :
    ℕ → ℕ → Option (List (ℕ × Rect))
  | 0, _ => none
  | fuel + 1, self =>
    (h[self]?).bind fun w =>
    (if w.makeAxis then
      (getTransform h depth (some root) self).map fun tfm => [(self, axesRect w fsize tfm)]
     else some []).bind fun own =>
    (gather (buildAxes h depth fsize root fuel) w.axes).map fun rest => own ++ rest

/-- `render()` (wrappers.py:71-83): the page has the size of the wrapper unless the caller asks
for another.  The list is what is drawn, in order. -/
def render (h : Heap) (depth : ℕ) (self : ℕ) (figsize : Option (ℚ × ℚ)) :
    Option (List (ℕ × Rect)) :=
  buildAxes h depth (figsize.getD (sizeOf h self)) self depth self

end PyGeode.Layout
