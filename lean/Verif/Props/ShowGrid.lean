/-
C135: `showgrid` draws every variable in a panel of its own, in order, and the panels are aligned.
-/
import Verif.Model.ShowGrid
import Verif.Props.Layout

namespace PyGeode
namespace ShowGrid
open Layout Spec

/-! ## The table -/

private theorem fold_spec {ncol : ℕ} (hc : 0 < ncol) (m : ℕ) :
    (List.range m).foldl (addPanel ncol) ([], []) =
      ((List.range (m / ncol)).map (fun r => (List.range ncol).map fun c => some (r * ncol + c)),
       (List.range (m % ncol)).map fun c => some (m / ncol * ncol + c)) := by
  induction m with
  | zero => simp
  | succ m ih =>
    rw [List.range_succ, List.foldl_append, ih, List.foldl_cons, List.foldl_nil]
    unfold addPanel
    have hm := Nat.div_add_mod' m ncol
    have hlt := Nat.mod_lt m hc
    simp only
    have erow : ((List.range (m % ncol)).map fun c => some (m / ncol * ncol + c)) ++ [some m] =
        (List.range (m % ncol + 1)).map fun c => some (m / ncol * ncol + c) := by
      rw [List.range_succ, List.map_append, List.map_cons, List.map_nil, hm]
    rw [erow]
    by_cases h : m % ncol = ncol - 1
    · rw [if_pos h]
      have e : m + 1 = (m / ncol + 1) * ncol := by rw [Nat.add_mul]; omega
      have e1 : (m + 1) / ncol = m / ncol + 1 := by rw [e, Nat.mul_div_cancel _ hc]
      have e2 : (m + 1) % ncol = 0 := by rw [e, Nat.mul_mod_left]
      rw [e1, e2, show m % ncol + 1 = ncol by omega]
      simp [List.range_succ (n := m / ncol)]
    · rw [if_neg h]
      have e1 : (m + 1) / ncol = m / ncol := by
        rw [Nat.div_eq_iff hc]
        constructor
        · omega
        · have : m / ncol * ncol + ncol - 1 = m / ncol * ncol + (ncol - 1) := by omega
          omega
      have e2 : (m + 1) % ncol = m % ncol + 1 := by
        have := Nat.div_add_mod' (m + 1) ncol
        rw [e1] at this; omega
      rw [e1, e2]

/-- the panels stand row by row in the table -/
private theorem table_cell {ncol : ℕ} (hc : 0 < ncol) (n i j c : ℕ) :
    InCell (table ncol n) i j c ↔ j < ncol ∧ c = i * ncol + j ∧ c < n := by
  have hn := Nat.div_add_mod' n ncol
  have hlt := Nat.mod_lt n hc
  unfold InCell table
  rw [fold_spec hc]
  simp only [List.length_map, List.length_range]
  have full : ∀ i < n / ncol, (∃ row, some ((List.range ncol).map fun c => some (i * ncol + c)) = some row ∧ row[j]? = some (some c)) ↔
      j < ncol ∧ c = i * ncol + j ∧ c < n := by
    intro i hi
    simp only [Option.some.injEq, exists_eq_left', List.getElem?_map]
    have : (i + 1) * ncol ≤ n / ncol * ncol := Nat.mul_le_mul_right _ hi
    rw [Nat.add_mul] at this
    constructor
    · intro h
      obtain ⟨x, hx, he⟩ := Option.map_eq_some_iff.1 h
      obtain ⟨hb, rfl⟩ := List.getElem?_eq_some_iff.1 hx
      simp only [List.length_range] at hb
      simp only [List.getElem_range, Option.some.injEq] at he
      refine ⟨hb, he.symm, by omega⟩
    · rintro ⟨h1, h2, -⟩
      rw [List.getElem?_range h1]; simp [h2]
  by_cases hp : 0 < n % ncol
  · rw [if_pos hp]
    rcases lt_trichotomy i (n / ncol) with hi | hi | hi
    · rw [List.getElem?_append_left (by simpa using hi), List.getElem?_map, List.getElem?_range hi]
      exact full i hi
    · rw [List.getElem?_append_right (by simp [hi])]
      simp only [List.length_map, List.length_range, hi, Nat.sub_self, List.getElem?_cons_zero, Option.some.injEq, exists_eq_left']
      by_cases hj : j < n % ncol
      · rw [List.getElem?_append_left (by simpa using hj), List.getElem?_map, List.getElem?_range hj]
        simp only [Option.map_some, Option.some.injEq]
        constructor
        · intro h; exact ⟨by omega, h.symm, by omega⟩
        · rintro ⟨-, h, -⟩; exact h.symm
      · rw [List.getElem?_append_right (by simpa using hj)]
        constructor
        · intro h
          have := List.mem_of_getElem? h
          simp at this
        · rintro ⟨-, h, h'⟩; omega
    · rw [List.getElem?_eq_none (by simp; omega)]
      constructor
      · rintro ⟨row, h, -⟩; cases h
      · rintro ⟨h1, h2, h3⟩
        have : (n / ncol + 1) * ncol ≤ i * ncol := Nat.mul_le_mul_right _ hi
        rw [Nat.add_mul] at this; omega
  · rw [if_neg hp]
    rcases lt_or_ge i (n / ncol) with hi | hi
    · rw [List.getElem?_map, List.getElem?_range hi]
      exact full i hi
    · rw [List.getElem?_eq_none (by simpa using hi)]
      constructor
      · rintro ⟨row, h, -⟩; cases h
      · rintro ⟨h1, h2, h3⟩
        have : (n / ncol) * ncol ≤ i * ncol := Nat.mul_le_mul_right _ hi
        omega

private theorem table_rows {ncol : ℕ} (hc : 0 < ncol) (n : ℕ) : ∀ row ∈ table ncol n, row.length = ncol := by
  have hlt := Nat.mod_lt n hc
  unfold table
  rw [fold_spec hc]
  simp only [List.length_map, List.length_range]
  intro row hr
  have h1 : ∀ row ∈ (List.range (n / ncol)).map (fun r => (List.range ncol).map fun c => some (r * ncol + c)), row.length = ncol := by
    intro row hr
    obtain ⟨r, -, rfl⟩ := List.mem_map.1 hr
    simp
  split at hr
  · rcases List.mem_append.1 hr with h | h
    · exact h1 row h
    · simp only [List.mem_singleton] at h
      subst h
      simp; omega
  · exact h1 row hr

private theorem table_length {ncol : ℕ} (hc : 0 < ncol) (n : ℕ) : (table ncol n).length = (n + ncol - 1) / ncol := by
  have hn := Nat.div_add_mod' n ncol
  have hlt := Nat.mod_lt n hc
  unfold table
  rw [fold_spec hc]
  simp only [List.length_map, List.length_range]
  split
  · next h =>
    simp only [List.length_append, List.length_map, List.length_range, List.length_cons, List.length_nil]
    symm
    rw [Nat.div_eq_iff hc, Nat.add_mul]
    omega
  · next h =>
    simp only [List.length_map, List.length_range]
    symm
    rw [Nat.div_eq_iff hc]
    omega

/-- the last row is the row of the last panel -/
private theorem last_row {ncol n : ℕ} (hc : 0 < ncol) (hn : 0 < n) : (n + ncol - 1) / ncol = (n - 1) / ncol + 1 := by
  rw [show n + ncol - 1 = (n - 1) + ncol by omega, Nat.add_div_right _ hc]


/-! ## The widths and heights -/

private theorem sum_take {l : List ℚ} {a b : ℚ} {n : ℕ} (hl : l = (List.range n).map fun j => if j = 0 then a else b) {j : ℕ} (hj : j < n) :
    (l.take (j + 1)).sum = a + j * b := by
  subst hl
  induction j with
  | zero =>
    obtain ⟨n, rfl⟩ := Nat.exists_eq_succ_of_ne_zero (by omega : n ≠ 0)
    simp [List.range_succ_eq_map]
  | succ j ih =>
    rw [List.take_succ, List.sum_append, ih (by omega)]
    simp [hj]
    ring

private theorem sum_take' {l : List ℚ} {a b : ℚ} {n : ℕ} (hl : l = (List.range n).map fun j => if j + 1 = n then b else a) {j : ℕ} (hj : j < n) :
    (l.take j).sum = j * a := by
  subst hl
  induction j with
  | zero => simp
  | succ j ih =>
    rw [List.take_succ, List.sum_append, ih (by omega)]
    simp [show j < n by omega, show j + 1 ≠ n by omega]
    ring

end ShowGrid

namespace Spec
open Layout ShowGrid

/-- The panel `P`, put in the box `b` of a figure of the size `W` by `H`, has room for a plot of `w` by `h` whose upper left corner is `x` from the left edge and
`y` from the top edge of the figure: the margins of the panel, which are in inches, being taken off. -/
def PlotAt (W H : ℚ) (P : Panel) (b : Box) (x y w h : ℚ) : Prop :=
  b.x0 * W + P.pad.1 = x ∧ b.x1 * W - P.pad.2.2.1 = x + w ∧ (1 - b.y1) * H + P.pad.2.2.2 = y ∧ (1 - b.y0) * H - P.pad.2.1 = y + h

/-- sizes a user may ask for -/
structure GoodSizes (o : Options) : Prop where
  w : 0 < o.axw
  h : 0 < o.axh
  xpad : 0 ≤ o.axpad
  ypad : 0 ≤ o.aypad
  lx : 0 ≤ o.lblxpad
  ly : 0 ≤ o.lblypad

end Spec

namespace ShowGrid
open Layout Spec

/-- the number of panels is the greater of the numbers of variables, and a single variable is drawn in all of them -/
private theorem showGrid_parts {o : Options} (ho : GoodSizes o) {nVf nVl ncol : ℕ} (hf : 0 < nVf) (hl : nVf ≤ 1 ∨ nVl ≤ 1 ∨ nVl = nVf)
    (hc : 0 < ncol) (hn : ncol ≤ max nVl nVf) :
    ∃ h' g, showGrid o nVf nVl ncol = some ((List.range (max nVl nVf)).map (panel o nVf nVl ncol), h', g) ∧
      (∃ W H : ℚ, sizeOf h' g = (W, H) ∧ W = o.axpadl + o.axw + (ncol - 1 : ℕ) * (o.axpad + o.axw) ∧
        H = ((max nVl nVf - 1) / ncol : ℕ) * (o.aypad + o.axh) + (o.aypadl + o.axh) ∧
        (∀ c b, HeldIn h' g c b → c < max nVl nVf) ∧
        ∀ i < max nVl nVf, ∃ b, HeldIn h' g i b ∧ PlotAt W H (panel o nVf nVl ncol i) b
          (o.axpadl - padRight + (i % ncol : ℕ) * (o.axpad + o.axw)) (padTop + (i / ncol : ℕ) * (o.aypad + o.axh)) o.axw o.axh) := by
  set nV := max nVl nVf with hnV
  have hpos : 0 < nV := lt_of_lt_of_le hc hn
  have hnrow := last_row hc hpos
  set heap : Heap := ((List.range nV).map (panel o nVf nVl ncol)).map fun P => { fresh P.size with pad := some P.pad, makeAxis := true } with hheap
  have px0 : 0 ≤ o.axpadl := by
    have := ho.xpad; have := ho.lx
    unfold Options.axpadl; split <;> linarith
  have py0 : 0 ≤ o.aypadl := by
    have := ho.ypad; have := ho.ly
    unfold Options.aypadl; split <;> linarith
  have hsize : ∀ i < nV, sizeOf heap i = (o.axw + (if i % ncol = 0 then o.axpadl else o.axpad), o.axh + (if i / ncol + 1 = (nV - 1) / ncol + 1 then o.aypadl else o.aypad)) := by
    intro i hi
    unfold Layout.sizeOf
    rw [hheap, List.getElem?_map, List.getElem?_map, List.getElem?_range hi]
    simp only [Option.map_some, Option.getD_some, fresh, panel, ← hnV, hnrow, decide_eq_true_eq]
  have hcell := fun i j c => table_cell hc nV i j c
  have hS : Sized heap (table ncol nV) := by
    intro i j c hic
    rw [hsize c ((hcell i j c).1 hic).2.2]
    have := ho.w; have := ho.h; have := ho.xpad; have := ho.ypad
    constructor
    · simp only; split <;> linarith
    · simp only; split <;> linarith
  have hlen := table_length hc nV
  have hrows := table_rows hc nV
  have hrc : ∀ i j, j < ncol → (i * ncol + j) % ncol = j ∧ (i * ncol + j) / ncol = i := fun i j hj => by
    constructor
    · rw [Nat.add_comm, Nat.add_mul_mod_self_right, Nat.mod_eq_of_lt hj]
    · rw [Nat.add_comm, Nat.add_mul_div_right _ _ hc, Nat.div_eq_of_lt hj, Nat.zero_add]
  have hrowlt : ∀ i, i < (nV - 1) / ncol + 1 → i * ncol < nV := fun i hi => by
    have h1 : i * ncol ≤ (nV - 1) / ncol * ncol := Nat.mul_le_mul_right _ (by omega)
    have h2 := Nat.div_mul_le_self (nV - 1) ncol
    omega
  obtain ⟨⟨h', g⟩, e⟩ := (grid_works none hS).2 ⟨by
      intro h
      rw [h, hnrow, List.length_nil] at hlen; exact absurd hlen (Nat.succ_ne_zero _).symm, ncol, hrows, fun i hi => by
      rw [hlen, hnrow] at hi
      exact ⟨0, i * ncol, (hcell i 0 (i * ncol)).2 ⟨hc, by omega, hrowlt i hi⟩⟩, fun j hj =>
      ⟨0, j, (hcell 0 j j).2 ⟨hj, by omega, by omega⟩⟩⟩
  have hmem : ∀ c ∈ (table ncol nV).flatten.filterMap id, c < heap.length := by
    intro c hc'
    obtain ⟨x, hx, rfl⟩ := List.mem_filterMap.1 hc'
    obtain ⟨row, h1, h2⟩ := List.mem_flatten.1 hx
    obtain ⟨i, hi⟩ := List.mem_iff_getElem?.1 h1
    obtain ⟨j, hj⟩ := List.mem_iff_getElem?.1 h2
    have := ((hcell i j c).1 ⟨row, hi, hj⟩).2.2
    simpa [hheap] using this
  obtain ⟨colw, rowh, M, hW, hH, hs, hk⟩ := grid_table hmem hS e
  have lr : rowh.length = (nV - 1) / ncol + 1 := by rw [M.rows, hlen, hnrow]
  have lc : colw.length = ncol := by
    have h0 : 0 < (table ncol nV).length := by rw [hlen, hnrow]; exact Nat.succ_pos _
    rw [← M.cols _ (List.getElem_mem h0), hrows _ (List.getElem_mem h0)]
  have ec : colw = (List.range ncol).map fun j => if j = 0 then o.axpadl + o.axw else o.axpad + o.axw := by
    refine List.ext_getElem (by simp [lc]) fun j h1 h2 => ?_
    obtain ⟨⟨i, c, k1, k2⟩, -⟩ := M.colOf j colw[j] (by simp [h1])
    obtain ⟨k3, k4, k5⟩ := (hcell i j c).1 k1
    rw [← k2, hsize c k5, k4]
    simp only [(hrc i j k3).1, List.getElem_map, List.getElem_range]
    split <;> ring
  have er : rowh = (List.range ((nV - 1) / ncol + 1)).map fun i => if i + 1 = (nV - 1) / ncol + 1 then o.aypadl + o.axh else o.aypad + o.axh := by
    refine List.ext_getElem (by simp [lr]) fun i h1 h2 => ?_
    obtain ⟨⟨j, c, k1, k2⟩, -⟩ := M.rowOf i rowh[i] (by simp [h1])
    obtain ⟨k3, k4, k5⟩ := (hcell i j c).1 k1
    rw [← k2, hsize c k5, k4]
    simp only [(hrc i j k3).2, List.getElem_map, List.getElem_range]
    split <;> ring
  have sc : ∀ j < ncol, (colw.take (j + 1)).sum = o.axpadl + o.axw + j * (o.axpad + o.axw) := fun j hj => sum_take ec hj
  have sr : ∀ i < (nV - 1) / ncol + 1, (rowh.take i).sum = i * (o.aypad + o.axh) := fun i hi => sum_take' er hi
  have tr : ∀ i (hi : i < (nV - 1) / ncol + 1), (rowh.take (i + 1)).sum = i * (o.aypad + o.axh) + (if i + 1 = (nV - 1) / ncol + 1 then o.aypadl + o.axh else o.aypad + o.axh) := by
    intro i hi
    rw [List.take_succ, List.sum_append, sr i hi]
    have : rowh[i]? = some (if i + 1 = (nV - 1) / ncol + 1 then o.aypadl + o.axh else o.aypad + o.axh) := by
      rw [er, List.getElem?_map, List.getElem?_range hi]; rfl
    rw [this]; simp
  have tc : ∀ j < ncol, (colw.take j).sum = o.axpadl + o.axw + j * (o.axpad + o.axw) - (if j = 0 then o.axpadl + o.axw else o.axpad + o.axw) := by
    intro j hj
    have h1 := sc j hj
    rw [List.take_succ, List.sum_append] at h1
    have : colw[j]? = some (if j = 0 then o.axpadl + o.axw else o.axpad + o.axw) := by
      rw [ec, List.getElem?_map, List.getElem?_range hj]; rfl
    rw [this] at h1; simp only [Option.toList_some, List.sum_cons, List.sum_nil, add_zero] at h1
    linarith
  have hWe : colw.sum = o.axpadl + o.axw + (ncol - 1 : ℕ) * (o.axpad + o.axw) := by
    rw [← sc (ncol - 1) (by omega), List.take_of_length_le (by omega)]
  have hHe : rowh.sum = ((nV - 1) / ncol : ℕ) * (o.aypad + o.axh) + (o.aypadl + o.axh) := by
    have := tr ((nV - 1) / ncol) (by omega)
    rw [List.take_of_length_le (by omega), if_pos rfl] at this
    exact this
  refine ⟨h', g, ?_, colw.sum, rowh.sum, by simpa using hs, hWe, hHe, ?_, ?_⟩
  · unfold showGrid
    rw [if_neg (by omega), if_neg (by omega), if_neg (by omega), ← hnV]
    show (grid heap (table ncol nV) none).map _ = _
    rw [e]; rfl
  · intro c b hb
    obtain ⟨i, j, h1, -⟩ := (hk c b).1 hb
    exact ((hcell i j c).1 h1).2.2
  · intro i hi
    have hmod : i % ncol < ncol := Nat.mod_lt i hc
    have hdiv : i / ncol < (nV - 1) / ncol + 1 := by
      have : i / ncol ≤ (nV - 1) / ncol := Nat.div_le_div_right (by omega)
      omega
    have hic : InCell (table ncol nV) (i / ncol) (i % ncol) i := (hcell _ _ _).2 ⟨hmod, (Nat.div_add_mod' i ncol).symm, hi⟩
    -- the box of the cell
    set W := colw.sum with hWd
    set H := rowh.sum with hHd
    set A := (colw.take (i % ncol)).sum + (colw.take (i % ncol + 1)).sum with hA
    set B := (rowh.take (i / ncol)).sum + (rowh.take (i / ncol + 1)).sum with hB
    set s := sizeOf heap i with hsd
    have T : Tabled heap colw rowh (i / ncol) (i % ncol) i ⟨(A - s.1) / 2 / W, 1 - (B + s.2) / 2 / H, (A + s.1) / 2 / W, 1 - (B - s.2) / 2 / H⟩ := by
      unfold Tabled
      simp only [← hWd, ← hHd, ← hA, ← hB, ← hsd]
      have := hW.ne'
      have := hH.ne'
      refine ⟨?_, ?_, ?_, ?_⟩ <;> field_simp <;> ring
    refine ⟨_, (hk _ _).2 ⟨_, _, hic, T⟩, ?_⟩
    have c1 := sc (i % ncol) hmod
    have c2 := tc (i % ncol) hmod
    have r1 := sr (i / ncol) hdiv
    have r2 := tr (i / ncol) hdiv
    have s1 := hsize i hi
    rw [← hsd] at s1
    have hA' : A / W * W = A := div_mul_cancel₀ _ hW.ne'
    unfold PlotAt
    simp only [panel, ← hnV, hnrow, decide_eq_true_eq]
    have w0 := hW.ne'
    have h0 := hH.ne'
    have q1 : ∀ z : ℚ, z / W * W = z := fun z => div_mul_cancel₀ z w0
    have q2 : ∀ z : ℚ, z / H * H = z := fun z => div_mul_cancel₀ z h0
    have q3 : ∀ z : ℚ, (1 - (1 - z / H)) * H = z := fun z => by rw [sub_sub_cancel, q2]
    rw [q1, q1, q3, q3, hA, hB, c1, c2, r1, r2, s1]
    simp only
    refine ⟨?_, ?_, ?_, ?_⟩
    · split <;> ring
    · split <;> ring
    · split <;> ring
    · split <;> ring

/-- **C135, part**: with as many filled as line variables (or one of one kind, which is then drawn in all panels, or no lines) and not more columns than
panels, every panel shows the variables of its number, and no other panel is in the table; the room for the plot in it has the size asked for; panel `i` is in column
`i % ncol` and row `i / ncol`: the plots of a column begin at the same distance from the left, those of a row at the same distance from the top, all at equal
steps; the first column has coordinates along y and the last row along x. In full it is claimed also of more columns than panels, of lines only, and that every
column has coordinates below it: see `wide_violated`, `lines_violated`, `labels_violated`. -/
theorem showGrid_partial {o : Options} (ho : GoodSizes o) {nVf nVl ncol : ℕ} (hf : 0 < nVf) (hl : nVf ≤ 1 ∨ nVl ≤ 1 ∨ nVl = nVf)
    (hc : 0 < ncol) (hn : ncol ≤ max nVl nVf) :
    ∃ panels h' g W H, showGrid o nVf nVl ncol = some (panels, h', g) ∧ panels.length = max nVl nVf ∧ Layout.sizeOf h' g = (W, H) ∧
      (∀ c b, HeldIn h' g c b → c < max nVl nVf) ∧
      ∀ i < max nVl nVf, ∃ P b, panels[i]? = some P ∧ HeldIn h' g i b ∧
        P.fill = (if nVf = 1 then 0 else i) ∧ P.lines = (if nVl = 0 then none else if nVl = 1 then some 0 else some i) ∧
        (P.lbly = true ↔ i % ncol = 0) ∧ (P.lblx = true ↔ ∀ k < max nVl nVf, k / ncol ≤ i / ncol) ∧
        PlotAt W H P b (o.axpadl - padRight + (i % ncol : ℕ) * (o.axpad + o.axw)) (padTop + (i / ncol : ℕ) * (o.aypad + o.axh)) o.axw o.axh := by
  obtain ⟨h', g, e, W, H, h1, -, -, h2, h3⟩ := showGrid_parts ho hf hl hc hn
  have hpos : 0 < max nVl nVf := lt_of_lt_of_le hc hn
  have hnrow := last_row hc hpos
  refine ⟨_, h', g, W, H, e, by simp, h1, h2, fun i hi => ?_⟩
  obtain ⟨b, h4, h5⟩ := h3 i hi
  refine ⟨_, b, by rw [List.getElem?_map, List.getElem?_range hi]; rfl, h4, ?_, ?_, ?_, ?_, h5⟩
  · show i % nVf = _
    split
    · next h => rw [h, Nat.mod_one]
    · next h => exact Nat.mod_eq_of_lt (by omega)
  · show (if 0 < nVl then some (i % nVl) else none) = _
    rcases Nat.eq_zero_or_pos nVl with h | h
    · simp [h]
    · rw [if_pos h, if_neg h.ne']
      split
      · next h => rw [h, Nat.mod_one]
      · next h => rw [Nat.mod_eq_of_lt (by omega)]
  · simp [panel]
  · simp only [panel, hnrow, decide_eq_true_eq, Nat.add_right_cancel_iff]
    constructor
    · intro h k hk
      rw [h]; exact Nat.div_le_div_right (by omega)
    · intro h
      have h6 := h (max nVl nVf - 1) (by omega)
      have h7 : i / ncol ≤ (max nVl nVf - 1) / ncol := Nat.div_le_div_right (by omega)
      exact le_antisymm h7 h6

/-- **C135 fails** with more columns than panels: a column of the table is empty, and `grid` cannot take its width. -/
theorem wide_violated (o : Options) (nVf nVl ncol : ℕ) (ho : GoodSizes o) (h : max nVl nVf < ncol) : showGrid o nVf nVl ncol = none := by
  unfold showGrid
  split
  · rfl
  · split
    · rfl
    · split
      · rfl
      · next hf _ hc =>
        have hc : 0 < ncol := Nat.pos_of_ne_zero hc
        rw [Option.map_eq_none_iff]
        set nV := max nVl nVf with hnV
        have hpos : 0 < nV := by omega
        by_contra hne
        have px0 : 0 ≤ o.axpadl := by
          have := ho.xpad; have := ho.lx
          unfold Options.axpadl; split <;> linarith
        have py0 : 0 ≤ o.aypadl := by
          have := ho.ypad; have := ho.ly
          unfold Options.aypadl; split <;> linarith
        have hS : Sized (((List.range nV).map (panel o nVf nVl ncol)).map fun P => { fresh P.size with pad := some P.pad, makeAxis := true }) (table ncol nV) := by
          intro i j c hic
          have hc := ((table_cell hc nV i j c).1 hic).2.2
          unfold Layout.sizeOf
          rw [List.getElem?_map, List.getElem?_map, List.getElem?_range hc]
          simp only [Option.map_some, Option.getD_some, fresh, panel]
          have := ho.w; have := ho.h; have := ho.xpad; have := ho.ypad
          constructor
          · split <;> linarith
          · split <;> linarith
        obtain ⟨hne', nx, k1, k2, k3⟩ := (grid_works none hS).1 (Option.ne_none_iff_exists'.1 hne)
        have h0 : 0 < (table ncol nV).length := List.length_pos_iff.2 hne'
        have : nx = ncol := by rw [← k1 _ (List.getElem_mem h0), table_rows hc nV _ (List.getElem_mem h0)]
        obtain ⟨i, c, k4⟩ := k3 nV (by omega)
        obtain ⟨k5, k6, k7⟩ := (table_cell hc nV i nV c).1 k4
        omega

/-- **C135 fails** for lines without filled contours, which the code provides for but refuses (`vf[0]`). -/
theorem lines_violated (o : Options) (nVl ncol : ℕ) : showGrid o 0 nVl ncol = none := rfl

/-- **C135 fails** for the labels: if the last row is not full, the panels above its empty places have nothing below them and no coordinates along x. -/
theorem labels_violated (o : Options) (nVf nVl ncol : ℕ) (hc : 0 < ncol) (h1 : ncol < max nVl nVf) (h2 : max nVl nVf % ncol ≠ 0) :
    ∃ i < max nVl nVf, max nVl nVf ≤ i + ncol ∧ (panel o nVf nVl ncol i).lblx = false := by
  set n := max nVl nVf with hn
  have hm := Nat.div_add_mod' n ncol
  have hlt := Nat.mod_lt n hc
  have hd : 0 < n / ncol := Nat.div_pos h1.le hc
  have hle : ncol ≤ n / ncol * ncol := Nat.le_mul_of_pos_left _ hd
  have hnrow := last_row hc (n := n) (by omega)
  refine ⟨n / ncol * ncol - 1, by omega, by omega, ?_⟩
  simp only [panel, ← hn, hnrow, decide_eq_false_iff_not, Nat.add_right_cancel_iff]
  have e1 : (n / ncol * ncol - 1) / ncol < n / ncol := by
    rw [Nat.div_lt_iff_lt_mul hc]; omega
  have e2 : n / ncol ≤ (n - 1) / ncol := by
    rw [Nat.le_div_iff_mul_le hc]; omega
  omega

/-- five filled variables with one of lines in two columns -/
example : GoodSizes ⟨7 / 2, 3 / 2, true, 1 / 5, 2 / 5, 7 / 10, 3 / 20⟩ ∧ (5 ≤ 1 ∨ 1 ≤ 1 ∨ 1 = 5) ∧ 2 ≤ max 1 5 ∧
    table 2 5 = [[some 0, some 1], [some 2, some 3], [some 4, none]] ∧
    panel ⟨7 / 2, 3 / 2, true, 1 / 5, 2 / 5, 7 / 10, 3 / 20⟩ 5 1 2 4 =
      ⟨4, some 0, true, true, (8 / 10, 1 / 4, 1 / 10, 3 / 10), (44 / 10, 41 / 20)⟩ :=
  ⟨⟨by norm_num, by norm_num, by norm_num, by norm_num, by norm_num, by norm_num⟩, by omega, by omega, by decide +kernel, by decide +kernel⟩

end ShowGrid
end PyGeode
