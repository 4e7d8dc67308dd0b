import Verif.Spec.Layout
import Mathlib.Tactic.Linarith
import Mathlib.Tactic.FieldSimp
import Mathlib.Tactic.Ring
import Mathlib.Tactic.Positivity
import Mathlib.Algebra.BigOperators.Group.List.Basic
import Mathlib.Algebra.Order.BigOperators.Group.List
/-!
# C120, C121: tables of panels, and where panels are drawn
-/
namespace PyGeode.Layout
open Spec

/-! ## Putting panels in a wrapper -/

/-- What putting the panels of `l` in `g` does to the object `k`. -/
def upd (g : ℕ) (l : List (ℕ × Box)) (k : ℕ) (w : Wrapper) : Wrapper :=
  let v := if k ∈ l.map Prod.fst then { w with parent := some g } else w
  if k = g then { v with axes := v.axes ++ l.map Prod.fst, boxes := v.boxes ++ l.map Prod.snd }
  else v

theorem placeAll_spec (g : ℕ) (l : List (ℕ × Box)) (h h' : Heap) :
    placeAll g h l = some h' →
      (∀ x ∈ l, RealBox x.2) ∧ ∀ k : ℕ, h'[k]? = (h[k]?).map (upd g l k) := by
  induction l generalizing h with
  | nil =>
    intro e
    simp only [placeAll, Option.some.injEq] at e
    subst e
    refine ⟨by simp, fun k => ?_⟩
    cases h[k]? <;> simp [upd]
  | cons x l ih =>
    obtain ⟨c, r⟩ := x
    intro e
    simp only [placeAll, addAxis] at e
    split_ifs at e with hr
    · simp only [Option.bind_some] at e
      obtain ⟨h1, h2⟩ := ih _ e
      refine ⟨?_, fun k => ?_⟩
      · intro x hx
        rcases List.mem_cons.1 hx with rfl | hx
        · exact ⟨by linarith [hr.1], by linarith [hr.2]⟩
        · exact h1 x hx
      · rw [h2 k, List.getElem?_modify, List.getElem?_modify]
        cases h[k]? with
        | none => rfl
        | some w =>
          simp only [Option.map_eq_map, Option.map_some, upd, List.map_cons, List.mem_cons]
          by_cases h3 : g = k <;> by_cases h4 : c = k <;> by_cases h5 : k ∈ l.map Prod.fst <;>
            simp [h3, h4, h5, eq_comm]
    · simp at e

theorem placeAll_total (g : ℕ) (l : List (ℕ × Box)) (h : Heap)
    (hr : ∀ x ∈ l, RealBox x.2) : ∃ h', placeAll g h l = some h' := by
  induction l generalizing h with
  | nil => exact ⟨h, rfl⟩
  | cons x l ih =>
    obtain ⟨c, r⟩ := x
    have h1 : RealBox r := hr (c, r) (by simp)
    simp only [placeAll, addAxis]
    rw [if_pos ⟨by linarith [h1.1], by linarith [h1.2]⟩]
    exact ih _ fun x hx => hr x (by simp [hx])

/-- After putting loose panels in a new wrapper the wrappers still hold panels properly. -/
theorem hierarchy_place {h h' : Heap} {w0 : Wrapper} {l : List (ℕ × Box)} (H : Hierarchy h)
    (hl : Loose h (l.map Prod.fst)) (hw : w0.parent = none ∧ w0.axes = [] ∧ w0.boxes = [])
    (hr : ∀ x ∈ l, RealBox x.2)
    (e : ∀ k : ℕ, h'[k]? = ((h ++ [w0])[k]?).map (upd h.length l k)) : Hierarchy h' := by
  have hlt : ∀ c ∈ l.map Prod.fst, c < h.length := by
    intro c hc
    obtain ⟨w, hw, _⟩ := hl.2 c hc
    exact (List.getElem?_eq_some_iff.1 hw).1
  have old : ∀ k w, h'[k]? = some w → k < h.length → ∃ v, h[k]? = some v ∧
      w = if k ∈ l.map Prod.fst then { v with parent := some h.length } else v := by
    intro k w hk hlt
    rw [e k, List.getElem?_append_left hlt] at hk
    obtain ⟨v, hv, rfl⟩ := Option.map_eq_some_iff.1 hk
    refine ⟨v, hv, ?_⟩
    simp only [upd, if_neg (by omega : ¬ k = h.length)]
  have new : ∀ w, h'[h.length]? = some w → w = { w0 with
      axes := l.map Prod.fst, boxes := l.map Prod.snd } := by
    intro w hk
    rw [e, List.getElem?_append_right le_rfl] at hk
    simp only [Nat.sub_self, List.getElem?_cons_zero, Option.map_some, Option.some.injEq] at hk
    subst hk
    have : h.length ∉ l.map Prod.fst := fun hc => absurd (hlt _ hc) (by omega)
    simp only [upd, if_neg this, if_true, hw.2.1, hw.2.2, List.nil_append]
  have len : ∀ k w, h'[k]? = some w → k ≤ h.length := by
    intro k w hk
    rw [e k] at hk
    obtain ⟨v, hv, _⟩ := Option.map_eq_some_iff.1 hk
    have := (List.getElem?_eq_some_iff.1 hv).1
    simp at this
    omega
  have new' : h'[h.length]? = some { w0 with
      axes := l.map Prod.fst, boxes := l.map Prod.snd } := by
    have : ∃ w, h'[h.length]? = some w := by
      rw [e, List.getElem?_append_right le_rfl]
      simp
    obtain ⟨w, hw⟩ := this
    rw [hw, new w hw]
  have upd' : ∀ k v, h[k]? = some v → h'[k]? =
      some (if k ∈ l.map Prod.fst then { v with parent := some h.length } else v) := by
    intro k v hv
    have hk := (List.getElem?_eq_some_iff.1 hv).1
    rw [e k, List.getElem?_append_left hk, hv]
    simp only [Option.map_some, upd, if_neg (by omega : ¬ k = h.length)]
  refine ⟨?_, ?_, ?_, ?_, ?_⟩
  · intro p w hp
    rcases lt_or_eq_of_le (len p w hp) with hlt | rfl
    · obtain ⟨v, hv, rfl⟩ := old p w hp hlt
      have := H.lens p v hv
      split_ifs <;> exact this
    · rw [new w hp]; simp
  · intro p w hp
    rcases lt_or_eq_of_le (len p w hp) with hlt | rfl
    · obtain ⟨v, hv, rfl⟩ := old p w hp hlt
      have := H.once p v hv
      split_ifs <;> exact this
    · rw [new w hp]; exact hl.1
  · intro p w c hp hc
    rcases lt_or_eq_of_le (len p w hp) with hlt' | rfl
    · obtain ⟨v, hv, rfl⟩ := old p w hp hlt'
      have hc' : c ∈ v.axes := by split_ifs at hc <;> exact hc
      obtain ⟨h1, u, hu, h2⟩ := H.down p v c hv hc'
      refine ⟨h1, _, upd' c u hu, ?_⟩
      rw [if_neg]
      · exact h2
      · intro h3
        obtain ⟨u', hu', h4⟩ := hl.2 c h3
        rw [hu] at hu'
        cases hu'
        rw [h2] at h4
        cases h4
    · rw [new w hp] at hc
      obtain ⟨u, hu, h4⟩ := hl.2 c hc
      refine ⟨hlt c hc, _, upd' c u hu, ?_⟩
      rw [if_pos hc]
  · intro c v p hc hp
    rcases lt_or_eq_of_le (len c v hc) with hlt' | rfl
    · obtain ⟨u, hu, rfl⟩ := old c v hc hlt'
      split_ifs at hp with h3
      · simp only [Option.some.injEq] at hp
        subst hp
        exact ⟨_, new', h3⟩
      · obtain ⟨w, h4, h5⟩ := H.up c u p hu hp
        refine ⟨_, upd' p w h4, ?_⟩
        split_ifs <;> exact h5
    · rw [new v hc] at hp
      simp only [hw.1] at hp
      cases hp
  · intro p w b hp hb
    rcases lt_or_eq_of_le (len p w hp) with hlt' | rfl
    · obtain ⟨v, hv, rfl⟩ := old p w hp hlt'
      refine H.real p v b hv ?_
      split_ifs at hb <;> exact hb
    · rw [new w hp] at hb
      obtain ⟨x, hx, rfl⟩ := List.mem_map.1 hb
      exact hr x hx

/-! ## The table -/

theorem mapM_spec {α β : Type} (f : α → Option β) (l : List α) (r : List β) :
    l.mapM f = some r ↔ List.Forall₂ (fun x y => f x = some y) l r := by
  induction l generalizing r with
  | nil => cases r <;> simp
  | cons x l ih =>
    cases r with
    | nil =>
      simp only [List.mapM_cons, Option.bind_eq_bind, Option.pure_def]
      cases f x <;> cases l.mapM f <;> simp
    | cons y r =>
      simp only [List.mapM_cons, Option.bind_eq_bind, Option.pure_def, List.forall₂_cons, ← ih]
      cases f x <;> cases l.mapM f <;> simp

/-- The boxes of a row. -/
theorem mem_rowBoxes (h : Heap) (ts : ℚ × ℚ) (rh y : ℚ) (row : List (Option ℕ)) (colw : List ℚ)
    (x : ℚ) (hlen : row.length = colw.length) (c : ℕ) (b : Box) :
    (c, b) ∈ rowBoxes h ts rh y x row colw ↔ ∃ (j : ℕ) (cw : ℚ), row[j]? = some (some c) ∧
      colw[j]? = some cw ∧
      b.x0 = x + (colw.take j).sum / ts.1 + (cw - (sizeOf h c).1) / ts.1 / 2 ∧
      b.y0 = y - (sizeOf h c).2 / ts.2 - (rh - (sizeOf h c).2) / ts.2 / 2 ∧
      b.x1 = b.x0 + (sizeOf h c).1 / ts.1 ∧
      b.y1 = y - (rh - (sizeOf h c).2) / ts.2 / 2 := by
  induction row generalizing colw x with
  | nil => cases colw <;> simp [rowBoxes]
  | cons a row ih =>
    cases colw with
    | nil => simp at hlen
    | cons cw cs =>
      have hl : row.length = cs.length := by simpa using hlen
      have key : ((∃ (j : ℕ) (cw' : ℚ), (a :: row)[j]? = some (some c) ∧
          (cw :: cs)[j]? = some cw' ∧
          b.x0 = x + (((cw :: cs).take j).sum) / ts.1 + (cw' - (sizeOf h c).1) / ts.1 / 2 ∧
          b.y0 = y - (sizeOf h c).2 / ts.2 - (rh - (sizeOf h c).2) / ts.2 / 2 ∧
          b.x1 = b.x0 + (sizeOf h c).1 / ts.1 ∧
          b.y1 = y - (rh - (sizeOf h c).2) / ts.2 / 2) ↔
          ((a = some c ∧
          b.x0 = x + (cw - (sizeOf h c).1) / ts.1 / 2 ∧
          b.y0 = y - (sizeOf h c).2 / ts.2 - (rh - (sizeOf h c).2) / ts.2 / 2 ∧
          b.x1 = b.x0 + (sizeOf h c).1 / ts.1 ∧
          b.y1 = y - (rh - (sizeOf h c).2) / ts.2 / 2) ∨
          (c, b) ∈ rowBoxes h ts rh y (x + cw / ts.1) row cs)) := by
        rw [ih cs (x + cw / ts.1) hl]
        constructor
        · rintro ⟨j, cw', h1, h2, h3, h4, h5, h6⟩
          cases j with
          | zero =>
            left
            simp only [List.getElem?_cons_zero, Option.some.injEq] at h1 h2
            subst h2
            simp only [List.take_zero, List.sum_nil, zero_div, add_zero] at h3
            exact ⟨h1, h3, h4, h5, h6⟩
          | succ j =>
            right
            simp only [List.getElem?_cons_succ] at h1 h2
            refine ⟨j, cw', h1, h2, ?_, h4, h5, h6⟩
            rw [h3, List.take_succ_cons, List.sum_cons, add_div]
            ring
        · rintro (⟨h1, h3, h4, h5, h6⟩ | ⟨j, cw', h1, h2, h3, h4, h5, h6⟩)
          · exact ⟨0, cw, by simp [h1], by simp, by simp [h3], h4, h5, h6⟩
          · refine ⟨j + 1, cw', by simpa using h1, by simpa using h2, ?_, h4, h5, h6⟩
            rw [h3, List.take_succ_cons, List.sum_cons, add_div]
            ring
      rw [key]
      cases a with
      | none => simp [rowBoxes]
      | some a =>
        simp only [rowBoxes, List.mem_cons, Prod.mk.injEq]
        refine or_congr ?_ Iff.rfl
        constructor
        · rintro ⟨rfl, rfl⟩
          refine ⟨rfl, rfl, rfl, ?_, rfl⟩
          dsimp only
          ring
        · rintro ⟨h1, h2, h3, h4, h5⟩
          have h1 : a = c := Option.some.inj h1
          subst h1
          refine ⟨rfl, ?_⟩
          cases b
          simp only [Box.mk.injEq] at *
          refine ⟨h2, h3, ?_, h5⟩
          rw [h4, h2]
          ring

/-- The boxes of a table. -/
theorem mem_gridBoxes (h : Heap) (ts : ℚ × ℚ) (colw : List ℚ) (cells : List (List (Option ℕ)))
    (rowh : List ℚ) (y : ℚ) (hlen : rowh.length = cells.length)
    (hrow : ∀ row ∈ cells, row.length = colw.length) (c : ℕ) (b : Box) :
    (c, b) ∈ gridBoxes h ts colw y cells rowh ↔ ∃ (i j : ℕ) (rh cw : ℚ), InCell cells i j c ∧
      rowh[i]? = some rh ∧ colw[j]? = some cw ∧
      b.x0 = (colw.take j).sum / ts.1 + (cw - (sizeOf h c).1) / ts.1 / 2 ∧
      b.y0 = y - (rowh.take i).sum / ts.2 - (sizeOf h c).2 / ts.2 -
        (rh - (sizeOf h c).2) / ts.2 / 2 ∧
      b.x1 = b.x0 + (sizeOf h c).1 / ts.1 ∧
      b.y1 = y - (rowh.take i).sum / ts.2 - (rh - (sizeOf h c).2) / ts.2 / 2 := by
  induction cells generalizing rowh y with
  | nil =>
    constructor
    · intro h; cases rowh <;> simp [gridBoxes] at h
    · rintro ⟨i, j, rh, cw, ⟨row, h1, _⟩, _⟩
      simp at h1
  | cons row cells ih =>
    cases rowh with
    | nil => simp at hlen
    | cons rh rhs =>
      have hl : rhs.length = cells.length := by simpa using hlen
      have hr : ∀ r ∈ cells, r.length = colw.length := fun r hr => hrow r (by simp [hr])
      simp only [gridBoxes, List.mem_append]
      rw [mem_rowBoxes h ts rh y row colw 0 (hrow row (by simp)), ih rhs _ hl hr]
      constructor
      · rintro (⟨j, cw, h1, h2, h3, h4, h5, h6⟩ | ⟨i, j, rh', cw, ⟨r, h0, h1⟩, h2, h3, h4, h5, h6, h7⟩)
        · refine ⟨0, j, rh, cw, ⟨row, by simp, h1⟩, by simp, h2, ?_, ?_, h5, ?_⟩
          · rw [h3]; ring
          · rw [h4]; simp
          · rw [h6]; simp
        · refine ⟨i + 1, j, rh', cw, ⟨r, by simpa using h0, h1⟩, by simpa using h2, h3, h4, ?_, h6, ?_⟩
          · rw [h5, List.take_succ_cons, List.sum_cons, add_div]; ring
          · rw [h7, List.take_succ_cons, List.sum_cons, add_div]; ring
      · rintro ⟨i, j, rh', cw, ⟨r, h0, h1⟩, h2, h3, h4, h5, h6, h7⟩
        cases i with
        | zero =>
          left
          simp only [List.getElem?_cons_zero, Option.some.injEq] at h0 h2
          subst h0 h2
          refine ⟨j, cw, h1, h3, ?_, ?_, h6, ?_⟩
          · rw [h4]; ring
          · rw [h5]; simp
          · rw [h7]; simp
        | succ i =>
          right
          simp only [List.getElem?_cons_succ] at h0 h2
          refine ⟨i, j, rh', cw, ⟨r, h0, h1⟩, h2, h3, h4, ?_, h6, ?_⟩
          · rw [h5, List.take_succ_cons, List.sum_cons, add_div]; ring
          · rw [h7, List.take_succ_cons, List.sum_cons, add_div]; ring

theorem rowBoxes_fst (h : Heap) (ts : ℚ × ℚ) (rh y : ℚ) (row : List (Option ℕ)) (colw : List ℚ)
    (x : ℚ) (hlen : row.length = colw.length) :
    (rowBoxes h ts rh y x row colw).map Prod.fst = row.filterMap id := by
  induction row generalizing colw x with
  | nil => cases colw <;> simp [rowBoxes]
  | cons a row ih =>
    cases colw with
    | nil => simp at hlen
    | cons cw cs =>
      cases a <;> simp [rowBoxes, ih cs _ (by simpa using hlen)]

theorem gridBoxes_fst (h : Heap) (ts : ℚ × ℚ) (colw : List ℚ) (cells : List (List (Option ℕ)))
    (rowh : List ℚ) (y : ℚ) (hlen : rowh.length = cells.length)
    (hrow : ∀ row ∈ cells, row.length = colw.length) :
    (gridBoxes h ts colw y cells rowh).map Prod.fst = cells.flatten.filterMap id := by
  induction cells generalizing rowh y with
  | nil => cases rowh <;> simp [gridBoxes]
  | cons row cells ih =>
    cases rowh with
    | nil => simp at hlen
    | cons rh rhs =>
      simp only [gridBoxes, List.map_append, List.flatten_cons, List.filterMap_append]
      rw [rowBoxes_fst h ts rh y row colw 0 (hrow row (by simp)),
        ih rhs _ (by simpa using hlen) fun r hr => hrow r (by simp [hr])]

/-- The measures `grid` takes are those of the table. -/
theorem measures (h : Heap) (cells : List (List (Option ℕ))) (first : List (Option ℕ))
    (colw rowh : List ℚ)
    (ha : ∀ row ∈ cells, row.length = first.length) (h1 : rowHeights h cells = some rowh)
    (h2 : colWidths h cells first.length = some colw) : Measures h cells colw rowh := by
  have e1 := (mapM_spec _ _ _).1 h1
  have e2 := (mapM_spec _ _ _).1 h2
  have l1 := e1.length_eq
  have l2 := e2.length_eq
  simp only [List.length_range] at l2
  refine ⟨l1.symm, fun row hr => (ha row hr).trans l2, ?_, ?_⟩
  · intro j m hj
    have hj' := (List.getElem?_eq_some_iff.1 hj)
    obtain ⟨hj1, hj2⟩ := hj'
    have := (List.forall₂_iff_get.1 e2).2 j (by simpa using (by omega)) hj1
    simp only [List.get_eq_getElem, List.getElem_range, hj2] at this
    rw [List.max?_eq_some_iff] at this
    obtain ⟨h3, h4⟩ := this
    constructor
    · obtain ⟨c, hc, rfl⟩ := List.mem_map.1 h3
      obtain ⟨row, hr, hr2⟩ := List.mem_filterMap.1 hc
      obtain ⟨i, hi, rfl⟩ := List.getElem_of_mem hr
      refine ⟨i, c, ⟨cells[i], by simp [hi], ?_⟩, rfl⟩
      exact Option.join_eq_some_iff.1 hr2
    · rintro i c ⟨row, hr, hr2⟩
      refine h4 _ (List.mem_map.2 ⟨c, List.mem_filterMap.2 ⟨row, List.mem_of_getElem? hr, ?_⟩, rfl⟩)
      rw [hr2]; rfl
  · intro i m hi
    obtain ⟨hi1, hi2⟩ := (List.getElem?_eq_some_iff.1 hi)
    have := (List.forall₂_iff_get.1 e1).2 i (by omega) hi1
    simp only [List.get_eq_getElem, hi2] at this
    rw [List.max?_eq_some_iff] at this
    obtain ⟨h3, h4⟩ := this
    constructor
    · obtain ⟨c, hc, rfl⟩ := List.mem_map.1 h3
      obtain ⟨o, ho, ho2⟩ := List.mem_filterMap.1 hc
      simp only [id] at ho2
      subst ho2
      obtain ⟨j, hj, hj2⟩ := List.getElem_of_mem ho
      exact ⟨j, c, ⟨cells[i]'(by omega), by simp, by rw [List.getElem?_eq_getElem hj, hj2]⟩, rfl⟩
    · rintro j c ⟨row, hr, hr2⟩
      refine h4 _ (List.mem_map.2 ⟨c, List.mem_filterMap.2 ⟨some c, ?_, rfl⟩, rfl⟩)
      obtain ⟨_, rfl⟩ := List.getElem?_eq_some_iff.1 hr
      exact List.mem_of_getElem? hr2

/-- `grid` taken apart. -/
theorem grid_parts {h h' : Heap} {cells : List (List (Option ℕ))} {size : Option (ℚ × ℚ)} {g : ℕ}
    (e : grid h cells size = some (h', g)) : ∃ colw rowh : List ℚ,
      Measures h cells colw rowh ∧ cells ≠ [] ∧ g = h.length ∧
      placeAll h.length (h ++ [fresh (size.getD (colw.sum, rowh.sum))])
        (gridBoxes h (colw.sum, rowh.sum) colw 1 cells rowh) = some h' := by
  unfold grid at e
  obtain ⟨first, hf, e⟩ := Option.bind_eq_some_iff.1 e
  split_ifs at e with ha
  obtain ⟨rowh, h1, e⟩ := Option.bind_eq_some_iff.1 e
  obtain ⟨colw, h2, e⟩ := Option.bind_eq_some_iff.1 e
  obtain ⟨h'', h3, h4⟩ := Option.map_eq_some_iff.1 e
  simp only [Prod.mk.injEq] at h4
  obtain ⟨rfl, rfl⟩ := h4
  refine ⟨colw, rowh, measures h cells first colw rowh ?_ h1 h2, ?_, rfl, h3⟩
  · simpa using ha
  · rintro rfl
    simp at hf

theorem take_mono {l : List ℚ} (hl : ∀ x ∈ l, 0 ≤ x) {i j : ℕ} (hij : i ≤ j) :
    (l.take i).sum ≤ (l.take j).sum := by
  have : l.take j = l.take i ++ (l.take j).drop i := by
    conv_lhs => rw [← List.take_append_drop i (l.take j)]
    rw [List.take_take, min_eq_left hij]
  rw [this, List.sum_append]
  have : 0 ≤ ((l.take j).drop i).sum :=
    List.sum_nonneg fun x hx => hl x (List.mem_of_mem_take (List.mem_of_mem_drop hx))
  linarith

theorem take_le_sum {l : List ℚ} (hl : ∀ x ∈ l, 0 ≤ x) (i : ℕ) : (l.take i).sum ≤ l.sum := by
  rcases le_total i l.length with h | h
  · have := take_mono hl h
    rwa [List.take_length] at this
  · rw [List.take_of_length_le h]

theorem take_succ_sum {l : List ℚ} {j : ℕ} {m : ℚ} (h : l[j]? = some m) :
    (l.take (j + 1)).sum = (l.take j).sum + m := by
  rw [List.take_add_one, h]; simp

theorem sum_pos' {l : List ℚ} (hl : ∀ x ∈ l, 0 < x) (h : l ≠ []) : 0 < l.sum := by
  cases l with
  | nil => exact absurd rfl h
  | cons x l =>
    have h1 : 0 ≤ l.sum := List.sum_nonneg fun y hy => (hl y (by simp [hy])).le
    have h2 := hl x (by simp)
    rw [List.sum_cons]; linarith

theorem _root_.PyGeode.Spec.Measures.pos {h : Heap} {cells : List (List (Option ℕ))} {colw rowh : List ℚ}
    (M : Measures h cells colw rowh) (S : Sized h cells) :
    (∀ x ∈ colw, 0 < x) ∧ ∀ x ∈ rowh, 0 < x := by
  constructor
  · intro x hx
    obtain ⟨j, hj, rfl⟩ := List.getElem_of_mem hx
    obtain ⟨⟨i, c, h1, h2⟩, _⟩ := M.colOf j colw[j] (by simp [hj])
    rw [← h2]; exact (S i j c h1).1
  · intro x hx
    obtain ⟨j, hj, rfl⟩ := List.getElem_of_mem hx
    obtain ⟨⟨i, c, h1, h2⟩, _⟩ := M.rowOf j rowh[j] (by simp [hj])
    rw [← h2]; exact (S j i c h1).2

/-- The boxes `grid` computes are those of the table. -/
theorem gridBoxes_tabled {h : Heap} {cells : List (List (Option ℕ))} {colw rowh : List ℚ}
    (M : Measures h cells colw rowh) (hW : colw.sum ≠ 0) (hH : rowh.sum ≠ 0) (c : ℕ) (b : Box) :
    (c, b) ∈ gridBoxes h (colw.sum, rowh.sum) colw 1 cells rowh ↔
      ∃ i j, InCell cells i j c ∧ Tabled h colw rowh i j c b := by
  rw [mem_gridBoxes h _ colw cells rowh 1 M.rows M.cols]
  constructor
  · rintro ⟨i, j, rh, cw, h1, h2, h3, h4, h5, h6, h7⟩
    refine ⟨i, j, h1, ?_⟩
    unfold Tabled
    dsimp only at *
    rw [take_succ_sum h2, take_succ_sum h3, h6, h5, h7, h4]
    refine ⟨?_, ?_, ?_, ?_⟩ <;> field_simp <;> ring
  · rintro ⟨i, j, h1, h4, h5, h6, h7⟩
    obtain ⟨row, hr, hc⟩ := h1
    have hj : j < colw.length := by
      rw [← M.cols row (List.mem_of_getElem? hr)]
      exact (List.getElem?_eq_some_iff.1 hc).1
    have hi : i < rowh.length := by
      rw [M.rows]
      exact (List.getElem?_eq_some_iff.1 hr).1
    have h2 : rowh[i]? = some rowh[i] := by simp [hi]
    have h3 : colw[j]? = some colw[j] := by simp [hj]
    refine ⟨i, j, rowh[i], colw[j], ⟨row, hr, hc⟩, h2, h3, ?_⟩
    rw [take_succ_sum h2] at h7
    rw [take_succ_sum h3] at h6
    dsimp only at *
    refine ⟨?_, ?_, ?_, ?_⟩ <;> field_simp <;> linarith

/-- A box of a table lies in its cell. -/
theorem _root_.PyGeode.Spec.Tabled.cell {h : Heap} {cells : List (List (Option ℕ))} {colw rowh : List ℚ}
    (M : Measures h cells colw rowh) {i j c : ℕ} {b : Box} (hc : InCell cells i j c)
    (T : Tabled h colw rowh i j c b) :
    (colw.take j).sum ≤ b.x0 * colw.sum ∧ b.x1 * colw.sum ≤ (colw.take (j + 1)).sum ∧
    (rowh.take i).sum ≤ (1 - b.y1) * rowh.sum ∧
      (1 - b.y0) * rowh.sum ≤ (rowh.take (i + 1)).sum := by
  obtain ⟨h4, h5, h6, h7⟩ := T
  have hc' := hc
  obtain ⟨row, hr, hc⟩ := hc
  have hj : j < colw.length := by
    rw [← M.cols row (List.mem_of_getElem? hr)]
    exact (List.getElem?_eq_some_iff.1 hc).1
  have hi : i < rowh.length := by
    rw [M.rows]
    exact (List.getElem?_eq_some_iff.1 hr).1
  have h2 : rowh[i]? = some rowh[i] := by simp [hi]
  have h3 : colw[j]? = some colw[j] := by simp [hj]
  have a1 := (M.colOf j _ h3).2 i c hc'
  have a2 := (M.rowOf i _ h2).2 j c hc'
  rw [take_succ_sum h2] at h7 ⊢
  rw [take_succ_sum h3] at h6 ⊢
  refine ⟨?_, ?_, ?_, ?_⟩ <;> linarith

theorem held_place {h h' : Heap} {w0 : Wrapper} {l : List (ℕ × Box)}
    (hl : ∀ c ∈ l.map Prod.fst, c < h.length) (hw : w0.axes = [] ∧ w0.boxes = [])
    (e : ∀ k : ℕ, h'[k]? = ((h ++ [w0])[k]?).map (upd h.length l k)) :
    h'[h.length]? = some { w0 with axes := l.map Prod.fst, boxes := l.map Prod.snd } ∧
    (∀ c b, HeldIn h' h.length c b ↔ (c, b) ∈ l) ∧
    (∀ p c b, p ≠ h.length → (HeldIn h' p c b ↔ HeldIn h p c b)) ∧
    ∀ c, sizeOf h' c = sizeOf (h ++ [w0]) c := by
  have hn : h.length ∉ l.map Prod.fst := fun hc => absurd (hl _ hc) (by omega)
  have e1 : h'[h.length]? = some { w0 with axes := l.map Prod.fst, boxes := l.map Prod.snd } := by
    rw [e, List.getElem?_append_right le_rfl]
    simp only [Nat.sub_self, List.getElem?_cons_zero, Option.map_some]
    simp only [upd, if_neg hn, if_true, hw.1, hw.2, List.nil_append]
  refine ⟨e1, ?_, ?_, ?_⟩
  · intro c b
    constructor
    · rintro ⟨w, k, h1, h2, h3⟩
      rw [e1] at h1
      cases h1
      simp only [List.getElem?_map, Option.map_eq_some_iff] at h2 h3
      obtain ⟨x, hx, rfl⟩ := h2
      obtain ⟨y, hy, rfl⟩ := h3
      rw [hx] at hy
      cases hy
      exact List.mem_of_getElem? hx
    · intro hm
      obtain ⟨k, hk, hk2⟩ := List.getElem_of_mem hm
      refine ⟨_, k, e1, ?_, ?_⟩ <;> simp [hk, hk2]
  · intro p c b hp
    unfold HeldIn
    rw [e p]
    have hu : ∀ w : Wrapper, (upd h.length l p w).axes = w.axes ∧
        (upd h.length l p w).boxes = w.boxes := by
      intro w
      simp only [upd, if_neg hp]
      split_ifs <;> exact ⟨rfl, rfl⟩
    have hp2 : ∀ w, (h ++ [w0])[p]? = some w ↔ h[p]? = some w := by
      intro w
      rcases lt_or_gt_of_ne hp with h1 | h1
      · rw [List.getElem?_append_left h1]
      · rw [List.getElem?_eq_none (by simp; omega), List.getElem?_eq_none (by omega)]
    constructor
    · rintro ⟨w, k, h1, h2, h3⟩
      obtain ⟨v, hv, rfl⟩ := Option.map_eq_some_iff.1 h1
      rw [(hu v).1] at h2
      rw [(hu v).2] at h3
      exact ⟨v, k, (hp2 v).1 hv, h2, h3⟩
    · rintro ⟨w, k, h1, h2, h3⟩
      refine ⟨_, k, by rw [(hp2 w).2 h1]; rfl, ?_, ?_⟩
      · rw [(hu w).1]; exact h2
      · rw [(hu w).2]; exact h3
  · intro c
    unfold sizeOf
    rw [e c, Option.map_map]
    congr 2
    funext w
    simp only [Function.comp, upd]
    split_ifs <;> rfl

theorem inCell_flat {cells : List (List (Option ℕ))} {c : ℕ} :
    c ∈ cells.flatten.filterMap id ↔ ∃ i j, InCell cells i j c := by
  simp only [List.mem_filterMap, List.mem_flatten, id]
  constructor
  · rintro ⟨a, ⟨row, hr, ha⟩, rfl⟩
    obtain ⟨i, hi, rfl⟩ := List.getElem_of_mem hr
    obtain ⟨j, hj, hj2⟩ := List.getElem_of_mem ha
    exact ⟨i, j, cells[i], by simp [hi], by rw [List.getElem?_eq_getElem hj, hj2]⟩
  · rintro ⟨i, j, row, h1, h2⟩
    exact ⟨some c, ⟨row, List.mem_of_getElem? h1, List.mem_of_getElem? h2⟩, rfl⟩

theorem _root_.PyGeode.Spec.Measures.total {h : Heap} {cells : List (List (Option ℕ))}
    {colw rowh : List ℚ} (M : Measures h cells colw rowh) (S : Sized h cells)
    (hne : cells ≠ []) : 0 < colw.sum ∧ 0 < rowh.sum := by
  have P := M.pos S
  have hrow : rowh ≠ [] := by
    intro h0
    have := M.rows
    rw [h0] at this
    exact hne (List.length_eq_zero_iff.1 (by simpa using this.symm))
  refine ⟨sum_pos' P.1 ?_, sum_pos' P.2 hrow⟩
  have hl : 0 < rowh.length := List.length_pos_iff.2 hrow
  obtain ⟨⟨j, c, ⟨row, h1, h2⟩, _⟩, _⟩ := M.rowOf 0 rowh[0] (by simp [hl])
  have := M.cols row (List.mem_of_getElem? h1)
  have h3 := (List.getElem?_eq_some_iff.1 h2).1
  intro h0
  rw [h0] at this
  simp at this
  simp [this] at h3

theorem _root_.PyGeode.Spec.Tabled.real {h : Heap} {colw rowh : List ℚ} {i j c : ℕ} {b : Box}
    (T : Tabled h colw rowh i j c b) (hs : 0 < (sizeOf h c).1 ∧ 0 < (sizeOf h c).2)
    (hW : 0 < colw.sum) (hH : 0 < rowh.sum) : RealBox b := by
  obtain ⟨h4, h5, _, _⟩ := T
  constructor
  · have : 0 < (b.x1 - b.x0) * colw.sum := by rw [h4]; exact hs.1
    have := (pos_iff_pos_of_mul_pos this).2 hW
    linarith
  · have : 0 < (b.y1 - b.y0) * rowh.sum := by rw [h5]; exact hs.2
    have := (pos_iff_pos_of_mul_pos this).2 hH
    linarith

theorem mapM_total {α β : Type} (f : α → Option β) (l : List α)
    (h : ∀ x ∈ l, ∃ y, f x = some y) : ∃ r, l.mapM f = some r := by
  induction l with
  | nil => exact ⟨[], rfl⟩
  | cons x l ih =>
    obtain ⟨y, hy⟩ := h x (by simp)
    obtain ⟨r, hr⟩ := ih fun x hx => h x (by simp [hx])
    exact ⟨y :: r, by simp [List.mapM_cons, hy, hr]⟩

/-- **C120.** The table `grid` makes: the columns are as wide as their widest panels and the rows
as high as their highest; the new wrapper has the size of them all together, unless another size
is asked for; and it holds exactly the panels of the table, each centred in its cell at its own
size.  (The heap before and after differs in nothing else: see `grid_keeps`.) -/
theorem grid_table {h h' : Heap} {cells : List (List (Option ℕ))} {size : Option (ℚ × ℚ)} {g : ℕ}
    (hc : ∀ c ∈ cells.flatten.filterMap id, c < h.length) (S : Sized h cells)
    (e : grid h cells size = some (h', g)) : ∃ colw rowh : List ℚ,
      Measures h cells colw rowh ∧ 0 < colw.sum ∧ 0 < rowh.sum ∧
      sizeOf h' g = size.getD (colw.sum, rowh.sum) ∧
      ∀ c b, HeldIn h' g c b ↔ ∃ i j, InCell cells i j c ∧ Tabled h colw rowh i j c b := by
  obtain ⟨colw, rowh, M, hne, rfl, e1⟩ := grid_parts e
  obtain ⟨hr, e2⟩ := placeAll_spec _ _ _ _ e1
  obtain ⟨hW, hH⟩ := M.total S hne
  rw [← gridBoxes_fst h (colw.sum, rowh.sum) colw cells rowh 1 M.rows M.cols] at hc
  obtain ⟨_, k2, _, k4⟩ := held_place hc ⟨rfl, rfl⟩ e2
  refine ⟨colw, rowh, M, hW, hH, ?_, ?_⟩
  · rw [k4]
    simp [sizeOf, fresh]
  · intro c b
    rw [k2, gridBoxes_tabled M hW.ne' hH.ne']

/-- **C120.** When `grid` makes a table: exactly when there is a row, the rows are equally long,
and no row and no column is without a panel. -/
theorem grid_works {h : Heap} {cells : List (List (Option ℕ))} (size : Option (ℚ × ℚ))
    (S : Sized h cells) :
    (∃ r, grid h cells size = some r) ↔
      cells ≠ [] ∧ ∃ nx, (∀ row ∈ cells, row.length = nx) ∧
        (∀ i < cells.length, ∃ j c, InCell cells i j c) ∧
        ∀ j < nx, ∃ i c, InCell cells i j c := by
  constructor
  · rintro ⟨⟨h', g⟩, e⟩
    obtain ⟨colw, rowh, M, hne, rfl, e1⟩ := grid_parts e
    refine ⟨hne, colw.length, M.cols, ?_, ?_⟩
    · intro i hi
      rw [← M.rows] at hi
      obtain ⟨⟨j, c, h1, _⟩, _⟩ := M.rowOf i rowh[i] (by simp [hi])
      exact ⟨j, c, h1⟩
    · intro j hj
      obtain ⟨⟨i, c, h1, _⟩, _⟩ := M.colOf j colw[j] (by simp [hj])
      exact ⟨i, c, h1⟩
  · rintro ⟨hne, nx, h1, h2, h3⟩
    obtain ⟨first, rest, rfl⟩ := List.exists_cons_of_ne_nil hne
    have hfirst : first.length = nx := h1 first (by simp)
    have m1 : ∃ rowh, rowHeights h (first :: rest) = some rowh := by
      unfold rowHeights
      refine mapM_total _ _ fun row hr => ?_
      rw [← Option.ne_none_iff_exists', Ne, List.max?_eq_none_iff]
      obtain ⟨i, hi, rfl⟩ := List.getElem_of_mem hr
      obtain ⟨j, c, row, h4, h5⟩ := h2 i hi
      rw [List.getElem?_eq_getElem hi] at h4
      cases h4
      intro h6
      have : c ∈ (first :: rest)[i].filterMap id :=
        List.mem_filterMap.2 ⟨some c, List.mem_of_getElem? h5, rfl⟩
      simp only [List.map_eq_nil_iff] at h6
      rw [h6] at this
      cases this
    have m2 : ∃ colw, colWidths h (first :: rest) first.length = some colw := by
      unfold colWidths
      refine mapM_total _ _ fun j hj => ?_
      rw [← Option.ne_none_iff_exists', Ne, List.max?_eq_none_iff]
      obtain ⟨i, c, row, h4, h5⟩ := h3 j (by rw [← hfirst]; exact List.mem_range.1 hj)
      intro h6
      have : c ∈ (first :: rest).filterMap fun row => (row[j]?).join :=
        List.mem_filterMap.2 ⟨row, List.mem_of_getElem? h4, by rw [h5]; rfl⟩
      simp only [List.map_eq_nil_iff] at h6
      rw [h6] at this
      cases this
    obtain ⟨rowh, m1⟩ := m1
    obtain ⟨colw, m2⟩ := m2
    have M := measures h (first :: rest) first colw rowh
      (fun row hr => (h1 row hr).trans hfirst.symm) m1 m2
    obtain ⟨hW, hH⟩ := M.total S hne
    have hreal : ∀ x ∈ gridBoxes h (colw.sum, rowh.sum) colw 1 (first :: rest) rowh,
        RealBox x.2 := by
      rintro ⟨c, b⟩ hx
      obtain ⟨i, j, h4, T⟩ := (gridBoxes_tabled M hW.ne' hH.ne' c b).1 hx
      exact T.real (S i j c h4) hW hH
    obtain ⟨h', e⟩ := placeAll_total h.length _
      (h ++ [fresh (size.getD (colw.sum, rowh.sum))]) hreal
    refine ⟨(h', h.length), ?_⟩
    unfold grid
    simp only [List.head?_cons, Option.bind_some]
    rw [if_pos, m1, Option.bind_some, m2, Option.bind_some]
    · rw [e]; rfl
    · simp only [List.all_eq_true, beq_iff_eq]
      exact fun row hr => (h1 row hr).trans hfirst.symm

/-- **C120.** Nothing else changes: `grid` makes one new object, and the panels of the table
learn that it holds them. -/
theorem grid_keeps {h h' : Heap} {cells : List (List (Option ℕ))} {size : Option (ℚ × ℚ)} {g : ℕ}
    (hc : ∀ c ∈ cells.flatten.filterMap id, c < h.length)
    (e : grid h cells size = some (h', g)) :
    g = h.length ∧ h'.length = h.length + 1 ∧
    (∃ w, h'[g]? = some w ∧ w.parent = none ∧ w.makeAxis = false ∧
      w.axes = cells.flatten.filterMap id) ∧
    ∀ (k : ℕ) w, h[k]? = some w →
      ((∃ i j, InCell cells i j k) → h'[k]? = some { w with parent := some g }) ∧
      ((¬ ∃ i j, InCell cells i j k) → h'[k]? = some w) := by
  obtain ⟨colw, rowh, M, hne, rfl, e1⟩ := grid_parts e
  obtain ⟨hr, e2⟩ := placeAll_spec _ _ _ _ e1
  have hf := gridBoxes_fst h (colw.sum, rowh.sum) colw cells rowh 1 M.rows M.cols
  have hc2 := hc
  rw [← hf] at hc2
  obtain ⟨k1, k2, k3, k4⟩ := held_place hc2 ⟨rfl, rfl⟩ e2
  refine ⟨rfl, ?_, ⟨_, k1, rfl, rfl, hf⟩, ?_⟩
  · have a1 : h'[h.length + 1]? = none := by
      rw [e2, List.getElem?_eq_none (by simp)]; rfl
    have a2 := (List.getElem?_eq_some_iff.1 k1).1
    have a3 := List.getElem?_eq_none_iff.1 a1
    omega
  · intro k w hk
    have hlt := (List.getElem?_eq_some_iff.1 hk).1
    rw [e2 k, List.getElem?_append_left hlt, hk]
    simp only [Option.map_some, upd, if_neg (by omega : ¬ k = h.length), hf]
    exact ⟨fun h => by rw [if_pos (inCell_flat.2 h)],
      fun h => by rw [if_neg fun hm => h (inCell_flat.1 hm)]⟩

theorem le_of_mul_le {a b c : ℚ} (hc : 0 < c) (h : a * c ≤ b * c) : a ≤ b :=
  le_of_mul_le_mul_right h hc

/-- **C120.** The panels of a table stay on the page, and no two of them overlap. -/
theorem grid_apart {h h' : Heap} {cells : List (List (Option ℕ))} {size : Option (ℚ × ℚ)} {g : ℕ}
    (hc : ∀ c ∈ cells.flatten.filterMap id, c < h.length) (S : Sized h cells)
    (e : grid h cells size = some (h', g)) :
    (∀ c b, HeldIn h' g c b → RealBox b ∧ BoxWithin b page) ∧
    ∀ c c' b b', HeldIn h' g c b → HeldIn h' g c' b' → c ≠ c' → BoxesApart b b' := by
  obtain ⟨colw, rowh, M, hW, hH, _, hk⟩ := grid_table hc S e
  obtain ⟨p1, p2⟩ := M.pos S
  have p1 : ∀ x ∈ colw, 0 ≤ x := fun x hx => (p1 x hx).le
  have p2 : ∀ x ∈ rowh, 0 ≤ x := fun x hx => (p2 x hx).le
  constructor
  · intro c b hb
    obtain ⟨i, j, h1, T⟩ := (hk c b).1 hb
    refine ⟨T.real (S i j c h1) hW hH, ?_⟩
    obtain ⟨t1, t2, t3, t4⟩ := T.cell M h1
    have a1 := take_le_sum p1 (j + 1)
    have a2 := take_le_sum p2 (i + 1)
    have a3 := take_mono p1 (Nat.zero_le j)
    have a4 := take_mono p2 (Nat.zero_le i)
    simp only [List.take_zero, List.sum_nil] at a3 a4
    unfold BoxWithin page
    refine ⟨le_of_mul_le hW ?_, le_of_mul_le hH ?_, le_of_mul_le hW ?_, le_of_mul_le hH ?_⟩ <;>
      dsimp only <;> linarith
  · intro c c' b b' hb hb' hne
    obtain ⟨i, j, h1, T⟩ := (hk c b).1 hb
    obtain ⟨i', j', h1', T'⟩ := (hk c' b').1 hb'
    obtain ⟨t1, t2, t3, t4⟩ := T.cell M h1
    obtain ⟨t1', t2', t3', t4'⟩ := T'.cell M h1'
    unfold BoxesApart
    rcases lt_trichotomy j j' with hj | hj | hj
    · left
      have := take_mono p1 (show j + 1 ≤ j' from hj)
      exact le_of_mul_le hW (by linarith)
    · subst hj
      rcases lt_trichotomy i i' with hi | hi | hi
      · right; right; right
        have := take_mono p2 (show i + 1 ≤ i' from hi)
        exact le_of_mul_le hH (by linarith)
      · subst hi
        obtain ⟨row, r1, r2⟩ := h1
        obtain ⟨row', r1', r2'⟩ := h1'
        rw [r1] at r1'
        cases r1'
        rw [r2] at r2'
        cases r2'
        exact absurd rfl hne
      · right; right; left
        have := take_mono p2 (show i' + 1 ≤ i from hi)
        exact le_of_mul_le hH (by linarith)
    · right; left
      have := take_mono p1 (show j' + 1 ≤ j from hj)
      exact le_of_mul_le hW (by linarith)

/-! ## The pages a user can make -/

/-- What all the pages a user can make have in common. -/
structure Neat (h : Heap) : Prop where
  hier : Hierarchy h
  size : ∀ (c : ℕ), c < h.length → 0 < (sizeOf h c).1 ∧ 0 < (sizeOf h c).2
  held : ∀ p c b, HeldIn h p c b → BoxWithin b page ∧
    (b.x1 - b.x0) * (sizeOf h p).1 = (sizeOf h c).1 ∧
    (b.y1 - b.y0) * (sizeOf h p).2 = (sizeOf h c).2
  apart : ∀ p c c' b b', HeldIn h p c b → HeldIn h p c' b' → c ≠ c' → BoxesApart b b'

theorem HeldIn.lt {h : Heap} (H : Hierarchy h) {p c : ℕ} {b : Box} (hh : HeldIn h p c b) :
    c < p ∧ p < h.length := by
  obtain ⟨w, k, h1, h2, h3⟩ := hh
  exact ⟨(H.down p w c h1 (List.mem_of_getElem? h2)).1, (List.getElem?_eq_some_iff.1 h1).1⟩

theorem sizeOf_append {h : Heap} {w : Wrapper} {c : ℕ} (hc : c < h.length) :
    sizeOf (h ++ [w]) c = sizeOf h c := by
  unfold sizeOf
  rw [List.getElem?_append_left hc]

theorem sizeOf_last (h : Heap) (w : Wrapper) : sizeOf (h ++ [w]) h.length = w.size := by
  simp [sizeOf]

theorem neat_empty : Neat [] := by
  refine ⟨⟨?_, ?_, ?_, ?_, ?_⟩, ?_, ?_, ?_⟩ <;> intros <;> simp_all [HeldIn]

/-- Putting loose panels in a new wrapper keeps the page neat. -/
theorem neat_place {h h' : Heap} {w0 : Wrapper} {l : List (ℕ × Box)} (N : Neat h)
    (hl : Loose h (l.map Prod.fst)) (hw : w0.parent = none ∧ w0.axes = [] ∧ w0.boxes = [])
    (hs : 0 < w0.size.1 ∧ 0 < w0.size.2)
    (hr : ∀ x ∈ l, RealBox x.2 ∧ BoxWithin x.2 page ∧
      (x.2.x1 - x.2.x0) * w0.size.1 = (sizeOf h x.1).1 ∧
      (x.2.y1 - x.2.y0) * w0.size.2 = (sizeOf h x.1).2)
    (ha : ∀ c c' b b', (c, b) ∈ l → (c', b') ∈ l → c ≠ c' → BoxesApart b b')
    (e : ∀ k : ℕ, h'[k]? = ((h ++ [w0])[k]?).map (upd h.length l k)) : Neat h' := by
  have hlt : ∀ c ∈ l.map Prod.fst, c < h.length := by
    intro c hc
    obtain ⟨w, hw, _⟩ := hl.2 c hc
    exact (List.getElem?_eq_some_iff.1 hw).1
  have H := hierarchy_place N.hier hl hw (fun x hx => (hr x hx).1) e
  obtain ⟨k1, k2, k3, k4⟩ := held_place hlt hw.2 e
  have len : h'.length ≤ h.length + 1 := by
    have a1 : h'[h.length + 1]? = none := by
      rw [e, List.getElem?_eq_none (by simp)]; rfl
    exact List.getElem?_eq_none_iff.1 a1
  refine ⟨H, ?_, ?_, ?_⟩
  · intro c hc
    rw [k4]
    rcases lt_or_eq_of_le (show c ≤ h.length by omega) with h1 | rfl
    · rw [sizeOf_append h1]
      exact N.size c h1
    · rw [sizeOf_last]; exact hs
  · intro p c b hb
    rw [k4, k4]
    by_cases hp : p = h.length
    · subst hp
      have hm := (k2 c b).1 hb
      rw [sizeOf_last, sizeOf_append (hlt c (List.mem_map.2 ⟨_, hm, rfl⟩))]
      exact (hr _ hm).2
    · have hb := (k3 p c b hp).1 hb
      have := HeldIn.lt N.hier hb
      rw [sizeOf_append (by omega), sizeOf_append (by omega)]
      exact N.held p c b hb
  · intro p c c' b b' hb hb' hne
    by_cases hp : p = h.length
    · subst hp
      exact ha c c' b b' ((k2 _ _).1 hb) ((k2 _ _).1 hb') hne
    · exact N.apart p c c' b b' ((k3 _ _ _ hp).1 hb) ((k3 _ _ _ hp).1 hb') hne

theorem neat_panel {h : Heap} {w : Wrapper} (N : Neat h) (hw : w.parent = none) (ha : w.axes = [])
    (hb : w.boxes = []) (h1 : 0 < w.size.1) (h2 : 0 < w.size.2) : Neat (h ++ [w]) := by
  refine neat_place (l := []) (w0 := w) N ⟨by simp, by simp⟩ ⟨hw, ha, hb⟩ ⟨h1, h2⟩ (by simp)
    (by simp) fun k => ?_
  cases (h ++ [w])[k]? <;> simp [upd]

theorem Loose.lt {h : Heap} {cs : List ℕ} (hl : Loose h cs) : ∀ c ∈ cs, c < h.length := by
  intro c hc
  obtain ⟨w, hw, _⟩ := hl.2 c hc
  exact (List.getElem?_eq_some_iff.1 hw).1

theorem neat_grid {h h' : Heap} {cells : List (List (Option ℕ))} {g : ℕ} (N : Neat h)
    (hl : Loose h (cells.flatten.filterMap id)) (e : grid h cells none = some (h', g)) :
    Neat h' := by
  have hlt := Loose.lt hl
  have S : Sized h cells := fun i j c hc => N.size c (hlt c (inCell_flat.2 ⟨i, j, hc⟩))
  obtain ⟨ap1, ap2⟩ := grid_apart hlt S e
  obtain ⟨colw, rowh, M, hne, rfl, e1⟩ := grid_parts e
  obtain ⟨hW, hH⟩ := M.total S hne
  obtain ⟨hr, e2⟩ := placeAll_spec _ _ _ _ e1
  have hf := gridBoxes_fst h (colw.sum, rowh.sum) colw cells rowh 1 M.rows M.cols
  rw [← hf] at hl hlt
  obtain ⟨_, k2, _, _⟩ := held_place hlt ⟨rfl, rfl⟩ e2
  refine neat_place N hl ⟨rfl, rfl, rfl⟩ ⟨hW, hH⟩ ?_ ?_ e2
  · rintro ⟨c, b⟩ hx
    obtain ⟨i, j, h1, T⟩ := (gridBoxes_tabled M hW.ne' hH.ne' c b).1 hx
    exact ⟨hr _ hx, (ap1 c b ((k2 c b).2 hx)).2, T.1, T.2.1⟩
  · intro c c' b b' hb hb' hne
    exact ap2 c c' b b' ((k2 _ _).2 hb) ((k2 _ _).2 hb') hne

theorem loose_append {h : Heap} {w : Wrapper} {c : ℕ} (hl : Loose h [c]) (hw : w.parent = none) :
    Loose (h ++ [w]) [c, h.length] ∧ Loose (h ++ [w]) [h.length, c] := by
  have hlt := Loose.lt hl c (by simp)
  obtain ⟨v, hv, hv2⟩ := hl.2 c (by simp)
  have h1 : (h ++ [w])[c]? = some v := by rw [List.getElem?_append_left hlt, hv]
  have h2 : (h ++ [w])[h.length]? = some w := by simp
  constructor
  · refine ⟨by simp; omega, ?_⟩
    intro d hd
    simp only [List.mem_cons, List.not_mem_nil, or_false] at hd
    rcases hd with rfl | rfl
    · exact ⟨v, h1, hv2⟩
    · exact ⟨w, h2, hw⟩
  · refine ⟨by simp; omega, ?_⟩
    intro d hd
    simp only [List.mem_cons, List.not_mem_nil, or_false] at hd
    rcases hd with rfl | rfl
    · exact ⟨w, h2, hw⟩
    · exact ⟨v, h1, hv2⟩

theorem neat_bar {h h' : Heap} {g c : ℕ} {pos : Pos} {v : Option Bool} {t : Option ℚ} (N : Neat h)
    (hl : Loose h [c]) (ht : ∀ x, t = some x → 0 < x)
    (e : colorbar h c pos v t = some (h', g)) : Neat h' := by
  have hc := N.size c (Loose.lt hl c (by simp))
  unfold colorbar at e
  set vert := v.getD (match pos with | .r => true | .l => true | .b => false | .t => false)
  set size : ℚ × ℚ :=
    if vert then (t.getD (8/10), (sizeOf h c).2) else ((sizeOf h c).1, t.getD (4/10)) with hsize
  have hpos : 0 < size.1 ∧ 0 < size.2 := by
    have h1 : ∀ d : ℚ, 0 < d → 0 < t.getD d := by
      intro d hd
      cases t with
      | none => exact hd
      | some x => exact ht x rfl
    rw [hsize]
    split_ifs
    · exact ⟨h1 _ (by norm_num), hc.2⟩
    · exact ⟨hc.1, h1 _ (by norm_num)⟩
  dsimp only at e
  set w : Wrapper := { fresh size with
    rect := if vert then ⟨1/10, 15/100, 2/10, 75/100⟩ else ⟨15/100, 1/2, 75/100, 4/10⟩,
    makeAxis := true } with hw
  have N1 : Neat (h ++ [w]) := neat_panel N rfl rfl rfl hpos.1 hpos.2
  obtain ⟨l1, l2⟩ := loose_append (w := w) hl rfl
  cases pos
  · exact neat_grid N1 (by simpa using l1) e
  · exact neat_grid N1 (by simpa using l2) e
  · exact neat_grid N1 (by simpa using l1) e
  · exact neat_grid N1 (by simpa using l2) e

theorem neat_note {h h' : Heap} {g c : ℕ} (N : Neat h) (hl : Loose h [c])
    (e : annotate h c = some (h', g)) : Neat h' := by
  have hc := N.size c (Loose.lt hl c (by simp))
  unfold annotate at e
  obtain ⟨h'', e1, e2⟩ := Option.map_eq_some_iff.1 e
  simp only [Prod.mk.injEq] at e2
  obtain ⟨rfl, rfl⟩ := e2
  have e3 := (placeAll_spec h.length [(c, _)] _ h'' (by simp only [placeAll]; rw [e1]; rfl)).2
  have hs : 0 < (sizeOf h c).2 + 1/2 := by linarith [hc.2]
  refine neat_place (l := [(c, ⟨0, 1/2 / ((sizeOf h c).2 + 1/2), 1, 1⟩)]) N (by simpa using hl)
    ⟨rfl, rfl, rfl⟩ ⟨hc.1, hs⟩ ?_ ?_ e3
  · rintro x hx
    simp only [List.mem_cons, List.not_mem_nil, or_false] at hx
    subst hx
    dsimp only [fresh]
    have h0 : 0 ≤ 1/2 / ((sizeOf h c).2 + 1/2) := by positivity
    have h1 : 1/2 / ((sizeOf h c).2 + 1/2) < 1 := by
      rw [div_lt_one hs]; linarith [hc.2]
    refine ⟨⟨by norm_num, h1⟩, ⟨le_rfl, h0, le_rfl, le_rfl⟩, by ring, ?_⟩
    rw [sub_mul, div_mul_cancel₀ _ hs.ne']
    ring
  · intro a a' b b' h1 h2 h3
    simp only [List.mem_cons, List.not_mem_nil, or_false, Prod.mk.injEq] at h1 h2
    exact absurd (h1.1.trans h2.1.symm) h3

theorem made_neat {h : Heap} (m : Made h) : Neat h := by
  induction m with
  | empty => exact neat_empty
  | panel _ h1 h2 h3 h4 h5 ih => exact neat_panel ih h1 h2 h3 h4 h5
  | table _ hl e ih => exact neat_grid ih hl e
  | bar _ hl ht e ih => exact neat_bar ih hl ht e
  | note _ hl e ih => exact neat_note ih hl e

/-! ## Where panels are drawn -/

theorem Area.le {h : Heap} (H : Hierarchy h) {root c : ℕ} {B : Box} (a : Area h root c B) :
    c ≤ root := by
  induction a with
  | root => exact le_rfl
  | held _ hh ih => have := HeldIn.lt H hh; omega

theorem HeldIn.unique {h : Heap} (H : Hierarchy h) {p q c : ℕ} {b b' : Box}
    (h1 : HeldIn h p c b) (h2 : HeldIn h q c b') : p = q ∧ b = b' := by
  obtain ⟨w, k, a1, a2, a3⟩ := h1
  obtain ⟨w', k', a1', a2', a3'⟩ := h2
  obtain ⟨_, v, v1, v2⟩ := H.down p w c a1 (List.mem_of_getElem? a2)
  obtain ⟨_, v', v1', v2'⟩ := H.down q w' c a1' (List.mem_of_getElem? a2')
  rw [v1] at v1'
  cases v1'
  rw [v2] at v2'
  cases v2'
  refine ⟨rfl, ?_⟩
  rw [a1] at a1'
  cases a1'
  have hn := H.once p w a1
  obtain ⟨l1, e1⟩ := List.getElem?_eq_some_iff.1 a2
  obtain ⟨l2, e2⟩ := List.getElem?_eq_some_iff.1 a2'
  have : k = k' := (List.Nodup.getElem_inj_iff hn).1 (e1.trans e2.symm)
  subst this
  rw [a3] at a3'
  exact Option.some.inj a3'

theorem Area.unique {h : Heap} (H : Hierarchy h) {root c : ℕ} {B : Box} (a : Area h root c B) :
    ∀ {B'}, Area h root c B' → B = B' := by
  induction a with
  | root =>
    intro B' a'
    cases a' with
    | root => rfl
    | held a2 hh =>
      have := HeldIn.lt H hh
      have := Area.le H a2
      omega
  | held a1 hh ih =>
    intro B' a'
    cases a' with
    | root =>
      have := HeldIn.lt H hh
      have := Area.le H a1
      omega
    | held a2 hh' =>
      obtain ⟨rfl, rfl⟩ := HeldIn.unique H hh hh'
      rw [ih a2]

theorem scaled_page (b : Box) : scaled page b = b := by
  cases b; simp [scaled, page]

theorem page_scaled (b : Box) : scaled b page = b := by
  cases b; simp [scaled, page]

theorem scaled_assoc (A B C : Box) : scaled (scaled A B) C = scaled A (scaled B C) := by
  simp only [scaled, Box.mk.injEq]
  refine ⟨?_, ?_, ?_, ?_⟩ <;> ring

/-- Areas within areas. -/
theorem Area.trans {h : Heap} {r p c : ℕ} {B C : Box} (a : Area h r p B) (b : Area h p c C) :
    Area h r c (scaled B C) := by
  induction b with
  | root => rw [page_scaled]; exact a
  | held _ hh ih => rw [← scaled_assoc]; exact Area.held ih hh

theorem boxTransform_scaled (B b : Box) : boxTransform B ∘ boxTransform b =
    boxTransform (scaled B b) := by
  funext p
  simp only [Function.comp, boxTransform, scaled, Prod.mk.injEq]
  constructor <;> ring

theorem boxTransform_page : boxTransform page = id := by
  funext p
  simp [boxTransform, page]

theorem held_index {h : Heap} (H : Hierarchy h) {p c : ℕ} {b : Box} (hh : HeldIn h p c b) :
    ∃ w v, h[p]? = some w ∧ h[c]? = some v ∧ v.parent = some p ∧ c ∈ w.axes ∧
      w.boxes[w.axes.idxOf c]? = some b := by
  obtain ⟨w, k, a1, a2, a3⟩ := hh
  have hm := List.mem_of_getElem? a2
  obtain ⟨_, v, v1, v2⟩ := H.down p w c a1 hm
  refine ⟨w, v, a1, v1, v2, hm, ?_⟩
  obtain ⟨l1, rfl⟩ := List.getElem?_eq_some_iff.1 a2
  rw [List.Nodup.idxOf_getElem (H.once p w a1)]
  exact a3

/-- The transform of a panel, asked without a root, is that of its area on the whole page. -/
theorem getTransform_none {h : Heap} (H : Hierarchy h) {top c : ℕ} {B : Box}
    (ht : ∃ w, h[top]? = some w ∧ w.parent = none) (a : Area h top c B) (fuel : ℕ)
    (hf : top - c < fuel) : getTransform h fuel none c = some (boxTransform B) := by
  induction a generalizing fuel with
  | root =>
    obtain ⟨w, hw, hp⟩ := ht
    cases fuel with
    | zero => omega
    | succ fuel => simp only [getTransform, hw, Option.bind_some, hp, boxTransform_page]
  | @held p c B b a hh ih =>
    have l1 := HeldIn.lt H hh
    have l2 := Area.le H a
    obtain ⟨w, v, h1, h2, h3, h4, h5⟩ := held_index H hh
    cases fuel with
    | zero => omega
    | succ fuel =>
      simp only [getTransform, h2, Option.bind_some, h3, h1, if_pos h4, h5, reduceCtorEq, if_false]
      rw [ih fuel (by omega)]
      simp only [Option.map_some, boxTransform_scaled]

/-- The transform of a panel when `self` is the root of the drawing: `self` has the whole page;
any other panel has its area on the page of the outermost holder. -/
theorem getTransform_root {h : Heap} (H : Hierarchy h) {top self c : ℕ} {B : Box}
    (ht : ∃ w, h[top]? = some w ∧ w.parent = none) (a : Area h top c B) (fuel : ℕ)
    (hf : top - c < fuel) : getTransform h fuel (some self) c =
      some (boxTransform (if c = self then page else B)) := by
  cases fuel with
  | zero => omega
  | succ fuel =>
  cases a with
  | root =>
    obtain ⟨w, hw, hp⟩ := ht
    simp only [getTransform, hw, Option.bind_some, hp, ite_self, boxTransform_page]
  | @held p _ B b a hh =>
    have l1 := HeldIn.lt H hh
    have l2 := Area.le H a
    obtain ⟨w, v, h1, h2, h3, h4, h5⟩ := held_index H hh
    simp only [getTransform, h2, Option.bind_some, h3, h1, if_pos h4, h5, Option.some.injEq]
    by_cases hs : self = c
    · rw [if_pos hs, if_pos hs.symm, boxTransform_page]
    · rw [if_neg hs, if_neg (Ne.symm hs), getTransform_none H ht a fuel (by omega)]
      simp only [Option.map_some, boxTransform_scaled]

theorem axesRect_spec (w : Wrapper) (fsize : ℚ × ℚ) (B : Box) (r : Rect) :
    r = axesRect w fsize (boxTransform B) ↔ InArea w fsize B r := by
  unfold axesRect InArea
  cases r with
  | mk l b wd ht =>
  cases w.pad with
  | none =>
    simp only [boxOf, scaled, boxTransform, Rect.mk.injEq, Box.mk.injEq]
    constructor
    · rintro ⟨rfl, rfl, rfl, rfl⟩
      refine ⟨rfl, rfl, by ring, by ring⟩
    · rintro ⟨rfl, rfl, h1, h2⟩
      refine ⟨rfl, rfl, by linarith, by linarith⟩
  | some q =>
    obtain ⟨pl, pb, pr, pt⟩ := q
    simp only [boxOf, boxTransform, Rect.mk.injEq]
    constructor
    · rintro ⟨rfl, rfl, rfl, rfl⟩
      refine ⟨by ring, by ring, by ring, by ring⟩
    · rintro ⟨h1, h2, h3, h4⟩
      refine ⟨by linarith, by linarith, by linarith, by linarith⟩

/-- Lying under a wrapper, at any depth. -/
def Under (h : Heap) (p c : ℕ) : Prop := ∃ B, Area h p c B

theorem Under.chain {h : Heap} (H : Hierarchy h) {a b c : ℕ} (h1 : Under h a c) (h2 : Under h b c) :
    Under h a b ∨ Under h b a := by
  obtain ⟨B, h1⟩ := h1
  induction h1 with
  | root => exact Or.inr h2
  | @held p c B b' a1 hh ih =>
    obtain ⟨B2, h2⟩ := h2
    cases h2 with
    | root => exact Or.inl ⟨_, Area.held a1 hh⟩
    | held a2 hh' =>
      obtain ⟨rfl, rfl⟩ := HeldIn.unique H hh hh'
      exact ih ⟨_, a2⟩

/-- Nothing lies under two panels held by the same wrapper. -/
theorem Under.siblings {h : Heap} (H : Hierarchy h) {p a b c : ℕ} {A B : Box}
    (ha : HeldIn h p a A) (hb : HeldIn h p b B) (hne : a ≠ b) (h1 : Under h a c)
    (h2 : Under h b c) : False := by
  have key : ∀ {a b : ℕ} {A B : Box}, HeldIn h p a A → HeldIn h p b B → a ≠ b → Under h a b →
      False := by
    intro a b A B ha hb hne hu
    obtain ⟨C, hu⟩ := hu
    cases hu with
    | root => exact hne rfl
    | held a2 hh =>
      obtain ⟨rfl, _⟩ := HeldIn.unique H hb hh
      have := Area.le H a2
      have := HeldIn.lt H ha
      omega
  rcases Under.chain H h1 h2 with h | h
  · exact key ha hb hne h
  · exact key hb ha (Ne.symm hne) h

theorem Under.head {h : Heap} {p c : ℕ} (hu : Under h p c) : c = p ∨
    ∃ a A, HeldIn h p a A ∧ Under h a c := by
  obtain ⟨B, a⟩ := hu
  induction a with
  | root => exact Or.inl rfl
  | @held q c B b a hh ih =>
    right
    rcases ih with rfl | ⟨a', A, h1, B', h2⟩
    · exact ⟨c, b, hh, _, Area.root⟩
    · exact ⟨a', A, h1, _, Area.held h2 hh⟩

theorem mem_axes_held {h : Heap} (H : Hierarchy h) {p a : ℕ} {w : Wrapper} (hw : h[p]? = some w)
    (ha : a ∈ w.axes) : ∃ A, HeldIn h p a A := by
  obtain ⟨k, hk, rfl⟩ := List.getElem_of_mem ha
  have : k < w.boxes.length := by rw [← H.lens p w hw]; exact hk
  exact ⟨w.boxes[k], w, k, hw, by simp [hk], by simp [this]⟩

theorem HeldIn.under {h : Heap} {p a c : ℕ} {A : Box} (ha : HeldIn h p a A) (hu : Under h a c) :
    Under h p c := by
  obtain ⟨B, hu⟩ := hu
  have := Area.held (Area.root (h := h) (root := p)) ha
  exact ⟨_, Area.trans this hu⟩

/-- What a panel `c` is drawn as when `self` is the root of the drawing and `top` the outermost
holder. -/
def DrawnAs (h : Heap) (fsize : ℚ × ℚ) (top self c : ℕ) (r : Rect) : Prop :=
  ∃ w B, h[c]? = some w ∧ w.makeAxis = true ∧ Area h top c B ∧
    InArea w fsize (if c = self then page else B) r

theorem buildAxes_spec {h : Heap} (H : Hierarchy h) {top : ℕ}
    (ht : ∃ w, h[top]? = some w ∧ w.parent = none) (fsize : ℚ × ℚ) (root : ℕ) (depth : ℕ)
    (hd : top < depth) (fuel : ℕ) (p : ℕ) (hp : Under h top p) (hf : p < fuel) :
    ∃ out, buildAxes h depth fsize root fuel p = some out ∧ (out.map Prod.fst).Nodup ∧
      ∀ c r, (c, r) ∈ out ↔ Under h p c ∧ DrawnAs h fsize top root c r := by
  induction fuel generalizing p with
  | zero => omega
  | succ fuel ih =>
    have hple : p ≤ top := Area.le H hp.choose_spec
    obtain ⟨tw, htw, _⟩ := ht
    have htl := (List.getElem?_eq_some_iff.1 htw).1
    have hpl : p < h.length := by omega
    have hw : h[p]? = some h[p] := by simp [hpl]
    set w := h[p] with hwdef
    clear_value w
    -- the panels it holds
    have kids : ∀ l : List ℕ, l.Nodup → (∀ a ∈ l, a ∈ w.axes) →
        ∃ out, gather (buildAxes h depth fsize root fuel) l = some out ∧
          (out.map Prod.fst).Nodup ∧ ∀ c r, (c, r) ∈ out ↔
            (∃ a ∈ l, Under h a c) ∧ DrawnAs h fsize top root c r := by
      intro l hn hl
      induction l with
      | nil => exact ⟨[], rfl, by simp, by simp⟩
      | cons a l ihl =>
        obtain ⟨A, hA⟩ := mem_axes_held H hw (hl a (by simp))
        have hlt := (HeldIn.lt H hA).1
        obtain ⟨o1, e1, n1, m1⟩ := ih a ⟨_, Area.held hp.choose_spec hA⟩ (by omega)
        obtain ⟨o2, e2, n2, m2⟩ := ihl (List.nodup_cons.1 hn).2 fun a ha => hl a (by simp [ha])
        refine ⟨o1 ++ o2, by simp [gather, e1, e2], ?_, ?_⟩
        · rw [List.map_append, List.nodup_append]
          refine ⟨n1, n2, ?_⟩
          intro x hx y hy hxy
          subst hxy
          obtain ⟨⟨x1, r1⟩, hx1, rfl⟩ := List.mem_map.1 hx
          obtain ⟨⟨x2, r2⟩, hx2, hxe⟩ := List.mem_map.1 hy
          dsimp only at hxe
          subst hxe
          obtain ⟨b, hb, hub⟩ := ((m2 _ _).1 hx2).1
          obtain ⟨B, hB⟩ := mem_axes_held H hw (hl b (by simp [hb]))
          refine Under.siblings H hA hB ?_ ((m1 _ _).1 hx1).1 hub
          rintro rfl
          exact (List.nodup_cons.1 hn).1 hb
        · intro c r
          rw [List.mem_append, m1, m2]
          constructor
          · rintro (⟨h1, h2⟩ | ⟨⟨b, hb, h1⟩, h2⟩)
            · exact ⟨⟨a, by simp, h1⟩, h2⟩
            · exact ⟨⟨b, by simp [hb], h1⟩, h2⟩
          · rintro ⟨⟨b, hb, h1⟩, h2⟩
            rcases List.mem_cons.1 hb with rfl | hb
            · exact Or.inl ⟨h1, h2⟩
            · exact Or.inr ⟨⟨b, hb, h1⟩, h2⟩
    obtain ⟨out, e1, n1, m1⟩ := kids w.axes (H.once p w hw) fun a ha => ha
    have below : ∀ c r, (c, r) ∈ out → c < p := by
      intro c r hm
      obtain ⟨⟨a, ha, B, hu⟩, _⟩ := (m1 c r).1 hm
      obtain ⟨A, hA⟩ := mem_axes_held H hw ha
      have := Area.le H hu
      have := (HeldIn.lt H hA).1
      omega
    have split : ∀ c, Under h p c ↔ c = p ∨ ∃ a ∈ w.axes, Under h a c := by
      intro c
      constructor
      · intro hu
        rcases Under.head hu with h1 | ⟨a, A, h1, h2⟩
        · exact Or.inl h1
        · right
          obtain ⟨w', k, a1, a2, a3⟩ := h1
          rw [hw] at a1
          cases a1
          exact ⟨a, List.mem_of_getElem? a2, h2⟩
      · rintro (rfl | ⟨a, ha, hu⟩)
        · exact ⟨_, Area.root⟩
        · obtain ⟨A, hA⟩ := mem_axes_held H hw ha
          exact HeldIn.under hA hu
    obtain ⟨B, hB⟩ := hp
    have own : ∀ r, DrawnAs h fsize top root p r ↔ w.makeAxis = true ∧
        r = axesRect w fsize (boxTransform (if p = root then page else B)) := by
      intro r
      rw [axesRect_spec]
      constructor
      · rintro ⟨w', B', a1, a2, a3, a4⟩
        rw [hw] at a1
        cases a1
        rw [Area.unique H hB a3]
        exact ⟨a2, a4⟩
      · rintro ⟨a2, a4⟩
        exact ⟨w, B, hw, a2, hB, a4⟩
    by_cases hm : w.makeAxis = true
    · refine ⟨(p, axesRect w fsize (boxTransform (if p = root then page else B))) :: out, ?_, ?_, ?_⟩
      · simp only [buildAxes, hw, Option.bind_some, hm, if_true, e1, Option.map_some]
        rw [getTransform_root H ⟨tw, htw, by assumption⟩ hB depth (by omega)]
        rfl
      · rw [List.map_cons, List.nodup_cons]
        refine ⟨?_, n1⟩
        intro hc
        obtain ⟨⟨x1, r1⟩, hx1, hxe⟩ := List.mem_map.1 hc
        dsimp only at hxe
        have := below _ _ hx1
        omega
      · intro c r
        rw [List.mem_cons, m1, split, Prod.mk.injEq]
        constructor
        · rintro (⟨rfl, rfl⟩ | ⟨h1, h2⟩)
          · exact ⟨Or.inl rfl, (own _).2 ⟨hm, rfl⟩⟩
          · exact ⟨Or.inr h1, h2⟩
        · rintro ⟨rfl | h1, h2⟩
          · exact Or.inl ⟨rfl, ((own _).1 h2).2⟩
          · exact Or.inr ⟨h1, h2⟩
    · refine ⟨out, ?_, n1, ?_⟩
      · simp only [buildAxes, hw, Option.bind_some, if_neg hm, e1, Option.map_some, List.nil_append]
      · intro c r
        rw [m1, split]
        constructor
        · rintro ⟨h1, h2⟩
          exact ⟨Or.inr h1, h2⟩
        · rintro ⟨rfl | h1, h2⟩
          · exact absurd ((own _).1 h2).1 hm
          · exact ⟨h1, h2⟩

/-- **C121, for the outermost wrapper of a page** (a part of a page drawn by itself is missing:
the code gets it wrong, see `render_held`).  Drawing a page: every panel with a plot which lies under the wrapper drawn is drawn
exactly once, in the area of the page its holders give it. -/
theorem render_partial {h : Heap} (m : Made h) {root : ℕ} {wr : Wrapper}
    (hr : h[root]? = some wr) (hp : wr.parent = none) (depth : ℕ) (hd : root < depth)
    (figsize : Option (ℚ × ℚ)) :
    ∃ out, render h depth root figsize = some out ∧ (out.map Prod.fst).Nodup ∧
      ∀ c r, (c, r) ∈ out ↔ ∃ w B, h[c]? = some w ∧ w.makeAxis = true ∧ Area h root c B ∧
        InArea w (figsize.getD wr.size) B r := by
  have H := (made_neat m).hier
  obtain ⟨out, e, n, mm⟩ := buildAxes_spec H (top := root) ⟨wr, hr, hp⟩
    (figsize.getD (sizeOf h root)) root depth hd depth root ⟨_, Area.root⟩ hd
  have hs : sizeOf h root = wr.size := by simp [sizeOf, hr]
  refine ⟨out, e, n, fun c r => ?_⟩
  rw [mm, hs]
  constructor
  · rintro ⟨_, w, B, h1, h2, h3, h4⟩
    refine ⟨w, B, h1, h2, h3, ?_⟩
    by_cases hc : c = root
    · subst hc
      rw [if_pos rfl] at h4
      rwa [Area.unique H h3 Area.root]
    · rwa [if_neg hc] at h4
  · rintro ⟨w, B, h1, h2, h3, h4⟩
    refine ⟨⟨B, h3⟩, w, B, h1, h2, h3, ?_⟩
    by_cases hc : c = root
    · subst hc
      rw [if_pos rfl, ← Area.unique H h3 Area.root]
      exact h4
    · rwa [if_neg hc]

/-- **C121, what happens instead of it** when a wrapper which lies in another one is drawn by
itself: it gets the whole page, but what it holds stays where it is on the page of the outermost
holder.  So the panels it holds are drawn at the wrong place and the wrong size. -/
theorem render_held {h : Heap} (m : Made h) {top self : ℕ} {wt ws : Wrapper}
    (ht : h[top]? = some wt) (hp : wt.parent = none) (hs : h[self]? = some ws) {S : Box}
    (hu : Area h top self S) (depth : ℕ) (hd : top < depth) (figsize : Option (ℚ × ℚ)) :
    ∃ out, render h depth self figsize = some out ∧
      ∀ c r, c ≠ self → ((c, r) ∈ out ↔ ∃ w C, h[c]? = some w ∧ w.makeAxis = true ∧
        Area h self c C ∧ InArea w (figsize.getD ws.size) (scaled S C) r) := by
  have H := (made_neat m).hier
  have hle := Area.le H hu
  obtain ⟨out, e, n, mm⟩ := buildAxes_spec H (top := top) ⟨wt, ht, hp⟩
    (figsize.getD (sizeOf h self)) self depth hd depth self ⟨_, hu⟩ (by omega)
  have hsz : sizeOf h self = ws.size := by simp [sizeOf, hs]
  refine ⟨out, e, fun c r hc => ?_⟩
  rw [mm, hsz]
  constructor
  · rintro ⟨⟨C, hC⟩, w, B, h1, h2, h3, h4⟩
    rw [if_neg hc, Area.unique H h3 (Area.trans hu hC)] at h4
    exact ⟨w, C, h1, h2, hC, h4⟩
  · rintro ⟨w, C, h1, h2, hC, h4⟩
    refine ⟨⟨C, hC⟩, w, _, h1, h2, Area.trans hu hC, ?_⟩
    rw [if_neg hc]
    exact h4

/-- **C121.** Every panel of a page keeps the size it was made with: the width of its area, in
inches of a page which has the size of the wrapper drawn, is its own width. -/
theorem area_size {h : Heap} (m : Made h) {root c : ℕ} {B : Box} (a : Area h root c B) :
    (B.x1 - B.x0) * (sizeOf h root).1 = (sizeOf h c).1 ∧
    (B.y1 - B.y0) * (sizeOf h root).2 = (sizeOf h c).2 := by
  have N := made_neat m
  induction a with
  | root => simp [page]
  | @held p c B b a hh ih =>
    obtain ⟨_, h1, h2⟩ := N.held p c b hh
    rw [← h1, ← h2, ← ih.1, ← ih.2]
    simp only [scaled]
    constructor <;> ring

theorem scaled_real {B b : Box} (hB : RealBox B) (hb : RealBox b) : RealBox (scaled B b) := by
  obtain ⟨h1, h2⟩ := hB
  obtain ⟨h3, h4⟩ := hb
  constructor <;> simp only [scaled] <;> nlinarith

theorem scaled_within {B b : Box} (hB : RealBox B) (hb : BoxWithin b page) :
    BoxWithin (scaled B b) B := by
  obtain ⟨h1, h2⟩ := hB
  obtain ⟨h3, h4, h5, h6⟩ := hb
  simp only [page] at h3 h4 h5 h6
  refine ⟨?_, ?_, ?_, ?_⟩ <;> simp only [scaled] <;> nlinarith

/-- **C121.** The area of a panel is not empty, and lies on the page. -/
theorem area_within {h : Heap} (m : Made h) {root c : ℕ} {B : Box} (a : Area h root c B) :
    RealBox B ∧ BoxWithin B page := by
  have N := made_neat m
  induction a with
  | root =>
    refine ⟨⟨?_, ?_⟩, ?_⟩ <;> simp [page, BoxWithin]
  | @held p c B b a hh ih =>
    obtain ⟨w, k, a1, a2, a3⟩ := hh
    have hb := N.hier.real p w b a1 (List.mem_of_getElem? a3)
    have hw := scaled_within ih.1 (N.held p c b ⟨w, k, a1, a2, a3⟩).1
    refine ⟨scaled_real ih.1 hb, ?_⟩
    obtain ⟨h1, h2, h3, h4⟩ := ih.2
    obtain ⟨h5, h6, h7, h8⟩ := hw
    exact ⟨by linarith, by linarith, by linarith, by linarith⟩

theorem scaled_apart {B b b' : Box} (hB : RealBox B) (h : BoxesApart b b') :
    BoxesApart (scaled B b) (scaled B b') := by
  obtain ⟨h1, h2⟩ := hB
  rcases h with h | h | h | h
  · left; simp only [scaled]; nlinarith
  · right; left; simp only [scaled]; nlinarith
  · right; right; left; simp only [scaled]; nlinarith
  · right; right; right; simp only [scaled]; nlinarith

theorem within_apart {a a' b b' : Box} (h1 : BoxWithin a a') (h2 : BoxWithin b b')
    (h : BoxesApart a' b') : BoxesApart a b := by
  obtain ⟨p1, p2, p3, p4⟩ := h1
  obtain ⟨q1, q2, q3, q4⟩ := h2
  rcases h with h | h | h | h
  · left; linarith
  · right; left; linarith
  · right; right; left; linarith
  · right; right; right; linarith

/-- What lies under a panel lies within its area. -/
theorem area_nested {h : Heap} (m : Made h) {root p c : ℕ} {B C : Box} (a : Area h root p B)
    (b : Area h p c C) : BoxWithin (scaled B C) B :=
  scaled_within (area_within m a).1 (area_within m b).2

/-- **C121.** Two panels of a page, neither of which lies under the other, do not overlap. -/
theorem area_apart {h : Heap} (m : Made h) {root c c' : ℕ} {B B' : Box} (a : Area h root c B)
    (a' : Area h root c' B') (h1 : ¬ ∃ C, Area h c c' C) (h2 : ¬ ∃ C, Area h c' c C) :
    BoxesApart B B' := by
  have N := made_neat m
  have H := N.hier
  have gen : ∀ n (root c c' : ℕ) (B B' : Box), root ≤ n → Area h root c B → Area h root c' B' →
      (¬ ∃ C, Area h c c' C) → (¬ ∃ C, Area h c' c C) → BoxesApart B B' := by
    intro n
    induction n with
    | zero =>
      intro root c c' B B' hn a a' h1 h2
      have e1 := Area.le H a
      have e2 := Area.le H a'
      obtain rfl : c = c' := by omega
      exact absurd ⟨_, Area.root⟩ h1
    | succ n ih =>
      intro root c c' B B' hn a a' h1 h2
      rcases Under.head ⟨B, a⟩ with rfl | ⟨p, P, hP, C, hC⟩
      · exact absurd ⟨_, a'⟩ h1
      rcases Under.head ⟨B', a'⟩ with rfl | ⟨q, Q, hQ, D, hD⟩
      · exact absurd ⟨_, a⟩ h2
      have aP : Area h root p P := by
        have := Area.held (Area.root (h := h) (root := root)) hP
        rwa [scaled_page] at this
      have aQ : Area h root q Q := by
        have := Area.held (Area.root (h := h) (root := root)) hQ
        rwa [scaled_page] at this
      have eB := Area.unique H a (Area.trans aP hC)
      have eB' := Area.unique H a' (Area.trans aQ hD)
      subst eB eB'
      by_cases hpq : p = q
      · subst hpq
        obtain rfl : P = Q := Area.unique H aP aQ
        have hlt := (HeldIn.lt H hP).1
        exact scaled_apart (area_within m aP).1 (ih p c c' C D (by omega) hC hD h1 h2)
      · exact within_apart (area_nested m aP hC) (area_nested m aQ hD)
          (N.apart root p q P Q hP hQ hpq)
  exact gen root root c c' B B' le_rfl a a' h1 h2

/-! ## Colour bars and annotations -/

/-- Two panels side by side. -/
theorem pair_row {h : Heap} {a b : ℕ} (hab : a < h.length ∧ b < h.length)
    (ha : 0 < (sizeOf h a).1 ∧ 0 < (sizeOf h a).2) (hb : 0 < (sizeOf h b).1)
    (he : (sizeOf h b).2 = (sizeOf h a).2) :
    ∃ h' g, grid h [[some a, some b]] none = some (h', g) ∧
      sizeOf h' g = ((sizeOf h a).1 + (sizeOf h b).1, (sizeOf h a).2) ∧
      HeldIn h' g a ⟨0, 0, (sizeOf h a).1 / ((sizeOf h a).1 + (sizeOf h b).1), 1⟩ ∧
      HeldIn h' g b ⟨(sizeOf h a).1 / ((sizeOf h a).1 + (sizeOf h b).1), 0, 1, 1⟩ := by
  have cell : ∀ i j c, InCell [[some a, some b]] i j c ↔
      (i = 0 ∧ j = 0 ∧ c = a) ∨ (i = 0 ∧ j = 1 ∧ c = b) := by
    intro i j c
    unfold InCell
    constructor
    · rintro ⟨row, h1, h2⟩
      rcases i with _ | i
      · simp only [List.getElem?_cons_zero, Option.some.injEq] at h1
        subst h1
        rcases j with _ | _ | j
        · simp only [List.getElem?_cons_zero, Option.some.injEq] at h2
          exact Or.inl ⟨rfl, rfl, h2.symm⟩
        · simp only [List.getElem?_cons_succ, List.getElem?_cons_zero, Option.some.injEq] at h2
          exact Or.inr ⟨rfl, rfl, h2.symm⟩
        · simp at h2
      · simp at h1
    · rintro (⟨rfl, rfl, rfl⟩ | ⟨rfl, rfl, rfl⟩) <;> exact ⟨_, rfl, rfl⟩
  have S : Sized h [[some a, some b]] := by
    intro i j c hc
    rcases (cell i j c).1 hc with ⟨_, _, rfl⟩ | ⟨_, _, rfl⟩
    · exact ha
    · exact ⟨hb, he ▸ ha.2⟩
  obtain ⟨⟨h', g⟩, e⟩ := (grid_works none S).2 ⟨by simp, 2, by simp, by
    intro i hi
    exact ⟨0, a, (cell i 0 a).2 (Or.inl ⟨by simpa using hi, rfl, rfl⟩)⟩, by
    intro j hj
    rcases j with _ | _ | j
    · exact ⟨0, a, (cell 0 0 a).2 (by simp)⟩
    · exact ⟨0, b, (cell 0 1 b).2 (by simp)⟩
    · omega⟩
  obtain ⟨colw, rowh, M, hW, hH, hs, hk⟩ := grid_table (by simpa using hab) S e
  have l1 := M.cols [some a, some b] (by simp)
  have l2 := M.rows
  simp only [List.length_cons, List.length_nil, Nat.zero_add] at l1 l2
  obtain ⟨u, v, rfl⟩ : ∃ u v, colw = [u, v] := by
    match colw, l1 with
    | [u, v], _ => exact ⟨u, v, rfl⟩
  obtain ⟨t, rfl⟩ : ∃ t, rowh = [t] := by
    match rowh, l2 with
    | [t], _ => exact ⟨t, rfl⟩
  have eu : (sizeOf h a).1 = u := by
    obtain ⟨⟨i, c, h1, h2⟩, _⟩ := M.colOf 0 u rfl
    rcases (cell i 0 c).1 h1 with ⟨_, _, rfl⟩ | ⟨_, h3, _⟩
    · exact h2
    · cases h3
  have ev : (sizeOf h b).1 = v := by
    obtain ⟨⟨i, c, h1, h2⟩, _⟩ := M.colOf 1 v rfl
    rcases (cell i 1 c).1 h1 with ⟨_, h3, _⟩ | ⟨_, _, rfl⟩
    · cases h3
    · exact h2
  have et : (sizeOf h a).2 = t := by
    obtain ⟨⟨j, c, h1, h2⟩, _⟩ := M.rowOf 0 t rfl
    rcases (cell 0 j c).1 h1 with ⟨_, _, rfl⟩ | ⟨_, _, rfl⟩
    · exact h2
    · rw [← he]; exact h2
  have hsum : 0 < (sizeOf h a).1 + (sizeOf h b).1 := by linarith [ha.1]
  refine ⟨h', g, e, ?_, ?_, ?_⟩
  · rw [hs, eu, ev, et]; simp
  · refine (hk _ _).2 ⟨0, 0, (cell 0 0 a).2 (by simp), ?_⟩
    unfold Tabled
    simp only [List.sum_cons, List.sum_nil, add_zero, List.take_zero, List.take_succ_cons,
      ← eu, ← ev, ← et, zero_mul, zero_add, sub_self, sub_zero, one_mul]
    field_simp
    simp
  · refine (hk _ _).2 ⟨0, 1, (cell 0 1 b).2 (by simp), ?_⟩
    unfold Tabled
    simp only [List.sum_cons, List.sum_nil, add_zero, List.take_zero, List.take_succ_cons,
      ← eu, ← ev, ← et, zero_add, sub_self, sub_zero, one_mul, he]
    refine ⟨?_, trivial, ?_, by ring⟩ <;> field_simp <;> ring

/-- One panel above another. -/
theorem pair_col {h : Heap} {a b : ℕ} (hab : a < h.length ∧ b < h.length)
    (ha : 0 < (sizeOf h a).1 ∧ 0 < (sizeOf h a).2) (hb : 0 < (sizeOf h b).2)
    (he : (sizeOf h b).1 = (sizeOf h a).1) :
    ∃ h' g, grid h [[some a], [some b]] none = some (h', g) ∧
      sizeOf h' g = ((sizeOf h a).1, (sizeOf h a).2 + (sizeOf h b).2) ∧
      HeldIn h' g a ⟨0, (sizeOf h b).2 / ((sizeOf h a).2 + (sizeOf h b).2), 1, 1⟩ ∧
      HeldIn h' g b ⟨0, 0, 1, (sizeOf h b).2 / ((sizeOf h a).2 + (sizeOf h b).2)⟩ := by
  have cell : ∀ i j c, InCell [[some a], [some b]] i j c ↔
      (i = 0 ∧ j = 0 ∧ c = a) ∨ (i = 1 ∧ j = 0 ∧ c = b) := by
    intro i j c
    unfold InCell
    constructor
    · rintro ⟨row, h1, h2⟩
      rcases i with _ | _ | i
      · simp only [List.getElem?_cons_zero, Option.some.injEq] at h1
        subst h1
        rcases j with _ | j
        · simp only [List.getElem?_cons_zero, Option.some.injEq] at h2
          exact Or.inl ⟨rfl, rfl, h2.symm⟩
        · simp at h2
      · simp only [List.getElem?_cons_succ, List.getElem?_cons_zero, Option.some.injEq] at h1
        subst h1
        rcases j with _ | j
        · simp only [List.getElem?_cons_zero, Option.some.injEq] at h2
          exact Or.inr ⟨rfl, rfl, h2.symm⟩
        · simp at h2
      · simp at h1
    · rintro (⟨rfl, rfl, rfl⟩ | ⟨rfl, rfl, rfl⟩) <;> exact ⟨_, rfl, rfl⟩
  have S : Sized h [[some a], [some b]] := by
    intro i j c hc
    rcases (cell i j c).1 hc with ⟨_, _, rfl⟩ | ⟨_, _, rfl⟩
    · exact ha
    · exact ⟨he ▸ ha.1, hb⟩
  obtain ⟨⟨h', g⟩, e⟩ := (grid_works none S).2 ⟨by simp, 1, by simp, by
    intro i hi
    rcases i with _ | _ | i
    · exact ⟨0, a, (cell 0 0 a).2 (by simp)⟩
    · exact ⟨0, b, (cell 1 0 b).2 (by simp)⟩
    · simp only [List.length_cons, List.length_nil] at hi; omega, by
    intro j hj
    exact ⟨0, a, (cell 0 j a).2 (Or.inl ⟨rfl, by omega, rfl⟩)⟩⟩
  obtain ⟨colw, rowh, M, hW, hH, hs, hk⟩ := grid_table (by simpa using hab) S e
  have l1 := M.cols [some a] (by simp)
  have l2 := M.rows
  simp only [List.length_cons, List.length_nil, Nat.zero_add] at l1 l2
  obtain ⟨u, v, rfl⟩ : ∃ u v, rowh = [u, v] := by
    match rowh, l2 with
    | [u, v], _ => exact ⟨u, v, rfl⟩
  obtain ⟨t, rfl⟩ : ∃ t, colw = [t] := by
    match colw, l1 with
    | [t], _ => exact ⟨t, rfl⟩
  have eu : (sizeOf h a).2 = u := by
    obtain ⟨⟨j, c, h1, h2⟩, _⟩ := M.rowOf 0 u rfl
    rcases (cell 0 j c).1 h1 with ⟨_, _, rfl⟩ | ⟨h3, _, _⟩
    · exact h2
    · cases h3
  have ev : (sizeOf h b).2 = v := by
    obtain ⟨⟨j, c, h1, h2⟩, _⟩ := M.rowOf 1 v rfl
    rcases (cell 1 j c).1 h1 with ⟨h3, _, _⟩ | ⟨_, _, rfl⟩
    · cases h3
    · exact h2
  have et : (sizeOf h a).1 = t := by
    obtain ⟨⟨i, c, h1, h2⟩, _⟩ := M.colOf 0 t rfl
    rcases (cell i 0 c).1 h1 with ⟨_, _, rfl⟩ | ⟨_, _, rfl⟩
    · exact h2
    · rw [← he]; exact h2
  have hsum : 0 < (sizeOf h a).2 + (sizeOf h b).2 := by linarith [ha.2]
  refine ⟨h', g, e, ?_, ?_, ?_⟩
  · rw [hs, eu, ev, et]; simp
  · refine (hk _ _).2 ⟨0, 0, (cell 0 0 a).2 (by simp), ?_⟩
    unfold Tabled
    simp only [List.sum_cons, List.sum_nil, add_zero, List.take_zero, List.take_succ_cons,
      ← eu, ← ev, ← et, zero_mul, zero_add, sub_self, sub_zero, one_mul]
    refine ⟨trivial, ?_, trivial, ?_⟩ <;> field_simp <;> ring
  · refine (hk _ _).2 ⟨1, 0, (cell 1 0 b).2 (by simp), ?_⟩
    unfold Tabled
    simp only [List.sum_cons, List.sum_nil, add_zero, List.take_zero, List.take_succ_cons,
      ← eu, ← ev, ← et, zero_add, sub_self, sub_zero, one_mul, he, zero_mul]
    refine ⟨trivial, ?_, trivial, ?_⟩ <;> field_simp <;> ring

/-- **C122.** A colour bar: the panel keeps its size, and the bar of the thickness asked for
stands next to it on the side asked for, along the whole of it; the new wrapper is as much larger.
(With the orientation that goes with the side.) -/
theorem colorbar_beside {h : Heap} {c : ℕ} (hc : c < h.length)
    (hs : 0 < (sizeOf h c).1 ∧ 0 < (sizeOf h c).2) (pos : Pos) (t : Option ℚ)
    (ht : ∀ x, t = some x → 0 < x) :
    ∃ h' g A B, colorbar h c pos none t = some (h', g) ∧ HeldIn h' g c A ∧
      HeldIn h' g h.length B ∧
      match pos with
      | .r => sizeOf h' g = ((sizeOf h c).1 + t.getD (8/10), (sizeOf h c).2) ∧
          ∃ x, x * (sizeOf h' g).1 = (sizeOf h c).1 ∧ A = ⟨0, 0, x, 1⟩ ∧ B = ⟨x, 0, 1, 1⟩
      | .l => sizeOf h' g = ((sizeOf h c).1 + t.getD (8/10), (sizeOf h c).2) ∧
          ∃ x, x * (sizeOf h' g).1 = t.getD (8/10) ∧ A = ⟨x, 0, 1, 1⟩ ∧ B = ⟨0, 0, x, 1⟩
      | .b => sizeOf h' g = ((sizeOf h c).1, (sizeOf h c).2 + t.getD (4/10)) ∧
          ∃ y, y * (sizeOf h' g).2 = t.getD (4/10) ∧ A = ⟨0, y, 1, 1⟩ ∧ B = ⟨0, 0, 1, y⟩
      | .t => sizeOf h' g = ((sizeOf h c).1, (sizeOf h c).2 + t.getD (4/10)) ∧
          ∃ y, y * (sizeOf h' g).2 = (sizeOf h c).2 ∧ A = ⟨0, 0, 1, y⟩ ∧ B = ⟨0, y, 1, 1⟩ := by
  have pos' : ∀ d : ℚ, 0 < d → 0 < t.getD d := by
    intro d hd
    cases t with
    | none => exact hd
    | some x => exact ht x rfl
  have p8 := pos' (8/10) (by norm_num)
  have p4 := pos' (4/10) (by norm_num)
  have len : ∀ w : Wrapper, c < (h ++ [w]).length ∧ h.length < (h ++ [w]).length := by
    intro w; simp; omega
  cases pos
  · obtain ⟨h', g, e, e1, e2, e3⟩ := pair_row (h := h ++ [{ fresh (t.getD (8/10), (sizeOf h c).2) with
        rect := ⟨1/10, 15/100, 2/10, 75/100⟩, makeAxis := true }]) (a := c) (b := h.length)
      (len _) (by rw [sizeOf_append hc]; exact hs) (by rw [sizeOf_last]; exact p8)
      (by rw [sizeOf_last, sizeOf_append hc]; rfl)
    rw [sizeOf_append hc, sizeOf_last] at e1 e2 e3
    refine ⟨h', g, _, _, e, e2, e3, e1, _, ?_, rfl, rfl⟩
    rw [e1]
    exact div_mul_cancel₀ _ (by dsimp only [fresh]; linarith [hs.1])
  · obtain ⟨h', g, e, e1, e2, e3⟩ := pair_row (h := h ++ [{ fresh (t.getD (8/10), (sizeOf h c).2) with
        rect := ⟨1/10, 15/100, 2/10, 75/100⟩, makeAxis := true }]) (a := h.length) (b := c)
      (len _).symm (by rw [sizeOf_last]; exact ⟨p8, hs.2⟩) (by rw [sizeOf_append hc]; exact hs.1)
      (by rw [sizeOf_last, sizeOf_append hc]; rfl)
    rw [sizeOf_append hc, sizeOf_last] at e1 e2 e3
    refine ⟨h', g, _, _, e, e3, e2, ?_, _, ?_, rfl, rfl⟩
    · rw [e1]; dsimp only [fresh]; rw [add_comm]
    · rw [e1]
      exact div_mul_cancel₀ _ (by dsimp only [fresh]; linarith [hs.1])
  · obtain ⟨h', g, e, e1, e2, e3⟩ := pair_col (h := h ++ [{ fresh ((sizeOf h c).1, t.getD (4/10)) with
        rect := ⟨15/100, 1/2, 75/100, 4/10⟩, makeAxis := true }]) (a := c) (b := h.length)
      (len _) (by rw [sizeOf_append hc]; exact hs) (by rw [sizeOf_last]; exact p4)
      (by rw [sizeOf_last, sizeOf_append hc]; rfl)
    rw [sizeOf_append hc, sizeOf_last] at e1 e2 e3
    refine ⟨h', g, _, _, e, e2, e3, e1, _, ?_, rfl, rfl⟩
    rw [e1]
    exact div_mul_cancel₀ _ (by dsimp only [fresh]; linarith [hs.2])
  · obtain ⟨h', g, e, e1, e2, e3⟩ := pair_col (h := h ++ [{ fresh ((sizeOf h c).1, t.getD (4/10)) with
        rect := ⟨15/100, 1/2, 75/100, 4/10⟩, makeAxis := true }]) (a := h.length) (b := c)
      (len _).symm (by rw [sizeOf_last]; exact ⟨hs.1, p4⟩) (by rw [sizeOf_append hc]; exact hs.2)
      (by rw [sizeOf_last, sizeOf_append hc]; rfl)
    rw [sizeOf_append hc, sizeOf_last] at e1 e2 e3
    refine ⟨h', g, _, _, e, e3, e2, ?_, _, ?_, rfl, rfl⟩
    · rw [e1]; dsimp only [fresh]; rw [add_comm]
    · rw [e1]
      exact div_mul_cancel₀ _ (by dsimp only [fresh]; linarith [hs.2])

/-- **C122.** An annotation: the panel keeps its size, and half an inch is added below it. -/
theorem annotate_below {h : Heap} {c : ℕ} (hc : c < h.length)
    (hs : 0 < (sizeOf h c).1 ∧ 0 < (sizeOf h c).2) :
    ∃ h' g A, annotate h c = some (h', g) ∧ HeldIn h' g c A ∧
      sizeOf h' g = ((sizeOf h c).1, (sizeOf h c).2 + 1/2) ∧
      A.x0 = 0 ∧ A.x1 = 1 ∧ A.y1 = 1 ∧ A.y0 * (sizeOf h' g).2 = 1/2 := by
  have hp : 0 < (sizeOf h c).2 + 1/2 := by linarith [hs.2]
  have h1 : 1/2 / ((sizeOf h c).2 + 1/2) < 1 := by
    rw [div_lt_one hp]; linarith [hs.2]
  obtain ⟨h', e⟩ := placeAll_total h.length [(c, ⟨0, 1/2 / ((sizeOf h c).2 + 1/2), 1, 1⟩)]
    (h ++ [fresh ((sizeOf h c).1, (sizeOf h c).2 + 1/2)]) (by
      intro x hx
      simp only [List.mem_cons, List.not_mem_nil, or_false] at hx
      subst hx
      exact ⟨by norm_num, h1⟩)
  obtain ⟨k1, k2, k3, k4⟩ := held_place (by simpa using hc) ⟨rfl, rfl⟩ (placeAll_spec _ _ _ _ e).2
  have hz : sizeOf h' h.length = ((sizeOf h c).1, (sizeOf h c).2 + 1/2) := by
    rw [k4, sizeOf_last]; rfl
  refine ⟨h', h.length, _, ?_, (k2 _ _).2 (List.mem_cons_self ..), hz, rfl, rfl, rfl, ?_⟩
  · unfold annotate
    simp only [placeAll, Option.bind_some] at e
    have e' : addAxis (h ++ [fresh ((sizeOf h c).1, (sizeOf h c).2 + 1/2)]) h.length c
        ⟨0, 1/2 / ((sizeOf h c).2 + 1/2), 1, 1⟩ = some h' := by
      obtain ⟨x, h1, h2⟩ := Option.bind_eq_some_iff.1 e
      cases h2
      exact h1
    dsimp only
    rw [e']; rfl
  · rw [hz]
    exact div_mul_cancel₀ _ hp.ne'

/-! ## Examples -/

/-- Three panels, of different sizes. -/
def panelsEx : Heap :=
  [{ fresh (3, 2) with makeAxis := true }, { fresh (2, 2) with makeAxis := true },
   { fresh (4, 1) with makeAxis := true, pad := some (1/2, 1/4, 1/2, 1/4) }]

theorem panelsEx_made : Made panelsEx := by
  have h0 := Made.empty
  have h1 := h0.panel (w := { fresh (3, 2) with makeAxis := true }) rfl rfl rfl
    (by norm_num [fresh]) (by norm_num [fresh])
  have h2 := h1.panel (w := { fresh (2, 2) with makeAxis := true }) rfl rfl rfl
    (by norm_num [fresh]) (by norm_num [fresh])
  exact h2.panel (w := { fresh (4, 1) with makeAxis := true, pad := some (1/2, 1/4, 1/2, 1/4) })
    rfl rfl rfl (by norm_num [fresh]) (by norm_num [fresh])

/-- Two of them side by side, with a gap above the third. -/
def tableEx : Heap := ((grid panelsEx [[some 0, some 1]] none).map Prod.fst).getD []

theorem tableEx_eq : grid panelsEx [[some 0, some 1]] none = some (tableEx, 3) := by decide +kernel

theorem tableEx_made : Made tableEx := by
  refine Made.table panelsEx_made ?_ tableEx_eq
  refine ⟨by decide, ?_⟩
  intro c hc
  simp at hc
  rcases hc with rfl | rfl <;> exact ⟨_, rfl, rfl⟩

/-- .. and the third below them. -/
def pageEx : Heap := ((grid tableEx [[some 3], [some 2]] none).map Prod.fst).getD []

theorem pageEx_eq : grid tableEx [[some 3], [some 2]] none = some (pageEx, 4) := by decide +kernel

theorem pageEx_made : Made pageEx := by
  refine Made.table tableEx_made ?_ pageEx_eq
  refine ⟨by decide, ?_⟩
  intro c hc
  simp at hc
  rcases hc with rfl | rfl
  · exact ⟨tableEx[3]'(by decide +kernel), by decide +kernel, by decide +kernel⟩
  · exact ⟨tableEx[2]'(by decide +kernel), by decide +kernel, by decide +kernel⟩

/-- The hypotheses of `render_partial` are met, and this is what is drawn. -/
example : pageEx[4]?.map Wrapper.parent = some none ∧ render pageEx 5 4 none = some
    [(0, ⟨3/40, 61/150, 93/200, 77/150⟩), (1, ⟨13/20, 61/150, 31/100, 77/150⟩),
     (2, ⟨1/5, 1/12, 3/5, 1/6⟩)] := by
  decide +kernel

/-- Drawing the inner table by itself goes wrong: it is five inches wide and two high, and its
panels should fill it from the bottom to the top; but they are kept in the upper two thirds,
where they are on the larger page. -/
theorem render_inner_violated :
    (render pageEx 5 3 none).map (·.map fun x => (x.1, x.2.b, x.2.h)) =
      some [(0, 61/150, 77/150), (1, 61/150, 77/150)] ∧
    (render tableEx 4 3 none).map (·.map fun x => (x.1, x.2.b, x.2.h)) =
      some [(0, 11/100, 77/100), (1, 11/100, 77/100)] := by
  decide +kernel

/-- A panel put in a table twice is drawn twice at its first place, and not at the other. -/
theorem render_twice_violated :
    ((grid panelsEx [[some 0, some 1, some 0]] none).bind fun r =>
      (render r.1 5 r.2 none)).map (·.map fun x => (x.1, x.2.l)) =
      some [(0, 3/64), (1, 13/32), (0, 3/64)] := by
  decide +kernel

/-- A panel moved to another table is still in the list of the first, which is drawn with the
panel where it is in the other. -/
theorem render_moved_violated :
    ((grid tableEx [[some 2], [some 0]] none).bind fun r =>
      (render r.1 6 3 none)).map (·.map fun x => (x.1, x.2.b)) =
      some [(0, 11/150), (1, 11/100)] ∧
    (render tableEx 4 3 none).map (·.map fun x => (x.1, x.2.b)) =
      some [(0, 11/100), (1, 11/100)] := by
  decide +kernel

/-- The hypotheses of `grid_table` and `colorbar_beside` are met. -/
example : Sized panelsEx [[some 0, none], [some 1, some 2]] ∧
    (∀ c ∈ [[some 0, none], [some 1, some 2]].flatten.filterMap id, c < panelsEx.length) ∧
    (grid panelsEx [[some 0, none], [some 1, some 2]] none).isSome = true ∧
    (∃ r, colorbar panelsEx 0 .b none none = some r) ∧
    grid panelsEx [[some 0, none], [some 1, none]] none = none := by
  refine ⟨?_, by decide, by decide +kernel, ?_, by decide +kernel⟩
  rotate_left
  · obtain ⟨h', g, _, _, e, _⟩ := colorbar_beside (h := panelsEx) (c := 0) (by decide)
      (by decide +kernel) .b none (by simp)
    exact ⟨_, e⟩
  intro i j c hc
  have : c ∈ [[some 0, none], [some 1, some 2]].flatten.filterMap id := inCell_flat.2 ⟨i, j, hc⟩
  simp at this
  rcases this with rfl | rfl | rfl <;> decide +kernel

end PyGeode.Layout
