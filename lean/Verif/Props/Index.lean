/-
Properties C01, C02, C03: slices, index lists and contiguous runs (pygeode/view.py:12-77).
-/
import Verif.Lemmas.Index

namespace PyGeode
open Spec

/-! ## C01 — slice expansion agrees with Python -/

/-- The bounds of a slice for which no clamping to the axis is needed: going up the start is not
below `-n` and the stop not beyond `n`; going down the start is not beyond `n-1` and the stop not
below `-n-1`. Missing bounds are always fine. -/
def NoClampNeeded (s : PySlice) (n : ℕ) : Prop :=
  if 0 < s.step.getD 1 then
    (∀ a ∈ s.start, -(n : ℤ) ≤ a) ∧ (∀ b ∈ s.stop, b ≤ (n : ℤ))
  else
    (∀ a ∈ s.start, a ≤ (n : ℤ) - 1) ∧ (∀ b ∈ s.stop, -(n : ℤ) - 1 ≤ b)

theorem expand_slice_eq_python (s : PySlice) (n : ℕ) (hstep : s.step ≠ some 0)
    (hw : NoClampNeeded s n) :
    expand (.slice s) n = some ((slicePositions s n).map (fun i : ℕ => (i : ℤ))) := by
  obtain ⟨sa, sb, sc⟩ := s
  have hs0 : sc.getD 1 ≠ 0 := by
    cases sc with
    | none => simp
    | some c => simpa using hstep
  simp only [expand, slicePositions, NoClampNeeded] at *
  rw [if_neg hs0]
  generalize hst : sc.getD 1 = st at *
  congr 1
  rcases lt_or_gt_of_ne hs0 with hneg | hpos
  · have hnp : ¬ (0 < st) := by omega
    rw [if_neg hnp] at hw ⊢
    simp only [if_neg hnp]
    refine eq_filter_range_desc (arange_pairwise_neg hneg) ?_
    intro x
    rw [mem_arange_neg hneg]
    obtain ⟨h1, h2⟩ := hw
    obtain ⟨a0, ha0, ha1, ha2⟩ : ∃ a0 : ℤ,
        (sa.map (clampBound n false)).getD ((n : ℤ) - 1) = max (-1) a0 ∧
        (if sa.getD ((n : ℤ) - 1) < 0 then sa.getD ((n : ℤ) - 1) + n
          else sa.getD ((n : ℤ) - 1)) = a0 ∧ a0 ≤ n - 1 := by
      cases sa with
      | none => refine ⟨n - 1, ?_, ?_, by omega⟩ <;> simp only [Option.map_none, Option.getD_none] <;> omega
      | some a =>
        have ha := h1 a rfl
        refine ⟨if a < 0 then a + n else a, ?_, rfl, ?_⟩
        · simp only [Option.map_some, Option.getD_some, clampBound, Bool.false_eq_true, if_false]
          split_ifs <;> omega
        · split_ifs <;> omega
    obtain ⟨b0, hb0, hb1, hb2⟩ : ∃ b0 : ℤ,
        (sb.map (clampBound n false)).getD (-1) = min b0 (n - 1) ∧
        (sb.map (fun b : ℤ => if b < 0 then b + n else b)).getD (-1) = b0 ∧
        -1 ≤ b0 := by
      cases sb with
      | none => exact ⟨-1, by simp only [Option.map_none, Option.getD_none]; omega, rfl, by omega⟩
      | some b =>
        have hb := h2 b rfl
        refine ⟨if b < 0 then b + n else b, ?_, rfl, ?_⟩
        · simp only [Option.map_some, Option.getD_some, clampBound, Bool.false_eq_true, if_false]
          split_ifs <;> omega
        · split_ifs <;> omega
    rw [ha1, hb1]
    simp only [ha0, hb0, decide_eq_true_eq]
    constructor
    · rintro ⟨h3, h4, h5⟩
      have hx : ((x.toNat : ℕ) : ℤ) = x := by omega
      have hm : max (-1) a0 = a0 := by omega
      rw [hx, hm]
      exact ⟨by omega, by omega, by omega, h4, h5⟩
    · rintro ⟨h3, h4, h5, h6, h7⟩
      have hx : ((x.toNat : ℕ) : ℤ) = x := by omega
      rw [hx] at h5 h6 h7
      have hm : max (-1) a0 = a0 := by omega
      rw [hm] at h6 h7
      exact ⟨by omega, h6, h7⟩
  · rw [if_pos hpos] at hw ⊢
    simp only [if_pos hpos]
    refine eq_filter_range_asc (arange_pairwise_pos hpos) ?_
    intro x
    rw [mem_arange_pos hpos]
    obtain ⟨h1, h2⟩ := hw
    obtain ⟨a0, ha0, ha1, ha2⟩ : ∃ a0 : ℤ,
        (sa.map (clampBound n true)).getD 0 = min a0 n ∧
        (if sa.getD 0 < 0 then sa.getD 0 + n else sa.getD 0) = a0 ∧ 0 ≤ a0 := by
      cases sa with
      | none => exact ⟨0, by simp⟩
      | some a =>
        have ha := h1 a rfl
        refine ⟨if a < 0 then a + n else a, ?_, rfl, ?_⟩
        · simp only [Option.map_some, Option.getD_some, clampBound, if_true]
          split_ifs <;> omega
        · split_ifs <;> omega
    obtain ⟨b0, hb0, hb1, hb2⟩ : ∃ b0 : ℤ,
        (sb.map (clampBound n true)).getD (n : ℤ) = max 0 b0 ∧
        (sb.map (fun b : ℤ => if b < 0 then b + n else b)).getD (n : ℤ) = b0 ∧
        b0 ≤ n := by
      cases sb with
      | none => exact ⟨n, by simp⟩
      | some b =>
        have hb := h2 b rfl
        refine ⟨if b < 0 then b + n else b, ?_, rfl, ?_⟩
        · simp only [Option.map_some, Option.getD_some, clampBound, if_true]
          split_ifs <;> omega
        · split_ifs <;> omega
    rw [ha1, hb1]
    simp only [ha0, hb0, decide_eq_true_eq]
    constructor
    · rintro ⟨h3, h4, h5⟩
      have hx : ((x.toNat : ℕ) : ℤ) = x := by omega
      have hm : min a0 (n : ℤ) = a0 := by omega
      rw [hx, hm]
      exact ⟨by omega, by omega, h3, by omega, h5⟩
    · rintro ⟨h3, h4, h5, h6, h7⟩
      have hx : ((x.toNat : ℕ) : ℤ) = x := by omega
      rw [hx] at h5 h6 h7
      have hm : min a0 (n : ℤ) = a0 := by omega
      rw [hm] at h5 h7
      exact ⟨h5, by omega, h7⟩

/-- Non-vacuity: a descending slice with a negative bound and a stride. -/
example : expand (.slice ⟨some (-1), some 1, some (-3)⟩) 9 = some [8, 5, 2] := by decide
example : NoClampNeeded ⟨some (-1), some 1, some (-3)⟩ 9 := by
  refine (if_neg (by decide)).mpr ⟨?_, ?_⟩ <;> intro a ha <;> simp at ha <;> omega

/-- Outside that window the code does *not* follow Python: `0:5` on a 3-point axis yields
positions 3 and 4, which do not exist (no clamping, view.py:29-39). -/
theorem expand_slice_beyond_end_violated :
    expand (.slice ⟨some 0, some 5, none⟩) 3 = some [0, 1, 2, 3, 4] ∧
    slicePositions ⟨some 0, some 5, none⟩ 3 = [0, 1, 2] := by decide

/-- Lists are taken as they are and an integer becomes a one-element list. -/
theorem expand_list (l : List ℤ) (n : ℕ) : expand (.list l) n = some l := rfl

/-! ## C02 — compressing an index list does not change its meaning -/

/-- Re-expanding the compressed form gives back the list (for any stated axis length). -/
theorem expand_simplify (ind : List ℤ) (n : ℕ) (h : ∀ i ∈ ind, 0 ≤ i) :
    expand (simplify ind) n = some ind := by
  match ind, h with
  | [], _ => simp [simplify, diffs, npUnique, expand]
  | [i], h =>
    have := h i (by simp)
    simp only [simplify]
    rw [expand_slice_some _ _ (by omega) this]
    simp only [Option.map_some, Option.getD_some]
    rw [if_neg (by omega)]
    have : arange i (i + 1) 1 = [i] := by simp [arange, arangeLen]
    rw [this]
  | a :: b :: l, h =>
    simp only [simplify]
    split
    · next d hd =>
      by_cases h0 : d = 0
      · rw [if_pos h0]; rfl
      · rw [if_neg h0]
        have hall : ∀ x ∈ diffs (a :: b :: l), x = d := by
          intro x hx
          have : x ∈ npUnique (diffs (a :: b :: l)) := mem_npUnique.2 hx
          rw [hd] at this
          simpa using this
        have hal := eq_arange_of_diffs_const h0 (b :: l) a hall
        have ha := h a (by simp)
        have hlast : 0 ≤ (a :: b :: l).getLastD 0 := by
          apply h
          rw [List.getLastD_eq_getLast?, List.getLast?_eq_some_getLast (List.cons_ne_nil _ _)]
          exact List.getLast_mem (List.cons_ne_nil _ _)
        generalize hstop : (a :: b :: l).getLastD 0 + d = stop at *
        by_cases hneg : stop < 0
        · have hd0 : d < 0 := by omega
          rw [if_pos hneg, List.headD_cons, expand_slice_some _ _ h0 ha]
          simp only [Option.map_none, Option.getD_none]
          rw [if_neg (by omega : ¬ 0 < d)]
          congr 1
          rw [hal]
          -- both progressions stop at the same place
          have hlen : arangeLen a (-1) d = arangeLen a stop d := by
            have key : ∀ k : ℕ, k < arangeLen a (-1) d ↔ k < arangeLen a stop d := by
              intro k
              rw [lt_arangeLen_neg hd0, lt_arangeLen_neg hd0]
              constructor
              · intro hk; omega
              · intro hk
                have hmem : a + (k : ℤ) * d ∈ a :: b :: l := by
                  rw [hal, mem_arange_neg hd0]
                  refine ⟨hk, ?_, ⟨-k, by ring⟩⟩
                  have : (0 : ℤ) ≤ k := by positivity
                  nlinarith
                have := h _ hmem
                omega
            have h1 := key (arangeLen a (-1) d)
            have h2 := key (arangeLen a stop d)
            omega
          unfold arange
          rw [hlen]
        · rw [if_neg hneg, List.headD_cons, expand_slice_some _ _ h0 ha]
          simp only [Option.map_some, Option.getD_some]
          rw [if_neg hneg, ← hal]
    · rfl

/-- Indexing any array with the compressed form gives the same elements, in the same order and
with the same multiplicity, as indexing it with the list itself. -/
theorem simplify_same_elements {α : Type} (a : List α) (ind : List ℤ)
    (h : ∀ i ∈ ind, 0 ≤ i ∧ i < a.length) :
    npIndex a (simplify ind) = npIndex a (.list ind) := by
  have hexp := expand_simplify ind a.length (fun i hi => (h i hi).1)
  cases hs : simplify ind with
  | list l =>
    rw [hs] at hexp
    simp only [expand, Option.some.injEq] at hexp
    rw [hexp]
  | int i =>
    exfalso
    unfold simplify at hs
    split at hs
    · cases hs
    · split at hs
      · split_ifs at hs
      · cases hs
  | slice s =>
    have hpos : ind.map Int.toNat = slicePositions s a.length := by
      rw [hs] at hexp
      have hinj : ∀ l1 l2 : List ℕ, l1.map (fun i : ℕ => (i : ℤ)) = l2.map (fun i : ℕ => (i : ℤ)) → l1 = l2 :=
        fun l1 l2 => (List.map_injective_iff.2 (fun x y h => by exact_mod_cast h)).eq_iff.1
      apply hinj
      have hback : (ind.map Int.toNat).map (fun i : ℕ => (i : ℤ)) = ind := by
        rw [List.map_map]
        conv_rhs => rw [← List.map_id ind]
        apply List.map_congr_left
        intro i hi
        have := (h i hi).1
        simp only [Function.comp, id]; omega
      rw [hback]
      -- the shape of the slice produced by simplify
      obtain ⟨st, sp, d, hd0, hst0, rfl, hsp⟩ : ∃ st : ℤ, ∃ sp : Option ℤ, ∃ d : ℤ, d ≠ 0 ∧ 0 ≤ st ∧
          s = ⟨some st, sp, some d⟩ ∧ (∀ b ∈ sp, 0 ≤ b) := by
        unfold simplify at hs
        split at hs
        · next i =>
          have := h i (by simp)
          cases hs
          exact ⟨i, _, 1, by omega, by omega, rfl, by simp; omega⟩
        · split at hs
          · next d hd =>
            split_ifs at hs with h0
            cases hs
            refine ⟨_, _, d, h0, ?_, rfl, ?_⟩
            · cases ind with
              | nil => simp
              | cons x l => simpa using (h x (by simp)).1
            · intro b hb
              split_ifs at hb with h1
              · cases hb
              · cases hb; omega
          · cases hs
      rw [expand_slice_some _ _ hd0 hst0, Option.some.injEq] at hexp
      have hspn : (sp.map (fun b : ℤ => if b < 0 then b + (a.length : ℤ) else b)) = sp := by
        cases sp with
        | none => rfl
        | some b =>
          have := hsp b rfl
          simp only [Option.map_some]; rw [if_neg (by omega)]
      rw [hspn] at hexp
      simp only [slicePositions, Option.getD_some, Option.map_some]
      rcases lt_or_gt_of_ne hd0 with hneg | hdpos
      · rw [if_neg (by omega)] at hexp ⊢
        refine eq_filter_range_desc (hexp ▸ arange_pairwise_neg hneg) ?_
        intro x
        simp only [decide_eq_true_eq]
        have hmem : x ∈ ind ↔ sp.getD (-1) < x ∧ x ≤ st ∧ d ∣ st - x := by
          rw [← hexp, mem_arange_neg hneg]
        have hclsp : ∀ y : ℤ, 0 ≤ y → y < a.length →
            (sp.getD (-1) < y ↔ (sp.map (clampBound a.length false)).getD (-1) < y) := by
          intro y hy1 hy2
          cases sp with
          | none => simp
          | some b =>
            have := hsp b rfl
            simp only [Option.map_some, Option.getD_some, clampBound, Bool.false_eq_true, if_false]
            split_ifs <;> omega
        have hclst : (∃ y, y ∈ ind) → clampBound a.length false st = st := by
          rintro ⟨y, hy⟩
          have hst_mem : st ∈ ind := by
            have hy' := hy
            rw [← hexp, mem_arange_neg hneg] at hy' ⊢
            exact ⟨by omega, le_refl _, by simp⟩
          have := h st hst_mem
          simp only [clampBound, Bool.false_eq_true, if_false]
          split_ifs <;> omega
        constructor
        · intro hx
          have hb := h x hx
          have hxx : ((x.toNat : ℕ) : ℤ) = x := by omega
          rw [hxx, hclst ⟨x, hx⟩, ← hclsp x hb.1 hb.2]
          exact ⟨hb.1, hb.2, hmem.1 hx⟩
        · rintro ⟨h1, h2, h3⟩
          have hxx : ((x.toNat : ℕ) : ℤ) = x := by omega
          rw [hxx, ← hclsp x h1 h2] at h3
          have hne : ∃ y, y ∈ ind := by
            -- the start itself is in the list
            have hcl : clampBound a.length false st ≤ st := by
              simp only [clampBound, Bool.false_eq_true, if_false]
              split_ifs <;> omega
            refine ⟨st, ?_⟩
            rw [← hexp, mem_arange_neg hneg]
            exact ⟨by omega, le_refl _, by simp⟩
          rw [hclst hne] at h3
          exact hmem.2 h3
      · rw [if_pos hdpos] at hexp ⊢
        refine eq_filter_range_asc (hexp ▸ arange_pairwise_pos hdpos) ?_
        intro x
        simp only [decide_eq_true_eq]
        have hmem : x ∈ ind ↔ st ≤ x ∧ x < sp.getD (a.length : ℤ) ∧ d ∣ x - st := by
          rw [← hexp, mem_arange_pos hdpos]
        have hclsp : ∀ y : ℤ, 0 ≤ y → y < a.length →
            (y < sp.getD (a.length : ℤ) ↔ y < (sp.map (clampBound a.length true)).getD (a.length : ℤ)) := by
          intro y hy1 hy2
          cases sp with
          | none => simp
          | some b =>
            have := hsp b rfl
            simp only [Option.map_some, Option.getD_some, clampBound, if_true]
            split_ifs <;> omega
        have hclst : st < a.length → clampBound a.length true st = st := by
          intro hlt
          simp only [clampBound, if_true]
          split_ifs <;> omega
        constructor
        · intro hx
          have hb := h x hx
          have hm := hmem.1 hx
          have hxx : ((x.toNat : ℕ) : ℤ) = x := by omega
          rw [hxx, hclst (by omega), ← hclsp x hb.1 hb.2]
          exact ⟨hb.1, hb.2, hm⟩
        · rintro ⟨h1, h2, h3⟩
          have hxx : ((x.toNat : ℕ) : ℤ) = x := by omega
          rw [hxx, ← hclsp x h1 h2] at h3
          have hlt : st < a.length := by
            have h3' := h3.1
            simp only [clampBound, if_true] at h3'
            split_ifs at h3' <;> omega
          rw [hclst hlt] at h3
          exact hmem.2 h3
    have hstep : s.step ≠ some 0 := by
      intro hc
      rw [hs] at hexp
      simp [expand, hc] at hexp
    simp only [npIndex, if_neg hstep]
    rw [← hpos, mapM_pos a ind (fun i hi => (h i hi).1)]

/-- Non-vacuity: a descending list that runs down to position 0 (the special case). -/
example : simplify [4, 2, 0] = .slice ⟨some 4, none, some (-2)⟩ ∧
    npIndex ["a", "b", "c", "d", "e"] (simplify [4, 2, 0]) = some ["e", "c", "a"] := by decide
/-- Non-vacuity: repeats and irregular steps stay lists. -/
example : npIndex ["a", "b", "c"] (simplify [1, 1, 2, 0]) = some ["b", "b", "c", "a"] := by decide

/-! ## C03 — contiguous runs -/

/-- The part of a list between positions `r.1` (included) and `r.2` (excluded). -/
def run (l : List ℤ) (r : ℕ × ℕ) : List ℤ := (l.take r.2).drop r.1

/-- The runs, one after the other, are the original list. -/
theorem contiguate_covers (ind : List ℤ) :
    ((contiguate ind).map (run ind)).flatten = ind := by
  have := contig_flatten ind (jumpStops 0 (diffs ind)) 0
    (jumpStops_sorted _ 0) (by intro s hs; have := jumpStops_bound _ 0 s hs; rw [diffs_length] at this; omega)
  have e : run ind = (fun r : ℕ × ℕ => (ind.take r.2).drop r.1) := rfl
  rw [contiguate, e]
  simpa using this

/-- Every run is non-empty (for a non-empty list) and its indices rise by exactly one. -/
theorem contiguate_runs_consecutive (ind : List ℤ) (hne : ind ≠ []) (r : ℕ × ℕ)
    (hr : r ∈ contiguate ind) :
    r.1 < r.2 ∧ r.2 ≤ ind.length ∧
      ∀ k, r.1 ≤ k → k + 1 < r.2 → ind.getD (k + 1) 0 = ind.getD k 0 + 1 := by
  obtain ⟨h1, h2, h3⟩ := contig_mem ind hne r hr
  refine ⟨h1, h2, ?_⟩
  intro k hk1 hk2
  have hkl : k + 1 < ind.length := by omega
  have h4 := h3 (k + 1) (by omega) hk2
  rw [mem_jumpStops] at h4
  have hd : k < (diffs ind).length := by rw [diffs_length]; omega
  have h5 : (diffs ind)[k]'hd = 1 := by
    by_contra hc
    exact h4 ⟨k, by omega, hd, hc⟩
  rw [diffs_getElem ind k hd] at h5
  rw [List.getD_eq_getElem _ _ hkl, List.getD_eq_getElem _ _ (by omega)]
  omega

/-- The runs are maximal: where one run ends and the next begins the step is not one. -/
theorem contiguate_maximal (ind : List ℤ) (i : ℕ) (h : i + 1 < (contiguate ind).length) :
    ((contiguate ind)[i]'(by omega)).2 = ((contiguate ind)[i + 1]).1 ∧
    ind.getD ((contiguate ind)[i + 1]).1 0 ≠ ind.getD (((contiguate ind)[i + 1]).1 - 1) 0 + 1 := by
  have hlen : (contiguate ind).length = (jumpStops 0 (diffs ind)).length + 1 := by
    simp [contiguate]
  have hi : i < (jumpStops 0 (diffs ind)).length := by omega
  have e1 : ((contiguate ind)[i]'(by omega)).2 = (jumpStops 0 (diffs ind))[i] := by
    simp [contiguate, List.getElem_append_left hi]
  have e2 : ((contiguate ind)[i + 1]).1 = (jumpStops 0 (diffs ind))[i] := by
    simp [contiguate]
  refine ⟨by rw [e1, e2], ?_⟩
  rw [e2]
  have hm : (jumpStops 0 (diffs ind))[i] ∈ jumpStops 0 (diffs ind) := List.getElem_mem _
  rw [mem_jumpStops] at hm
  obtain ⟨k, hk1, hk2, hk3⟩ := hm
  rw [hk1]
  have hkl : k + 1 < ind.length := by rw [diffs_length] at hk2; omega
  rw [diffs_getElem ind k hk2] at hk3
  have : 0 + k + 1 - 1 = k := by omega
  rw [this, Nat.zero_add, List.getD_eq_getElem _ _ hkl, List.getD_eq_getElem _ _ (by omega)]
  omega

/-- Non-vacuity: three runs. -/
example : contiguate [4, 5, 6, 1, 2, 2] = [(0, 3), (3, 5), (5, 6)] := by decide

end PyGeode
