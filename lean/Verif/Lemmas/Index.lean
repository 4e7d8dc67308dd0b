/- Helper lemmas for the index properties (no property is stated here). -/
import Verif.Spec.Index
import Mathlib.Data.List.Sort
import Mathlib.Tactic.Linarith
import Mathlib.Tactic.Ring
import Mathlib.Data.List.Range
import Mathlib.Data.List.GetD

namespace PyGeode

theorem lt_arangeLen_pos {a b s : ℤ} (hs : 0 < s) (k : ℕ) :
    k < arangeLen a b s ↔ a + (k : ℤ) * s < b := by
  unfold arangeLen
  rw [if_pos hs]
  have h1 : (k < ((b - a + (s - 1)) / s).toNat) ↔ (k : ℤ) < (b - a + (s - 1)) / s := by omega
  rw [h1, Int.lt_iff_add_one_le, Int.le_ediv_iff_mul_le hs]
  constructor <;> intro h <;> nlinarith

theorem lt_arangeLen_neg {a b s : ℤ} (hs : s < 0) (k : ℕ) :
    k < arangeLen a b s ↔ b < a + (k : ℤ) * s := by
  unfold arangeLen
  rw [if_neg (by omega)]
  have h1 : (k < ((a - b + (-s - 1)) / -s).toNat) ↔ (k : ℤ) < (a - b + (-s - 1)) / -s := by omega
  rw [h1, Int.lt_iff_add_one_le, Int.le_ediv_iff_mul_le (by omega : 0 < -s)]
  constructor <;> intro h <;> nlinarith

theorem mem_arange_pos {a b s x : ℤ} (hs : 0 < s) :
    x ∈ arange a b s ↔ a ≤ x ∧ x < b ∧ s ∣ x - a := by
  unfold arange
  simp only [List.mem_map, List.mem_range, lt_arangeLen_pos hs]
  constructor
  · rintro ⟨k, hk, rfl⟩
    refine ⟨?_, hk, ?_⟩
    · have : 0 ≤ (k : ℤ) * s := by positivity
      omega
    · exact ⟨k, by ring⟩
  · rintro ⟨h1, h2, k, hk⟩
    have hk0 : 0 ≤ k := by
      by_contra hneg
      have : s * k < 0 := by nlinarith
      omega
    refine ⟨k.toNat, ?_, ?_⟩
    · have : ((k.toNat : ℕ) : ℤ) = k := Int.toNat_of_nonneg hk0
      rw [this]; nlinarith
    · have : ((k.toNat : ℕ) : ℤ) = k := Int.toNat_of_nonneg hk0
      rw [this]; nlinarith

theorem mem_arange_neg {a b s x : ℤ} (hs : s < 0) :
    x ∈ arange a b s ↔ b < x ∧ x ≤ a ∧ s ∣ a - x := by
  unfold arange
  simp only [List.mem_map, List.mem_range, lt_arangeLen_neg hs]
  constructor
  · rintro ⟨k, hk, rfl⟩
    refine ⟨hk, ?_, ?_⟩
    · have : (k : ℤ) * s ≤ 0 := by
        have : 0 ≤ (k : ℤ) := by positivity
        nlinarith
      omega
    · exact ⟨-k, by ring⟩
  · rintro ⟨h1, h2, k, hk⟩
    have hk0 : k ≤ 0 := by
      by_contra hneg
      have : s * k < 0 := by nlinarith
      omega
    have : (((-k).toNat : ℕ) : ℤ) = -k := Int.toNat_of_nonneg (by omega)
    refine ⟨(-k).toNat, ?_, ?_⟩ <;> rw [this] <;> nlinarith

theorem arange_pairwise_pos {a b s : ℤ} (hs : 0 < s) : (arange a b s).Pairwise (· < ·) := by
  unfold arange
  rw [List.pairwise_map]
  refine List.Pairwise.imp ?_ List.pairwise_lt_range
  intro i j hij
  have : (i : ℤ) < j := by exact_mod_cast hij
  nlinarith

theorem arange_pairwise_neg {a b s : ℤ} (hs : s < 0) : (arange a b s).Pairwise (· > ·) := by
  unfold arange
  rw [List.pairwise_map]
  refine List.Pairwise.imp ?_ List.pairwise_lt_range
  intro i j hij
  have : (i : ℤ) < j := by exact_mod_cast hij
  show a + j * s < a + i * s
  nlinarith

/-- ascending positions of `List.range n` selected by `p`, as integers -/
theorem eq_filter_range_asc {l : List ℤ} {n : ℕ} {p : ℕ → Bool}
    (hs : l.Pairwise (· < ·))
    (hm : ∀ x : ℤ, x ∈ l ↔ 0 ≤ x ∧ x < n ∧ p x.toNat = true) :
    l = ((List.range n).filter p).map (fun i : ℕ => (i : ℤ)) := by
  refine List.Pairwise.eq_of_mem_iff hs ?_ ?_
  · rw [List.pairwise_map]
    refine List.Pairwise.imp ?_ (List.pairwise_lt_range.filter _)
    intro i j hij
    exact_mod_cast hij
  · intro x
    rw [hm]
    simp only [List.mem_map, List.mem_filter, List.mem_range]
    constructor
    · rintro ⟨h0, h1, h2⟩
      exact ⟨x.toNat, ⟨by omega, h2⟩, by omega⟩
    · rintro ⟨i, ⟨hi, hp⟩, rfl⟩
      exact ⟨by omega, by omega, by simpa using hp⟩

theorem eq_filter_range_desc {l : List ℤ} {n : ℕ} {p : ℕ → Bool}
    (hs : l.Pairwise (· > ·))
    (hm : ∀ x : ℤ, x ∈ l ↔ 0 ≤ x ∧ x < n ∧ p x.toNat = true) :
    l = (((List.range n).filter p).reverse).map (fun i : ℕ => (i : ℤ)) := by
  have h : l.reverse = ((List.range n).filter p).map (fun i : ℕ => (i : ℤ)) :=
    eq_filter_range_asc (List.pairwise_reverse.2 hs) (by intro x; rw [List.mem_reverse]; exact hm x)
  rw [List.map_reverse, ← h, List.reverse_reverse]

theorem expand_slice_some {a d : ℤ} (sb : Option ℤ) (n : ℕ) (hd : d ≠ 0) (ha : 0 ≤ a) :
    expand (.slice ⟨some a, sb, some d⟩) n =
      some (arange a ((sb.map (fun b : ℤ => if b < 0 then b + n else b)).getD
        (if 0 < d then (n : ℤ) else -1)) d) := by
  have h1 : expand (.slice ⟨some a, sb, some d⟩) n =
      some (arange (if a < 0 then a + n else a)
        ((sb.map (fun b : ℤ => if b < 0 then b + n else b)).getD
        (if 0 < d then (n : ℤ) else -1)) d) := if_neg hd
  rw [h1, if_neg (by omega)]

theorem mem_npUnique {l : List ℤ} {x : ℤ} : x ∈ npUnique l ↔ x ∈ l := by
  simp [npUnique]

theorem npUnique_pairwise (l : List ℤ) : (npUnique l).Pairwise (· < ·) := by
  have h1 : (npUnique l).Pairwise (· ≤ ·) := List.pairwise_insertionSort _ _
  have h2 : (npUnique l).Nodup :=
    (List.perm_insertionSort _ _).nodup_iff.2 (List.nodup_dedup l)
  refine (List.Pairwise.and h1 h2).imp ?_
  rintro a b ⟨h3, h4⟩
  omega

theorem arith_of_diffs_const {d : ℤ} : ∀ (l : List ℤ) (a : ℤ), (∀ x ∈ diffs (a :: l), x = d) →
    a :: l = (List.range (l.length + 1)).map (fun k : ℕ => a + (k : ℤ) * d) := by
  intro l
  induction l with
  | nil => intro a _; simp
  | cons b l ih =>
    intro a h
    simp only [diffs, List.mem_cons, forall_eq_or_imp] at h
    have h1 := ih b h.2
    rw [List.length_cons, h1, List.range_succ_eq_map (n := l.length + 1)]
    simp only [List.map_cons, List.map_map, Nat.cast_zero, zero_mul, add_zero]
    congr 1
    apply List.map_congr_left
    intro k _
    simp only [Function.comp, Nat.succ_eq_add_one, Nat.cast_add, Nat.cast_one]
    have : b = a + d := by linarith [h.1]
    rw [this]; ring

theorem diffs_ne_nil {a b : ℤ} {l : List ℤ} : diffs (a :: b :: l) ≠ [] := by simp [diffs]

/-- A list with constant non-zero difference is the arithmetic progression that `arange`
produces from its first element to its last element plus the difference. -/
theorem eq_arange_of_diffs_const {d : ℤ} (hd : d ≠ 0) (l : List ℤ) (a : ℤ)
    (h : ∀ x ∈ diffs (a :: l), x = d) :
    a :: l = arange a ((a :: l).getLastD 0 + d) d := by
  have h1 := arith_of_diffs_const l a h
  have hlast : (a :: l).getLastD 0 = a + (l.length : ℤ) * d := by
    rw [h1, List.getLastD_eq_getLast?, List.getLast?_map, List.getLast?_range]
    simp
  rw [hlast]
  have hlen : arangeLen a (a + (l.length : ℤ) * d + d) d = l.length + 1 := by
    have key : ∀ k : ℕ, k < arangeLen a (a + (l.length : ℤ) * d + d) d ↔ k < l.length + 1 := by
      intro k
      rcases lt_or_gt_of_ne hd with hneg | hpos
      · rw [lt_arangeLen_neg hneg]
        constructor
        · intro hk
          have : ((k : ℤ) - (l.length + 1)) * d > 0 := by linarith
          by_contra hc
          have : (k : ℤ) - (l.length + 1) ≥ 0 := by omega
          nlinarith
        · intro hk
          have : (k : ℤ) - (l.length + 1) < 0 := by omega
          nlinarith
      · rw [lt_arangeLen_pos hpos]
        constructor
        · intro hk
          by_contra hc
          have : (k : ℤ) - (l.length + 1) ≥ 0 := by omega
          nlinarith
        · intro hk
          have : (k : ℤ) - (l.length + 1) < 0 := by omega
          nlinarith
    have := key (l.length)
    have := key (l.length + 1)
    have h3 := key (arangeLen a (a + (l.length : ℤ) * d + d) d)
    omega
  unfold arange
  rw [hlen]
  exact h1

theorem mapM_pos {α : Type} (a : List α) : ∀ (l : List ℤ), (∀ i ∈ l, 0 ≤ i) →
    l.mapM (fun i => if 0 ≤ i then a[i.toNat]? else none) = (l.map Int.toNat).mapM (fun i => a[i]?) := by
  intro l hl
  induction l with
  | nil => rfl
  | cons i l ih =>
    rw [List.map_cons, List.mapM_cons, List.mapM_cons, ih (fun j hj => hl j (by simp [hj])),
      if_pos (hl i (by simp))]

/-! contiguate -/

theorem diffs_length : ∀ l : List ℤ, (diffs l).length = l.length - 1
  | [] => rfl
  | [_] => rfl
  | a :: b :: l => by
    have := diffs_length (b :: l)
    simp only [diffs, List.length_cons] at *
    omega

theorem diffs_getElem : ∀ (l : List ℤ) (k : ℕ) (h : k < (diffs l).length),
    (diffs l)[k] = l[k + 1]'(by rw [diffs_length] at h; omega) - l[k]'(by rw [diffs_length] at h; omega)
  | [], k, h => by simp [diffs] at h
  | [_], k, h => by simp [diffs] at h
  | a :: b :: l, 0, h => by simp [diffs]
  | a :: b :: l, k + 1, h => by
    have h' : k < (diffs (b :: l)).length := by simpa [diffs] using h
    have := diffs_getElem (b :: l) k h'
    simp only [diffs, List.getElem_cons_succ]
    rw [this]
    simp

theorem mem_jumpStops (l : List ℤ) (k x : ℕ) :
    x ∈ jumpStops k l ↔ ∃ j, ∃ _ : x = k + j + 1, ∃ h : j < l.length, l[j] ≠ 1 := by
  induction l generalizing k with
  | nil => simp [jumpStops]
  | cons d l ih =>
    have e : (∃ j, ∃ _ : x = k + j + 1, ∃ h : j < (d :: l).length, (d :: l)[j] ≠ 1) ↔
        (x = k + 1 ∧ d ≠ 1) ∨ (∃ j, ∃ _ : x = (k + 1) + j + 1, ∃ h : j < l.length, l[j] ≠ 1) := by
      constructor
      · rintro ⟨j, h1, h2, h3⟩
        cases j with
        | zero => left; exact ⟨by omega, by simpa using h3⟩
        | succ j => right; exact ⟨j, by omega, by simpa using h2, by simpa using h3⟩
      · rintro (⟨h1, h2⟩ | ⟨j, h1, h2, h3⟩)
        · exact ⟨0, by omega, by simp, by simpa using h2⟩
        · exact ⟨j + 1, by omega, by simpa using h2, by simpa using h3⟩
    rw [e]
    unfold jumpStops
    split_ifs with h
    · rw [List.mem_cons, ih]
      constructor
      · rintro (h1 | h1)
        · exact Or.inl ⟨h1, h⟩
        · exact Or.inr h1
      · rintro (h1 | h1)
        · exact Or.inl h1.1
        · exact Or.inr h1
    · rw [ih]
      constructor
      · exact Or.inr
      · rintro (h1 | h1)
        · exact absurd h1.2 h
        · exact h1

theorem jumpStops_bound (l : List ℤ) (k s : ℕ) (h : s ∈ jumpStops k l) : k < s ∧ s ≤ k + l.length := by
  rw [mem_jumpStops] at h
  obtain ⟨j, h1, h2, _⟩ := h
  omega

theorem jumpStops_sorted (l : List ℤ) (k : ℕ) : (jumpStops k l).Pairwise (· < ·) := by
  induction l generalizing k with
  | nil => simp [jumpStops]
  | cons d l ih =>
    unfold jumpStops
    split_ifs with h
    · rw [List.pairwise_cons]
      exact ⟨fun s hs => (jumpStops_bound l (k + 1) s hs).1, ih _⟩
    · exact ih _

theorem contig_flatten (ind : List ℤ) : ∀ (stops : List ℕ) (st : ℕ), stops.Pairwise (· < ·) →
    (∀ s ∈ stops, st ≤ s ∧ s ≤ ind.length) →
    (((st :: (stops ++ [ind.length]).dropLast).zip (stops ++ [ind.length])).map
      (fun r : ℕ × ℕ => (ind.take r.2).drop r.1)).flatten = ind.drop st := by
  intro stops
  induction stops with
  | nil => intro st _ _; simp
  | cons s stops ih =>
    intro st hp hb
    rw [List.pairwise_cons] at hp
    have h1 := ih s hp.2 (fun x hx => ⟨le_of_lt (hp.1 x hx), (hb x (by simp [hx])).2⟩)
    have h2 := hb s (by simp)
    have h3 : ((s :: stops) ++ [ind.length]).dropLast = s :: (stops ++ [ind.length]).dropLast := by
      rw [List.dropLast_concat, List.dropLast_concat]
    rw [h3, List.cons_append, List.zip_cons_cons, List.map_cons, List.flatten_cons, h1]
    have h4 : ind.drop st = (ind.take s ++ ind.drop s).drop st := by rw [List.take_append_drop]
    rw [h4, List.drop_append]
    have : st - (ind.take s).length = 0 := by simp; omega
    rw [this, List.drop_zero]

theorem contig_mem_aux (L : ℕ) : ∀ (stops : List ℕ) (st : ℕ), stops.Pairwise (· < ·) →
    (∀ s ∈ stops, st < s ∧ s < L) → st < L → ∀ r ∈ (st :: (stops ++ [L]).dropLast).zip (stops ++ [L]),
    r.1 < r.2 ∧ r.2 ≤ L ∧ st ≤ r.1 ∧ ∀ k, r.1 < k → k < r.2 → k ∉ stops := by
  intro stops
  induction stops with
  | nil =>
    intro st _ _ hL r hr
    simp at hr
    subst hr
    exact ⟨hL, le_refl _, le_refl _, by simp⟩
  | cons s stops ih =>
    intro st hp hb hL r hr
    rw [List.pairwise_cons] at hp
    have h2 := hb s (by simp)
    have h3 : ((s :: stops) ++ [L]).dropLast = s :: (stops ++ [L]).dropLast := by
      rw [List.dropLast_concat, List.dropLast_concat]
    rw [h3, List.cons_append, List.zip_cons_cons, List.mem_cons] at hr
    rcases hr with rfl | hr
    · refine ⟨h2.1, by simp; omega, le_refl _, ?_⟩
      intro k hk1 hk2 hmem
      simp only [List.mem_cons] at hmem
      rcases hmem with rfl | hmem
      · exact absurd hk2 (lt_irrefl _)
      · have := hp.1 k hmem
        simp at hk2
        omega
    · have h1 := ih s hp.2 (fun x hx => ⟨hp.1 x hx, (hb x (by simp [hx])).2⟩) h2.2 r hr
      refine ⟨h1.1, h1.2.1, by omega, ?_⟩
      intro k hk1 hk2 hmem
      simp only [List.mem_cons] at hmem
      rcases hmem with rfl | hmem
      · omega
      · exact h1.2.2.2 k hk1 hk2 hmem

theorem contig_mem (ind : List ℤ) (hne : ind ≠ []) (r : ℕ × ℕ) (hr : r ∈ contiguate ind) :
    r.1 < r.2 ∧ r.2 ≤ ind.length ∧ ∀ k, r.1 < k → k < r.2 → k ∉ jumpStops 0 (diffs ind) := by
  have hpos : 0 < ind.length := List.length_pos_of_ne_nil hne
  have := contig_mem_aux ind.length (jumpStops 0 (diffs ind)) 0 (jumpStops_sorted _ _)
    (by intro s hs; have := jumpStops_bound _ 0 s hs; rw [diffs_length] at this; omega) hpos r hr
  exact ⟨this.1, this.2.1, this.2.2.2⟩

end PyGeode
