/-
Splitting a time axis into years and the rest of the date.
-/
import Verif.Spec.SplitTime
import Verif.Props.TimeMatch
import Verif.Props.ClimRemake
import Verif.Props.FromFiles

namespace PyGeode
namespace SplitTime
open Spec NArr Axis Combine VarOps ClimVar
variable {α : Type}

/-! ### the order of the pairs -/

theorem commonWalk_inc {n : ℕ} (a b : List TimeC.Row) (ai bi : ℕ) (hb : ∀ r ∈ b, r.length = n) (hd : b.Pairwise (· < ·)) :
    (∀ p ∈ TimeC.commonWalk a b ai bi, ai ≤ p.1) ∧ (TimeC.commonWalk a b ai bi).Pairwise fun p q => p.1 < q.1 := by
  induction a, b, ai, bi using TimeC.walk_induct with
  | case1 ai bi x xs y ys hc hn ih =>
    rw [TimeC.commonWalk, if_pos hc, if_pos hn]
    have := ih hb hd
    refine ⟨?_, List.pairwise_cons.2 ⟨fun p hp => this.1 p hp, this.2⟩⟩
    intro p hp
    rcases List.mem_cons.1 hp with rfl | hp
    · simp
    · have := this.1 p hp; omega
  | case2 ai bi x xs y ys hc hn hn2 ih =>
    rw [TimeC.nextSame_not_distinct (hb y (by simp)) (fun r hr => hb r (List.mem_cons_of_mem _ hr)) hd]
      at hn2
    simp at hn2
  | case3 ai bi x xs y ys hc hn hn2 ih =>
    rw [TimeC.commonWalk, if_pos hc, if_neg hn, if_neg hn2]
    have := ih (fun r hr => hb r (List.mem_cons_of_mem _ hr)) (List.pairwise_cons.1 hd).2
    refine ⟨?_, List.pairwise_cons.2 ⟨fun p hp => this.1 p hp, this.2⟩⟩
    intro p hp
    rcases List.mem_cons.1 hp with rfl | hp
    · simp
    · have := this.1 p hp; omega
  | case4 ai bi x xs y ys hc hlt ih =>
    rw [TimeC.commonWalk, if_neg hc, if_pos hlt]
    have := ih hb hd
    exact ⟨fun p hp => by have := this.1 p hp; omega, this.2⟩
  | case5 ai bi x xs y ys hc hlt ih =>
    rw [TimeC.commonWalk, if_neg hc, if_neg hlt]
    exact ih (fun r hr => hb r (List.mem_cons_of_mem _ hr)) (List.pairwise_cons.1 hd).2
  | case6 a b ai bi hne =>
    rw [TimeC.commonWalk_nil hne]; simp

theorem orderedInsert_tie (key : ℕ → TimeC.Row) (a : ℕ) : ∀ l : List ℕ, (∀ b ∈ l, a < b) →
    l.Pairwise (fun i j => key i < key j ∨ key i = key j ∧ i < j) →
    (l.orderedInsert (fun i j => key i ≤ key j) a).Pairwise (fun i j => key i < key j ∨ key i = key j ∧ i < j)
  | [], _, _ => by simp
  | b :: l, h, hp => by
    obtain ⟨h1, h2⟩ := List.pairwise_cons.1 hp
    rw [List.orderedInsert_cons]
    split_ifs with hab
    · refine List.pairwise_cons.2 ⟨fun c hc => ?_, hp⟩
      have hbc : key a ≤ key c := by
        rcases List.mem_cons.1 hc with rfl | hc
        · exact hab
        · exact hab.trans (by rcases h1 c hc with h | h; exacts [h.le, h.1.le])
      rcases hbc.lt_or_eq with h' | h'
      · exact Or.inl h'
      · exact Or.inr ⟨h', h c hc⟩
    · refine List.pairwise_cons.2 ⟨fun c hc => ?_, orderedInsert_tie key a l (fun c hc => h c (by simp [hc])) h2⟩
      rcases List.mem_cons.1 ((List.perm_orderedInsert _ _ _).mem_iff.1 hc) with rfl | hc
      · exact Or.inl (not_le.1 hab)
      · exact h1 c hc

theorem insertionSort_tie (key : ℕ → TimeC.Row) : ∀ l : List ℕ, l.Pairwise (· < ·) →
    (l.insertionSort (fun i j => key i ≤ key j)).Pairwise (fun i j => key i < key j ∨ key i = key j ∧ i < j)
  | [], _ => by simp
  | a :: l, h => by
    obtain ⟨h1, h2⟩ := List.pairwise_cons.1 h
    rw [List.insertionSort_cons]
    exact orderedInsert_tie key a _ (fun b hb => h1 b ((List.perm_insertionSort _ _).mem_iff.1 hb)) (insertionSort_tie key l h2)

/-- pairs with the same second member come in the order of their first member -/
theorem commonMap_tie {n : ℕ} (a b : List TimeC.Row) (ha : ∀ r ∈ a, r.length = n) (hb : ∀ r ∈ b, r.length = n) (hd : b.Nodup) :
    (TimeC.commonMap a b).Pairwise fun p q => p.2 = q.2 → p.1 < q.1 := by
  unfold TimeC.commonMap
  rw [List.pairwise_map]
  have h := (commonWalk_inc ((TimeC.argsortRows a).map (fun i : ℕ => a.getD i [])) _ 0 0 (TimeC.sortedRows_argsort hb).width
    (TimeC.argsort_strict hd)).2
  refine List.Pairwise.imp_of_mem ?_ h
  intro p q hp hq hlt he
  dsimp only at he ⊢
  obtain ⟨p', q', r, h1, h2, h3, h4⟩ := TimeC.commonWalk_sound _ _ 0 0 (TimeC.sortedRows_argsort ha).width
    (TimeC.sortedRows_argsort hb).width p.1 p.2 hp
  obtain ⟨p'', q'', r', g1, g2, g3, g4⟩ := TimeC.commonWalk_sound _ _ 0 0 (TimeC.sortedRows_argsort ha).width
    (TimeC.sortedRows_argsort hb).width q.1 q.2 hq
  simp only [zero_add] at h1 h2 g1 g2
  have e : r = r' := by
    have := TimeC.mem_of_translate h4
    have h' := TimeC.mem_of_translate g4
    rw [← h2, he, g2, h'] at this
    simpa using this.symm
  subst e
  have hl : p'' < (TimeC.argsortRows a).length := by simpa using (List.getElem?_eq_some_iff.1 g3).1
  have hl' : p' < (TimeC.argsortRows a).length := by simpa using (List.getElem?_eq_some_iff.1 h3).1
  have hs := insertionSort_tie (fun i => a.getD i []) (List.range a.length) List.pairwise_lt_range
  change (TimeC.argsortRows a).Pairwise _ at hs
  have := List.pairwise_iff_getElem.1 hs p' p'' hl' hl (by omega)
  have k1 := TimeC.mem_of_translate h3
  have k2 := TimeC.mem_of_translate g3
  rw [h1, g1, List.getD_eq_getElem _ _ hl, List.getD_eq_getElem _ _ hl']
  rw [List.getD_eq_getElem _ _ hl'] at k1
  rw [List.getD_eq_getElem _ _ hl] at k2
  have e1 : a.getD (TimeC.argsortRows a)[p'] [] = r := by rw [List.getD_eq_getElem?_getD, k1]; rfl
  have e2 : a.getD (TimeC.argsortRows a)[p''] [] = r := by rw [List.getD_eq_getElem?_getD, k2]; rfl
  rw [e1, e2] at this
  simpa using this

/-! ### years and days in all combinations -/

theorem flatMap_getD {β γ : Type} (n : ℕ) (f : β → List γ) (d : γ) : ∀ (l : List β) (a b : ℕ) (e : β), (∀ x ∈ l, (f x).length = n) →
    b < n → a < l.length → (l.flatMap f).getD (a * n + b) d = (f (l.getD a e)).getD b d
  | [], a, b, e, _, _, h => by simp at h
  | x :: l, 0, b, e, hf, hb, _ => by
    rw [List.flatMap_cons, Nat.zero_mul, Nat.zero_add, List.getD_append _ _ _ _ (by rw [hf x (by simp)]; exact hb)]
    rfl
  | x :: l, a + 1, b, e, hf, hb, h => by
    have hx := hf x (by simp)
    rw [List.flatMap_cons, List.getD_append_right _ _ _ _ (by rw [hx, Nat.add_mul]; omega), hx]
    have : (a + 1) * n + b - n = a * n + b := by rw [Nat.add_mul]; omega
    rw [this, List.getD_cons_succ]
    exact flatMap_getD n f d l a b e (fun y hy => hf y (by simp [hy])) hb (by simpa using h)

theorem lastWith_spec (p : ℕ → Bool) : ∀ n, match lastWith p n with
    | some i => i < n ∧ p i = true ∧ ∀ j < n, p j = true → j ≤ i
    | none => ∀ j < n, p j = false
  | 0 => by simp [lastWith]
  | n + 1 => by
    rw [lastWith]
    split_ifs with h
    · exact ⟨by omega, h, fun j hj _ => by omega⟩
    · have := lastWith_spec p n
      cases e : lastWith p n with
      | none =>
        rw [e] at this
        intro j hj
        rcases Nat.lt_succ_iff_lt_or_eq.1 hj with h' | rfl
        · exact this j h'
        · simpa using h
      | some i =>
        rw [e] at this
        refine ⟨by omega, this.2.1, fun j hj hp => ?_⟩
        rcases Nat.lt_succ_iff_lt_or_eq.1 hj with h' | rfl
        · exact this.2.2 j h' hp
        · exact absurd hp h

/-- the last position in an increasing list of positions with a property -/
theorem getLast_filter (n : ℕ) (p : ℕ → Bool) : ((List.range n).filter p).getLast? = lastWith p n := by
  induction n with
  | zero => simp [lastWith]
  | succ n ih =>
    rw [List.range_succ, List.filter_append, lastWith]
    by_cases h : p n
    · simp [h]
    · simp [h, ih]

/-! ### the axes -/

theorem splitAxis_spec {t : Axis} {mk : List (Name × List ℚ) → Axis} (nr : List ℚ → ℚ) (hpos : 0 < t.len)
    (hp : "SeasonalStandardTime".toList ∉ t.classes ∧ "SeasonalModelTime365".toList ∉ t.classes)
    (hy : "year".toList ∈ t.auxarrays.map Prod.fst) (hf : fieldsKept t .clim ≠ []) (hm : Remakes t mk) :
    ∃ years days, splitAxis nr mk t = some (years, days) ∧ IsYears t years ∧ days.name = "day".toList ∧
      GoodOut (fieldsKept t .clim) t days := by
  obtain ⟨out, h1, h2⟩ := distinct_good hpos hm .clim hf
  have hmod : modifyFields t none ["year".toList] = fieldsKept t .clim := modify_clim hp none ["year".toList] .clim (by decide)
  unfold splitAxis
  rw [if_pos (by unfold hasField; simpa using hy), hmod, h1]
  refine ⟨_, _, rfl, ⟨rfl, ?_, ?_⟩, rfl, ⟨h2.cls, h2.fields, h2.lens, h2.nd, h2.inc, h2.rows⟩⟩
  · show (List.map (fun y : ℤ => (y : ℚ)) _).Pairwise _
    rw [List.pairwise_map]
    have h3 : (((List.range t.len).map (fieldAt t "year".toList)).dedup.insertionSort (· ≤ ·)).Pairwise (· ≤ ·) :=
      List.pairwise_insertionSort _ _
    have h4 : (((List.range t.len).map (fieldAt t "year".toList)).dedup.insertionSort (· ≤ ·)).Nodup :=
      (List.perm_insertionSort _ _).nodup_iff.2 (List.nodup_dedup _)
    refine (h3.and h4).imp ?_
    intro a b h
    exact_mod_cast lt_of_le_of_ne h.1 h.2
  · intro v
    show v ∈ List.map (fun y : ℤ => (y : ℚ)) _ ↔ _
    simp only [List.mem_map, List.mem_insertionSort, List.mem_dedup, List.mem_range]
    constructor
    · rintro ⟨_, ⟨i, hi, rfl⟩, rfl⟩
      exact ⟨i, hi, rfl⟩
    · rintro ⟨i, hi, rfl⟩
      exact ⟨_, ⟨i, hi, rfl⟩, rfl⟩

section
variable {t years days : Axis} {mk' : List (Name × List ℚ) → Axis} {Iy Id : List ℕ}

theorem fieldAt_year (t : Axis) (i : ℕ) : fieldAt t "year".toList i = yearAt t i := rfl

theorem dateAt_cons (t : Axis) (fs : List Name) (i : ℕ) : dateAt t ("year".toList :: fs) i = yearAt t i :: dateAt t fs i := rfl

theorem year_not_kept (t : Axis) : "year".toList ∉ fieldsKept t .clim := by
  intro h
  have h' : "year".toList ∈ keptBy .clim := (List.mem_filter.1 h).1
  exact absurd h' (by decide)

/-- the combined axis has the fields of the years and days asked for -/
theorem join_dates (nr : List ℚ → ℚ) (hy : "year".toList ∈ t.auxarrays.map Prod.fst) (hf : fieldsKept t .clim ≠ [])
    (hr : Rejoins t mk') (hys : IsYears t years) (g : GoodOut (fieldsKept t .clim) t days) (hIy : Iy ≠ []) (hId : Id ≠ [])
    (hby : ∀ i ∈ Iy, i < years.len) (hbd : ∀ i ∈ Id, i < days.len) :
    (joinAxes mk' (sliceAxis nr years Iy) (sliceAxis nr days Id)).classes = t.classes ∧
    (joinAxes mk' (sliceAxis nr years Iy) (sliceAxis nr days Id)).auxarrays.map Prod.fst = "year".toList :: fieldsKept t .clim ∧
    (joinAxes mk' (sliceAxis nr years Iy) (sliceAxis nr days Id)).len = Iy.length * Id.length ∧
    ∀ a < Iy.length, ∀ b < Id.length,
      ((yearAt (joinAxes mk' (sliceAxis nr years Iy) (sliceAxis nr days Id)) (a * Id.length + b) : ℤ) : ℚ) = years.values.getD (Iy.getD a 0) 0 ∧
      dateAt (joinAxes mk' (sliceAxis nr years Iy) (sliceAxis nr days Id)) (fieldsKept t .clim) (a * Id.length + b) =
        dateAt days (fieldsKept t .clim) (Id.getD b 0) := by
  set fs := fieldsKept t .clim with hfs
  have hfnd : ("year".toList :: fs).Nodup := by
    refine List.nodup_cons.2 ⟨year_not_kept t, ?_⟩
    exact (kept_nodup .clim).sublist List.filter_sublist
  -- a time of each year, a time of each day
  have hcy : ∀ i, ∃ j, i < years.len → j < t.len ∧ years.values.getD i 0 = yearAt t j := by
    intro i
    by_cases h : i < years.len
    · obtain ⟨j, hj, e⟩ := (hys.same (years.values.getD i 0)).1 (by
        rw [List.getD_eq_getElem _ _ h]; exact List.getElem_mem _)
      exact ⟨j, fun _ => ⟨hj, e⟩⟩
    · exact ⟨0, fun h' => absurd h' h⟩
  have hcd : ∀ i, ∃ j, i < days.len → j < t.len ∧ dateAt days fs i = dateAt t fs j := by
    intro i
    by_cases h : i < days.len
    · obtain ⟨j, hj, e⟩ := ((good_binned g).same (dateAt days fs i)).1 (List.mem_map.2 ⟨i, by simpa using h, rfl⟩)
      exact ⟨j, fun _ => ⟨hj, e.symm⟩⟩
    · exact ⟨0, fun h' => absurd h' h⟩
  choose cy hcy using hcy
  choose cd hcd using hcd
  obtain ⟨h1, h2, h3⟩ := hr fs (Iy.map cy) (Id.map cd) hf (kept_sublist t .clim) (fun f hf => kept_mem hf) hy (year_not_kept t)
    (by simpa using hIy) (by simpa using hId)
    (by intro i hi; obtain ⟨j, hj, rfl⟩ := List.mem_map.1 hi; exact (hcy j (hby j hj)).1)
    (by intro i hi; obtain ⟨j, hj, rfl⟩ := List.mem_map.1 hi; exact (hcd j (hbd j hj)).1)
  have hds : ∀ b < Id.length, ∀ f ∈ fs, fieldAt (sliceAxis nr days Id) f b = fieldAt t f (cd (Id.getD b 0)) := by
    intro b hb
    have e := congrArg (fun l : List TimeC.Row => l.getD b []) (rows_slice g nr Id hbd)
    rw [rowsOf_getD _ _ (by rw [sliceAxis_len]; exact hb), List.getD_eq_getElem (Id.map _) _ (by simpa using hb), List.getElem_map] at e
    have hib : Id[b] < days.len := hbd _ (List.getElem_mem hb)
    rw [rowsOf_getD _ _ hib, (hcd _ hib).2, dateAt_eq, dateAt_eq] at e
    rw [List.getD_eq_getElem Id _ hb]
    exact List.map_inj_left.1 e
  have haux : joinFields (sliceAxis nr years Iy) (sliceAxis nr days Id) =
      ("year".toList, (Iy.map cy).flatMap fun i : ℕ => List.replicate (Id.map cd).length (yearAt t i : ℚ)) ::
      fs.map fun f => (f, (Iy.map cy).flatMap fun _ => (Id.map cd).map fun i : ℕ =>
        ((⌊((t.auxarrays.lookup f).getD []).getD i 0⌋ : ℤ) : ℚ)) := by
    unfold joinFields
    rw [sliceAxis_values, List.flatMap_map, List.flatMap_map, sliceAxis_len, List.length_map]
    congr 1
    · congr 1
      refine List.flatMap_congr fun i hi => ?_
      rw [(hcy i (hby i hi)).2]
    · have hk := sliceAxis_keys nr days Id
      rw [g.fields] at hk
      rw [← hk, List.map_map]
      refine List.map_congr_left fun p hp => ?_
      have hpf : p.1 ∈ fs := by rw [← hk]; exact List.mem_map_of_mem hp
      show (p.1, _) = (p.1, _)
      congr 1
      rw [List.flatMap_map, sliceAxis_len]
      have : ((List.range Id.length).map fun d => (fieldAt (sliceAxis nr days Id) p.1 d : ℚ)) =
          (Id.map cd).map fun i : ℕ => ((⌊((t.auxarrays.lookup p.1).getD []).getD i 0⌋ : ℤ) : ℚ) := by
        refine List.ext_getElem (by simp) fun b hb1 hb2 => ?_
        have hb : b < Id.length := by simpa using hb1
        simp only [List.getElem_map, List.getElem_range]
        rw [hds b hb _ hpf, List.getD_eq_getElem Id _ hb]
        rfl
      rw [this]
      simp only [List.flatMap_def, List.map_const', List.length_range]
  unfold joinAxes
  rw [haux]
  have hlen : (Iy.map cy).length = Iy.length := List.length_map ..
  refine ⟨h1, ?_, ?_, ?_⟩
  · rw [h2, List.map_cons, List.map_map]
    exact congrArg _ (List.map_id fs)
  · rw [h3, List.length_map, List.length_map]
  · intro a ha b hb
    have hia : Iy.getD a 0 < years.len := by rw [List.getD_eq_getElem Iy _ ha]; exact hby _ (List.getElem_mem ha)
    have hib : Id.getD b 0 < days.len := by rw [List.getD_eq_getElem Id _ hb]; exact hbd _ (List.getElem_mem hb)
    constructor
    · rw [show ∀ (j : Axis) (k : ℕ), yearAt j k = ⌊((j.auxarrays.lookup "year".toList).getD []).getD k 0⌋ from fun _ _ => rfl]
      rw [h2, List.lookup_cons]
      simp only [beq_self_eq_true, Option.getD_some]
      rw [List.length_map]
      rw [flatMap_getD Id.length _ 0 (Iy.map cy) a b 0 (by simp) hb (by simpa using ha)]
      rw [List.getD_replicate _ hb, Int.floor_intCast, (hcy _ hia).2]
      congr 2
      rw [List.getD_eq_getElem (Iy.map cy) _ (by simpa using ha), List.getElem_map, List.getD_eq_getElem Iy _ ha]
    · rw [(hcd _ hib).2, dateAt_eq, dateAt_eq]
      refine List.map_congr_left fun f hf => ?_
      unfold fieldAt
      rw [h2, List.lookup_cons]
      have hne : f ≠ "year".toList := fun e => year_not_kept t (by rw [← e]; exact hf)
      simp only [beq_false_of_ne hne]
      rw [lookup_fields (fun f => (Iy.map cy).flatMap fun _ => (Id.map cd).map fun i : ℕ =>
        ((⌊((t.auxarrays.lookup f).getD []).getD i 0⌋ : ℤ) : ℚ)) hf]
      simp only [Option.getD_some]
      rw [flatMap_getD Id.length _ 0 (Iy.map cy) a b 0 (by simp) hb (by simpa using ha)]
      rw [List.getD_eq_getElem (List.map _ (Id.map cd)) _ (by simpa using hb), List.getElem_map, List.getElem_map, Int.floor_intCast,
        List.getD_eq_getElem Id _ hb]

/-- which times of the input are put where -/
theorem pairs_spec (nr : List ℚ → ℚ) (hp : "SeasonalStandardTime".toList ∉ t.classes ∧ "SeasonalModelTime365".toList ∉ t.classes)
    (hy : "year".toList ∈ t.auxarrays.map Prod.fst) (hf : fieldsKept t .clim ≠ [])
    (hr : Rejoins t mk') (hys : IsYears t years) (g : GoodOut (fieldsKept t .clim) t days) (hIy : Iy ≠ []) (hId : Id ≠ [])
    (hby : ∀ i ∈ Iy, i < years.len) (hbd : ∀ i ∈ Id, i < days.len) (hiy : Iy.Pairwise (· < ·)) (hid : Id.Pairwise (· < ·)) :
    ∃ pairs, pairsOf t (joinAxes mk' (sliceAxis nr years Iy) (sliceAxis nr days Id)) = some pairs ∧
      (∀ a < Iy.length, ∀ b < Id.length, ∀ i, (i, a * Id.length + b) ∈ pairs ↔ i ∈ timesOn t years days (Iy.getD a 0) (Id.getD b 0)) ∧
      (∀ p ∈ pairs, p.1 < t.len) ∧ pairs.Pairwise fun p q => p.2 = q.2 → p.1 < q.1 := by
  obtain ⟨h1, h2, h3, h4⟩ := join_dates nr hy hf hr hys g hIy hId hby hbd
  set j := joinAxes mk' (sliceAxis nr years Iy) (sliceAxis nr days Id) with hj
  set fs := fieldsKept t .clim with hfs
  have hcf : commonFields t j = "year".toList :: fs := by
    unfold commonFields
    rw [allowed_plain hp]
    have hmem : ∀ f, (hasField t f && hasField j f) = decide (f = "year".toList ∨ f ∈ fs) := by
      intro f
      unfold hasField
      rw [h2]
      rw [Bool.eq_iff_iff]
      simp only [Bool.and_eq_true, decide_eq_true_eq, List.mem_cons]
      constructor
      · exact fun h => h.2
      · rintro (rfl | h)
        · exact ⟨hy, Or.inl rfl⟩
        · exact ⟨kept_mem h, Or.inr h⟩
    rw [List.filter_congr fun f _ => hmem f]
    rw [List.filter_cons_of_pos (by simp)]
    congr 1
    show (keptBy .clim).filter _ = _
    rw [hfs]
    conv_rhs => unfold fieldsKept
    refine List.filter_congr fun f hf' => ?_
    have hne : f ≠ "year".toList := by
      rintro rfl
      exact absurd hf' (by decide)
    rw [decide_eq_decide]
    constructor
    · rintro (rfl | h)
      · exact absurd rfl hne
      · exact kept_mem h
    · intro h
      exact Or.inr (List.mem_filter.2 ⟨hf', by simpa using h⟩)
  have hnd : 0 < Id.length := List.length_pos_iff.2 hId
  have hkey : ∀ a < Iy.length, ∀ b < Id.length, ∀ i, dateAt t ("year".toList :: fs) i = dateAt j ("year".toList :: fs) (a * Id.length + b) ↔
      (yearAt t i : ℚ) = years.values.getD (Iy.getD a 0) 0 ∧ dateAt t fs i = dateAt days fs (Id.getD b 0) := by
    intro a ha b hb i
    rw [dateAt_cons, dateAt_cons, List.cons.injEq, (h4 a ha b hb).2, ← (h4 a ha b hb).1]
    norm_cast
  have hdec : ∀ k < j.len, ∃ a < Iy.length, ∃ b < Id.length, k = a * Id.length + b := by
    intro k hk
    rw [h3] at hk
    refine ⟨k / Id.length, Nat.div_lt_of_lt_mul (by rw [Nat.mul_comm]; exact hk), k % Id.length, Nat.mod_lt _ hnd, ?_⟩
    rw [Nat.mul_comm]; exact (Nat.div_add_mod _ _).symm
  have hjl : ∀ a < Iy.length, ∀ b < Id.length, a * Id.length + b < j.len := by
    intro a ha b hb
    rw [h3]
    have : (a + 1) * Id.length ≤ Iy.length * Id.length := Nat.mul_le_mul_right _ ha
    rw [Nat.add_mul] at this
    omega
  have hnodup : (rowsOf j ("year".toList :: fs)).Nodup := by
    rw [rowsOf_eq]
    refine List.Nodup.map_on ?_ List.nodup_range
    intro k hk k' hk' e
    obtain ⟨a, ha, b, hb, rfl⟩ := hdec k (by simpa using hk)
    obtain ⟨a', ha', b', hb', rfl⟩ := hdec k' (by simpa using hk')
    rw [dateAt_cons, dateAt_cons, List.cons.injEq] at e
    have e1 : years.values.getD (Iy.getD a 0) 0 = years.values.getD (Iy.getD a' 0) 0 := by
      rw [← (h4 a ha b hb).1, ← (h4 a' ha' b' hb').1, e.1]
    have e2 : dateAt days fs (Id.getD b 0) = dateAt days fs (Id.getD b' 0) := by
      rw [← (h4 a ha b hb).2, ← (h4 a' ha' b' hb').2, e.2]
    have la : ∀ a < Iy.length, Iy.getD a 0 < years.len := fun a ha => by
      rw [List.getD_eq_getElem Iy _ ha]; exact hby _ (List.getElem_mem ha)
    have lb : ∀ b < Id.length, Id.getD b 0 < days.len := fun b hb => by
      rw [List.getD_eq_getElem Id _ hb]; exact hbd _ (List.getElem_mem hb)
    have n1 : Iy.getD a 0 = Iy.getD a' 0 := by
      rw [List.getD_eq_getElem years.values _ (la a ha), List.getD_eq_getElem years.values _ (la a' ha')] at e1
      exact (List.Nodup.getElem_inj_iff (hys.order.imp fun h => ne_of_lt h)).1 e1
    have n2 : Id.getD b 0 = Id.getD b' 0 := by
      have ho := (good_binned g).order
      have := (List.Nodup.getElem_inj_iff (ho.imp fun h => ne_of_lt h) (i := Id.getD b 0) (j := Id.getD b' 0)
        (hi := by simpa using lb b hb) (hj := by simpa using lb b' hb')).1 (by
          simp only [List.getElem_map, List.getElem_range]; exact e2)
      exact this
    have m1 : a = a' := by
      rw [List.getD_eq_getElem Iy _ ha, List.getD_eq_getElem Iy _ ha'] at n1
      exact (List.Nodup.getElem_inj_iff (hiy.imp fun h => ne_of_lt h)).1 n1
    have m2 : b = b' := by
      rw [List.getD_eq_getElem Id _ hb, List.getD_eq_getElem Id _ hb'] at n2
      exact (List.Nodup.getElem_inj_iff (hid.imp fun h => ne_of_lt h)).1 n2
    rw [m1, m2]
  have hw := rowsOf_width t ("year".toList :: fs)
  have hw' := rowsOf_width j ("year".toList :: fs)
  refine ⟨TimeC.commonMap (rowsOf t ("year".toList :: fs)) (rowsOf j ("year".toList :: fs)), ?_, ?_, ?_, commonMap_tie _ _ hw hw' hnodup⟩
  · unfold pairsOf
    rw [hcf, if_neg (by simp)]
  · intro a ha b hb i
    constructor
    · intro h
      obtain ⟨r, r1, r2⟩ := TimeC.time_common_map_sound _ _ hw hw' i _ h
      obtain ⟨q1, q2⟩ := List.getElem?_eq_some_iff.1 r1
      obtain ⟨q3, q4⟩ := List.getElem?_eq_some_iff.1 r2
      have hi : i < t.len := by simpa [rowsOf_length] using q1
      simp only [rowsOf_eq, List.getElem_map, List.getElem_range] at q2 q4
      exact List.mem_filter.2 ⟨by simpa using hi, by
        rw [decide_eq_true_eq]; exact (hkey a ha b hb i).1 (q2.trans q4.symm)⟩
    · intro h
      obtain ⟨hi, hd⟩ := List.mem_filter.1 h
      have hi : i < t.len := by simpa using hi
      rw [decide_eq_true_eq] at hd
      have e := (hkey a ha b hb i).2 hd
      refine TimeC.time_common_map_complete _ _ hw hw' (Or.inr hnodup) i _ (dateAt t ("year".toList :: fs) i) ?_ ?_
      · rw [rowsOf_eq, List.getElem?_map, List.getElem?_range hi]; rfl
      · rw [rowsOf_eq, List.getElem?_map, List.getElem?_range (hjl a ha b hb)]; exact congrArg some e.symm
  · intro p hp
    obtain ⟨r, r1, _⟩ := TimeC.time_common_map_sound _ _ hw hw' p.1 p.2 hp
    simpa [rowsOf_length] using (List.getElem?_eq_some_iff.1 r1).1

/-- the last pair for a date gives the last time of that date -/
theorem last_pair {pairs : List (ℕ × ℕ)} {j n : ℕ} {q : ℕ → Bool} (h : ∀ i, (i, j) ∈ pairs ↔ i ∈ (List.range n).filter q)
    (ho : pairs.Pairwise fun p q => p.2 = q.2 → p.1 < q.1) :
    ((List.range n).filter q).getLast? =
      (lastWith (fun p => decide ((pairs.getD p (0, 0)).2 = j)) pairs.length).map fun p => (pairs.getD p (0, 0)).1 := by
  have hs := lastWith_spec (fun p => decide ((pairs.getD p (0, 0)).2 = j)) pairs.length
  rw [getLast_filter]
  have hq := lastWith_spec q n
  cases e : lastWith (fun p => decide ((pairs.getD p (0, 0)).2 = j)) pairs.length with
  | none =>
    rw [e] at hs
    cases e' : lastWith q n with
    | none => rfl
    | some i =>
      rw [e'] at hq
      have hm := (h i).2 (List.mem_filter.2 ⟨by simpa using hq.1, hq.2.1⟩)
      obtain ⟨p, hp, hpe⟩ := List.getElem_of_mem hm
      have := hs p hp
      rw [List.getD_eq_getElem pairs _ hp, hpe] at this
      simp at this
  | some p =>
    rw [e] at hs
    obtain ⟨s1, s2, s3⟩ := hs
    have s2 : (pairs.getD p (0, 0)).2 = j := by simpa using s2
    have hm := (h (pairs.getD p (0, 0)).1).1 (by
      rw [← s2, List.getD_eq_getElem pairs _ s1]; exact List.getElem_mem _)
    obtain ⟨m1, m2⟩ := List.mem_filter.1 hm
    cases e' : lastWith q n with
    | none =>
      rw [e'] at hq
      have := hq _ (List.mem_range.1 m1)
      rw [this] at m2
      simp at m2
    | some i =>
      rw [e'] at hq
      show some i = some (pairs.getD p (0, 0)).1
      congr 1
      have hle := hq.2.2 _ (by simpa using m1) m2
      have hmi := (h i).2 (List.mem_filter.2 ⟨by simpa using hq.1, hq.2.1⟩)
      obtain ⟨p', hp', hpe'⟩ := List.getElem_of_mem hmi
      have hpp : p' ≤ p := s3 p' hp' (by rw [List.getD_eq_getElem pairs _ hp', hpe']; simp)
      rcases hpp.lt_or_eq with hlt | rfl
      · have := List.pairwise_iff_getElem.1 ho p' p hp' s1 hlt (by
          rw [hpe']; rw [List.getD_eq_getElem pairs _ s1] at s2; exact s2.symm)
        rw [hpe'] at this
        rw [List.getD_eq_getElem pairs _ s1] at hle ⊢
        simp only at this
        omega
      · rw [List.getD_eq_getElem pairs _ s1, hpe']

end

/-! ### the variable -/

theorem cell_erase : ∀ (I : List (List ℕ)) (k : List ℕ) (n : ℕ), cell (I.eraseIdx n) (k.eraseIdx n) = (cell I k).eraseIdx n
  | [], k, n => by simp [cell]
  | _ :: _, [], n => by simp [cell]
  | _ :: _, _ :: _, 0 => rfl
  | i :: I, j :: k, n + 1 => by
    have := cell_erase I k n
    unfold cell at this ⊢
    simp only [List.eraseIdx_cons_succ, List.zipWith_cons_cons]
    rw [this]

theorem forall₂_erase {β γ : Type} {R : β → γ → Prop} : ∀ {l : List β} {m : List γ}, List.Forall₂ R l m → ∀ n,
    List.Forall₂ R (l.eraseIdx n) (m.eraseIdx n)
  | _, _, .nil, n => by simp
  | _, _, .cons h hs, 0 => by simpa using hs
  | _, _, .cons h hs, n + 1 => by
    simp only [List.eraseIdx_cons_succ]
    exact .cons h (forall₂_erase hs n)

theorem inBounds_erase {s k : List ℕ} (h : InBounds s k) (n : ℕ) : InBounds (s.eraseIdx n) (k.eraseIdx n) := forall₂_erase h n

/-- the axes of the result -/
def splitAxes (A : List Axis) (ti : ℕ) (years days : Axis) : List Axis := A.take ti ++ [years, days] ++ A.drop (ti + 1)

section
variable {A : List Axis} {ti : ℕ} {years days t : Axis}

theorem splitAxes_year (h : ti < A.length) : (splitAxes A ti years days)[ti]? = some years := by
  unfold splitAxes
  rw [List.append_assoc, List.getElem?_append_right (by simp), List.length_take, min_eq_left h.le]
  simp

theorem splitAxes_day (h : ti < A.length) : (splitAxes A ti years days)[ti + 1]? = some days := by
  unfold splitAxes
  rw [List.append_assoc, List.getElem?_append_right (by simp), List.length_take, min_eq_left h.le]
  simp

theorem splitAxes_length (h : ti < A.length) : (splitAxes A ti years days).length = A.length + 1 := by
  unfold splitAxes
  simp; omega

theorem splitAxes_erase (h : ti < A.length) : (splitAxes A ti years days).eraseIdx (ti + 1) = A.set ti years := by
  unfold splitAxes
  rw [List.append_assoc, List.eraseIdx_append_of_length_le (by simp), List.length_take, min_eq_left h.le]
  have : ti + 1 - ti = 1 := by omega
  rw [this, List.set_eq_take_append_cons_drop, if_pos h]
  rfl

theorem splitAxes_back (h : A[ti]? = some t) : ((splitAxes A ti years days).eraseIdx (ti + 1)).set ti t = A := by
  obtain ⟨hl, rfl⟩ := List.getElem?_eq_some_iff.1 h
  rw [splitAxes_erase hl, List.set_set, List.set_getElem_self]
end

theorem read_some (nr : List ℚ → ℚ) (junk : List ℕ → α) (x : Var α) (hR : Regular x.axes) (I : List (List ℕ))
    (hl : I.length = x.axes.length) : ∃ r, x.read nr junk ⟨x.axes, I⟩ = some r := by
  obtain ⟨m, hm, _⟩ := Loop.mapTo_own nr x.axes hR I hl true
  unfold Var.read View.get
  rw [hm]
  exact ⟨_, rfl⟩

theorem split_view {nr : List ℚ → ℚ} (nan : α) (junk : List ℕ → α) {mk' : List (Name × List ℚ) → Axis} {x : Var α} {ti : ℕ}
    {t years days : Axis} {data : List ℕ → α} (hx : TimeInput x ti t) (hc : Contains x data)
    (hy : "year".toList ∈ t.auxarrays.map Prod.fst) (hf : fieldsKept t .clim ≠ []) (hr : Rejoins t mk') (hys : IsYears t years)
    (g : GoodOut (fieldsKept t .clim) t days) {I : List (List ℕ)}
    (hI : InRange ((splitAxes x.axes ti years days).map Axis.len) I) (ht : ∀ ind ∈ I, ind ≠ [] ∧ ind.Pairwise (· < ·)) :
    ∃ r, splitView nr nan junk mk' x ti t ⟨splitAxes x.axes ti years days, I⟩ = some r ∧
      IsRead (byYears nan t years days ti data) I r := by
  have htl : ti < x.axes.length := (List.getElem?_eq_some_iff.1 hx.time).1
  have hlen : I.length = x.axes.length + 1 := by
    have := hI.length_eq
    rw [List.length_map, splitAxes_length htl] at this
    exact this
  have hbound : ∀ n (a : Axis), (splitAxes x.axes ti years days)[n]? = some a → ∀ i ∈ I.getD n [], i < a.len := by
    intro n a ha i hi
    obtain ⟨h1, h2⟩ := List.getElem?_eq_some_iff.1 ha
    have hn : n < I.length := by rw [hlen, ← splitAxes_length (years := years) (days := days) htl]; exact h1
    have := (List.forall₂_iff_get.1 hI).2 n hn (by simpa using h1) i (by rw [List.getD_eq_getElem _ _ hn] at hi; exact hi)
    simpa [h2] using this
  have hmem : ∀ n, n < I.length → I.getD n [] ∈ I := fun n hn => by
    rw [List.getD_eq_getElem _ _ hn]; exact List.getElem_mem _
  have hm0 := ht _ (hmem ti (by omega))
  have hm1 := ht _ (hmem (ti + 1) (by omega))
  obtain ⟨pairs, p1, p2, p3, p4⟩ := pairs_spec nr hx.plain hy hf hr hys g hm0.1 hm1.1 (hbound ti years (splitAxes_year htl))
    (hbound (ti + 1) days (splitAxes_day htl)) hm0.2 hm1.2
  set J := (I.eraseIdx (ti + 1)).set ti (pairs.map Prod.fst) with hJ
  have hJl : J.length = x.axes.length := by
    rw [hJ, List.length_set, List.length_eraseIdx_of_lt (by omega)]; omega
  have hJr : InRange (x.axes.map Axis.len) J := by
    have h0 : InRange (((splitAxes x.axes ti years days).eraseIdx (ti + 1)).map Axis.len) (I.eraseIdx (ti + 1)) := by
      rw [← List.eraseIdx_map]
      exact forall₂_erase hI (ti + 1)
    rw [splitAxes_erase htl] at h0
    unfold InRange at h0 ⊢
    rw [List.forall₂_iff_get] at h0 ⊢
    refine ⟨by simp [hJl], fun n hn hn' => ?_⟩
    simp only [List.get_eq_getElem, List.getElem_map, hJ]
    by_cases e : n = ti
    · subst e
      rw [List.getElem_set_self]
      intro i hi
      obtain ⟨p, hp, rfl⟩ := List.mem_map.1 hi
      have := p3 p hp
      obtain ⟨_, h2⟩ := List.getElem?_eq_some_iff.1 hx.time
      rw [h2]; exact this
    · rw [List.getElem_set_ne (Ne.symm e)]
      have := h0.2 n (by simpa [hJ] using hn) (by simpa using hn')
      simpa [List.getElem_set_ne (Ne.symm e)] using this
  obtain ⟨r, hrd, hrv⟩ : ∃ r, x.read nr junk ⟨x.axes, J⟩ = some r ∧ (pairs ≠ [] → IsRead data J r) := by
    by_cases h0 : pairs = []
    · obtain ⟨r, hr⟩ := read_some nr junk x hx.reg J hJl
      exact ⟨r, hr, fun h => absurd h0 h⟩
    · obtain ⟨r, h1, h2⟩ := read_own nr junk x data hc hx.reg J hJr (by
        intro ind hind
        obtain ⟨n, hn, rfl⟩ := List.getElem_of_mem hind
        rw [hJl] at hn
        simp only [hJ]
        rw [List.getElem_set]
        split_ifs with e
        · simpa using h0
        · exact (ht _ (List.mem_of_mem_eraseIdx (List.getElem_mem _))).1)
      exact ⟨r, h1, fun _ => h2⟩
  have hview : splitView nr nan junk mk' x ti t ⟨splitAxes x.axes ti years days, I⟩ = some
      { shape := I.map List.length
        get := fun k =>
          match lastWith (fun p => decide ((pairs.getD p (0, 0)).2 = k.getD ti 0 * (I.getD (ti + 1) []).length + k.getD (ti + 1) 0))
            pairs.length with
          | some p => r.get ((k.eraseIdx (ti + 1)).set ti p)
          | none => nan } := by
    unfold splitView
    simp only
    rw [splitAxes_year htl, Option.bind_some, splitAxes_day htl, Option.bind_some, p1, Option.bind_some, splitAxes_back hx.time,
      ← hJ, hrd, Option.map_some, sliceAxis_len]
    rfl
  refine ⟨_, hview, rfl, fun k hk => ?_⟩
  have hkl : k.length = I.length := by simpa using hk.length_eq
  have hkb : ∀ n, n < I.length → k.getD n 0 < (I.getD n []).length := by
    intro n hn
    have := (inBounds_iff.1 hk).2 n (by simpa using hn)
    rw [List.getD_eq_getElem (I.map _) _ (by simpa using hn), List.getElem_map] at this
    rw [List.getD_eq_getElem I _ hn]; exact this
  have hcell : ∀ n, n < I.length → (cell I k).getD n 0 = (I.getD n []).getD (k.getD n 0) 0 := by
    intro n hn
    unfold cell
    rw [List.getD_eq_getElem (List.zipWith _ _ _) _ (by simp; omega), List.getElem_zipWith, List.getD_eq_getElem I _ hn,
      List.getD_eq_getElem k _ (by omega)]
  have hlast := last_pair (j := k.getD ti 0 * (I.getD (ti + 1) []).length + k.getD (ti + 1) 0)
    (fun i => p2 (k.getD ti 0) (hkb ti (by omega)) (k.getD (ti + 1) 0) (hkb (ti + 1) (by omega)) i) p4
  unfold byYears
  rw [hcell ti (by omega), hcell (ti + 1) (by omega)]
  unfold timesOn
  rw [hlast]
  have hs := lastWith_spec (fun p => decide ((pairs.getD p (0, 0)).2 = k.getD ti 0 * (I.getD (ti + 1) []).length + k.getD (ti + 1) 0))
    pairs.length
  cases e : lastWith (fun p => decide ((pairs.getD p (0, 0)).2 = k.getD ti 0 * (I.getD (ti + 1) []).length + k.getD (ti + 1) 0))
      pairs.length with
  | none => simp only [e]; rfl
  | some p =>
    rw [e] at hs
    simp only [e, Option.map_some]
    have hne : pairs ≠ [] := fun h => by rw [h] at hs; simp at hs
    have hin : InBounds (J.map List.length) ((k.eraseIdx (ti + 1)).set ti p) := by
      rw [hJ, List.map_set, List.length_map]
      refine Along.inBounds_set ?_ ti _ _ hs.1
      rw [← List.eraseIdx_map]
      exact inBounds_erase hk _
    rw [(hrv hne).2 _ hin, hJ, Along.set_cell _ _ _ _ _ (by rw [List.length_eraseIdx_of_lt (by omega)]; omega)
      (by rw [List.length_eraseIdx_of_lt (by omega), List.length_eraseIdx_of_lt (by omega), hkl]), cell_erase]
    have hp := hs.1
    congr 2
    clear hs
    rw [List.getD_eq_getElem (pairs.map _) _ (by simpa using hp), List.getElem_map, List.getD_eq_getElem pairs _ hp]

/-- C112: `splittimeaxis(x)` puts the years and the rest of the dates in the place of the time axis: the years that occur, increasing,
and the dates without their years, in chronological order, each once. The cell of a year and a day holds the value at the time of that
date (the last one if there are several), NaN if there is none. -/
theorem split_correct (nr : List ℚ → ℚ) (nan : α) (junk : List ℕ → α) (mk mk' : List (Name × List ℚ) → Axis) (id : AxisId) (x : Var α)
    (data : List ℕ → α) (ti : ℕ) (t : Axis) (hid : foundAt (whichaxis x.axes id) = some ti) (hx : TimeInput x ti t) (hc : Contains x data)
    (hy : "year".toList ∈ t.auxarrays.map Prod.fst) (hf : fieldsKept t .clim ≠ []) (hm : Remakes t mk) (hr : Rejoins t mk')
    (hno : ∀ a ∈ x.axes, "NamedAxis year".toList ∉ a.classes) :
    ∃ years days y, split nr nan junk mk mk' id x = some y ∧ y.axes = x.axes.take ti ++ [years, days] ++ x.axes.drop (ti + 1) ∧
      IsYears t years ∧ days.name = "day".toList ∧ IsBinned (fieldsKept t .clim) t days ∧
      Shows nr y (byYears nan t years days ti data) := by
  obtain ⟨years, days, h1, h2, h3, h4⟩ := splitAxis_spec nr hx.pos hx.plain hy hf hm
  have hcy : years.classes = (NetCdf.named nr "year".toList false []).classes := by
    unfold splitAxis at h1
    rw [if_pos (by unfold hasField; simpa using hy)] at h1
    obtain ⟨d, _, e⟩ := Option.map_eq_some_iff.1 h1
    have e' := congrArg Prod.fst e
    simp only at e'
    rw [← e']
    rfl
  have hinc : ∀ a ∈ x.axes, Axis.compatible a years = false := by
    intro a ha
    have := hno a ha
    unfold Axis.compatible Axis.isParentOf
    rw [hcy]
    rw [Bool.or_eq_false_iff]
    refine ⟨decide_eq_false ?_, decide_eq_false ?_⟩
    · intro h
      have h' : a.classes.headD [] ∈ (["NamedAxis year".toList] : List Name) := h
      rw [List.mem_singleton] at h'
      obtain ⟨c, cs, hcs⟩ := List.exists_cons_of_ne_nil (hx.reg.cls a ha)
      rw [hcs] at h'
      refine this ?_
      rw [hcs, ← h']
      exact List.mem_cons_self
    · exact this
  refine ⟨years, days, Var.ofView junk (splitAxes x.axes ti years days) (splitView nr nan junk mk' x ti t), ?_, rfl, h2, h3, good_binned h4,
    Spec.Views.shows ⟨junk, splitView nr nan junk mk' x ti t, rfl, ?_⟩ ?_⟩
  · unfold split
    rw [hid, Option.bind_some, hx.time, Option.bind_some, if_pos hx.cal, h1]
    rfl
  · intro I hI ht
    exact split_view nan junk hx hc hy hf hr h2 h4 hI ht
  · show Regular (splitAxes x.axes ti years days)
    obtain ⟨htl, hte⟩ := List.getElem?_eq_some_iff.1 hx.time
    have hcd : days.classes = t.classes := h4.cls
    have hset : Regular (x.axes.set ti days) := by
      refine Along.regular_of_classes ?_ hx.reg
      exact Along.classes_set _ _ t _ hx.time hcd
    have hperm : (splitAxes x.axes ti years days).Perm (years :: x.axes.set ti days) := by
      rw [List.set_eq_take_append_cons_drop, if_pos htl]
      unfold splitAxes
      rw [List.append_assoc]
      exact List.perm_middle
    refine Regular.perm ?_ hperm
    refine ⟨?_, ?_⟩
    · intro a ha
      rcases List.mem_cons.1 ha with rfl | ha
      · rw [hcy]; exact List.cons_ne_nil _ _
      · exact hset.cls a ha
    · refine List.pairwise_cons.2 ⟨fun a ha => ?_, hset.inc⟩
      rw [Loop.compatible_symm]
      rcases List.mem_or_eq_of_mem_set ha with h | rfl
      · exact hinc a h
      · rw [Loop.compatible_congr hcd rfl]
        exact hinc t (List.mem_of_getElem? hx.time)

/-! ### time axes out of date fields -/

theorem fieldOf_dict {f : Name} (hf : f ∈ sixFields) (g : Name → Option ℤ) : fieldOf f (dictOf g) = g f := by
  unfold sixFields at hf
  simp only [List.mem_cons, List.not_mem_nil, or_false] at hf
  rcases hf with rfl | rfl | rfl | rfl | rfl | rfl <;> rfl

/-- Fields whose columns are whole numbers, of the same length, with months from 1 to 12. -/
structure GoodFields (aux : List (Name × List ℚ)) (N : ℕ) : Prop where
  ne : aux ≠ []
  usual : (aux.map Prod.fst).Sublist sixFields
  pos : 0 < N
  len : ∀ p ∈ aux, p.2.length = N
  whole : ∀ p ∈ aux, ∀ v ∈ p.2, ((⌊v⌋ : ℤ) : ℚ) = v
  month : ∀ p ∈ aux, p.1 = "month".toList → ∀ v ∈ p.2, 1 ≤ ⌊v⌋ ∧ ⌊v⌋ ≤ 12

/-- the dates given by fields -/
def fieldDates (aux : List (Name × List ℚ)) (N : ℕ) : List Calendar.DateDict :=
  (List.range N).map fun i : ℕ => dictOf fun f => (aux.lookup f).map fun col => ⌊col.getD i 0⌋

section
variable {aux : List (Name × List ℚ)} {N : ℕ} (h : GoodFields aux N)
include h

theorem GoodFields.head : (aux.map fun p => p.2.length).headD 0 = N := by
  obtain ⟨p, l, e⟩ := List.exists_cons_of_ne_nil h.ne
  rw [e]
  exact h.len p (by rw [e]; simp)

theorem GoodFields.look {p : Name × List ℚ} (hp : p ∈ aux) : aux.lookup p.1 = some p.2 := by
  have hnd : (aux.map Prod.fst).Nodup := h.usual.nodup six_nodup
  clear h
  induction aux with
  | nil => simp at hp
  | cons q l ih =>
    rw [List.lookup_cons]
    rw [List.map_cons, List.nodup_cons] at hnd
    rcases List.mem_cons.1 hp with rfl | hp
    · simp
    · have : p.1 ≠ q.1 := fun e => hnd.1 (e ▸ List.mem_map_of_mem hp)
      rw [beq_false_of_ne this]
      exact ih hp hnd.2

theorem GoodFields.isMonth : ∀ d ∈ fieldDates aux N, 1 ≤ (Calendar.getDates d).month ∧ (Calendar.getDates d).month ≤ 12 := by
  intro d hd
  obtain ⟨i, hi, rfl⟩ := List.mem_map.1 hd
  have hi : i < N := by simpa using hi
  show 1 ≤ ((aux.lookup "month".toList).map fun col => ⌊col.getD i 0⌋).getD 1 ∧ ((aux.lookup "month".toList).map fun col => ⌊col.getD i 0⌋).getD 1 ≤ 12
  cases e : aux.lookup "month".toList with
  | none => exact ⟨le_refl 1, by show (1 : ℤ) ≤ 12; decide⟩
  | some col =>
    have hm := FromFiles.mem_of_lookup e
    have hl : i < col.length := by have := h.len _ hm; simpa [this] using hi
    have := h.month _ hm rfl (col.getD i 0) (by rw [List.getD_eq_getElem _ _ hl]; exact List.getElem_mem _)
    exact this

theorem fromFields_eq (nr : List ℚ → ℚ) (c : Calendar.Cal) (u : Calendar.Units) :
    fromFields nr c u aux = CfFile.timeAxis nr "time".toList ⟨c, u, (fieldDates aux N).headD {}, fieldDates aux N⟩ := by
  unfold fromFields
  simp only
  rw [h.head]
  rfl

theorem fromFields_aux (nr : List ℚ → ℚ) (c : Calendar.Cal) (u : Calendar.Units) : (fromFields nr c u aux).auxarrays = aux := by
  rw [fromFields_eq h, timeAxis_aux]
  have hcol : ∀ f ∈ sixFields, ((fieldDates aux N).mapM (fieldOf f)).map (fun col => (f, col.map fun z : ℤ => (z : ℚ))) =
      (aux.lookup f).map fun col => (f, col) := by
    intro f hf
    cases e : aux.lookup f with
    | none =>
      rw [mapM_option, if_neg]
      · rfl
      · intro hall
        have := List.all_eq_true.1 hall _ (List.mem_map.2 ⟨0, by simpa using h.pos, rfl⟩)
        rw [fieldOf_dict hf, e] at this
        simp at this
    | some col =>
      have hm := FromFiles.mem_of_lookup e
      have hl : col.length = N := h.len _ hm
      rw [show (fieldDates aux N).mapM (fieldOf f) = some (col.map fun v => ⌊v⌋) from mapM_forall₂ _ (by
        rw [List.forall₂_iff_get]
        refine ⟨by simp [fieldDates, hl], fun i h1 h2 => ?_⟩
        have hi : i < col.length := by simpa using h2
        simp only [List.get_eq_getElem, fieldDates, List.getElem_map, List.getElem_range]
        rw [fieldOf_dict hf, e, Option.map_some, List.getD_eq_getElem col _ hi])]
      rw [Option.map_some, Option.map_some, List.map_map]
      congr 2
      conv_rhs => rw [← List.map_id col]
      exact List.map_congr_left fun v hv => h.whole _ hm v hv
  rw [List.filterMap_congr hcol]
  have hsub := h.usual
  have hlook := fun p hp => h.look (p := p) hp
  have hkeys : ∀ f, f ∉ aux.map Prod.fst → aux.lookup f = none := by
    intro f hf
    rw [List.lookup_eq_none_iff]
    intro p hp
    simp only [bne_iff_ne, ne_eq]
    exact fun e => hf (e ▸ List.mem_map_of_mem hp)
  have e1 : sixFields.filterMap (fun f => (aux.lookup f).map fun col => (f, col)) =
      (sixFields.filter fun f => decide (f ∈ aux.map Prod.fst)).filterMap (fun f => (aux.lookup f).map fun col => (f, col)) := by
    rw [List.filterMap_filter]
    refine List.filterMap_congr fun f _ => ?_
    by_cases hm : f ∈ aux.map Prod.fst
    · rw [if_pos (decide_eq_true hm)]
    · rw [if_neg (by simpa using hm), hkeys f hm]; rfl
  rw [e1, ← sublist_filter hsub, List.filterMap_map]
  conv_rhs => rw [← List.map_id aux]
  rw [← List.filterMap_eq_map]
  refine List.filterMap_congr fun p hp => ?_
  show (aux.lookup p.1).map (fun col => (p.1, col)) = some p
  rw [hlook p hp]
  rfl

theorem start_month : 1 ≤ (Calendar.getDates ((fieldDates aux N).headD {})).month ∧ (Calendar.getDates ((fieldDates aux N).headD {})).month ≤ 12 := by
  have hne : fieldDates aux N ≠ [] := by
    unfold fieldDates
    have := h.pos
    simp only [ne_eq, List.map_eq_nil_iff, List.range_eq_nil]
    omega
  obtain ⟨d, l, e⟩ := List.exists_cons_of_ne_nil hne
  rw [e]
  exact h.isMonth d (by rw [e]; simp)

theorem fromFields_values (nr : List ℚ → ℚ) (c : Calendar.Cal) (u : Calendar.Units) : (fromFields nr c u aux).values =
    (fieldDates aux N).map fun d => (((Calendar.count c).abs (Calendar.getDates d) -
      (Calendar.count c).abs (Calendar.getDates ((fieldDates aux N).headD {})) : ℤ) : ℚ) / Calendar.unitfactor u := by
  rw [fromFields_eq h]
  unfold CfFile.timeAxis
  simp only
  rw [show ((fieldDates aux N).mapM fun d => Calendar.dateAsValPy c ((fieldDates aux N).headD {}) d u) = some ((fieldDates aux N).map fun d =>
      (((Calendar.count c).abs (Calendar.getDates d) -
      (Calendar.count c).abs (Calendar.getDates ((fieldDates aux N).headD {})) : ℤ) : ℚ) / Calendar.unitfactor u) from
    mapM_forall₂ _ (by
      rw [List.forall₂_map_right_iff, List.forall₂_same]
      intro d hd
      unfold Calendar.dateAsValPy
      rw [Calendar.dateAsVal_eq c (start_month h) (h.isMonth d hd)]
      rfl)]
  rfl

theorem fromFields_len (nr : List ℚ → ℚ) (c : Calendar.Cal) (u : Calendar.Units) : (fromFields nr c u aux).len = N := by
  unfold Axis.len
  rw [fromFields_values h]
  simp [fieldDates]

end

theorem length_flatMap_const {β γ : Type} (n : ℕ) (f : β → List γ) : ∀ l : List β, (∀ x ∈ l, (f x).length = n) → (l.flatMap f).length = l.length * n
  | [], _ => by simp
  | x :: l, h => by
    rw [List.flatMap_cons, List.length_append, h x (by simp), length_flatMap_const n f l fun y hy => h y (by simp [hy]), List.length_cons,
      Nat.add_mul]
    omega

/-- C112: the calendar time axes of pygeode, whose dates are valid, can be joined again. The combinations need not be valid dates (the
29th of February). -/
theorem fromFields_rejoins (nr : List ℚ → ℚ) (n : Name) (T : Cf.TimeAx)
    (hs : 1 ≤ (Calendar.getDates T.start).month ∧ (Calendar.getDates T.start).month ≤ 12)
    (hv : ∀ d ∈ T.dates, ValidDate T.cal (Calendar.getDates d)) : Rejoins (CfFile.timeAxis nr n T) (fromFields nr T.cal T.units) := by
  intro fs ys ds hne hsub hmem hyr hyf hys hds hly hld aux
  set t := CfFile.timeAxis nr n T with ht
  have htl : t.len = T.dates.length := by unfold Axis.len; rw [ht, timeAxis_values hs hv, List.length_map]
  have hg : GoodFields aux (ys.length * ds.length) := by
    refine ⟨List.cons_ne_nil _ _, ?_, ?_, ?_, ?_, ?_⟩
    · have : aux.map Prod.fst = "year".toList :: fs := by
        show "year".toList :: (fs.map _).map Prod.fst = _
        rw [List.map_map]
        exact congrArg _ (List.map_id fs)
      rw [this]
      refine List.Sublist.cons_cons _ ?_
      rcases List.sublist_cons_iff.1 hsub with h | ⟨r, rfl, _⟩
      · exact h
      · exact absurd (List.mem_cons_self) hyf
    · exact Nat.mul_pos (List.length_pos_iff.2 hys) (List.length_pos_iff.2 hds)
    · intro p hp
      rcases List.mem_cons.1 hp with rfl | hp
      · exact length_flatMap_const _ _ _ (by simp)
      · obtain ⟨f, _, rfl⟩ := List.mem_map.1 hp
        exact length_flatMap_const _ _ _ (by simp)
    · intro p hp v hv'
      rcases List.mem_cons.1 hp with rfl | hp
      · obtain ⟨i, _, h2⟩ := List.mem_flatMap.1 hv'
        rw [(List.mem_replicate.1 h2).2, Int.floor_intCast]
      · obtain ⟨f, _, rfl⟩ := List.mem_map.1 hp
        obtain ⟨i, _, h2⟩ := List.mem_flatMap.1 hv'
        obtain ⟨j, _, rfl⟩ := List.mem_map.1 h2
        rw [Int.floor_intCast]
    · intro p hp hpm v hv'
      rcases List.mem_cons.1 hp with rfl | hp
      · exact absurd (show "year".toList = "month".toList from hpm) (by decide)
      · obtain ⟨f, hf, rfl⟩ := List.mem_map.1 hp
        simp only at hpm
        subst hpm
        obtain ⟨i, _, h2⟩ := List.mem_flatMap.1 hv'
        obtain ⟨j, hj, rfl⟩ := List.mem_map.1 h2
        rw [Int.floor_intCast]
        have hjl : j < T.dates.length := by rw [← htl]; exact hld j hj
        have h1 := timeAxis_field (hmem _ hf) hjl
        have h2 := (hv _ (List.getElem_mem hjl)).month
        have h3 : (Calendar.getDates T.dates[j]).month = fieldAt t "month".toList j := by
          show T.dates[j].month.getD 1 = _
          have : T.dates[j].month = some (fieldAt t "month".toList j) := h1
          rw [this]
          rfl
        rw [h3] at h2
        exact h2
  exact ⟨by rw [fromFields_eq hg]; rfl, fromFields_aux hg nr _ _, fromFields_len hg nr _ _⟩

/-- C112: nothing is lost: when no date occurs twice, every value of the input is found in the cell of its year and day. -/
theorem split_keeps (nan : α) (t years days : Axis) (ti : ℕ) (data : List ℕ → α) (hys : IsYears t years)
    (hd : IsBinned (fieldsKept t .clim) t days)
    (hdist : ∀ i < t.len, ∀ j < t.len, yearAt t i = yearAt t j → dateAt t (fieldsKept t .clim) i = dateAt t (fieldsKept t .clim) j → i = j)
    (i : ℕ) (hi : i < t.len) :
    ∃ y < years.len, ∃ d < days.len, ∀ K : List ℕ, K.getD ti 0 = y → K.getD (ti + 1) 0 = d →
      byYears nan t years days ti data K = data ((K.eraseIdx (ti + 1)).set ti i) := by
  obtain ⟨y, hy, hye⟩ := List.getElem_of_mem ((hys.same (yearAt t i)).2 ⟨i, hi, rfl⟩)
  obtain ⟨d, hdl, hde⟩ := List.mem_map.1 ((hd.same (dateAt t (fieldsKept t .clim) i)).2 ⟨i, hi, rfl⟩)
  refine ⟨y, hy, d, by simpa using hdl, fun K h1 h2 => ?_⟩
  unfold byYears
  rw [h1, h2]
  have : timesOn t years days y d = [i] := by
    unfold timesOn
    have he : ∀ j < t.len, decide ((yearAt t j : ℚ) = years.values.getD y 0 ∧ dateAt t (fieldsKept t .clim) j = dateAt days (fieldsKept t .clim) d) =
        decide (j = i) := by
      intro j hj
      rw [decide_eq_decide, List.getD_eq_getElem _ _ hy, hye, hde]
      constructor
      · rintro ⟨h, h'⟩
        exact hdist j hj i hi (by exact_mod_cast h) h'
      · rintro rfl
        exact ⟨rfl, rfl⟩
    rw [List.filter_congr fun j hj => he j (by simpa using hj)]
    have hnd : ((List.range t.len).filter fun j => decide (j = i)).Nodup := List.nodup_range.filter _
    have hm : ∀ j, j ∈ ((List.range t.len).filter fun j => decide (j = i)) ↔ j ∈ [i] := by
      intro j
      simp only [List.mem_filter, List.mem_range, decide_eq_true_eq, List.mem_singleton]
      exact ⟨fun h => h.2, fun h => ⟨h ▸ hi, h⟩⟩
    have hp : ((List.range t.len).filter fun j => decide (j = i)).Perm [i] :=
      (List.perm_ext_iff_of_nodup hnd (List.nodup_singleton _)).2 hm
    exact List.perm_singleton.1 hp
  rw [this]
  rfl

/-! ### a concrete case -/

example : ∃ years days y, split nr0 (-1) (fun _ => 0) (remake nr0 datesEx) (fromFields nr0 datesEx.cal datesEx.units) (.name "time".toList) climEx = some y ∧
    y.axes = [years, days, mkEx [10, 20]] ∧ IsYears timesEx years ∧
    Shows nr0 y (byYears (-1) timesEx years days 0 fun k => ((10 * k.getD 0 0 + k.getD 1 0 : ℕ) : ℚ)) := by
  obtain ⟨years, days, y, h1, h2, h3, -, -, h6⟩ := split_correct nr0 (-1) (fun _ => 0) (remake nr0 datesEx)
    (fromFields nr0 datesEx.cal datesEx.units) (.name "time".toList) climEx _ 0 timesEx (by decide +kernel) climEx_input climEx_contains
    (by decide +kernel) (by decide +kernel) (remake_correct nr0 _ datesEx (by decide +kernel) (by decide +kernel))
    (fromFields_rejoins nr0 _ datesEx (by decide +kernel) (by decide +kernel)) (by decide +kernel)
  exact ⟨years, days, y, h1, h2, h3, h6⟩

/-- the split variable, read: years 2000 and 2001, days 5 January, 7 January and 9 July -/
def splitEx (I : List (List ℕ)) : Option (List (List ℚ)) :=
  (split nr0 (-1) (fun _ => 0) (remake nr0 datesEx) (fromFields nr0 datesEx.cal datesEx.units) (.name "time".toList) climEx).bind fun y =>
    (y.read nr0 (fun _ => 0) ⟨y.axes, I⟩).map fun r =>
      (List.range (I.headD []).length).map fun i => (List.range (I.getD 1 []).length).map fun j => r.get [i, j, 0]

/-- there is no 7 January 2000 and no 9 July 2001 -/
example : splitEx [[0, 1], [0, 1, 2], [1]] = some [[1, -1, 11], [21, 31, -1]] := by decide +kernel

end SplitTime
end PyGeode
