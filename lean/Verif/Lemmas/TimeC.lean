/-
Helper lemmas about date lookup. Property theorems are in `Verif.Props.TimeC`.
-/
import Verif.Model.TimeC
import Mathlib.Data.List.GetD
import Mathlib.Data.List.Lex
import Mathlib.Tactic.Linarith
import Mathlib.Order.Lattice

namespace PyGeode.TimeC

theorem scan_iff : ∀ (k v : Row), k.length = v.length →
    (scan k v = .lt ↔ k < v) ∧ (scan k v = .gt ↔ v < k) ∧ (scan k v = .eq ↔ k = v)
  | [], [], _ => by simp [scan]
  | a :: as, b :: bs, h => by
    have ih := scan_iff as bs (by simpa using h)
    unfold scan
    rcases lt_trichotomy a b with hab | hab | hab
    · rw [if_pos hab]
      refine ⟨?_, ?_, ?_⟩
      · simp [List.cons_lt_cons_iff, hab]
      · simp only [reduceCtorEq, List.cons_lt_cons_iff, false_iff]; omega
      · simp only [reduceCtorEq, List.cons.injEq, false_iff]; omega
    · subst hab
      rw [if_neg (lt_irrefl _), if_neg (lt_irrefl _)]
      simp only [List.cons_lt_cons_iff, lt_self_iff_false, true_and, false_or, List.cons.injEq]
      exact ih
    · rw [if_neg (by omega), if_pos hab]
      refine ⟨?_, ?_, ?_⟩
      · simp only [reduceCtorEq, List.cons_lt_cons_iff, false_iff]; omega
      · simp [List.cons_lt_cons_iff, hab]
      · simp only [reduceCtorEq, List.cons.injEq, false_iff]; omega

theorem leRow_iff : ∀ (k v : Row), k.length = v.length → (leRow k v = true ↔ k ≤ v)
  | [], [], _ => by simp [leRow]
  | a :: as, b :: bs, h => by
    have ih := leRow_iff as bs (by simpa using h)
    unfold leRow
    rw [← not_lt, List.cons_lt_cons_iff]
    rcases lt_trichotomy a b with hab | hab | hab
    · rw [if_pos hab]; simp only [true_iff]; omega
    · subst hab
      rw [if_neg (lt_irrefl _), if_neg (lt_irrefl _), ih, ← not_lt]
      simp
    · rw [if_neg (by omega), if_pos hab]; simp only [Bool.false_eq_true, false_iff]; omega

theorem cmpval_iff : ∀ (k v : Row), k.length = v.length →
    (cmpval k v < 0 ↔ k < v) ∧ (cmpval k v = 0 ↔ k = v)
  | [], [], _ => by simp [cmpval]
  | a :: as, b :: bs, h => by
    have ih := cmpval_iff as bs (by simpa using h)
    unfold cmpval
    rw [List.cons_lt_cons_iff, List.cons.injEq]
    by_cases hab : a - b ≠ 0
    · rw [if_pos hab]; constructor <;> constructor <;> intro h <;> omega
    · rw [if_neg hab]
      have : a = b := by omega
      subst this
      simpa using ih

section
variable {n : ℕ} {values : List Row}

/-- sorted (non-strictly) and all rows of width `n` -/
structure SortedRows (n : ℕ) (values : List Row) : Prop where
  width : ∀ r ∈ values, r.length = n
  sorted : values.Pairwise (· ≤ ·)

theorem SortedRows.le (h : SortedRows n values) {i j : ℕ} (hij : i ≤ j) (hj : j < values.length) :
    values.getD i [] ≤ values.getD j [] := by
  rcases eq_or_lt_of_le hij with e | hlt
  · rw [e]
  · rw [List.getD_eq_getElem _ _ (by omega), List.getD_eq_getElem _ _ hj]
    exact List.pairwise_iff_getElem.1 h.sorted i j (by omega) hj hlt

theorem SortedRows.width' (h : SortedRows n values) {i : ℕ} (hi : i < values.length) :
    (values.getD i []).length = n := by
  rw [List.getD_eq_getElem _ _ hi]; exact h.width _ (List.getElem_mem hi)

theorem getIndexLoop_spec (h : SortedRows n values) (key : Row) (hk : key.length = n)
    (lower upper : ℤ) (hl : 0 ≤ lower) (hu : upper < values.length) :
    (∀ i, getIndexLoop values key lower upper = some i → values[i]? = some key) ∧
    (getIndexLoop values key lower upper = none →
      ∀ j : ℕ, lower ≤ j → j ≤ upper → values[j]? ≠ some key) := by
  induction lower, upper using getIndexLoop.induct (values := values) (key := key) with
  | case1 lower upper hgt =>
    unfold getIndexLoop; rw [dif_pos hgt]
    refine ⟨by simp, ?_⟩
    intro _ j h1 h2; omega
  | case2 lower upper hgt hs ih =>
    unfold getIndexLoop; rw [dif_neg hgt, hs]
    obtain ⟨i1, i2⟩ := ih hl (by omega)
    refine ⟨i1, ?_⟩
    intro hn j h1 h2
    by_cases hj : (j : ℤ) ≤ (lower + upper) / 2 - 1
    · exact i2 hn j h1 hj
    · have hm : ((lower + upper) / 2).toNat < values.length := by omega
      have hlt := ((scan_iff _ _ (hk.trans (h.width' hm).symm)).1).1 hs
      have hle := h.le (i := ((lower + upper) / 2).toNat) (j := j) (by omega) (by omega)
      intro he
      have : values.getD j [] = key := by
        rw [List.getD_eq_getElem?_getD, he]; rfl
      rw [this] at hle
      exact absurd (lt_of_lt_of_le hlt hle) (lt_irrefl _)
  | case3 lower upper hgt hs ih =>
    unfold getIndexLoop; rw [dif_neg hgt, hs]
    obtain ⟨i1, i2⟩ := ih (by omega) hu
    refine ⟨i1, ?_⟩
    intro hn j h1 h2
    by_cases hj : (lower + upper) / 2 + 1 ≤ (j : ℤ)
    · exact i2 hn j hj h2
    · have hm : ((lower + upper) / 2).toNat < values.length := by omega
      have hlt := ((scan_iff _ _ (hk.trans (h.width' hm).symm)).2.1).1 hs
      have hle := h.le (i := j) (j := ((lower + upper) / 2).toNat) (by omega) hm
      intro he
      have : values.getD j [] = key := by
        rw [List.getD_eq_getElem?_getD, he]; rfl
      rw [this] at hle
      exact absurd (lt_of_le_of_lt hle hlt) (lt_irrefl _)
  | case4 lower upper hgt hs =>
    unfold getIndexLoop; rw [dif_neg hgt, hs]
    have hm : ((lower + upper) / 2).toNat < values.length := by omega
    have he := ((scan_iff _ _ (hk.trans (h.width' hm).symm)).2.2).1 hs
    refine ⟨?_, by simp⟩
    intro i hi
    simp only [Option.some.injEq] at hi
    subst hi
    rw [List.getD_eq_getElem _ _ hm] at he
    rw [List.getElem?_eq_getElem hm, he]

theorem nearestLoop_spec (h : SortedRows n values) (key : Row) (hk : key.length = n)
    (lower upper : ℤ) (hl : 0 ≤ lower) (hu : upper < values.length)
    (hlow : lower = 0 ∨ (lower ≤ upper ∧ values.getD lower.toNat [] ≤ key))
    (hup : ∀ j : ℕ, upper < j → j < values.length → key < values.getD j []) :
    (∀ i, nearestLoop values key lower upper = some i → i < values.length ∧
      values.getD i [] ≤ key ∧ ∀ j, i < j → j < values.length → key < values.getD j []) ∧
    (nearestLoop values key lower upper = none → ∀ j, j < values.length → key < values.getD j []) := by
  induction lower, upper using nearestLoop.induct (sorted := values) (lookup := key) with
  | case1 lower upper hle hs he =>
    unfold nearestLoop; rw [dif_pos hle, if_pos hs, if_pos he]
    refine ⟨?_, by simp⟩
    intro i hi
    simp only [Option.some.injEq] at hi
    subst hi
    have hm : upper.toNat < values.length := by omega
    rw [he] at hs
    refine ⟨hm, (leRow_iff _ _ ((h.width' hm).trans hk.symm)).1 hs, ?_⟩
    intro j h1 h2; exact hup j (by omega) h2
  | case2 lower upper hle hs he ih =>
    unfold nearestLoop; rw [dif_pos hle, if_pos hs, if_neg he]
    have hm : ((lower + upper + 1) / 2).toNat < values.length := by omega
    exact ih (by omega) hu
      (Or.inr ⟨by omega, (leRow_iff _ _ ((h.width' hm).trans hk.symm)).1 hs⟩) hup
  | case3 lower upper hle hs ih =>
    unfold nearestLoop; rw [dif_pos hle, if_neg hs]
    have hm : ((lower + upper + 1) / 2).toNat < values.length := by omega
    have hlt : key < values.getD ((lower + upper + 1) / 2).toNat [] := by
      rw [leRow_iff _ _ ((h.width' hm).trans hk.symm), not_le] at hs
      exact hs
    apply ih hl (by omega)
    · rcases hlow with h0 | ⟨h1, h2⟩
      · exact Or.inl h0
      · right
        refine ⟨?_, h2⟩
        by_contra hcon
        have e : ((lower + upper + 1) / 2).toNat = lower.toNat := by omega
        rw [e] at hlt
        exact absurd (lt_of_lt_of_le hlt h2) (lt_irrefl _)
    · intro j h1 h2
      exact lt_of_lt_of_le hlt (h.le (by omega) h2)
  | case4 lower upper hle =>
    unfold nearestLoop; rw [dif_neg hle]
    refine ⟨by simp, ?_⟩
    intro _ j hj
    rcases hlow with h0 | ⟨h1, h2⟩
    · exact hup j (by omega) hj
    · omega

end

theorem getIndex_spec {n : ℕ} {values : List Row} (h : SortedRows n values) (key : Row)
    (hk : key.length = n) :
    (∀ i, getIndex values key = some i → values[i]? = some key) ∧
    (getIndex values key = none ↔ key ∉ values) := by
  obtain ⟨h1, h2⟩ := getIndexLoop_spec h key hk 0 ((values.length : ℤ) - 1) (by omega) (by omega)
  refine ⟨h1, ?_⟩
  constructor
  · intro hn hmem
    obtain ⟨j, hj, he⟩ := List.getElem_of_mem hmem
    exact h2 hn j (by omega) (by omega) (by rw [List.getElem?_eq_getElem hj, he])
  · intro hmem
    cases hg : getIndex values key with
    | none => rfl
    | some i => exact absurd (List.mem_of_getElem? (h1 i hg)) hmem

/-- membership in a sorted list all of whose elements are ≤ the new one -/
theorem uniquify_aux {n : ℕ} (rows out : List Row) (hw : ∀ r ∈ rows, r.length = n)
    (hs : rows.Pairwise (· ≤ ·)) (how : ∀ r ∈ out, r.length = n)
    (hos : out.Pairwise (· < ·)) (hle : ∀ o ∈ out, ∀ r ∈ rows, o ≤ r) :
    (rows.foldl (fun out x => if out.length = 0 ∨ getIndex out x = none then out ++ [x] else out)
      out).Pairwise (· < ·) ∧
    ∀ x, x ∈ (rows.foldl (fun out x => if out.length = 0 ∨ getIndex out x = none then out ++ [x]
      else out) out) ↔ x ∈ out ∨ x ∈ rows := by
  induction rows generalizing out with
  | nil => simp [hos]
  | cons r rs ih =>
    rw [List.foldl_cons]
    have hwr := hw r (by simp)
    have hsr := List.pairwise_cons.1 hs
    have hsort : SortedRows n out := ⟨how, hos.imp (fun h => le_of_lt h)⟩
    have hgi := (getIndex_spec hsort r hwr).2
    have hcond : (out.length = 0 ∨ getIndex out r = none) ↔ r ∉ out := by
      rw [hgi]
      constructor
      · rintro (h | h)
        · rw [List.length_eq_zero_iff] at h; subst h; simp
        · exact h
      · exact Or.inr
    by_cases hr : r ∈ out
    · rw [if_neg (by rw [hcond]; exact not_not.2 hr)]
      obtain ⟨g1, g2⟩ := ih out (fun x hx => hw x (List.mem_cons_of_mem _ hx)) hsr.2 how hos
        (fun o ho x hx => hle o ho x (List.mem_cons_of_mem _ hx))
      refine ⟨g1, fun x => ?_⟩
      rw [g2 x, List.mem_cons]
      constructor
      · rintro (h | h)
        · exact Or.inl h
        · exact Or.inr (Or.inr h)
      · rintro (h | h | h)
        · exact Or.inl h
        · subst h; exact Or.inl hr
        · exact Or.inr h
    · rw [if_pos (hcond.2 hr)]
      obtain ⟨g1, g2⟩ := ih (out ++ [r]) (fun x hx => hw x (List.mem_cons_of_mem _ hx)) hsr.2
        (by intro x hx; rcases List.mem_append.1 hx with h | h
            · exact how x h
            · rw [List.mem_singleton] at h; subst h; exact hwr)
        (by
          rw [List.pairwise_append]
          refine ⟨hos, by simp, ?_⟩
          intro a ha b hb
          rw [List.mem_singleton] at hb; subst hb
          refine lt_of_le_of_ne (hle a ha b (by simp)) ?_
          rintro rfl; exact hr ha)
        (by
          intro o ho x hx
          rcases List.mem_append.1 ho with h | h
          · exact hle o h x (List.mem_cons_of_mem _ hx)
          · rw [List.mem_singleton] at h; subst h; exact hsr.1 x hx)
      refine ⟨g1, fun x => ?_⟩
      rw [g2 x, List.mem_append, List.mem_singleton, List.mem_cons, or_assoc]

theorem nextSame_iff {n : ℕ} {x : Row} {xs : List Row} (hx : x.length = n)
    (hw : ∀ r ∈ xs, r.length = n) : nextSame x xs = true ↔ xs.head? = some x := by
  cases xs with
  | nil => simp [nextSame]
  | cons y ys =>
    simp only [nextSame, List.head?_cons, Option.some.injEq, decide_eq_true_eq]
    rw [(cmpval_iff x y (hx.trans (hw y (by simp)).symm)).2]
    exact eq_comm

theorem sorted_tail_gt {x : Row} {xs : List Row} (hs : (x :: xs).Pairwise (· ≤ ·))
    (hne : xs.head? ≠ some x) : ∀ r ∈ xs, x < r := by
  cases xs with
  | nil => simp
  | cons y ys =>
    have h := List.pairwise_cons.1 hs
    have h2 := List.pairwise_cons.1 h.2
    have hxy : x < y := lt_of_le_of_ne (h.1 y (by simp)) (by
      rintro rfl; exact hne rfl)
    intro r hr
    rcases List.mem_cons.1 hr with rfl | hr
    · exact hxy
    · exact lt_of_lt_of_le hxy (h2.1 r hr)

/-- induction principle following the branches of the walk -/
theorem walk_induct {motive : List Row → List Row → ℕ → ℕ → Prop}
    (case1 : ∀ (ai bi : ℕ) (x : Row) (xs : List Row) (y : Row) (ys : List Row), cmpval x y = 0 →
      nextSame x xs = true → motive xs (y :: ys) (ai + 1) bi → motive (x :: xs) (y :: ys) ai bi)
    (case2 : ∀ (ai bi : ℕ) (x : Row) (xs : List Row) (y : Row) (ys : List Row), cmpval x y = 0 →
      ¬ nextSame x xs = true → nextSame y ys = true → motive (x :: xs) ys ai (bi + 1) →
      motive (x :: xs) (y :: ys) ai bi)
    (case3 : ∀ (ai bi : ℕ) (x : Row) (xs : List Row) (y : Row) (ys : List Row), cmpval x y = 0 →
      ¬ nextSame x xs = true → ¬ nextSame y ys = true → motive xs ys (ai + 1) (bi + 1) →
      motive (x :: xs) (y :: ys) ai bi)
    (case4 : ∀ (ai bi : ℕ) (x : Row) (xs : List Row) (y : Row) (ys : List Row), ¬ cmpval x y = 0 →
      cmpval x y < 0 → motive xs (y :: ys) (ai + 1) bi → motive (x :: xs) (y :: ys) ai bi)
    (case5 : ∀ (ai bi : ℕ) (x : Row) (xs : List Row) (y : Row) (ys : List Row), ¬ cmpval x y = 0 →
      ¬ cmpval x y < 0 → motive (x :: xs) ys ai (bi + 1) → motive (x :: xs) (y :: ys) ai bi)
    (case6 : ∀ (a b : List Row) (ai bi : ℕ), a = [] ∨ b = [] → motive a b ai bi)
    (a b : List Row) (ai bi : ℕ) : motive a b ai bi := by
  induction a, b, ai, bi using commonWalk.induct with
  | case1 ai bi x xs y ys hc ih1 ih2 ih3 =>
    by_cases h1 : nextSame x xs = true
    · exact case1 _ _ _ _ _ _ hc h1 ih1
    · by_cases h2 : nextSame y ys = true
      · exact case2 _ _ _ _ _ _ hc h1 h2 ih2
      · exact case3 _ _ _ _ _ _ hc h1 h2 ih3
  | case2 ai bi x xs y ys hc hlt ih => exact case4 _ _ _ _ _ _ hc hlt ih
  | case3 ai bi x xs y ys hc hlt ih => exact case5 _ _ _ _ _ _ hc hlt ih
  | case4 a b ai bi hne =>
    apply case6
    cases a with
    | nil => exact Or.inl rfl
    | cons x xs =>
      cases b with
      | nil => exact Or.inr rfl
      | cons y ys => exact (hne x xs y ys rfl rfl).elim

theorem commonWalk_nil {a b : List Row} {ai bi : ℕ} (h : a = [] ∨ b = []) :
    commonWalk a b ai bi = [] := by
  rcases h with rfl | rfl
  · unfold commonWalk; rfl
  · unfold commonWalk; cases a <;> rfl

/-- soundness needs no sorting -/
theorem commonWalk_sound {n : ℕ} (a b : List Row) (ai bi : ℕ) (ha : ∀ r ∈ a, r.length = n)
    (hb : ∀ r ∈ b, r.length = n) :
    ∀ i j, (i, j) ∈ commonWalk a b ai bi → ∃ p q r, i = ai + p ∧ j = bi + q ∧
      a[p]? = some r ∧ b[q]? = some r := by
  induction a, b, ai, bi using walk_induct with
  | case1 ai bi x xs y ys hc hn ih =>
    intro i j hm
    have hxy := (cmpval_iff x y ((ha x (by simp)).trans (hb y (by simp)).symm)).2.1 hc
    rw [commonWalk, if_pos hc, if_pos hn] at hm
    rcases List.mem_cons.1 hm with h | h
    · cases h; exact ⟨0, 0, x, by simp [hxy]⟩
    · obtain ⟨p, q, r, h1, h2, h3, h4⟩ := ih (fun r hr => ha r (List.mem_cons_of_mem _ hr)) hb i j h
      exact ⟨p + 1, q, r, by omega, h2, by simpa using h3, h4⟩
  | case2 ai bi x xs y ys hc hn hn2 ih =>
    intro i j hm
    have hxy := (cmpval_iff x y ((ha x (by simp)).trans (hb y (by simp)).symm)).2.1 hc
    rw [commonWalk, if_pos hc, if_neg hn, if_pos hn2] at hm
    rcases List.mem_cons.1 hm with h | h
    · cases h; exact ⟨0, 0, x, by simp [hxy]⟩
    · obtain ⟨p, q, r, h1, h2, h3, h4⟩ := ih ha (fun r hr => hb r (List.mem_cons_of_mem _ hr)) i j h
      exact ⟨p, q + 1, r, h1, by omega, h3, by simpa using h4⟩
  | case3 ai bi x xs y ys hc hn hn2 ih =>
    intro i j hm
    have hxy := (cmpval_iff x y ((ha x (by simp)).trans (hb y (by simp)).symm)).2.1 hc
    rw [commonWalk, if_pos hc, if_neg hn, if_neg hn2] at hm
    rcases List.mem_cons.1 hm with h | h
    · cases h; exact ⟨0, 0, x, by simp [hxy]⟩
    · obtain ⟨p, q, r, h1, h2, h3, h4⟩ := ih (fun r hr => ha r (List.mem_cons_of_mem _ hr))
        (fun r hr => hb r (List.mem_cons_of_mem _ hr)) i j h
      exact ⟨p + 1, q + 1, r, by omega, by omega, by simpa using h3, by simpa using h4⟩
  | case4 ai bi x xs y ys hc hlt ih =>
    intro i j hm
    rw [commonWalk, if_neg hc, if_pos hlt] at hm
    obtain ⟨p, q, r, h1, h2, h3, h4⟩ := ih (fun r hr => ha r (List.mem_cons_of_mem _ hr)) hb i j hm
    exact ⟨p + 1, q, r, by omega, h2, by simpa using h3, h4⟩
  | case5 ai bi x xs y ys hc hlt ih =>
    intro i j hm
    rw [commonWalk, if_neg hc, if_neg hlt] at hm
    obtain ⟨p, q, r, h1, h2, h3, h4⟩ := ih ha (fun r hr => hb r (List.mem_cons_of_mem _ hr)) i j hm
    exact ⟨p, q + 1, r, h1, by omega, h3, by simpa using h4⟩
  | case6 a b ai bi hne =>
    intro i j hm
    rw [commonWalk_nil hne] at hm
    simp at hm

theorem commonWalk_complete {n : ℕ} (a b : List Row) (ai bi : ℕ) (ha : SortedRows n a)
    (hb : SortedRows n b) (hd : a.Pairwise (· < ·) ∨ b.Pairwise (· < ·)) :
    ∀ p q r, a[p]? = some r → b[q]? = some r → (ai + p, bi + q) ∈ commonWalk a b ai bi := by
  induction a, b, ai, bi using walk_induct with
  | case1 ai bi x xs y ys hc hn ih =>
    intro p q r hp hq
    have hxy := (cmpval_iff x y ((ha.width x (by simp)).trans (hb.width y (by simp)).symm)).2.1 hc
    have hax := (nextSame_iff (ha.width x (by simp))
      (fun r hr => ha.width r (List.mem_cons_of_mem _ hr))).1 hn
    have hbd : (y :: ys).Pairwise (· < ·) := by
      rcases hd with h | h
      · exfalso
        cases xs with
        | nil => simp at hax
        | cons x' xs =>
          simp only [List.head?_cons, Option.some.injEq] at hax
          subst hax
          exact lt_irrefl _ ((List.pairwise_cons.1 h).1 x' (by simp))
      · exact h
    rw [commonWalk, if_pos hc, if_pos hn]
    cases p with
    | zero =>
      cases q with
      | zero => simp
      | succ q =>
        exfalso
        simp only [List.getElem?_cons_zero, Option.some.injEq] at hp
        simp only [List.getElem?_cons_succ] at hq
        have := (List.pairwise_cons.1 hbd).1 r (List.mem_of_getElem? hq)
        rw [← hxy, hp] at this
        exact lt_irrefl _ this
    | succ p =>
      refine List.mem_cons_of_mem _ ?_
      have := ih ⟨fun r hr => ha.width r (List.mem_cons_of_mem _ hr), (List.pairwise_cons.1 ha.sorted).2⟩
        hb (Or.inr hbd) p q r (by simpa using hp) hq
      rwa [show ai + (p + 1) = ai + 1 + p by omega]
  | case2 ai bi x xs y ys hc hn hn2 ih =>
    intro p q r hp hq
    have hxy := (cmpval_iff x y ((ha.width x (by simp)).trans (hb.width y (by simp)).symm)).2.1 hc
    have hbx := (nextSame_iff (hb.width y (by simp))
      (fun r hr => hb.width r (List.mem_cons_of_mem _ hr))).1 hn2
    have had : (x :: xs).Pairwise (· < ·) := by
      rcases hd with h | h
      · exact h
      · exfalso
        cases ys with
        | nil => simp at hbx
        | cons x' xs =>
          simp only [List.head?_cons, Option.some.injEq] at hbx
          subst hbx
          exact lt_irrefl _ ((List.pairwise_cons.1 h).1 x' (by simp))
    rw [commonWalk, if_pos hc, if_neg hn, if_pos hn2]
    cases q with
    | zero =>
      cases p with
      | zero => simp
      | succ p =>
        exfalso
        simp only [List.getElem?_cons_zero, Option.some.injEq] at hq
        simp only [List.getElem?_cons_succ] at hp
        have := (List.pairwise_cons.1 had).1 r (List.mem_of_getElem? hp)
        rw [hxy, hq] at this
        exact lt_irrefl _ this
    | succ q =>
      refine List.mem_cons_of_mem _ ?_
      have := ih ha ⟨fun r hr => hb.width r (List.mem_cons_of_mem _ hr),
        (List.pairwise_cons.1 hb.sorted).2⟩ (Or.inl had) p q r hp (by simpa using hq)
      rwa [show bi + (q + 1) = bi + 1 + q by omega]
  | case3 ai bi x xs y ys hc hn hn2 ih =>
    intro p q r hp hq
    have hxy := (cmpval_iff x y ((ha.width x (by simp)).trans (hb.width y (by simp)).symm)).2.1 hc
    have hwa : ∀ r ∈ xs, r.length = n := fun r hr => ha.width r (List.mem_cons_of_mem _ hr)
    have hwb : ∀ r ∈ ys, r.length = n := fun r hr => hb.width r (List.mem_cons_of_mem _ hr)
    rw [nextSame_iff (ha.width x (by simp)) hwa] at hn
    rw [nextSame_iff (hb.width y (by simp)) hwb] at hn2
    have ga := sorted_tail_gt ha.sorted hn
    have gb := sorted_tail_gt hb.sorted hn2
    rw [commonWalk, if_pos hc, if_neg (by rw [nextSame_iff (ha.width x (by simp)) hwa]; exact hn),
      if_neg (by rw [nextSame_iff (hb.width y (by simp)) hwb]; exact hn2)]
    cases p with
    | zero =>
      cases q with
      | zero => simp
      | succ q =>
        exfalso
        simp only [List.getElem?_cons_zero, Option.some.injEq] at hp
        simp only [List.getElem?_cons_succ] at hq
        have := gb r (List.mem_of_getElem? hq)
        rw [← hxy, hp] at this
        exact lt_irrefl _ this
    | succ p =>
      cases q with
      | zero =>
        exfalso
        simp only [List.getElem?_cons_zero, Option.some.injEq] at hq
        simp only [List.getElem?_cons_succ] at hp
        have := ga r (List.mem_of_getElem? hp)
        rw [hxy, hq] at this
        exact lt_irrefl _ this
      | succ q =>
        refine List.mem_cons_of_mem _ ?_
        have := ih ⟨hwa, (List.pairwise_cons.1 ha.sorted).2⟩ ⟨hwb, (List.pairwise_cons.1 hb.sorted).2⟩
          (hd.imp (fun h => (List.pairwise_cons.1 h).2) (fun h => (List.pairwise_cons.1 h).2))
          p q r (by simpa using hp) (by simpa using hq)
        rwa [show ai + (p + 1) = ai + 1 + p by omega, show bi + (q + 1) = bi + 1 + q by omega]
  | case4 ai bi x xs y ys hc hlt ih =>
    intro p q r hp hq
    have hxy := (cmpval_iff x y ((ha.width x (by simp)).trans (hb.width y (by simp)).symm)).1.1 hlt
    rw [commonWalk, if_neg hc, if_pos hlt]
    cases p with
    | zero =>
      exfalso
      simp only [List.getElem?_cons_zero, Option.some.injEq] at hp
      have hmem := List.mem_of_getElem? hq
      rcases List.mem_cons.1 hmem with h | h
      · rw [hp, h] at hxy; exact lt_irrefl _ hxy
      · have := (List.pairwise_cons.1 hb.sorted).1 r h
        rw [hp] at hxy
        exact lt_irrefl _ (lt_of_lt_of_le hxy this)
    | succ p =>
      have := ih ⟨fun r hr => ha.width r (List.mem_cons_of_mem _ hr), (List.pairwise_cons.1 ha.sorted).2⟩
        hb (hd.imp (fun h => (List.pairwise_cons.1 h).2) id) p q r (by simpa using hp) hq
      rwa [show ai + (p + 1) = ai + 1 + p by omega]
  | case5 ai bi x xs y ys hc hlt ih =>
    intro p q r hp hq
    obtain ⟨k1, k2⟩ := cmpval_iff x y ((ha.width x (by simp)).trans (hb.width y (by simp)).symm)
    have hxy : y < x := by
      rcases lt_trichotomy x y with h | h | h
      · exact absurd (k1.2 h) hlt
      · exact absurd (k2.2 h) hc
      · exact h
    rw [commonWalk, if_neg hc, if_neg hlt]
    cases q with
    | zero =>
      exfalso
      simp only [List.getElem?_cons_zero, Option.some.injEq] at hq
      have hmem := List.mem_of_getElem? hp
      rcases List.mem_cons.1 hmem with h | h
      · rw [hq, h] at hxy; exact lt_irrefl _ hxy
      · have := (List.pairwise_cons.1 ha.sorted).1 r h
        rw [hq] at hxy
        exact lt_irrefl _ (lt_of_lt_of_le hxy this)
    | succ q =>
      have := ih ha ⟨fun r hr => hb.width r (List.mem_cons_of_mem _ hr),
        (List.pairwise_cons.1 hb.sorted).2⟩ (hd.imp id (fun h => (List.pairwise_cons.1 h).2))
        p q r hp (by simpa using hq)
      rwa [show bi + (q + 1) = bi + 1 + q by omega]
  | case6 a b ai bi hne =>
    intro p q r hp hq
    rcases hne with rfl | rfl
    · simp at hp
    · simp at hq

theorem nextSame_not_distinct {n : ℕ} {x : Row} {xs : List Row} (hx : x.length = n)
    (hw : ∀ r ∈ xs, r.length = n) (hd : (x :: xs).Pairwise (· < ·)) : nextSame x xs = false := by
  rw [← Bool.not_eq_true, nextSame_iff hx hw]
  intro h
  exact lt_irrefl _ ((List.pairwise_cons.1 hd).1 x (List.mem_of_head? h))

theorem commonWalk_length_left {n : ℕ} (a b : List Row) (ai bi : ℕ) (ha : ∀ r ∈ a, r.length = n)
    (hd : a.Pairwise (· < ·)) : (commonWalk a b ai bi).length ≤ b.length := by
  induction a, b, ai, bi using walk_induct with
  | case1 ai bi x xs y ys hc hn ih =>
    rw [nextSame_not_distinct (ha x (by simp)) (fun r hr => ha r (List.mem_cons_of_mem _ hr)) hd]
      at hn
    simp at hn
  | case2 ai bi x xs y ys hc hn hn2 ih =>
    rw [commonWalk, if_pos hc, if_neg hn, if_pos hn2]
    have := ih ha hd
    simp only [List.length_cons]; omega
  | case3 ai bi x xs y ys hc hn hn2 ih =>
    rw [commonWalk, if_pos hc, if_neg hn, if_neg hn2]
    have := ih (fun r hr => ha r (List.mem_cons_of_mem _ hr)) (List.pairwise_cons.1 hd).2
    simp only [List.length_cons]; omega
  | case4 ai bi x xs y ys hc hlt ih =>
    rw [commonWalk, if_neg hc, if_pos hlt]
    exact ih (fun r hr => ha r (List.mem_cons_of_mem _ hr)) (List.pairwise_cons.1 hd).2
  | case5 ai bi x xs y ys hc hlt ih =>
    rw [commonWalk, if_neg hc, if_neg hlt]
    have := ih ha hd
    simp only [List.length_cons]; omega
  | case6 a b ai bi hne =>
    rw [commonWalk_nil hne]; simp

theorem commonWalk_length_right {n : ℕ} (a b : List Row) (ai bi : ℕ) (hb : ∀ r ∈ b, r.length = n)
    (hd : b.Pairwise (· < ·)) : (commonWalk a b ai bi).length ≤ a.length := by
  induction a, b, ai, bi using walk_induct with
  | case1 ai bi x xs y ys hc hn ih =>
    rw [commonWalk, if_pos hc, if_pos hn]
    have := ih hb hd
    simp only [List.length_cons] at *; omega
  | case2 ai bi x xs y ys hc hn hn2 ih =>
    rw [nextSame_not_distinct (hb y (by simp)) (fun r hr => hb r (List.mem_cons_of_mem _ hr)) hd]
      at hn2
    simp at hn2
  | case3 ai bi x xs y ys hc hn hn2 ih =>
    rw [commonWalk, if_pos hc, if_neg hn, if_neg hn2]
    have := ih (fun r hr => hb r (List.mem_cons_of_mem _ hr)) (List.pairwise_cons.1 hd).2
    simp only [List.length_cons]; omega
  | case4 ai bi x xs y ys hc hlt ih =>
    rw [commonWalk, if_neg hc, if_pos hlt]
    have := ih hb hd
    simp only [List.length_cons] at *; omega
  | case5 ai bi x xs y ys hc hlt ih =>
    rw [commonWalk, if_neg hc, if_neg hlt]
    exact ih (fun r hr => hb r (List.mem_cons_of_mem _ hr)) (List.pairwise_cons.1 hd).2
  | case6 a b ai bi hne =>
    rw [commonWalk_nil hne]; simp

/-! ### argsort -/

theorem argsortRows_perm (rows : List Row) : (argsortRows rows).Perm (List.range rows.length) :=
  List.perm_insertionSort _ _

theorem argsortRows_length (rows : List Row) : (argsortRows rows).length = rows.length := by
  rw [(argsortRows_perm rows).length_eq, List.length_range]

theorem argsortRows_lt (rows : List Row) : ∀ i ∈ argsortRows rows, i < rows.length := by
  intro i hi
  rwa [(argsortRows_perm rows).mem_iff, List.mem_range] at hi

instance rowTotal (rows : List Row) :
    Std.Total (fun i j : ℕ => rows.getD i [] ≤ rows.getD j []) :=
  ⟨fun _ _ => le_total _ _⟩

instance rowTrans (rows : List Row) :
    IsTrans ℕ (fun i j : ℕ => rows.getD i [] ≤ rows.getD j []) :=
  ⟨fun _ _ _ => le_trans⟩

theorem argsortRows_sorted (rows : List Row) :
    ((argsortRows rows).map (fun i : ℕ => rows.getD i [])).Pairwise (· ≤ ·) := by
  rw [List.pairwise_map]
  unfold argsortRows
  exact List.pairwise_insertionSort (fun i j : ℕ => rows.getD i [] ≤ rows.getD j []) _

theorem sortedRows_argsort {n : ℕ} {rows : List Row} (hw : ∀ r ∈ rows, r.length = n) :
    SortedRows n ((argsortRows rows).map (fun i : ℕ => rows.getD i [])) where
  width := by
    intro r hr
    obtain ⟨i, hi, rfl⟩ := List.mem_map.1 hr
    have := argsortRows_lt rows i hi
    rw [List.getD_eq_getElem _ _ this]
    exact hw _ (List.getElem_mem _)
  sorted := argsortRows_sorted rows

theorem argsort_strict {rows : List Row} (hd : rows.Nodup) :
    ((argsortRows rows).map (fun i : ℕ => rows.getD i [])).Pairwise (· < ·) := by
  have h1 := argsortRows_sorted rows
  have h2 : ((argsortRows rows).map (fun i : ℕ => rows.getD i [])).Nodup := by
    have hp := (argsortRows_perm rows).map (fun i : ℕ => rows.getD i [])
    rw [hp.nodup_iff]
    have : (List.range rows.length).map (fun i : ℕ => rows.getD i []) = rows := by
      apply List.ext_getElem (by simp)
      intro i h1 h2
      rw [List.getElem_map, List.getElem_range, List.getD_eq_getElem _ _ h2]
    rwa [this]
  rw [List.nodup_iff_pairwise_ne] at h2
  exact (h1.and h2).imp (fun h => lt_of_le_of_ne h.1 h.2)

end PyGeode.TimeC
