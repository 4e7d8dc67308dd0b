/- Helper lemmas for coordinate sorting and matching. -/
import Verif.Model.ToolsC
import Mathlib.Tactic.Linarith
import Mathlib.Data.List.GetD
import Mathlib.Data.List.Nodup
import Mathlib.Tactic.Ring

namespace PyGeode.ToolsC

/-- value order, ties broken by original position -/
def Lex (p q : ℚ × ℕ) : Prop := p.1 < q.1 ∨ (p.1 = q.1 ∧ p.2 < q.2)

theorem Lex.le {p q : ℚ × ℕ} (h : Lex p q) : p.1 ≤ q.1 := by
  rcases h with h | h
  · exact le_of_lt h
  · exact le_of_eq h.1

theorem Lex.trans {p q r : ℚ × ℕ} (h : Lex p q) (h' : Lex q r) : Lex p r := by
  rcases h with h | ⟨h, h2⟩ <;> rcases h' with h' | ⟨h', h2'⟩
  · exact Or.inl (lt_trans h h')
  · exact Or.inl (h' ▸ h)
  · exact Or.inl (h ▸ h')
  · exact Or.inr ⟨h.trans h', lt_trans h2 h2'⟩

theorem merge_perm : ∀ xs ys : List (ℚ × ℕ), (merge xs ys).Perm (xs ++ ys)
  | [], ys => by simp [merge]
  | x :: xs, [] => by simp [merge]
  | x :: xs, y :: ys => by
    unfold merge
    split_ifs with h
    · exact (merge_perm xs (y :: ys)).cons x
    · have := (merge_perm (x :: xs) ys).cons y
      exact this.trans List.perm_middle.symm
  termination_by xs ys => xs.length + ys.length

theorem merge_lex : ∀ xs ys : List (ℚ × ℕ), xs.Pairwise Lex → ys.Pairwise Lex →
    (∀ p ∈ xs, ∀ q ∈ ys, p.2 < q.2) → (merge xs ys).Pairwise Lex
  | [], ys, _, h, _ => by simpa [merge] using h
  | x :: xs, [], h, _, _ => by simpa [merge] using h
  | x :: xs, y :: ys, hx, hy, hp => by
    unfold merge
    have hx' := List.pairwise_cons.1 hx
    have hy' := List.pairwise_cons.1 hy
    split_ifs with h
    · rw [List.pairwise_cons]
      refine ⟨?_, merge_lex xs (y :: ys) hx'.2 hy (fun p hp' => hp p (by simp [hp']))⟩
      intro z hz
      rw [(merge_perm _ _).mem_iff, List.mem_append] at hz
      rcases hz with hz | hz
      · exact hx'.1 z hz
      · have hxy : Lex x y := by
          rcases lt_or_eq_of_le h with h | h
          · exact Or.inl h
          · exact Or.inr ⟨h, hp x (by simp) y (by simp)⟩
        rcases List.mem_cons.1 hz with rfl | hz
        · exact hxy
        · exact hxy.trans (hy'.1 z hz)
    · rw [List.pairwise_cons]
      refine ⟨?_, merge_lex (x :: xs) ys hx hy'.2 (fun p hp' q hq => hp p hp' q (by simp [hq]))⟩
      intro z hz
      rw [(merge_perm _ _).mem_iff, List.mem_append] at hz
      have hyx : Lex y x := Or.inl (lt_of_not_ge h)
      rcases hz with hz | hz
      · rcases List.mem_cons.1 hz with rfl | hz
        · exact hyx
        · exact hyx.trans (hx'.1 z hz)
      · exact hy'.1 z hz
  termination_by xs ys => xs.length + ys.length

theorem msortFuel_perm (n : ℕ) : ∀ l : List (ℚ × ℕ), (msortFuel n l).Perm l := by
  induction n with
  | zero => intro l; exact List.Perm.refl _
  | succ n ih =>
    intro l
    unfold msortFuel
    split_ifs with h
    · exact List.Perm.refl _
    · refine (merge_perm _ _).trans ?_
      refine ((ih _).append (ih _)).trans ?_
      rw [List.take_append_drop]

theorem msortFuel_sorted (n : ℕ) : ∀ l : List (ℚ × ℕ), l.length ≤ n →
    l.Pairwise (fun p q => p.2 < q.2) → (msortFuel n l).Pairwise Lex := by
  induction n with
  | zero =>
    intro l hl _
    have : l = [] := List.length_eq_zero_iff.1 (by omega)
    subst this
    simp [msortFuel]
  | succ n ih =>
    intro l hl hp
    unfold msortFuel
    split_ifs with h
    · match l, h with
      | [], _ => simp
      | [x], _ => simp
    · have hsplit : l.take (l.length / 2) ++ l.drop (l.length / 2) = l := List.take_append_drop _ _
      have hp2 := hp
      rw [← hsplit, List.pairwise_append] at hp2
      apply merge_lex
      · apply ih _ _ hp2.1
        simp; omega
      · apply ih _ _ hp2.2.1
        simp; omega
      · intro p hp' q hq
        rw [(msortFuel_perm _ _).mem_iff] at hp' hq
        exact hp2.2.2 p hp' q hq

theorem withPos_mem {a : List ℚ} {p : ℚ × ℕ} : p ∈ withPos a ↔ a[p.2]? = some p.1 := by
  unfold withPos
  obtain ⟨x, i⟩ := p
  rw [List.mem_zipIdx_iff_getElem?]

theorem withPos_snd (a : List ℚ) : (withPos a).map Prod.snd = List.range a.length := by
  unfold withPos
  simp [List.zipIdx_map_snd, List.range_eq_range']

theorem withPos_fst (a : List ℚ) : (withPos a).map Prod.fst = a := by
  unfold withPos
  simp

theorem withPos_pos_sorted (a : List ℚ) : (withPos a).Pairwise (fun p q => p.2 < q.2) := by
  rw [← List.pairwise_map (f := Prod.snd) (R := (· < ·)), withPos_snd]
  exact List.pairwise_lt_range

theorem isSorted_iff : ∀ a : List ℚ, isSorted a = true → a.Pairwise (· ≤ ·)
  | [], _ => List.Pairwise.nil
  | [_], _ => by simp
  | x :: y :: l, h => by
    simp only [isSorted, Bool.and_eq_true, Bool.not_eq_true', decide_eq_false_iff_not, not_lt] at h
    have h2 := isSorted_iff (y :: l) h.2
    rw [List.pairwise_cons]
    refine ⟨?_, h2⟩
    intro z hz
    rcases List.mem_cons.1 hz with rfl | hz
    · exact h.1
    · exact le_trans h.1 ((List.pairwise_cons.1 h2).1 z hz)

theorem isRSorted_iff : ∀ a : List ℚ, isRSorted a = true → a.Pairwise (· ≥ ·)
  | [], _ => List.Pairwise.nil
  | [_], _ => by simp
  | x :: y :: l, h => by
    simp only [isRSorted, Bool.and_eq_true, Bool.or_eq_true, decide_eq_true_eq,
      Bool.not_eq_true', decide_eq_false_iff_not, not_lt] at h
    have hxy : x ≥ y := by
      rcases h.1 with h1 | h1
      · exact le_of_lt h1
      · exact h1
    have h2 := isRSorted_iff (y :: l) h.2
    rw [List.pairwise_cons]
    refine ⟨?_, h2⟩
    intro z hz
    rcases List.mem_cons.1 hz with rfl | hz
    · exact hxy
    · exact le_trans ((List.pairwise_cons.1 h2).1 z hz) hxy

theorem sort_perm (a : List ℚ) : (sort a).Perm (withPos a) := by
  unfold sort
  split_ifs
  · exact List.Perm.refl _
  · exact List.reverse_perm _
  · exact msortFuel_perm _ _

theorem sort_sorted (a : List ℚ) : (sort a).Pairwise (fun p q => p.1 ≤ q.1) := by
  unfold sort
  split_ifs with h1 h2
  · rw [← List.pairwise_map (f := Prod.fst) (R := (· ≤ ·)), withPos_fst]
    exact isSorted_iff a h1
  · rw [List.pairwise_reverse, ← List.pairwise_map (f := Prod.fst) (R := fun x y => y ≤ x), withPos_fst]
    exact isRSorted_iff a h2
  · refine List.Pairwise.imp Lex.le (msortFuel_sorted _ _ ?_ (withPos_pos_sorted a))
    simp [withPos]

theorem sort_snd_nodup (a : List ℚ) : ((sort a).map Prod.snd).Nodup := by
  rw [((sort_perm a).map Prod.snd).nodup_iff, withPos_snd]
  exact List.nodup_range

theorem sort_strict {a : List ℚ} (h : a.Nodup) : (sort a).Pairwise (fun p q => p.1 < q.1) := by
  have h1 := sort_sorted a
  have h2 : ((sort a).map Prod.fst).Nodup := by
    rw [((sort_perm a).map Prod.fst).nodup_iff, withPos_fst]; exact h
  have h3 : (sort a).Pairwise (fun p q => p.1 ≠ q.1) := List.pairwise_map.1 h2
  exact (h1.and h3).imp (fun ⟨x, y⟩ => lt_of_le_of_ne x y)

/-! matching -/

theorem abs_le_of_mid {x y B : ℚ} (hxy : x ≤ y) : |y - B| ≤ |x - B| ↔ x = y ∨ x + y ≤ 2 * B := by
  constructor
  · intro h
    by_contra hc
    push Not at hc
    have hlt : x < y := lt_of_le_of_ne hxy hc.1
    rcases abs_cases (y - B) with ⟨h1, h2⟩ | ⟨h1, h2⟩ <;>
    rcases abs_cases (x - B) with ⟨h3, h4⟩ | ⟨h3, h4⟩ <;> linarith
  · rintro (rfl | h)
    · exact le_refl _
    · rcases abs_cases (y - B) with ⟨h1, h2⟩ | ⟨h1, h2⟩ <;>
      rcases abs_cases (x - B) with ⟨h3, h4⟩ | ⟨h3, h4⟩ <;> linarith

theorem abs_le_of_mid' {x y B : ℚ} (hxy : x ≤ y) : |x - B| ≤ |y - B| ↔ x = y ∨ 2 * B ≤ x + y := by
  constructor
  · intro h
    by_contra hc
    push Not at hc
    have hlt : x < y := lt_of_le_of_ne hxy hc.1
    rcases abs_cases (y - B) with ⟨h1, h2⟩ | ⟨h1, h2⟩ <;>
    rcases abs_cases (x - B) with ⟨h3, h4⟩ | ⟨h3, h4⟩ <;> linarith
  · rintro (rfl | h)
    · exact le_refl _
    · rcases abs_cases (y - B) with ⟨h1, h2⟩ | ⟨h1, h2⟩ <;>
      rcases abs_cases (x - B) with ⟨h3, h4⟩ | ⟨h3, h4⟩ <;> linarith

/-- `advance` returns a suffix of the list it walks. -/
theorem advance_suffix (B : ℚ) : ∀ (rest : List (ℚ × ℕ)) (cur : ℚ × ℕ),
    ∃ pre, cur :: rest = pre ++ (advance B cur rest).1 :: (advance B cur rest).2
  | [], cur => ⟨[], rfl⟩
  | nxt :: rest, cur => by
    unfold advance
    split_ifs with h
    · obtain ⟨pre, hp⟩ := advance_suffix B rest nxt
      exact ⟨cur :: pre, by rw [hp]; rfl⟩
    · exact ⟨[], rfl⟩

/-- On strictly increasing values, if everything to the left is no closer, `advance` stops at a
nearest element of the whole list. -/
theorem advance_nearest (B : ℚ) : ∀ (rest : List (ℚ × ℕ)) (cur : ℚ × ℕ) (pre : List (ℚ × ℕ)),
    (pre ++ cur :: rest).Pairwise (fun p q => p.1 < q.1) →
    (∀ p ∈ pre, |cur.1 - B| ≤ |p.1 - B|) →
    ∃ pre', pre ++ cur :: rest = pre' ++ (advance B cur rest).1 :: (advance B cur rest).2 ∧
      ∀ p ∈ pre ++ cur :: rest, |(advance B cur rest).1.1 - B| ≤ |p.1 - B|
  | [], cur, pre, _, hpre => by
    refine ⟨pre, rfl, ?_⟩
    intro p hp
    rcases List.mem_append.1 hp with hp | hp
    · exact hpre p hp
    · have : p = cur := by simpa using hp
      subst this; exact le_refl _
  | nxt :: rest, cur, pre, hs, hpre => by
    unfold advance
    split_ifs with h
    · have e : pre ++ cur :: nxt :: rest = (pre ++ [cur]) ++ nxt :: rest := by simp
      rw [e] at hs ⊢
      refine advance_nearest B rest nxt (pre ++ [cur]) hs ?_
      intro p hp
      rcases List.mem_append.1 hp with hp | hp
      · exact le_trans (le_of_lt h) (hpre p hp)
      · have : p = cur := by simpa using hp
        subst this; exact le_of_lt h
    · refine ⟨pre, rfl, ?_⟩
      intro p hp
      have hcur := (List.pairwise_append.1 hs).2.1
      have hcur' := List.pairwise_cons.1 hcur
      have hnx := hcur'.1 nxt (by simp)
      have hmid : 2 * B ≤ cur.1 + nxt.1 := by
        rcases (abs_le_of_mid' (le_of_lt hnx)).1 (not_lt.1 h) with h' | h'
        · linarith
        · exact h'
      rcases List.mem_append.1 hp with hp | hp
      · exact hpre p hp
      · rcases List.mem_cons.1 hp with rfl | hp
        · exact le_refl _
        · have hle : nxt.1 ≤ p.1 := by
            rcases List.mem_cons.1 hp with rfl | hp
            · exact le_refl _
            · exact le_of_lt ((List.pairwise_cons.1 hcur'.2).1 p hp)
          exact (abs_le_of_mid' (by linarith)).2 (Or.inr (by linarith))

theorem matchLoop_length (rtol : ℚ) : ∀ (bs : List (ℚ × ℕ)) (cur : ℚ × ℕ) (rest : List (ℚ × ℕ))
    (out : List (Option ℕ)), (matchLoop rtol cur rest bs out).length = out.length
  | [], _, _, _ => rfl
  | b :: bs, cur, rest, out => by
    simp only [matchLoop]
    rw [matchLoop_length]
    split_ifs <;> simp

theorem matchLoop_untouched (rtol : ℚ) (k : ℕ) : ∀ (bs : List (ℚ × ℕ)) (cur : ℚ × ℕ)
    (rest : List (ℚ × ℕ)) (out : List (Option ℕ)), k ∉ bs.map Prod.snd →
    (matchLoop rtol cur rest bs out)[k]? = out[k]?
  | [], _, _, _, _ => rfl
  | b :: bs, cur, rest, out, hk => by
    simp only [List.map_cons, List.mem_cons, not_or] at hk
    simp only [matchLoop]
    rw [matchLoop_untouched rtol k bs _ _ _ hk.2]
    split_ifs
    · rw [List.getElem?_set_ne (Ne.symm hk.1)]
    · rfl

/-- What the loop writes at the position of each request: the outcome of comparing with one
element of the walked list. -/
theorem matchLoop_sound (rtol : ℚ) : ∀ (bs : List (ℚ × ℕ)) (cur : ℚ × ℕ)
    (rest : List (ℚ × ℕ)) (out : List (Option ℕ)), (bs.map Prod.snd).Nodup →
    (∀ b ∈ bs, b.2 < out.length) → ∀ b ∈ bs, ∃ c ∈ cur :: rest,
    (matchLoop rtol cur rest bs out)[b.2]? =
      if |c.1 - b.1| ≤ rtol * |b.1| then some (some c.2) else out[b.2]?
  | [], _, _, _, _, _ => by simp
  | b0 :: bs, cur, rest, out, hnd, hlen => by
    intro b hb
    simp only [matchLoop]
    rw [List.map_cons, List.nodup_cons] at hnd
    obtain ⟨pre, hpre⟩ := advance_suffix b0.1 rest cur
    rcases List.mem_cons.1 hb with rfl | hb
    · refine ⟨(advance b.1 cur rest).1, ?_, ?_⟩
      · rw [hpre]; simp
      · rw [matchLoop_untouched rtol b.2 bs _ _ _ hnd.1]
        split_ifs
        · rw [List.getElem?_set_self (hlen b (by simp))]
        · rfl
    · have hne : b0.2 ≠ b.2 := by
        intro h
        exact hnd.1 (h ▸ List.mem_map_of_mem hb)
      obtain ⟨c, hc, he⟩ := matchLoop_sound rtol bs (advance b0.1 cur rest).1 (advance b0.1 cur rest).2
        (if |(advance b0.1 cur rest).1.1 - b0.1| ≤ rtol * |b0.1|
          then out.set b0.2 (some (advance b0.1 cur rest).1.2) else out) hnd.2
        (by intro x hx; have := hlen x (by simp [hx]); split_ifs <;> simpa using this) b hb
      refine ⟨c, ?_, ?_⟩
      · rw [hpre]; exact List.mem_append_right _ hc
      · rw [he]
        split_ifs
        · rfl
        · rw [List.getElem?_set_ne hne]
        · rfl

/-- On strictly increasing coordinates and sorted requests the element compared is a nearest. -/
theorem matchLoop_nearest (rtol : ℚ) : ∀ (bs : List (ℚ × ℕ)) (cur : ℚ × ℕ)
    (rest pre : List (ℚ × ℕ)) (out : List (Option ℕ)), (bs.map Prod.snd).Nodup →
    (∀ b ∈ bs, b.2 < out.length) → bs.Pairwise (fun p q => p.1 ≤ q.1) →
    (pre ++ cur :: rest).Pairwise (fun p q => p.1 < q.1) →
    (∀ b ∈ bs, ∀ p ∈ pre, |cur.1 - b.1| ≤ |p.1 - b.1|) →
    ∀ b ∈ bs, ∃ c ∈ pre ++ cur :: rest, (∀ p ∈ pre ++ cur :: rest, |c.1 - b.1| ≤ |p.1 - b.1|) ∧
    (matchLoop rtol cur rest bs out)[b.2]? =
      if |c.1 - b.1| ≤ rtol * |b.1| then some (some c.2) else out[b.2]?
  | [], _, _, _, _, _, _, _, _, _ => by simp
  | b0 :: bs, cur, rest, pre, out, hnd, hlen, hbs, hs, hpre => by
    intro b hb
    simp only [matchLoop]
    rw [List.map_cons, List.nodup_cons] at hnd
    rw [List.pairwise_cons] at hbs
    obtain ⟨pre', he, hn⟩ := advance_nearest b0.1 rest cur pre hs (hpre b0 (by simp))
    rcases List.mem_cons.1 hb with rfl | hb
    · refine ⟨(advance b.1 cur rest).1, ?_, hn, ?_⟩
      · rw [he]; simp
      · rw [matchLoop_untouched rtol b.2 bs _ _ _ hnd.1]
        split_ifs
        · rw [List.getElem?_set_self (hlen b (by simp))]
        · rfl
    · have hne : b0.2 ≠ b.2 := by
        intro h
        exact hnd.1 (h ▸ List.mem_map_of_mem hb)
      have hs' := hs
      rw [he] at hs'
      obtain ⟨c, hc, hcn, hce⟩ := matchLoop_nearest rtol bs (advance b0.1 cur rest).1
        (advance b0.1 cur rest).2 pre'
        (if |(advance b0.1 cur rest).1.1 - b0.1| ≤ rtol * |b0.1|
          then out.set b0.2 (some (advance b0.1 cur rest).1.2) else out) hnd.2
        (by intro x hx; have := hlen x (by simp [hx]); split_ifs <;> simpa using this)
        hbs.2 hs'
        (by
          intro x hx p hp
          have h1 := hn p (by rw [he]; simp [hp])
          have hlt : p.1 < (advance b0.1 cur rest).1.1 :=
            (List.pairwise_append.1 hs').2.2 p hp _ (by simp)
          have h2 := hbs.1 x hx
          rcases (abs_le_of_mid (le_of_lt hlt)).1 h1 with h3 | h3
          · exact absurd h3 (ne_of_lt hlt)
          · exact (abs_le_of_mid (le_of_lt hlt)).2 (Or.inr (by linarith)))
        b hb
      refine ⟨c, by rw [he]; exact hc, by rw [he]; exact hcn, ?_⟩
      rw [hce]
      split_ifs
      · rfl
      · rw [List.getElem?_set_ne hne]
      · rfl

theorem truncToInt_eq_zero {q : ℚ} (h : truncToInt q = 0) : |q| < 1 := by
  unfold truncToInt at h
  split_ifs at h with h0
  · rw [abs_of_nonneg h0]
    have := Int.lt_floor_add_one q
    rw [h] at this
    simpa using this
  · rw [abs_of_neg (not_le.1 h0)]
    have := Int.ceil_lt_add_one q
    have h2 := (Int.ceil_eq_iff.1 h).1
    push_cast at h2
    linarith

theorem commonMapC_sound : ∀ (a b : List ℚ) (ai bi : ℕ) (p : ℕ × ℕ), p ∈ commonMapC a b ai bi →
    ∃ i j x y, p.1 = ai + i ∧ p.2 = bi + j ∧ a[i]? = some x ∧ b[j]? = some y ∧ |x - y| < 1
  | [], _, _, _, p, h => by simp [commonMapC] at h
  | _ :: _, [], _, _, p, h => by simp [commonMapC] at h
  | x :: xs, y :: ys, ai, bi, p, h => by
    have IHl : p ∈ commonMapC xs (y :: ys) (ai + 1) bi → ∃ i j x' y', p.1 = ai + i ∧ p.2 = bi + j ∧
        (x :: xs)[i]? = some x' ∧ (y :: ys)[j]? = some y' ∧ |x' - y'| < 1 := by
      intro hp
      obtain ⟨i, j, x', y', h1, h2, h3, h4, h5⟩ := commonMapC_sound xs (y :: ys) (ai + 1) bi p hp
      exact ⟨i + 1, j, x', y', by omega, h2, by simpa using h3, h4, h5⟩
    have IHr : p ∈ commonMapC (x :: xs) ys ai (bi + 1) → ∃ i j x' y', p.1 = ai + i ∧ p.2 = bi + j ∧
        (x :: xs)[i]? = some x' ∧ (y :: ys)[j]? = some y' ∧ |x' - y'| < 1 := by
      intro hp
      obtain ⟨i, j, x', y', h1, h2, h3, h4, h5⟩ := commonMapC_sound (x :: xs) ys ai (bi + 1) p hp
      exact ⟨i, j + 1, x', y', h1, by omega, h3, by simpa using h4, h5⟩
    have IHb : p ∈ commonMapC xs ys (ai + 1) (bi + 1) → ∃ i j x' y', p.1 = ai + i ∧ p.2 = bi + j ∧
        (x :: xs)[i]? = some x' ∧ (y :: ys)[j]? = some y' ∧ |x' - y'| < 1 := by
      intro hp
      obtain ⟨i, j, x', y', h1, h2, h3, h4, h5⟩ := commonMapC_sound xs ys (ai + 1) (bi + 1) p hp
      exact ⟨i + 1, j + 1, x', y', by omega, by omega, by simpa using h3, by simpa using h4, h5⟩
    unfold commonMapC at h
    simp only at h
    split_ifs at h with h0 h1 h2 h3
    · rcases List.mem_cons.1 h with rfl | h
      · exact ⟨0, 0, x, y, rfl, rfl, rfl, rfl, truncToInt_eq_zero h0⟩
      · exact IHl h
    · rcases List.mem_cons.1 h with rfl | h
      · exact ⟨0, 0, x, y, rfl, rfl, rfl, rfl, truncToInt_eq_zero h0⟩
      · exact IHr h
    · rcases List.mem_cons.1 h with rfl | h
      · exact ⟨0, 0, x, y, rfl, rfl, rfl, rfl, truncToInt_eq_zero h0⟩
      · exact IHb h
    · exact IHl h
    · exact IHr h
  termination_by a b => a.length + b.length

end PyGeode.ToolsC
