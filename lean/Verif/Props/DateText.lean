/-
C87: dates written as texts.
-/
import Verif.Model.DateText
import Verif.Props.Cf

namespace PyGeode
open Spec Calendar Cf

namespace DateText

/-! ### what the parts of a pattern match -/

theorem takeWhile_append_of_all {p : Char → Bool} : ∀ {l : Name} (r : Name), (∀ c ∈ l, p c = true) → (l ++ r).takeWhile p = l ++ r.takeWhile p
  | [], _, _ => rfl
  | a :: l, r, h => by
    rw [List.cons_append, List.takeWhile_cons_of_pos (h a (by simp)), takeWhile_append_of_all r fun c hc => h c (List.mem_cons_of_mem _ hc)]
    rfl

theorem mem_chars {n : ℕ} {p : Char → Bool} {mn : ℕ} {mx : Option ℕ} {st st' : State} :
    st' ∈ run n (.chars p mn mx) st ↔ ∃ l, st.1 = l ++ st'.1 ∧ st'.2 = st.2 ∧ (∀ c ∈ l, p c = true) ∧ mn ≤ l.length ∧ ∀ m, mx = some m → l.length ≤ m := by
  unfold run
  simp only [List.mem_map, List.mem_filter, List.mem_reverse, List.mem_range, decide_eq_true_eq]
  have hpre : ∀ j ≤ (st.1.takeWhile p).length, ∀ c ∈ st.1.take j, p c = true := by
    intro j hj c hc
    have h1 : st.1.take j <+: st.1.takeWhile p :=
      List.prefix_of_prefix_length_le (List.take_prefix _ _) (List.takeWhile_prefix p) (by rw [List.length_take]; omega)
    exact List.all_eq_true.1 (List.all_takeWhile (p := p) (l := st.1)) c (h1.subset hc)
  have hle : (st.1.takeWhile p).length ≤ st.1.length := (List.takeWhile_prefix p).length_le
  constructor
  · rintro ⟨j, ⟨hj, hmn⟩, rfl⟩
    have hjk : j ≤ (st.1.takeWhile p).length := by
      cases mx with
      | none => simp at hj; omega
      | some m => simp at hj; omega
    have hl : (st.1.take j).length = j := by rw [List.length_take]; omega
    refine ⟨st.1.take j, (List.take_append_drop _ _).symm, rfl, hpre j hjk, by omega, ?_⟩
    rintro m rfl
    simp at hj; omega
  · rintro ⟨l, h1, h2, h3, h4, h5⟩
    have hk : l.length ≤ (st.1.takeWhile p).length := by
      rw [h1, takeWhile_append_of_all _ h3]; simp
    refine ⟨l.length, ⟨?_, h4⟩, ?_⟩
    · cases mx with
      | none => simp; omega
      | some m => have := h5 m rfl; simp; omega
    · rw [h1, List.drop_left, ← h2]

theorem mem_lit {n : ℕ} {c : Char} {st st' : State} : st' ∈ run n (.lit c) st ↔ st.1 = c :: st'.1 ∧ st'.2 = st.2 := by
  unfold run
  obtain ⟨s, d⟩ := st
  obtain ⟨s', d'⟩ := st'
  cases s with
  | nil => simp
  | cons x s =>
    simp only [List.head?_cons, Option.some.injEq, List.tail_cons]
    split_ifs with h
    · subst h
      simp [Prod.ext_iff, eq_comm]
    · simp [h]

theorem mem_group {n : ℕ} {g : Name} {a : Re} {st st' : State} :
    st' ∈ run n (.group g a) st ↔ ∃ st'' ∈ run n a st, st' = (st''.1, (g, st.1.take (st.1.length - st''.1.length)) :: st''.2) := by
  rw [run, List.mem_map]
  simp only [eq_comm]

theorem mem_num {n : ℕ} {g : String} {mn : ℕ} {mx : Option ℕ} {st st' : State} : st' ∈ run n (num g mn mx) st ↔
    ∃ l, st.1 = l ++ st'.1 ∧ st'.2 = (g.toList, l) :: st.2 ∧ (∀ c ∈ l, c.isDigit = true) ∧ mn ≤ l.length ∧ ∀ m, mx = some m → l.length ≤ m := by
  unfold num
  rw [mem_group]
  constructor
  · rintro ⟨st'', h, rfl⟩
    obtain ⟨l, h1, h2, h3⟩ := mem_chars.1 h
    refine ⟨l, h1, ?_, h3⟩
    simp only [h1, List.length_append, Nat.add_sub_cancel, List.take_left, h2]
  · rintro ⟨l, h1, h2, h3⟩
    refine ⟨(st'.1, st.2), mem_chars.2 ⟨l, h1, rfl, h3⟩, ?_⟩
    refine Prod.ext rfl ?_
    simp only [h1, List.length_append, Nat.add_sub_cancel, List.take_left, h2]

theorem mem_word {n : ℕ} {g : Name} {st st' : State} : st' ∈ run n (.group g (.chars isAlpha 1 none)) st ↔
    ∃ l, st.1 = l ++ st'.1 ∧ st'.2 = (g, l) :: st.2 ∧ (∀ c ∈ l, isAlpha c = true) ∧ l ≠ [] := by
  rw [mem_group]
  constructor
  · rintro ⟨st'', h, rfl⟩
    obtain ⟨l, h1, h2, h3, h4, -⟩ := mem_chars.1 h
    refine ⟨l, h1, ?_, h3, by rintro rfl; simp at h4⟩
    simp only [h1, List.length_append, Nat.add_sub_cancel, List.take_left, h2]
  · rintro ⟨l, h1, h2, h3, h4⟩
    refine ⟨(st'.1, st.2), mem_chars.2 ⟨l, h1, rfl, h3, List.length_pos_of_ne_nil h4, by simp⟩, ?_⟩
    refine Prod.ext rfl ?_
    simp only [h1, List.length_append, Nat.add_sub_cancel, List.take_left, h2]

theorem mem_seq {n : ℕ} {a b : Re} {st st' : State} : st' ∈ run n (.seq a b) st ↔ ∃ t ∈ run n a st, st' ∈ run n b t := by
  rw [run, List.mem_flatMap]

theorem mem_alt {n : ℕ} {a b : Re} {st st' : State} : st' ∈ run n (.alt a b) st ↔ st' ∈ run n a st ∨ st' ∈ run n b st := by
  rw [run, List.mem_append]

theorem mem_opt {n : ℕ} {a : Re} {st st' : State} : st' ∈ run n (.opt a) st ↔ st' ∈ run n a st ∨ st' = st := by
  rw [run, List.mem_append, List.mem_singleton]

theorem mem_bol {n : ℕ} {st st' : State} : st' ∈ run n .bol st ↔ st' = st ∧ st.1.length = n := by
  rw [run]
  split_ifs with h <;> simp [h]

theorem mem_eol {n : ℕ} {st st' : State} : st' ∈ run n .eol st ↔ st' = st ∧ (st.1 = [] ∨ st.1 = ['\n']) := by
  rw [run]
  split_ifs with h <;> simp [h]

theorem run_of_bol (r : Re) (s t : Name) (h : t.length ≠ s.length) : run s.length (.seq .bol r) (t, []) = [] := by
  rw [List.eq_nil_iff_forall_not_mem]
  intro st' hm
  obtain ⟨u, hu, -⟩ := mem_seq.1 hm
  exact h (mem_bol.1 hu).2

theorem search_bol (r : Re) (s : Name) : search (.seq .bol r) s = ((run s.length (.seq .bol r) (s, [])).head?).map Prod.snd := by
  unfold search
  cases s with
  | nil => simp
  | cons a s =>
    rw [List.tails_cons, List.flatMap_cons]
    have : (s.tails.flatMap fun t => run (a :: s).length (.seq .bol r) (t, [])) = [] := by
      rw [List.flatMap_eq_nil_iff]
      intro t ht
      refine run_of_bol r (a :: s) t ?_
      have := ((List.mem_tails _ _).1 ht).length_le
      simp; omega
    rw [this, List.append_nil]

/-- the result of a search if all matches give the same groups -/
theorem search_eq {r : Re} {s : Name} {st : State} (hm : st ∈ run s.length (.seq .bol r) (s, []))
    (hu : ∀ st' ∈ run s.length (.seq .bol r) (s, []), st'.2 = st.2) : search (.seq .bol r) s = some st.2 := by
  rw [search_bol]
  cases hl : run s.length (.seq .bol r) (s, []) with
  | nil => rw [hl] at hm; simp at hm
  | cons x l => rw [List.head?_cons, Option.map_some, hu x (by rw [hl]; simp)]

theorem mem_of_search {r : Re} {s : Name} {d : List (Name × Name)} (h : search (.seq .bol r) s = some d) :
    ∃ e, (e, d) ∈ run s.length (.seq .bol r) (s, []) := by
  rw [search_bol] at h
  cases hl : run s.length (.seq .bol r) (s, []) with
  | nil => rw [hl] at h; simp at h
  | cons x l =>
    rw [hl, List.head?_cons, Option.map_some] at h
    exact ⟨x.1, by rw [← Option.some_injective _ h]; simp⟩

/-! ### the forms of a date -/

/-- a number of `mn` to `mx` digits -/
def _root_.PyGeode.Spec.Digits (mn : ℕ) (mx : Option ℕ) (l : Name) : Prop :=
  (∀ c ∈ l, c.isDigit = true) ∧ mn ≤ l.length ∧ ∀ m, mx = some m → l.length ≤ m

/-- the end of the text, perhaps after a last newline -/
def AtEnd (e : Name) : Prop := e = [] ∨ e = ['\n']

/-- what the first part of pattern 1 matches -/
inductive Pre : Name → List (Name × Name) → Prop where
  | none : Pre [] []
  | hm (h m : Name) (w : Char) : Digits 1 (some 2) h → Digits 2 (some 2) m → isSpace w = true →
      Pre (h ++ ':' :: (m ++ [w])) [("minute".toList, m), ("hour".toList, h)]
  | hms (h m s : Name) : Digits 1 (some 2) h → Digits 2 (some 2) m → Digits 2 (some 2) s →
      Pre (h ++ ':' :: (m ++ ':' :: s)) [("second".toList, s), ("minute".toList, m), ("hour".toList, h)]

/-- what `isoTime` matches -/
inductive Iso : Name → List (Name × Name) → Prop where
  | none : Iso [] []
  | hm (h m : Name) : Digits 2 (some 2) h → Digits 2 (some 2) m → Iso ('T' :: (h ++ ':' :: m)) [("minute".toList, m), ("hour".toList, h)]
  | hms (h m s : Name) : Digits 2 (some 2) h → Digits 2 (some 2) m → Digits 2 (some 2) s →
      Iso ('T' :: (h ++ ':' :: (m ++ ':' :: s))) [("second".toList, s), ("minute".toList, m), ("hour".toList, h)]

theorem mem_iso {n : ℕ} {st st' : State} : st' ∈ run n isoTime st ↔ ∃ t c, st.1 = t ++ st'.1 ∧ st'.2 = c ++ st.2 ∧ Iso t c := by
  unfold isoTime
  simp only [mem_opt, mem_seq, mem_lit, mem_num]
  constructor
  · rintro (⟨t1, ⟨a1, a2⟩, t2, ⟨h, b1, b2, b3⟩, t3, ⟨c1, c2⟩, t4, ⟨m, d1, d2, d3⟩, h5⟩ | rfl)
    · rcases h5 with ⟨t5, ⟨e1, e2⟩, s, f1, f2, f3⟩ | rfl
      · refine ⟨_, _, ?_, ?_, Iso.hms h m s b3 d3 f3⟩
        · rw [a1, b1, c1, d1, e1, f1]; simp
        · rw [f2, e2, d2, c2, b2, a2]; rfl
      · refine ⟨_, _, ?_, ?_, Iso.hm h m b3 d3⟩
        · rw [a1, b1, c1, d1]; simp
        · rw [d2, c2, b2, a2]; rfl
    · exact ⟨[], [], rfl, rfl, Iso.none⟩
  · rintro ⟨t, c, h1, h2, hi⟩
    obtain ⟨s', d'⟩ := st'
    obtain ⟨s0, d0⟩ := st
    simp only at h1 h2
    cases hi with
    | none => right; rw [h1, h2]; rfl
    | hm h m hh hm =>
      left
      refine ⟨(h ++ ':' :: (m ++ s'), d0), ⟨by rw [h1]; simp, rfl⟩, (':' :: (m ++ s'), ("hour".toList, h) :: d0), ⟨h, rfl, rfl, hh⟩,
        (m ++ s', ("hour".toList, h) :: d0), ⟨rfl, rfl⟩, (s', ("minute".toList, m) :: ("hour".toList, h) :: d0), ⟨m, rfl, rfl, hm⟩, Or.inr ?_⟩
      rw [h2]; rfl
    | hms h m s hh hm hs =>
      left
      refine ⟨(h ++ ':' :: (m ++ ':' :: (s ++ s')), d0), ⟨by rw [h1]; simp, rfl⟩, (':' :: (m ++ ':' :: (s ++ s')), ("hour".toList, h) :: d0),
        ⟨h, rfl, rfl, hh⟩, (m ++ ':' :: (s ++ s'), ("hour".toList, h) :: d0), ⟨rfl, rfl⟩,
        (':' :: (s ++ s'), ("minute".toList, m) :: ("hour".toList, h) :: d0), ⟨m, rfl, rfl, hm⟩, Or.inl ?_⟩
      refine ⟨(s ++ s', _), ⟨rfl, rfl⟩, s, rfl, ?_, hs⟩
      rw [h2]; rfl

/-- what pattern 1 matches -/
theorem mem_pattern1 {s e : Name} {caps : List (Name × Name)} : (e, caps) ∈ run s.length pattern1 (s, []) ↔
    ∃ pre c d mon y, s = pre ++ (d ++ ' ' :: (mon ++ ' ' :: (y ++ e))) ∧ Pre pre c ∧ Digits 1 (some 2) d ∧
      ((∀ x ∈ mon, isAlpha x = true) ∧ mon ≠ []) ∧ Digits 1 none y ∧ AtEnd e ∧
      caps = ("year".toList, y) :: ("month".toList, mon) :: ("day".toList, d) :: c := by
  unfold pattern1
  simp only [mem_seq, mem_bol, mem_alt, mem_lit, mem_num, mem_word, mem_eol, mem_chars]
  constructor
  · rintro ⟨t0, ⟨rfl, -⟩, t1, hpre, t2, ⟨d, a1, a2, a3⟩, t3, ⟨b1, b2⟩, t4, ⟨mon, c1, c2, c3⟩, t5, ⟨d1, d2⟩, t6, ⟨y, e1, e2, e3⟩, he, hend⟩
    have he1 : e = t6.1 := congrArg Prod.fst he
    have he2 : caps = t6.2 := congrArg Prod.snd he
    rcases hpre with ⟨u1, ⟨h, f1, f2, f3⟩, u2, ⟨g1, g2⟩, u3, ⟨m, i1, i2, i3⟩, hs⟩ | ⟨rfl, -⟩
    · rcases hs with ⟨w, j1, j2, j3, j4, j5⟩ | ⟨u4, ⟨j1, j2⟩, sec, k1, k2, k3⟩
      · have hw1 : w.length = 1 := le_antisymm (j5 1 rfl) j4
        obtain ⟨w, rfl⟩ := List.length_eq_one_iff.1 hw1
        refine ⟨_, _, d, mon, y, ?_, Pre.hm h m w f3 i3 (j3 w (by simp)), a3, c3, e3, by rw [he1]; exact hend, ?_⟩
        · simp only at f1
          rw [f1, g1, i1, j1, a1, b1, c1, d1, e1, he1]; simp
        · rw [he2, e2, d2, c2, b2, a2, j2, i2, g2, f2]
      · refine ⟨_, _, d, mon, y, ?_, Pre.hms h m sec f3 i3 k3, a3, c3, e3, by rw [he1]; exact hend, ?_⟩
        · simp only at f1
          rw [f1, g1, i1, j1, k1, a1, b1, c1, d1, e1, he1]; simp
        · rw [he2, e2, d2, c2, b2, a2, k2, j2, i2, g2, f2]
    · refine ⟨[], [], d, mon, y, ?_, Pre.none, a3, c3, e3, by rw [he1]; exact hend, ?_⟩
      · simp only at a1
        rw [a1, b1, c1, d1, e1, he1]; simp
      · rw [he2, e2, d2, c2, b2, a2]
  · rintro ⟨pre, c, d, mon, y, hs, hpre, hd, hmon, hy, he, rfl⟩
    refine ⟨(s, []), ⟨rfl, trivial⟩, (d ++ ' ' :: (mon ++ ' ' :: (y ++ e)), c), ?_, (' ' :: (mon ++ ' ' :: (y ++ e)), ("day".toList, d) :: c),
      ⟨d, rfl, rfl, hd⟩, (mon ++ ' ' :: (y ++ e), ("day".toList, d) :: c), ⟨rfl, rfl⟩, (' ' :: (y ++ e), ("month".toList, mon) :: ("day".toList, d) :: c),
      ⟨mon, rfl, rfl, hmon⟩, (y ++ e, ("month".toList, mon) :: ("day".toList, d) :: c), ⟨rfl, rfl⟩,
      (e, ("year".toList, y) :: ("month".toList, mon) :: ("day".toList, d) :: c), ⟨y, rfl, rfl, hy⟩, rfl, he⟩
    set r := d ++ ' ' :: (mon ++ ' ' :: (y ++ e)) with hr
    cases hpre with
    | none => right; exact ⟨Prod.ext hs.symm rfl, rfl⟩
    | hm h m w hh hm hw =>
      left
      refine ⟨(':' :: (m ++ w :: r), [("hour".toList, h)]), ⟨h, by rw [hs]; simp, rfl, hh⟩, (m ++ w :: r, [("hour".toList, h)]), ⟨rfl, rfl⟩,
        (w :: r, [("minute".toList, m), ("hour".toList, h)]), ⟨m, rfl, rfl, hm⟩, Or.inl ⟨[w], rfl, rfl, by simpa using hw, le_refl _, ?_⟩⟩
      intro k hk; rw [← Option.some_injective _ hk]; rfl
    | hms h m sec hh hm hsec =>
      left
      exact ⟨(':' :: (m ++ ':' :: (sec ++ r)), [("hour".toList, h)]), ⟨h, by rw [hs]; simp, rfl, hh⟩, (m ++ ':' :: (sec ++ r), [("hour".toList, h)]),
        ⟨rfl, rfl⟩, (':' :: (sec ++ r), [("minute".toList, m), ("hour".toList, h)]), ⟨m, rfl, rfl, hm⟩,
        Or.inr ⟨(sec ++ r, _), ⟨rfl, rfl⟩, sec, rfl, rfl, hsec⟩⟩

/-- what pattern 2 matches after the year -/
inductive Mid : Name → List (Name × Name) → Prop where
  | none : Mid [] []
  | m (m : Name) : Digits 2 (some 2) m → Mid ('-' :: m) [("month".toList, m)]
  | md (m d t : Name) (c : List (Name × Name)) : Digits 2 (some 2) m → Digits 2 (some 2) d → Iso t c →
      Mid ('-' :: (m ++ '-' :: (d ++ t))) (c ++ [("day".toList, d), ("month".toList, m)])

/-- what pattern 3 matches after the year -/
inductive Ord : Name → List (Name × Name) → Prop where
  | none : Ord [] []
  | d (d t : Name) (c : List (Name × Name)) : Digits 3 (some 3) d → Iso t c → Ord ('-' :: (d ++ t)) (c ++ [("day".toList, d)])

theorem mem_pattern2 {s e : Name} {caps : List (Name × Name)} : (e, caps) ∈ run s.length pattern2 (s, []) ↔
    ∃ y r c, s = y ++ (r ++ e) ∧ Digits 1 none y ∧ Mid r c ∧ AtEnd e ∧ caps = c ++ [("year".toList, y)] := by
  unfold pattern2
  simp only [mem_seq, mem_bol, mem_lit, mem_num, mem_eol, mem_opt, mem_iso]
  constructor
  · rintro ⟨t0, ⟨rfl, -⟩, t1, ⟨y, a1, a2, a3⟩, t2, hr, he, hend⟩
    have he1 : e = t2.1 := congrArg Prod.fst he
    have he2 : caps = t2.2 := congrArg Prod.snd he
    simp only at a1 a2
    rcases hr with ⟨u1, ⟨b1, b2⟩, u2, ⟨m, c1, c2, c3⟩, hr⟩ | rfl
    · rcases hr with ⟨u3, ⟨d1, d2⟩, u4, ⟨d, f1, f2, f3⟩, t, c, g1, g2, g3⟩ | rfl
      · refine ⟨y, _, _, ?_, a3, Mid.md m d t c c3 f3 g3, by rw [he1]; exact hend, ?_⟩
        · rw [a1, b1, c1, d1, f1, g1, he1]; simp
        · rw [he2, g2, f2, d2, c2, b2, a2]; simp
      · refine ⟨y, _, _, ?_, a3, Mid.m m c3, by rw [he1]; exact hend, ?_⟩
        · rw [a1, b1, c1, he1]; simp
        · rw [he2, c2, b2, a2]; rfl
    · refine ⟨y, [], [], ?_, a3, Mid.none, by rw [he1]; exact hend, ?_⟩
      · rw [a1, he1]; rfl
      · rw [he2, a2]; rfl
  · rintro ⟨y, r, c, hs, hy, hr, he, rfl⟩
    refine ⟨(s, []), ⟨rfl, trivial⟩, (r ++ e, [("year".toList, y)]), ⟨y, hs, rfl, hy⟩, (e, c ++ [("year".toList, y)]), ?_, rfl, he⟩
    cases hr with
    | none => right; rfl
    | m m hm =>
      left
      exact ⟨(m ++ e, _), ⟨rfl, rfl⟩, (e, _), ⟨m, rfl, rfl, hm⟩, Or.inr rfl⟩
    | md m d t c hm hd ht =>
      left
      refine ⟨(m ++ '-' :: (d ++ (t ++ e)), _), ⟨by simp, rfl⟩, ('-' :: (d ++ (t ++ e)), _), ⟨m, rfl, rfl, hm⟩, Or.inl ?_⟩
      exact ⟨(d ++ (t ++ e), _), ⟨rfl, rfl⟩, (t ++ e, _), ⟨d, rfl, rfl, hd⟩, t, c, rfl, by simp, ht⟩

theorem mem_pattern3 {s e : Name} {caps : List (Name × Name)} : (e, caps) ∈ run s.length pattern3 (s, []) ↔
    ∃ y r c, s = y ++ (r ++ e) ∧ Digits 1 none y ∧ Ord r c ∧ AtEnd e ∧ caps = c ++ [("year".toList, y)] := by
  unfold pattern3
  simp only [mem_seq, mem_bol, mem_lit, mem_num, mem_eol, mem_opt, mem_iso]
  constructor
  · rintro ⟨t0, ⟨rfl, -⟩, t1, ⟨y, a1, a2, a3⟩, t2, hr, he, hend⟩
    have he1 : e = t2.1 := congrArg Prod.fst he
    have he2 : caps = t2.2 := congrArg Prod.snd he
    simp only at a1 a2
    rcases hr with ⟨u1, ⟨b1, b2⟩, u2, ⟨m, c1, c2, c3⟩, t, c, g1, g2, g3⟩ | rfl
    · refine ⟨y, _, _, ?_, a3, Ord.d m t c c3 g3, by rw [he1]; exact hend, ?_⟩
      · rw [a1, b1, c1, g1, he1]; simp
      · rw [he2, g2, c2, b2, a2]; simp
    · refine ⟨y, [], [], ?_, a3, Ord.none, by rw [he1]; exact hend, ?_⟩
      · rw [a1, he1]; rfl
      · rw [he2, a2]; rfl
  · rintro ⟨y, r, c, hs, hy, hr, he, rfl⟩
    refine ⟨(s, []), ⟨rfl, trivial⟩, (r ++ e, [("year".toList, y)]), ⟨y, hs, rfl, hy⟩, (e, c ++ [("year".toList, y)]), ?_, rfl, he⟩
    cases hr with
    | none => right; rfl
    | d d t c hd ht =>
      left
      exact ⟨(d ++ (t ++ e), _), ⟨by simp, rfl⟩, (t ++ e, _), ⟨d, rfl, rfl, hd⟩, t, c, rfl, by simp, ht⟩

/-! ### there is one way to read a text -/

/-- a run of characters of a class is determined by what follows -/
theorem span_unique {p : Char → Bool} {l r l' r' : Name} (hl : ∀ c ∈ l, p c = true) (hr : ∀ x, r.head? = some x → p x = false)
    (hl' : ∀ c ∈ l', p c = true) (hr' : ∀ x, r'.head? = some x → p x = false) (h : l ++ r = l' ++ r') : l = l' ∧ r = r' := by
  have key : ∀ {l r : Name}, (∀ c ∈ l, p c = true) → (∀ x, r.head? = some x → p x = false) → (l ++ r).takeWhile p = l := by
    intro l r hl hr
    rw [takeWhile_append_of_all _ hl]
    cases r with
    | nil => simp
    | cons x r => rw [List.takeWhile_cons_of_neg (by simpa using hr x rfl), List.append_nil]
  have h1 : l = l' := by rw [← key hl hr, ← key hl' hr', h]
  subst h1
  exact ⟨rfl, List.append_cancel_left h⟩

theorem head_cons {p : Char → Bool} {x : Char} {r : Name} (h : p x = false) : ∀ y, (x :: r).head? = some y → p y = false := by
  intro y hy
  rw [List.head?_cons] at hy
  rw [← Option.some_injective _ hy]; exact h

theorem fixed {k : ℕ} {l r l' r' : Name} (hl : Digits k (some k) l) (hl' : Digits k (some k) l') (h : l ++ r = l' ++ r') : l = l' ∧ r = r' :=
  List.append_inj h (by have := hl.2.2 k rfl; have := hl'.2.2 k rfl; have := hl.2.1; have := hl'.2.1; omega)

theorem atEnd_digit {e : Name} (h : AtEnd e) : ∀ x, e.head? = some x → x.isDigit = false := by
  intro x hx
  rcases h with rfl | rfl
  · simp at hx
  · rw [← Option.some_injective _ hx]; rfl

theorem atEnd_ne {e r : Name} {x : Char} (h : AtEnd e) (hx : x ≠ '\n') : e ≠ x :: r := by
  rcases h with rfl | rfl
  · simp
  · intro hh; exact hx (List.cons.inj hh).1.symm

theorem iso_unique {t t' e e' : Name} {c c' : List (Name × Name)} (h : Iso t c) (h' : Iso t' c') (he : AtEnd e) (he' : AtEnd e')
    (hh : t ++ e = t' ++ e') : c = c' := by
  cases h with
  | none =>
    cases h' with
    | none => rfl
    | hm => exact absurd hh (atEnd_ne he (by decide))
    | hms => exact absurd hh (atEnd_ne he (by decide))
  | hm h m a b =>
    cases h' with
    | none => exact absurd hh.symm (atEnd_ne he' (by decide))
    | hm h' m' a' b' =>
      simp only [List.cons_append, List.append_assoc] at hh
      obtain ⟨rfl, h2⟩ := fixed a a' (List.cons.inj hh).2
      obtain ⟨rfl, -⟩ := fixed b b' (List.cons.inj h2).2
      rfl
    | hms h' m' s' a' b' d' =>
      simp only [List.cons_append, List.append_assoc] at hh
      obtain ⟨rfl, h2⟩ := fixed a a' (List.cons.inj hh).2
      obtain ⟨rfl, h3⟩ := fixed b b' (List.cons.inj h2).2
      exact absurd h3 (atEnd_ne he (by decide))
  | hms h m s a b d =>
    cases h' with
    | none => exact absurd hh.symm (atEnd_ne he' (by decide))
    | hm h' m' a' b' =>
      simp only [List.cons_append, List.append_assoc] at hh
      obtain ⟨rfl, h2⟩ := fixed a a' (List.cons.inj hh).2
      obtain ⟨rfl, h3⟩ := fixed b b' (List.cons.inj h2).2
      exact absurd h3.symm (atEnd_ne he' (by decide))
    | hms h' m' s' a' b' d' =>
      simp only [List.cons_append, List.append_assoc] at hh
      obtain ⟨rfl, h2⟩ := fixed a a' (List.cons.inj hh).2
      obtain ⟨rfl, h3⟩ := fixed b b' (List.cons.inj h2).2
      obtain ⟨rfl, -⟩ := fixed d d' (List.cons.inj h3).2
      rfl

theorem digits_head {mn : ℕ} {mx : Option ℕ} {l r : Name} (h : Digits (mn + 1) mx l) : ∃ x t, l ++ r = x :: t ∧ x.isDigit = true := by
  cases l with
  | nil => have := h.2.1; simp at this
  | cons x l => exact ⟨x, l ++ r, rfl, h.1 x (by simp)⟩

theorem iso_end {t e r : Name} {c : List (Name × Name)} {x : Char} (h : Iso t c) (he : AtEnd e) (hx : x.isDigit = true) : t ++ e ≠ x :: r := by
  intro hh
  have : ∃ y s, x :: r = y :: s ∧ y.isDigit = false := by
    cases h with
    | none =>
      rcases he with rfl | rfl
      · simp at hh
      · exact ⟨'\n', [], hh.symm, rfl⟩
    | hm => exact ⟨'T', _, hh.symm, rfl⟩
    | hms => exact ⟨'T', _, hh.symm, rfl⟩
  obtain ⟨y, s, h1, h2⟩ := this
  rw [(List.cons.inj h1).1] at hx
  rw [hx] at h2
  exact absurd h2 (by simp)

theorem mid_head {r e : Name} {c : List (Name × Name)} (h : Mid r c) (he : AtEnd e) : ∀ x, (r ++ e).head? = some x → x.isDigit = false := by
  cases h with
  | none => exact atEnd_digit he
  | m => exact head_cons rfl
  | md => exact head_cons rfl

theorem ord_head {r e : Name} {c : List (Name × Name)} (h : Ord r c) (he : AtEnd e) : ∀ x, (r ++ e).head? = some x → x.isDigit = false := by
  cases h with
  | none => exact atEnd_digit he
  | d => exact head_cons rfl

theorem mid_unique {t t' e e' : Name} {c c' : List (Name × Name)} (h : Mid t c) (h' : Mid t' c') (he : AtEnd e) (he' : AtEnd e')
    (hh : t ++ e = t' ++ e') : c = c' := by
  cases h with
  | none =>
    cases h' with
    | none => rfl
    | m => exact absurd hh (atEnd_ne he (by decide))
    | md => exact absurd hh (atEnd_ne he (by decide))
  | m m a =>
    cases h' with
    | none => exact absurd hh.symm (atEnd_ne he' (by decide))
    | m m' a' =>
      obtain ⟨rfl, -⟩ := fixed a a' (List.cons.inj hh).2
      rfl
    | md m' d' s' c' a' b' d' =>
      simp only [List.cons_append, List.append_assoc] at hh
      obtain ⟨rfl, h3⟩ := fixed a a' (List.cons.inj hh).2
      exact absurd h3 (atEnd_ne he (by decide))
  | md m d t c a b i =>
    cases h' with
    | none => exact absurd hh.symm (atEnd_ne he' (by decide))
    | m m' a' =>
      simp only [List.cons_append, List.append_assoc] at hh
      obtain ⟨rfl, h3⟩ := fixed a a' (List.cons.inj hh).2
      exact absurd h3.symm (atEnd_ne he' (by decide))
    | md m' d' s' c' a' b' i' =>
      simp only [List.cons_append, List.append_assoc] at hh
      obtain ⟨rfl, h3⟩ := fixed a a' (List.cons.inj hh).2
      obtain ⟨rfl, h4⟩ := fixed b b' (List.cons.inj h3).2
      rw [iso_unique i i' he he' h4]

theorem ord_unique {t t' e e' : Name} {c c' : List (Name × Name)} (h : Ord t c) (h' : Ord t' c') (he : AtEnd e) (he' : AtEnd e')
    (hh : t ++ e = t' ++ e') : c = c' := by
  cases h with
  | none =>
    cases h' with
    | none => rfl
    | d => exact absurd hh (atEnd_ne he (by decide))
  | d d t c a i =>
    cases h' with
    | none => exact absurd hh.symm (atEnd_ne he' (by decide))
    | d d' t' c' a' i' =>
      simp only [List.cons_append, List.append_assoc] at hh
      obtain ⟨rfl, h3⟩ := fixed a a' (List.cons.inj hh).2
      rw [iso_unique i i' he he' h3]

/-- a month or a day of the month is not a day of the year -/
theorem mid_ord_disjoint {t e e' d t' : Name} {c c' : List (Name × Name)} (h : Mid t c) (a : Digits 3 (some 3) d) (_i : Iso t' c')
    (he : AtEnd e) (_he' : AtEnd e') (hh : t ++ e = '-' :: (d ++ t') ++ e') : False := by
  obtain ⟨x1, x2, x3, rfl⟩ : ∃ x1 x2 x3, d = [x1, x2, x3] := List.length_eq_three.1 (le_antisymm (a.2.2 3 rfl) a.2.1)
  have h3 : x3.isDigit = true := a.1 x3 (by simp)
  cases h with
  | none => exact absurd hh (atEnd_ne he (by decide))
  | m m b =>
    obtain ⟨y1, y2, rfl⟩ : ∃ y1 y2, m = [y1, y2] := List.length_eq_two.1 (le_antisymm (b.2.2 2 rfl) b.2.1)
    simp only [List.cons_append, List.nil_append, List.cons.injEq] at hh
    exact atEnd_ne he (by rintro rfl; exact absurd h3 (by decide)) hh.2.2.2
  | md m d t c b _ _ =>
    obtain ⟨y1, y2, rfl⟩ : ∃ y1 y2, m = [y1, y2] := List.length_eq_two.1 (le_antisymm (b.2.2 2 rfl) b.2.1)
    simp only [List.cons_append, List.nil_append, List.cons.injEq] at hh
    rw [← hh.2.2.2.1] at h3
    exact absurd h3 (by decide)

theorem space_not_digit : (' ').isDigit = false := rfl

theorem pre_unique {pre pre' d d' r r' : Name} {c c' : List (Name × Name)} (h : Pre pre c) (h' : Pre pre' c') (hd : Digits 1 (some 2) d)
    (hd' : Digits 1 (some 2) d') (hh : pre ++ (d ++ ' ' :: r) = pre' ++ (d' ++ ' ' :: r')) : c = c' ∧ d = d' ∧ r = r' := by
  have hfin : ∀ {d d' r r' : Name}, Digits 1 (some 2) d → Digits 1 (some 2) d' → d ++ ' ' :: r = d' ++ ' ' :: r' → d = d' ∧ r = r' := by
    intro d d' r r' hd hd' h
    obtain ⟨h1, h2⟩ := span_unique (p := Char.isDigit) hd.1 (head_cons rfl) hd'.1 (head_cons rfl) h
    exact ⟨h1, (List.cons.inj h2).2⟩
  have hcol : ∀ {d h r t : Name}, Digits 1 (some 2) d → Digits 1 (some 2) h → d ++ ' ' :: r ≠ h ++ ':' :: t := by
    intro d h r t hd hh h
    obtain ⟨-, h2⟩ := span_unique (p := Char.isDigit) hd.1 (head_cons rfl) hh.1 (head_cons rfl) h
    exact absurd (List.cons.inj h2).1 (by decide)
  cases h with
  | none =>
    cases h' with
    | none => obtain ⟨a, b⟩ := hfin hd hd' hh; exact ⟨rfl, a, b⟩
    | hm h m w a => simp only [List.nil_append, List.append_assoc, List.cons_append] at hh; exact absurd hh (hcol hd a)
    | hms h m s a => simp only [List.nil_append, List.append_assoc, List.cons_append] at hh; exact absurd hh (hcol hd a)
  | hm h m w a b hw =>
    cases h' with
    | none => simp only [List.nil_append, List.append_assoc, List.cons_append] at hh; exact absurd hh.symm (hcol hd' a)
    | hm h' m' w' a' b' hw' =>
      simp only [List.append_assoc, List.cons_append, List.nil_append] at hh
      obtain ⟨rfl, h2⟩ := span_unique (p := Char.isDigit) a.1 (head_cons rfl) a'.1 (head_cons rfl) hh
      obtain ⟨rfl, h3⟩ := fixed b b' (List.cons.inj h2).2
      obtain ⟨h4, h5⟩ := hfin hd hd' (List.cons.inj h3).2
      exact ⟨rfl, h4, h5⟩
    | hms h' m' s' a' b' _ =>
      simp only [List.append_assoc, List.cons_append, List.nil_append] at hh
      obtain ⟨rfl, h2⟩ := span_unique (p := Char.isDigit) a.1 (head_cons rfl) a'.1 (head_cons rfl) hh
      obtain ⟨rfl, h3⟩ := fixed b b' (List.cons.inj h2).2
      rw [(List.cons.inj h3).1] at hw
      exact absurd hw (by decide)
  | hms h m s a b hs =>
    cases h' with
    | none => simp only [List.nil_append, List.append_assoc, List.cons_append] at hh; exact absurd hh.symm (hcol hd' a)
    | hm h' m' w' a' b' hw' =>
      simp only [List.append_assoc, List.cons_append, List.nil_append] at hh
      obtain ⟨rfl, h2⟩ := span_unique (p := Char.isDigit) a.1 (head_cons rfl) a'.1 (head_cons rfl) hh
      obtain ⟨rfl, h3⟩ := fixed b b' (List.cons.inj h2).2
      rw [← (List.cons.inj h3).1] at hw'
      exact absurd hw' (by decide)
    | hms h' m' s' a' b' hs' =>
      simp only [List.append_assoc, List.cons_append, List.nil_append] at hh
      obtain ⟨rfl, h2⟩ := span_unique (p := Char.isDigit) a.1 (head_cons rfl) a'.1 (head_cons rfl) hh
      obtain ⟨rfl, h3⟩ := fixed b b' (List.cons.inj h2).2
      obtain ⟨rfl, h6⟩ := fixed hs hs' (List.cons.inj h3).2
      obtain ⟨h4, h5⟩ := hfin hd hd' h6
      exact ⟨rfl, h4, h5⟩

/-! ### the searches -/

theorem search1 {pre c d mon y e} (hpre : Pre pre c) (hd : Digits 1 (some 2) d) (hmon : (∀ x ∈ mon, isAlpha x = true) ∧ mon ≠ [])
    (hy : Digits 1 none y) (he : AtEnd e) : search pattern1 (pre ++ (d ++ ' ' :: (mon ++ ' ' :: (y ++ e)))) =
      some (("year".toList, y) :: ("month".toList, mon) :: ("day".toList, d) :: c) := by
  refine search_eq (mem_pattern1.2 ⟨pre, c, d, mon, y, rfl, hpre, hd, hmon, hy, he, rfl⟩) ?_
  rintro ⟨e', caps⟩ hm
  obtain ⟨pre', c', d', mon', y', h1, h2, h3, h4, h5, h6, rfl⟩ := mem_pattern1.1 hm
  obtain ⟨rfl, rfl, hr⟩ := pre_unique hpre h2 hd h3 h1
  obtain ⟨rfl, hr2⟩ := span_unique (p := isAlpha) hmon.1 (head_cons rfl) h4.1 (head_cons rfl) hr
  obtain ⟨rfl, -⟩ := span_unique (p := Char.isDigit) hy.1 (atEnd_digit he) h5.1 (atEnd_digit h6) (List.cons.inj hr2).2
  rfl

theorem search2 {y r c e} (hy : Digits 1 none y) (hr : Mid r c) (he : AtEnd e) :
    search pattern2 (y ++ (r ++ e)) = some (c ++ [("year".toList, y)]) := by
  refine search_eq (mem_pattern2.2 ⟨y, r, c, rfl, hy, hr, he, rfl⟩) ?_
  rintro ⟨e', caps⟩ hm
  obtain ⟨y', r', c', h1, h2, h3, h4, rfl⟩ := mem_pattern2.1 hm
  obtain ⟨rfl, hr2⟩ := span_unique (p := Char.isDigit) hy.1 (mid_head hr he) h2.1 (mid_head h3 h4) h1
  rw [mid_unique hr h3 he h4 hr2]

theorem search3 {y r c e} (hy : Digits 1 none y) (hr : Ord r c) (he : AtEnd e) :
    search pattern3 (y ++ (r ++ e)) = some (c ++ [("year".toList, y)]) := by
  refine search_eq (mem_pattern3.2 ⟨y, r, c, rfl, hy, hr, he, rfl⟩) ?_
  rintro ⟨e', caps⟩ hm
  obtain ⟨y', r', c', h1, h2, h3, h4, rfl⟩ := mem_pattern3.1 hm
  obtain ⟨rfl, hr2⟩ := span_unique (p := Char.isDigit) hy.1 (ord_head hr he) h2.1 (ord_head h3 h4) h1
  rw [ord_unique hr h3 he h4 hr2]

/-! ### the dates read -/

/-- the number written with the digits `l` -/
def _root_.PyGeode.Spec.decimal (l : Name) : ℤ := ((l.foldl (fun n c => 10 * n + (c.toNat - 48)) 0 : ℕ) : ℤ)

/-- the month words understood, in any case; the first is month 0 -/
def _root_.PyGeode.Spec.monthWords : List String :=
  ["smarch", "jan", "feb", "mar", "apr", "may", "jun", "jul", "aug", "sep", "oct", "nov", "dec"]

/-- `w` is the word for month `m` -/
def _root_.PyGeode.Spec.MonthWord (w : Name) (m : ℤ) : Prop :=
  (∀ x ∈ w, isAlpha x = true) ∧ ∃ k : ℕ, monthWords[k]?.map String.toList = some (lower w) ∧ m = k

/-- a time of the day before a date: `hh:mm` and white space, or `hh:mm:ss` without -/
inductive _root_.PyGeode.Spec.ClockBefore : Name → Option ℤ → Option ℤ → Option ℤ → Prop where
  | none : ClockBefore [] none none none
  | hm (h m : Name) (w : Char) : Digits 1 (some 2) h → Digits 2 (some 2) m → isSpace w = true →
      ClockBefore (h ++ ':' :: (m ++ [w])) (some (decimal h)) (some (decimal m)) none
  | hms (h m s : Name) : Digits 1 (some 2) h → Digits 2 (some 2) m → Digits 2 (some 2) s →
      ClockBefore (h ++ ':' :: (m ++ ':' :: s)) (some (decimal h)) (some (decimal m)) (some (decimal s))

/-- a time of the day after a date: `Thh:mm` or `Thh:mm:ss` -/
inductive _root_.PyGeode.Spec.ClockAfter : Name → Option ℤ → Option ℤ → Option ℤ → Prop where
  | none : ClockAfter [] none none none
  | hm (h m : Name) : Digits 2 (some 2) h → Digits 2 (some 2) m →
      ClockAfter ('T' :: (h ++ ':' :: m)) (some (decimal h)) (some (decimal m)) none
  | hms (h m s : Name) : Digits 2 (some 2) h → Digits 2 (some 2) m → Digits 2 (some 2) s →
      ClockAfter ('T' :: (h ++ ':' :: (m ++ ':' :: s))) (some (decimal h)) (some (decimal m)) (some (decimal s))

/-- the texts that are dates, and the fields they give: `12 Dec 2008` with a time before it, `2008`, `2008-12`, `2008-12-12` and
`2008-347` with a time after them -/
inductive _root_.PyGeode.Spec.WrittenDate : Name → DateDict → Prop where
  | named (t d w y : Name) (m : ℤ) (h mi s : Option ℤ) : ClockBefore t h mi s → Digits 1 (some 2) d → MonthWord w m → Digits 1 none y →
      WrittenDate (t ++ (d ++ ' ' :: (w ++ ' ' :: y))) ⟨some (decimal y), some m, some (decimal d), h, mi, s⟩
  | year (y : Name) : Digits 1 none y → WrittenDate y { year := some (decimal y) }
  | month (y m : Name) : Digits 1 none y → Digits 2 (some 2) m →
      WrittenDate (y ++ '-' :: m) { year := some (decimal y), month := some (decimal m) }
  | day (y m d t : Name) (h mi s : Option ℤ) : Digits 1 none y → Digits 2 (some 2) m → Digits 2 (some 2) d → ClockAfter t h mi s →
      WrittenDate (y ++ '-' :: (m ++ '-' :: (d ++ t))) ⟨some (decimal y), some (decimal m), some (decimal d), h, mi, s⟩
  | dayOfYear (y d t : Name) (h mi s : Option ℤ) : Digits 1 none y → Digits 3 (some 3) d → ClockAfter t h mi s →
      WrittenDate (y ++ '-' :: (d ++ t)) ⟨some (decimal y), none, some (decimal d), h, mi, s⟩

theorem decimal_eq (l : Name) : (Nat.ofDigitChars 10 l 0 : ℤ) = decimal l := rfl

theorem int_digits {mn : ℕ} {mx : Option ℕ} {l : Name} (h : Digits (mn + 1) mx l) : int? l = some (decimal l) := by
  unfold int?
  rw [if_pos ⟨by rintro rfl; have := h.2.1; simp at this, List.all_eq_true.2 h.1⟩, decimal_eq]

theorem lower_digit {c : Char} (h : c.isDigit = true) : c.toLower = c := by
  unfold Char.toLower
  unfold Char.isDigit at h
  rw [Bool.and_eq_true, decide_eq_true_eq, decide_eq_true_eq] at h
  rw [dif_neg]
  rintro ⟨h1, -⟩
  have := h.2
  simp only [ge_iff_le, UInt32.le_iff_toNat_le] at this h1
  revert this h1
  simp only [Char.reduceVal, UInt32.reduceToNat]
  omega

theorem month_digits {l : Name} (h : Digits 2 (some 2) l) : month? l = some (decimal l) := by
  unfold month?
  rw [if_neg, int_digits h]
  have hl : lower l = l := by
    unfold lower
    refine (List.map_congr_left fun c hc => lower_digit (h.1 c hc)).trans (List.map_id l)
  rw [hl]
  obtain ⟨x, t, h1, h2⟩ := digits_head (r := []) h
  rw [List.append_nil] at h1
  rw [h1]
  intro hm
  have : ∀ w ∈ months.map lower, (w.head?.map Char.isDigit) = some false := by decide
  have := this _ hm
  rw [List.head?_cons, Option.map_some, h2] at this
  exact absurd this (by simp)

theorem month_word {w : Name} (h : ∀ x ∈ w, isAlpha x = true) (hne : w ≠ []) {m : ℤ} : month? w = some m ↔ MonthWord w m := by
  have hm : months.map lower = monthWords.map String.toList := by decide
  unfold month? MonthWord
  rw [hm]
  constructor
  · intro hh
    split_ifs at hh with h1
    · refine ⟨h, _, ?_, (Option.some_injective _ hh).symm⟩
      rw [← List.getElem?_map, List.getElem?_idxOf h1]
    · exfalso
      unfold int? at hh
      rw [if_neg] at hh
      · simp at hh
      · rintro ⟨-, h2⟩
        cases w with
        | nil => exact hne rfl
        | cons x w =>
          have a := h x (by simp)
          have b := List.all_eq_true.1 h2 x (by simp)
          unfold isAlpha at a
          unfold Char.isDigit at b
          simp only [Bool.or_eq_true, Bool.and_eq_true, decide_eq_true_eq, UInt32.le_iff_toNat_le, Char.le_def] at a b
          revert a b
          simp only [Char.reduceVal, UInt32.reduceToNat]
          omega
  · rintro ⟨-, k, h1, rfl⟩
    rw [← List.getElem?_map] at h1
    rw [if_pos (List.mem_of_getElem? h1)]
    obtain ⟨hk, h2⟩ := List.getElem?_eq_some_iff.1 h1
    rw [← h2, List.Nodup.idxOf_getElem (by decide)]

/-- the fields that the groups of a time of the day give -/
structure ClockFields (c : List (Name × Name)) (h mi s : Option ℤ) : Prop where
  hour : field? int? c "hour" = some h
  minute : field? int? c "minute" = some mi
  second : field? int? c "second" = some s
  rest : ∀ k ∈ ["year", "month", "day"], c.lookup k.toList = none

theorem field_cons_ne {conv : Name → Option ℤ} {k' : Name} {k : String} {v : Name} {c : List (Name × Name)} (h : k.toList ≠ k') :
    field? conv ((k', v) :: c) k = field? conv c k := by
  unfold field?
  rw [List.lookup_cons, show (k.toList == k') = false by simpa using h]

theorem field_cons {conv : Name → Option ℤ} {k : String} {v : Name} {c : List (Name × Name)} :
    field? conv ((k.toList, v) :: c) k = (conv v).map some := by
  unfold field?
  rw [List.lookup_cons, show (k.toList == k.toList) = true by simp]

theorem field_nil {conv : Name → Option ℤ} {k : String} : field? conv [] k = some none := rfl

theorem clock_pre {t : Name} {c : List (Name × Name)} (h : Pre t c) : ∃ h mi s, ClockBefore t h mi s ∧ ClockFields c h mi s := by
  cases h with
  | none => exact ⟨_, _, _, .none, rfl, rfl, rfl, by simp⟩
  | hm h m w a b d =>
    refine ⟨_, _, _, .hm h m w a b d, ?_, ?_, ?_, by rintro k hk; simp at hk; rcases hk with rfl | rfl | rfl <;> rfl⟩
    · rw [field_cons_ne (by decide), field_cons, int_digits a]; rfl
    · rw [field_cons, int_digits b]; rfl
    · rw [field_cons_ne (by decide), field_cons_ne (by decide), field_nil]
  | hms h m s a b d =>
    refine ⟨_, _, _, .hms h m s a b d, ?_, ?_, ?_, by rintro k hk; simp at hk; rcases hk with rfl | rfl | rfl <;> rfl⟩
    · rw [field_cons_ne (by decide), field_cons_ne (by decide), field_cons, int_digits a]; rfl
    · rw [field_cons_ne (by decide), field_cons, int_digits b]; rfl
    · rw [field_cons, int_digits d]; rfl

theorem clock_iso {t : Name} {c : List (Name × Name)} (h : Iso t c) : ∃ h mi s, ClockAfter t h mi s ∧ ClockFields c h mi s := by
  cases h with
  | none => exact ⟨_, _, _, .none, rfl, rfl, rfl, by simp⟩
  | hm h m a b =>
    refine ⟨_, _, _, .hm h m a b, ?_, ?_, ?_, by rintro k hk; simp at hk; rcases hk with rfl | rfl | rfl <;> rfl⟩
    · rw [field_cons_ne (by decide), field_cons, int_digits a]; rfl
    · rw [field_cons, int_digits b]; rfl
    · rw [field_cons_ne (by decide), field_cons_ne (by decide), field_nil]
  | hms h m s a b d =>
    refine ⟨_, _, _, .hms h m s a b d, ?_, ?_, ?_, by rintro k hk; simp at hk; rcases hk with rfl | rfl | rfl <;> rfl⟩
    · rw [field_cons_ne (by decide), field_cons_ne (by decide), field_cons, int_digits a]; rfl
    · rw [field_cons_ne (by decide), field_cons, int_digits b]; rfl
    · rw [field_cons, int_digits d]; rfl

theorem pre_clock {t : Name} {h mi s : Option ℤ} (hc : ClockBefore t h mi s) : ∃ c, Pre t c ∧ ClockFields c h mi s := by
  cases hc with
  | none => exact ⟨_, .none, rfl, rfl, rfl, by simp⟩
  | hm h m w a b d =>
    refine ⟨_, .hm h m w a b d, ?_, ?_, ?_, by rintro k hk; simp at hk; rcases hk with rfl | rfl | rfl <;> rfl⟩
    · rw [field_cons_ne (by decide), field_cons, int_digits a]; rfl
    · rw [field_cons, int_digits b]; rfl
    · rw [field_cons_ne (by decide), field_cons_ne (by decide), field_nil]
  | hms h m s a b d =>
    refine ⟨_, .hms h m s a b d, ?_, ?_, ?_, by rintro k hk; simp at hk; rcases hk with rfl | rfl | rfl <;> rfl⟩
    · rw [field_cons_ne (by decide), field_cons_ne (by decide), field_cons, int_digits a]; rfl
    · rw [field_cons_ne (by decide), field_cons, int_digits b]; rfl
    · rw [field_cons, int_digits d]; rfl

theorem iso_clock {t : Name} {h mi s : Option ℤ} (hc : ClockAfter t h mi s) : ∃ c, Iso t c ∧ ClockFields c h mi s := by
  cases hc with
  | none => exact ⟨_, .none, rfl, rfl, rfl, by simp⟩
  | hm h m a b =>
    refine ⟨_, .hm h m a b, ?_, ?_, ?_, by rintro k hk; simp at hk; rcases hk with rfl | rfl | rfl <;> rfl⟩
    · rw [field_cons_ne (by decide), field_cons, int_digits a]; rfl
    · rw [field_cons, int_digits b]; rfl
    · rw [field_cons_ne (by decide), field_cons_ne (by decide), field_nil]
  | hms h m s a b d =>
    refine ⟨_, .hms h m s a b d, ?_, ?_, ?_, by rintro k hk; simp at hk; rcases hk with rfl | rfl | rfl <;> rfl⟩
    · rw [field_cons_ne (by decide), field_cons_ne (by decide), field_cons, int_digits a]; rfl
    · rw [field_cons_ne (by decide), field_cons, int_digits b]; rfl
    · rw [field_cons, int_digits d]; rfl

theorem field_append {conv : Name → Option ℤ} {k : String} {c c' : List (Name × Name)} (h : c'.lookup k.toList = none) :
    field? conv (c ++ c') k = field? conv c k := by
  unfold field?
  rw [List.lookup_append, h]
  simp

theorem field_append_left {conv : Name → Option ℤ} {k : String} {c c' : List (Name × Name)} (h : c.lookup k.toList = none) :
    field? conv (c ++ c') k = field? conv c' k := by
  unfold field?
  rw [List.lookup_append, h]
  simp

/-- the groups of pattern 1 -/
theorem dateOf_named {c : List (Name × Name)} {h mi s : Option ℤ} (hc : ClockFields c h mi s) {d w y : Name} (hd : Digits 1 (some 2) d)
    (hy : Digits 1 none y) (D : DateDict) :
    dateOf (("year".toList, y) :: ("month".toList, w) :: ("day".toList, d) :: c) = some D ↔
      ∃ m, month? w = some m ∧ D = ⟨some (decimal y), some m, some (decimal d), h, mi, s⟩ := by
  unfold dateOf
  rw [field_cons, int_digits hy, field_cons_ne (k := "month") (by decide), field_cons, field_cons_ne (k := "day") (by decide),
    field_cons_ne (k := "day") (by decide), field_cons, int_digits hd]
  iterate 3 rw [field_cons_ne (k := "hour") (by decide)]
  iterate 3 rw [field_cons_ne (k := "minute") (by decide)]
  iterate 3 rw [field_cons_ne (k := "second") (by decide)]
  rw [hc.hour, hc.minute, hc.second]
  cases month? w with
  | none => simp
  | some m => simp [eq_comm]

/-- the groups of pattern 2 -/
theorem dateOf_day {c : List (Name × Name)} {h mi s : Option ℤ} (hc : ClockFields c h mi s) {d m y : Name} (hd : Digits 2 (some 2) d)
    (hm : Digits 2 (some 2) m) (hy : Digits 1 none y) :
    dateOf ((c ++ [("day".toList, d), ("month".toList, m)]) ++ [("year".toList, y)]) =
      some ⟨some (decimal y), some (decimal m), some (decimal d), h, mi, s⟩ := by
  rw [List.append_assoc]
  unfold dateOf
  rw [field_append_left (hc.rest "year" (by simp)), field_append_left (hc.rest "month" (by simp)), field_append_left (hc.rest "day" (by simp)),
    field_append (k := "hour") (by rfl), field_append (k := "minute") (by rfl), field_append (k := "second") (by rfl), hc.hour, hc.minute,
    hc.second]
  simp only [List.cons_append, List.nil_append]
  rw [field_cons_ne (k := "year") (by decide), field_cons_ne (k := "year") (by decide), field_cons, int_digits hy,
    field_cons_ne (k := "month") (by decide), field_cons, month_digits hm, field_cons, int_digits hd]
  rfl

/-- the groups of pattern 3 -/
theorem dateOf_dayOfYear {c : List (Name × Name)} {h mi s : Option ℤ} (hc : ClockFields c h mi s) {d y : Name} (hd : Digits 3 (some 3) d)
    (hy : Digits 1 none y) :
    dateOf ((c ++ [("day".toList, d)]) ++ [("year".toList, y)]) = some ⟨some (decimal y), none, some (decimal d), h, mi, s⟩ := by
  rw [List.append_assoc]
  unfold dateOf
  rw [field_append_left (hc.rest "year" (by simp)), field_append_left (hc.rest "month" (by simp)), field_append_left (hc.rest "day" (by simp)),
    field_append (k := "hour") (by rfl), field_append (k := "minute") (by rfl), field_append (k := "second") (by rfl), hc.hour, hc.minute,
    hc.second]
  simp only [List.cons_append, List.nil_append]
  rw [field_cons_ne (k := "year") (by decide), field_cons, int_digits hy,
    field_cons_ne (k := "month") (by decide), field_cons_ne (k := "month") (by decide), field_nil, field_cons, int_digits hd]
  rfl

/-! ### which pattern a text belongs to -/

theorem space_digits {mn : ℕ} {mx : Option ℕ} {l : Name} (h : Digits mn mx l) : ' ' ∉ l := fun hm => absurd (h.1 _ hm) (by decide)

theorem space_end {e : Name} (h : AtEnd e) : ' ' ∉ e := by rcases h with rfl | rfl <;> decide

theorem space_iso {t : Name} {c : List (Name × Name)} (h : Iso t c) : ' ' ∉ t := by
  cases h with
  | none => simp
  | hm h m a b => simp [space_digits a, space_digits b]
  | hms h m s a b d => simp [space_digits a, space_digits b, space_digits d]

theorem space_mid {t : Name} {c : List (Name × Name)} (h : Mid t c) : ' ' ∉ t := by
  cases h with
  | none => simp
  | m m a => simp [space_digits a]
  | md m d t c a b i => simp [space_digits a, space_digits b, space_iso i]

theorem space_ord {t : Name} {c : List (Name × Name)} (h : Ord t c) : ' ' ∉ t := by
  cases h with
  | none => simp
  | d d t c a i => simp [space_digits a, space_iso i]

theorem search1_none {s : Name} (h : ' ' ∉ s) : search pattern1 s = none := by
  by_contra hn
  obtain ⟨d, hd⟩ := Option.ne_none_iff_exists'.1 hn
  obtain ⟨e, he⟩ := mem_of_search hd
  obtain ⟨pre, c, d, mon, y, hs, -⟩ := mem_pattern1.1 he
  apply h
  rw [hs]; simp

theorem strAsDate_eq (s : Name) : strAsDate s =
    (match search pattern1 s with
     | some c => dateOf c
     | none => match search pattern2 s with
       | some c => dateOf c
       | none => (search pattern3 s).bind dateOf) := by
  unfold strAsDate patterns
  cases h1 : search pattern1 s <;> cases h2 : search pattern2 s <;> cases h3 : search pattern3 s <;>
    simp [List.filterMap_cons, h1, h2, h3]

theorem strAsDate_atEnd (s : Name) (D : DateDict) : strAsDate s = some D ↔ ∃ s' e, s = s' ++ e ∧ AtEnd e ∧ WrittenDate s' D := by
  rw [strAsDate_eq]
  constructor
  · intro h
    cases h1 : search pattern1 s with
    | some c =>
      rw [h1] at h
      obtain ⟨e, he⟩ := mem_of_search h1
      obtain ⟨pre, c, d, mon, y, hs, hp, hd, hm, hy, hend, rfl⟩ := mem_pattern1.1 he
      obtain ⟨hh, mi, sec, hc1, hc2⟩ := clock_pre hp
      obtain ⟨m, hmm, rfl⟩ := (dateOf_named hc2 hd hy D).1 h
      exact ⟨_, e, by rw [hs]; simp, hend, .named pre d mon y m hh mi sec hc1 hd ((month_word hm.1 hm.2).1 hmm) hy⟩
    | none =>
      rw [h1] at h
      cases h2 : search pattern2 s with
      | some c =>
        rw [h2] at h
        simp only at h
        obtain ⟨e, he⟩ := mem_of_search h2
        obtain ⟨y, r, c, hs, hy, hr, hend, rfl⟩ := mem_pattern2.1 he
        cases hr with
        | none =>
          refine ⟨y, e, hs, hend, ?_⟩
          have : dateOf ([] ++ [("year".toList, y)]) = some { year := some (decimal y) } := by
            rw [List.nil_append]
            unfold dateOf
            rw [field_cons, int_digits hy]
            iterate 5 rw [field_cons_ne (by decide), field_nil]
            rfl
          rw [← Option.some_injective _ (this.symm.trans h)]
          exact .year y hy
        | m m a =>
          refine ⟨y ++ '-' :: m, e, by rw [hs]; simp, hend, ?_⟩
          have : dateOf ([("month".toList, m)] ++ [("year".toList, y)]) = some { year := some (decimal y), month := some (decimal m) } := by
            rw [List.cons_append, List.nil_append]
            unfold dateOf
            rw [field_cons_ne (k := "year") (by decide), field_cons, int_digits hy, field_cons, month_digits a]
            iterate 4 rw [field_cons_ne (by decide), field_cons_ne (by decide), field_nil]
            rfl
          rw [← Option.some_injective _ (this.symm.trans h)]
          exact .month y m hy a
        | md m d t c a b i =>
          obtain ⟨hh, mi, sec, hc1, hc2⟩ := clock_iso i
          refine ⟨y ++ '-' :: (m ++ '-' :: (d ++ t)), e, by rw [hs]; simp, hend, ?_⟩
          rw [← Option.some_injective _ ((dateOf_day hc2 b a hy).symm.trans h)]
          exact .day y m d t hh mi sec hy a b hc1
      | none =>
        rw [h2] at h
        simp only at h
        cases h3 : search pattern3 s with
        | none => rw [h3] at h; simp at h
        | some c =>
          rw [h3] at h
          simp only [Option.bind_some] at h
          obtain ⟨e, he⟩ := mem_of_search h3
          obtain ⟨y, r, c, hs, hy, hr, hend, rfl⟩ := mem_pattern3.1 he
          cases hr with
          | none =>
            exfalso
            rw [hs, search2 hy Mid.none hend] at h2
            simp at h2
          | d d t c a i =>
            obtain ⟨hh, mi, sec, hc1, hc2⟩ := clock_iso i
            refine ⟨y ++ '-' :: (d ++ t), e, by rw [hs]; simp, hend, ?_⟩
            rw [← Option.some_injective _ ((dateOf_dayOfYear hc2 a hy).symm.trans h)]
            exact .dayOfYear y d t hh mi sec hy a hc1
  · rintro ⟨s', e, rfl, hend, hw⟩
    cases hw with
    | named t d w y m h mi s hc hd hm hy =>
      obtain ⟨c, hp, hf⟩ := pre_clock hc
      have hw : w ≠ [] := by
        rintro rfl
        obtain ⟨-, k, hk, -⟩ := hm
        rw [← List.getElem?_map] at hk
        have : lower [] ∈ monthWords.map String.toList := List.mem_of_getElem? hk
        exact absurd this (by decide)
      rw [show t ++ (d ++ ' ' :: (w ++ ' ' :: y)) ++ e = t ++ (d ++ ' ' :: (w ++ ' ' :: (y ++ e))) by simp, search1 hp hd ⟨hm.1, hw⟩ hy hend]
      exact (dateOf_named hf hd hy _).2 ⟨m, (month_word hm.1 hw).2 hm, rfl⟩
    | year y hy =>
      rw [search1_none (by simp [space_digits hy, space_end hend]), show s' ++ e = s' ++ ([] ++ e) from rfl, search2 hy Mid.none hend, List.nil_append]
      unfold dateOf
      simp only
      rw [field_cons, int_digits hy]
      iterate 5 rw [field_cons_ne (by decide), field_nil]
      rfl
    | month y m hy hm =>
      rw [search1_none (by simp [space_digits hy, space_digits hm, space_end hend]), show y ++ '-' :: m ++ e = y ++ ('-' :: m ++ e) by simp,
        search2 hy (Mid.m m hm) hend, List.cons_append, List.nil_append]
      unfold dateOf
      simp only
      rw [field_cons_ne (k := "year") (by decide), field_cons, int_digits hy, field_cons, month_digits hm]
      iterate 4 rw [field_cons_ne (by decide), field_cons_ne (by decide), field_nil]
      rfl
    | day y m d t h mi s hy hm hd hc =>
      obtain ⟨c, hi, hf⟩ := iso_clock hc
      rw [search1_none (by simp [space_digits hy, space_digits hm, space_digits hd, space_iso hi, space_end hend]),
        show y ++ '-' :: (m ++ '-' :: (d ++ t)) ++ e = y ++ ('-' :: (m ++ '-' :: (d ++ t)) ++ e) by simp, search2 hy (Mid.md m d t c hm hd hi) hend]
      exact dateOf_day hf hd hm hy
    | dayOfYear y d t h mi s hy hd hc =>
      obtain ⟨c, hi, hf⟩ := iso_clock hc
      have h3 := search3 hy (Ord.d d t c hd hi) hend
      have h2 : search pattern2 (y ++ ('-' :: (d ++ t) ++ e)) = none := by
        by_contra hn
        obtain ⟨g, hg⟩ := Option.ne_none_iff_exists'.1 hn
        obtain ⟨e', he'⟩ := mem_of_search hg
        obtain ⟨y', r', c', hs', hy', hr', hend', -⟩ := mem_pattern2.1 he'
        obtain ⟨-, h5⟩ := span_unique (p := Char.isDigit) hy.1 (ord_head (Ord.d d t c hd hi) hend) hy'.1 (mid_head hr' hend') hs'
        exact mid_ord_disjoint hr' hd hi hend' hend h5.symm
      rw [search1_none (by simp [space_digits hy, space_digits hd, space_iso hi, space_end hend]),
        show y ++ '-' :: (d ++ t) ++ e = y ++ ('-' :: (d ++ t) ++ e) by simp, h2, h3]
      exact dateOf_dayOfYear hf hd hy

/-- **C87.** A text is read as a date exactly if it has one of the documented forms, and gives the fields written in it; one newline
at its end does not matter. -/
theorem strAsDate_iff (s : Name) (D : DateDict) :
    strAsDate s = some D ↔ WrittenDate s D ∨ ∃ s', s = s' ++ ['\n'] ∧ WrittenDate s' D := by
  rw [strAsDate_atEnd]
  constructor
  · rintro ⟨s', e, rfl, rfl | rfl, h⟩
    · left; rwa [List.append_nil]
    · right; exact ⟨s', rfl, h⟩
  · rintro (h | ⟨s', rfl, h⟩)
    · exact ⟨s, [], by simp, Or.inl rfl, h⟩
    · exact ⟨s', _, rfl, Or.inr rfl, h⟩

/-! ### writing a date and reading it back -/

theorem subst_date {f : Name → Option Name} {a b y : Name} (ha : f ['d'] = some a) (hb : f ['b'] = some b) (hy : f ['Y'] = some y) :
    substitute f "$d $b $Y".toList = some (a ++ ' ' :: (b ++ ' ' :: y)) := by
  have : substitute f "$d $b $Y".toList = (f ['d']).bind fun a => ((((f ['b']).bind fun b => (((f ['Y']).bind fun y =>
      (some []).map (y ++ ·)).map (' ' :: ·)).map (b ++ ·)).map (' ' :: ·)).map (a ++ ·)) := rfl
  rw [this, ha, hb, hy]
  simp

theorem subst_minute {f : Name → Option Name} {h m a b y : Name} (hh : f ['H'] = some h) (hm : f ['M'] = some m) (ha : f ['d'] = some a)
    (hb : f ['b'] = some b) (hy : f ['Y'] = some y) :
    substitute f "$H:$M $d $b $Y".toList = some ((h ++ ':' :: (m ++ [' '])) ++ (a ++ ' ' :: (b ++ ' ' :: y))) := by
  have : substitute f "$H:$M $d $b $Y".toList = (f ['H']).bind fun h => (((f ['M']).bind fun m => (((f ['d']).bind fun a =>
      ((((f ['b']).bind fun b => (((f ['Y']).bind fun y => (some []).map (y ++ ·)).map (' ' :: ·)).map (b ++ ·)).map (' ' :: ·)).map
        (a ++ ·))).map (' ' :: ·)).map (m ++ ·)).map (':' :: ·)).map (h ++ ·) := rfl
  rw [this, hh, hm, ha, hb, hy]
  simp

theorem subst_second {f : Name → Option Name} {h m s a b y : Name} (hh : f ['H'] = some h) (hm : f ['M'] = some m) (hs : f ['S'] = some s)
    (ha : f ['d'] = some a) (hb : f ['b'] = some b) (hy : f ['Y'] = some y) :
    substitute f "$H:$M:$S$d $b $Y".toList = some ((h ++ ':' :: (m ++ ':' :: s)) ++ (a ++ ' ' :: (b ++ ' ' :: y))) := by
  have : substitute f "$H:$M:$S$d $b $Y".toList = (f ['H']).bind fun h => (((f ['M']).bind fun m => (((f ['S']).bind fun s =>
      ((f ['d']).bind fun a => ((((f ['b']).bind fun b => (((f ['Y']).bind fun y => (some []).map (y ++ ·)).map (' ' :: ·)).map (b ++ ·)).map
        (' ' :: ·)).map (a ++ ·))).map (s ++ ·)).map (':' :: ·)).map (m ++ ·)).map (':' :: ·)).map (h ++ ·) := rfl
  rw [this, hh, hm, hs, ha, hb, hy]
  simp

theorem digits_fmt (w : ℕ) (z : ℤ) (hz : 0 ≤ z) (mx : Option ℕ) (h : ∀ m, mx = some m → (fmtInt w z).length ≤ m) :
    Digits (max w 1) mx (fmtInt w z) ∧ decimal (fmtInt w z) = z := by
  obtain ⟨h1, h2, h3, h4⟩ := fmtInt_spec w z hz
  refine ⟨⟨h2, ?_, h⟩, ?_⟩
  · exact max_le h4 (List.length_pos_of_ne_nil h1)
  · rw [← decimal_eq, h3]; omega

theorem digits_day {z : ℤ} (h : 1 ≤ z ∧ z ≤ 31) : Digits 1 (some 2) (fmtInt 0 z) ∧ decimal (fmtInt 0 z) = z := by
  refine digits_fmt 0 z (by omega) (some 2) ?_
  intro m hm
  obtain rfl := Option.some_injective _ hm
  have : ∀ k : ℕ, k < 32 → (fmtInt 0 (k : ℤ)).length ≤ 2 := by decide
  have := this z.toNat (by omega)
  rwa [Int.toNat_of_nonneg (by omega)] at this

theorem digits_two {z : ℤ} (h : 0 ≤ z ∧ z < 60) : Digits 2 (some 2) (fmtInt 2 z) ∧ decimal (fmtInt 2 z) = z := by
  refine digits_fmt 2 z (by omega) (some 2) ?_
  intro m hm
  obtain rfl := Option.some_injective _ hm
  have : ∀ k : ℕ, k < 60 → (fmtInt 2 (k : ℤ)).length ≤ 2 := by decide
  have := this z.toNat (by omega)
  rwa [Int.toNat_of_nonneg (by omega)] at this

theorem digits_weaken {l : Name} (h : Digits 2 (some 2) l) : Digits 1 (some 2) l := ⟨h.1, by have := h.2.1; omega, h.2.2⟩

theorem month_name {m : ℤ} (h : 1 ≤ m ∧ m ≤ 12) : ∃ w, months[m.toNat]? = some w ∧ MonthWord w m := by
  obtain ⟨h1, h2⟩ := h
  have : ∀ k : ℕ, k < 13 → ∃ w, months[k]? = some w ∧ (∀ x ∈ w, isAlpha x = true) ∧ monthWords[k]?.map String.toList = some (lower w) := by
    decide
  obtain ⟨w, h3, h4, h5⟩ := this m.toNat (by omega)
  exact ⟨w, h3, h4, m.toNat, h5, by omega⟩

theorem monthLength_le (c : Cal) (y m : ℤ) : monthLength c y m ≤ 31 := by
  unfold monthLength
  cases c <;> dsimp only <;> (try split_ifs) <;> norm_num

/-- **C87.** A date of any calendar from year 100 on, written as `12 Dec 2008`, with the time of the day to the minute or to the
second before it, is read back with the fields that were written. -/
theorem format_parse (c : Cal) {d : Date} (hd : ValidDate c d) (hy : 100 ≤ d.year) :
    (∃ t, substitute (subs d) "$d $b $Y".toList = some t ∧
      strAsDate t = some { year := some d.year, month := some d.month, day := some d.day }) ∧
    (∃ t, substitute (subs d) "$H:$M $d $b $Y".toList = some t ∧
      strAsDate t = some { year := some d.year, month := some d.month, day := some d.day, hour := some d.hour, minute := some d.minute }) ∧
    ∃ t, substitute (subs d) "$H:$M:$S$d $b $Y".toList = some t ∧ strAsDate t = some (full d) := by
  obtain ⟨d1, d2⟩ := digits_day ⟨hd.day.1, hd.day.2.trans (monthLength_le _ _ _)⟩
  obtain ⟨y1, y2⟩ := digits_fmt 0 d.year (by omega) none (by simp)
  obtain ⟨h1, h2⟩ := digits_two (z := d.hour) ⟨hd.hour.1, by have := hd.hour.2; omega⟩
  obtain ⟨m1, m2⟩ := digits_two hd.minute
  obtain ⟨s1, s2⟩ := digits_two hd.second
  obtain ⟨w, w1, w2⟩ := month_name hd.month
  have ha : subs d ['d'] = some (fmtInt 0 d.day) := rfl
  have hb : subs d ['b'] = some w := by rw [← w1]; rfl
  have hY : subs d ['Y'] = some (fmtInt 0 d.year) := by
    have : subs d ['Y'] = some (if |d.year| < 100 then 'y' :: fmtInt 0 d.year else fmtInt 0 d.year) := rfl
    rw [this, if_neg (by rw [abs_of_nonneg (by omega)]; omega)]
  have hh : subs d ['H'] = some (fmtInt 2 d.hour) := rfl
  have hm : subs d ['M'] = some (fmtInt 2 d.minute) := rfl
  have hs : subs d ['S'] = some (fmtInt 2 d.second) := rfl
  refine ⟨⟨_, subst_date ha hb hY, ?_⟩, ⟨_, subst_minute hh hm ha hb hY, ?_⟩, ⟨_, subst_second hh hm hs ha hb hY, ?_⟩⟩
  · rw [strAsDate_iff]; left
    have := WrittenDate.named [] (fmtInt 0 d.day) w (fmtInt 0 d.year) d.month none none none .none d1 w2 y1
    rwa [d2, y2] at this
  · rw [strAsDate_iff]; left
    have := WrittenDate.named _ (fmtInt 0 d.day) w (fmtInt 0 d.year) d.month _ _ _
      (.hm (fmtInt 2 d.hour) (fmtInt 2 d.minute) ' ' (digits_weaken h1) m1 rfl) d1 w2 y1
    rwa [d2, y2, h2, m2] at this
  · rw [strAsDate_iff]; left
    have := WrittenDate.named _ (fmtInt 0 d.day) w (fmtInt 0 d.year) d.month _ _ _
      (.hms (fmtInt 2 d.hour) (fmtInt 2 d.minute) (fmtInt 2 d.second) (digits_weaken h1) m1 s1) d1 w2 y1
    rwa [d2, y2, h2, m2, s2] at this

/-- **C87.** The text of a time, with hours, minutes and seconds, selects that time, to the second. -/
theorem format_select (c : Cal) (start : Date) (hs : 1 ≤ start.month ∧ start.month ≤ 12) (u : Units) (x : ℚ) :
    ∃ d, valAsDatePy c (full start) x u false = some (full d) ∧ ValidDate c d ∧ (100 ≤ d.year → ∃ t,
      formatvalue c start u x "$H:$M:$S$d $b $Y".toList = some t ∧
      strAsVal c (full start) u t = some ((npRound (x * unitfactor u) : ℚ) / unitfactor u)) := by
  obtain ⟨d, h1, h2, h3⟩ := valAsDate_spec c start hs (npRound (x * unitfactor u))
  have hv : valAsDatePy c (full start) x u false = some (full d) := by
    unfold valAsDatePy
    rw [getDates_full, h1]
    rfl
  refine ⟨d, hv, h2, fun hy => ?_⟩
  obtain ⟨t, t1, t2⟩ := (format_parse c h2 hy).2.2
  refine ⟨t, ?_, ?_⟩
  · unfold formatvalue
    rw [hv, Option.bind_some, getDates_full, t1]
  · unfold strAsVal dateAsValPy
    rw [t2, Option.bind_some, getDates_full, getDates_full, dateAsVal_eq c hs h2.month, h3]
    simp

/-- **C87.** A day of the year: `2001-032` is 31 days after `2001`. -/
theorem dayOfYear_value (c : Cal) (start : Date) (hs : 1 ≤ start.month ∧ start.month ≤ 12) {y d : Name} (hy : Digits 1 none y)
    (hd : Digits 3 (some 3) d) : ∃ v, strAsVal c (full start) .days y = some v ∧
      strAsVal c (full start) .days (y ++ '-' :: d) = some (v + (decimal d - 1)) := by
  have h1 := (strAsDate_iff _ _).2 (Or.inl (WrittenDate.year y hy))
  have h2 := (strAsDate_iff _ _).2 (Or.inl (WrittenDate.dayOfYear y d [] none none none hy hd .none))
  rw [List.append_nil] at h2
  unfold strAsVal
  rw [h1, h2, Option.bind_some, Option.bind_some]
  unfold dateAsValPy
  rw [getDates_full]
  have e1 : getDates { year := some (decimal y) } = ⟨decimal y, 1, 1, 0, 0, 0⟩ := rfl
  have e2 : getDates ⟨some (decimal y), none, some (decimal d), none, none, none⟩ = ⟨decimal y, 1, decimal d, 0, 0, 0⟩ := rfl
  rw [e1, e2, dateAsVal_eq c hs ⟨by norm_num, by norm_num⟩, dateAsVal_eq c hs ⟨by norm_num, by norm_num⟩]
  refine ⟨_, rfl, ?_⟩
  rw [Option.map_some, Option.some_inj]
  have : (count c).abs ⟨decimal y, 1, decimal d, 0, 0, 0⟩ = (count c).abs ⟨decimal y, 1, 1, 0, 0, 0⟩ + (decimal d - 1) * 86400 := by
    simp only [DayCount.abs, tod]
    ring
  rw [this]
  simp only [unitfactor]
  push_cast
  ring

/-- 1 February of a leap year and of the year after it -/
example : strAsVal .standard (full ⟨2000, 1, 1, 0, 0, 0⟩) .days "2000-061".toList = some 60 ∧
    strAsVal .standard (full ⟨2000, 1, 1, 0, 0, 0⟩) .days "1 Mar 2000".toList = some 60 ∧
    strAsVal .standard (full ⟨2000, 1, 1, 0, 0, 0⟩) .days "06:30 1 mar 2001".toList = some (425 + 13 / 48) ∧
    strAsVal .standard (full ⟨2000, 1, 1, 0, 0, 0⟩) .hours "2000-01-02T12:00".toList = some 36 := by decide +kernel

example : ValidDate .standard ⟨1979, 1, 1, 6, 0, 0⟩ ∧
    substitute (subs ⟨1979, 1, 1, 6, 0, 0⟩) "$H:$M $d $b $Y".toList = some "06:00 1 Jan 1979".toList := by decide +kernel

/-! ### what cannot be read -/

theorem first_digit {s : Name} {D : DateDict} (h : WrittenDate s D) : ∃ x t, s = x :: t ∧ x.isDigit = true := by
  cases h with
  | named t d w y m h mi s hc hd hm hy =>
    cases hc with
    | none => exact digits_head (r := ' ' :: (w ++ ' ' :: y)) hd
    | hm h m w' a => rw [List.append_assoc]; exact digits_head a
    | hms h m s a => rw [List.append_assoc]; exact digits_head a
  | year y hy => have := digits_head (r := []) hy; rwa [List.append_nil] at this
  | month y m hy => exact digits_head hy
  | day y m d t h mi s hy => exact digits_head hy
  | dayOfYear y d t h mi s hy => exact digits_head hy

/-- The format that time axes use by default cannot be read back, whatever the date. -/
theorem format_default_violated (c : Cal) {d : Date} (hd : ValidDate c d) :
    ∃ t, substitute (subs d) "$b $d, $Y $H:$M:$S".toList = some t ∧ strAsDate t = none := by
  obtain ⟨w, w1, w2⟩ := month_name hd.month
  have hb : subs d ['b'] = some w := by rw [← w1]; rfl
  have hne : w ≠ [] := by
    rintro rfl
    obtain ⟨-, k, hk, -⟩ := w2
    rw [← List.getElem?_map] at hk
    have : lower [] ∈ monthWords.map String.toList := List.mem_of_getElem? hk
    exact absurd this (by decide)
  have : ∃ r, substitute (subs d) "$b $d, $Y $H:$M:$S".toList = some (w ++ ' ' :: r) := by
    refine ⟨fmtInt 0 d.day ++ ',' :: ' ' :: ((if |d.year| < 100 then 'y' :: fmtInt 0 d.year else fmtInt 0 d.year) ++ ' ' ::
      (fmtInt 2 d.hour ++ ':' :: (fmtInt 2 d.minute ++ ':' :: fmtInt 2 d.second))), ?_⟩
    have e : substitute (subs d) "$b $d, $Y $H:$M:$S".toList = (subs d ['b']).bind fun b => (((((((((((((some []).map
      (fmtInt 2 d.second ++ ·)).map (':' :: ·)).map (fmtInt 2 d.minute ++ ·)).map (':' :: ·)).map (fmtInt 2 d.hour ++ ·)).map (' ' :: ·)).map
        ((if |d.year| < 100 then 'y' :: fmtInt 0 d.year else fmtInt 0 d.year) ++ ·)).map (' ' :: ·)).map (',' :: ·)).map
          (fmtInt 0 d.day ++ ·)).map (' ' :: ·)).map (b ++ ·)) := rfl
    rw [e, hb]
    simp
  obtain ⟨r, hr⟩ := this
  refine ⟨_, hr, ?_⟩
  by_contra hn
  obtain ⟨D, hD⟩ := Option.ne_none_iff_exists'.1 hn
  obtain ⟨x, t, h1, h2⟩ : ∃ x t, w ++ ' ' :: r = x :: t ∧ x.isDigit = true := by
    rcases (strAsDate_iff _ _).1 hD with h | ⟨s', hs', h⟩
    · exact first_digit h
    · obtain ⟨x, t, a, b⟩ := first_digit h
      exact ⟨x, t ++ ['\n'], by rw [hs', a]; rfl, b⟩
  cases w with
  | nil => exact hne rfl
  | cons a w =>
    have ha := w2.1 a (by simp)
    rw [(List.cons.inj h1).1] at ha
    have hdig : ∀ x : Char, x.isDigit = true → isAlpha x = false := by
      intro x b
      by_contra a
      rw [Bool.not_eq_false] at a
      unfold isAlpha at a
      unfold Char.isDigit at b
      simp only [Bool.and_eq_true, decide_eq_true_eq, UInt32.le_iff_toNat_le, Char.le_def] at a b
      revert a b
      simp only [Char.reduceVal, UInt32.reduceToNat]
      omega
    rw [hdig x h2] at ha
    exact absurd ha (by simp)

/-- The documented form `06:00:00 1 Jan 1979` is refused: after seconds no space is allowed. Without the space it is read. -/
theorem second_space_violated : strAsDate "06:00:00 1 Jan 1979".toList = none ∧
    strAsDate "06:00:001 Jan 1979".toList = some (full ⟨1979, 1, 1, 6, 0, 0⟩) := by decide +kernel

/-- Full month names, which `formatvalue` writes for `$B`, are not read. -/
theorem full_month_violated : substitute (subs ⟨1979, 1, 1, 6, 0, 0⟩) "$d $B $Y".toList = some "1 January 1979".toList ∧
    strAsDate "1 January 1979".toList = none := by decide +kernel

/-- Years before 100 are written with a letter and cannot be read back. -/
theorem early_year_violated : substitute (subs ⟨99, 1, 1, 0, 0, 0⟩) "$d $b $Y".toList = some "1 Jan y99".toList ∧
    strAsDate "1 Jan y99".toList = none := by decide +kernel

/-- `$Y-$m-$D` writes a month without a zero before it, which is not an ISO date. -/
theorem iso_month_violated : substitute (subs ⟨1979, 1, 1, 0, 0, 0⟩) "$Y-$m-$D".toList = some "1979-1-01".toList ∧
    strAsDate "1979-1-01".toList = none := by decide +kernel

/-- The joke month is a month: month 0. -/
theorem smarch_violated : strAsDate "13 Smarch 1995".toList = some { year := some 1995, month := some 0, day := some 13 } := by
  decide +kernel

end DateText
end PyGeode
