/-
Property C118: the locator of tick marks on time axes (`AutoCalendarLocator`, /repo/pygeode/timeticker.py:564-633) always ends and finds
the number of ticks nearest to the one wanted.
-/
import Verif.Spec.Locator
import Verif.Props.Ticks

namespace PyGeode
namespace Locator
open Ticks

/-- no better multiple beside `k` -/
def LocalBest (count : ℕ → ℚ) (n : ℕ) (want : ℚ) (k : ℕ) : Prop :=
  (want < count k → 0 < k → count k - want ≤ want - count (k - 1)) ∧
  (count k < want → k < n - 1 → want - count k < count (k + 1) - want)

theorem bestLoop_local {count : ℕ → ℚ} {n : ℕ} {want : ℚ} : ∀ (fuel i : ℕ) (r : ℚ × ℕ), bestLoop count n want fuel i (count i) = some r →
    r.1 = count r.2 ∧ LocalBest count n want r.2 := by
  intro fuel
  induction fuel with
  | zero => intro i r h; cases h
  | succ fuel ih =>
    intro i r h
    rw [bestLoop] at h
    split_ifs at h with h1 h2 h3 h4 h5 h6
    · cases h
      exact ⟨rfl, fun _ _ => h2, fun h _ => absurd h (not_lt.2 h1.1.le)⟩
    · cases h
      refine ⟨rfl, fun h _ => absurd h (not_lt.2 h3), fun _ _ => ?_⟩
      show want - count (i - 1) < count (i - 1 + 1) - want
      rw [show i - 1 + 1 = i by omega]
      exact not_le.1 h2
    · exact ih _ _ h
    · cases h
      exact ⟨rfl, fun h _ => absurd h (not_lt.2 h4.1.le), fun _ _ => h5⟩
    · cases h
      refine ⟨rfl, fun _ _ => ?_, fun h _ => absurd h (not_lt.2 (le_of_lt h6))⟩
      show count (i + 1) - want ≤ want - count (i + 1 - 1)
      rw [show i + 1 - 1 = i by omega]
      exact not_lt.1 h5
    · exact ih _ _ h
    · cases h
      exact ⟨rfl, fun a b => absurd ⟨a, b⟩ h1, fun a b => absurd ⟨a, b⟩ h4⟩

/-- the search for a multiple ends -/
theorem best_ends (G : Gens) (want : ℚ) (g s : ℕ) (hs : s < G.size g) :
    ∃ k, best G want g s = some (G.count g s k, k) ∧ k < G.size g ∧ LocalBest (G.count g s) (G.size g) want k := by
  obtain ⟨k, N, hk, hN, hf⟩ := bestMult_ends (G.count g s) want hs
  have := hf (G.size g + 1) hN
  exact ⟨k, this, hk, (bestLoop_local _ _ _ this).2⟩

/-- the multiples are numbers of multiples, and the one in use is the one of its generator -/
def Valid (G : Gens) (s : State) : Prop := (∀ g < G.n, s.mults g < G.size g) ∧ s.gen < G.n ∧ s.mults s.gen = s.im

/-- the search from `s` ends -/
def Ends (G : Gens) (want : ℚ) (s : State) : Prop := ∃ r N, Valid G r ∧ ∀ fuel, N ≤ fuel → search G want fuel s = some r

/-- fewer ticks than wanted with the finest multiple -/
def Small (G : Gens) (want : ℚ) (g : ℕ) : Prop := ∃ s, s < G.size g ∧ G.count g s (G.size g - 1) < want
/-- more ticks than wanted with the coarsest multiple -/
def Large (G : Gens) (want : ℚ) (g : ℕ) : Prop := ∃ s, s < G.size g ∧ want < G.count g s 0

/-- the state comes from the search of its generator -/
def Seen (G : Gens) (s : State) : Prop := ∃ t < G.size s.gen, s.nt = G.count s.gen t s.im

theorem ends_stop {G : Gens} {want : ℚ} {s : State} (hv : Valid G s) (h1 : ¬ (s.nt < want ∧ s.im = G.size s.gen - 1 ∧ s.gen < G.n - 1))
    (h2 : ¬ (want < s.nt ∧ s.im = 0 ∧ 0 < s.gen)) : Ends G want s :=
  ⟨s, 1, hv, fun fuel hf => by
    obtain ⟨f, rfl⟩ : ∃ f, fuel = f + 1 := ⟨fuel - 1, by omega⟩
    rw [search, if_neg h1, if_neg h2]⟩

theorem setMult_same (f : ℕ → ℕ) (g i : ℕ) : setMult f g i g = i := if_pos rfl
theorem setMult_other (f : ℕ → ℕ) {g h : ℕ} (i : ℕ) (e : h ≠ g) : setMult f g i h = f h := if_neg e

theorem valid_set {G : Gens} {s : State} (hv : Valid G s) {g k : ℕ} (hk : k < G.size g) :
    ∀ h < G.n, setMult s.mults g k h < G.size h := by
  intro h hh
  by_cases e : h = g
  · rw [e, setMult_same]; exact hk
  · rw [setMult_other _ _ e]; exact hv.1 h hh

/-- a step up -/
theorem ends_up {G : Gens} {want : ℚ} {s : State} (hv : Valid G s) (h1 : s.nt < want ∧ s.im = G.size s.gen - 1 ∧ s.gen < G.n - 1)
    {nt : ℚ} {k : ℕ} (hb : best G want (s.gen + 1) (s.mults (s.gen + 1)) = some (nt, k)) (hk : k < G.size (s.gen + 1))
    (next : ¬ (k = 0 ∧ want - s.nt ≤ nt - want) → Ends G want ⟨setMult s.mults (s.gen + 1) k, s.gen + 1, nt, k⟩) : Ends G want s := by
  by_cases hstop : k = 0 ∧ want - s.nt ≤ nt - want
  · refine ⟨{ s with mults := setMult s.mults (s.gen + 1) k }, 1, ⟨valid_set hv hk, hv.2.1, ?_⟩, fun fuel hf => ?_⟩
    · show setMult s.mults (s.gen + 1) k s.gen = s.im
      rw [setMult_other _ _ (by omega)]
      exact hv.2.2
    · obtain ⟨f, rfl⟩ : ∃ f, fuel = f + 1 := ⟨fuel - 1, by omega⟩
      rw [search, if_pos h1, hb]
      simp only [Option.bind_some]
      rw [if_pos hstop]
  · obtain ⟨r, N, hr, hN⟩ := next hstop
    refine ⟨r, N + 1, hr, fun fuel hf => ?_⟩
    obtain ⟨f, rfl⟩ : ∃ f, fuel = f + 1 := ⟨fuel - 1, by omega⟩
    rw [search, if_pos h1, hb]
    simp only [Option.bind_some]
    rw [if_neg hstop]
    exact hN f (by omega)

/-- a step down -/
theorem ends_down {G : Gens} {want : ℚ} {s : State} (hv : Valid G s) (h1 : want < s.nt ∧ s.im = 0 ∧ 0 < s.gen)
    {nt : ℚ} {k : ℕ} (hb : best G want (s.gen - 1) (s.mults (s.gen - 1)) = some (nt, k)) (hk : k < G.size (s.gen - 1))
    (next : ¬ (k = G.size (s.gen - 1) - 1 ∧ |s.nt - want| ≤ |want - nt|) →
      Ends G want ⟨setMult s.mults (s.gen - 1) k, s.gen - 1, nt, k⟩) : Ends G want s := by
  have h0 : ¬ (s.nt < want ∧ s.im = G.size s.gen - 1 ∧ s.gen < G.n - 1) := fun h => absurd h.1 (not_lt.2 h1.1.le)
  by_cases hstop : k = G.size (s.gen - 1) - 1 ∧ |s.nt - want| ≤ |want - nt|
  · refine ⟨{ s with mults := setMult s.mults (s.gen - 1) k }, 1, ⟨valid_set hv hk, hv.2.1, ?_⟩, fun fuel hf => ?_⟩
    · show setMult s.mults (s.gen - 1) k s.gen = s.im
      rw [setMult_other _ _ (by omega)]
      exact hv.2.2
    · obtain ⟨f, rfl⟩ : ∃ f, fuel = f + 1 := ⟨fuel - 1, by omega⟩
      rw [search, if_neg h0, if_pos h1, hb]
      simp only [Option.bind_some]
      rw [if_pos hstop]
  · obtain ⟨r, N, hr, hN⟩ := next hstop
    refine ⟨r, N + 1, hr, fun fuel hf => ?_⟩
    obtain ⟨f, rfl⟩ : ∃ f, fuel = f + 1 := ⟨fuel - 1, by omega⟩
    rw [search, if_neg h0, if_pos h1, hb]
    simp only [Option.bind_some]
    rw [if_neg hstop]
    exact hN f (by omega)

/-- Between a generator with too few ticks and the next, with too many, the search ends: from above ... -/
theorem bounce_above {G : Gens} {want : ℚ} (excl : ∀ g < G.n, ¬ (Small G want g ∧ Large G want g)) {s : State} (hv : Valid G s)
    (h0 : 0 < s.gen) (hs : Small G want (s.gen - 1)) (hl : Large G want s.gen) (hm : s.mults (s.gen - 1) = G.size (s.gen - 1) - 1)
    (hg : s.gen - 1 < G.n - 1 ) (hseen : Seen G s) : Ends G want s := by
  have up_no : ∀ t : State, Valid G t → t.gen = s.gen → Seen G t → ¬ (t.nt < want ∧ t.im = G.size t.gen - 1 ∧ t.gen < G.n - 1) := by
    rintro t ht e ⟨u, hu, hn⟩ ⟨a, b, -⟩
    refine excl s.gen hv.2.1 ⟨⟨u, e ▸ hu, ?_⟩, hl⟩
    rw [hn, b, e] at a
    exact a
  by_cases hd : want < s.nt ∧ s.im = 0 ∧ 0 < s.gen
  swap
  · exact ends_stop hv (up_no s hv rfl hseen) hd
  have hne : 0 < G.size (s.gen - 1) := by have := hv.1 (s.gen - 1) (by omega); omega
  have hlast : G.size (s.gen - 1) - 1 < G.size (s.gen - 1) := by omega
  obtain ⟨k, hb, hk, -⟩ := best_ends G want (s.gen - 1) (G.size (s.gen - 1) - 1) hlast
  refine ends_down hv hd (nt := G.count (s.gen - 1) (G.size (s.gen - 1) - 1) k) (k := k) (by rw [hm]; exact hb) hk fun hns => ?_
  set t : State := ⟨setMult s.mults (s.gen - 1) k, s.gen - 1, G.count (s.gen - 1) (G.size (s.gen - 1) - 1) k, k⟩ with ht
  have vt : Valid G t := ⟨valid_set hv hk, by show s.gen - 1 < G.n; omega, setMult_same _ _ _⟩
  have down_no : ¬ (want < t.nt ∧ t.im = 0 ∧ 0 < t.gen) := by
    rintro ⟨a, b, -⟩
    refine excl (s.gen - 1) (by omega) ⟨hs, ⟨_, hlast, ?_⟩⟩
    have b' : k = 0 := b
    have a' : want < G.count (s.gen - 1) (G.size (s.gen - 1) - 1) k := a
    rw [b'] at a'
    exact a'
  by_cases hu : t.nt < want ∧ t.im = G.size t.gen - 1 ∧ t.gen < G.n - 1
  swap
  · exact ends_stop vt hu down_no
  have hkl : k = G.size (s.gen - 1) - 1 := hu.2.1
  have e1 : t.gen + 1 = s.gen := by show s.gen - 1 + 1 = s.gen; omega
  have hm1 : t.mults (t.gen + 1) = 0 := by
    rw [e1]
    show setMult s.mults (s.gen - 1) k s.gen = 0
    rw [setMult_other _ _ (by omega), hv.2.2]
    exact hd.2.1
  have hsz : 0 < G.size s.gen := by have := hv.1 s.gen hv.2.1; omega
  obtain ⟨k', hb', hk', -⟩ := best_ends G want s.gen 0 hsz
  refine ends_up vt hu (k := k') (nt := G.count s.gen 0 k') (by rw [hm1, e1]; exact hb') (by rw [e1]; exact hk') fun hns' => ?_
  rw [e1]
  set w : State := ⟨setMult t.mults s.gen k', s.gen, G.count s.gen 0 k', k'⟩ with hw
  have vw : Valid G w := ⟨valid_set vt hk', hv.2.1, setMult_same _ _ _⟩
  have nw := up_no w vw rfl ⟨0, hsz, rfl⟩
  by_cases hd' : want < w.nt ∧ w.im = 0 ∧ 0 < w.gen
  swap
  · exact ends_stop vw nw hd'
  have hm2 : w.mults (w.gen - 1) = G.size (s.gen - 1) - 1 := by
    show setMult t.mults s.gen k' (s.gen - 1) = _
    rw [setMult_other _ _ (by omega)]
    show setMult s.mults (s.gen - 1) k (s.gen - 1) = _
    rw [setMult_same, hkl]
  refine ends_down vw hd' (nt := G.count (s.gen - 1) (G.size (s.gen - 1) - 1) k) (k := k) (by rw [hm2]; exact hb) hk fun hns2 => ?_
  exfalso
  refine hns2 ⟨hkl, ?_⟩
  have a1 : want < G.count s.gen 0 k' := hd'.1
  have a2 : G.count (s.gen - 1) (G.size (s.gen - 1) - 1) k < want := hu.1
  have a3 : ¬ (want - G.count (s.gen - 1) (G.size (s.gen - 1) - 1) k ≤ G.count s.gen 0 k' - want) := fun h => hns' ⟨hd'.2.1, h⟩
  show |G.count s.gen 0 k' - want| ≤ |want - G.count (s.gen - 1) (G.size (s.gen - 1) - 1) k|
  rw [abs_of_pos (by linarith), abs_of_pos (by linarith)]
  linarith [not_le.1 a3]

/-- ... and from below. -/
theorem bounce_below {G : Gens} {want : ℚ} (excl : ∀ g < G.n, ¬ (Small G want g ∧ Large G want g)) {s : State} (hv : Valid G s)
    (hg : s.gen + 1 < G.n) (hs : Small G want s.gen) (hl : Large G want (s.gen + 1)) (hm : s.mults (s.gen + 1) = 0)
    (hseen : Seen G s) : Ends G want s := by
  obtain ⟨u, hu, hn⟩ := hseen
  have down_no : ¬ (want < s.nt ∧ s.im = 0 ∧ 0 < s.gen) := by
    rintro ⟨a, b, -⟩
    refine excl s.gen hv.2.1 ⟨hs, ⟨u, hu, ?_⟩⟩
    rw [hn, b] at a
    exact a
  by_cases hup : s.nt < want ∧ s.im = G.size s.gen - 1 ∧ s.gen < G.n - 1
  swap
  · exact ends_stop hv hup down_no
  have hsz : 0 < G.size (s.gen + 1) := by have := hv.1 (s.gen + 1) hg; omega
  obtain ⟨k, hb, hk, -⟩ := best_ends G want (s.gen + 1) 0 hsz
  refine ends_up hv hup (nt := G.count (s.gen + 1) 0 k) (k := k) (by rw [hm]; exact hb) hk fun _ => ?_
  refine bounce_above excl (s := ⟨setMult s.mults (s.gen + 1) k, s.gen + 1, G.count (s.gen + 1) 0 k, k⟩)
    ⟨valid_set hv hk, hg, setMult_same _ _ _⟩ (Nat.succ_pos _) hs hl ?_ hup.2.2 ⟨0, hsz, rfl⟩
  show setMult s.mults (s.gen + 1) k s.gen = G.size s.gen - 1
  rw [setMult_other _ _ (by omega), hv.2.2]
  exact hup.2.1

/-- from a generator that has not too many ticks with its coarsest multiple -/
theorem ends_upwards {G : Gens} {want : ℚ} (excl : ∀ g < G.n, ¬ (Small G want g ∧ Large G want g)) : ∀ (d : ℕ) (s : State), Valid G s →
    Seen G s → ¬ Large G want s.gen → G.n - s.gen = d → Ends G want s := by
  intro d
  induction d with
  | zero => intro s hv _ _ hd; have := hv.2.1; omega
  | succ d ih =>
    intro s hv ⟨u, hu, hn⟩ hl hd
    have down_no : ¬ (want < s.nt ∧ s.im = 0 ∧ 0 < s.gen) := by
      rintro ⟨a, b, -⟩
      refine hl ⟨u, hu, ?_⟩
      rw [hn, b] at a
      exact a
    by_cases hup : s.nt < want ∧ s.im = G.size s.gen - 1 ∧ s.gen < G.n - 1
    swap
    · exact ends_stop hv hup down_no
    have hs : Small G want s.gen := by
      refine ⟨u, hu, ?_⟩
      have := hup.1
      rw [hn, hup.2.1] at this
      exact this
    have hst : s.mults (s.gen + 1) < G.size (s.gen + 1) := hv.1 _ (by omega)
    obtain ⟨k, hb, hk, -⟩ := best_ends G want (s.gen + 1) _ hst
    refine ends_up hv hup hb hk fun _ => ?_
    have hv' : Valid G ⟨setMult s.mults (s.gen + 1) k, s.gen + 1, G.count (s.gen + 1) (s.mults (s.gen + 1)) k, k⟩ :=
      ⟨valid_set hv hk, by show s.gen + 1 < G.n; omega, setMult_same _ _ _⟩
    by_cases hl' : Large G want (s.gen + 1)
    · refine bounce_above excl hv' (Nat.succ_pos _) hs hl' ?_ hup.2.2 ⟨_, hst, rfl⟩
      show setMult s.mults (s.gen + 1) k s.gen = G.size s.gen - 1
      rw [setMult_other _ _ (by omega), hv.2.2]
      exact hup.2.1
    · exact ih _ hv' ⟨_, hst, rfl⟩ hl' (by show G.n - (s.gen + 1) = d; omega)

/-- from a generator that has not too few ticks with its finest multiple -/
theorem ends_downwards {G : Gens} {want : ℚ} (excl : ∀ g < G.n, ¬ (Small G want g ∧ Large G want g)) : ∀ (d : ℕ) (s : State), Valid G s →
    Seen G s → ¬ Small G want s.gen → s.gen = d → Ends G want s := by
  intro d
  induction d with
  | zero =>
    intro s hv ⟨u, hu, hn⟩ hl hd
    refine ends_stop hv ?_ (fun h => by have := h.2.2; omega)
    rintro ⟨a, b, -⟩
    refine hl ⟨u, hu, ?_⟩
    rw [hn, b] at a
    exact a
  | succ d ih =>
    intro s hv ⟨u, hu, hn⟩ hl hd
    have up_no : ¬ (s.nt < want ∧ s.im = G.size s.gen - 1 ∧ s.gen < G.n - 1) := by
      rintro ⟨a, b, -⟩
      refine hl ⟨u, hu, ?_⟩
      rw [hn, b] at a
      exact a
    by_cases hdn : want < s.nt ∧ s.im = 0 ∧ 0 < s.gen
    swap
    · exact ends_stop hv up_no hdn
    have hL : Large G want s.gen := by
      refine ⟨u, hu, ?_⟩
      have := hdn.1
      rw [hn, hdn.2.1] at this
      exact this
    have hgn := hv.2.1
    have hst : s.mults (s.gen - 1) < G.size (s.gen - 1) := hv.1 _ (by omega)
    obtain ⟨k, hb, hk, -⟩ := best_ends G want (s.gen - 1) _ hst
    refine ends_down hv hdn hb hk fun _ => ?_
    have hv' : Valid G ⟨setMult s.mults (s.gen - 1) k, s.gen - 1, G.count (s.gen - 1) (s.mults (s.gen - 1)) k, k⟩ :=
      ⟨valid_set hv hk, by show s.gen - 1 < G.n; omega, setMult_same _ _ _⟩
    have e1 : s.gen - 1 + 1 = s.gen := by omega
    by_cases hs' : Small G want (s.gen - 1)
    · refine bounce_below excl hv' (by show s.gen - 1 + 1 < G.n; omega) hs' (by show Large G want (s.gen - 1 + 1); rw [e1]; exact hL) ?_
        ⟨_, hst, rfl⟩
      show setMult s.mults (s.gen - 1) k (s.gen - 1 + 1) = 0
      rw [e1, setMult_other _ _ (by omega), hv.2.2]
      exact hdn.2.1
    · exact ih _ hv' ⟨_, hst, rfl⟩ hs' (by show s.gen - 1 = d; omega)

open Spec

theorem graded_sensible {G : Gens} {c : ℕ → ℕ → ℚ} (hg : Graded G c) (want : ℚ) : Sensible G want := by
  intro g hgn s hs s' hs' h
  rw [hg.1 g hgn s hs _ (by omega)] at h
  rw [hg.1 g hgn s' hs' _ (by omega)]
  have := hg.2 g 0 g (G.size g - 1) hgn hgn (by omega) (by omega) (Or.inr ⟨rfl, Nat.zero_le _⟩)
  linarith

/-- one call ends -/
theorem locate_ends (G : Gens) (want : ℚ) (hs : Sensible G want) (mults : ℕ → ℕ) (gen : ℕ) (hm : ∀ g < G.n, mults g < G.size g)
    (hg : gen < G.n) : ∃ r N, Valid G r ∧ ∀ fuel, N ≤ fuel → locate G want mults gen fuel = some r := by
  obtain ⟨k, hb, hk, -⟩ := best_ends G want gen (mults gen) (hm gen hg)
  have excl : ∀ g < G.n, ¬ (Small G want g ∧ Large G want g) := by
    rintro g hgn ⟨⟨s, hs1, hs2⟩, ⟨s', hs1', hs2'⟩⟩
    exact absurd (hs g hgn s hs1 s' hs1' hs2) (not_le.2 hs2')
  have hv : Valid G ⟨setMult mults gen k, gen, G.count gen (mults gen) k, k⟩ := by
    refine ⟨fun h hh => ?_, hg, setMult_same _ _ _⟩
    show setMult mults gen k h < _
    by_cases e : h = gen
    · rw [e, setMult_same]; exact hk
    · rw [setMult_other _ _ e]; exact hm h hh
  have hseen : Seen G ⟨setMult mults gen k, gen, G.count gen (mults gen) k, k⟩ := ⟨_, hm gen hg, rfl⟩
  have : Ends G want ⟨setMult mults gen k, gen, G.count gen (mults gen) k, k⟩ := by
    by_cases h : Small G want gen
    · exact ends_upwards excl _ _ hv hseen (fun h' => excl gen hg ⟨h, h'⟩) rfl
    · exact ends_downwards excl _ _ hv hseen h rfl
  obtain ⟨r, N, hr, hN⟩ := this
  refine ⟨r, N, hr, fun fuel hf => ?_⟩
  unfold locate
  rw [hb]
  exact hN fuel hf

/-- what the search returns is best, if the numbers of ticks are graded -/
theorem search_best {G : Gens} {c : ℕ → ℕ → ℚ} (hG : Graded G c) (h2 : ∀ g < G.n, 2 ≤ G.size g) {want : ℚ} : ∀ (fuel : ℕ) (s r : State),
    Valid G s → s.nt = c s.gen s.im → LocalBest (c s.gen) (G.size s.gen) want s.im → search G want fuel s = some r →
    r.nt = c r.gen r.im ∧ ∀ g < G.n, ∀ i < G.size g, |r.nt - want| ≤ |c g i - want| := by
  have congr : ∀ g < G.n, ∀ t < G.size g, ∀ k, k < G.size g → LocalBest (G.count g t) (G.size g) want k → LocalBest (c g) (G.size g) want k := by
    intro g hg t ht k hk ⟨a, b⟩
    refine ⟨fun h1 h2 => ?_, fun h1 h2 => ?_⟩
    · have := a (by rw [hG.1 g hg t ht k hk]; exact h1) h2
      rwa [hG.1 g hg t ht k hk, hG.1 g hg t ht _ (by omega)] at this
    · have := b (by rw [hG.1 g hg t ht k hk]; exact h1) h2
      rwa [hG.1 g hg t ht k hk, hG.1 g hg t ht _ (by omega)] at this
  -- the two ways to stop with fewer or more ticks than wanted
  have few : ∀ g < G.n, ∀ k < G.size g, LocalBest (c g) (G.size g) want k → c g k ≤ want →
      (c g k < want → k = G.size g - 1 → ∀ g', g < g' → g' < G.n → ∀ i < G.size g', want - c g k ≤ c g' i - want) →
      ∀ g' < G.n, ∀ i < G.size g', |c g k - want| ≤ |c g' i - want| := by
    intro g hg k hk hl hw hlast g' hg' i hi
    rw [abs_of_nonpos (by linarith)]
    rcases eq_or_lt_of_le hw with e | hw
    · rw [e]; simp
    by_cases hle : g' < g ∨ g' = g ∧ i ≤ k
    · have := hG.2 g' i g k hg' hg hi hk hle
      rw [abs_of_nonpos (by linarith)]
      linarith
    · have hge : g < g' ∨ g = g' ∧ k < i := by
        rcases lt_trichotomy g g' with h | h | h
        · exact Or.inl h
        · refine Or.inr ⟨h, ?_⟩
          by_contra h'
          exact hle (Or.inr ⟨h.symm, by omega⟩)
        · exact absurd (Or.inl h) hle
      refine le_trans ?_ (le_abs_self _)
      by_cases hkl : k = G.size g - 1
      · rcases hge with h | ⟨rfl, h⟩
        · have := hlast hw hkl g' h hg' i hi
          linarith
        · omega
      · have h1 := hl.2 hw (by omega)
        have := hG.2 g (k + 1) g' i hg hg' (by omega) hi (by
          rcases hge with h | ⟨h, h'⟩
          · exact Or.inl h
          · exact Or.inr ⟨h, h'⟩)
        linarith
  have many : ∀ g < G.n, ∀ k < G.size g, LocalBest (c g) (G.size g) want k → want ≤ c g k →
      (want < c g k → k = 0 → ∀ g' < g, ∀ i < G.size g', c g k - want ≤ |c g' i - want|) →
      ∀ g' < G.n, ∀ i < G.size g', |c g k - want| ≤ |c g' i - want| := by
    intro g hg k hk hl hw hfirst g' hg' i hi
    rw [abs_of_nonneg (by linarith)]
    rcases eq_or_lt_of_le hw with e | hw
    · rw [← e]; simp
    by_cases hge : g < g' ∨ g = g' ∧ k ≤ i
    · have := hG.2 g k g' i hg hg' hk hi hge
      rw [abs_of_nonneg (by linarith)]
      linarith
    · have hle : g' < g ∨ g' = g ∧ i < k := by
        rcases lt_trichotomy g g' with h | h | h
        · exact absurd (Or.inl h) hge
        · refine Or.inr ⟨h.symm, ?_⟩
          by_contra h'
          exact hge (Or.inr ⟨h, by omega⟩)
        · exact Or.inl h
      by_cases hk0 : k = 0
      · rcases hle with h | ⟨rfl, h⟩
        · exact hfirst hw hk0 g' h i hi
        · omega
      · have h1 := hl.1 hw (by omega)
        have := hG.2 g' i g (k - 1) hg' hg hi (by omega) (by
          rcases hle with h | ⟨h, h'⟩
          · exact Or.inl h
          · exact Or.inr ⟨h, by omega⟩)
        rw [abs_of_nonpos (by linarith)]
        linarith
  intro fuel
  induction fuel with
  | zero => intro s r _ _ _ h; cases h
  | succ fuel ih =>
    intro s r hv hnt hloc h
    have him : s.im < G.size s.gen := by rw [← hv.2.2]; exact hv.1 _ hv.2.1
    rw [search] at h
    by_cases h1 : s.nt < want ∧ s.im = G.size s.gen - 1 ∧ s.gen < G.n - 1
    · rw [if_pos h1] at h
      have hg1 : s.gen + 1 < G.n := by omega
      have hst := hv.1 _ hg1
      obtain ⟨k, hb, hk, hkl⟩ := best_ends G want (s.gen + 1) _ hst
      rw [hb] at h
      simp only [Option.bind_some] at h
      rw [hG.1 _ hg1 _ hst k hk] at h
      have hkl := congr _ hg1 _ hst k hk hkl
      split_ifs at h with hstop
      · cases h
        refine ⟨hnt, ?_⟩
        show ∀ g < G.n, ∀ i < G.size g, |s.nt - want| ≤ |c g i - want|
        rw [hnt]
        refine few s.gen hv.2.1 s.im him hloc (by rw [← hnt]; exact h1.1.le) fun hw _ g' hg hg' i hi => ?_
        have := hG.2 (s.gen + 1) 0 g' i hg1 hg' (by omega) hi (by
          rcases Nat.lt_or_ge (s.gen + 1) g' with h | h
          · exact Or.inl h
          · exact Or.inr ⟨by omega, Nat.zero_le _⟩)
        have h3 := hstop.2
        rw [hstop.1, hnt] at h3
        linarith
      · exact ih _ r ⟨valid_set hv hk, hg1, setMult_same _ _ _⟩ rfl hkl h
    · rw [if_neg h1] at h
      by_cases h3 : want < s.nt ∧ s.im = 0 ∧ 0 < s.gen
      · rw [if_pos h3] at h
        have hg1 : s.gen - 1 < G.n := by have := hv.2.1; omega
        have hst := hv.1 _ hg1
        obtain ⟨k, hb, hk, hkl⟩ := best_ends G want (s.gen - 1) _ hst
        rw [hb] at h
        simp only [Option.bind_some] at h
        rw [hG.1 _ hg1 _ hst k hk] at h
        have hkl := congr _ hg1 _ hst k hk hkl
        split_ifs at h with hstop
        · cases h
          refine ⟨hnt, ?_⟩
          show ∀ g < G.n, ∀ i < G.size g, |s.nt - want| ≤ |c g i - want|
          rw [hnt]
          refine many s.gen hv.2.1 s.im him hloc (by rw [← hnt]; exact h3.1.le) fun hw _ g' hg i hi => ?_
          have hs2 := hstop.2
          rw [hnt, abs_of_pos (by linarith)] at hs2
          have hle : c g' i ≤ c (s.gen - 1) k := hG.2 g' i (s.gen - 1) k (by omega) hg1 hi hk (by
            rcases Nat.lt_or_ge g' (s.gen - 1) with h | h
            · exact Or.inl h
            · have : g' = s.gen - 1 := by omega
              refine Or.inr ⟨this, ?_⟩
              rw [hstop.1, ← this]
              omega)
          rcases le_or_gt (c (s.gen - 1) k) want with hw' | hw'
          · rw [abs_of_nonneg (by linarith)] at hs2
            rw [abs_of_nonpos (by linarith)]
            linarith
          · -- as many ticks: all others of that generator have fewer than wanted
            have h2' := h2 _ hg1
            have hk0 : 0 < k := by rw [hstop.1]; omega
            have hb := hkl.1 hw' hk0
            have hlek : c (s.gen - 1) k ≤ c s.gen s.im := hG.2 _ _ _ _ hg1 hv.2.1 hk him (Or.inl (by omega))
            rw [abs_of_neg (by linarith)] at hs2
            have heq : c (s.gen - 1) k = c s.gen s.im := by linarith
            by_cases e : g' = s.gen - 1 ∧ i = k
            · rw [e.1, e.2, heq]
              exact le_abs_self _
            · have : c g' i ≤ c (s.gen - 1) (k - 1) := hG.2 g' i (s.gen - 1) (k - 1) (by omega) hg1 hi (by omega) (by
                rcases Nat.lt_or_ge g' (s.gen - 1) with h | h
                · exact Or.inl h
                · have e' : g' = s.gen - 1 := by omega
                  refine Or.inr ⟨e', ?_⟩
                  have : i ≠ k := fun h => e ⟨e', h⟩
                  rw [e'] at hi
                  omega)
              rw [abs_of_nonpos (by linarith)]
              linarith
        · exact ih _ r ⟨valid_set hv hk, hg1, setMult_same _ _ _⟩ rfl hkl h
      · rw [if_neg h3] at h
        cases h
        refine ⟨hnt, ?_⟩
        rw [hnt]
        rcases le_or_gt (c s.gen s.im) want with hw | hw
        · refine few s.gen hv.2.1 s.im him hloc hw fun hw' hl g' hg hg' i hi => ?_
          exact absurd ⟨hnt ▸ hw', hl, by omega⟩ h1
        · refine many s.gen hv.2.1 s.im him hloc hw.le fun hw' hl g' hg i hi => ?_
          exact absurd ⟨hnt ▸ hw', hl, by omega⟩ h3

/-- one call finds the best number of ticks -/
theorem locate_best (G : Gens) (c : ℕ → ℕ → ℚ) (hG : Graded G c) (h2 : ∀ g < G.n, 2 ≤ G.size g) (want : ℚ) (mults : ℕ → ℕ) (gen : ℕ)
    (hm : ∀ g < G.n, mults g < G.size g) (hg : gen < G.n) (fuel : ℕ) (r : State) (h : locate G want mults gen fuel = some r) :
    r.nt = c r.gen r.im ∧ ∀ g < G.n, ∀ i < G.size g, |r.nt - want| ≤ |c g i - want| := by
  obtain ⟨k, hb, hk, hl⟩ := best_ends G want gen (mults gen) (hm gen hg)
  unfold locate at h
  rw [hb] at h
  have h : search G want fuel ⟨setMult mults gen k, gen, G.count gen (mults gen) k, k⟩ = some r := h
  refine search_best hG h2 fuel _ r ⟨fun x hx => ?_, hg, setMult_same _ _ _⟩ (hG.1 _ hg _ (hm gen hg) k hk) ?_ h
  · show setMult mults gen k x < _
    by_cases e : x = gen
    · rw [e, setMult_same]; exact hk
    · rw [setMult_other _ _ e]; exact hm x hx
  · obtain ⟨a, b⟩ := hl
    have ht := hm gen hg
    refine ⟨fun h1 h2 => ?_, fun h1 h2 => ?_⟩
    · have := a (by rw [hG.1 _ hg _ ht k hk]; exact h1) h2
      rwa [hG.1 _ hg _ ht k hk, hG.1 _ hg _ ht _ (by omega)] at this
    · have h2 : k < G.size gen - 1 := h2
      have := b (by rw [hG.1 _ hg _ ht k hk]; exact h1) h2
      rwa [hG.1 _ hg _ ht k hk, hG.1 _ hg _ ht _ (by omega)] at this

/-- C118: a locator answers every call, whatever it was asked before: the search for a generator always ends, with one of the generators and one
of its multiples; and where the numbers of ticks grow from the coarsest to the finest, no other generator and multiple has a number of ticks
nearer to the one wanted. -/
theorem locator_correct (want : ℚ) (n : ℕ) (size : ℕ → ℕ) (hn : 0 < n) (h2 : ∀ g < n, 2 ≤ size g) (views : List Gens)
    (hv : ∀ G ∈ views, G.n = n ∧ G.size = size ∧ Sensible G want) :
    ∃ r N, (∀ fuel, N ≤ fuel → run want views fuel = some r) ∧
      List.Forall₂ (fun G s => s.gen < n ∧ s.im < size s.gen ∧ s.mults s.gen = s.im ∧
        ∀ c, Graded G c → s.nt = c s.gen s.im ∧ ∀ g < n, ∀ i < size g, |s.nt - want| ≤ |c g i - want|) views r := by
  unfold run
  have : ∀ (mults : ℕ → ℕ) (gen : ℕ), (∀ g < n, mults g < size g) → gen < n →
      ∃ r N, (∀ fuel, N ≤ fuel → calls want fuel views mults gen = some r) ∧
      List.Forall₂ (fun G s => s.gen < n ∧ s.im < size s.gen ∧ s.mults s.gen = s.im ∧
        ∀ c, Graded G c → s.nt = c s.gen s.im ∧ ∀ g < n, ∀ i < size g, |s.nt - want| ≤ |c g i - want|) views r := by
    induction views with
    | nil => exact fun _ _ _ _ => ⟨[], 0, fun _ _ => rfl, List.Forall₂.nil⟩
    | cons G l ih =>
      intro mults gen hm hg
      obtain ⟨e1, e2, e3⟩ := hv G (by simp)
      obtain ⟨r, N, hr, hN⟩ := locate_ends G want e3 mults gen (by rw [e1, e2]; exact hm) (by rw [e1]; exact hg)
      obtain ⟨rs, M, hM, hF⟩ := ih (fun G' h => hv G' (by simp [h])) r.mults r.gen
        (by have := hr.1; rw [e1, e2] at this; exact this) (by rw [← e1]; exact hr.2.1)
      refine ⟨r :: rs, max N M, fun fuel hf => ?_, List.Forall₂.cons ⟨?_, ?_, ?_, fun c hc => ?_⟩ hF⟩
      · rw [calls, hN fuel (le_trans (le_max_left _ _) hf)]
        simp only [Option.bind_some]
        rw [hM fuel (le_trans (le_max_right _ _) hf)]
        rfl
      · rw [← e1]; exact hr.2.1
      · rw [← e2, ← hr.2.2]; exact hr.1 _ hr.2.1
      · exact hr.2.2
      · have := locate_best G c hc (by rw [e1, e2]; exact h2) want mults gen (by rw [e1, e2]; exact hm) (by rw [e1]; exact hg) N r
          (hN N le_rfl)
        rw [e1, e2] at this
        exact this
  exact this (fun _ => 0) 0 (fun g hg => lt_of_lt_of_le (by norm_num) (h2 g hg)) hn

/-! ### a case -/

/-- days and hours over a number of hours: every 10th, 5th, second or every day, and every 12, 6, 3, 2, 1 hours -/
def spanEx (hours : ℚ) : Gens where
  n := 2
  size g := if g = 0 then 4 else 5
  count g _ i := if g = 0 then hours / 24 / [10, 5, 2, 1].getD i 1 else hours / [12, 6, 3, 2, 1].getD i 1

example : (run 5 [spanEx 120, spanEx 10, spanEx 240, spanEx 1000] 10).map (List.map fun s => (s.gen, s.im, s.nt)) =
    some [(0, 3, 5), (1, 3, 5), (0, 2, 5), (0, 0, 25 / 6)] := by decide +kernel

/-- such counts are graded -/
example (hours : ℚ) (h : 0 ≤ hours) : Graded (spanEx hours) ((spanEx hours).count · 0 ·) := by
  refine ⟨fun _ _ _ _ _ _ => rfl, ?_⟩
  intro g i k j hg hk hi hj hle
  have hg : g < 2 := hg
  have hk : k < 2 := hk
  have hi : i < if g = 0 then 4 else 5 := hi
  have hj : j < if k = 0 then 4 else 5 := hj
  show (if g = 0 then hours / 24 / [10, 5, 2, 1].getD i 1 else hours / [12, 6, 3, 2, 1].getD i 1) ≤
    if k = 0 then hours / 24 / [10, 5, 2, 1].getD j 1 else hours / [12, 6, 3, 2, 1].getD j 1
  obtain rfl | rfl : g = 0 ∨ g = 1 := by omega
  · simp only [if_true] at hi ⊢
    obtain rfl | rfl | rfl | rfl : i = 0 ∨ i = 1 ∨ i = 2 ∨ i = 3 := by omega
    all_goals
      obtain rfl | rfl : k = 0 ∨ k = 1 := by omega
      · simp only [if_true] at hj ⊢
        obtain rfl | rfl | rfl | rfl : j = 0 ∨ j = 1 ∨ j = 2 ∨ j = 3 := by omega
        all_goals first | omega | (norm_num [List.getD] <;> linarith)
      · simp only [one_ne_zero, if_false] at hj ⊢
        obtain rfl | rfl | rfl | rfl | rfl : j = 0 ∨ j = 1 ∨ j = 2 ∨ j = 3 ∨ j = 4 := by omega
        all_goals (norm_num [List.getD] <;> linarith)
  · obtain rfl : k = 1 := by omega
    simp only [one_ne_zero, if_false] at hi hj ⊢
    obtain rfl | rfl | rfl | rfl | rfl : i = 0 ∨ i = 1 ∨ i = 2 ∨ i = 3 ∨ i = 4 := by omega
    all_goals
      obtain rfl | rfl | rfl | rfl | rfl : j = 0 ∨ j = 1 ∨ j = 2 ∨ j = 3 ∨ j = 4 := by omega
      all_goals first | omega | (norm_num [List.getD] <;> linarith)

end Locator
end PyGeode
