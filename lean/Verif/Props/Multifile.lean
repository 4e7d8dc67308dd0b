/-
C56: variables spread over many files.
-/
import Verif.Model.Multifile
import Verif.Props.TimeC

namespace PyGeode
namespace Multifile
open TimeC

variable {β : Type}

/-- The file a time belongs to: the last one that starts no later than it. -/
def _root_.PyGeode.Spec.Home (starts : List ℚ) (x : ℚ) (n : ℕ) : Prop :=
  (∃ s, starts[n]? = some s ∧ s ≤ x) ∧ ∀ (m : ℕ) (s : ℚ), n < m → starts[m]? = some s → x < s

/-- `v` is what the files hold for the time `t`: it is stored under `t` in the file `t` belongs to. -/
def _root_.PyGeode.Spec.HeldInFile (files : List (Option (File β))) (starts : List ℚ) (val : Row → ℚ) (t : Row) (v : β) : Prop :=
  ∃ (n : ℕ) (f : File β) (k : ℕ), Spec.Home starts (val t) n ∧ files[n]? = some (some f) ∧ f.rows[k]? = some t ∧ v = f.data k

/-- The files are in order and each holds only times that belong to it (what `check_multi` verifies); a time has `w` date
fields; the values of the time axis of each file are in the order of its dates. -/
structure _root_.PyGeode.Spec.GoodFiles (files : List (Option (File β))) (starts : List ℚ) (val : Row → ℚ) (w : ℕ) : Prop where
  length : files.length = starts.length
  sorted : starts.Pairwise (· ≤ ·)
  home : ∀ (n : ℕ) (f : File β), files[n]? = some (some f) → ∀ r ∈ f.rows, Spec.Home starts (val r) n
  width : ∀ (n : ℕ) (f : File β), files[n]? = some (some f) → ∀ r ∈ f.rows, r.length = w
  order : ∀ (n : ℕ) (f : File β), files[n]? = some (some f) → f.order.Perm (List.range f.rows.length) ∧
    (f.order.map fun i : ℕ => f.rows.getD i []).Pairwise (· ≤ ·)

open Spec

theorem home_unique {starts : List ℚ} {x : ℚ} {n m : ℕ} (h : Home starts x n) (h' : Home starts x m) : n = m := by
  obtain ⟨⟨s, a1, a2⟩, a3⟩ := h
  obtain ⟨⟨s', b1, b2⟩, b3⟩ := h'
  rcases Nat.lt_trichotomy n m with hl | he | hl
  · exact absurd (a3 m s' hl b1) (not_lt.2 b2)
  · exact he
  · exact absurd (b3 n s hl a1) (not_lt.2 a2)

/-- the file that is looked up for a time is the one it belongs to -/
theorem fileIndex_home {starts : List ℚ} (hs : starts.Pairwise (· ≤ ·)) {x : ℚ} {n : ℕ} (h : Home starts x n) :
    fileIndex starts x = (n : ℤ) := by
  obtain ⟨⟨s, a1, a2⟩, a3⟩ := h
  obtain ⟨hn, hne⟩ := List.getElem?_eq_some_iff.1 a1
  have hsplit : starts = starts.take (n + 1) ++ starts.drop (n + 1) := (List.take_append_drop _ _).symm
  have h1 : (starts.take (n + 1)).countP (fun s => decide (s ≤ x)) = n + 1 := by
    rw [List.countP_eq_length.2]
    · rw [List.length_take]; omega
    · intro a ha
      obtain ⟨i, hi, hie⟩ := List.getElem_of_mem ha
      rw [List.length_take] at hi
      rw [List.getElem_take] at hie
      simp only [decide_eq_true_eq]
      refine le_trans ?_ a2
      rw [← hie, ← hne]
      rcases Nat.eq_or_lt_of_le (by omega : i ≤ n) with he | hl
      · subst he; exact le_refl _
      · exact List.pairwise_iff_getElem.1 hs i n (by omega) hn hl
  have h2 : (starts.drop (n + 1)).countP (fun s => decide (s ≤ x)) = 0 := by
    rw [List.countP_eq_zero]
    intro a ha
    obtain ⟨i, hi, hie⟩ := List.getElem_of_mem ha
    rw [List.getElem_drop] at hie
    have := a3 (n + 1 + i) a (by omega) (by rw [List.getElem?_eq_getElem (by rw [List.length_drop] at hi; omega), hie])
    simpa using this
  unfold fileIndex
  rw [hsplit, List.countP_append, h1, h2]
  push_cast
  ring

theorem pyGet_nat {γ : Type} (l : List γ) (n : ℕ) : pyGet l (n : ℤ) = l[n]? := by simp [pyGet]

theorem pyGet_mem {γ : Type} {l : List γ} {i : ℤ} {x : γ} (h : pyGet l i = some x) : ∃ n : ℕ, l[n]? = some x := by
  unfold pyGet at h
  split_ifs at h
  · exact ⟨_, h⟩
  · exact ⟨_, h⟩

theorem store_length (out : List (Option β)) (b : List ℕ) (d : List β) : (store out b d).length = out.length := by
  unfold store
  generalize b.zip d = l
  induction l generalizing out with
  | nil => rfl
  | cons p l ih => rw [List.foldl_cons, ih]; simp

/-- what a store leaves at a position -/
theorem store_get (out : List (Option β)) (b : List ℕ) (d : List β) (i : ℕ) :
    (store out b d)[i]? = out[i]? ∨ ∃ v, (i, v) ∈ b.zip d ∧ (store out b d)[i]? = some (some v) := by
  unfold store
  generalize b.zip d = l
  induction l generalizing out with
  | nil => exact Or.inl rfl
  | cons p l ih =>
    rw [List.foldl_cons]
    rcases ih (out.set p.1 (some p.2)) with h | ⟨v, h1, h2⟩
    · by_cases hp : p.1 = i
      · subst hp
        by_cases hlt : p.1 < out.length
        · exact Or.inr ⟨p.2, List.mem_cons_self .., by rw [h, List.getElem?_set_self hlt]⟩
        · refine Or.inl ?_
          rw [h, List.getElem?_eq_none (by simpa using hlt), List.getElem?_eq_none (by simpa using hlt)]
      · exact Or.inl (by rw [h, List.getElem?_set_ne hp])
    · exact Or.inr ⟨v, List.mem_cons_of_mem _ h1, h2⟩

/-- a position that is stored to holds something afterwards -/
theorem store_some (out : List (Option β)) (b : List ℕ) (d : List β) (i : ℕ) (hi : i < out.length)
    (h : (∃ v, (i, v) ∈ b.zip d) ∨ ∃ v, out[i]? = some (some v)) : ∃ v, (store out b d)[i]? = some (some v) := by
  unfold store
  generalize b.zip d = l at h
  induction l generalizing out with
  | nil =>
    rcases h with ⟨v, hv⟩ | h
    · simp at hv
    · exact h
  | cons p l ih =>
    rw [List.foldl_cons]
    refine ih _ (by simpa using hi) ?_
    by_cases hp : p.1 = i
    · exact Or.inr ⟨p.2, by rw [← hp, List.getElem?_set_self (by rw [hp]; exact hi)]⟩
    · rcases h with ⟨v, hv⟩ | ⟨v, hv⟩
      · rcases List.mem_cons.1 hv with h' | h'
        · exact absurd (by rw [← h']) hp
        · exact Or.inl ⟨v, h'⟩
      · exact Or.inr ⟨v, by rw [List.getElem?_set_ne hp]; exact hv⟩

/-- finding dates again in the file they are in -/
theorem timeMapTo_found {n : ℕ} (order : List ℕ) (rows : List Row) (hp : order.Perm (List.range rows.length))
    (hs : (order.map fun i : ℕ => rows.getD i []).Pairwise (· ≤ ·)) (hw : ∀ r ∈ rows, r.length = n) :
    ∀ out : List Row, (∀ r ∈ out, r ∈ rows) →
    List.Forall₂ (fun (r : Row) (k : ℕ) => rows[k]? = some r) out (timeMapTo order rows out) := by
  have hlt : ∀ i ∈ order, i < rows.length := by
    intro i hi; rwa [hp.mem_iff, List.mem_range] at hi
  have hw' : ∀ r ∈ (order.map fun i : ℕ => rows.getD i []), r.length = n := by
    intro r hr
    obtain ⟨i, hi, rfl⟩ := List.mem_map.1 hr
    rw [List.getD_eq_getElem _ _ (hlt i hi)]
    exact hw _ (List.getElem_mem _)
  intro out
  induction out with
  | nil => intro _; exact List.Forall₂.nil
  | cons r out ih =>
    intro h
    have hr := h r (List.mem_cons_self ..)
    obtain ⟨g1, g2⟩ := get_index_correct (order.map fun i : ℕ => rows.getD i []) r hw' (hw r hr) hs
    cases hg : getIndex (order.map fun i : ℕ => rows.getD i []) r with
    | none =>
      exfalso
      refine g2.1 hg ?_
      obtain ⟨i, hi, hie⟩ := List.getElem_of_mem hr
      refine List.mem_map.2 ⟨i, hp.mem_iff.2 (List.mem_range.2 hi), ?_⟩
      rw [List.getD_eq_getElem _ _ hi, hie]
    | some k =>
      have := g1 k hg
      have hcons : timeMapTo order rows (r :: out) = order.getD k 0 :: timeMapTo order rows out := by
        unfold timeMapTo getIndices
        rw [List.map_cons, hg]
        simp
      rw [hcons]
      refine List.Forall₂.cons ?_ (ih fun x hx => h x (List.mem_cons_of_mem _ hx))
      rw [List.getElem?_map] at this
      obtain ⟨i, hi, hie⟩ := Option.map_eq_some_iff.1 this
      have hmem : i ∈ order := List.mem_of_getElem? hi
      rw [List.getD_eq_getElem?_getD, hi, Option.getD_some, List.getElem?_eq_getElem (hlt i hmem), ← hie,
        List.getD_eq_getElem _ _ (hlt i hmem)]

/-- what one file contributes: for every requested time it holds, the data stored under that time -/
theorem step_spec {files : List (Option (File β))} {starts : List ℚ} {val : Row → ℚ} {w : ℕ} (hg : GoodFiles files starts val w)
    (times : List Row) (hw : ∀ t ∈ times, t.length = w) (hnd : times.Nodup) (idx : List ℤ) (out : List (Option β)) (p : ℕ)
    (hlen : out.length = times.length) :
    (∀ out', step files times idx out p = some out' → out'.length = out.length ∧ ∀ i : ℕ, out'[i]? = out[i]? ∨
      ∃ t v, times[i]? = some t ∧ HeldInFile files starts val t v ∧ out'[i]? = some (some v)) ∧
    (∀ (n : ℕ) (f : File β), idx.getD p 0 = (n : ℤ) → files[n]? = some (some f) → (∃ t ∈ times, t ∈ f.rows) →
      ∃ out', step files times idx out p = some out' ∧ ∀ i : ℕ, i < times.length →
        ((∃ t, times[i]? = some t ∧ t ∈ f.rows) ∨ ∃ v, out[i]? = some (some v)) → ∃ v, out'[i]? = some (some v)) := by
  -- what is known of the common times
  have key : ∀ (n : ℕ) (f : File β), files[n]? = some (some f) →
      List.Forall₂ (fun (i k : ℕ) => ∃ t, times[i]? = some t ∧ f.rows[k]? = some t) ((commonMap times f.rows).map Prod.fst)
        (timeMapTo f.order f.rows (((commonMap times f.rows).map Prod.fst).map fun i : ℕ => times.getD i [])) := by
    intro n f hf
    obtain ⟨o1, o2⟩ := hg.order n f hf
    have hb : ∀ i ∈ (commonMap times f.rows).map Prod.fst, ∃ t, times[i]? = some t ∧ t ∈ f.rows := by
      intro i hi
      obtain ⟨⟨a, b⟩, hm, rfl⟩ := List.mem_map.1 hi
      obtain ⟨t, h1, h2⟩ := time_common_map_sound times f.rows hw (hg.width n f hf) a b hm
      exact ⟨t, h1, List.mem_of_getElem? h2⟩
    have hf2 := timeMapTo_found f.order f.rows o1 o2 (hg.width n f hf)
      (((commonMap times f.rows).map Prod.fst).map fun i : ℕ => times.getD i []) (by
        intro r hr
        obtain ⟨i, hi, rfl⟩ := List.mem_map.1 hr
        obtain ⟨t, h1, h2⟩ := hb i hi
        rw [List.getD_eq_getElem?_getD, h1]; exact h2)
    rw [List.forall₂_map_left_iff] at hf2
    refine (List.forall₂_and_left (p := fun i => ∃ t, times[i]? = some t) _ _ |>.2 ⟨fun i hi => ?_, hf2⟩).imp ?_
    · obtain ⟨t, h1, -⟩ := hb i hi
      exact ⟨t, h1⟩
    · rintro i k ⟨⟨t, ht⟩, hk⟩
      rw [List.getD_eq_getElem?_getD, ht] at hk
      exact ⟨t, ht, hk⟩
  constructor
  · intro out' h
    unfold step at h
    cases hfile : (pyGet files (idx.getD p 0)).getD none with
    | none => rw [hfile] at h; cases h
    | some f =>
      rw [hfile] at h
      obtain ⟨n, hn⟩ : ∃ n : ℕ, files[n]? = some (some f) := by
        cases hp : pyGet files (idx.getD p 0) with
        | none => rw [hp] at hfile; cases hfile
        | some o => rw [hp] at hfile; simp only [Option.getD_some] at hfile; subst hfile; exact pyGet_mem hp
      have hk := key n f hn
      dsimp only at h
      split_ifs at h with h1 h2
      cases h
      refine ⟨store_length _ _ _, fun i => ?_⟩
      rcases store_get out ((commonMap times f.rows).map Prod.fst)
        ((timeMapTo f.order f.rows (((commonMap times f.rows).map Prod.fst).map fun i : ℕ => times.getD i [])).map f.data) i with h | ⟨v, hv, hs⟩
      · exact Or.inl h
      · refine Or.inr ?_
        rw [List.zip_map_right, List.mem_map] at hv
        obtain ⟨⟨i', k⟩, hm, he⟩ := hv
        simp only [Prod.map_apply, id_eq, Prod.mk.injEq] at he
        obtain ⟨rfl, rfl⟩ := he
        obtain ⟨t, ht, hkt⟩ := List.forall₂_iff_zip.1 hk |>.2 hm
        exact ⟨t, _, ht, ⟨n, f, k, hg.home n f hn t (List.mem_of_getElem? hkt), hn, hkt, rfl⟩, hs⟩
  · intro n f hidx hf hex
    have hk := key n f hf
    have hcomplete : ∀ (i : ℕ) (t : Row), times[i]? = some t → t ∈ f.rows → i ∈ (commonMap times f.rows).map Prod.fst := by
      intro i t hi ht
      obtain ⟨j, hj, hje⟩ := List.getElem_of_mem ht
      have := time_common_map_complete times f.rows hw (hg.width n f hf) (Or.inl hnd) i j t hi
        (by rw [List.getElem?_eq_getElem hj, hje])
      exact List.mem_map.2 ⟨(i, j), this, rfl⟩
    have hne : ((commonMap times f.rows).map Prod.fst).length ≠ 0 := by
      obtain ⟨t, ht, htf⟩ := hex
      obtain ⟨i, hi, hie⟩ := List.getElem_of_mem ht
      have := hcomplete i t (by rw [List.getElem?_eq_getElem hi, hie]) htf
      exact fun h => by rw [List.length_eq_zero_iff.1 h] at this; simp at this
    refine ⟨store out ((commonMap times f.rows).map Prod.fst)
      ((timeMapTo f.order f.rows (((commonMap times f.rows).map Prod.fst).map fun i : ℕ => times.getD i [])).map f.data), ?_, ?_⟩
    · unfold step
      rw [hidx, pyGet_nat, hf]
      simp only [Option.getD_some]
      rw [if_neg hne, if_pos hk.length_eq.symm]
    · intro i hi h
      refine store_some out _ _ i (by omega) (h.imp ?_ id)
      rintro ⟨t, ht, htf⟩
      have hmem := hcomplete i t ht htf
      obtain ⟨q, hq, hqe⟩ := List.getElem_of_mem hmem
      have hq' : q < (timeMapTo f.order f.rows (((commonMap times f.rows).map Prod.fst).map fun i : ℕ => times.getD i [])).length := by
        rw [← hk.length_eq]; exact hq
      refine ⟨f.data (timeMapTo f.order f.rows (((commonMap times f.rows).map Prod.fst).map fun i : ℕ => times.getD i []))[q], ?_⟩
      rw [List.mem_iff_getElem]
      refine ⟨q, by rw [List.length_zip, List.length_map (as := timeMapTo _ _ _)]; exact lt_min hq hq', ?_⟩
      rw [List.getElem_zip]
      refine Prod.ext hqe ?_
      exact List.getElem_map ..

/-- every time shares its file with a position where a file is opened -/
theorem newFilePos_covers (idx : List ℤ) : ∀ i, i < idx.length → ∃ p ∈ newFilePos idx, idx.getD p 0 = idx.getD i 0
  | 0, _ => ⟨0, List.mem_cons_self .., rfl⟩
  | i + 1, h => by
    by_cases he : idx.getD (i + 1) 0 = idx.getD i 0
    · obtain ⟨p, hp, hpe⟩ := newFilePos_covers idx i (by omega)
      exact ⟨p, hp, by rw [hpe, he]⟩
    · refine ⟨i + 1, List.mem_cons_of_mem _ (List.mem_filter.2 ⟨List.mem_range.2 h, ?_⟩), rfl⟩
      simpa using he

theorem newFilePos_lt {idx : List ℤ} (h : idx ≠ []) : ∀ p ∈ newFilePos idx, p < idx.length := by
  intro p hp
  rcases List.mem_cons.1 hp with rfl | hp
  · exact List.length_pos_iff.2 h
  · exact List.mem_range.1 (List.mem_filter.1 hp).1

/-- C56: whatever a request returns is, time by time and in the order of the request, the value the files hold for that
time; so an exception is raised, rather than other data returned, when one of the times is in no file. -/
theorem multifile_sound {files : List (Option (File β))} {starts : List ℚ} {val : Row → ℚ} {w : ℕ} (hg : GoodFiles files starts val w)
    (times : List Row) (hw : ∀ t ∈ times, t.length = w) (hnd : times.Nodup) (r : List β)
    (h : getview files starts val times = some r) : List.Forall₂ (fun t v => HeldInFile files starts val t v) times r := by
  unfold getview at h
  dsimp only at h
  set idx := times.map fun t => fileIndex starts (val t)
  obtain ⟨out, ho, hr⟩ := Option.bind_eq_some_iff.1 h
  have inv : ∀ (l : List ℕ) (o o' : List (Option β)), o.length = times.length →
      (∀ (i : ℕ) (v : β), o[i]? = some (some v) → ∃ t, times[i]? = some t ∧ HeldInFile files starts val t v) →
      l.foldlM (step files times idx) o = some o' → o'.length = times.length ∧
      ∀ (i : ℕ) (v : β), o'[i]? = some (some v) → ∃ t, times[i]? = some t ∧ HeldInFile files starts val t v := by
    intro l
    induction l with
    | nil => intro o o' h1 h2 h3; cases h3; exact ⟨h1, h2⟩
    | cons p l ih =>
      intro o o' h1 h2 h3
      rw [List.foldlM_cons] at h3
      obtain ⟨o₁, h4, h5⟩ := Option.bind_eq_some_iff.1 h3
      obtain ⟨a1, a2⟩ := (step_spec hg times hw hnd idx o p h1).1 o₁ h4
      refine ih o₁ o' (a1.trans h1) (fun i v hv => ?_) h5
      rcases a2 i with h | ⟨t, v', ht, hh, he⟩
      · exact h2 i v (h ▸ hv)
      · rw [hv] at he; cases he; exact ⟨t, ht, hh⟩
  obtain ⟨hl, hv⟩ := inv (newFilePos idx) _ out (by simp) (by
    intro i v hv
    rw [List.getElem?_replicate] at hv
    split_ifs at hv
    cases hv) ho
  have hro : out = r.map some := by
    clear ho hl hv h
    induction out generalizing r with
    | nil => simp at hr; subst hr; rfl
    | cons a l ih =>
      rw [List.mapM_cons] at hr
      cases a with
      | none => simp at hr
      | some v =>
        obtain ⟨r', h1, h2⟩ := Option.bind_eq_some_iff.1 (show (List.mapM id l).bind (fun r' => some (v :: r')) = some r from hr)
        cases h2
        rw [List.map_cons, ← ih r' h1]
  subst hro
  rw [List.length_map] at hl
  refine List.forall₂_iff_get.2 ⟨hl.symm, fun i h1 h2 => ?_⟩
  obtain ⟨t, ht, hh⟩ := hv i r[i] (by rw [List.getElem?_map, List.getElem?_eq_getElem h2]; rfl)
  rw [List.getElem?_eq_getElem h1] at ht
  cases ht
  exact hh

/-- C56: a request succeeds when every time in it is in the file it belongs to. -/
theorem multifile_complete {files : List (Option (File β))} {starts : List ℚ} {val : Row → ℚ} {w : ℕ} (hg : GoodFiles files starts val w)
    (times : List Row) (hw : ∀ t ∈ times, t.length = w) (hnd : times.Nodup) (hne : times ≠ [])
    (hall : ∀ t ∈ times, ∃ v, HeldInFile files starts val t v) : ∃ r, getview files starts val times = some r := by
  unfold getview
  dsimp only
  set idx := times.map fun t => fileIndex starts (val t) with hidx
  have hil : idx.length = times.length := by simp [hidx]
  have hhome : ∀ (i : ℕ) (t : Row), times[i]? = some t → ∃ (n : ℕ) (f : File β), idx.getD i 0 = (n : ℤ) ∧ files[n]? = some (some f) ∧ t ∈ f.rows := by
    intro i t ht
    obtain ⟨v, n, f, k, h1, h2, h3, -⟩ := hall t (List.mem_of_getElem? ht)
    refine ⟨n, f, ?_, h2, List.mem_of_getElem? h3⟩
    rw [hidx, List.getD_eq_getElem?_getD, List.getElem?_map, ht]
    exact fileIndex_home hg.sorted h1
  have run : ∀ (l : List ℕ) (o : List (Option β)), (∀ p ∈ l, p < times.length) → o.length = times.length →
      ∃ o', l.foldlM (step files times idx) o = some o' ∧ o'.length = times.length ∧ ∀ i : ℕ, i < times.length →
        ((∃ p ∈ l, idx.getD p 0 = idx.getD i 0) ∨ ∃ v, o[i]? = some (some v)) → ∃ v, o'[i]? = some (some v) := by
    intro l
    induction l with
    | nil =>
      intro o _ h2
      refine ⟨o, rfl, h2, fun i _ h => ?_⟩
      rcases h with ⟨p, hp, -⟩ | h
      · simp at hp
      · exact h
    | cons p l ih =>
      intro o h1 h2
      have hp := h1 p (List.mem_cons_self ..)
      obtain ⟨n, f, e1, e2, e3⟩ := hhome p times[p] (List.getElem?_eq_getElem hp)
      have hs := step_spec hg times hw hnd idx o p h2
      obtain ⟨o₁, a1, a2⟩ := hs.2 n f e1 e2 ⟨_, List.getElem_mem _, e3⟩
      have hl := (hs.1 o₁ a1).1
      obtain ⟨o', b1, b2, b3⟩ := ih o₁ (fun q hq => h1 q (List.mem_cons_of_mem _ hq)) (hl.trans h2)
      refine ⟨o', ?_, b2, fun i hi h => b3 i hi ?_⟩
      · rw [List.foldlM_cons, a1]; exact b1
      · rcases h with ⟨q, hq, hqe⟩ | h
        · rcases List.mem_cons.1 hq with rfl | hq
          · refine Or.inr (a2 i hi (Or.inl ⟨times[i], List.getElem?_eq_getElem hi, ?_⟩))
            obtain ⟨n', f', g1, g2, g3⟩ := hhome i times[i] (List.getElem?_eq_getElem hi)
            have : n' = n := by
              have : (n' : ℤ) = n := by rw [← g1, ← e1, hqe]
              exact_mod_cast this
            subst this
            rw [e2] at g2; cases g2
            exact g3
          · exact Or.inl ⟨q, hq, hqe⟩
        · exact Or.inr (a2 i hi (Or.inr h))
  obtain ⟨o', c1, c2, c3⟩ := run (newFilePos idx) (List.replicate times.length none)
    (fun p hp => hil ▸ newFilePos_lt (by rw [← List.length_pos_iff, hil]; exact List.length_pos_iff.2 hne) p hp) (by simp)
  rw [c1, Option.bind_some]
  have hsome : ∀ x ∈ o', ∃ v, x = some v := by
    intro x hx
    obtain ⟨i, hi, hie⟩ := List.getElem_of_mem hx
    obtain ⟨v, hv⟩ := c3 i (by omega) (Or.inl (newFilePos_covers idx i (by omega)))
    rw [List.getElem?_eq_getElem hi, hie] at hv
    exact ⟨v, Option.some.inj hv⟩
  clear c1 c2 c3
  induction o' with
  | nil => exact ⟨[], rfl⟩
  | cons a l ih =>
    obtain ⟨v, rfl⟩ := hsome _ (List.mem_cons_self ..)
    obtain ⟨r, hr⟩ := ih fun x hx => hsome x (List.mem_cons_of_mem _ hx)
    refine ⟨v :: r, ?_⟩
    rw [List.mapM_cons, hr]; rfl

/-- C56: a request with a time that is in no file raises an exception. -/
theorem multifile_missing {files : List (Option (File β))} {starts : List ℚ} {val : Row → ℚ} {w : ℕ} (hg : GoodFiles files starts val w)
    (times : List Row) (hw : ∀ t ∈ times, t.length = w) (hnd : times.Nodup) (t : Row) (ht : t ∈ times)
    (hmiss : ∀ v, ¬ HeldInFile files starts val t v) : getview files starts val times = none := by
  cases h : getview files starts val times with
  | none => rfl
  | some r =>
    exfalso
    have := multifile_sound hg times hw hnd r h
    obtain ⟨i, hi, hie⟩ := List.getElem_of_mem ht
    have h2 := (List.forall₂_iff_get.1 this).2 i hi (by rw [← this.length_eq]; exact hi)
    simp only [List.get_eq_getElem, hie] at h2
    exact hmiss _ h2

/-- Two files of two days each; the times are days. -/
def filesEx : List (Option (File ℚ)) := [some ⟨[[0], [1]], [0, 1], fun k => 10 + k⟩, some ⟨[[3], [2]], [1, 0], fun k => 20 + k⟩]
def valEx (r : Row) : ℚ := r.headD 0

example : GoodFiles filesEx [0, 2] valEx 1 := by
  refine ⟨rfl, by decide +kernel, ?_, ?_, ?_⟩
  · rintro (_ | _ | n) f hf r hr
    · simp [filesEx] at hf; subst hf
      simp at hr
      rcases hr with rfl | rfl <;> refine ⟨⟨0, rfl, by decide +kernel⟩, ?_⟩ <;> rintro (_ | _ | m) s hm hs <;> simp at hm hs <;> subst hs <;> decide +kernel
    · simp [filesEx] at hf; subst hf
      simp at hr
      rcases hr with rfl | rfl <;> refine ⟨⟨2, rfl, by decide +kernel⟩, ?_⟩ <;> rintro (_ | _ | m) s hm hs <;> simp at hm hs
    · simp [filesEx] at hf
  · rintro (_ | _ | n) f hf r hr
    · simp [filesEx] at hf; subst hf
      simp at hr
      rcases hr with rfl | rfl <;> rfl
    · simp [filesEx] at hf; subst hf
      simp at hr
      rcases hr with rfl | rfl <;> rfl
    · simp [filesEx] at hf
  · rintro (_ | _ | n) f hf
    · simp [filesEx] at hf; subst hf; decide +kernel
    · simp [filesEx] at hf; subst hf; decide +kernel
    · simp [filesEx] at hf

example : getview filesEx [0, 2] valEx [[3], [0], [2]] = some [20, 10, 21] := by decide +kernel
example : getview filesEx [0, 2] valEx [[3], [5]] = none ∧ getview filesEx [0, 2] valEx [[3], [-1]] = none := by decide +kernel

/-- When files overlap, the value depends on the order of the request: asked for after day 3, day 0 brings the first file
back, and its value for day 3 replaces that of the file day 3 belongs to. -/
theorem overlap_violated :
    let files : List (Option (File ℚ)) := [some ⟨[[0], [1], [3]], [0, 1, 2], fun k => 10 + k⟩, some ⟨[[2], [3]], [0, 1], fun k => 20 + k⟩]
    getview files [0, 2] valEx [[0], [3]] = some [10, 21] ∧ getview files [0, 2] valEx [[3], [0]] = some [12, 10] := by decide +kernel

end Multifile
end PyGeode
