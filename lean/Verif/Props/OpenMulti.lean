/-
C98: many files opened as one dataset.
-/
import Verif.Model.OpenMulti
import Verif.Props.Multifile
import Verif.Props.Calendar

namespace PyGeode
namespace OpenMulti
open Calendar TimeC Multifile

variable {β : Type}

/-- The files are in the order of their dates, and each holds times that are not before its own date and are before the
date of every later file. The dates are valid ones. -/
structure _root_.PyGeode.Spec.Filed (c : Cal) (gs : List (MFile β)) : Prop where
  stamps : ∀ g ∈ gs, Spec.ValidDate c g.stamp
  times : ∀ g ∈ gs, ∀ d ∈ g.times, Spec.ValidDate c d
  starts : ∀ g ∈ gs, 1 ≤ g.start.month ∧ g.start.month ≤ 12
  some : ∀ g ∈ gs, g.times ≠ []
  own : ∀ g ∈ gs, ∀ d ∈ g.times, ¬ Spec.Earlier d g.stamp
  order : gs.Pairwise fun f g => Spec.Earlier f.stamp g.stamp ∧ ∀ d ∈ f.times, Spec.Earlier d g.stamp

/-- the times of all files, one after the other -/
def _root_.PyGeode.Spec.allTimes (gs : List (MFile β)) : List Date := gs.flatMap MFile.times

/-- the data of all files, one after the other -/
def _root_.PyGeode.Spec.allData (gs : List (MFile β)) : List β := gs.flatMap fun g => (List.range g.times.length).map g.data

/-- All times together are `step` seconds apart, the first and the last file have times in the same units, and one of
these two has at least two times. -/
structure _root_.PyGeode.Spec.EvenSteps (c : Cal) (gs : List (MFile β)) (step : ℕ) : Prop where
  pos : 0 < step
  even : (Spec.allTimes gs).IsChain fun a b => b = (Spec.nextSecond c)^[step] a
  units : ∀ f ∈ gs.head?, ∀ l ∈ gs.getLast?, f.unit = l.unit
  two : (∃ f ∈ gs.head?, 2 ≤ f.times.length) ∨ ∃ l ∈ gs.getLast?, 2 ≤ l.times.length

/-- Every file has one time, `off` seconds after the date in its name. -/
def _root_.PyGeode.Spec.OneEach (c : Cal) (gs : List (MFile β)) (off : ℕ) : Prop :=
  ∀ g ∈ gs, g.times = [(Spec.nextSecond c)^[off] g.stamp]

open Spec

/-- seconds, by the day count of the calendar -/
abbrev ab (c : Cal) (d : Date) : ℤ := (count c).abs d

theorem chain_abs (c : Cal) (step : ℕ) : ∀ (A : List Date), (∀ d ∈ A, ValidDate c d) →
    A.IsChain (fun a b => b = (nextSecond c)^[step] a) → A.IsChain fun a b => ab c b = ab c a + step
  | [], _, _ => .nil
  | [_], _, _ => .singleton _
  | a :: b :: l, hv, h => by
    rw [List.isChain_cons_cons] at h ⊢
    refine ⟨?_, chain_abs c step (b :: l) (fun d hd => hv d (List.mem_cons_of_mem _ hd)) h.2⟩
    rw [h.1]
    exact (abs_iterate c a (hv a (List.mem_cons_self ..)) step).2

theorem chain_nth (c : Cal) (step : ℤ) : ∀ (A : List Date), (A.IsChain fun a b => ab c b = ab c a + step) →
    ∀ (k : ℕ) (d e : Date), A[0]? = some d → A[k]? = some e → ab c e = ab c d + k * step
  | [], _, k, d, e, h, _ => by simp at h
  | [a], _, k, d, e, h, h' => by
    obtain rfl : k = 0 := by
      have := (List.getElem?_eq_some_iff.1 h').1
      simpa using this
    rw [h] at h'
    simp at h'
    simp [h']
  | a :: b :: l, hc, k, d, e, h, h' => by
    rw [List.isChain_cons_cons] at hc
    simp at h
    subst h
    rcases k with _ | k
    · simp at h'; simp [h']
    · have := chain_nth c step (b :: l) hc.2 k b e rfl (by simpa using h')
      rw [this, hc.1]
      push_cast
      ring

theorem reltime_eq (c : Cal) (s : Date) (hs : 1 ≤ s.month ∧ s.month ≤ 12) (u : Units) : ∀ (A : List Date), (∀ d ∈ A, ValidDate c d) →
    reltime c A s u = some (A.map fun d => ((ab c d - ab c s : ℤ) : ℚ) / unitfactor u)
  | [], _ => rfl
  | a :: A, h => by
    have := reltime_eq c s hs u A fun d hd => h d (List.mem_cons_of_mem _ hd)
    unfold reltime at this ⊢
    rw [List.mapM_cons, this, dateAsVal_eq c hs (h a (List.mem_cons_self ..)).month]
    rfl

theorem diffs_chain (c : Cal) (s : Date) (step : ℤ) (uf : ℚ) : ∀ (A : List Date), (A.IsChain fun a b => ab c b = ab c a + step) →
    diffs (A.map fun d => ((ab c d - ab c s : ℤ) : ℚ) / uf) = List.replicate (A.length - 1) ((step : ℚ) / uf)
  | [], _ => rfl
  | [_], _ => rfl
  | a :: b :: l, h => by
    rw [List.isChain_cons_cons] at h
    have := diffs_chain c s step uf (b :: l) h.2
    simp only [List.map_cons, List.length_cons] at this ⊢
    rw [show l.length + 1 + 1 - 1 = (l.length + 1 - 1) + 1 from by omega, List.replicate_succ, ← this, diffs]
    congr 1
    rw [h.1]
    push_cast
    ring

theorem delta_chain (c : Cal) (s : Date) (step : ℤ) (uf : ℚ) (A : List Date) (h : A.IsChain fun a b => ab c b = ab c a + step) :
    delta (A.map fun d => ((ab c d - ab c s : ℤ) : ℚ) / uf) = some (if 2 ≤ A.length then (step : ℚ) / uf else 0) := by
  unfold delta
  rw [diffs_chain c s step uf A h]
  rcases hn : A.length - 1 with _ | n
  · rw [if_neg (by omega)]; rfl
  · rw [if_pos (by omega), List.replicate_succ]
    dsimp only
    rw [if_pos]
    rw [List.all_eq_true]
    intro e he
    obtain rfl : e = (step : ℚ) / uf := by
      rcases List.mem_cons.1 he with h | h
      · exact h
      · exact List.eq_of_mem_replicate h
    simp only [close, sub_self, abs_zero, decide_eq_true_eq]
    positivity

theorem withnewvalues_eq (c : Cal) (s : Date) (hs : 1 ≤ s.month ∧ s.month ≤ 12) (u : Units) : ∀ (xs : List ℚ) (ds : List Date),
    List.Forall₂ (fun x d => ValidDate c d ∧ x * unitfactor u = ((ab c d - ab c s : ℤ) : ℚ)) xs ds → withnewvalues c s u xs = some ds
  | _, _, .nil => rfl
  | _, _, .cons (a := x) (b := d) (l₁ := xs) (l₂ := ds) h t => by
    have := withnewvalues_eq c s hs u xs ds t
    unfold withnewvalues at this ⊢
    rw [List.mapM_cons, this]
    obtain ⟨e, h1, h2, h3⟩ := valAsDate_spec c s hs (npRound (x * unitfactor u))
    rw [h1]
    rw [h.2, npRound_int] at h3
    have : e = d := (count_ok c).abs_inj h2 h.1 (by rw [h3]; ring)
    rw [this]
    rfl

/-! the order of the files -/

theorem fileVal_eq (c : Cal) {s d : Date} (hs : ValidDate c s) (hd : ValidDate c d) :
    fileVal c s d = ((ab c d - ab c s : ℤ) : ℚ) / 86400 := by
  unfold fileVal
  rw [dateAsVal_eq c hs.month hd.month]
  rfl

theorem fileVal_lt (c : Cal) {s d e : Date} (hs : ValidDate c s) (hd : ValidDate c d) (he : ValidDate c e) :
    fileVal c s d < fileVal c s e ↔ Earlier d e := by
  rw [fileVal_eq c hs hd, fileVal_eq c hs he, ← (count_ok c).abs_lt_iff hd he, div_lt_div_iff_of_pos_right (by norm_num)]
  rw [Int.cast_lt]
  exact sub_lt_sub_iff_right _

theorem fileVal_le (c : Cal) {s d e : Date} (hs : ValidDate c s) (hd : ValidDate c d) (he : ValidDate c e) :
    fileVal c s d ≤ fileVal c s e ↔ ¬ Earlier e d := by
  rw [← not_lt, fileVal_lt c hs he hd]

theorem fileVal_inj (c : Cal) {s d e : Date} (hs : ValidDate c s) (hd : ValidDate c d) (he : ValidDate c e)
    (h : fileVal c s d = fileVal c s e) : d = e := by
  rw [fileVal_eq c hs hd, fileVal_eq c hs he, div_left_inj' (by norm_num), Int.cast_inj] at h
  exact (count_ok c).abs_inj hd he (by have := h; unfold ab at this; omega)

theorem mapM_keys (c : Cal) (s : Date) (hs : ValidDate c s) : ∀ (fs : List (MFile β)), (∀ g ∈ fs, ValidDate c g.stamp) →
    (fs.mapM fun g => (dateAsVal c s g.stamp).map fun v : ℤ => ((v : ℚ) / unitfactor .days, g)) =
      some (fs.map fun g => (fileVal c s g.stamp, g))
  | [], _ => rfl
  | f :: fs, h => by
    rw [List.mapM_cons, mapM_keys c s hs fs fun g hg => h g (List.mem_cons_of_mem _ hg)]
    rw [List.map_cons, fileVal, dateAsVal_eq c hs.month (h f (List.mem_cons_self ..)).month]
    rfl

/-- whatever the names are, the files come out in the order of their dates -/
theorem sortFiles_eq (c : Cal) (fs gs : List (MFile β)) (hp : fs.Perm gs) (hg : Filed c gs) (hne : gs ≠ []) : sortFiles c fs = some gs := by
  rcases fs with _ | ⟨f, fs⟩
  · exact absurd (List.nil_perm.1 hp) hne
  have hv : ∀ g ∈ f :: fs, ValidDate c g.stamp := fun g h => hg.stamps g (hp.mem_iff.1 h)
  have hs := hv f (List.mem_cons_self ..)
  unfold sortFiles
  dsimp only
  rw [mapM_keys c f.stamp hs (f :: fs) hv, Option.map_some]
  congr 1
  have key : ((f :: fs).map fun g => (fileVal c f.stamp g.stamp, g)).insertionSort (fun a b => a.1 ≤ b.1) =
      gs.map fun g => (fileVal c f.stamp g.stamp, g) := by
    have hlt : (gs.map fun g => (fileVal c f.stamp g.stamp, g)).Pairwise fun a b => a.1 < b.1 := by
      rw [List.pairwise_map]
      refine hg.order.imp_of_mem fun {a b} ha hb h => ?_
      exact (fileVal_lt c hs (hg.stamps a ha) (hg.stamps b hb)).2 h.1
    have hperm := (List.perm_insertionSort (fun a b : ℚ × MFile β => a.1 ≤ b.1) ((f :: fs).map fun g => (fileVal c f.stamp g.stamp, g))).trans
      (hp.map _)
    have : Std.Total (fun a b : ℚ × MFile β => a.1 ≤ b.1) := ⟨fun a b => le_total _ _⟩
    have : IsTrans (ℚ × MFile β) (fun a b : ℚ × MFile β => a.1 ≤ b.1) := ⟨fun a b c h h' => le_trans h h'⟩
    refine hperm.eq_of_pairwise (le := fun a b => a.1 ≤ b.1) ?_ (List.pairwise_insertionSort _ _) (hlt.imp fun h => le_of_lt h)
    intro a b ha hb h1 h2
    have ha' := hperm.mem_iff.1 ha
    by_contra hab
    obtain ⟨i, hi, rfl⟩ := List.getElem_of_mem ha'
    obtain ⟨j, hj, rfl⟩ := List.getElem_of_mem hb
    rcases Nat.lt_trichotomy i j with h | h | h
    · exact absurd (List.pairwise_iff_getElem.1 hlt i j hi hj h) (not_lt.2 h2)
    · subst h; exact hab rfl
    · exact absurd (List.pairwise_iff_getElem.1 hlt j i hj hi h) (not_lt.2 h1)
  rw [key, List.map_map]
  exact List.map_id' _

/-! the time axis -/

theorem axis_even (c : Cal) (f l : MFile β) (m : List (MFile β)) (step : ℕ) (hg : Filed c (f :: (m ++ [l])))
    (he : EvenSteps c (f :: (m ++ [l])) step) (st : List Date) :
    timeAxis c f l st = some (allTimes (f :: (m ++ [l]))) := by
  have hfm : f ∈ f :: (m ++ [l]) := List.mem_cons_self ..
  have hlm : l ∈ f :: (m ++ [l]) := by simp
  set A := allTimes (f :: (m ++ [l])) with hA
  have hAe : A = f.times ++ (m.flatMap MFile.times ++ l.times) := by
    rw [hA]; unfold allTimes; simp
  have hv : ∀ d ∈ A, ValidDate c d := by
    intro d hd
    obtain ⟨g, hgm, hd'⟩ := List.mem_flatMap.1 hd
    exact hg.times g hgm d hd'
  have hch := chain_abs c step A hv he.even
  have hcf : f.times.IsChain fun a b => ab c b = ab c a + step := by
    rw [hAe] at hch
    exact (List.isChain_append.1 hch).1
  have hcl : l.times.IsChain fun a b => ab c b = ab c a + step := by
    rw [hAe] at hch
    exact (List.isChain_append.1 (List.isChain_append.1 hch).2.1).2.1
  have hu : f.unit = l.unit := he.units f (by simp) l (by simp [List.getLast?_cons])
  have htwo : 2 ≤ f.times.length ∨ 2 ≤ l.times.length := by
    rcases he.two with ⟨g, h1, h2⟩ | ⟨g, h1, h2⟩
    · left; simp at h1; subst h1; exact h2
    · right; simp [List.getLast?_cons] at h1; subst h1; exact h2
  have hf1 : 1 ≤ f.times.length := List.length_pos_iff.2 (hg.some f hfm)
  have hl1 : 1 ≤ l.times.length := List.length_pos_iff.2 (hg.some l hlm)
  have huf := unitfactor_pos l.unit
  have hst : (0 : ℚ) < (step : ℤ) / unitfactor l.unit := by
    have : (0 : ℚ) < step := by exact_mod_cast he.pos
    rw [Int.cast_natCast]
    exact div_pos this huf
  unfold timeAxis
  rw [if_neg (by omega), if_neg (not_not.2 hu)]
  rw [reltime_eq c f.start (hg.starts f hfm) f.unit f.times (hg.times f hfm), reltime_eq c l.start (hg.starts l hlm) l.unit l.times (hg.times l hlm),
    reltime_eq c f.start (hg.starts f hfm) l.unit l.times (hg.times l hlm)]
  simp only [Option.bind_some]
  rw [delta_chain c f.start step _ f.times hcf, delta_chain c l.start step _ l.times hcl]
  simp only [Option.bind_some]
  have hmax : max (if 2 ≤ f.times.length then ((step : ℤ) : ℚ) / unitfactor f.unit else 0)
      (if 2 ≤ l.times.length then ((step : ℤ) : ℚ) / unitfactor l.unit else 0) = ((step : ℤ) : ℚ) / unitfactor l.unit := by
    rw [hu]
    rcases htwo with h | h
    · rw [if_pos h]
      split_ifs
      · exact max_self _
      · exact max_eq_left hst.le
    · rw [if_pos h]
      split_ifs
      · exact max_self _
      · exact max_eq_right hst.le
  rw [hmax, if_neg (not_le.2 hst)]
  obtain ⟨a0, fr, hfr⟩ : ∃ a0 fr, f.times = a0 :: fr := List.exists_cons_of_ne_nil (hg.some f hfm)
  obtain ⟨ll, b, hlb⟩ : ∃ ll b, l.times = ll ++ [b] := ⟨_, _, (List.dropLast_append_getLast (hg.some l hlm)).symm⟩
  have hA0 : A[0]? = some a0 := by rw [hAe, hfr]; rfl
  have hN : 0 < A.length := (List.getElem?_eq_some_iff.1 hA0).1
  have hlast : A[A.length - 1]? = some b := by
    rw [← List.getLast?_eq_getElem?, hAe, hlb, ← List.append_assoc, ← List.append_assoc, List.getLast?_concat]
  have hb : ab c b = ab c a0 + ((A.length - 1 : ℕ) : ℤ) * step := chain_nth c step A hch _ _ _ hA0 hlast
  rw [hfr, hlb]
  simp only [List.map_cons, List.map_append, List.map_nil, List.head?_cons, List.getLast?_concat]
  rw [hu]
  have hntf : ((((ab c b - ab c f.start : ℤ) : ℚ) / unitfactor l.unit - ((ab c a0 - ab c f.start : ℤ) : ℚ) / unitfactor l.unit) /
      (((step : ℤ) : ℚ) / unitfactor l.unit)) = (((A.length - 1 : ℕ) : ℤ) : ℚ) := by
    rw [← sub_div, div_div_div_cancel_right₀ (ne_of_gt huf), div_eq_iff (by
      have : (0 : ℚ) < step := by exact_mod_cast he.pos
      rw [Int.cast_natCast]; exact ne_of_gt this), hb]
    push_cast
    ring
  rw [hntf, npRound_int, if_neg (by
    rw [sub_self, abs_zero, not_lt]
    exact mul_nonneg (by norm_num) hst.le), if_neg (by omega)]
  refine withnewvalues_eq c f.start (hg.starts f hfm) l.unit _ _ ?_
  rw [List.forall₂_iff_get]
  refine ⟨by simp; omega, ?_⟩
  intro k h1 h2
  have hd : A[k]? = some A[k] := List.getElem?_eq_getElem h2
  have hk := chain_nth c step A hch k a0 A[k] hA0 hd
  simp only [List.get_eq_getElem, List.getElem_map, List.getElem_range]
  refine ⟨hv _ (List.getElem_mem _), ?_⟩
  rw [hk, add_mul, mul_assoc, div_mul_cancel₀ _ (ne_of_gt huf), div_mul_cancel₀ _ (ne_of_gt huf)]
  push_cast
  ring

theorem axis_one (c : Cal) (f l : MFile β) (m : List (MFile β)) (off : ℕ) (hg : Filed c (f :: (m ++ [l])))
    (ho : OneEach c (f :: (m ++ [l])) off) :
    timeAxis c f l ((f :: (m ++ [l])).map MFile.stamp) = some (allTimes (f :: (m ++ [l]))) := by
  set gs := f :: (m ++ [l]) with hgs
  have hfm : f ∈ gs := List.mem_cons_self ..
  have hlm : l ∈ gs := by simp [hgs]
  have hs := (hg.stamps f hfm)
  unfold timeAxis
  rw [if_pos (by rw [ho f hfm, ho l hlm]; rfl), reltime_eq c f.stamp hs.month .days f.times (hg.times f hfm), reltime_eq c f.stamp hs.month .days _ (by
    intro d hd
    obtain ⟨g, h1, rfl⟩ := List.mem_map.1 hd
    exact hg.stamps g h1)]
  simp only [Option.bind_some]
  have hall : allTimes gs = gs.map fun g => (nextSecond c)^[off] g.stamp := by
    unfold allTimes
    have : ∀ l : List (MFile β), (∀ g ∈ l, g.times = [(nextSecond c)^[off] g.stamp]) →
        l.flatMap MFile.times = l.map fun g => (nextSecond c)^[off] g.stamp := by
      intro l
      induction l with
      | nil => intro _; rfl
      | cons a l ih =>
        intro h
        rw [List.flatMap_cons, h a (List.mem_cons_self ..), ih fun g hg => h g (List.mem_cons_of_mem _ hg)]
        rfl
    exact this gs ho
  have hoff : ((f.times.map fun d => ((ab c d - ab c f.stamp : ℤ) : ℚ) / unitfactor .days).getD 0 0) = (off : ℚ) / unitfactor .days := by
    rw [ho f hfm]
    simp only [List.map_cons, List.map_nil, List.getD_cons_zero]
    unfold ab
    rw [(abs_iterate c f.stamp hs off).2]
    push_cast
    ring
  rw [hoff, hall]
  refine withnewvalues_eq c f.stamp hs.month .days _ _ ?_
  rw [List.map_map, List.map_map, List.forall₂_map_left_iff, List.forall₂_map_right_iff, List.forall₂_same]
  intro g hgm
  obtain ⟨h1, h2⟩ := abs_iterate c g.stamp (hg.stamps g hgm) off
  refine ⟨h1, ?_⟩
  simp only [Function.comp]
  unfold ab
  rw [h2, ← add_div, div_mul_cancel₀ _ (ne_of_gt (unitfactor_pos .days))]
  push_cast
  ring

/-! reading -/

theorem toFile_order (c : Cal) (f : MFile β) (hs : 1 ≤ f.start.month ∧ f.start.month ≤ 12) (hv : ∀ d ∈ f.times, ValidDate c d) :
    (toFile c f).order.Perm (List.range (toFile c f).rows.length) ∧
      ((toFile c f).order.map fun i : ℕ => (toFile c f).rows.getD i []).Pairwise (· ≤ ·) := by
  unfold toFile
  dsimp only
  constructor
  · rw [List.length_map]; exact List.perm_insertionSort _ _
  · rw [List.pairwise_map]
    set vals := f.times.map fun d => (dateAsVal c f.start d).getD 0 with hvals
    have : Std.Total (fun i j : ℕ => vals.getD i 0 ≤ vals.getD j 0) := ⟨fun a b => le_total _ _⟩
    have : IsTrans ℕ (fun i j : ℕ => vals.getD i 0 ≤ vals.getD j 0) := ⟨fun a b c h h' => le_trans h h'⟩
    refine (List.pairwise_insertionSort (fun i j : ℕ => vals.getD i 0 ≤ vals.getD j 0) (List.range f.times.length)).imp_of_mem ?_
    intro i j hi hj h
    have hi' : i < f.times.length := List.mem_range.1 ((List.perm_insertionSort _ _).mem_iff.1 hi)
    have hj' : j < f.times.length := List.mem_range.1 ((List.perm_insertionSort _ _).mem_iff.1 hj)
    have hvi := hv _ (List.getElem_mem hi')
    have hvj := hv _ (List.getElem_mem hj')
    rw [List.getD_eq_getElem vals _ (by rw [hvals, List.length_map]; exact hi'), List.getD_eq_getElem vals _ (by rw [hvals, List.length_map]; exact hj')] at h
    simp only [hvals, List.getElem_map] at h
    rw [dateAsVal_eq c hs hvi.month, dateAsVal_eq c hs hvj.month, Option.getD_some, Option.getD_some] at h
    rw [List.getD_eq_getElem (f.times.map toRow) _ (by rw [List.length_map]; exact hi'), List.getD_eq_getElem (f.times.map toRow) _ (by rw [List.length_map]; exact hj'),
      List.getElem_map, List.getElem_map]
    refine (row_le_iff (a := f.times[i]) (b := f.times[j])).2 fun hlt => ?_
    have := ((count_ok c).abs_lt_iff hvj hvi).2 hlt
    omega

theorem goodFiles (c : Cal) (gs : List (MFile β)) (s : Date) (hs : ValidDate c s) (hst : ∀ g ∈ gs, ValidDate c g.stamp)
    (hti : ∀ g ∈ gs, ∀ d ∈ g.times, ValidDate c d) (hm : ∀ g ∈ gs, 1 ≤ g.start.month ∧ g.start.month ≤ 12)
    (hown : ∀ g ∈ gs, ∀ d ∈ g.times, ¬ Earlier d g.stamp)
    (hord : gs.Pairwise fun f g => ¬ Earlier g.stamp f.stamp ∧ ∀ d ∈ f.times, Earlier d g.stamp) :
    GoodFiles (gs.map fun g => some (toFile c g)) (gs.map fun g => fileVal c s g.stamp) (fun r => fileVal c s (ofRow r)) 6 := by
  have hget : ∀ (n : ℕ) (f : File β), (gs.map fun g => some (toFile c g))[n]? = some (some f) → ∃ g, gs[n]? = some g ∧ f = toFile c g := by
    intro n f h
    rw [List.getElem?_map] at h
    obtain ⟨g, h1, h2⟩ := Option.map_eq_some_iff.1 h
    exact ⟨g, h1, (Option.some.inj h2).symm⟩
  refine ⟨by simp, ?_, ?_, ?_, ?_⟩
  · rw [List.pairwise_map]
    exact hord.imp_of_mem fun {a b} ha hb h => (fileVal_le c hs (hst a ha) (hst b hb)).2 h.1
  · intro n f hf r hr
    obtain ⟨g, hg, rfl⟩ := hget n f hf
    have hgm := List.mem_of_getElem? hg
    obtain ⟨d, hd, rfl⟩ := List.mem_map.1 hr
    have hvd := hti g hgm d hd
    refine ⟨⟨fileVal c s g.stamp, by rw [List.getElem?_map, hg]; rfl, ?_⟩, ?_⟩
    · exact (fileVal_le c hs (hst g hgm) hvd).2 (hown g hgm d hd)
    · intro m x hnm hx
      rw [List.getElem?_map] at hx
      obtain ⟨g', h1, rfl⟩ := Option.map_eq_some_iff.1 hx
      obtain ⟨hn, hne⟩ := List.getElem?_eq_some_iff.1 hg
      obtain ⟨hm', hme⟩ := List.getElem?_eq_some_iff.1 h1
      have := List.pairwise_iff_getElem.1 hord n m hn hm' hnm
      rw [hne, hme] at this
      exact (fileVal_lt c hs hvd (hst g' (List.mem_of_getElem? h1))).2 (this.2 d hd)
  · intro n f hf r hr
    obtain ⟨g, hg, rfl⟩ := hget n f hf
    obtain ⟨d, hd, rfl⟩ := List.mem_map.1 hr
    rfl
  · intro n f hf
    obtain ⟨g, hg, rfl⟩ := hget n f hf
    exact toFile_order c g (hm g (List.mem_of_getElem? hg)) (hti g (List.mem_of_getElem? hg))

/-- the times and the data of all files, together -/
def pairs (gs : List (MFile β)) : List (Date × β) :=
  gs.flatMap fun g => (List.range g.times.length).map fun k : ℕ => (g.times.getD k ⟨0, 1, 1, 0, 0, 0⟩, g.data k)

theorem pairs_fst (gs : List (MFile β)) : (pairs gs).map Prod.fst = allTimes gs := by
  unfold pairs allTimes
  rw [List.map_flatMap]
  refine List.flatMap_congr fun g _ => ?_
  rw [List.map_map]
  refine List.ext_getElem (by simp) fun i h1 h2 => ?_
  simp only [List.getElem_map, List.getElem_range, Function.comp]
  exact List.getD_eq_getElem _ _ _

theorem pairs_snd (gs : List (MFile β)) : (pairs gs).map Prod.snd = allData gs := by
  unfold pairs allData
  rw [List.map_flatMap]
  refine List.flatMap_congr fun g _ => ?_
  rw [List.map_map]
  rfl

theorem mem_pairs {gs : List (MFile β)} {x : Date × β} : x ∈ pairs gs ↔ ∃ g ∈ gs, ∃ k, g.times[k]? = some x.1 ∧ x.2 = g.data k := by
  unfold pairs
  rw [List.mem_flatMap]
  refine exists_congr fun g => and_congr_right fun _ => ?_
  rw [List.mem_map]
  constructor
  · rintro ⟨k, hk, rfl⟩
    rw [List.mem_range] at hk
    exact ⟨k, by rw [List.getD_eq_getElem _ _ hk]; exact List.getElem?_eq_getElem hk, rfl⟩
  · rintro ⟨k, h1, h2⟩
    obtain ⟨hk, he⟩ := List.getElem?_eq_some_iff.1 h1
    exact ⟨k, List.mem_range.2 hk, by rw [List.getD_eq_getElem _ _ hk, he, ← h2]⟩

/-- a list of dates where each is later than those before it -/
theorem filed_sorted {c : Cal} {gs : List (MFile β)} (hg : Filed c gs) (hin : ∀ g ∈ gs, g.times.Pairwise Earlier) :
    (allTimes gs).Pairwise Earlier := by
  unfold allTimes
  rw [List.pairwise_flatMap]
  refine ⟨hin, hg.order.imp_of_mem fun {a b} ha hb h x hx y hy => ?_⟩
  have h1 := h.2 x hx
  have h2 := hg.own b hb y hy
  have hvx := hg.times a ha x hx
  have hvy := hg.times b hb y hy
  have hvs := hg.stamps b hb
  rw [← (count_ok c).abs_lt_iff hvx hvy]
  rw [← (count_ok c).abs_lt_iff hvx hvs] at h1
  rw [← (count_ok c).abs_lt_iff hvy hvs] at h2
  omega

theorem filed_order {c : Cal} {gs : List (MFile β)} (hg : Filed c gs) :
    gs.Pairwise fun f g => ¬ Earlier g.stamp f.stamp ∧ ∀ d ∈ f.times, Earlier d g.stamp :=
  hg.order.imp_of_mem fun {a b} ha hb h => ⟨fun h' => by
    have h1 := ((count_ok c).abs_lt_iff (hg.stamps a ha) (hg.stamps b hb)).2 h.1
    have h2 := ((count_ok c).abs_lt_iff (hg.stamps b hb) (hg.stamps a ha)).2 h'
    omega, h.2⟩

theorem read_filed {c : Cal} {gs : List (MFile β)} (hg : Filed c gs) (hin : ∀ g ∈ gs, g.times.Pairwise Earlier) {s : Date} (hs : ValidDate c s)
    (idx : List ℕ) (hne : idx ≠ []) (hnd : idx.Nodup) (hi : ∀ i ∈ idx, i < (allTimes gs).length) (dflt : β) :
    readFiles c gs s (allTimes gs) idx = some (idx.map fun i : ℕ => (allData gs).getD i dflt) := by
  have good := goodFiles c gs s hs hg.stamps hg.times hg.starts hg.own (filed_order hg)
  have hirr : ∀ d, ¬ Earlier d d := fun d h => by unfold Earlier at h; omega
  have hsorted := filed_sorted hg hin
  have hndA : (allTimes gs).Nodup := hsorted.imp fun {a b} h => by rintro rfl; exact hirr _ h
  have hlen : (pairs gs).length = (allTimes gs).length := by rw [← pairs_fst, List.length_map]
  have hheld : ∀ i, i < (allTimes gs).length → HeldInFile (gs.map fun g => some (toFile c g)) (gs.map fun g => fileVal c s g.stamp)
      (fun r => fileVal c s (ofRow r)) (toRow ((allTimes gs).getD i ⟨0, 1, 1, 0, 0, 0⟩)) ((allData gs).getD i dflt) := by
    intro i hi
    have hip : i < (pairs gs).length := by omega
    obtain ⟨g, hgm, k, hk, hv⟩ := mem_pairs.1 (List.getElem_mem hip)
    obtain ⟨n, hn, hne⟩ := List.getElem_of_mem hgm
    have e1 : (allTimes gs).getD i ⟨0, 1, 1, 0, 0, 0⟩ = (pairs gs)[i].1 := by
      rw [List.getD_eq_getElem _ _ hi]
      simp only [← pairs_fst, List.getElem_map]
    have e2 : (allData gs).getD i dflt = (pairs gs)[i].2 := by
      rw [List.getD_eq_getElem _ _ (by rw [← pairs_snd, List.length_map]; exact hip)]
      simp only [← pairs_snd, List.getElem_map]
    have hfile : (gs.map fun g => some (toFile c g))[n]? = some (some (toFile c g)) := by
      rw [List.getElem?_map, List.getElem?_eq_getElem hn, hne]; rfl
    have hrow : (toFile c g).rows[k]? = some (toRow (pairs gs)[i].1) := by
      show (g.times.map toRow)[k]? = _
      rw [List.getElem?_map, hk]; rfl
    rw [e1, e2]
    exact ⟨n, toFile c g, k, good.home n _ hfile _ (List.mem_of_getElem? hrow), hfile, hrow, hv⟩
  have huniq : ∀ t v v', HeldInFile (gs.map fun g => some (toFile c g)) (gs.map fun g => fileVal c s g.stamp)
      (fun r => fileVal c s (ofRow r)) t v → HeldInFile (gs.map fun g => some (toFile c g)) (gs.map fun g => fileVal c s g.stamp)
      (fun r => fileVal c s (ofRow r)) t v' → v = v' := by
    rintro t v v' ⟨n, f, k, a1, a2, a3, a4⟩ ⟨n', f', k', b1, b2, b3, b4⟩
    obtain rfl := home_unique a1 b1
    rw [a2] at b2
    obtain rfl := Option.some.inj (Option.some.inj b2)
    rw [List.getElem?_map] at a2
    obtain ⟨g, h1, h2⟩ := Option.map_eq_some_iff.1 a2
    obtain rfl := Option.some.inj h2
    have hnd : ((toFile c g).rows).Nodup := by
      show (g.times.map toRow).Nodup
      refine List.Nodup.map (fun a b h => row_inj (a := a) (b := b) h) ?_
      exact (hin g (List.mem_of_getElem? h1)).imp fun {a b} h => by rintro rfl; exact hirr _ h
    have : k = k' := by
      obtain ⟨hk, hke⟩ := List.getElem?_eq_some_iff.1 a3
      obtain ⟨hk', hke'⟩ := List.getElem?_eq_some_iff.1 b3
      exact (List.Nodup.getElem_inj_iff hnd).1 (hke.trans hke'.symm)
    rw [a4, b4, this]
  unfold readFiles
  set times := idx.map fun i : ℕ => toRow ((allTimes gs).getD i ⟨0, 1, 1, 0, 0, 0⟩) with htimes
  have hw : ∀ t ∈ times, t.length = 6 := by
    intro t ht
    obtain ⟨i, -, rfl⟩ := List.mem_map.1 ht
    rfl
  have hndt : times.Nodup := by
    refine hnd.map_on ?_
    intro i h1 j h2 h
    have := row_inj (a := _) (b := _) h
    rw [List.getD_eq_getElem _ _ (hi i h1), List.getD_eq_getElem _ _ (hi j h2)] at this
    exact (List.Nodup.getElem_inj_iff hndA).1 this
  obtain ⟨r, hr⟩ := multifile_complete good times hw hndt (by simpa [htimes] using hne) (by
    intro t ht
    obtain ⟨i, h1, rfl⟩ := List.mem_map.1 ht
    exact ⟨_, hheld i (hi i h1)⟩)
  have hsound := multifile_sound good times hw hndt r hr
  rw [hr]
  congr 1
  rw [htimes, List.forall₂_map_left_iff] at hsound
  refine List.ext_getElem (by rw [List.length_map]; exact hsound.length_eq.symm) fun k h1 h2 => ?_
  rw [List.length_map] at h2
  have := (List.forall₂_iff_get.1 hsound).2 k h2 h1
  simp only [List.get_eq_getElem] at this
  rw [List.getElem_map]
  exact huniq _ _ _ this (hheld _ (hi _ (List.getElem_mem h2)))

/-- C98 (partial: one variable with a time axis, dates with all their fields, exact arithmetic): opening files in any order
gives the times and the data of all of them, one file after the other in the order of their dates — if all times are
evenly spaced, or every file has one time at the same distance from its date. -/
theorem open_multi_partial (c : Cal) (fs gs : List (MFile β)) (hp : fs.Perm gs) (hne : gs ≠ []) (hg : Filed c gs)
    (h : (∃ step, EvenSteps c gs step) ∨ ∃ off, OneEach c gs off) :
    ∃ o, openMulti c fs = some o ∧ o.axis = allTimes gs ∧
      ∀ (idx : List ℕ) (dflt : β), idx ≠ [] → idx.Nodup → (∀ i ∈ idx, i < (allTimes gs).length) →
        o.read idx = some (idx.map fun i : ℕ => (allData gs).getD i dflt) := by
  have hin : ∀ g ∈ gs, g.times.Pairwise Earlier := by
    rcases h with ⟨step, he⟩ | ⟨off, ho⟩
    · have hv : ∀ d ∈ allTimes gs, ValidDate c d := by
        intro d hd
        obtain ⟨g, hgm, hd'⟩ := List.mem_flatMap.1 hd
        exact hg.times g hgm d hd'
      have hch := chain_abs c step _ hv he.even
      have hlt : (allTimes gs).Pairwise fun a b => ab c a < ab c b := by
        refine List.isChain_iff_pairwise (R := fun a b => ab c a < ab c b) |>.1 (hch.imp fun a b h => ?_)
        have := he.pos
        omega
      intro g hgm
      have : g.times.Pairwise fun a b => ab c a < ab c b := (List.pairwise_flatMap.1 hlt).1 g hgm
      exact this.imp_of_mem fun {a b} ha hb h => ((count_ok c).abs_lt_iff (hg.times g hgm a ha) (hg.times g hgm b hb)).1 h
    · intro g hgm
      rw [ho g hgm]
      exact List.pairwise_singleton _ _
  rcases gs with _ | ⟨f, m⟩
  · exact absurd rfl hne
  rcases List.eq_nil_or_concat m with rfl | ⟨m, l, rfl⟩
  · obtain rfl := List.perm_singleton.1 hp
    refine ⟨_, rfl, by simp [allTimes], ?_⟩
    intro idx dflt _ _ hi
    show some _ = some _
    congr 1
    refine List.map_congr_left fun i h => ?_
    have := hi i h
    simp only [allTimes, List.flatMap_cons, List.flatMap_nil, List.append_nil] at this
    simp only [allData, List.flatMap_cons, List.flatMap_nil, List.append_nil]
    rw [List.getD_eq_getElem _ _ (by simpa using this)]
    simp
  · rw [List.concat_eq_append] at *
    have hax : timeAxis c f l ((f :: (m ++ [l])).map MFile.stamp) = some (allTimes (f :: (m ++ [l]))) := by
      rcases h with ⟨step, he⟩ | ⟨off, ho⟩
      · exact axis_even c f l m step hg he _
      · exact axis_one c f l m off hg ho
    have hopen : openMulti c fs = some ⟨allTimes (f :: (m ++ [l])), readFiles c (f :: (m ++ [l])) f.stamp (allTimes (f :: (m ++ [l])))⟩ := by
      have hsort := sortFiles_eq c fs _ hp hg hne
      have hl := hp.length_eq
      unfold openMulti
      split
      · simp at hl
      · rw [hsort, Option.bind_some]
        simp only [List.head?_cons]
        rw [show (f :: (m ++ [l])).getLast? = some l from by rw [← List.cons_append, List.getLast?_concat]]
        simp only [hax, Option.map_some]
    exact ⟨_, hopen, rfl, fun idx dflt h1 h2 h3 => read_filed hg hin (hg.stamps f (List.mem_cons_self ..)) idx h1 h2 h3 dflt⟩

/-- C98: when `check_multi` finds nothing wrong with the times, every time of the axis can be read, and what is read is what
a file holds for that time; and every time of every file is on the axis. -/
theorem check_multi_correct (c : Cal) (gs : List (MFile β)) (axis : List Date) (s : Date) (u : Units)
    (hs : 1 ≤ s.month ∧ s.month ≤ 12) (hst : ∀ g ∈ gs, ValidDate c g.stamp) (hti : ∀ g ∈ gs, ∀ d ∈ g.times, ValidDate c d)
    (hm : ∀ g ∈ gs, 1 ≤ g.start.month ∧ g.start.month ≤ 12) (hsort : gs.Pairwise fun f g => ¬ Earlier g.stamp f.stamp)
    (hax : ∀ d ∈ axis, ValidDate c d) (hnd : axis.Nodup) (hok : checkTimes c gs axis s u = true) :
    (∀ g ∈ gs, ∀ d ∈ g.times, d ∈ axis) ∧
    ∀ f ∈ gs.head?, ∀ (idx : List ℕ), idx ≠ [] → idx.Nodup → (∀ i ∈ idx, i < axis.length) →
      ∃ r, readFiles c gs f.stamp axis idx = some r ∧
        List.Forall₂ (fun i v => ∃ g ∈ gs, ∃ k, g.times[k]? = axis[i]? ∧ v = g.data k) idx r := by
  unfold checkTimes at hok
  dsimp only at hok
  rcases hh : gs.head? with _ | f
  · rw [hh] at hok; simp at hok
  rw [hh] at hok
  simp only [Bool.and_eq_true] at hok
  obtain ⟨⟨h1, h2⟩, h3⟩ := hok
  have hfm : f ∈ gs := List.mem_of_mem_head? hh
  have hvs := hst f hfm
  have huf := unitfactor_pos u
  have hval : ∀ d, ValidDate c d → ∀ e, ValidDate c e →
      (((dateAsVal c s d).getD 0 : ℤ) : ℚ) / unitfactor u = (((dateAsVal c s e).getD 0 : ℤ) : ℚ) / unitfactor u → d = e := by
    intro d hd e he h
    rw [div_left_inj' (ne_of_gt huf), Int.cast_inj, dateAsVal_eq c hs hd.month, dateAsVal_eq c hs he.month, Option.getD_some, Option.getD_some] at h
    exact (count_ok c).abs_inj hd he (by omega)
  rw [List.all_eq_true] at h1 h2 h3
  have hcov : ∀ g ∈ gs, ∀ d ∈ g.times, d ∈ axis := by
    intro g hg d hd
    have := h3 _ (List.mem_flatMap.2 ⟨g, hg, List.mem_map_of_mem hd⟩)
    rw [List.contains_iff_mem] at this
    obtain ⟨e, he, hee⟩ := List.mem_map.1 this
    rw [← hval e (hax e he) d (hti g hg d hd) hee]
    exact he
  have hexp : ∀ d ∈ axis, ∃ g ∈ gs, d ∈ g.times := by
    intro d hd
    have := h2 _ (List.mem_map_of_mem hd)
    rw [List.contains_iff_mem] at this
    obtain ⟨g, hg, hx⟩ := List.mem_flatMap.1 this
    obtain ⟨e, he, hee⟩ := List.mem_map.1 hx
    exact ⟨g, hg, by rw [← hval e (hti g hg e he) d (hax d hd) hee]; exact he⟩
  have hrange : ∀ (n : ℕ) (g : MFile β), gs[n]? = some g → ∀ d ∈ g.times, ¬ Earlier d g.stamp ∧
      ∀ g', gs[n + 1]? = some g' → Earlier d g'.stamp := by
    intro n g hn d hd
    have hgm := List.mem_of_getElem? hn
    have hmem : (g, n) ∈ gs.zipIdx := by
      rw [List.mem_zipIdx_iff_getElem?]; exact hn
    have := h1 _ hmem
    rw [List.all_eq_true] at this
    have := this d hd
    rw [Bool.and_eq_true] at this
    obtain ⟨a, b⟩ := this
    have hvd := hti g hgm d hd
    constructor
    · have hb := of_decide_eq_true b
      dsimp only at hb
      rw [List.getD_eq_getElem?_getD, List.getElem?_map, hn] at hb
      simp only [Option.map_some, Option.getD_some] at hb
      exact (fileVal_le c hvs (hst g hgm) hvd).1 hb
    · intro g' hg'
      dsimp only at a
      rw [List.getElem?_map, hg'] at a
      simp only [Option.map_some] at a
      exact (fileVal_lt c hvs hvd (hst g' (List.mem_of_getElem? hg'))).1 (of_decide_eq_true a)
  have hlat : gs.Pairwise fun f g => ¬ Earlier g.stamp f.stamp ∧ ∀ d ∈ f.times, Earlier d g.stamp := by
    rw [List.pairwise_iff_getElem]
    intro i j hi hj hij
    refine ⟨List.pairwise_iff_getElem.1 hsort i j hi hj hij, ?_⟩
    intro d hd
    have hvd := hti _ (List.getElem_mem hi) d hd
    have hn1 := (hrange i gs[i] (List.getElem?_eq_getElem hi) d hd).2 gs[i + 1] (List.getElem?_eq_getElem (by omega))
    rcases Nat.eq_or_lt_of_le (Nat.succ_le_of_lt hij) with he | hl
    · subst he; exact hn1
    · have := List.pairwise_iff_getElem.1 hsort (i + 1) j (by omega) hj hl
      have v1 := hst _ (List.getElem_mem (show i + 1 < gs.length by omega))
      have v2 := hst _ (List.getElem_mem hj)
      rw [← (count_ok c).abs_lt_iff hvd v1] at hn1
      rw [← (count_ok c).abs_lt_iff v2 v1] at this
      rw [← (count_ok c).abs_lt_iff hvd v2]
      omega
  have good := goodFiles c gs f.stamp hvs hst hti hm (fun g hg d hd => by
    obtain ⟨n, hn, hne⟩ := List.getElem_of_mem hg
    exact (hrange n g (by rw [List.getElem?_eq_getElem hn, hne]) d hd).1) hlat
  refine ⟨hcov, ?_⟩
  intro f' hf' idx hne hndi hi
  obtain rfl : f = f' := by simpa using hf'
  unfold readFiles
  set times := idx.map fun i : ℕ => toRow (axis.getD i ⟨0, 1, 1, 0, 0, 0⟩) with htimes
  have hw : ∀ t ∈ times, t.length = 6 := by
    intro t ht
    obtain ⟨i, -, rfl⟩ := List.mem_map.1 ht
    rfl
  have hndt : times.Nodup := by
    refine hndi.map_on ?_
    intro i h1 j h2 h
    have := row_inj (a := _) (b := _) h
    rw [List.getD_eq_getElem _ _ (hi i h1), List.getD_eq_getElem _ _ (hi j h2)] at this
    exact (List.Nodup.getElem_inj_iff hnd).1 this
  obtain ⟨r, hr⟩ := multifile_complete good times hw hndt (by simpa [htimes] using hne) (by
    intro t ht
    obtain ⟨i, h1, rfl⟩ := List.mem_map.1 ht
    rw [List.getD_eq_getElem _ _ (hi i h1)]
    obtain ⟨g, hg, hd⟩ := hexp _ (List.getElem_mem (hi i h1))
    obtain ⟨n, hn, hne⟩ := List.getElem_of_mem hg
    obtain ⟨k, hk, hke⟩ := List.getElem_of_mem hd
    have hfile : (gs.map fun g => some (toFile c g))[n]? = some (some (toFile c g)) := by
      rw [List.getElem?_map, List.getElem?_eq_getElem hn, hne]; rfl
    have hrow : (toFile c g).rows[k]? = some (toRow (axis[i]'(hi i h1))) := by
      show (g.times.map toRow)[k]? = _
      rw [List.getElem?_map, List.getElem?_eq_getElem hk, hke]; rfl
    exact ⟨g.data k, n, toFile c g, k, good.home n _ hfile _ (List.mem_of_getElem? hrow), hfile, hrow, rfl⟩)
  refine ⟨r, hr, ?_⟩
  have hsound := multifile_sound good times hw hndt r hr
  rw [htimes, List.forall₂_map_left_iff] at hsound
  refine List.forall₂_iff_get.2 ⟨hsound.length_eq, fun k h1 h2 => ?_⟩
  obtain ⟨n, fl, j, a1, a2, a3, a4⟩ := (List.forall₂_iff_get.1 hsound).2 k h1 h2
  simp only [List.get_eq_getElem] at *
  rw [List.getElem?_map] at a2
  obtain ⟨g, b1, b2⟩ := Option.map_eq_some_iff.1 a2
  obtain rfl := Option.some.inj b2
  have hik := hi _ (List.getElem_mem h1)
  refine ⟨g, List.mem_of_getElem? b1, j, ?_, a4⟩
  change (g.times.map toRow)[j]? = _ at a3
  rw [List.getElem?_map] at a3
  obtain ⟨d, d1, d2⟩ := Option.map_eq_some_iff.1 a3
  rw [d1, List.getElem?_eq_getElem hik, row_inj (a := d) (b := _) d2, List.getD_eq_getElem _ _ hik]

/-! ### examples -/

/-- two files of one minute each, every thirty seconds; the second name sorts before the first one -/
def minuteEx (m : ℤ) (x : ℚ) : MFile ℚ :=
  ⟨⟨2000, 2, 28, 23, m, 0⟩, ⟨1999, 1, 1, 0, 0, 0⟩, .hours, [⟨2000, 2, 28, 23, m, 0⟩, ⟨2000, 2, 28, 23, m, 30⟩], fun k => x + k⟩

theorem minuteEx_filed : Filed .standard [minuteEx 58 10, minuteEx 59 20] := by
  refine ⟨?_, ?_, ?_, ?_, ?_, ?_⟩ <;> (try unfold Earlier) <;> decide +kernel

theorem minuteEx_even : EvenSteps .standard [minuteEx 58 10, minuteEx 59 20] 30 := by
  refine ⟨by decide, ?_, ?_, ?_⟩
  · unfold allTimes; decide +kernel
  · decide +kernel
  · exact Or.inl ⟨minuteEx 58 10, by simp, by decide⟩

example : ((openMulti .standard [minuteEx 59 20, minuteEx 58 10]).map fun o => (o.axis.length, o.read [3, 0])) = some (4, some [21, 10]) := by
  decide +kernel

/-- monthly files, each with one time twelve seconds after its date -/
def monthEx (m : ℤ) (x : ℚ) : MFile ℚ :=
  ⟨⟨2001, m, 1, 0, 0, 0⟩, ⟨1999, 1, 1, 0, 0, 0⟩, .days, [⟨2001, m, 1, 0, 0, 12⟩], fun _ => x⟩

example : Filed .noleap [monthEx 1 5, monthEx 2 6, monthEx 3 7] ∧ OneEach .noleap [monthEx 1 5, monthEx 2 6, monthEx 3 7] 12 := by
  refine ⟨⟨?_, ?_, ?_, ?_, ?_, ?_⟩, ?_⟩ <;> (try unfold Earlier) <;> (try unfold OneEach) <;> decide +kernel

example : ((openMulti .noleap [monthEx 3 7, monthEx 1 5, monthEx 2 6]).bind fun o => o.read [0, 1, 2]) = some [5, 6, 7] := by decide +kernel

/-- `check_multi` accepts the files above, with the axis that was made from them, and not with one that lacks a time. -/
example : checkTimes .standard [minuteEx 58 10, minuteEx 59 20] (allTimes [minuteEx 58 10, minuteEx 59 20]) ⟨1999, 1, 1, 0, 0, 0⟩ .hours = true ∧
    checkTimes .standard [minuteEx 58 10, minuteEx 59 20] (allTimes [minuteEx 58 10]) ⟨1999, 1, 1, 0, 0, 0⟩ .hours = false := by
  decide +kernel

/-- The check that the times of the first and the last file are aligned compares a number of steps with a tenth of the
length of a step *in the units of the axis*: a step of five units or more is never refused. The times of the second file
are 15 and 21 hours, nine hours after those of the first; the axis has the times 0, 6, 12, 18 and 24 hours instead, and
reading the third of them fails. -/
theorem misaligned_violated :
    let file (d h : ℤ) : MFile ℚ := ⟨⟨2000, 1, 1, d, 0, 0⟩, ⟨2000, 1, 1, 0, 0, 0⟩, .hours, [⟨2000, 1, 1, d, 0, 0⟩, ⟨2000, 1, 1, h, 0, 0⟩], fun _ => 0⟩
    ((openMulti .standard [file 0 6, file 15 21]).map fun o => (o.axis, o.read [0, 1], o.read [2])) =
      some ([⟨2000, 1, 1, 0, 0, 0⟩, ⟨2000, 1, 1, 6, 0, 0⟩, ⟨2000, 1, 1, 12, 0, 0⟩, ⟨2000, 1, 1, 18, 0, 0⟩, ⟨2000, 1, 2, 0, 0, 0⟩],
        some [0, 0], none) := by decide +kernel

end OpenMulti
end PyGeode
