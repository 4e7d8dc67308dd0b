/-
C49: nested progress bars.
-/
import Verif.Model.Progress

namespace PyGeode
namespace Progress

/-- The part of its bar (in percent) a step is responsible for. -/
def _root_.PyGeode.Spec.span : Step → ℚ × ℚ
  | .say x => (x, x)
  | .sub L U _ => (L, U)
  | .part i n _ => (100 * i / n, 100 * (i + 1) / n)

/-- The values the display hears. -/
def _root_.PyGeode.Spec.heard (l : List Event) : List ℚ := l.filterMap fun e => match e with
  | .update y => some y
  | .finish => none

mutual
/-- A calculation that counts upwards: every step it takes starts in [0, 100], after the end of the step before it, and
the calculations it hands parts of its bar to do the same. -/
def _root_.PyGeode.Spec.Forward : Step → Prop
  | .say _ => True
  | .sub L U body => L ≤ U ∧ Spec.ForwardAll 0 body
  | .part i n body => i < n ∧ Spec.ForwardAll 0 body
def _root_.PyGeode.Spec.ForwardAll (done : ℚ) : List Step → Prop
  | [] => done ≤ 100
  | s :: l => done ≤ (Spec.span s).1 ∧ Spec.Forward s ∧ Spec.ForwardAll (Spec.span s).2 l
end

open Spec

/-- C49: every value that reaches the display is between 0 and 100, whatever the nesting and whatever is reported. -/
theorem scale_range (b : PBar) (x : ℚ) : 0 ≤ b.scale x ∧ b.scale x ≤ 100 :=
  ⟨le_min (le_max_left _ _) (by norm_num), min_le_right _ _⟩

mutual
theorem run_range (b : PBar) : ∀ s : Step, ∀ y ∈ heard (s.run b), 0 ≤ y ∧ y ≤ 100
  | .say x, y, hy => by
    simp only [Step.run, PBar.update, heard] at hy
    split_ifs at hy <;> simp at hy <;> subst hy <;> exact scale_range b x
  | .sub L U body, y, hy => runAll_range (b.subset L U) body y (by simpa [Step.run] using hy)
  | .part i n body, y, hy => runAll_range (b.part i n) body y (by simpa [Step.run] using hy)
theorem runAll_range (b : PBar) : ∀ l : List Step, ∀ y ∈ heard (runAll b l), 0 ≤ y ∧ y ≤ 100
  | [], y, hy => by simp [runAll, heard] at hy
  | s :: l, y, hy => by
    simp only [runAll, heard, List.filterMap_append, List.mem_append] at hy
    rcases hy with h | h
    · exact run_range b s y h
    · exact runAll_range b l y h
end

/-- C49: a calculation reports inside the interval of its bar: 0 % of a part is the part's lower end and 100 % its upper
end, both measured on the display. -/
theorem scale_ends (b : PBar) (h0 : 0 ≤ b.lower) (hu : b.lower ≤ b.upper) (h1 : b.upper ≤ 100) :
    b.scale 0 = b.lower ∧ b.scale 100 = b.upper := by
  unfold PBar.scale
  constructor
  · simp only [mul_zero, zero_div, add_zero]
    rw [max_eq_right h0, min_eq_left (hu.trans h1)]
  · have : b.lower + (b.upper - b.lower) * 100 / 100 = b.upper := by ring
    simp only [this]
    rw [max_eq_right (h0.trans hu), min_eq_left h1]

/-- C49: the parts of a bar tile it: the first begins where the bar begins, each begins where the one before ended, and
the last ends where the bar ends. -/
theorem parts_tile (b : PBar) (n : ℕ) (hn : 0 < n) :
    (b.part 0 n).lower = b.lower ∧ (b.part (n - 1) n).upper = b.upper ∧
      ∀ i, (b.part (i + 1) n).lower = (b.part i n).upper := by
  have hn' : (n : ℚ) ≠ 0 := by exact_mod_cast hn.ne'
  refine ⟨by simp [PBar.part, PBar.subset], ?_, fun i => ?_⟩
  · simp only [PBar.part, PBar.subset, Nat.cast_sub hn, Nat.cast_one]
    field_simp
    ring
  · simp only [PBar.part, PBar.subset, Nat.cast_add, Nat.cast_one]

/-- a part of a bar, as a subset of it -/
theorem part_eq (b : PBar) (i n : ℕ) : b.part i n = b.subset (100 * i / n) (100 * (i + 1) / n) := by
  unfold PBar.part PBar.subset
  congr 2 <;> ring

theorem scale_mono (b : PBar) (hb : b.lower ≤ b.upper) {x x' : ℚ} (h : x ≤ x') : b.scale x ≤ b.scale x' := by
  unfold PBar.scale
  have : b.lower + (b.upper - b.lower) * x / 100 ≤ b.lower + (b.upper - b.lower) * x' / 100 := by
    have := mul_le_mul_of_nonneg_left h (sub_nonneg.2 hb)
    linarith
  exact min_le_min_right _ (max_le_max_left _ this)

/-- positions on a part of a bar, as positions on the bar -/
theorem scale_subset (b : PBar) (L U x : ℚ) : (b.subset L U).scale x = b.scale (L + (U - L) * x / 100) := by
  unfold PBar.scale PBar.subset
  have : b.lower + (b.upper - b.lower) * L / 100 + (b.lower + (b.upper - b.lower) * U / 100 - (b.lower + (b.upper - b.lower) * L / 100)) * x / 100 =
      b.lower + (b.upper - b.lower) * (L + (U - L) * x / 100) / 100 := by ring
  simp only [this]

theorem subset_le (b : PBar) (hb : b.lower ≤ b.upper) {L U : ℚ} (h : L ≤ U) : (b.subset L U).lower ≤ (b.subset L U).upper := by
  have := mul_le_mul_of_nonneg_left h (sub_nonneg.2 hb)
  simp only [PBar.subset]
  linarith

theorem heard_update (b : PBar) (x : ℚ) : heard (b.update x) = [b.scale x] := by
  unfold PBar.update heard
  by_cases h : 100 ≤ b.scale x ∧ b.parent = true
  · simp [h]
  · simp [h]

mutual
theorem run_forward (b : PBar) (hb : b.lower ≤ b.upper) : ∀ s : Step, Forward s →
    (heard (s.run b)).Pairwise (· ≤ ·) ∧ ∀ y ∈ heard (s.run b), b.scale (span s).1 ≤ y ∧ y ≤ b.scale (span s).2
  | .say x, _ => by
    simp only [Step.run, heard_update, span]
    exact ⟨List.pairwise_singleton _ _, by simp⟩
  | .sub L U body, h => by
    obtain ⟨hLU, hf⟩ := h
    obtain ⟨h1, h2⟩ := runAll_forward (b.subset L U) (subset_le b hb hLU) 0 body hf
    refine ⟨by simpa [Step.run] using h1, fun y hy => ?_⟩
    have := h2 y (by simpa [Step.run] using hy)
    rw [scale_subset, scale_subset] at this
    simpa [span] using this
  | .part i n body, h => by
    obtain ⟨hin, hf⟩ := h
    have hn : (0 : ℚ) < n := by exact_mod_cast (by omega : 0 < n)
    have hLU : (100 * i / n : ℚ) ≤ 100 * (i + 1) / n := by gcongr; linarith
    obtain ⟨h1, h2⟩ := runAll_forward (b.part i n) (part_eq b i n ▸ subset_le b hb hLU) 0 body hf
    refine ⟨by simpa [Step.run] using h1, fun y hy => ?_⟩
    have := h2 y (by simpa [Step.run] using hy)
    rw [part_eq, scale_subset, scale_subset] at this
    simpa [span] using this
theorem runAll_forward (b : PBar) (hb : b.lower ≤ b.upper) : ∀ (done : ℚ) (l : List Step), ForwardAll done l →
    (heard (runAll b l)).Pairwise (· ≤ ·) ∧ ∀ y ∈ heard (runAll b l), b.scale done ≤ y ∧ y ≤ b.scale 100
  | done, [], _ => by simp [runAll, heard]
  | done, s :: l, h => by
    obtain ⟨h1, h2, h3⟩ := h
    obtain ⟨a1, a2⟩ := run_forward b hb s h2
    obtain ⟨b1, b2⟩ := runAll_forward b hb _ l h3
    have hend := forwardAll_le l _ h3
    have hH : heard (runAll b (s :: l)) = heard (s.run b) ++ heard (runAll b l) := by
      simp [runAll, heard, List.filterMap_append]
    rw [hH]
    refine ⟨List.pairwise_append.2 ⟨a1, b1, fun y hy z hz => (a2 y hy).2.trans (b2 z hz).1⟩, fun y hy => ?_⟩
    rcases List.mem_append.1 hy with h | h
    · exact ⟨(scale_mono b hb h1).trans (a2 y h).1, (a2 y h).2.trans (scale_mono b hb hend)⟩
    · refine ⟨le_trans (scale_mono b hb (h1.trans ?_)) (b2 y h).1, (b2 y h).2⟩
      exact span_le s h2
theorem span_le : ∀ s : Step, Forward s → (span s).1 ≤ (span s).2
  | .say _, _ => le_refl _
  | .sub _ _ _, h => h.1
  | .part i n _, h => by
    have hn : (0 : ℚ) < n := by exact_mod_cast (by have := h.1; omega : 0 < n)
    simp only [span]
    gcongr; linarith
theorem forwardAll_le : ∀ (l : List Step) (done : ℚ), ForwardAll done l → done ≤ 100
  | [], _, h => h
  | s :: l, _, h => h.1.trans ((span_le s h.2.1).trans (forwardAll_le l _ h.2.2))
end

/-- C49: when every calculation counts upwards, the values the display hears never go back, whatever the nesting, and
what a calculation reports stays inside the interval of the bar it was given. -/
theorem reports_in_order (b : PBar) (h0 : 0 ≤ b.lower) (hb : b.lower ≤ b.upper) (h1 : b.upper ≤ 100) (l : List Step)
    (h : ForwardAll 0 l) :
    (heard (runAll b l)).Pairwise (· ≤ ·) ∧ ∀ y ∈ heard (runAll b l), b.lower ≤ y ∧ y ≤ b.upper := by
  obtain ⟨a1, a2⟩ := runAll_forward b hb 0 l h
  obtain ⟨e0, e1⟩ := scale_ends b h0 hb h1
  rw [e0, e1] at a2
  exact ⟨a1, a2⟩

/-- A calculation in two parts, the first of which reports 0, 50, 100 and the second of which splits its part in three. -/
def progEx : List Step := [.part 0 2 [.say 0, .say 50, .say 100], .part 1 2 [.part 0 3 [.say 100], .sub 40 60 [.say 50], .part 2 3 [.say 0, .say 100]], .say 100]

example : ForwardAll 0 progEx := by
  simp only [progEx, ForwardAll, Forward, span]; norm_num

example : (heard (runAll root progEx)) = [0, 25, 50, 200/3, 75, 250/3, 100, 100] := by decide +kernel

mutual
theorem finish_sub (b : PBar) (hp : b.parent = false) : ∀ s : Step, Event.finish ∉ s.run b
  | .say x => by simp [Step.run, PBar.update, hp]
  | .sub L U body => by rw [Step.run]; exact finish_all (b.subset L U) rfl body
  | .part i n body => by rw [Step.run]; exact finish_all (b.part i n) rfl body
theorem finish_all (b : PBar) (hp : b.parent = false) : ∀ l : List Step, Event.finish ∉ runAll b l
  | [] => by simp [runAll]
  | s :: l => by
    rw [runAll, List.mem_append, not_or]
    exact ⟨finish_sub b hp s, finish_all b hp l⟩
end

/-- C49: only the bar that made the display closes it, and only by reporting 100 % itself. -/
theorem finish_only_at_end (l : List Step) (h : Event.finish ∈ runAll root l) : ∃ x, Step.say x ∈ l ∧ 100 ≤ x := by
  induction l with
  | nil => simp [runAll] at h
  | cons s l ih =>
    rw [runAll, List.mem_append] at h
    rcases h with h | h
    · cases s with
      | say x =>
        refine ⟨x, List.mem_cons_self .., ?_⟩
        by_contra hx
        push Not at hx
        simp only [Step.run, PBar.update, PBar.scale, root, List.mem_cons, reduceCtorEq, false_or] at h
        rw [if_neg] at h
        · simp at h
        · intro hc
          have := hc.1
          simp only [le_min_iff, le_max_iff] at this
          rcases this.1 with h' | h' <;> linarith
      | sub L U body => rw [Step.run] at h; exact absurd h (finish_all (root.subset L U) rfl body)
      | part i n body => rw [Step.run] at h; exact absurd h (finish_all (root.part i n) rfl body)
    · obtain ⟨x, hx, h'⟩ := ih h
      exact ⟨x, List.mem_cons_of_mem _ hx, h'⟩

example : Event.finish ∈ runAll root progEx := by decide +kernel

end Progress
end PyGeode
