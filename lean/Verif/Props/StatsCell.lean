/-
C72-C74: textbook quantities from the sums of stats.py.
-/
import Verif.Model.Stats
import Verif.Spec.Stats
import Mathlib.Tactic.FieldSimp
import Mathlib.Tactic.LinearCombination
import Mathlib.Tactic.Positivity
import Mathlib.Tactic.Linarith
import Mathlib.Analysis.Real.Sqrt

namespace PyGeode
namespace Stats
open Spec

/-- the six sums of a list of pairs -/
def sumsOf (P : List (ℚ × ℚ)) : Sums :=
  ⟨(P.map fun p => p.1).sum, (P.map fun p => p.2).sum, (P.map fun p => p.1 ^ 2).sum, (P.map fun p => p.2 ^ 2).sum,
    (P.map fun p => p.1 * p.2).sum, P.length⟩

theorem codev_eq (P : List (ℚ × ℚ)) : codev P = (sumsOf P).xy - (sumsOf P).x * (sumsOf P).y / (sumsOf P).n := by
  have key : ∀ (l : List (ℚ × ℚ)) (a b : ℚ), (l.map fun p => (p.1 - a) * (p.2 - b)).sum =
      (l.map fun p => p.1 * p.2).sum - b * (l.map fun p => p.1).sum - a * (l.map fun p => p.2).sum + l.length * (a * b) := by
    intro l a b
    induction l with
    | nil => simp
    | cons p l ih => simp only [List.map_cons, List.sum_cons, List.length_cons, ih]; push_cast; ring
  unfold codev
  rw [key]
  unfold avg sumsOf
  simp only [List.length_map]
  by_cases hn : (P.length : ℚ) = 0
  · have : P = [] := by simpa using hn
    subst this; simp
  · have e1 : P.map Prod.fst = P.map fun p => p.1 := rfl
    have e2 : P.map Prod.snd = P.map fun p => p.2 := rfl
    rw [e1, e2]
    field_simp
    ring

theorem dev2_eq (l : List ℚ) : dev2 l = (l.map fun x => x ^ 2).sum - l.sum * l.sum / l.length := by
  have key : ∀ (l : List ℚ) (a : ℚ), (l.map fun x => (x - a) ^ 2).sum =
      (l.map fun x => x ^ 2).sum - 2 * a * l.sum + l.length * a ^ 2 := by
    intro l a
    induction l with
    | nil => simp
    | cons p l ih => simp only [List.map_cons, List.sum_cons, List.length_cons, ih]; push_cast; ring
  unfold dev2
  rw [key]
  unfold avg
  by_cases hn : (l.length : ℚ) = 0
  · have : l = [] := by simpa using hn
    subst this; simp
  · field_simp
    ring

theorem dev2_nonneg (l : List ℚ) : 0 ≤ dev2 l := by
  unfold dev2
  refine List.sum_nonneg fun x hx => ?_
  obtain ⟨y, -, rfl⟩ := List.mem_map.1 hx
  positivity

theorem sq_sum_eq_zero {ι : Type} (l : List ι) (f : ι → ℚ) (h : (l.map fun i => f i ^ 2).sum = 0) : ∀ i ∈ l, f i = 0 := by
  induction l with
  | nil => simp
  | cons a l ih =>
    have h0 : 0 ≤ (l.map fun i => f i ^ 2).sum := List.sum_nonneg fun x hx => by
      obtain ⟨y, -, rfl⟩ := List.mem_map.1 hx; positivity
    rw [List.map_cons, List.sum_cons] at h
    have h1 : f a ^ 2 = 0 := by nlinarith [sq_nonneg (f a)]
    intro i hi
    rcases List.mem_cons.1 hi with rfl | hi
    · exact pow_eq_zero_iff (n := 2) (by norm_num) |>.1 h1
    · exact ih (by rw [h1, zero_add] at h; exact h) i hi

/-- The sum of the squared deviations is positive exactly if the values are not all equal. -/
theorem dev2_pos_iff (l : List ℚ) : 0 < dev2 l ↔ ∃ x ∈ l, ∃ y ∈ l, x ≠ y := by
  constructor
  · intro h
    by_contra hc
    push Not at hc
    have hall : ∀ x ∈ l, x = avg l := by
      intro x hx
      have hrep : l = List.replicate l.length x := List.eq_replicate_iff.2 ⟨rfl, fun y hy => hc y hy x hx⟩
      have hn : (l.length : ℚ) ≠ 0 := by
        have := List.length_pos_of_mem hx
        have : (0 : ℚ) < l.length := by exact_mod_cast this
        exact ne_of_gt this
      unfold avg
      have : l.sum = l.length * x := by
        conv_lhs => rw [hrep]
        simp
      rw [this]; field_simp
    have : dev2 l = 0 := by
      unfold dev2
      refine List.sum_eq_zero fun y hy => ?_
      obtain ⟨x, hx, rfl⟩ := List.mem_map.1 hy
      rw [← hall x hx]; ring
    linarith
  · rintro ⟨x, hx, y, hy, hxy⟩
    refine lt_of_le_of_ne (dev2_nonneg l) fun h => hxy ?_
    have := sq_sum_eq_zero l (fun x => x - avg l) h.symm
    have h1 := this x hx
    have h2 := this y hy
    linarith

theorem sumsOf_xx (P : List (ℚ × ℚ)) : (sumsOf P).xx - (sumsOf P).x * (sumsOf P).x / (sumsOf P).n = dev2 (P.map Prod.fst) := by
  rw [dev2_eq, List.map_map, List.length_map]; rfl

theorem sumsOf_yy (P : List (ℚ × ℚ)) : (sumsOf P).yy - (sumsOf P).y * (sumsOf P).y / (sumsOf P).n = dev2 (P.map Prod.snd) := by
  rw [dev2_eq, List.map_map, List.length_map]; rfl

/-- The misfit of any line, against the line with slope `codev / dev2 x` through the point of the means. -/
theorem misfit_eq (P : List (ℚ × ℚ)) (hd : 0 < dev2 (P.map Prod.fst)) (m b : ℚ) :
    misfit P m b = (dev2 (P.map Prod.snd) - codev P ^ 2 / dev2 (P.map Prod.fst)) +
      (m - codev P / dev2 (P.map Prod.fst)) ^ 2 * dev2 (P.map Prod.fst) +
      P.length * (m * avg (P.map Prod.fst) + b - avg (P.map Prod.snd)) ^ 2 := by
  have hexp : misfit P m b = (sumsOf P).yy - 2 * m * (sumsOf P).xy - 2 * b * (sumsOf P).y + m ^ 2 * (sumsOf P).xx +
      2 * m * b * (sumsOf P).x + (sumsOf P).n * b ^ 2 := by
    unfold misfit sumsOf
    dsimp only
    induction P with
    | nil => simp
    | cons p P ih =>
      clear hd
      have key : ∀ l : List (ℚ × ℚ), (l.map fun p => (p.2 - (m * p.1 + b)) ^ 2).sum = (l.map fun p => p.2 ^ 2).sum -
          2 * m * (l.map fun p => p.1 * p.2).sum - 2 * b * (l.map fun p => p.2).sum + m ^ 2 * (l.map fun p => p.1 ^ 2).sum +
          2 * m * b * (l.map fun p => p.1).sum + l.length * b ^ 2 := by
        intro l
        induction l with
        | nil => simp
        | cons p l ih => simp only [List.map_cons, List.sum_cons, List.length_cons, ih]; push_cast; ring
      exact key _
  have hn : ((sumsOf P).n) ≠ 0 := by
    have : P ≠ [] := by
      rintro rfl; simp [dev2] at hd
    simpa [sumsOf] using this
  have hx : avg (P.map Prod.fst) = (sumsOf P).x / (sumsOf P).n := by unfold avg sumsOf; simp
  have hy : avg (P.map Prod.snd) = (sumsOf P).y / (sumsOf P).n := by unfold avg sumsOf; simp
  have hnl : (P.length : ℚ) = (sumsOf P).n := rfl
  rw [hexp, hx, hy, hnl]
  have h1 := codev_eq P
  have h2 := sumsOf_xx P
  have h3 := sumsOf_yy P
  set c := codev P
  set u := dev2 (P.map Prod.fst)
  set v := dev2 (P.map Prod.snd)
  have e1 : (sumsOf P).xy = c + (sumsOf P).x * (sumsOf P).y / (sumsOf P).n := by rw [h1]; ring
  have e2 : (sumsOf P).xx = u + (sumsOf P).x * (sumsOf P).x / (sumsOf P).n := by rw [← h2]; ring
  have e3 : (sumsOf P).yy = v + (sumsOf P).y * (sumsOf P).y / (sumsOf P).n := by rw [← h3]; ring
  rw [e1, e2, e3]
  have hu : u ≠ 0 := ne_of_gt hd
  field_simp
  ring

/-- degrees of freedom of a regression through `n` points, with the factor `N_fac` -/
def dof (n : ℕ) (fac : Option ℚ) : ℚ := n / fac.getD 1 - 2

/-- C72: what `regress` reports for the points `P` of one cell. -/
structure _root_.PyGeode.Spec.Fits (P : List (ℚ × ℚ)) (dof : ℚ) (L : Line) : Prop where
  /-- nothing without enough points, or if all `x` are equal -/
  nan : ¬ (0 < dof ∧ ∃ p ∈ P, ∃ q ∈ P, p.1 ≠ q.1) → L.m = none ∧ L.b = none ∧ L.r2 = none ∧ L.se2 = none ∧ L.sm2 = none
  /-- otherwise the line with the least misfit, the only one with that misfit; and the textbook estimates of errors -/
  best : 0 < dof → (∃ p ∈ P, ∃ q ∈ P, p.1 ≠ q.1) → ∃ m b, L.m = some m ∧ L.b = some b ∧
    (∀ m' b', misfit P m b ≤ misfit P m' b' ∧ (misfit P m' b' = misfit P m b → m' = m ∧ b' = b)) ∧
    L.se2 = some (misfit P m b / dof) ∧ L.sm2 = some (misfit P m b / dof / dev2 (P.map Prod.fst)) ∧
    ((∃ p ∈ P, ∃ q ∈ P, p.2 ≠ q.2) → L.r2 = some (1 - misfit P m b / dev2 (P.map Prod.snd))) ∧
    ((∀ p ∈ P, ∀ q ∈ P, p.2 = q.2) → L.r2 = none)

theorem dev2_pairs (P : List (ℚ × ℚ)) (f : ℚ × ℚ → ℚ) : 0 < dev2 (P.map f) ↔ ∃ p ∈ P, ∃ q ∈ P, f p ≠ f q := by
  rw [dev2_pos_iff]
  simp

theorem regressCell_fits (P : List (ℚ × ℚ)) (fac : Option ℚ) : Fits P (dof P.length fac) (regressCell fac (sumsOf P)) := by
  have hN : effDof (sumsOf P).n fac = dof P.length fac := by
    unfold dof sumsOf effDof; cases fac <;> simp
  have hx := sumsOf_xx P
  have hy := sumsOf_yy P
  have hxy := (codev_eq P).symm
  set dx := dev2 (P.map Prod.fst) with hdx
  set dy := dev2 (P.map Prod.snd) with hdy
  set c := codev P with hc
  set D := dof P.length fac with hD
  have hdy0 : 0 ≤ dy := dev2_nonneg _
  have hdx0 : 0 ≤ dx := dev2_nonneg _
  by_cases hpos : 0 < D
  swap
  · refine ⟨fun _ => ?_, fun h => absurd h hpos⟩
    unfold regressCell
    simp only [hN, hpos, decide_false, Bool.false_and]
    exact ⟨rfl, rfl, rfl, rfl, rfl⟩
  have hcell : regressCell fac (sumsOf P) = ⟨if 0 < dx then some (c / dx) else none,
      if 0 < dx then some (((sumsOf P).y - c / dx * (sumsOf P).x) / (sumsOf P).n) else none,
      if 0 < dx * dy then some (c ^ 2 / (dx * dy)) else none,
      if 0 < dx then some ((dy - c / dx * c) / D) else none,
      if 0 < dx then some ((dy - c / dx * c) / D / dx) else none⟩ := by
    unfold regressCell
    simp only [hN, hpos, decide_true, if_true, hx, hy, hxy, Bool.true_and, decide_eq_true_eq]
    by_cases h : 0 < dx <;> by_cases h' : 0 < dx * dy <;> simp [h, h']
  have hiff : 0 < dx ↔ ∃ p ∈ P, ∃ q ∈ P, p.1 ≠ q.1 := dev2_pairs P Prod.fst
  have hiff' : 0 < dy ↔ ∃ p ∈ P, ∃ q ∈ P, p.2 ≠ q.2 := dev2_pairs P Prod.snd
  rw [hcell]
  constructor
  · intro h
    have h0 : ¬ 0 < dx := fun h' => h ⟨hpos, hiff.1 h'⟩
    have h1 : dx = 0 := le_antisymm (not_lt.1 h0) hdx0
    simp [h1]
  · intro _ h
    have h0 : 0 < dx := hiff.2 h
    have hnz : P.length ≠ 0 := by
      obtain ⟨p, hp, -⟩ := h; exact (List.length_pos_of_mem hp).ne'
    have hn : (sumsOf P).n ≠ 0 := by simpa [sumsOf] using hnz
    have hnl : (P.length : ℚ) = (sumsOf P).n := rfl
    have hax : avg (P.map Prod.fst) = (sumsOf P).x / (sumsOf P).n := by unfold avg sumsOf; simp
    have hay : avg (P.map Prod.snd) = (sumsOf P).y / (sumsOf P).n := by unfold avg sumsOf; simp
    have hm := misfit_eq P h0
    rw [← hc, ← hdx, ← hdy] at hm
    set m := c / dx with hmdef
    set b := ((sumsOf P).y - m * (sumsOf P).x) / (sumsOf P).n with hb
    have hzero : m * avg (P.map Prod.fst) + b - avg (P.map Prod.snd) = 0 := by
      rw [hax, hay, hb]; field_simp; ring
    have hmin : misfit P m b = dy - c ^ 2 / dx := by rw [hm, hzero]; ring
    have hmin' : dy - m * c = misfit P m b := by rw [hmin, hmdef]; ring
    refine ⟨m, b, by simp [h0], by simp [h0], fun m' b' => ?_, ?_, ?_, fun hq => ?_, fun hq => ?_⟩
    · rw [hmin, hm m' b']
      have p1 : 0 ≤ (m' - m) ^ 2 * dx := by positivity
      have p2 : 0 ≤ (P.length : ℚ) * (m' * avg (P.map Prod.fst) + b' - avg (P.map Prod.snd)) ^ 2 := by positivity
      refine ⟨by linarith, fun he => ?_⟩
      have q1 : (m' - m) ^ 2 * dx = 0 := by linarith
      have q2 : (P.length : ℚ) * (m' * avg (P.map Prod.fst) + b' - avg (P.map Prod.snd)) ^ 2 = 0 := by linarith
      have r1 : m' = m := by
        rcases mul_eq_zero.1 q1 with h | h
        · exact sub_eq_zero.1 (pow_eq_zero_iff (n := 2) (by norm_num) |>.1 h)
        · exact absurd h (ne_of_gt h0)
      refine ⟨r1, ?_⟩
      rcases mul_eq_zero.1 q2 with h | h
      · exact absurd (by exact_mod_cast h) hnz
      · have := pow_eq_zero_iff (n := 2) (by norm_num) |>.1 h
        rw [r1] at this
        linarith
    · simp [h0, hmin']
    · rw [← hdx]; simp [h0, hmin']
    · rw [← hdy]
      have h1 : 0 < dy := hiff'.2 hq
      have h2 : 0 < dx * dy := mul_pos h0 h1
      simp only [h2, if_true, hmin]
      congr 1
      have := ne_of_gt h0
      have := ne_of_gt h1
      field_simp
      ring
    · have h1 : ¬ 0 < dy := fun h' => by
        obtain ⟨p, hp, q, hq', hne⟩ := hiff'.1 h'
        exact hne (hq p hp q hq')
      have h2 : dy = 0 := le_antisymm (not_lt.1 h1) hdy0
      simp [h2]

/-! ### correlation -/

/-- Pearson's correlation coefficient -/
noncomputable def _root_.PyGeode.Spec.pearson (P : List (ℚ × ℚ)) : ℝ :=
  (codev P : ℝ) / Real.sqrt ((dev2 (P.map Prod.fst) : ℝ) * (dev2 (P.map Prod.snd) : ℝ))

theorem codev_sq_le (P : List (ℚ × ℚ)) : codev P ^ 2 ≤ dev2 (P.map Prod.fst) * dev2 (P.map Prod.snd) := by
  by_cases h : 0 < dev2 (P.map Prod.fst)
  · have h1 := misfit_eq P h (codev P / dev2 (P.map Prod.fst)) (avg (P.map Prod.snd) - codev P / dev2 (P.map Prod.fst) * avg (P.map Prod.fst))
    have h2 : 0 ≤ misfit P (codev P / dev2 (P.map Prod.fst)) (avg (P.map Prod.snd) - codev P / dev2 (P.map Prod.fst) * avg (P.map Prod.fst)) := by
      unfold misfit
      refine List.sum_nonneg fun x hx => ?_
      obtain ⟨y, -, rfl⟩ := List.mem_map.1 hx
      positivity
    have h3 : 0 ≤ dev2 (P.map Prod.snd) - codev P ^ 2 / dev2 (P.map Prod.fst) := by
      rw [h1] at h2
      have e : codev P / dev2 (P.map Prod.fst) * avg (P.map Prod.fst) +
        (avg (P.map Prod.snd) - codev P / dev2 (P.map Prod.fst) * avg (P.map Prod.fst)) - avg (P.map Prod.snd) = 0 := by ring
      rw [e, sub_self] at h2
      simpa using h2
    have h4 : codev P ^ 2 / dev2 (P.map Prod.fst) ≤ dev2 (P.map Prod.snd) := by linarith
    rw [div_le_iff₀ h] at h4
    linarith
  · have h0 : dev2 (P.map Prod.fst) = 0 := le_antisymm (not_lt.1 h) (dev2_nonneg _)
    have : codev P = 0 := by
      unfold codev
      refine List.sum_eq_zero fun y hy => ?_
      obtain ⟨p, hp, rfl⟩ := List.mem_map.1 hy
      have := sq_sum_eq_zero (P.map Prod.fst) (fun x => x - avg (P.map Prod.fst)) h0 p.1 (List.mem_map_of_mem hp)
      rw [this, zero_mul]
    rw [this, h0]; simp

/-- The coefficient lies between -1 and 1. -/
theorem pearson_abs_le (P : List (ℚ × ℚ)) : |pearson P| ≤ 1 := by
  unfold pearson
  have h := codev_sq_le P
  have hR : (codev P : ℝ) ^ 2 ≤ (dev2 (P.map Prod.fst) : ℝ) * (dev2 (P.map Prod.snd) : ℝ) := by exact_mod_cast h
  rw [abs_div, abs_of_nonneg (Real.sqrt_nonneg _)]
  refine div_le_one_of_le₀ ?_ (Real.sqrt_nonneg _)
  exact Real.abs_le_sqrt hR

/-- It is 1 or -1 exactly if the points lie on a straight line. -/
theorem pearson_abs_eq_one (P : List (ℚ × ℚ)) (hx : ∃ p ∈ P, ∃ q ∈ P, p.1 ≠ q.1) (hy : ∃ p ∈ P, ∃ q ∈ P, p.2 ≠ q.2) :
    |pearson P| = 1 ↔ ∃ m b : ℚ, ∀ p ∈ P, p.2 = m * p.1 + b := by
  have hdx := (dev2_pairs P Prod.fst).2 hx
  have hdy := (dev2_pairs P Prod.snd).2 hy
  have hpos : (0 : ℝ) < (dev2 (P.map Prod.fst) : ℝ) * (dev2 (P.map Prod.snd) : ℝ) := by exact_mod_cast mul_pos hdx hdy
  have e1 : |pearson P| = 1 ↔ codev P ^ 2 = dev2 (P.map Prod.fst) * dev2 (P.map Prod.snd) := by
    unfold pearson
    rw [abs_div, abs_of_nonneg (Real.sqrt_nonneg _), div_eq_one_iff_eq (ne_of_gt (Real.sqrt_pos.2 hpos))]
    constructor
    · intro h
      have h2 : |(codev P : ℝ)| ^ 2 = Real.sqrt ((dev2 (P.map Prod.fst) : ℝ) * (dev2 (P.map Prod.snd) : ℝ)) ^ 2 := by rw [h]
      rw [sq_abs, Real.sq_sqrt hpos.le] at h2
      exact_mod_cast h2
    · intro h
      rw [← Real.sqrt_sq_eq_abs]
      congr 1
      exact_mod_cast h
  rw [e1]
  constructor
  · intro h
    refine ⟨codev P / dev2 (P.map Prod.fst), avg (P.map Prod.snd) - codev P / dev2 (P.map Prod.fst) * avg (P.map Prod.fst), ?_⟩
    have h1 := misfit_eq P hdx (codev P / dev2 (P.map Prod.fst)) (avg (P.map Prod.snd) - codev P / dev2 (P.map Prod.fst) * avg (P.map Prod.fst))
    have e : codev P / dev2 (P.map Prod.fst) * avg (P.map Prod.fst) +
      (avg (P.map Prod.snd) - codev P / dev2 (P.map Prod.fst) * avg (P.map Prod.fst)) - avg (P.map Prod.snd) = 0 := by ring
    rw [e, sub_self, h] at h1
    have h2 : misfit P (codev P / dev2 (P.map Prod.fst)) (avg (P.map Prod.snd) - codev P / dev2 (P.map Prod.fst) * avg (P.map Prod.fst)) = 0 := by
      rw [h1]
      have := ne_of_gt hdx
      field_simp
      ring
    intro p hp
    have := sq_sum_eq_zero P _ h2 p hp
    linarith
  · rintro ⟨m, b, h⟩
    have h0 : misfit P m b = 0 := by
      unfold misfit
      refine List.sum_eq_zero fun y hy => ?_
      obtain ⟨p, hp, rfl⟩ := List.mem_map.1 hy
      rw [h p hp]; ring
    have h1 := misfit_eq P hdx m b
    have h2 := codev_sq_le P
    have p1 : 0 ≤ (m - codev P / dev2 (P.map Prod.fst)) ^ 2 * dev2 (P.map Prod.fst) := by positivity
    have p2 : 0 ≤ (P.length : ℚ) * (m * avg (P.map Prod.fst) + b - avg (P.map Prod.snd)) ^ 2 := by positivity
    have h3 : dev2 (P.map Prod.snd) ≤ codev P ^ 2 / dev2 (P.map Prod.fst) := by linarith
    rw [le_div_iff₀ hdx] at h3
    linarith

theorem correlateCell_eq (P : List (ℚ × ℚ)) : correlateCell (sumsOf P) =
    if 0 < dev2 (P.map Prod.fst) ∧ 0 < dev2 (P.map Prod.snd) then
      some (codev P, dev2 (P.map Prod.fst), dev2 (P.map Prod.snd)) else none := by
  have hx := sumsOf_xx P
  have hy := sumsOf_yy P
  have hxy := (codev_eq P).symm
  have hdx0 := dev2_nonneg (P.map Prod.fst)
  have hdy0 := dev2_nonneg (P.map Prod.snd)
  by_cases hn : 0 < (sumsOf P).n
  swap
  · have : P = [] := by
      by_contra h
      exact hn (by simpa [sumsOf] using List.length_pos_iff.2 h)
    subst this
    simp [correlateCell, sumsOf, dev2]
  unfold correlateCell
  simp only [hn, decide_true, if_true, hx, hy, hxy, Bool.true_and, decide_eq_true_eq]
  rcases hdx0.lt_or_eq with h1 | h1 <;> rcases hdy0.lt_or_eq with h2 | h2
  · simp [not_le.2 h1, not_le.2 h2, h1, h2]
  · simp [← h2]
  · simp [← h1]
  · simp [← h1]

/-! ### differences of means -/

/-- the three sums of a list of numbers -/
def sumsOf1 (l : List ℚ) : Sums1 := ⟨l.sum, (l.map fun x => x ^ 2).sum, l.length⟩

theorem effective_le (n : ℕ) (f : Option ℚ) (hf : ∀ q, f = some q → 1 ≤ q) : effective n f ≤ n := by
  cases f with
  | none => exact le_refl _
  | some q =>
    have hq := hf q rfl
    have h1 : ((⌊(n : ℚ) / q⌋ : ℤ) : ℚ) ≤ (n : ℚ) / q := Int.floor_le _
    have h2 : (n : ℚ) / q ≤ n := div_le_self (by positivity) hq
    exact le_trans h1 h2

theorem svar_nonneg (l : List ℚ) (h : 1 < l.length) : 0 ≤ svar l := by
  unfold svar
  have : (1 : ℚ) < l.length := by exact_mod_cast h
  exact div_nonneg (dev2_nonneg _) (by linarith)

theorem svar_pos_iff (l : List ℚ) (h : 1 < l.length) : 0 < svar l ↔ ∃ x ∈ l, ∃ y ∈ l, x ≠ y := by
  unfold svar
  have : (0 : ℚ) < l.length - 1 := by have : (1 : ℚ) < l.length := by exact_mod_cast h
                                      linarith
  rw [← dev2_pos_iff]
  exact div_pos_iff_of_pos_right this

theorem sumsOf1_svar (l : List ℚ) : ((sumsOf1 l).xx - (sumsOf1 l).x * (sumsOf1 l).x / (sumsOf1 l).n) / ((sumsOf1 l).n - 1) = svar l := by
  unfold svar; rw [dev2_eq]; rfl

/-- C74: Welch's test of the difference of the means of two samples, with effective sizes `nx`, `ny`. -/
structure _root_.PyGeode.Spec.Welch (xs ys : List ℚ) (nx ny : ℚ) (D : Diff) : Prop where
  mean : 1 < xs.length → 1 < ys.length → D.d = avg xs - avg ys
  few : ¬ (1 < nx ∧ 1 < ny) → D.se2 = none ∧ D.df = none
  constant : (∀ x ∈ xs, ∀ x' ∈ xs, x = x') → (∀ y ∈ ys, ∀ y' ∈ ys, y = y') → D.se2 = none ∧ D.df = none
  test : 1 < nx → 1 < ny → (∃ x ∈ xs, ∃ x' ∈ xs, x ≠ x') ∨ (∃ y ∈ ys, ∃ y' ∈ ys, y ≠ y') →
    D.se2 = some (svar xs / nx + svar ys / ny) ∧
    D.df = some ((svar xs / nx + svar ys / ny) ^ 2 / ((svar xs / nx) ^ 2 / (nx - 1) + (svar ys / ny) ^ 2 / (ny - 1)))

theorem differenceCell_welch (xs ys : List ℚ) (fx fy : Option ℚ) (hfx : ∀ q, fx = some q → 1 ≤ q) (hfy : ∀ q, fy = some q → 1 ≤ q) :
    Welch xs ys (effective xs.length fx) (effective ys.length fy) (differenceCell fx fy (sumsOf1 xs) (sumsOf1 ys)) := by
  have ex := effective_le xs.length fx hfx
  have ey := effective_le ys.length fy hfy
  have nx : (sumsOf1 xs).n = (xs.length : ℚ) := rfl
  have ny : (sumsOf1 ys).n = (ys.length : ℚ) := rfl
  have vx := sumsOf1_svar xs
  have vy := sumsOf1_svar ys
  set N := effective xs.length fx with hN
  set M := effective ys.length fy with hM
  by_cases hE : 1 < N ∧ 1 < M
  swap
  · have hE' : (decide (1 < N) && decide (1 < M)) = false := by simpa using fun h => not_lt.1 fun h' => hE ⟨h, h'⟩
    have hnone : (differenceCell fx fy (sumsOf1 xs) (sumsOf1 ys)).se2 = none ∧ (differenceCell fx fy (sumsOf1 xs) (sumsOf1 ys)).df = none := by
      unfold differenceCell
      simp only [nx, ny, ← hN, ← hM, hE']
      simp
    refine ⟨fun h1 h2 => ?_, fun _ => hnone, fun _ _ => hnone, fun h1 h2 => absurd ⟨h1, h2⟩ hE⟩
    have h1' : (1 : ℚ) < xs.length := by exact_mod_cast h1
    have h2' : (1 : ℚ) < ys.length := by exact_mod_cast h2
    unfold differenceCell
    simp only [nx, ny, h1', h2', decide_true, Bool.true_and, if_true]
    rfl
  have h1' : (1 : ℚ) < xs.length := lt_of_lt_of_le hE.1 ex
  have h2' : (1 : ℚ) < ys.length := lt_of_lt_of_le hE.2 ey
  have h1 : 1 < xs.length := by exact_mod_cast h1'
  have h2 : 1 < ys.length := by exact_mod_cast h2'
  have sx := svar_nonneg xs h1
  have sy := svar_nonneg ys h2
  have hm : ∀ q : ℚ, 0 ≤ q → (if q ≤ 0 then 0 else q) = q := by
    intro q hq; split_ifs with h
    · exact le_antisymm hq h
    · rfl
  have hN1 : 0 < N - 1 := by linarith [hE.1]
  have hM1 : 0 < M - 1 := by linarith [hE.2]
  have hN0 : 0 < N := by linarith [hE.1]
  have hM0 : 0 < M := by linarith [hE.2]
  have a0 : 0 ≤ svar xs / N := div_nonneg sx hN0.le
  have b0 : 0 ≤ svar ys / M := div_nonneg sy hM0.le
  have hcell : differenceCell fx fy (sumsOf1 xs) (sumsOf1 ys) = ⟨avg xs - avg ys,
      if 0 < (svar xs / N) ^ 2 / (N - 1) + (svar ys / M) ^ 2 / (M - 1) ∧ 0 < svar xs / N + svar ys / M then
        some ((svar xs / N + svar ys / M) ^ 2 / ((svar xs / N) ^ 2 / (N - 1) + (svar ys / M) ^ 2 / (M - 1))) else none,
      if 0 < (svar xs / N) ^ 2 / (N - 1) + (svar ys / M) ^ 2 / (M - 1) ∧ 0 < svar xs / N + svar ys / M then
        some (svar xs / N + svar ys / M) else none⟩ := by
    rw [nx] at vx
    rw [ny] at vy
    unfold differenceCell
    simp only [nx, ny, ← hN, ← hM, h1', h2', hE.1, hE.2, decide_true, Bool.true_and, if_true, vx, vy, hm _ sx, hm _ sy]
    by_cases c1 : 0 < (svar xs / N) ^ 2 / (N - 1) + (svar ys / M) ^ 2 / (M - 1) <;>
    by_cases c2 : 0 < svar xs / N + svar ys / M <;> simp [c1, c2] <;> rfl
  rw [hcell]
  refine ⟨fun _ _ => rfl, fun h => absurd hE h, fun hx hy => ?_, fun _ _ h => ?_⟩
  · have e1 : svar xs = 0 := le_antisymm (not_lt.1 fun h => by
      obtain ⟨x, hx1, x', hx2, hne⟩ := (svar_pos_iff xs h1).1 h
      exact hne (hx x hx1 x' hx2)) sx
    have e2 : svar ys = 0 := le_antisymm (not_lt.1 fun h => by
      obtain ⟨x, hx1, x', hx2, hne⟩ := (svar_pos_iff ys h2).1 h
      exact hne (hy x hx1 x' hx2)) sy
    simp [e1, e2]
  · have hc : 0 < (svar xs / N) ^ 2 / (N - 1) + (svar ys / M) ^ 2 / (M - 1) ∧ 0 < svar xs / N + svar ys / M := by
      rcases h with h | h
      · have := (svar_pos_iff xs h1).2 h
        have p : 0 < svar xs / N := div_pos this hN0
        have q : 0 ≤ (svar ys / M) ^ 2 / (M - 1) := by positivity
        have r : 0 < (svar xs / N) ^ 2 / (N - 1) := by positivity
        exact ⟨by linarith, by linarith⟩
      · have := (svar_pos_iff ys h2).2 h
        have p : 0 < svar ys / M := div_pos this hM0
        have q : 0 ≤ (svar xs / N) ^ 2 / (N - 1) := by positivity
        have r : 0 < (svar ys / M) ^ 2 / (M - 1) := by positivity
        exact ⟨by linarith, by linarith⟩
    simp only [hc, and_self, if_true]

/-- C74, violated: with fewer than two valid values on one side, the difference reported is the difference of the sums. -/
theorem differenceCell_few_violated (xs ys : List ℚ) (fx fy : Option ℚ) (h : xs.length ≤ 1 ∨ ys.length ≤ 1) :
    (differenceCell fx fy (sumsOf1 xs) (sumsOf1 ys)).d = xs.sum - ys.sum := by
  have : (decide (1 < (sumsOf1 xs).n) && decide (1 < (sumsOf1 ys).n)) = false := by
    rcases h with h | h
    · have : ¬ (1 : ℚ) < xs.length := by exact_mod_cast not_lt.2 h
      simp [sumsOf1, this]
    · have : ¬ (1 : ℚ) < ys.length := by exact_mod_cast not_lt.2 h
      simp [sumsOf1, this]
  unfold differenceCell
  simp only [this]
  rfl

/-- C75: the mean of the differences of pairs, with its degrees of freedom and the standard error the code uses. -/
structure _root_.PyGeode.Spec.Paired (ds : List ℚ) (n : ℚ) (D : Diff) : Prop where
  mean : 1 < ds.length → D.d = avg ds
  df : D.df = some (n - 1)
  few : n ≤ 1 → D.se2 = none
  constant : (∀ x ∈ ds, ∀ y ∈ ds, x = y) → D.se2 = none
  test : 1 < n → (∃ x ∈ ds, ∃ y ∈ ds, x ≠ y) → D.se2 = some (svar ds / (n - 1))

theorem pairedCell_paired (ds : List ℚ) (f : Option ℚ) (hf : ∀ q, f = some q → 1 ≤ q) :
    Paired ds (effective ds.length f) (pairedCell f (sumsOf1 ds)) := by
  have ex := effective_le ds.length f hf
  have nx : (sumsOf1 ds).n = (ds.length : ℚ) := rfl
  have vx := sumsOf1_svar ds
  rw [nx] at vx
  set N := effective ds.length f with hN
  have hmean : 1 < ds.length → (pairedCell f (sumsOf1 ds)).d = avg ds := by
    intro h
    have h' : (1 : ℚ) < ds.length := by exact_mod_cast h
    unfold pairedCell
    simp only [nx, h', decide_true, if_true]
    rfl
  have hdf : (pairedCell f (sumsOf1 ds)).df = some (N - 1) := by
    unfold pairedCell; simp only [nx, ← hN]
  by_cases hE : 1 < N
  swap
  · have hnone : (pairedCell f (sumsOf1 ds)).se2 = none := by
      unfold pairedCell
      simp only [nx, ← hN, hE]
      simp
    exact ⟨hmean, hdf, fun _ => hnone, fun _ => hnone, fun h => absurd h hE⟩
  have h1' : (1 : ℚ) < ds.length := lt_of_lt_of_le hE ex
  have h1 : 1 < ds.length := by exact_mod_cast h1'
  have sx := svar_nonneg ds h1
  have hN1 : 0 < N - 1 := by linarith
  have hm : (if svar ds ≤ 0 then 0 else svar ds) = svar ds := by
    split_ifs with h
    · exact le_antisymm sx h
    · rfl
  have hse : (pairedCell f (sumsOf1 ds)).se2 = if 0 < svar ds / (N - 1) then some (svar ds / (N - 1)) else none := by
    unfold pairedCell
    simp only [nx, ← hN, hE, h1', decide_true, if_true, vx, hm]
  refine ⟨hmean, hdf, fun h => absurd h (not_le.2 hE), fun h => ?_, fun _ h => ?_⟩
  · have e1 : svar ds = 0 := le_antisymm (not_lt.1 fun h' => by
      obtain ⟨x, hx1, x', hx2, hne⟩ := (svar_pos_iff ds h1).1 h'
      exact hne (h x hx1 x' hx2)) sx
    rw [hse, e1]; simp
  · rw [hse, if_pos (div_pos ((svar_pos_iff ds h1).2 h) hN1)]

/-- C75, violated: the squared standard error of the mean of `n` numbers is their sample variance divided by `n`; the code
divides it by `n - 1`. -/
theorem paired_error_violated (ds : List ℚ) (h1 : 1 < ds.length) (h : ∃ x ∈ ds, ∃ y ∈ ds, x ≠ y) :
    (pairedCell none (sumsOf1 ds)).se2 ≠ some (svar ds / ds.length) := by
  have := (pairedCell_paired ds none (by simp)).test (by show (1 : ℚ) < ds.length; exact_mod_cast h1) h
  rw [this]
  intro he
  have he := Option.some.inj he
  have hv := (svar_pos_iff ds h1).2 h
  have h1' : (1 : ℚ) < ds.length := by exact_mod_cast h1
  have e : effective ds.length none = (ds.length : ℚ) := rfl
  rw [e, div_eq_div_iff (by linarith) (by linarith)] at he
  have := mul_left_cancel₀ (ne_of_gt hv) he
  linarith

/-- C76: the mean, and the square of its standard error with the effective number `n` of values. -/
structure _root_.PyGeode.Spec.MeanTest (xs : List ℚ) (n : ℚ) (D : Diff) : Prop where
  mean : xs ≠ [] → D.d = avg xs
  df : D.df = some (n - 1)
  one : xs.length = 1 → D.se2 = none
  test : 1 < xs.length → n ≠ 0 → D.se2 = some (svar xs / n)

theorem isnonzeroCell_meanTest (xs : List ℚ) (f : Option ℚ) : MeanTest xs (effective xs.length f) (isnonzeroCell f (sumsOf1 xs)) := by
  have nx : (sumsOf1 xs).n = (xs.length : ℚ) := rfl
  have vx := sumsOf1_svar xs
  rw [nx, ← sq] at vx
  refine ⟨fun h => ?_, rfl, fun h => ?_, fun h hn => ?_⟩
  · have : (0 : ℚ) < xs.length := by exact_mod_cast List.length_pos_iff.2 h
    unfold isnonzeroCell
    simp only [nx, this, decide_true, if_true]
    rfl
  · unfold isnonzeroCell
    simp [nx, h]
  · have h0 : (0 : ℚ) < xs.length := by exact_mod_cast (by omega : 0 < xs.length)
    have h1 : ¬ ((xs.length : ℚ) = 1 ∨ effective xs.length f = 0) := by
      rintro (h' | h')
      · have : xs.length = 1 := by exact_mod_cast h'
        omega
      · exact hn h'
    unfold isnonzeroCell
    simp only [nx, h0, decide_true, if_true, h1, if_false, vx]

/-- C76, violated: without any valid value the mean reported is 0, with the standard error 0 (and the p-value 0), not NaN. -/
theorem isnonzeroCell_empty_violated (f : Option ℚ) : (isnonzeroCell f (sumsOf1 [])).d = 0 ∧ (isnonzeroCell f (sumsOf1 [])).se2 = some 0 := by
  constructor <;> simp [isnonzeroCell, sumsOf1]

end Stats
end PyGeode
