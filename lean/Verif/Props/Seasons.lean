/-
Property C53: seasons of dates (pygeode/timeaxis.py:817-864).
-/
import Verif.Props.Calendar

set_option linter.unusedSimpArgs false

namespace PyGeode.Calendar
open PyGeode.Spec

/-- Spec: DJF = 1, MAM = 2, JJA = 3, SON = 4; December belongs to the DJF of the next year. -/
def seasonOf (y m : ℤ) : ℤ × ℤ :=
  if m = 12 then (y + 1, 1)
  else if m ≤ 2 then (y, 1)
  else if m ≤ 5 then (y, 2)
  else if m ≤ 8 then (y, 3)
  else (y, 4)

/-- the fold of `_get_seasons` as a function of the day of the year -/
def seasonFold (y : ℤ) (doy : ℚ) : ℤ × ℤ :=
  seasonBoundaries.zipIdx.foldl (fun st bi => seasonStep doy st bi.2 bi.1) (y, 0)

theorem seasonStep_eq (x : ℚ) (st : ℤ × ℤ) (i : ℕ) (b : ℚ × ℚ) (P M N : Bool)
    (hP : P = true ↔ b.1 ≤ x - 365 ∧ x - 365 < b.2) (hM : M = true ↔ b.1 ≤ x ∧ x < b.2)
    (hN : N = true ↔ b.1 ≤ x + 365 ∧ x + 365 < b.2) :
    seasonStep x st i b = ((if N then (if P then st.1 + 1 else st.1) - 1
      else (if P then st.1 + 1 else st.1)), if P || M || N then (i : ℤ) + 1 else st.2) := by
  unfold seasonStep
  have e1 : (decide (b.1 ≤ x - 365) && decide (x - 365 < b.2)) = P := by
    rw [Bool.eq_iff_iff, hP]; simp
  have e2 : (decide (b.1 ≤ x) && decide (x < b.2)) = M := by
    rw [Bool.eq_iff_iff, hM]; simp
  have e3 : (decide (b.1 ≤ x + 365) && decide (x + 365 < b.2)) = N := by
    rw [Bool.eq_iff_iff, hN]; simp
  simp only [e1, e2, e3]

theorem seasonFold_0 (y : ℤ) (x : ℚ) (h1 : 1 ≤ x) (h2 : x < 60) :
    seasonFold y x = (y, 1) := by
  unfold seasonFold seasonBoundaries
  simp only [List.zipIdx_cons, List.zipIdx_nil, List.foldl_cons, List.foldl_nil]
  rw [seasonStep_eq x _ _ (-30, 60) false true false
    (by simp only [Bool.false_eq_true, false_iff, true_iff, not_and, not_lt]; intro _; linarith)
    (by simp only [Bool.false_eq_true, false_iff, true_iff, not_and, not_lt]; constructor <;> linarith)
    (by simp only [Bool.false_eq_true, false_iff, true_iff, not_and, not_lt]; intro _; linarith)]
  rw [seasonStep_eq x _ _ (60, 152) false false false
    (by simp only [Bool.false_eq_true, false_iff, true_iff, not_and, not_lt]; intro _; linarith)
    (by simp only [Bool.false_eq_true, false_iff, true_iff, not_and, not_lt]; intro _; linarith)
    (by simp only [Bool.false_eq_true, false_iff, true_iff, not_and, not_lt]; intro _; linarith)]
  rw [seasonStep_eq x _ _ (152, 244) false false false
    (by simp only [Bool.false_eq_true, false_iff, true_iff, not_and, not_lt]; intro _; linarith)
    (by simp only [Bool.false_eq_true, false_iff, true_iff, not_and, not_lt]; intro _; linarith)
    (by simp only [Bool.false_eq_true, false_iff, true_iff, not_and, not_lt]; intro _; linarith)]
  rw [seasonStep_eq x _ _ (244, 335) false false false
    (by simp only [Bool.false_eq_true, false_iff, true_iff, not_and, not_lt]; intro _; linarith)
    (by simp only [Bool.false_eq_true, false_iff, true_iff, not_and, not_lt]; intro _; linarith)
    (by simp only [Bool.false_eq_true, false_iff, true_iff, not_and, not_lt]; intro _; linarith)]
  rfl

theorem seasonFold_1 (y : ℤ) (x : ℚ) (h1 : 60 ≤ x) (h2 : x < 152) :
    seasonFold y x = (y, 2) := by
  unfold seasonFold seasonBoundaries
  simp only [List.zipIdx_cons, List.zipIdx_nil, List.foldl_cons, List.foldl_nil]
  rw [seasonStep_eq x _ _ (-30, 60) false false false
    (by simp only [Bool.false_eq_true, false_iff, true_iff, not_and, not_lt]; intro _; linarith)
    (by simp only [Bool.false_eq_true, false_iff, true_iff, not_and, not_lt]; intro _; linarith)
    (by simp only [Bool.false_eq_true, false_iff, true_iff, not_and, not_lt]; intro _; linarith)]
  rw [seasonStep_eq x _ _ (60, 152) false true false
    (by simp only [Bool.false_eq_true, false_iff, true_iff, not_and, not_lt]; intro _; linarith)
    (by simp only [Bool.false_eq_true, false_iff, true_iff, not_and, not_lt]; constructor <;> linarith)
    (by simp only [Bool.false_eq_true, false_iff, true_iff, not_and, not_lt]; intro _; linarith)]
  rw [seasonStep_eq x _ _ (152, 244) false false false
    (by simp only [Bool.false_eq_true, false_iff, true_iff, not_and, not_lt]; intro _; linarith)
    (by simp only [Bool.false_eq_true, false_iff, true_iff, not_and, not_lt]; intro _; linarith)
    (by simp only [Bool.false_eq_true, false_iff, true_iff, not_and, not_lt]; intro _; linarith)]
  rw [seasonStep_eq x _ _ (244, 335) false false false
    (by simp only [Bool.false_eq_true, false_iff, true_iff, not_and, not_lt]; intro _; linarith)
    (by simp only [Bool.false_eq_true, false_iff, true_iff, not_and, not_lt]; intro _; linarith)
    (by simp only [Bool.false_eq_true, false_iff, true_iff, not_and, not_lt]; intro _; linarith)]
  rfl

theorem seasonFold_2 (y : ℤ) (x : ℚ) (h1 : 152 ≤ x) (h2 : x < 244) :
    seasonFold y x = (y, 3) := by
  unfold seasonFold seasonBoundaries
  simp only [List.zipIdx_cons, List.zipIdx_nil, List.foldl_cons, List.foldl_nil]
  rw [seasonStep_eq x _ _ (-30, 60) false false false
    (by simp only [Bool.false_eq_true, false_iff, true_iff, not_and, not_lt]; intro _; linarith)
    (by simp only [Bool.false_eq_true, false_iff, true_iff, not_and, not_lt]; intro _; linarith)
    (by simp only [Bool.false_eq_true, false_iff, true_iff, not_and, not_lt]; intro _; linarith)]
  rw [seasonStep_eq x _ _ (60, 152) false false false
    (by simp only [Bool.false_eq_true, false_iff, true_iff, not_and, not_lt]; intro _; linarith)
    (by simp only [Bool.false_eq_true, false_iff, true_iff, not_and, not_lt]; intro _; linarith)
    (by simp only [Bool.false_eq_true, false_iff, true_iff, not_and, not_lt]; intro _; linarith)]
  rw [seasonStep_eq x _ _ (152, 244) false true false
    (by simp only [Bool.false_eq_true, false_iff, true_iff, not_and, not_lt]; intro _; linarith)
    (by simp only [Bool.false_eq_true, false_iff, true_iff, not_and, not_lt]; constructor <;> linarith)
    (by simp only [Bool.false_eq_true, false_iff, true_iff, not_and, not_lt]; intro _; linarith)]
  rw [seasonStep_eq x _ _ (244, 335) false false false
    (by simp only [Bool.false_eq_true, false_iff, true_iff, not_and, not_lt]; intro _; linarith)
    (by simp only [Bool.false_eq_true, false_iff, true_iff, not_and, not_lt]; intro _; linarith)
    (by simp only [Bool.false_eq_true, false_iff, true_iff, not_and, not_lt]; intro _; linarith)]
  rfl

theorem seasonFold_3 (y : ℤ) (x : ℚ) (h1 : 244 ≤ x) (h2 : x < 335) :
    seasonFold y x = (y, 4) := by
  unfold seasonFold seasonBoundaries
  simp only [List.zipIdx_cons, List.zipIdx_nil, List.foldl_cons, List.foldl_nil]
  rw [seasonStep_eq x _ _ (-30, 60) false false false
    (by simp only [Bool.false_eq_true, false_iff, true_iff, not_and, not_lt]; intro _; linarith)
    (by simp only [Bool.false_eq_true, false_iff, true_iff, not_and, not_lt]; intro _; linarith)
    (by simp only [Bool.false_eq_true, false_iff, true_iff, not_and, not_lt]; intro _; linarith)]
  rw [seasonStep_eq x _ _ (60, 152) false false false
    (by simp only [Bool.false_eq_true, false_iff, true_iff, not_and, not_lt]; intro _; linarith)
    (by simp only [Bool.false_eq_true, false_iff, true_iff, not_and, not_lt]; intro _; linarith)
    (by simp only [Bool.false_eq_true, false_iff, true_iff, not_and, not_lt]; intro _; linarith)]
  rw [seasonStep_eq x _ _ (152, 244) false false false
    (by simp only [Bool.false_eq_true, false_iff, true_iff, not_and, not_lt]; intro _; linarith)
    (by simp only [Bool.false_eq_true, false_iff, true_iff, not_and, not_lt]; intro _; linarith)
    (by simp only [Bool.false_eq_true, false_iff, true_iff, not_and, not_lt]; intro _; linarith)]
  rw [seasonStep_eq x _ _ (244, 335) false true false
    (by simp only [Bool.false_eq_true, false_iff, true_iff, not_and, not_lt]; intro _; linarith)
    (by simp only [Bool.false_eq_true, false_iff, true_iff, not_and, not_lt]; constructor <;> linarith)
    (by simp only [Bool.false_eq_true, false_iff, true_iff, not_and, not_lt]; intro _; linarith)]
  rfl

theorem seasonFold_4 (y : ℤ) (x : ℚ) (h1 : 335 ≤ x) (h2 : x < 367) :
    seasonFold y x = (y + 1, 1) := by
  unfold seasonFold seasonBoundaries
  simp only [List.zipIdx_cons, List.zipIdx_nil, List.foldl_cons, List.foldl_nil]
  rw [seasonStep_eq x _ _ (-30, 60) true false false
    (by simp only [Bool.false_eq_true, false_iff, true_iff, not_and, not_lt]; constructor <;> linarith)
    (by simp only [Bool.false_eq_true, false_iff, true_iff, not_and, not_lt]; intro _; linarith)
    (by simp only [Bool.false_eq_true, false_iff, true_iff, not_and, not_lt]; intro _; linarith)]
  rw [seasonStep_eq x _ _ (60, 152) false false false
    (by simp only [Bool.false_eq_true, false_iff, true_iff, not_and, not_lt]; intro _; linarith)
    (by simp only [Bool.false_eq_true, false_iff, true_iff, not_and, not_lt]; intro _; linarith)
    (by simp only [Bool.false_eq_true, false_iff, true_iff, not_and, not_lt]; intro _; linarith)]
  rw [seasonStep_eq x _ _ (152, 244) false false false
    (by simp only [Bool.false_eq_true, false_iff, true_iff, not_and, not_lt]; intro _; linarith)
    (by simp only [Bool.false_eq_true, false_iff, true_iff, not_and, not_lt]; intro _; linarith)
    (by simp only [Bool.false_eq_true, false_iff, true_iff, not_and, not_lt]; intro _; linarith)]
  rw [seasonStep_eq x _ _ (244, 335) false false false
    (by simp only [Bool.false_eq_true, false_iff, true_iff, not_and, not_lt]; intro _; linarith)
    (by simp only [Bool.false_eq_true, false_iff, true_iff, not_and, not_lt]; intro _; linarith)
    (by simp only [Bool.false_eq_true, false_iff, true_iff, not_and, not_lt]; intro _; linarith)]
  rfl

theorem seasonFold_int (y D : ℤ) (f : ℚ) (hf : 0 ≤ f ∧ f < 1) (hD : 1 ≤ D ∧ D ≤ 366) :
    seasonFold y (D + f) =
      if D < 60 then (y, 1) else if D < 152 then (y, 2) else if D < 244 then (y, 3)
      else if D < 335 then (y, 4) else (y + 1, 1) := by
  obtain ⟨f1, f2⟩ := hf
  have lo : ∀ a : ℤ, a ≤ D → (a : ℚ) ≤ D + f := by
    intro a h; have : (a : ℚ) ≤ D := by exact_mod_cast h
    linarith
  have hi : ∀ a : ℤ, D < a → (D : ℚ) + f < a := by
    intro a h; have : (D : ℚ) + 1 ≤ a := by exact_mod_cast h
    linarith
  split_ifs
  · exact seasonFold_0 y _ (by simpa using lo 1 (by omega)) (by simpa using hi 60 (by omega))
  · exact seasonFold_1 y _ (by simpa using lo 60 (by omega)) (by simpa using hi 152 (by omega))
  · exact seasonFold_2 y _ (by simpa using lo 152 (by omega)) (by simpa using hi 244 (by omega))
  · exact seasonFold_3 y _ (by simpa using lo 244 (by omega)) (by simpa using hi 335 (by omega))
  · exact seasonFold_4 y _ (by simpa using lo 335 (by omega)) (by simpa using hi 367 (by omega))

/-- C53 on the 365-day calendar: every valid date gets the season of its month, and the year in
which that season's January lies. -/
theorem season_noleap (d : Date) (hd : ValidDate .noleap d) :
    getSeasons .noleap ⟨some d.year, some d.month, some d.day, some d.hour, some d.minute,
      some d.second⟩ = some (seasonOf d.year d.month) := by
  have ht := DayCount.tod_range hd
  unfold getSeasons
  rw [getdoy_eq _ d hd.month, Option.map_some]
  change some (seasonFold d.year _) = _
  have hm := hd.month
  have hdd := hd.day
  have tr : (0 : ℚ) ≤ (tod d : ℚ) / 86400 ∧ (tod d : ℚ) / 86400 < 1 := by
    have h1 : (0 : ℚ) ≤ tod d := by exact_mod_cast ht.1
    have h2 : (tod d : ℚ) < 86400 := by exact_mod_cast ht.2
    constructor
    · positivity
    · rw [div_lt_one (by norm_num)]; exact h2
  have key : ∃ M : ℤ, dayOfYear .noleap 0 d.month d.day = M + d.day ∧
      (d.month, M, monthLength .noleap d.year d.month) ∈
      ([(1, 0, 31), (2, 31, 28), (3, 59, 31), (4, 90, 30), (5, 120, 31), (6, 151, 30),
        (7, 181, 31), (8, 212, 31), (9, 243, 30), (10, 273, 31), (11, 304, 30),
        (12, 334, 31)] : List (ℤ × ℤ × ℤ)) := by
    obtain ⟨y, m, dd, h, mi, s⟩ := d
    simp only at hm ⊢
    have hl : monthLength .noleap y m = monthLength .noleap 0 m := rfl
    rw [hl]
    refine ⟨_, rfl, ?_⟩
    obtain ⟨h1, h2⟩ := hm
    clear hl hdd ht tr hd
    interval_cases m <;> decide
  obtain ⟨M, hM, hmem⟩ := key
  rw [hM]
  congr 1
  have := seasonFold_int d.year (M + d.day) _ tr
  simp only [List.mem_cons, Prod.mk.injEq, List.not_mem_nil, or_false] at hmem
  rw [this (by rcases hmem with h | h | h | h | h | h | h | h | h | h | h | h <;> omega)]
  unfold seasonOf
  rcases hmem with h | h | h | h | h | h | h | h | h | h | h | h <;>
    (obtain ⟨e1, e2, e3⟩ := h; rw [e1, e2]; rw [e3] at hdd; split_ifs <;> first | rfl | omega)

/-- C53 on the standard calendar, partial: all dates except the last days of the seasons as seen
in a leap year (29 February, 31 May, 31 August, 30 November). -/
theorem season_standard_partial (d : Date) (hd : ValidDate .standard d)
    (hx : ¬ (d.month = 2 ∧ d.day = 29) ∧ ¬ (d.month = 5 ∧ d.day = 31) ∧
      ¬ (d.month = 8 ∧ d.day = 31) ∧ ¬ (d.month = 11 ∧ d.day = 30)) :
    getSeasons .standard ⟨some d.year, some d.month, some d.day, some d.hour, some d.minute,
      some d.second⟩ = some (seasonOf d.year d.month) := by
  have ht := DayCount.tod_range hd
  unfold getSeasons
  rw [getdoy_eq _ d hd.month, Option.map_some]
  change some (seasonFold d.year _) = _
  have hm := hd.month
  have hdd := hd.day
  have tr : (0 : ℚ) ≤ (tod d : ℚ) / 86400 ∧ (tod d : ℚ) / 86400 < 1 := by
    have h1 : (0 : ℚ) ≤ tod d := by exact_mod_cast ht.1
    have h2 : (tod d : ℚ) < 86400 := by exact_mod_cast ht.2
    constructor
    · positivity
    · rw [div_lt_one (by norm_num)]; exact h2
  have key : ∃ M L : ℤ, dayOfYear .standard 0 d.month d.day = M + d.day ∧
      monthLength .standard d.year d.month ≤ L ∧ (d.month, M, L) ∈
      ([(1, 0, 31), (2, 31, 29), (3, 60, 31), (4, 91, 30), (5, 121, 31), (6, 152, 30),
        (7, 182, 31), (8, 213, 31), (9, 244, 30), (10, 274, 31), (11, 305, 30),
        (12, 335, 31)] : List (ℤ × ℤ × ℤ)) := by
    obtain ⟨y, m, dd, h, mi, s⟩ := d
    simp only at hm ⊢
    have hl : monthLength .standard y m ≤ monthLength .standard 0 m := by
      unfold monthLength
      have : Leap 0 := by decide
      simp only [this, if_true]
      split_ifs <;> omega
    refine ⟨_, monthLength .standard 0 m, rfl, hl, ?_⟩
    obtain ⟨h1, h2⟩ := hm
    clear hl hdd hx ht tr hd
    interval_cases m <;> decide
  obtain ⟨M, L, hM, hL, hmem⟩ := key
  rw [hM]
  congr 1
  have := seasonFold_int d.year (M + d.day) _ tr
  simp only [List.mem_cons, Prod.mk.injEq, List.not_mem_nil, or_false] at hmem
  rw [this (by rcases hmem with h | h | h | h | h | h | h | h | h | h | h | h <;> omega)]
  unfold seasonOf
  rcases hmem with h | h | h | h | h | h | h | h | h | h | h | h <;>
    (obtain ⟨e1, e2, e3⟩ := h; rw [e1, e2]; rw [e3] at hL; rw [e1] at hx;
     split_ifs <;> first | rfl | omega)

/-- C53 is false of the code on the standard calendar: 30 November 2001 is put in DJF 2002, 31 May
in JJA, 31 August in SON and 29 February 2000 in MAM. -/
theorem season_standard_violated :
    getSeasons .standard ⟨some 2001, some 11, some 30, some 0, some 0, some 0⟩ = some (2002, 1) ∧
    getSeasons .standard ⟨some 2001, some 5, some 31, some 0, some 0, some 0⟩ = some (2001, 3) ∧
    getSeasons .standard ⟨some 2001, some 8, some 31, some 0, some 0, some 0⟩ = some (2001, 4) ∧
    getSeasons .standard ⟨some 2000, some 2, some 29, some 0, some 0, some 0⟩ = some (2000, 2) := by
  decide +kernel

example : getSeasons .noleap ⟨some 2001, some 12, some 1, some 12, some 0, some 0⟩ =
    some (2002, 1) := by decide +kernel

end PyGeode.Calendar
