/-
Helper lemmas about the calendar model. Property theorems are in `Verif.Props.Calendar`.
-/
import Verif.Model.Calendar
import Verif.Spec.Calendar
import Mathlib.Tactic.IntervalCases
import Mathlib.Order.Basic

set_option linter.unusedSimpArgs false

namespace PyGeode.Calendar
open PyGeode.Spec

/-! ### A calendar seen as "day number of 1 January of year y", "offset of month m" -/

structure DayCount where
  Y : ℤ → ℤ
  M : ℤ → ℤ → ℤ

structure DayCount.Ok (D : DayCount) (c : Cal) : Prop where
  year : ∀ y, D.Y (y + 1) = D.Y y + D.M y 12 + monthLength c y 12
  month : ∀ y m, 1 ≤ m → m < 12 → D.M y (m + 1) = D.M y m + monthLength c y m
  jan : ∀ y, D.M y 1 = 0

theorem monthLength_pos (c : Cal) (y m : ℤ) : 28 ≤ monthLength c y m := by
  unfold monthLength
  cases c <;> simp only <;> (try split_ifs) <;> omega

theorem tdiv_nonneg' {a : ℤ} (b : ℤ) (h : 0 ≤ a) : a.tdiv b = a / b :=
  Int.tdiv_eq_ediv_of_nonneg h

theorem tdiv_nonpos' {a : ℤ} (b : ℤ) (h : a ≤ 0) : a.tdiv b = -((-a) / b) := by
  have : (-a).tdiv b = (-a) / b := Int.tdiv_eq_ediv_of_nonneg (by omega)
  rw [Int.neg_tdiv] at this
  omega

def DayCount.abs (D : DayCount) (d : Date) : ℤ :=
  (D.Y d.year + D.M d.year d.month + d.day - 1) * 86400 + tod d

namespace DayCount
variable {D : DayCount} {c : Cal}

theorem Ok.month_le (h : D.Ok c) (y : ℤ) {m n : ℤ} (h1 : 1 ≤ m) (hmn : m < n) (hn : n ≤ 12) :
    D.M y m + monthLength c y m ≤ D.M y n := by
  have key : ∀ k : ℕ, m + 1 + k ≤ 12 → D.M y m + monthLength c y m ≤ D.M y (m + 1 + k) := by
    intro k
    induction k with
    | zero => intro hk; have := h.month y m h1 (by omega); simp only [Nat.cast_zero, add_zero]; omega
    | succ k ih =>
      intro hk
      push_cast at hk ⊢
      have h2 := ih (by omega)
      have h3 := h.month y (m + 1 + k) (by omega) (by omega)
      have h4 := monthLength_pos c y (m + 1 + k)
      have e : m + 1 + (k : ℤ) + 1 = m + 1 + ((k : ℤ) + 1) := by ring
      rw [e] at h3
      omega
  have := key (n - m - 1).toNat (by omega)
  have e : m + 1 + ((n - m - 1).toNat : ℤ) = n := by omega
  rwa [e] at this

theorem Ok.month_nonneg (h : D.Ok c) (y : ℤ) {m : ℤ} (h1 : 1 ≤ m) (hn : m ≤ 12) :
    0 ≤ D.M y m := by
  rcases eq_or_lt_of_le h1 with e | hlt
  · rw [← e, h.jan]
  · have := h.month_le y (le_refl 1) hlt hn
    have := monthLength_pos c y 1
    have := h.jan y
    omega

theorem Ok.month_end (h : D.Ok c) (y : ℤ) {m : ℤ} (h1 : 1 ≤ m) (hn : m ≤ 12) :
    D.Y y + D.M y m + monthLength c y m ≤ D.Y (y + 1) := by
  rw [h.year]
  rcases eq_or_lt_of_le hn with e | hlt
  · rw [e]
  · have := h.month_le y h1 hlt (le_refl 12)
    have := monthLength_pos c y 12
    omega

theorem Ok.year_mono (h : D.Ok c) {y z : ℤ} (hyz : y ≤ z) : D.Y y ≤ D.Y z := by
  have key : ∀ k : ℕ, D.Y y ≤ D.Y (y + k) := by
    intro k
    induction k with
    | zero => simp
    | succ k ih =>
      push_cast
      have := h.year (y + k)
      have := monthLength_pos c (y + k) 12
      have := h.month_nonneg (y + k) (m := 12) (by omega) (by omega)
      have e : y + ((k : ℤ) + 1) = y + k + 1 := by ring
      rw [e]; omega
  have := key (z - y).toNat
  have e : y + ((z - y).toNat : ℤ) = z := by omega
  rwa [e] at this

theorem tod_range {d : Date} (hd : ValidDate c d) : 0 ≤ tod d ∧ tod d < 86400 := by
  obtain ⟨-, -, h3, h4, h5⟩ := hd
  unfold tod; omega

theorem Ok.abs_lt (h : D.Ok c) {a b : Date} (ha : ValidDate c a) (hb : ValidDate c b)
    (hab : Earlier a b) : D.abs a < D.abs b := by
  have ta := tod_range ha
  have tb := tod_range hb
  have ha2 := ha.day
  have hb2 := hb.day
  unfold abs
  -- it suffices to compare day numbers, unless the days agree
  have day_lt : D.Y a.year + D.M a.year a.month + a.day < D.Y b.year + D.M b.year b.month + b.day →
      (D.Y a.year + D.M a.year a.month + a.day - 1) * 86400 + tod a <
      (D.Y b.year + D.M b.year b.month + b.day - 1) * 86400 + tod b := by intro; omega
  rcases hab with hy | ⟨hy, hm | ⟨hm, hd | ⟨hd, hrest⟩⟩⟩
  · apply day_lt
    have h1 := h.month_end a.year ha.month.1 ha.month.2
    have h2 := h.year_mono (y := a.year + 1) (z := b.year) (by omega)
    have h3 := h.month_nonneg b.year hb.month.1 hb.month.2
    omega
  · apply day_lt
    have h1 := h.month_le a.year ha.month.1 hm hb.month.2
    rw [← hy]
    omega
  · apply day_lt
    rw [hy, hm]; omega
  · rw [hy, hm, hd]
    obtain ⟨-, -, h3, h4, h5⟩ := ha
    obtain ⟨-, -, h3', h4', h5'⟩ := hb
    have : tod a < tod b := by
      unfold tod
      rcases hrest with h | ⟨h, h' | ⟨h', h''⟩⟩ <;> omega
    omega

theorem earlier_trichotomy (a b : Date) : Earlier a b ∨ a = b ∨ Earlier b a := by
  obtain ⟨y, m, d, hh, mi, s⟩ := a
  obtain ⟨y', m', d', hh', mi', s'⟩ := b
  unfold Earlier
  simp only [Date.mk.injEq]
  omega

theorem Ok.abs_lt_iff (h : D.Ok c) {a b : Date} (ha : ValidDate c a) (hb : ValidDate c b) :
    D.abs a < D.abs b ↔ Earlier a b := by
  refine ⟨fun hlt => ?_, h.abs_lt ha hb⟩
  rcases earlier_trichotomy a b with h1 | h1 | h1
  · exact h1
  · subst h1; exact absurd hlt (lt_irrefl _)
  · exact absurd (h.abs_lt hb ha h1) (by omega)

theorem Ok.abs_inj (h : D.Ok c) {a b : Date} (ha : ValidDate c a) (hb : ValidDate c b)
    (hab : D.abs a = D.abs b) : a = b := by
  rcases earlier_trichotomy a b with h1 | h1 | h1
  · have := h.abs_lt ha hb h1; omega
  · exact h1
  · have := h.abs_lt hb ha h1; omega

theorem nextSecond_valid {d : Date} (hd : ValidDate c d) : ValidDate c (nextSecond c d) := by
  obtain ⟨h1, h2, h3, h4, h5⟩ := hd
  have hp := monthLength_pos c d.year (d.month + 1)
  have hp' := monthLength_pos c (d.year + 1) 1
  unfold nextSecond
  split_ifs <;> constructor <;> simp only <;> omega

theorem Ok.abs_nextSecond (h : D.Ok c) {d : Date} (hd : ValidDate c d) :
    D.abs (nextSecond c d) = D.abs d + 1 := by
  obtain ⟨h1, h2, h3, h4, h5⟩ := hd
  unfold nextSecond
  split_ifs with g1 g2 g3 g4 g5
  · unfold abs tod; simp only; ring
  · unfold abs tod; simp only; omega
  · unfold abs tod; simp only; omega
  · unfold abs tod; simp only; omega
  · have := h.month d.year d.month h1.1 g5
    unfold abs tod; simp only; omega
  · have := h.year d.year
    have hj := h.jan (d.year + 1)
    have e : d.month = 12 := by omega
    unfold abs tod; simp only; rw [e] at g4 h2 ⊢; omega

end DayCount

/-! ### The standard calendar -/

theorem isleap_iff (y : ℤ) : isleap y = true ↔ Leap y := by
  unfold isleap Leap
  simp only [Bool.and_eq_true, Bool.or_eq_true, decide_eq_true_eq]
  have e4 : y.tmod 4 = 0 ↔ 4 ∣ y := (Int.dvd_iff_tmod_eq_zero).symm
  have e100 : y.tmod 100 = 0 ↔ 100 ∣ y := (Int.dvd_iff_tmod_eq_zero).symm
  have e400 : y.tmod 400 = 0 ↔ 400 ∣ y := (Int.dvd_iff_tmod_eq_zero).symm
  rw [ne_eq, e4, e100, e400]
  omega

theorem ndays_add (a b c : ℤ) : ndays a c = ndays a b + ndays b c := by
  unfold ndays; simp only; ring

theorem ndays_succ (y : ℤ) : ndays y (y + 1) = yearLength y := by
  unfold ndays yearLength Leap
  simp only
  split_ifs <;> omega

theorem ndays_le (y k : ℤ) (hk : 0 ≤ k) : ndays y (y + k) ≤ 366 * k := by
  unfold ndays; simp only; omega

def stdCount : DayCount where
  Y y := ndays 0 y
  M y m := month2doy (isleap y) m.toNat

theorem stdCount_ok : stdCount.Ok .standard where
  year y := by
    have h := ndays_add 0 y (y + 1)
    have h2 := ndays_succ y
    simp only [stdCount, monthLength]
    rw [h, h2]
    unfold yearLength month2doy
    by_cases hl : Leap y
    · rw [(isleap_iff y).2 hl]; simp [hl]; ring
    · have : isleap y = false := by
        rw [← Bool.not_eq_true, isleap_iff]; exact hl
      rw [this]; simp [hl]; ring
  month y m h1 h2 := by
    simp only [stdCount, monthLength]
    by_cases hl : Leap y
    · rw [(isleap_iff y).2 hl]; simp only [hl, if_true]
      interval_cases m <;> decide
    · have : isleap y = false := by
        rw [← Bool.not_eq_true, isleap_iff]; exact hl
      rw [this]; simp only [hl, if_false]
      interval_cases m <;> decide
  jan y := by
    simp only [stdCount, month2doy]; split_ifs <;> rfl

theorem wrapDy_zero {m : ℤ} (h1 : 1 ≤ m) (h2 : m ≤ 12) : wrapDy m = 0 := by
  unfold wrapDy; interval_cases m <;> decide

theorem wrapDy_eq (m : ℤ) : wrapDy m = (m - 1) / 12 := by
  unfold wrapDy
  split_ifs with h
  · rw [tdiv_nonpos' _ (by omega)]; omega
  · rw [tdiv_nonneg' _ (by omega)]

theorem wrapDy_add (m : ℤ) : wrapDy (m + 12) = wrapDy m + 1 := by
  rw [wrapDy_eq, wrapDy_eq]; omega

theorem dateAsValStd_eq {s d : Date} (hs : 1 ≤ s.month ∧ s.month ≤ 12)
    (hd : 1 ≤ d.month ∧ d.month ≤ 12) :
    dateAsValStd s d = some (stdCount.abs d - stdCount.abs s) := by
  unfold dateAsValStd
  rw [if_neg (by omega)]
  simp only [wrapDy_zero hd.1 hd.2, add_zero, zero_mul, sub_zero]
  have h := ndays_add 0 s.year d.year
  simp only [DayCount.abs, stdCount, refStd, h]
  congr 1; ring

theorem backUp_spec (s y : ℤ) : 0 ≤ (backUp s y).1 ∧
    ndays 0 (backUp s y).2 * 86400 + (backUp s y).1 = ndays 0 y * 86400 + s := by
  induction s, y using backUp.induct with
  | case1 s y h yback ih =>
    rw [backUp, dif_pos h]
    refine ⟨ih.1, ?_⟩
    have h2 := ndays_add 0 yback y
    have h3 := ih.2
    rw [h3, h2]; ring
  | case2 s y h =>
    rw [backUp, dif_neg h]
    exact ⟨by simp only; omega, rfl⟩

theorem stepYears_spec (d y : ℤ) (hd : 0 ≤ d) :
    0 ≤ (stepYears d y).1 ∧ (stepYears d y).1 < yearLength (stepYears d y).2 ∧
    ndays 0 (stepYears d y).2 + (stepYears d y).1 = ndays 0 y + d := by
  induction d, y using stepYears.induct with
  | case1 d y h ih =>
    rw [stepYears, dif_pos h]
    obtain ⟨h1, h2, h3⟩ := ih (by omega)
    refine ⟨h1, h2, ?_⟩
    rw [h3, ndays_add 0 y (y + 1)]; ring
  | case2 d y h =>
    rw [stepYears, dif_neg h]
    rw [ndays_succ] at h
    exact ⟨hd, by simp only; omega, rfl⟩

theorem month_table : ∀ (l : Bool) (d : Fin 366), (d.val < 365 ∨ l = true) →
    1 ≤ monthOfStd l d.val ∧ monthOfStd l d.val ≤ 12 ∧
    month2doy l (monthOfStd l d.val) ≤ d.val ∧
    (d.val : ℤ) - month2doy l (monthOfStd l d.val) + 1 ≤
      (if monthOfStd l d.val = 2 then (if l then 29 else 28)
        else if monthOfStd l d.val = 4 ∨ monthOfStd l d.val = 6 ∨ monthOfStd l d.val = 9 ∨
          monthOfStd l d.val = 11 then 30 else 31) := by
  decide +kernel

theorem tod_split {r : ℤ} (h0 : 0 ≤ r) (h1 : r < 86400) :
    (0 ≤ r.tdiv 3600 ∧ r.tdiv 3600 < 24) ∧
    (0 ≤ (r.tmod 3600).tdiv 60 ∧ (r.tmod 3600).tdiv 60 < 60) ∧
    (0 ≤ (r.tmod 3600).tmod 60 ∧ (r.tmod 3600).tmod 60 < 60) ∧
    r.tdiv 3600 * 3600 + (r.tmod 3600).tdiv 60 * 60 + (r.tmod 3600).tmod 60 = r := by
  have e1 : r.tdiv 3600 = r / 3600 := tdiv_nonneg' _ h0
  have e2 : r.tmod 3600 = r % 3600 := Int.tmod_eq_emod_of_nonneg h0
  rw [e1, e2]
  have h2 : 0 ≤ r % 3600 := by omega
  rw [tdiv_nonneg' _ h2, Int.tmod_eq_emod_of_nonneg h2]
  omega

theorem valAsDateStd_spec (s : Date) (hs : 1 ≤ s.month ∧ s.month ≤ 12) (v : ℤ) :
    ∃ d, valAsDateStd s v = some d ∧ ValidDate .standard d ∧
      stdCount.abs d = stdCount.abs s + v := by
  unfold valAsDateStd
  rw [if_neg (by omega)]
  obtain ⟨b1, b2⟩ := backUp_spec (v + refStd s) s.year
  generalize hsy : backUp (v + refStd s) s.year = sy at b1 b2
  have e1 : sy.1.tdiv 86400 = sy.1 / 86400 := tdiv_nonneg' _ b1
  have hd0 : 0 ≤ sy.1 / 86400 := by omega
  have e2 : (sy.1 / 86400).tdiv 366 = sy.1 / 86400 / 366 := tdiv_nonneg' _ hd0
  simp only [e1, e2]
  have hfw := ndays_le sy.2 (sy.1 / 86400 / 366) (by omega)
  have hadd := ndays_add 0 sy.2 (sy.2 + sy.1 / 86400 / 366)
  obtain ⟨c1, c2, c3⟩ := stepYears_spec
    (sy.1 / 86400 - ndays sy.2 (sy.2 + sy.1 / 86400 / 366)) (sy.2 + sy.1 / 86400 / 366) (by omega)
  generalize stepYears (sy.1 / 86400 - ndays sy.2 (sy.2 + sy.1 / 86400 / 366))
    (sy.2 + sy.1 / 86400 / 366) = dy at c1 c2 c3
  generalize hr : sy.1 - sy.1 / 86400 * 86400 = r
  obtain ⟨t1, t2, t3, t4⟩ := tod_split (r := r) (by omega) (by omega)
  have hlt : dy.1 < 366 := by unfold yearLength at c2; split_ifs at c2 <;> omega
  have hcast : ((dy.1.toNat : ℕ) : ℤ) = dy.1 := by omega
  have hcond : dy.1.toNat < 365 ∨ isleap dy.2 = true := by
    by_cases hl : Leap dy.2
    · right; exact (isleap_iff _).2 hl
    · left; unfold yearLength at c2; rw [if_neg hl] at c2; omega
  have tab := month_table (isleap dy.2) ⟨dy.1.toNat, by omega⟩ hcond
  simp only [hcast] at tab
  obtain ⟨m1, m2, m3, m4⟩ := tab
  generalize monthOfStd (isleap dy.2) dy.1 = m at m1 m2 m3 m4
  refine ⟨_, rfl, ⟨?_, ?_, t1, t2, t3⟩, ?_⟩
  · simp only; omega
  · simp only
    refine ⟨by omega, le_trans m4 (le_of_eq ?_)⟩
    unfold monthLength
    simp only
    have c2 : ((m : ℤ) = 2) ↔ m = 2 := by omega
    have c4 : ((m : ℤ) = 4) ↔ m = 4 := by omega
    have c6 : ((m : ℤ) = 6) ↔ m = 6 := by omega
    have c9 : ((m : ℤ) = 9) ↔ m = 9 := by omega
    have c11 : ((m : ℤ) = 11) ↔ m = 11 := by omega
    simp only [c2, c4, c6, c9, c11, isleap_iff]
  · simp only [DayCount.abs, stdCount, Int.toNat_natCast]
    have ht : ∀ a b c e f, tod ⟨a, b, c, r.tdiv 3600, e, f⟩ =
        r.tdiv 3600 * 3600 + e * 60 + f := fun _ _ _ _ _ => rfl
    rw [ht, t4]
    unfold refStd at b2
    linarith

/-! ### 365- and 360-day calendars -/

def noleapCount : DayCount where
  Y y := 365 * y
  M _ m := month2doy false m.toNat

theorem noleapCount_ok : noleapCount.Ok .noleap where
  year y := by
    simp only [noleapCount, monthLength]
    have : month2doy false (Int.toNat 12) = 334 := by decide
    rw [this]; norm_num; ring
  month y m h1 h2 := by
    simp only [noleapCount, monthLength]
    interval_cases m <;> decide
  jan y := by simp only [noleapCount]; rfl

def count360 : DayCount where
  Y y := 360 * y
  M _ m := 30 * (m - 1)

theorem count360_ok : count360.Ok .days360 where
  year y := by simp only [count360, monthLength]; ring
  month y m h1 h2 := by simp only [count360, monthLength]; ring
  jan y := by simp only [count360]; ring

theorem dateAsVal365_eq {s d : Date} (hs : 1 ≤ s.month ∧ s.month ≤ 12)
    (hd : 1 ≤ d.month ∧ d.month ≤ 12) :
    dateAsVal365 s d = some (noleapCount.abs d - noleapCount.abs s) := by
  unfold dateAsVal365
  rw [if_neg (by omega)]
  simp only [wrapDy_zero hd.1 hd.2, add_zero, zero_mul, sub_zero]
  simp only [DayCount.abs, noleapCount]
  congr 1; ring

theorem dateAsVal360_eq (s d : Date) :
    dateAsVal360 s d = count360.abs d - count360.abs s := by
  unfold dateAsVal360
  simp only [DayCount.abs, count360]
  ring

theorem splitDay_spec (x : ℤ) : (splitDay x).1 = x / 86400 ∧ (splitDay x).2 = x % 86400 := by
  unfold splitDay
  rcases le_or_gt 0 x with h | h
  · rw [tdiv_nonneg' _ h]; simp only; split_ifs <;> simp only [true_and, and_true] <;> omega
  · rw [tdiv_nonpos' _ (le_of_lt h)]; simp only; split_ifs <;> simp only [true_and, and_true] <;> omega

theorem fixedYear_spec365 (d y : ℤ) : 1 ≤ (fixedYear 365 d y).1 ∧ (fixedYear 365 d y).1 ≤ 365 ∧
    365 * (fixedYear 365 d y).2 + (fixedYear 365 d y).1 = 365 * y + d := by
  unfold fixedYear
  simp only
  rcases le_or_gt d 0 with h | h
  · simp only [if_pos h, tdiv_nonneg' _ (show (0 : ℤ) ≤ 365 - d by omega)]
    simp only [tdiv_nonneg' _ (show (0 : ℤ) ≤ d + 365 * ((365 - d) / 365) - 1 by omega)]
    split_ifs <;> simp only [true_and, and_true] <;> omega
  · simp only [if_neg (show ¬ d ≤ 0 by omega), tdiv_nonneg' _ (show (0 : ℤ) ≤ d - 1 by omega)]
    split_ifs <;> simp only [true_and, and_true] <;> omega

theorem fixedYear_spec360 (d y : ℤ) : 1 ≤ (fixedYear 360 d y).1 ∧ (fixedYear 360 d y).1 ≤ 360 ∧
    360 * (fixedYear 360 d y).2 + (fixedYear 360 d y).1 = 360 * y + d := by
  unfold fixedYear
  simp only
  rcases le_or_gt d 0 with h | h
  · simp only [if_pos h, tdiv_nonneg' _ (show (0 : ℤ) ≤ 360 - d by omega)]
    simp only [tdiv_nonneg' _ (show (0 : ℤ) ≤ d + 360 * ((360 - d) / 360) - 1 by omega)]
    split_ifs <;> simp only [true_and, and_true] <;> omega
  · simp only [if_neg (show ¬ d ≤ 0 by omega), tdiv_nonneg' _ (show (0 : ℤ) ≤ d - 1 by omega)]
    split_ifs <;> simp only [true_and, and_true] <;> omega

/-- the month of `val_as_date_365` from the day of the year -/
def monthOf365 (d : ℤ) : ℕ :=
  fixMonth365 d (if (d.tdiv 30 + 1).toNat > 12 then 12 else (d.tdiv 30 + 1).toNat)

theorem month_table365 : ∀ (d : Fin 366), 1 ≤ d.val →
    1 ≤ monthOf365 d.val ∧ monthOf365 d.val ≤ 12 ∧
    month2doy false (monthOf365 d.val) < d.val ∧
    (d.val : ℤ) - month2doy false (monthOf365 d.val) ≤
      monthLength .noleap 0 (monthOf365 d.val) := by
  decide +kernel

theorem valAsDate365_spec (s : Date) (hs : 1 ≤ s.month ∧ s.month ≤ 12) (v : ℤ) :
    ∃ d, valAsDate365 s v = some d ∧ ValidDate .noleap d ∧
      noleapCount.abs d = noleapCount.abs s + v := by
  unfold valAsDate365
  rw [if_neg (by omega)]
  obtain ⟨b1, b2⟩ := splitDay_spec
    (v + ((month2doy false s.month.toNat + s.day) * 86400 + tod s))
  generalize hx : v + ((month2doy false s.month.toNat + s.day) * 86400 + tod s) = x at b1 b2
  simp only [hx, b2]
  obtain ⟨c1, c2, c3⟩ := fixedYear_spec365 (splitDay x).1 s.year
  generalize fixedYear 365 (splitDay x).1 s.year = dy at c1 c2 c3 ⊢
  rw [b1] at c3
  obtain ⟨t1, t2, t3, t4⟩ := tod_split (r := x % 86400) (by omega) (by omega)
  have hcast : ((dy.1.toNat : ℕ) : ℤ) = dy.1 := by omega
  have tab := month_table365 ⟨dy.1.toNat, by omega⟩ (by simp only; omega)
  simp only [hcast] at tab
  obtain ⟨m1, m2, m3, m4⟩ := tab
  change ∃ d, some (Date.mk dy.2 (monthOf365 dy.1 : ℕ) (dy.1 - month2doy false (monthOf365 dy.1))
    _ _ _) = some d ∧ _
  generalize monthOf365 dy.1 = m at m1 m2 m3 m4
  refine ⟨_, rfl, ⟨?_, ?_, t1, t2, t3⟩, ?_⟩
  · simp only; omega
  · simp only
    exact ⟨by omega, m4⟩
  · simp only [DayCount.abs, noleapCount, Int.toNat_natCast]
    have ht : ∀ a b c e f, tod ⟨a, b, c, (x % 86400).tdiv 3600, e, f⟩ =
        (x % 86400).tdiv 3600 * 3600 + e * 60 + f := fun _ _ _ _ _ => rfl
    rw [ht, t4]
    omega

theorem valAsDate360_spec (s : Date) (v : ℤ) :
    ValidDate .days360 (valAsDate360 s v) ∧
      count360.abs (valAsDate360 s v) = count360.abs s + v := by
  unfold valAsDate360
  obtain ⟨b1, b2⟩ := splitDay_spec
    (v + (((s.month - 1) * 30 + s.day) * 86400 + tod s))
  generalize hx : v + (((s.month - 1) * 30 + s.day) * 86400 + tod s) = x at b1 b2
  simp only [hx, b2]
  obtain ⟨c1, c2, c3⟩ := fixedYear_spec360 (splitDay x).1 s.year
  generalize fixedYear 360 (splitDay x).1 s.year = dy at c1 c2 c3 ⊢
  rw [b1] at c3
  obtain ⟨t1, t2, t3, t4⟩ := tod_split (r := x % 86400) (by omega) (by omega)
  rw [tdiv_nonneg' _ (show (0 : ℤ) ≤ dy.1 - 1 by omega)]
  refine ⟨⟨?_, ?_, t1, t2, t3⟩, ?_⟩
  · simp only; omega
  · simp only [monthLength]; omega
  · simp only [DayCount.abs, count360]
    have ht : ∀ a b c e f, tod ⟨a, b, c, (x % 86400).tdiv 3600, e, f⟩ =
        (x % 86400).tdiv 3600 * 3600 + e * 60 + f := fun _ _ _ _ _ => rfl
    rw [ht, t4]
    omega

end PyGeode.Calendar
