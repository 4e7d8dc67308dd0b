/-
C142: the labels of a time plot.
-/
import Verif.Model.TimeLabels
import Verif.Spec.TimeLabels
import Verif.Props.DateText
import Verif.Props.TimeInit
import Verif.Props.OpenDapAtts
import Mathlib.Tactic.FieldSimp
import Mathlib.Tactic.IntervalCases
import Mathlib.Tactic.FinCases

namespace PyGeode
open Spec Calendar Cf DateText

namespace TimeLabels

/-! ### what the formats tell apart -/

theorem fmtInt_inj {x y : ℤ} : fmtInt 0 x = fmtInt 0 y ↔ x = y := by
  constructor
  · intro h
    have := OpenDap.pyInt_fmtInt x
    rw [h, OpenDap.pyInt_fmtInt] at this
    exact (Option.some_injective _ this).symm
  · rintro rfl; rfl

theorem day_inj {x y : ℤ} (hx : 1 ≤ x ∧ x ≤ 31) (hy : 1 ≤ y ∧ y ≤ 31) : fmtInt 0 x = fmtInt 0 y ↔ x = y := fmtInt_inj

theorem two_inj {x y : ℤ} (hx : 0 ≤ x ∧ x < 60) (hy : 0 ≤ y ∧ y < 60) : fmtInt 2 x = fmtInt 2 y ↔ x = y := by
  constructor
  · intro h
    have h1 := (digits_two hx).2
    rw [h, (digits_two hy).2] at h1
    exact h1.symm
  · rintro rfl; rfl

/-- `$Y` -/
def yearText (y : ℤ) : Name := if |y| < 100 then 'y' :: fmtInt 0 y else fmtInt 0 y

theorem fmtInt_head (y : ℤ) (t : Name) : fmtInt 0 y ≠ 'y' :: t := by
  intro h
  by_cases hy : 0 ≤ y
  · have := (fmtInt_spec 0 y hy).2.1 'y' (by rw [h]; simp)
    exact absurd this (by decide)
  · unfold fmtInt at h
    simp only [if_neg hy] at h
    have := congrArg List.head? h
    simp at this

theorem year_inj {x y : ℤ} : yearText x = yearText y ↔ x = y := by
  constructor
  · intro h
    unfold yearText at h
    split_ifs at h
    · exact fmtInt_inj.1 (List.cons.inj h).2
    · exact absurd h.symm (fmtInt_head _ _)
    · exact absurd h (fmtInt_head _ _)
    · exact fmtInt_inj.1 h
  · rintro rfl; rfl

/-- `$b` -/
def monthText (m : ℤ) : Name := months[m.toNat]?.getD []

theorem month_some {m : ℤ} (h : 1 ≤ m ∧ m ≤ 12) : months[m.toNat]? = some (monthText m) ∧ ' ' ∉ monthText m := by
  have : ∀ k : ℕ, k < 13 → months[k]? = some (months[k]?.getD []) ∧ ' ' ∉ months[k]?.getD [] := by decide
  exact this m.toNat (by omega)

theorem month_inj {x y : ℤ} (hx : 1 ≤ x ∧ x ≤ 12) (hy : 1 ≤ y ∧ y ≤ 12) : monthText x = monthText y ↔ x = y := by
  constructor
  · intro h
    have : ∀ j : ℕ, j < 13 → ∀ k : ℕ, k < 13 → months[j]?.getD [] = months[k]?.getD [] → j = k := by decide
    have := this x.toNat (by omega) y.toNat (by omega) h
    omega
  · rintro rfl; rfl

theorem sep_inj {x : Char} {l r l' r' : Name} (hl : x ∉ l) (hl' : x ∉ l') : l ++ x :: r = l' ++ x :: r' ↔ l = l' ∧ r = r' := by
  constructor
  · intro h
    obtain ⟨h1, h2⟩ := span_unique (p := fun c => decide (c ≠ x)) (fun c hc => decide_eq_true fun e => hl (e ▸ hc))
      (by simp) (fun c hc => decide_eq_true fun e => hl' (e ▸ hc)) (by simp) h
    exact ⟨h1, (List.cons.inj h2).2⟩
  · rintro ⟨rfl, rfl⟩; rfl

/-- the format is understood for dates of the calendar, and its texts tell apart what `P` tells apart -/
def Tells (c : Cal) (F : Name) (P : Date → Date → Prop) : Prop :=
  ∃ T : Date → Name, ∀ d, ValidDate c d → substitute (subs d) F = some (T d) ∧ ∀ e, ValidDate c e → (T d = T e ↔ P d e)

variable {c : Cal}

theorem day_range {d : Date} (h : ValidDate c d) : 1 ≤ d.day ∧ d.day ≤ 31 := ⟨h.day.1, h.day.2.trans (monthLength_le _ _ _)⟩
theorem hour_range {d : Date} (h : ValidDate c d) : 0 ≤ d.hour ∧ d.hour < 60 := ⟨h.hour.1, by have := h.hour.2; omega⟩

theorem day_space {d : Date} (h : ValidDate c d) : ' ' ∉ fmtInt 0 d.day := space_digits (digits_day (day_range h)).1

theorem two_colon {z : ℤ} (h : 0 ≤ z ∧ z < 60) : ':' ∉ fmtInt 2 z :=
  fun hm => absurd ((digits_two h).1.1 _ hm) (by decide)

theorem subs_d (d : Date) : subs d ['d'] = some (fmtInt 0 d.day) := rfl
theorem subs_b {d : Date} (h : ValidDate c d) : subs d ['b'] = some (monthText d.month) := by
  rw [← (month_some h.month).1]; rfl
theorem subs_Y (d : Date) : subs d ['Y'] = some (yearText d.year) := rfl
theorem subs_H (d : Date) : subs d ['H'] = some (fmtInt 2 d.hour) := rfl
theorem subs_M (d : Date) : subs d ['M'] = some (fmtInt 2 d.minute) := rfl
theorem subs_S (d : Date) : subs d ['S'] = some (fmtInt 2 d.second) := rfl

theorem tells_year : Tells c "$Y".toList fun d e => d.year = e.year := by
  refine ⟨fun d => yearText d.year, fun d _ => ⟨?_, fun e _ => year_inj⟩⟩
  have : substitute (subs d) "$Y".toList = (subs d ['Y']).bind fun y => (some []).map (y ++ ·) := rfl
  rw [this, subs_Y]
  simp

theorem tells_date : Tells c "$d $b $Y".toList fun d e => d.year = e.year ∧ d.month = e.month ∧ d.day = e.day := by
  refine ⟨fun d => fmtInt 0 d.day ++ ' ' :: (monthText d.month ++ ' ' :: yearText d.year), fun d hd => ⟨subst_date (subs_d d) (subs_b hd) (subs_Y d),
    fun e he => ?_⟩⟩
  dsimp only
  rw [sep_inj (day_space hd) (day_space he), sep_inj (month_some hd.month).2 (month_some he.month).2, fmtInt_inj, month_inj hd.month he.month, year_inj]
  tauto

theorem tells_month : Tells c "$b $Y".toList fun d e => d.year = e.year ∧ d.month = e.month := by
  refine ⟨fun d => monthText d.month ++ ' ' :: yearText d.year, fun d hd => ⟨?_, fun e he => ?_⟩⟩
  · have : substitute (subs d) "$b $Y".toList = (subs d ['b']).bind fun b => (((subs d ['Y']).bind fun y => (some []).map (y ++ ·)).map (' ' :: ·)).map (b ++ ·) := rfl
    rw [this, subs_b hd, subs_Y]
    simp
  · dsimp only
    rw [sep_inj (month_some hd.month).2 (month_some he.month).2, month_inj hd.month he.month, year_inj]
    tauto

theorem tells_day : Tells c "$d $b".toList fun d e => d.month = e.month ∧ d.day = e.day := by
  refine ⟨fun d => fmtInt 0 d.day ++ ' ' :: monthText d.month, fun d hd => ⟨?_, fun e he => ?_⟩⟩
  · have : substitute (subs d) "$d $b".toList = (subs d ['d']).bind fun a => (((subs d ['b']).bind fun b => (some []).map (b ++ ·)).map (' ' :: ·)).map (a ++ ·) := rfl
    rw [this, subs_b hd, subs_d]
    simp
  · dsimp only
    rw [sep_inj (day_space hd) (day_space he), month_inj hd.month he.month, fmtInt_inj]
    tauto

theorem tells_minute : Tells c "$H:$M".toList fun d e => d.hour = e.hour ∧ d.minute = e.minute := by
  refine ⟨fun d => fmtInt 2 d.hour ++ ':' :: fmtInt 2 d.minute, fun d hd => ⟨?_, fun e he => ?_⟩⟩
  · have : substitute (subs d) "$H:$M".toList = (subs d ['H']).bind fun a => (((subs d ['M']).bind fun b => (some []).map (b ++ ·)).map (':' :: ·)).map (a ++ ·) := rfl
    rw [this, subs_H, subs_M]
    simp
  · dsimp only
    rw [sep_inj (two_colon (hour_range hd)) (two_colon (hour_range he)), two_inj (hour_range hd) (hour_range he), two_inj hd.minute he.minute]

theorem tells_second : Tells c "$H:$M:$S".toList SameClock := by
  refine ⟨fun d => fmtInt 2 d.hour ++ ':' :: (fmtInt 2 d.minute ++ ':' :: fmtInt 2 d.second), fun d hd => ⟨?_, fun e he => ?_⟩⟩
  · have : substitute (subs d) "$H:$M:$S".toList = (subs d ['H']).bind fun a => ((((subs d ['M']).bind fun b => (((subs d ['S']).bind fun s =>
      (some []).map (s ++ ·)).map (':' :: ·)).map (b ++ ·)).map (':' :: ·)).map (a ++ ·)) := rfl
    rw [this, subs_H, subs_M, subs_S]
    simp
  · dsimp only
    rw [sep_inj (two_colon (hour_range hd)) (two_colon (hour_range he)), sep_inj (two_colon hd.minute) (two_colon he.minute),
      two_inj (hour_range hd) (hour_range he), two_inj hd.minute he.minute, two_inj hd.second he.second]
    rfl

theorem tells_none : Tells c [] fun _ _ => True := ⟨fun _ => [], fun _ _ => ⟨rfl, fun _ _ => by simp⟩⟩

/-! ### the format that is chosen -/

theorem range_none (c : Cal) : autoformatRange (autofmts c) none = some ("$H:$M:$S".toList, "$d $b $Y".toList) := by
  cases c <;> rfl

theorem yearDays_large (c : Cal) : (30 : ℚ) < yearDays c := by cases c <;> norm_num [yearDays]

theorem auto_eq (c : Cal) (S : ℚ) : autoformatRange (autofmts c) (some S) =
    if yearDays c ≤ |S| * (11 / 10) then some ("$Y".toList, [])
    else if 30 ≤ |S| * (11 / 10) then some (if c = .days360 then "$b $Y".toList else "$d $b $Y".toList, [])
    else if 1 ≤ |S| * (11 / 10) then some ("$d $b".toList, "$Y".toList)
    else if 1 / 24 ≤ |S| * (11 / 10) then some ("$H:$M".toList, "$d $b $Y".toList)
    else some ("$H:$M:$S".toList, "$d $b $Y".toList) := by
  cases c <;> rfl

/-- the format and the offset for a mean distance -/
theorem range_some (c : Cal) {S : ℚ} (hS : 0 ≤ S) : ∃ F O, autoformatRange (autofmts c) (some S) = some (F, O) ∧
    Tells c F (SameShown c S) ∧ O = (if 30 ≤ 11 / 10 * S then [] else if 1 ≤ 11 / 10 * S then "$Y".toList else "$d $b $Y".toList) := by
  have hmul : |S| * (11 / 10) = 11 / 10 * S := by rw [abs_of_nonneg hS]; ring
  have hy := yearDays_large c
  have hor : (c = .days360 ∨ c ≠ .days360) := em _
  by_cases h1 : yearDays c ≤ 11 / 10 * S
  · refine ⟨"$Y".toList, [], ?_, ?_, ?_⟩
    · rw [auto_eq, hmul, if_pos h1]
    · obtain ⟨T, hT⟩ := tells_year (c := c)
      refine ⟨T, fun d hd => ⟨(hT d hd).1, fun e he => ((hT d hd).2 e he).trans ⟨fun h => ⟨fun _ => h, ?_, ?_, ?_, ?_⟩, fun h => h.1 h1⟩⟩⟩ <;>
        intros <;> exfalso <;> linarith
    · rw [if_pos (by linarith)]
  by_cases h2 : 30 ≤ 11 / 10 * S
  · by_cases hc : c = .days360
    · refine ⟨"$b $Y".toList, [], ?_, ?_, ?_⟩
      · rw [auto_eq, hmul, if_neg h1, if_pos h2, if_pos hc]
      · obtain ⟨T, hT⟩ := tells_month (c := c)
        refine ⟨T, fun d hd => ⟨(hT d hd).1, fun e he => ((hT d hd).2 e he).trans ⟨fun h => ⟨?_, fun _ _ => ⟨h.1, h.2, fun h' => absurd hc h'⟩, ?_, ?_, ?_⟩,
          fun h => ⟨(h.2.1 (not_le.1 h1) h2).1, (h.2.1 (not_le.1 h1) h2).2.1⟩⟩⟩⟩ <;> intros <;> exfalso <;> linarith
      · rw [if_pos h2]
    · refine ⟨"$d $b $Y".toList, [], ?_, ?_, ?_⟩
      · rw [auto_eq, hmul, if_neg h1, if_pos h2, if_neg hc]
      · obtain ⟨T, hT⟩ := tells_date (c := c)
        refine ⟨T, fun d hd => ⟨(hT d hd).1, fun e he => ((hT d hd).2 e he).trans ⟨fun h => ⟨?_, fun _ _ => ⟨h.1, h.2.1, fun _ => h.2.2⟩, ?_, ?_, ?_⟩,
          fun h => ⟨(h.2.1 (not_le.1 h1) h2).1, (h.2.1 (not_le.1 h1) h2).2.1, (h.2.1 (not_le.1 h1) h2).2.2 hc⟩⟩⟩⟩ <;> intros <;> exfalso <;> linarith
      · rw [if_pos h2]
  by_cases h3 : 1 ≤ 11 / 10 * S
  · refine ⟨"$d $b".toList, "$Y".toList, ?_, ?_, ?_⟩
    · rw [auto_eq, hmul, if_neg h1, if_neg h2, if_pos h3]
    · obtain ⟨T, hT⟩ := tells_day (c := c)
      refine ⟨T, fun d hd => ⟨(hT d hd).1, fun e he => ((hT d hd).2 e he).trans ⟨fun h => ⟨?_, ?_, fun _ _ => h, ?_, ?_⟩,
        fun h => h.2.2.1 (not_le.1 h2) h3⟩⟩⟩ <;> intros <;> exfalso <;> linarith
    · rw [if_neg h2, if_pos h3]
  by_cases h4 : 1 / 24 ≤ 11 / 10 * S
  · refine ⟨"$H:$M".toList, "$d $b $Y".toList, ?_, ?_, ?_⟩
    · rw [auto_eq, hmul, if_neg h1, if_neg h2, if_neg h3, if_pos h4]
    · obtain ⟨T, hT⟩ := tells_minute (c := c)
      refine ⟨T, fun d hd => ⟨(hT d hd).1, fun e he => ((hT d hd).2 e he).trans ⟨fun h => ⟨?_, ?_, ?_, fun _ _ => h, ?_⟩,
        fun h => h.2.2.2.1 (not_le.1 h3) h4⟩⟩⟩ <;> intros <;> exfalso <;> linarith
    · rw [if_neg h2, if_neg h3]
  · refine ⟨"$H:$M:$S".toList, "$d $b $Y".toList, ?_, ?_, ?_⟩
    · rw [auto_eq, hmul, if_neg h1, if_neg h2, if_neg h3, if_neg h4]
    · obtain ⟨T, hT⟩ := tells_second (c := c)
      refine ⟨T, fun d hd => ⟨(hT d hd).1, fun e he => ((hT d hd).2 e he).trans ⟨fun h => ⟨?_, ?_, ?_, ?_, fun _ => h⟩,
        fun h => h.2.2.2.2 (not_le.1 h4)⟩⟩⟩ <;> intros <;> exfalso <;> linarith
    · rw [if_neg h2, if_neg h3]

/-! ### the labels of an axis -/

theorem fold_max (x : ℚ) (l : List ℚ) : l.foldl max x ∈ x :: l ∧ ∀ y ∈ x :: l, y ≤ l.foldl max x := by
  induction l generalizing x with
  | nil => simp
  | cons a l ih =>
    obtain ⟨h1, h2⟩ := ih (max x a)
    rw [List.foldl_cons]
    constructor
    · rcases List.mem_cons.1 h1 with h | h
      · rw [h]; rcases max_choice x a with e | e <;> rw [e] <;> simp
      · exact List.mem_cons_of_mem _ (List.mem_cons_of_mem _ h)
    · intro y hy
      rcases List.mem_cons.1 hy with rfl | hy
      · exact (le_max_left _ _).trans (h2 _ (List.mem_cons_self ..))
      · rcases List.mem_cons.1 hy with rfl | hy
        · exact (le_max_right _ _).trans (h2 _ (List.mem_cons_self ..))
        · exact h2 _ (List.mem_cons_of_mem _ hy)

theorem fold_min (x : ℚ) (l : List ℚ) : l.foldl min x ∈ x :: l ∧ ∀ y ∈ x :: l, l.foldl min x ≤ y := by
  induction l generalizing x with
  | nil => simp
  | cons a l ih =>
    obtain ⟨h1, h2⟩ := ih (min x a)
    rw [List.foldl_cons]
    constructor
    · rcases List.mem_cons.1 h1 with h | h
      · rw [h]; rcases min_choice x a with e | e <;> rw [e] <;> simp
      · exact List.mem_cons_of_mem _ (List.mem_cons_of_mem _ h)
    · intro y hy
      rcases List.mem_cons.1 hy with rfl | hy
      · exact (h2 _ (List.mem_cons_self ..)).trans (min_le_left _ _)
      · rcases List.mem_cons.1 hy with rfl | hy
        · exact (h2 _ (List.mem_cons_self ..)).trans (min_le_right _ _)
        · exact h2 _ (List.mem_cons_of_mem _ hy)

theorem ticks_eq (u : Units) : unitfactor u = ticks u := by cases u <;> norm_num [unitfactor, ticks]

theorem delt_eq {u : Units} {x : ℚ} {l : List ℚ} (hl : l ≠ []) {S : ℚ} (hS : MeanSpacing u (x :: l) S) : delt u x l = some S ∧ 0 ≤ S := by
  obtain ⟨a, ha, b, hb, hab, e⟩ := hS
  have e1 : l.foldl max x = b := le_antisymm (hab _ (fold_max x l).1).2 ((fold_max x l).2 _ hb)
  have e2 : l.foldl min x = a := le_antisymm ((fold_min x l).2 _ ha) (hab _ (fold_min x l).1).1
  have hn : (0 : ℚ) < l.length := by exact_mod_cast List.length_pos_of_ne_nil hl
  have e' : S * l.length = (b - a) * ticks u / 86400 := by
    have : ((x :: l).length : ℚ) - 1 = l.length := by simp
    rw [this] at e
    rw [e]; norm_num
  have hu := TimeInit.ticks_pos u
  have h0 : 0 ≤ (b - a) * ticks u / 86400 := by
    have := (hab b hb).1
    have : 0 ≤ b - a := by linarith
    positivity
  refine ⟨?_, ?_⟩
  · unfold delt
    rw [if_neg hl, e1, e2, ticks_eq]
    congr 1
    field_simp
    field_simp at e'
    linarith
  · by_contra hneg
    have : S * l.length < 0 := mul_neg_of_neg_of_pos (not_le.1 hneg) hn
    linarith

theorem tick_date {c : Cal} {start : Date} (hs : ValidDate c start) (u : Units) (x : ℚ) :
    ∃ d, DateOfTick c start u x d ∧ ∀ fmt, formatvalue c start u x fmt = substitute (subs d) fmt := by
  obtain ⟨d, h1, h2, h3⟩ := TimeInit.val_date hs u x
  refine ⟨d, ⟨h2, _, (TimeInit.elapsed_iff hs h2 _).2 h3, npRound_near _⟩, fun fmt => ?_⟩
  unfold formatvalue
  have h1' : valAsDatePy c (full start) x u false = some (fullDate d) := h1
  rw [h1', Option.bind_some]
  rfl

/-- what the text beside the axis says: nothing, or the year, or the day, of the first tick -/
def _root_.PyGeode.Spec.OffsetText (O : Name) (S : ℚ) (d : Date) : Prop :=
  (30 ≤ 11 / 10 * S → O = []) ∧
  (11 / 10 * S < 30 → 1 ≤ 11 / 10 * S → 100 ≤ d.year → WrittenDate O { year := some d.year }) ∧
  (11 / 10 * S < 1 → 100 ≤ d.year → WrittenDate O { year := some d.year, month := some d.month, day := some d.day })

theorem year_written {d : Date} (hy : 100 ≤ d.year) : WrittenDate (yearText d.year) { year := some d.year } := by
  obtain ⟨y1, y2⟩ := digits_fmt 0 d.year (by omega) none (by simp)
  have := WrittenDate.year (fmtInt 0 d.year) y1
  rw [y2] at this
  unfold yearText
  rwa [if_neg (by rw [abs_of_nonneg (by omega)]; omega)]

theorem date_written {d : Date} (hd : ValidDate c d) (hy : 100 ≤ d.year) : ∃ O, substitute (subs d) "$d $b $Y".toList = some O ∧
    WrittenDate O { year := some d.year, month := some d.month, day := some d.day } := by
  obtain ⟨w, w1, w2⟩ := month_name hd.month
  obtain ⟨d1, d2⟩ := digits_day ⟨hd.day.1, hd.day.2.trans (monthLength_le _ _ _)⟩
  obtain ⟨y1, y2⟩ := digits_fmt 0 d.year (by omega) none (by simp)
  have hb : subs d ['b'] = some w := by rw [← w1]; rfl
  have hY : subs d ['Y'] = some (fmtInt 0 d.year) := by
    rw [subs_Y]; unfold yearText; rw [if_neg (by rw [abs_of_nonneg (by omega)]; omega)]
  refine ⟨_, subst_date (subs_d d) hb hY, ?_⟩
  have := WrittenDate.named [] (fmtInt 0 d.day) w (fmtInt 0 d.year) d.month none none none .none d1 w2 y1
  rwa [d2, y2] at this

theorem mapM_dates {start : Date} (hs : ValidDate c start) (u : Units) {F : Name} {P : Date → Date → Prop} (hF : Tells c F P) (locs : List ℚ) :
    ∃ ls ds, locs.mapM (fun x => formatvalue c start u x F) = some ls ∧ List.Forall₂ (DateOfTick c start u) locs ds ∧ ls.length = locs.length ∧
      (∀ x d, locs.head? = some x → ds.head? = some d → ∀ fmt, formatvalue c start u x fmt = substitute (subs d) fmt) ∧
      ∀ (i j : ℕ) (d e : Date) (l m : Name), ds[i]? = some d → ds[j]? = some e → ls[i]? = some l → ls[j]? = some m → (l = m ↔ P d e) := by
  obtain ⟨T, hT⟩ := hF
  choose g hg1 hg2 using fun x => tick_date hs u x
  have hd : List.Forall₂ (DateOfTick c start u) locs (locs.map g) := by
    rw [List.forall₂_map_right_iff, List.forall₂_same]; exact fun x _ => hg1 x
  refine ⟨locs.map fun x => T (g x), locs.map g, ?_, hd, by simp, ?_, ?_⟩
  · rw [TimeInit.mapM_forall, List.forall₂_map_right_iff, List.forall₂_same]
    intro x _
    rw [hg2 x, (hT _ (hg1 x).1).1]
  · intro x d hx hdd
    rw [List.head?_map, hx] at hdd
    obtain rfl := Option.some_injective _ hdd
    exact hg2 x
  · intro i j d e l m hi hj hl hm
    rw [List.getElem?_map] at hi hj hl hm
    cases hx : locs[i]? with
    | none => rw [hx] at hi; simp at hi
    | some x =>
      cases hy : locs[j]? with
      | none => rw [hy] at hj; simp at hj
      | some y =>
        rw [hx] at hi hl; rw [hy] at hj hm
        simp only [Option.map_some, Option.some_inj] at hi hj hl hm
        subst hi hj hl hm
        exact (hT _ (hg1 x).1).2 _ (hg1 y).1

theorem labels_eq {start : Date} {u : Units} {f : Formatter} (hf : f.auto = true) {x : ℚ} {l : List ℚ} {F O : Name}
    (h : autoformatRange (autofmts c) (delt u x l) = some (F, O)) {o : Name} (ho : formatvalue c start u x O = some o) {ls : List Name}
    (hl : (x :: l).mapM (fun x => formatvalue c start u x F) = some ls) : labels c start u f (x :: l) = some (ls, o) := by
  have hp : pick c u f x l = { f with fmt := some F, ofsfmt := some O } := by
    unfold pick
    rw [if_pos hf, h]
  simp only [labels, setLocs, hp, Option.getD_some, ho, Option.map_some, Option.bind_some]
  have : (call c start u { fmt := some F, ofsfmt := some O, auto := f.auto, offset := o } : ℚ → Option Name) =
      fun x => formatvalue c start u x F := rfl
  rw [this, hl]
  rfl

/-- **C142.** The labels of two or more ticks, whatever was plotted before: there is one for every tick, and two of them are the same exactly if the dates of
the ticks agree in what is shown for the mean distance of the ticks. The text beside the axis completes what the first label leaves out. -/
theorem labels_correct (c : Cal) (start : Date) (hs : ValidDate c start) (u : Units) (f : Formatter) (hf : f.auto = true) (locs : List ℚ)
    (h2 : 2 ≤ locs.length) (S : ℚ) (hS : MeanSpacing u locs S) :
    ∃ ls o ds, labels c start u f locs = some (ls, o) ∧ List.Forall₂ (DateOfTick c start u) locs ds ∧ ls.length = locs.length ∧
      (∀ (i j : ℕ) (d e : Date) (l m : Name), ds[i]? = some d → ds[j]? = some e → ls[i]? = some l → ls[j]? = some m → (l = m ↔ SameShown c S d e)) ∧
      ∀ d, ds.head? = some d → OffsetText o S d := by
  match locs, h2 with
  | x :: l, h2 =>
    have hl : l ≠ [] := by rintro rfl; simp at h2
    obtain ⟨e1, h0⟩ := delt_eq hl hS
    obtain ⟨F, O, h3, h4, h5⟩ := range_some c h0
    obtain ⟨ls, ds, k1, k2, k3, k4, k5⟩ := mapM_dates hs u h4 (x :: l)
    obtain ⟨d, ds', rfl⟩ : ∃ d ds', ds = d :: ds' := by cases k2; exact ⟨_, _, rfl⟩
    have hd : ValidDate c d := by cases k2 with | cons h _ => exact h.1
    have hx := k4 x d rfl rfl
    have hO : ∃ o, formatvalue c start u x O = some o ∧ OffsetText o S d := by
      rw [hx, h5]
      split_ifs with c1 c2
      · exact ⟨[], rfl, fun _ => rfl, fun h => absurd c1 (not_le.2 h), fun h => absurd h (by linarith)⟩
      · refine ⟨yearText d.year, ?_, fun h => absurd h c1, fun _ _ hy => year_written hy, fun h => absurd h (by linarith)⟩
        have : substitute (subs d) "$Y".toList = (subs d ['Y']).bind fun y => (some []).map (y ++ ·) := rfl
        rw [this, subs_Y]
        simp
      · obtain ⟨T, hT⟩ := tells_date (c := c)
        refine ⟨T d, (hT d hd).1, fun h => absurd h c1, fun _ h => absurd h c2, fun _ hy => ?_⟩
        obtain ⟨o, o1, o2⟩ := date_written hd hy
        rw [(hT d hd).1] at o1
        rwa [Option.some_injective _ o1]
    obtain ⟨o, o1, o2⟩ := hO
    rw [← e1] at h3
    refine ⟨ls, o, d :: ds', labels_eq hf h3 o1 k1, k2, k3, k5, ?_⟩
    intro d' hd'
    obtain rfl := Option.some_injective _ hd'
    exact o2

/-- **C142.** One tick: its label shows the time of the day, and the text beside the axis is its date. No ticks: no labels, no text. -/
theorem labels_single (c : Cal) (start : Date) (hs : ValidDate c start) (u : Units) (f : Formatter) (hf : f.auto = true) (x y : ℚ) :
    labels c start u f [] = some ([], []) ∧
    ∃ l m o p d e, labels c start u f [x] = some ([l], o) ∧ labels c start u f [y] = some ([m], p) ∧ DateOfTick c start u x d ∧
      DateOfTick c start u y e ∧ (l = m ↔ SameClock d e) ∧ (o = p ↔ d.year = e.year ∧ d.month = e.month ∧ d.day = e.day) ∧
      (100 ≤ d.year → WrittenDate o { year := some d.year, month := some d.month, day := some d.day }) := by
  refine ⟨rfl, ?_⟩
  obtain ⟨d, d1, d2⟩ := tick_date hs u x
  obtain ⟨e, e1, e2⟩ := tick_date hs u y
  obtain ⟨T, hT⟩ := tells_second (c := c)
  obtain ⟨U, hU⟩ := tells_date (c := c)
  have key : ∀ (z : ℚ) (t : Date), ValidDate c t → (∀ fmt, formatvalue c start u z fmt = substitute (subs t) fmt) →
      labels c start u f [z] = some ([T t], U t) := by
    intro z t ht hz
    refine labels_eq hf (F := "$H:$M:$S".toList) (O := "$d $b $Y".toList) ?_ ((hz _).trans (hU t ht).1) ?_
    · rw [delt, if_pos rfl, range_none]
    · rw [TimeInit.mapM_forall]
      exact .cons ((hz _).trans (hT t ht).1) .nil
  refine ⟨_, _, _, _, d, e, key x d d1.1 d2, key y e e1.1 e2, d1, e1, (hT d d1.1).2 e e1.1, (hU d d1.1).2 e e1.1, fun hy => ?_⟩
  obtain ⟨o, o1, o2⟩ := date_written d1.1 hy
  rw [(hU d d1.1).1] at o1
  rwa [Option.some_injective _ o1]

/-- **C142.** A format given by the user is used for every tick, and nothing is written beside the axis. -/
theorem labels_fixed (c : Cal) (start : Date) (hs : ValidDate c start) (u : Units) (plotfmt plotofsfmt : Option Name) (F : Name) (auto : Bool)
    (locs : List ℚ) : labels c start u (init plotfmt plotofsfmt (some F) none auto) locs =
      (locs.mapM fun x => formatvalue c start u x F).map fun ls => (ls, []) := by
  cases locs with
  | nil => rfl
  | cons x l =>
    obtain ⟨d, _, hd⟩ := tick_date hs u x
    have ho : formatvalue c start u x [] = some [] := by rw [hd]; rfl
    have hp : pick c u (init plotfmt plotofsfmt (some F) none auto) x l = ⟨some F, some [], false, []⟩ := rfl
    simp only [labels, setLocs, hp, Option.getD_some, ho, Option.map_some, Option.bind_some]
    rfl

/-! ### ticks at beginnings of months -/

/-- days up to month number `q` -/
def dayOf (c : Cal) (q : ℤ) : ℤ := (count c).Y (q / 12) + (count c).M (q / 12) (q % 12 + 1)

theorem abs_firstOf (c : Cal) (q : ℤ) : (count c).abs (firstOf q) = dayOf c q * 86400 := by
  simp only [DayCount.abs, firstOf, tod, dayOf]; ring

theorem firstOf_valid (c : Cal) (q : ℤ) : ValidDate c (firstOf q) where
  month := by simp only [firstOf]; omega
  day := ⟨le_refl _, by have := monthLength_pos c (firstOf q).year (firstOf q).month; simp only [firstOf] at this ⊢; omega⟩
  hour := ⟨le_refl _, by simp [firstOf]⟩
  minute := ⟨le_refl _, by simp [firstOf]⟩
  second := ⟨le_refl _, by simp [firstOf]⟩

theorem dayOf_step (c : Cal) (q : ℤ) : dayOf c (q + 1) = dayOf c q + monthLength c (q / 12) (q % 12 + 1) := by
  unfold dayOf
  by_cases h : q % 12 = 11
  · have e1 : (q + 1) / 12 = q / 12 + 1 := by omega
    have e2 : (q + 1) % 12 + 1 = 1 := by omega
    rw [e1, e2, h, (count_ok c).jan, (count_ok c).year]
    norm_num
  · have e1 : (q + 1) / 12 = q / 12 := by omega
    have e2 : (q + 1) % 12 + 1 = q % 12 + 1 + 1 := by omega
    rw [e1, e2, (count_ok c).month _ _ (by omega) (by omega)]
    ring

theorem dayOf_bounds (c : Cal) (q : ℤ) (k : ℕ) : dayOf c q + 28 * k ≤ dayOf c (q + k) ∧ dayOf c (q + k) ≤ dayOf c q + 31 * k := by
  induction k with
  | zero => simp
  | succ k ih =>
    have h1 := dayOf_step c (q + k)
    have h2 := monthLength_pos c ((q + k) / 12) ((q + k) % 12 + 1)
    have h3 := monthLength_le c ((q + k) / 12) ((q + k) % 12 + 1)
    push_cast
    rw [← add_assoc, h1]
    omega

/-- a month of a common year -/
theorem month_least (c : Cal) (y m : ℤ) : (if c = .days360 then 30 else if m = 2 then 28 else if m = 4 ∨ m = 6 ∨ m = 9 ∨ m = 11 then 30 else 31) ≤
    monthLength c y m := by
  unfold monthLength
  cases c <;> simp only [reduceCtorEq, if_false, if_true] <;> (try split_ifs) <;> omega

/-- the least length of a month, the first being 0 -/
def least (c : Cal) (m : ℕ) : ℤ := if c = .days360 then 30 else if m = 1 then 28 else if m = 3 ∨ m = 5 ∨ m = 8 ∨ m = 10 then 30 else 31

theorem dayOf_least (c : Cal) (q : ℤ) (k : ℕ) : dayOf c q + ((List.range k).map fun i => least c (((q % 12).toNat + i) % 12)).sum ≤ dayOf c (q + k) := by
  induction k with
  | zero => simp
  | succ k ih =>
    rw [List.range_succ, List.map_append, List.sum_append]
    have e : q + ((k + 1 : ℕ) : ℤ) = q + k + 1 := by push_cast; ring
    rw [e, dayOf_step]
    have h1 := month_least c ((q + k) / 12) ((q + k) % 12 + 1)
    have h2 : (((q % 12).toNat + k) % 12 : ℕ) = ((q + k) % 12).toNat := by omega
    have h3 : least c (((q % 12).toNat + k) % 12) ≤ monthLength c ((q + k) / 12) ((q + k) % 12 + 1) := by
      rw [h2]
      refine le_trans (le_of_eq ?_) h1
      unfold least
      split_ifs <;> omega
    simp only [List.map_cons, List.map_nil, List.sum_cons, List.sum_nil]
    omega

theorem dayOf_year (c : Cal) (q : ℤ) : dayOf c q + (if c = .days360 then 360 else 365) ≤ dayOf c (q + 12) := by
  have h := dayOf_least c q 12
  have key : ∀ r : ℕ, r < 12 → (if c = .days360 then 360 else 365) = ((List.range 12).map fun i => least c ((r + i) % 12)).sum := by
    cases c <;> decide
  rw [← key (q % 12).toNat (by omega)] at h
  exact h

theorem dayOf_sum (c : Cal) (q k A B : ℤ) (hA : ∀ p, dayOf c p + A ≤ dayOf c (p + k)) (hB : ∀ p, dayOf c (p + k) ≤ dayOf c p + B) (n : ℕ) :
    dayOf c q + A * n ≤ dayOf c (q + k * n) ∧ dayOf c (q + k * n) ≤ dayOf c q + B * n := by
  induction n with
  | zero => simp
  | succ n ih =>
    have h1 := hA (q + k * n)
    have h2 := hB (q + k * n)
    have e : q + k * ((n + 1 : ℕ) : ℤ) = q + k * n + k := by push_cast; ring
    rw [e]
    push_cast
    constructor <;> linarith [ih.1, ih.2]

theorem exact_date {start : Date} (hs : ValidDate c start) {u : Units} {x : ℚ} {d e : Date} (h : ExactlyAt c start u x e) (he : ValidDate c e)
    (hd : DateOfTick c start u x d) : d = e := by
  obtain ⟨n, h1, h2⟩ := h
  obtain ⟨hv, m, h3, h4⟩ := hd
  rw [TimeInit.elapsed_iff hs he] at h2
  rw [TimeInit.elapsed_iff hs hv] at h3
  have hmn : m = n := by
    rw [h1] at h4
    have h5 : |((m - n : ℤ) : ℚ)| ≤ 1 / 2 := by push_cast; exact h4
    rw [← Int.cast_abs] at h5
    have h6 : ((|m - n| : ℤ) : ℚ) < ((1 : ℤ) : ℚ) := by push_cast at h5 ⊢; linarith
    have h7 := Int.cast_lt.1 h6
    have := abs_lt.1 h7
    omega
  exact (count_ok c).abs_inj hv he (by omega)

/-- **C142.** Ticks at beginnings of months, the same number of months apart (not 11), have different labels: every month, every season, every year, every ten
years, in every calendar. -/
theorem month_labels_distinct (c : Cal) (start : Date) (hs : ValidDate c start) (u : Units) (f : Formatter) (hf : f.auto = true) (q k : ℤ) (hk : 1 ≤ k)
    (h11 : k ≠ 11) (n : ℕ) (v : ℕ → ℚ) (hv : ∀ i < n, ExactlyAt c start u (v i) (firstOf (q + k * i))) :
    ∃ ls o, labels c start u f ((List.range n).map v) = some (ls, o) ∧ ls.length = n ∧ ls.Nodup := by
  match n, hv with
  | 0, _ => exact ⟨[], [], (labels_single c start hs u f hf 0 0).1, rfl, List.nodup_nil⟩
  | 1, _ =>
    obtain ⟨l, -, o, -, -, -, h, -⟩ := (labels_single c start hs u f hf (v 0) 0).2
    exact ⟨[l], o, h, rfl, List.nodup_singleton l⟩
  | n + 2, hv =>
    have hu := TimeInit.ticks_pos u
    have val : ∀ i < n + 2, v i * ticks u = ((dayOf c (q + k * i) * 86400 - (count c).abs start : ℤ) : ℚ) := by
      intro i hi
      obtain ⟨m, h1, h2⟩ := hv i hi
      rw [TimeInit.elapsed_iff hs (firstOf_valid c _), abs_firstOf] at h2
      rw [h1, h2]
    have mono : ∀ (p : ℤ) (j : ℕ), dayOf c p ≤ dayOf c (p + j) := fun p j => by have := (dayOf_bounds c p j).1; omega
    obtain ⟨kn, rfl⟩ : ∃ kn : ℕ, k = kn := ⟨k.toNat, by omega⟩
    have le : ∀ i j : ℕ, i ≤ j → j < n + 2 → v i ≤ v j := by
      intro i j hij hj
      have h1 : v i * ticks u ≤ v j * ticks u := by
        rw [val i (by omega), val j hj]
        have := mono (q + kn * i) (kn * (j - i))
        have e : q + (kn : ℤ) * i + ((kn * (j - i) : ℕ) : ℤ) = q + kn * j := by push_cast [Nat.cast_sub hij]; ring
        rw [e] at this
        exact_mod_cast (by omega : dayOf c (q + kn * i) * 86400 - (count c).abs start ≤ dayOf c (q + kn * j) * 86400 - (count c).abs start)
      exact le_of_mul_le_mul_right h1 hu
    set S : ℚ := ((dayOf c (q + kn * (n + 1 : ℕ)) - dayOf c q : ℤ) : ℚ) / (n + 1 : ℕ) with hSdef
    have hn0 : (0 : ℚ) < (n + 1 : ℕ) := by exact_mod_cast Nat.succ_pos n
    have hS : MeanSpacing u ((List.range (n + 2)).map v) S := by
      refine ⟨v 0, List.mem_map.2 ⟨0, by simp, rfl⟩, v (n + 1), List.mem_map.2 ⟨n + 1, by simp, rfl⟩, ?_, ?_⟩
      · intro x hx
        obtain ⟨i, hi, rfl⟩ := List.mem_map.1 hx
        have hi := List.mem_range.1 hi
        exact ⟨le 0 i (by omega) hi, le i (n + 1) (by omega) (by omega)⟩
      · rw [List.length_map, List.length_range, sub_mul, val 0 (by omega), val (n + 1) (by omega)]
        have e0 : q + (kn : ℤ) * (0 : ℕ) = q := by simp
        rw [e0]
        have e1 : ((n + 2 : ℕ) : ℚ) - 1 = (n + 1 : ℕ) := by push_cast; ring
        rw [e1, hSdef, div_mul_cancel₀ _ hn0.ne']
        push_cast
        ring
    obtain ⟨ls, o, ds, h1, h2, h3, h4, -⟩ := labels_correct c start hs u f hf _ (by simp) S hS
    rw [List.length_map, List.length_range] at h3
    refine ⟨ls, o, h1, h3, ?_⟩
    rw [List.nodup_iff_getElem?_ne_getElem?]
    intro i j hij hj heq
    have date : ∀ i < n + 2, ds[i]? = some (firstOf (q + kn * i)) := by
      intro i hi
      have hlen := h2.length_eq
      rw [List.length_map, List.length_range] at hlen
      have hd : ds[i]? = some ds[i] := List.getElem?_eq_getElem (by omega)
      have := List.forall₂_iff_get.1 h2
      have h5 := this.2 i (by simpa using hi) (by omega)
      simp only [List.get_eq_getElem, List.getElem_map, List.getElem_range] at h5
      rw [hd, exact_date hs (hv i hi) (firstOf_valid c _) h5]
    have hi' : i < n + 2 := by omega
    have hj' : j < n + 2 := by omega
    have hl : ls[i]? = some ls[i] := List.getElem?_eq_getElem (by omega)
    have hsame := (h4 i j _ _ _ _ (date i hi') (date j hj') hl (by rw [← heq]; exact hl)).1 rfl
    have hij' : (kn : ℤ) * i + kn ≤ kn * j := by
      have : (kn : ℤ) * (i + 1) ≤ kn * j := mul_le_mul_of_nonneg_left (by exact_mod_cast hij) (by omega)
      linarith [mul_add (kn : ℤ) i 1]
    have bound : ∀ A B : ℤ, (∀ p, dayOf c p + A ≤ dayOf c (p + kn)) → (∀ p, dayOf c (p + kn) ≤ dayOf c p + B) → (A : ℚ) ≤ S ∧ S ≤ B := by
      intro A B hA hB
      obtain ⟨b1, b2⟩ := dayOf_sum c q kn A B hA hB (n + 1)
      rw [hSdef, le_div_iff₀ hn0, div_le_iff₀ hn0]
      constructor
      · exact_mod_cast (by linarith : A * ((n + 1 : ℕ) : ℤ) ≤ dayOf c (q + kn * (n + 1 : ℕ)) - dayOf c q)
      · exact_mod_cast (by linarith : dayOf c (q + kn * (n + 1 : ℕ)) - dayOf c q ≤ B * ((n + 1 : ℕ) : ℤ))
    by_cases hbig : 12 ≤ kn
    · have hA : ∀ p, dayOf c p + (if c = .days360 then 360 else 365) ≤ dayOf c (p + kn) := by
        intro p
        have h5 := dayOf_year c p
        have h6 := mono (p + 12) (kn - 12)
        have e : p + 12 + ((kn - 12 : ℕ) : ℤ) = p + kn := by omega
        rw [e] at h6
        omega
      obtain ⟨b1, -⟩ := bound _ (31 * kn) hA fun p => (dayOf_bounds c p kn).2
      have hyear : yearDays c ≤ 11 / 10 * S := by
        have : yearDays c = ((if c = .days360 then 360 else 365 : ℤ) : ℚ) := by cases c <;> simp [yearDays]
        have hp := yearDays_large c
        rw [← this] at b1
        linarith
      have := hsame.1 hyear
      simp only [firstOf] at this
      omega
    · have hA : ∀ p, dayOf c p + 28 ≤ dayOf c (p + kn) := fun p => by have := (dayOf_bounds c p kn).1; omega
      have hB : ∀ p, dayOf c (p + kn) ≤ dayOf c p + 310 := fun p => by have := (dayOf_bounds c p kn).2; omega
      obtain ⟨b1, b2⟩ := bound _ _ hA hB
      push_cast at b1 b2
      have hy : (360 : ℚ) ≤ yearDays c := by cases c <;> norm_num [yearDays]
      obtain ⟨m1, m2, -⟩ := hsame.2.1 (by linarith) (by linarith)
      simp only [firstOf] at m1 m2
      omega

/-! ### examples -/

/-- the ticks of three years -/
example : MeanSpacing .days [0, 366, 731] (731 / 2) :=
  ⟨0, by simp, 731, by simp, by intro x hx; fin_cases hx <;> norm_num, by norm_num [ticks]⟩

example : labels .standard ⟨2000, 1, 1, 0, 0, 0⟩ .days (init none none none none true) [0, 366, 731] =
    some (["2000".toList, "2001".toList, "2002".toList], []) := by decide +kernel

example : labels .standard ⟨2000, 1, 1, 0, 0, 0⟩ .days (init none none none none true) [0, 10, 20] =
    some (["1 Jan".toList, "11 Jan".toList, "21 Jan".toList], "2000".toList) := by decide +kernel

/-- the hypotheses of `month_labels_distinct`: the seasons of a year -/
example : ∀ i < 4, ExactlyAt .days360 ⟨2000, 1, 1, 0, 0, 0⟩ .days ((90 * i : ℕ) : ℚ) (firstOf (24000 + 3 * i)) := by
  intro i hi
  refine ⟨((90 * i : ℕ) : ℤ) * 86400, by simp only [ticks]; push_cast; ring, ?_⟩
  rw [TimeInit.elapsed_iff (by decide +kernel) (firstOf_valid _ _)]
  interval_cases i <;> decide +kernel

/-- Ticks every twelve hours are labelled `00:00` and `12:00`, again and again: the labels do not tell the days. -/
theorem half_days_violated : labels .standard ⟨2000, 1, 1, 0, 0, 0⟩ .days (init none none none none true) [0, 1 / 2, 1, 3 / 2, 2] =
    some (["00:00".toList, "12:00".toList, "00:00".toList, "12:00".toList, "00:00".toList], "1 Jan 2000".toList) := by decide +kernel

/-- Two ticks 335 days apart are both labelled with the year. -/
theorem eleven_months_violated : labels .standard ⟨2000, 1, 1, 0, 0, 0⟩ .days (init none none none none true) [0, 335] =
    some (["2000".toList, "2000".toList], []) := by decide +kernel

/-- A single tick is labelled with the time of the day, even if it is the only year in the view. -/
theorem single_year_violated : labels .standard ⟨2000, 1, 1, 0, 0, 0⟩ .days (init none none none none true) [366] =
    some (["00:00:00".toList], "1 Jan 2001".toList) := by decide +kernel

end TimeLabels
end PyGeode
