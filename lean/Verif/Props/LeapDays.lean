/-
C85: removing leap days.
-/
import Verif.Model.LeapDays
import Verif.Props.Cf
import Mathlib.Tactic.Linarith

namespace PyGeode
open Spec Axis Calendar Cf

namespace LeapDays

/-! ### Grouping by year -/

theorem split_sorted {α : Type} (key : α → ℤ) (y : ℤ) (l : List α) (hs : l.Pairwise fun a b => key a ≤ key b) (hy : ∀ a ∈ l, y ≤ key a) :
    l = (l.filter fun a => decide (key a = y)) ++ l.filter fun a => !decide (key a = y) := by
  induction l with
  | nil => rfl
  | cons a l ih =>
    rw [List.pairwise_cons] at hs
    by_cases h : key a = y
    · rw [List.filter_cons_of_pos (by simpa using h), List.filter_cons_of_neg (by simpa using h), List.cons_append,
        ← ih hs.2 fun b hb => hy b (List.mem_cons_of_mem _ hb)]
    · have hlt : y < key a := lt_of_le_of_ne (hy a (by simp)) (Ne.symm h)
      have h0 : l.filter (fun a => decide (key a = y)) = [] := by
        rw [List.filter_eq_nil_iff]
        intro b hb
        have := hs.1 b hb
        rw [decide_eq_true_eq]; omega
      have h1 : l.filter (fun a => !decide (key a = y)) = l := by
        rw [List.filter_eq_self]
        intro b hb
        have := hs.1 b hb
        simp only [Bool.not_eq_true', decide_eq_false_iff_not]; omega
      rw [List.filter_cons_of_neg (by simpa using h), List.filter_cons_of_pos (by simpa using h), h0, h1]; rfl

/-- Taking the elements year by year gives a list sorted by year back. -/
theorem group_sorted {α : Type} (key : α → ℤ) (ys : List ℤ) (l : List α) (hs : l.Pairwise fun a b => key a ≤ key b)
    (hys : ys.Pairwise (· < ·)) (hk : ∀ a ∈ l, key a ∈ ys) : (ys.flatMap fun y => l.filter fun a => decide (key a = y)) = l := by
  induction ys generalizing l with
  | nil =>
    cases l with
    | nil => rfl
    | cons a l => exact absurd (hk a (by simp)) (by simp)
  | cons y ys ih =>
    rw [List.pairwise_cons] at hys
    have hy : ∀ a ∈ l, y ≤ key a := by
      intro a ha
      rcases List.mem_cons.1 (hk a ha) with h | h
      · exact h.ge
      · exact (hys.1 _ h).le
    conv_rhs => rw [split_sorted key y l hs hy]
    rw [List.flatMap_cons]
    congr 1
    rw [← ih (l.filter fun a => !decide (key a = y)) (hs.filter _) hys.2]
    · refine List.flatMap_congr fun z hz => ?_
      rw [List.filter_filter]
      refine List.filter_congr fun a _ => ?_
      have := hys.1 z hz
      by_cases h : key a = z
      · have h2 : key a ≠ y := by omega
        simp [h2]
      · simp [h]
    · intro a ha
      obtain ⟨ha, h2⟩ := List.mem_filter.1 ha
      simp only [Bool.not_eq_true', decide_eq_false_iff_not] at h2
      rcases List.mem_cons.1 (hk a ha) with h | h
      · exact absurd h h2
      · exact h

theorem years_sorted (dates : List Date) : (years dates).Pairwise (· < ·) := by
  have h1 : (years dates).Pairwise (· ≤ ·) := List.pairwise_insertionSort _ _
  have h2 : (years dates).Nodup := (List.perm_insertionSort _ _).nodup_iff.2 (List.nodup_dedup _)
  refine (h1.and h2).imp fun h => lt_of_le_of_ne h.1 h.2

theorem mem_years {dates : List Date} {y : ℤ} : y ∈ years dates ↔ ∃ d ∈ dates, d.year = y := by
  unfold years
  rw [(List.perm_insertionSort _ _).mem_iff, List.mem_dedup, List.mem_map]

theorem mapM_some {α β : Type} (f : α → Option β) (g : α → β) (l : List α) (h : ∀ a ∈ l, f a = some (g a)) : l.mapM f = some (l.map g) := by
  induction l with
  | nil => rfl
  | cons a l ih =>
    rw [List.mapM_cons, h a (by simp), ih fun b hb => h b (List.mem_cons_of_mem _ hb)]
    rfl

/-! ### Omitted days -/

/-- how many of the omitted days are before `x` -/
def before (omitted : List ℤ) (x : ℚ) : ℕ := omitted.countP fun d : ℤ => decide ((d : ℚ) < x)

theorem foldl_dropDay (om : List ℤ) (h : om.Pairwise (· > ·)) (doy : List ℚ) :
    om.foldl dropDay doy = (doy.filter fun x => decide (⌊x⌋ ∉ om)).map fun x => x - before om x := by
  induction om generalizing doy with
  | nil => simp [before]
  | cons d om ih =>
    rw [List.pairwise_cons] at h
    rw [List.foldl_cons, ih h.2, dropDay, List.filter_map, List.filter_filter, List.map_map]
    have key : ∀ x : ℚ, ⌊x⌋ ≠ d → (⌊if x > d then x - 1 else x⌋ ∉ om ↔ ⌊x⌋ ∉ om) ∧
        before (d :: om) x = (if x > d then 1 else 0) + before om (if x > d then x - 1 else x) := by
      intro x hx
      have hb : before (d :: om) x = before om x + if x > d then 1 else 0 := by
        unfold before
        rw [List.countP_cons]
        simp
      by_cases hxd : x > d
      · have h1 : (d : ℚ) + 1 ≤ x := by
          have h2 : d ≤ ⌊x⌋ := Int.le_floor.2 hxd.le
          have h3 : d + 1 ≤ ⌊x⌋ := by omega
          have h4 := Int.floor_le x
          have h5 : ((d + 1 : ℤ) : ℚ) ≤ (⌊x⌋ : ℚ) := by exact_mod_cast h3
          push_cast at h5
          linarith
        simp only [if_pos hxd] at hb ⊢
        refine ⟨?_, ?_⟩
        · refine not_congr ⟨fun hm => ?_, fun hm => ?_⟩
          · have := h.1 _ hm
            have h2 : d ≤ ⌊x - 1⌋ := Int.le_floor.2 (by linarith)
            omega
          · have := h.1 _ hm
            have h2 : d ≤ ⌊x⌋ := Int.le_floor.2 hxd.le
            omega
        · rw [hb, Nat.add_comm]
          congr 1
          unfold before
          refine List.countP_congr fun e he => ?_
          have h2 : (e : ℚ) < d := by exact_mod_cast h.1 e he
          simp only [decide_eq_true_eq]
          constructor <;> intro _ <;> linarith
      · simp only [if_neg hxd] at hb ⊢
        exact ⟨trivial, by rw [hb, Nat.add_comm]⟩
    have hfil : (doy.filter fun x => ((fun x => decide (⌊x⌋ ∉ om)) ∘ fun x => if x > (d : ℚ) then x - 1 else x) x && decide (⌊x⌋ ≠ d)) =
        doy.filter fun x => decide (⌊x⌋ ∉ d :: om) := by
      refine List.filter_congr fun x _ => ?_
      rw [Bool.eq_iff_iff]
      simp only [Function.comp, Bool.and_eq_true, decide_eq_true_eq, List.mem_cons, not_or]
      constructor
      · rintro ⟨h1, h2⟩; exact ⟨h2, ((key x h2).1).1 h1⟩
      · rintro ⟨h1, h2⟩; exact ⟨((key x h1).1).2 h2, h1⟩
    rw [hfil]
    refine List.map_congr_left fun x hx => ?_
    have hx2 := (List.mem_filter.1 hx).2
    rw [decide_eq_true_eq, List.mem_cons, not_or] at hx2
    have := (key x hx2.1).2
    rw [Function.comp_apply, this]
    by_cases hxd : x > d
    · simp only [if_pos hxd]; push_cast; ring
    · simp only [if_neg hxd]; push_cast; ring

/-! ### The result -/

/-- the days from the start of its year to a date, the first day being 1, with the time of day as a fraction -/
def _root_.PyGeode.Spec.yearDay (c : Cal) (d : Date) : ℚ := (((dateAsVal c ⟨d.year, 1, 1, 0, 0, 0⟩ d).getD 0 : ℤ) : ℚ) / 86400 + 1

/-- the days removed from year `y` -/
def _root_.PyGeode.Spec.omittedIn (c : Cal) (omitLeap omitNo : List ℤ) (y : ℤ) : List ℤ :=
  if c = .standard ∧ Leap y then omitLeap else omitNo

/-- a date is kept if its day of the year is not one of those removed -/
def _root_.PyGeode.Spec.keptDate (c : Cal) (omitLeap omitNo : List ℤ) (d : Date) : Bool :=
  decide (⌊yearDay c d⌋ ∉ omittedIn c omitLeap omitNo d.year)

theorem isLeapPy_iff (c : Cal) (y : ℤ) : isLeapPy c y = true ↔ c = .standard ∧ Leap y := by
  unfold isLeapPy Leap
  simp only [Bool.and_eq_true, Bool.or_eq_true, decide_eq_true_eq, and_assoc]
  exact and_congr_right fun _ => by omega

theorem omittedIn_eq (c : Cal) (a b : List ℤ) (y : ℤ) : omittedIn c a b y = if isLeapPy c y then a else b := by
  unfold omittedIn
  simp only [isLeapPy_iff]

theorem doysOfYear_eq (c : Cal) (dates : List Date) (hm : ∀ d ∈ dates, 1 ≤ d.month ∧ d.month ≤ 12) (y : ℤ) :
    doysOfYear c dates y = some ((dates.filter fun d => decide (d.year = y)).map (yearDay c)) := by
  unfold doysOfYear
  refine mapM_some _ _ _ fun d hd => ?_
  obtain ⟨hd, hy⟩ := List.mem_filter.1 hd
  rw [decide_eq_true_eq] at hy
  have : dateAsVal c ⟨d.year, 1, 1, 0, 0, 0⟩ d = some ((count c).abs d - (count c).abs ⟨d.year, 1, 1, 0, 0, 0⟩) :=
    dateAsVal_eq c ⟨by norm_num, by norm_num⟩ (hm d hd)
  unfold dateAsValPy yearDay
  rw [show getDates { year := some y, month := some 1, day := some 1 } = ⟨d.year, 1, 1, 0, 0, 0⟩ by rw [← hy]; rfl, getDates_full, this]
  rfl

theorem valAsDatePy_some (c : Cal) (y : ℤ) (x : ℚ) : ∃ e, valAsDatePy c (full ⟨y, 1, 1, 0, 0, 0⟩) x .days false = some e := by
  obtain ⟨d, hd, -⟩ := valAsDate_spec c ⟨y, 1, 1, 0, 0, 0⟩ ⟨by norm_num, by norm_num⟩ (npRound (x * unitfactor .days))
  unfold valAsDatePy
  rw [getDates_full, hd]
  exact ⟨_, rfl⟩

/-- the date on the new calendar -/
def newDate (c new : Cal) (omitLeap omitNo : List ℤ) (d : Date) : DateDict :=
  (valAsDatePy new (full ⟨d.year, 1, 1, 0, 0, 0⟩) (yearDay c d - before (omittedIn c omitLeap omitNo d.year) (yearDay c d) - 1) .days false).getD {}

theorem before_perm {l m : List ℤ} (h : l.Perm m) (x : ℚ) : before l x = before m x := h.countP_eq _

theorem piece_eq (c new : Cal) (omitLeap omitNo : List ℤ) (h1 : omitLeap.Nodup) (h2 : omitNo.Nodup) (dates : List Date)
    (hm : ∀ d ∈ dates, 1 ≤ d.month ∧ d.month ≤ 12) (y : ℤ) :
    piece c new omitLeap omitNo dates y =
      some (((dates.filter (keptDate c omitLeap omitNo)).filter fun d => decide (d.year = y)).map (newDate c new omitLeap omitNo)) := by
  unfold piece
  rw [← omittedIn_eq]
  have hnd : (omittedIn c omitLeap omitNo y).Nodup := by unfold omittedIn; split <;> assumption
  set om := (omittedIn c omitLeap omitNo y).insertionSort (· ≥ ·) with hom
  have hperm : om.Perm (omittedIn c omitLeap omitNo y) := List.perm_insertionSort _ _
  have hsort : om.Pairwise (· > ·) := by
    have a : om.Pairwise (· ≥ ·) := List.pairwise_insertionSort _ _
    have b : om.Nodup := hperm.nodup_iff.2 hnd
    exact (a.and b).imp fun h => lt_of_le_of_ne h.1 (Ne.symm h.2)
  show ((doysOfYear c dates y).bind fun doy => (om.foldl dropDay doy).mapM fun x =>
    valAsDatePy new (full ⟨y, 1, 1, 0, 0, 0⟩) (x - 1) .days false) = _
  rw [doysOfYear_eq c dates hm y, Option.bind_some, foldl_dropDay om hsort, List.filter_map, List.map_map]
  have hf : ((dates.filter fun d => decide (d.year = y)).filter ((fun x => decide (⌊x⌋ ∉ om)) ∘ yearDay c)) =
      (dates.filter (keptDate c omitLeap omitNo)).filter fun d => decide (d.year = y) := by
    rw [List.filter_filter, List.filter_filter]
    refine List.filter_congr fun d _ => ?_
    by_cases hy : d.year = y
    · simp only [hy, decide_true, Bool.and_true, Bool.true_and, Function.comp, keptDate, hperm.mem_iff]
    · simp [hy]
  rw [hf, mapM_some _ (fun x => (valAsDatePy new (full ⟨y, 1, 1, 0, 0, 0⟩) (x - 1) .days false).getD {}), List.map_map]
  · congr 1
    refine List.map_congr_left fun d hd => ?_
    have hy := (List.mem_filter.1 hd).2
    rw [decide_eq_true_eq] at hy
    simp only [Function.comp, newDate, hy, before_perm hperm]
  · intro x _
    obtain ⟨e, he⟩ := valAsDatePy_some new y (x - 1)
    rw [he]; rfl

/-- C85: if the times are in the order of their years, then for any lists of different days to remove exactly the times on these days
are removed; there are as many dates on the new axis as times kept; and each is the date on the new calendar whose day of the year is
the old one less the number of days removed before it. -/
theorem removeleapyears_correct (c new : Cal) (omitLeap omitNo : List ℤ) (h1 : omitLeap.Nodup) (h2 : omitNo.Nodup) (dates : List Date)
    (hm : ∀ d ∈ dates, 1 ≤ d.month ∧ d.month ≤ 12) (hs : dates.Pairwise fun a b => a.year ≤ b.year) :
    ∃ out, removeleapyears c omitLeap omitNo new dates =
        some ((List.range dates.length).filter (fun i => (dates.map (keptDate c omitLeap omitNo)).getD i false), out) ∧
      List.Forall₂ (fun d e => valAsDatePy new (full ⟨d.year, 1, 1, 0, 0, 0⟩)
          (yearDay c d - ((omittedIn c omitLeap omitNo d.year).countP fun o : ℤ => decide ((o : ℚ) < yearDay c d)) - 1) .days false = some e)
        (dates.filter (keptDate c omitLeap omitNo)) out := by
  refine ⟨(dates.filter (keptDate c omitLeap omitNo)).map (newDate c new omitLeap omitNo), ?_, ?_⟩
  · have hd : (years dates).mapM (doysOfYear c dates) =
        some ((years dates).map fun y => (dates.filter fun d => decide (d.year = y)).map (yearDay c)) :=
      mapM_some _ _ _ fun y _ => doysOfYear_eq c dates hm y
    have hp := mapM_some (piece c new omitLeap omitNo dates) _ (years dates) fun y _ => piece_eq c new omitLeap omitNo h1 h2 dates hm y
    have hflat : ((years dates).map fun y => (dates.filter fun d => decide (d.year = y)).map (yearDay c)).flatten = dates.map (yearDay c) := by
      rw [← List.flatMap_def, ← List.map_flatMap, group_sorted Date.year (years dates) dates hs (years_sorted dates)]
      intro d hd; exact mem_years.2 ⟨d, hd, rfl⟩
    have hflat2 : ((years dates).map fun y => ((dates.filter (keptDate c omitLeap omitNo)).filter fun d => decide (d.year = y)).map
        (newDate c new omitLeap omitNo)).flatten = (dates.filter (keptDate c omitLeap omitNo)).map (newDate c new omitLeap omitNo) := by
      rw [← List.flatMap_def, ← List.map_flatMap, group_sorted Date.year (years dates) _ (hs.filter _) (years_sorted dates)]
      intro d hd; exact mem_years.2 ⟨d, (List.mem_filter.1 hd).1, rfl⟩
    unfold removeleapyears
    simp only [Option.bind_eq_bind]
    rw [hd, hp, Option.bind_some, Option.bind_some, hflat, hflat2]
    congr 2
    refine List.filter_congr fun i hi => ?_
    have hi := List.mem_range.1 hi
    rw [List.getD_eq_getElem (dates.map _) _ (by simpa using hi), List.getElem_map, List.getD_eq_getElem dates _ hi,
      List.getD_eq_getElem _ _ (by simpa using hi), List.getElem_map, List.getElem_map]
    unfold keptDate
    rw [omittedIn_eq]
    split <;> simp
  · rw [List.forall₂_map_right_iff, List.forall₂_same]
    intro d _
    unfold newDate
    obtain ⟨e, he⟩ := valAsDatePy_some new d.year (yearDay c d - before (omittedIn c omitLeap omitNo d.year) (yearDay c d) - 1)
    rw [he]
    exact he

/-! ### The standard use: 29 February -/

/-- 29 February -/
def _root_.PyGeode.Spec.leapDay (d : Date) : Bool := decide (d.month = 2) && decide (d.day = 29)

theorem isleap_eq (y : ℤ) : isleap y = isLeapPy .standard y := by
  rw [Bool.eq_iff_iff, isleap_iff, isLeapPy_iff]; simp

theorem tod_range {c : Cal} {d : Date} (h : ValidDate c d) : 0 ≤ tod d ∧ tod d < 86400 := by
  have := h.hour; have := h.minute; have := h.second
  unfold tod; constructor <;> omega

/-- the day of the year and the time of day -/
theorem yearDay_eq {d : Date} (h : ValidDate .standard d) :
    yearDay .standard d = ((month2doy (isleap d.year) d.month.toNat + d.day : ℤ) : ℚ) + ((tod d : ℤ) : ℚ) / 86400 := by
  have hm := h.month
  have hw : wrapDy d.month = 0 := by
    unfold wrapDy
    rw [if_neg (by omega)]
    exact Int.tdiv_eq_zero_of_lt (by omega) (by omega)
  have h1 : dateAsVal .standard ⟨d.year, 1, 1, 0, 0, 0⟩ d = some ((month2doy (isleap d.year) d.month.toNat + d.day - 1) * 86400 + tod d) := by
    show dateAsValStd _ _ = _
    unfold dateAsValStd
    rw [if_neg (by norm_num)]
    have h0 : refStd ⟨d.year, 1, 1, 0, 0, 0⟩ = 0 := by
      show (month2doy (isleap d.year) 1 + 1 - 1) * 86400 + _ = _
      have : month2doy (isleap d.year) 1 = 0 := by cases isleap d.year <;> rfl
      rw [this]; rfl
    simp only [hw, h0, zero_mul, sub_zero, add_zero]
    have : ndays d.year d.year = 0 := by unfold ndays; simp
    rw [this, zero_add]
  unfold yearDay
  rw [h1, Option.getD_some]
  push_cast
  ring

theorem floor_yearDay {d : Date} (h : ValidDate .standard d) :
    ⌊yearDay .standard d⌋ = month2doy (isleap d.year) d.month.toNat + d.day := by
  obtain ⟨h1, h2⟩ := tod_range h
  have h1 : (0 : ℚ) ≤ ((tod d : ℤ) : ℚ) := by exact_mod_cast h1
  have h2 : ((tod d : ℤ) : ℚ) < 86400 := by exact_mod_cast h2
  rw [yearDay_eq h, Int.floor_eq_iff]
  constructor
  · have := div_nonneg h1 (by norm_num : (0 : ℚ) ≤ 86400); linarith
  · have : ((tod d : ℤ) : ℚ) / 86400 < 1 := by rw [div_lt_one (by norm_num)]; exact h2
    linarith

/-- the tables: day 60 of a leap year is 29 February, and later days come one day later than in other years -/
theorem month_cases (m : ℤ) (h : 1 ≤ m ∧ m ≤ 12) :
    (m = 1 ∧ month2doy true m.toNat = 0 ∧ month2doy false m.toNat = 0) ∨ (m = 2 ∧ month2doy true m.toNat = 31 ∧ month2doy false m.toNat = 31) ∨
      (3 ≤ m ∧ 60 ≤ month2doy true m.toNat ∧ month2doy true m.toNat = month2doy false m.toNat + 1) := by
  obtain ⟨h1, h2⟩ := h
  have : m = 1 ∨ m = 2 ∨ m = 3 ∨ m = 4 ∨ m = 5 ∨ m = 6 ∨ m = 7 ∨ m = 8 ∨ m = 9 ∨ m = 10 ∨ m = 11 ∨ m = 12 := by omega
  rcases this with h | h | h | h | h | h | h | h | h | h | h | h <;> subst h <;> decide

theorem kept_default {d : Date} (h : ValidDate .standard d) : keptDate .standard [60] [] d = !leapDay d := by
  unfold keptDate leapDay
  rw [omittedIn_eq, floor_yearDay h, ← isleap_eq]
  have hd := h.day
  unfold monthLength at hd
  simp only [← isleap_iff] at hd
  have hm := month_cases d.month h.month
  rw [Bool.eq_iff_iff]
  simp only [Bool.not_eq_true', Bool.and_eq_false_iff, decide_eq_true_eq, decide_eq_false_iff_not]
  cases hl : isleap d.year
  · rw [hl] at hd
    simp only [Bool.false_eq_true, if_false, List.not_mem_nil, not_false_eq_true, true_iff] at hd ⊢
    by_cases h2 : d.month = 2
    · rw [if_pos h2] at hd; right; omega
    · left; exact h2
  · rw [hl] at hd
    simp only [if_true, List.mem_singleton] at hd ⊢
    rcases hm with ⟨a, b, -⟩ | ⟨a, b, -⟩ | ⟨a, b, -⟩
    · rw [b]; rw [a] at hd ⊢; norm_num at hd ⊢; omega
    · rw [b]; rw [a] at hd ⊢; norm_num at hd ⊢; omega
    · constructor
      · intro _; left; omega
      · intro _; omega

theorem not_leap_valid {d : Date} (h : ValidDate .standard d) (hn : leapDay d = false) : ValidDate .noleap d := by
  refine ⟨h.month, ⟨h.day.1, ?_⟩, h.hour, h.minute, h.second⟩
  have hd := h.day
  unfold monthLength at hd ⊢
  unfold leapDay at hn
  simp only [Bool.and_eq_false_iff, decide_eq_false_iff_not] at hn
  by_cases h2 : d.month = 2
  · simp only [h2, if_true] at hd ⊢
    split_ifs at hd
    · rcases hn with hn | hn
      · exact absurd h2 hn
      · omega
    · exact hd.2
  · simp only [if_neg h2] at hd ⊢; exact hd.2

/-- the day of the year in the 365-day calendar -/
theorem yearDay_noleap {d : Date} (h : ValidDate .standard d) (hn : leapDay d = false) :
    dateAsValPy .noleap (full ⟨d.year, 1, 1, 0, 0, 0⟩) (full d) .days =
      some (yearDay .standard d - ((omittedIn .standard [60] [] d.year).countP fun o : ℤ => decide ((o : ℚ) < yearDay .standard d)) - 1) := by
  have hm := h.month
  have hw : wrapDy d.month = 0 := by
    unfold wrapDy
    rw [if_neg (by omega)]
    exact Int.tdiv_eq_zero_of_lt (by omega) (by omega)
  have h1 : dateAsVal .noleap ⟨d.year, 1, 1, 0, 0, 0⟩ d = some ((month2doy false d.month.toNat + d.day - 1) * 86400 + tod d) := by
    show dateAsVal365 _ _ = _
    unfold dateAsVal365
    rw [if_neg (by norm_num)]
    simp only [hw]
    congr 1
    have : month2doy false (1 : ℤ).toNat = 0 := rfl
    rw [this]
    have : tod ⟨d.year, 1, 1, 0, 0, 0⟩ = 0 := rfl
    rw [this]
    ring_nf
  have hleap : omittedIn .standard [60] [] d.year = if isleap d.year then [60] else [] := by rw [omittedIn_eq, isleap_eq]
  have h2 : (((omittedIn .standard [60] [] d.year).countP fun o : ℤ => decide ((o : ℚ) < yearDay .standard d) : ℕ) : ℤ) =
      month2doy (isleap d.year) d.month.toNat - month2doy false d.month.toNat := by
    rw [hleap]
    have hf := floor_yearDay h
    have hd := h.day
    unfold monthLength at hd
    simp only [← isleap_iff] at hd
    have hk : ∀ P : Prop, ∀ _ : Decidable P, [(60 : ℤ)].countP (fun _ => decide P) = if P then 1 else 0 := by
      intro P _; by_cases hP : P <;> simp [hP]
    cases hl : isleap d.year
    · simp
    · rw [hl] at hd hf
      simp only [if_true] at hd ⊢
      rw [List.countP_singleton]
      rcases month_cases d.month h.month with ⟨a, b, c⟩ | ⟨a, b, c⟩ | ⟨a, b, c⟩
      · have : ¬ (((60 : ℤ) : ℚ) < yearDay .standard d) := by
          intro hlt
          have := Int.le_floor.2 hlt.le
          rw [hf, b] at this
          rw [a] at hd; norm_num at hd; omega
        simp only [this, decide_false, Bool.false_eq_true, if_false, b, c]; rfl
      · have : ¬ (((60 : ℤ) : ℚ) < yearDay .standard d) := by
          intro hlt
          have := Int.le_floor.2 hlt.le
          rw [hf, b] at this
          unfold leapDay at hn
          simp only [Bool.and_eq_false_iff, decide_eq_false_iff_not] at hn
          rw [a] at hd; norm_num at hd; omega
        simp only [this, decide_false, Bool.false_eq_true, if_false, b, c]; rfl
      · have : (((60 : ℤ) : ℚ) < yearDay .standard d) := by
          refine lt_of_lt_of_le ?_ (Int.floor_le (yearDay .standard d))
          rw [hf]
          exact_mod_cast (by omega : (60 : ℤ) < month2doy true d.month.toNat + d.day)
        simp only [this, decide_true, if_true, c]
        push_cast; ring
  have h2' : (((omittedIn .standard [60] [] d.year).countP fun o : ℤ => decide ((o : ℚ) < yearDay .standard d) : ℕ) : ℚ) =
      ((month2doy (isleap d.year) d.month.toNat - month2doy false d.month.toNat : ℤ) : ℚ) := by rw [← h2]; push_cast; rfl
  unfold dateAsValPy
  rw [getDates_full, getDates_full, h1, h2', yearDay_eq h]
  show some _ = some _
  congr 1
  show (_ : ℚ) / 86400 = _
  push_cast
  ring

theorem forall₂_map_eq {α β : Type} {R : α → β → Prop} (l : List α) (f : α → β) {out : List β} (h : ∀ a ∈ l, ∀ b, R a b → b = f a)
    (hr : List.Forall₂ R l out) : out = l.map f := by
  induction hr with
  | nil => rfl
  | cons h1 _ ih => rw [List.map_cons, h _ (by simp) _ h1, ih fun a ha => h a (List.mem_cons_of_mem _ ha)]

/-- C85: with the default arguments, on any dates of the standard calendar in the order of their years, `removeleapyears` removes
exactly the times on a 29 February, and every other time keeps its date. -/
theorem removeleapyears_default (dates : List Date) (hv : ∀ d ∈ dates, ValidDate .standard d) (hs : dates.Pairwise fun a b => a.year ≤ b.year) :
    removeleapyears .standard [60] [] .noleap dates =
      some ((List.range dates.length).filter (fun i => (dates.map fun d => !leapDay d).getD i false),
        (dates.filter fun d => !leapDay d).map full) := by
  obtain ⟨out, h1, h2⟩ := removeleapyears_correct .standard .noleap [60] [] (by decide) (by decide) dates (fun d hd => (hv d hd).month) hs
  have hk : dates.map (keptDate .standard [60] []) = dates.map fun d => !leapDay d :=
    List.map_congr_left fun d hd => kept_default (hv d hd)
  have hf : dates.filter (keptDate .standard [60] []) = dates.filter fun d => !leapDay d :=
    List.filter_congr fun d hd => kept_default (hv d hd)
  rw [h1, hk]
  rw [hf] at h2
  congr 2
  refine forall₂_map_eq _ full (fun d hd e he => ?_) h2
  obtain ⟨hd, hn⟩ := List.mem_filter.1 hd
  rw [Bool.not_eq_true'] at hn
  obtain ⟨v, a, b⟩ := py_date_roundtrip .noleap ⟨d.year, 1, 1, 0, 0, 0⟩ d .days ⟨by norm_num, by norm_num⟩ (not_leap_valid (hv d hd) hn)
  have a' := yearDay_noleap (hv d hd) hn
  rw [show (v : ℚ) = _ from Option.some_injective _ (a.symm.trans a')] at b
  exact Option.some_injective _ (he.symm.trans b)

/-! ### Examples -/

/-- six-hourly times around 29 February 2000, then 2001 and 2004 -/
def leapEx : List Date :=
  [⟨2000, 2, 28, 18, 0, 0⟩, ⟨2000, 2, 29, 0, 0, 0⟩, ⟨2000, 2, 29, 12, 30, 0⟩, ⟨2000, 3, 1, 6, 0, 0⟩, ⟨2000, 12, 31, 23, 59, 59⟩,
    ⟨2001, 3, 1, 0, 0, 0⟩, ⟨2004, 1, 1, 0, 0, 0⟩, ⟨2004, 2, 29, 23, 0, 0⟩]

theorem leapEx_ok : (∀ d ∈ leapEx, ValidDate .standard d) ∧ leapEx.Pairwise fun a b => a.year ≤ b.year := by
  constructor <;> decide +kernel

/-- the example meets the hypotheses: three of eight times are removed, and the other dates are kept -/
example : removeleapyears .standard [60] [] .noleap leapEx = some ([0, 3, 4, 5, 6],
    [⟨2000, 2, 28, 18, 0, 0⟩, ⟨2000, 3, 1, 6, 0, 0⟩, ⟨2000, 12, 31, 23, 59, 59⟩, ⟨2001, 3, 1, 0, 0, 0⟩, ⟨2004, 1, 1, 0, 0, 0⟩].map full) := by
  rw [removeleapyears_default leapEx leapEx_ok.1 leapEx_ok.2]
  decide +kernel

/-- other lists of days: 1 January and 1 March out of the leap year 2000, nothing out of 2001 -/
example : ([1, 61] : List ℤ).Nodup ∧ keptDate .standard [1, 61] [] ⟨2000, 3, 1, 12, 0, 0⟩ = false ∧
    keptDate .standard [1, 61] [] ⟨2001, 3, 1, 12, 0, 0⟩ = true ∧ keptDate .standard [1, 61] [] ⟨2000, 1, 2, 0, 0, 0⟩ = true := by
  decide +kernel

theorem mem_indices {c new : Cal} {a b : List ℤ} {dates : List Date} {p : List ℕ × List DateDict} {dd : List (List ℚ)}
    (h : removeleapyears c a b new dates = some p) (hd : (years dates).mapM (doysOfYear c dates) = some dd) :
    p.1 = (List.range dates.length).filter fun i => !(if isLeapPy c (dates.getD i ⟨0, 1, 1, 0, 0, 0⟩).year
      then decide ((dd.flatten.map fun x => ⌊x⌋).getD i 0 ∈ a) else decide ((dd.flatten.map fun x => ⌊x⌋).getD i 0 ∈ b)) := by
  unfold removeleapyears at h
  simp only [Option.bind_eq_bind] at h
  rw [hd, Option.bind_some] at h
  cases hp : (years dates).mapM (piece c new a b dates) with
  | none => rw [hp] at h; exact absurd h (by simp)
  | some q => rw [hp, Option.bind_some] at h; rw [← Option.some_injective _ h]

/-- Without the order of years the claim is false: for 29 February 2004 followed by 1 March 2000 (both leap years) the days of the year are
collected year by year but used in the order of the axis, so 1 March 2000 is removed and 29 February 2004 is kept. -/
theorem unordered_violated : ∀ p, removeleapyears .standard [60] [] .noleap [⟨2004, 2, 29, 0, 0, 0⟩, ⟨2000, 3, 1, 0, 0, 0⟩] = some p → p.1 = [0] := by
  intro p hp
  have hd : (years [⟨2004, 2, 29, 0, 0, 0⟩, ⟨2000, 3, 1, 0, 0, 0⟩]).mapM
      (doysOfYear .standard [⟨2004, 2, 29, 0, 0, 0⟩, ⟨2000, 3, 1, 0, 0, 0⟩]) = some [[61], [60]] := by decide +kernel
  rw [mem_indices hp hd]
  decide +kernel

/-- A day listed twice also breaks it: of the days 61 and 62 (both kept in the data) only one date is left for the new axis. -/
theorem duplicate_violated : [(60 : ℤ), 60].foldl dropDay [61, 62] = [60] := by decide +kernel

end LeapDays
end PyGeode
