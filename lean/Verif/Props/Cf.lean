/-
C30, C50, C51, C52, C68: CF metadata.
-/
import Verif.Model.Cf
import Verif.Props.VarOps
import Verif.Props.Calendar

namespace PyGeode
open Spec NArr Axis Combine VarOps Calendar

namespace Cf

/-! ### C50: names -/

/-- A name CF accepts: letters, digits and underscores, at least one, and no digit at the start. -/
def _root_.PyGeode.Spec.CfName (s : Name) : Prop :=
  s ≠ [] ∧ (∀ c ∈ s, c.isAlpha ∨ c.isDigit ∨ c = '_') ∧ ∀ c, s.head? = some c → ¬ c.isDigit

theorem lower_iff (c : Char) : ('a' ≤ c ∧ c ≤ 'z') ↔ c.isLower := by
  simp [Char.isLower, Char.le_def, UInt32.le_iff_toNat_le]

theorem upper_iff (c : Char) : ('A' ≤ c ∧ c ≤ 'Z') ↔ c.isUpper := by
  simp [Char.isUpper, Char.le_def, UInt32.le_iff_toNat_le]

theorem digit_iff (c : Char) : ('0' ≤ c ∧ c ≤ '9') ↔ c.isDigit := by
  simp [Char.isDigit, Char.le_def, UInt32.le_iff_toNat_le]

theorem fixChar_eq (c : Char) : fixChar c = if c.isAlpha ∨ c.isDigit then c else '_' := by
  unfold fixChar
  rw [if_congr (lower_iff c) rfl rfl, if_congr (upper_iff c) rfl rfl, if_congr (digit_iff c) rfl rfl]
  simp only [Char.isAlpha, Bool.or_eq_true]
  split_ifs <;> simp_all

theorem fixChar_ok (c : Char) : (fixChar c).isAlpha ∨ (fixChar c).isDigit ∨ fixChar c = '_' := by
  rw [fixChar_eq]
  split_ifs with h
  · rcases h with h | h
    · exact Or.inl h
    · exact Or.inr (Or.inl h)
  · exact Or.inr (Or.inr rfl)

/-- C50: only the empty name is refused. -/
theorem fixName_none (name : Name) : fixName name = none ↔ name = [] := by
  cases name <;> simp [fixName]

/-- C50: the converted name is acceptable. -/
theorem fixName_valid (name n : Name) (h : fixName name = some n) : CfName n := by
  cases name with
  | nil => simp [fixName] at h
  | cons c l =>
    simp only [fixName, List.map_cons, Option.some.injEq] at h
    have hall : ∀ x ∈ fixChar c :: l.map fixChar, x.isAlpha ∨ x.isDigit ∨ x = '_' := by
      intro x hx
      rw [← List.map_cons, List.mem_map] at hx
      obtain ⟨y, -, rfl⟩ := hx
      exact fixChar_ok y
    split_ifs at h with hd
    · subst h
      refine ⟨by simp, fun x hx => ?_, fun x hx => ?_⟩
      · rcases List.mem_cons.1 hx with rfl | hx
        · simp
        · exact hall x hx
      · simp at hx; subst hx; decide
    · subst h
      refine ⟨by simp, hall, fun x hx => ?_⟩
      simp at hx; subst hx; exact hd

/-- C50: a name that is acceptable already is kept. -/
theorem fixName_id (name : Name) (h : CfName name) : fixName name = some name := by
  obtain ⟨h1, h2, h3⟩ := h
  have hm : name.map fixChar = name := by
    conv_rhs => rw [← List.map_id name]
    refine List.map_congr_left fun c hc => ?_
    rw [fixChar_eq]
    rcases h2 c hc with h | h | h
    · simp [h]
    · simp [h]
    · subst h; rfl
  cases name with
  | nil => exact absurd rfl h1
  | cons c l =>
    simp only [fixName, hm]
    rw [if_neg (h3 c rfl)]

/-- C50: converting twice is converting once. -/
theorem fixName_idem (name n : Name) (h : fixName name = some n) : fixName n = some n :=
  fixName_id n (fixName_valid name n h)

/-- C50: characters that are letters or digits stay where they are, counted from the end of the name. -/
theorem fixName_keeps (name n : Name) (h : fixName name = some n) :
    ∃ p : Name, n = p ++ name.map fixChar ∧ (p = [] ∨ p = ['_']) := by
  cases name with
  | nil => simp [fixName] at h
  | cons c l =>
    simp only [fixName, List.map_cons, Option.some.injEq] at h
    split_ifs at h
    · exact ⟨['_'], by rw [← h]; rfl, Or.inr rfl⟩
    · exact ⟨[], by rw [← h]; rfl, Or.inl rfl⟩

example : fixName "2m temperature (°C)".toList = some "_2m_temperature___C_".toList := by decide +kernel
example : CfName "u10_m".toList := ⟨by decide, by decide, by decide⟩

/-- Two names may become one. -/
theorem fixName_collision : fixName "a b".toList = fixName "a-b".toList := by decide +kernel

/-! ### C51: units -/

theorem takeWhile_stop {p : Char → Bool} {l r : Name} {x : Char} (h : ∀ c ∈ l, p c = true) (hx : p x = false) :
    (l ++ x :: r).takeWhile p = l ∧ (l ++ x :: r).dropWhile p = x :: r := by
  induction l with
  | nil => simp [hx]
  | cons a l ih =>
    have ha := h a (List.mem_cons_self ..)
    obtain ⟨h1, h2⟩ := ih fun c hc => h c (List.mem_cons_of_mem _ hc)
    constructor
    · rw [List.cons_append, List.takeWhile_cons_of_pos ha, h1]
    · rw [List.cons_append, List.dropWhile_cons_of_pos ha, h2]

theorem takeWhile_all {p : Char → Bool} {l : Name} (h : ∀ c ∈ l, p c = true) :
    l.takeWhile p = l ∧ l.dropWhile p = [] := by
  induction l with
  | nil => simp
  | cons a l ih =>
    obtain ⟨h1, h2⟩ := ih fun c hc => h c (List.mem_cons_of_mem _ hc)
    have ha := h a (List.mem_cons_self ..)
    exact ⟨by rw [List.takeWhile_cons_of_pos ha, h1], by rw [List.dropWhile_cons_of_pos ha, h2]⟩

theorem fmtInt_spec (w : ℕ) (z : ℤ) (hz : 0 ≤ z) :
    fmtInt w z ≠ [] ∧ (∀ c ∈ fmtInt w z, c.isDigit = true) ∧ Nat.ofDigitChars 10 (fmtInt w z) 0 = z.toNat ∧
      w ≤ (fmtInt w z).length := by
  unfold fmtInt
  simp only [if_pos hz]
  have hne : Nat.toDigits 10 z.natAbs ≠ [] := Nat.toDigits_ne_nil
  refine ⟨by simp [hne], fun c hc => ?_, ?_, by simp; omega⟩
  · rcases List.mem_append.1 hc with h | h
    · rw [List.mem_replicate] at h; rw [h.2]; rfl
    · exact Nat.isDigit_of_mem_toDigits (by norm_num) (by norm_num) h
  · rw [Nat.ofDigitChars_append, Nat.ofDigitChars_replicate_zero, Nat.mul_zero]
    rw [Nat.ofDigitChars_toDigits (by norm_num) (by norm_num)]
    omega

theorem line_id {s : Name} (h : '\n' ∉ s) : line s = s := by
  unfold line
  refine (takeWhile_all fun c hc => ?_).1
  simp only [ne_eq, decide_not, Bool.not_eq_true', decide_eq_false_iff_not]
  rintro rfl; exact h hc

theorem field_stop (default : ℕ) (sep : Name → Name) {l r : Name} {x : Char} (hne : l ≠ []) (h : ∀ c ∈ l, c.isDigit = true)
    (hx : x.isDigit = false) (hnl : '\n' ∉ sep (x :: r)) :
    field default sep (l ++ x :: r) = some (Nat.ofDigitChars 10 l 0, sep (x :: r)) := by
  obtain ⟨h1, h2⟩ := takeWhile_stop (p := Char.isDigit) h hx (r := r)
  unfold field
  rw [if_neg (by simp)]
  simp only [h1, h2]
  rw [if_neg hne, line_id hnl]

theorem field_end (default : ℕ) (sep : Name → Name) {l : Name} (hne : l ≠ []) (h : ∀ c ∈ l, c.isDigit = true)
    (hs : sep [] = []) : field default sep l = some (Nat.ofDigitChars 10 l 0, []) := by
  obtain ⟨h1, h2⟩ := takeWhile_all (p := Char.isDigit) h
  unfold field
  rw [if_neg hne]
  simp only [h1, h2, hs]
  rw [if_neg hne]
  rfl

theorem not_space_of_digit {c : Char} (h : c.isDigit = true) : isSpace c = false := by
  by_contra hc
  simp only [Bool.not_eq_false, isSpace, decide_eq_true_eq, List.mem_cons, List.not_mem_nil, or_false] at hc
  rcases hc with rfl | rfl | rfl | rfl | rfl | rfl <;> exact absurd h (by decide)

theorem newline_not_mem {l : Name} (h : ∀ c ∈ l, c.isDigit = true) : '\n' ∉ l := fun hc => absurd (h _ hc) (by decide)

theorem rstrip_id {l r : Name} (hne : r ≠ []) (h : ∀ c ∈ r, c.isDigit = true) : rstrip (l ++ r) = l ++ r := by
  unfold rstrip
  obtain ⟨x, t, hx⟩ : ∃ x t, r.reverse = x :: t := List.exists_cons_of_ne_nil (by simpa using hne)
  have hd : x.isDigit = true := h x (by rw [← List.mem_reverse, hx]; exact List.mem_cons_self ..)
  rw [List.reverse_append, hx, List.cons_append, List.dropWhile_cons_of_neg (by rw [not_space_of_digit hd]; simp),
    ← List.cons_append, ← hx, ← List.reverse_append, List.reverse_reverse]

/-- reading back a date written with at least one digit per field -/
theorem parseDate_written {y m d h mi s : Name} (hy : y ≠ [] ∧ ∀ c ∈ y, c.isDigit = true) (hm : m ≠ [] ∧ ∀ c ∈ m, c.isDigit = true)
    (hd : d ≠ [] ∧ ∀ c ∈ d, c.isDigit = true) (hh : h ≠ [] ∧ ∀ c ∈ h, c.isDigit = true)
    (hmi : mi ≠ [] ∧ ∀ c ∈ mi, c.isDigit = true) (hs : s ≠ [] ∧ ∀ c ∈ s, c.isDigit = true) :
    parseDate (y ++ '-' :: (m ++ '-' :: (d ++ ' ' :: (h ++ ':' :: (mi ++ ':' :: s))))) =
      some ⟨(Nat.ofDigitChars 10 y 0 : ℕ), (Nat.ofDigitChars 10 m 0 : ℕ), (Nat.ofDigitChars 10 d 0 : ℕ),
        (Nat.ofDigitChars 10 h 0 : ℕ), (Nat.ofDigitChars 10 mi 0 : ℕ), (Nat.ofDigitChars 10 s 0 : ℕ)⟩ := by
  have n1 := newline_not_mem hy.2
  have n2 := newline_not_mem hm.2
  have n3 := newline_not_mem hd.2
  have n4 := newline_not_mem hh.2
  have n5 := newline_not_mem hmi.2
  have n6 := newline_not_mem hs.2
  obtain ⟨h0, ht, hhe⟩ : ∃ x t, h = x :: t := List.exists_cons_of_ne_nil hh.1
  have hh0 : h0.isDigit = true := hh.2 h0 (by rw [hhe]; exact List.mem_cons_self ..)
  obtain ⟨s0, st, hse⟩ : ∃ x t, s = x :: t := List.exists_cons_of_ne_nil hs.1
  have hs0 : s0.isDigit = true := hs.2 s0 (by rw [hse]; exact List.mem_cons_self ..)
  unfold parseDate
  have hr : rstrip (y ++ '-' :: (m ++ '-' :: (d ++ ' ' :: (h ++ ':' :: (mi ++ ':' :: s))))) =
      y ++ '-' :: (m ++ '-' :: (d ++ ' ' :: (h ++ ':' :: (mi ++ ':' :: s)))) := by
    have := rstrip_id (l := y ++ '-' :: (m ++ '-' :: (d ++ ' ' :: (h ++ ':' :: (mi ++ [':']))))) hs.1 hs.2
    simpa using this
  rw [hr, field_stop 0 (dropOne '-') hy.1 hy.2 rfl (by simp [dropOne, n2, n3, n4, n5, n6])]
  simp only [Option.bind_some, dropOne, if_true]
  rw [field_stop 1 (dropOne '-') hm.1 hm.2 rfl (by simp [dropOne, n3, n4, n5, n6])]
  simp only [Option.bind_some, dropOne, if_true]
  have hsp : List.dropWhile isSpace (' ' :: (h ++ ':' :: (mi ++ ':' :: s))) = h ++ ':' :: (mi ++ ':' :: s) := by
    rw [List.dropWhile_cons_of_pos (by decide), hhe, List.cons_append,
      List.dropWhile_cons_of_neg (by rw [not_space_of_digit hh0]; simp)]
  rw [field_stop 1 (List.dropWhile isSpace) hd.1 hd.2 rfl (by rw [hsp]; simp [n4, n5, n6])]
  simp only [Option.bind_some, hsp]
  rw [if_neg (by
    rw [hhe]; simp only [List.cons_append, List.head?_cons, Option.some.injEq]
    rintro rfl; exact absurd hh0 (by decide))]
  rw [field_stop 0 (dropOne ':') hh.1 hh.2 rfl (by simp [dropOne, n5, n6])]
  simp only [Option.bind_some, dropOne, if_true]
  rw [field_stop 0 (dropOne ':') hmi.1 hmi.2 rfl (by simp [dropOne, n6])]
  simp only [Option.bind_some, dropOne, if_true]
  rw [if_neg (by
    rw [hse]; simp only [List.head?_cons, Option.some.injEq]
    rintro rfl; exact absurd hs0 (by decide))]
  rw [field_end 0 id hs.1 hs.2 rfl]
  rfl

theorem unitName_alpha (u : Units) : unitName u ≠ [] ∧ (∀ c ∈ unitName u, isAlpha c = true) ∧ plural (unitName u) = unitName u ∧
    unitOf (unitName u) = some u := by
  cases u <;> decide +kernel

/-- The fields of a start date are not negative. -/
def _root_.PyGeode.Spec.NonNeg (d : Date) : Prop :=
  0 ≤ d.year ∧ 0 ≤ d.month ∧ 0 ≤ d.day ∧ 0 ≤ d.hour ∧ 0 ≤ d.minute ∧ 0 ≤ d.second

/-- C51: the unit and the start date that were written are read back, missing fields of the start date having the value
they stand for (year 0, month 1, day 1, midnight). -/
theorem units_roundtrip (u : Units) (start : DateDict) (h : NonNeg (getDates start)) :
    decodeUnits (encodeUnits (unitName u) start) = some (unitName u, getDates start) := by
  obtain ⟨a1, a2, a3, -⟩ := unitName_alpha u
  obtain ⟨b1, b2, b3, b4, b5, b6⟩ := h
  simp only [getDates] at b1 b2 b3 b4 b5 b6
  have y := fmtInt_spec 4 _ b1
  have m := fmtInt_spec 2 _ b2
  have d := fmtInt_spec 2 _ b3
  have hh := fmtInt_spec 2 _ b4
  have mi := fmtInt_spec 2 _ b5
  have s := fmtInt_spec 2 _ b6
  have he : encodeUnits (unitName u) start = unitName u ++ ' ' :: ("since".toList ++ ' ' :: (fmtInt 4 (start.year.getD 0) ++ '-' ::
      (fmtInt 2 (start.month.getD 1) ++ '-' :: (fmtInt 2 (start.day.getD 1) ++ ' ' :: (fmtInt 2 (start.hour.getD 0) ++ ':' ::
      (fmtInt 2 (start.minute.getD 0) ++ ':' :: fmtInt 2 (start.second.getD 0))))))) := by
    unfold encodeUnits
    have : " since ".toList = ' ' :: ("since".toList ++ [' ']) := by decide
    rw [this]
    simp only [List.append_assoc, List.cons_append, List.nil_append]
  obtain ⟨y0, yt, hy0⟩ : ∃ x t, fmtInt 4 (start.year.getD 0) = x :: t := List.exists_cons_of_ne_nil y.1
  have hyd : y0.isDigit = true := y.2.1 y0 (by rw [hy0]; exact List.mem_cons_self ..)
  have hp := parseDate_written ⟨y.1, y.2.1⟩ ⟨m.1, m.2.1⟩ ⟨d.1, d.2.1⟩ ⟨hh.1, hh.2.1⟩ ⟨mi.1, mi.2.1⟩ ⟨s.1, s.2.1⟩
  set D := fmtInt 4 (start.year.getD 0) ++ '-' ::
      (fmtInt 2 (start.month.getD 1) ++ '-' :: (fmtInt 2 (start.day.getD 1) ++ ' ' :: (fmtInt 2 (start.hour.getD 0) ++ ':' ::
      (fmtInt 2 (start.minute.getD 0) ++ ':' :: fmtInt 2 (start.second.getD 0))))) with hD
  have hDn : '\n' ∉ D := by
    simp [hD, newline_not_mem y.2.1, newline_not_mem m.2.1, newline_not_mem d.2.1, newline_not_mem hh.2.1, newline_not_mem mi.2.1,
      newline_not_mem s.2.1]
  have hDs : List.dropWhile isSpace D = D := by
    rw [hD, hy0, List.cons_append, List.dropWhile_cons_of_neg (by rw [not_space_of_digit hyd]; simp)]
  have hms : matchSince (encodeUnits (unitName u) start) = some (unitName u, D) := by
    rw [he]
    obtain ⟨t1, t2⟩ := takeWhile_stop (p := isAlpha) a2 (x := ' ') (by decide) (r := "since".toList ++ ' ' :: D)
    unfold matchSince
    simp only [t1, t2]
    have e1 : List.dropWhile isSpace (' ' :: ("since".toList ++ ' ' :: D)) = "since".toList ++ ' ' :: D := by
      rw [List.dropWhile_cons_of_pos (by decide)]
      rfl
    have e0 : (' ' :: ("since".toList ++ ' ' :: D)) ≠ "since".toList ++ ' ' :: D := fun hc =>
      absurd (congrArg List.length hc) (by simp)
    rw [e1, if_pos ⟨a1, e0, List.prefix_append _ _⟩]
    · have e2 : List.drop 5 ("since".toList ++ ' ' :: D) = ' ' :: D := rfl
      rw [e2]
      have e3 : List.dropWhile isSpace (' ' :: D) = D := by
        rw [List.dropWhile_cons_of_pos (by decide), hDs]
      have e4 : ' ' :: D ≠ D := fun hc => absurd (congrArg List.length hc) (by simp)
      rw [e3, if_pos e4, line_id hDn]
  unfold decodeUnits
  rw [hms]
  simp only [Option.bind_some, hp, Option.map_some, a3, y.2.2.1, m.2.2.1, d.2.2.1, hh.2.2.1, mi.2.2.1, s.2.2.1, getDates,
    Int.toNat_of_nonneg b1, Int.toNat_of_nonneg b2, Int.toNat_of_nonneg b3, Int.toNat_of_nonneg b4, Int.toNat_of_nonneg b5,
    Int.toNat_of_nonneg b6]

example : encodeUnits (unitName .hours) { year := some 800, month := some 2, day := some 28, hour := some 6 } =
    "hours since 0800-02-28 06:00:00".toList := by decide +kernel
example : decodeUnits "Day  since 1990-1-2T03:04".toList = some ("days".toList, ⟨1990, 1, 2, 3, 4, 0⟩) := by decide +kernel

/-- A negative year cannot be read back. -/
theorem negative_year_violated : decodeUnits (encodeUnits (unitName .days) { year := some (-5) }) = none := by decide +kernel

/-! ### C51: time axes -/

/-- C51: every calendar is written under a name that is read as that calendar. -/
theorem calendar_roundtrip (c : Cal) : decodeCalendar (encodeCalendar c) = some c := by cases c <;> decide +kernel

theorem getDates_full (d : Date) : getDates (full d) = d := rfl

/-- what one value of a time axis is read back as -/
theorem value_back (c : Cal) (u : Units) (start d : DateDict) (hs : 1 ≤ (getDates start).month ∧ (getDates start).month ≤ 12)
    (hd : ValidDate c (getDates d)) :
    ∃ v, dateAsValPy c start d u = some v ∧ valAsDatePy c (full (getDates start)) v u false = some (full (getDates d)) := by
  obtain ⟨v, h1, h2⟩ := py_date_roundtrip c (getDates start) (getDates d) u hs hd
  exact ⟨v, h1, h2⟩

theorem values_back (c : Cal) (u : Units) (start : DateDict) (hs : 1 ≤ (getDates start).month ∧ (getDates start).month ≤ 12) :
    ∀ dates : List DateDict, (∀ d ∈ dates, ValidDate c (getDates d)) →
    ∃ vals, (dates.mapM fun d => dateAsValPy c start d u) = some vals ∧
      (vals.mapM fun v => valAsDatePy c (full (getDates start)) v u false) = some (dates.map fun d => full (getDates d))
  | [], _ => ⟨[], rfl, rfl⟩
  | d :: l, h => by
    obtain ⟨v, h1, h2⟩ := value_back c u start d hs (h d (List.mem_cons_self ..))
    obtain ⟨vals, h3, h4⟩ := values_back c u start hs l fun x hx => h x (List.mem_cons_of_mem _ hx)
    refine ⟨v :: vals, ?_, ?_⟩
    · rw [List.mapM_cons, h1, h3]; rfl
    · rw [List.mapM_cons, h2, h4]; rfl

/-- C51: a time axis written to CF metadata and read back has the same calendar, unit and start date and the same dates,
whatever the calendar, the unit, the start date (with all six fields, from year 0 on) and the number and order of the
dates; except that an axis that starts in year 0 and never leaves it comes back without years. -/
theorem time_roundtrip (c : Cal) (u : Units) (s : Date) (dates : List Date) (hn : NonNeg s) (hs : 1 ≤ s.month ∧ s.month ≤ 12)
    (hd : ∀ d ∈ dates, ValidDate c d) :
    (encodeTime ⟨c, u, full s, dates.map full⟩).bind decodeTime =
      some (if s.year = 0 ∧ ∀ d ∈ dates, d.year = 0 then ⟨c, u, dropYear (full s), dates.map fun d => dropYear (full d)⟩
        else ⟨c, u, full s, dates.map full⟩) := by
  obtain ⟨vals, h1, h2⟩ := values_back c u (full s) hs (dates.map full) (by
    intro d hd'
    obtain ⟨x, hx, rfl⟩ := List.mem_map.1 hd'
    exact hd x hx)
  unfold encodeTime
  rw [h1]
  simp only [Option.map_some, Option.bind_some, decodeTime, calendar_roundtrip]
  rw [units_roundtrip u (full s) hn]
  simp only [Option.bind_some, (unitName_alpha u).2.2.2]
  rw [h2]
  have hm : ((dates.map full).map fun d => full (getDates d)) = dates.map full := by
    rw [List.map_map]; rfl
  simp only [Option.map_some, getDates_full, hm]
  congr 1
  have hc : (s.year = 0 ∧ ∀ d ∈ dates.map full, d.year = some 0) ↔ (s.year = 0 ∧ ∀ d ∈ dates, d.year = 0) := by
    refine and_congr_right fun _ => ?_
    simp [List.mem_map, full]
  by_cases h : s.year = 0 ∧ ∀ d ∈ dates, d.year = 0
  · rw [if_pos h]
    refine (if_pos (hc.2 h)).trans ?_
    rw [List.map_map]; rfl
  · rw [if_neg h]
    exact if_neg (fun h' => h (hc.1 h'))

/-- C51: a climatology (dates without a year) comes back as one: the same calendar, unit and dates. -/
theorem climatology_roundtrip (c : Cal) (u : Units) (s : Date) (dates : List Date) (hn : NonNeg s) (hy : s.year = 0)
    (hs : 1 ≤ s.month ∧ s.month ≤ 12) (hd : ∀ d ∈ dates, ValidDate c d ∧ d.year = 0) :
    (encodeTime ⟨c, u, dropYear (full s), dates.map fun d => dropYear (full d)⟩).bind decodeTime =
      some ⟨c, u, dropYear (full s), dates.map fun d => dropYear (full d)⟩ := by
  have e : ∀ d : Date, d.year = 0 → getDates (dropYear (full d)) = d := by
    intro d h; cases d; simp [getDates, dropYear, full] at h ⊢; exact h.symm
  obtain ⟨vals, h1, h2⟩ := values_back c u (dropYear (full s)) (by rw [e s hy]; exact hs) (dates.map fun d => dropYear (full d)) (by
    intro d hd'
    obtain ⟨x, hx, rfl⟩ := List.mem_map.1 hd'
    rw [e x (hd x hx).2]
    exact (hd x hx).1)
  unfold encodeTime
  rw [h1]
  simp only [Option.map_some, Option.bind_some, decodeTime, calendar_roundtrip]
  rw [units_roundtrip u _ (by rw [e s hy]; exact hn)]
  simp only [Option.bind_some, (unitName_alpha u).2.2.2]
  rw [h2]
  have hm : ((dates.map fun d => dropYear (full d)).map fun d => full (getDates d)) = dates.map full := by
    rw [List.map_map]
    refine List.map_congr_left fun d hd' => ?_
    show full (getDates (dropYear (full d))) = full d
    rw [e d (hd d hd').2]
  simp only [Option.map_some, e s hy, hm]
  congr 1
  refine (if_pos ⟨hy, fun d hd' => ?_⟩).trans ?_
  · rw [List.map_map]; rfl
  · obtain ⟨x, hx, rfl⟩ := List.mem_map.1 hd'
    simp [full, (hd x hx).2]

example := time_roundtrip .standard .hours ⟨1979, 11, 5, 6, 0, 0⟩ [⟨2000, 2, 29, 23, 30, 1⟩, ⟨1900, 1, 1, 0, 0, 0⟩]
  (by unfold NonNeg; decide) (by decide) (by decide)
example := climatology_roundtrip .noleap .days ⟨0, 1, 1, 0, 0, 0⟩ [⟨0, 2, 28, 12, 0, 0⟩, ⟨0, 12, 31, 0, 0, 0⟩]
  (by unfold NonNeg; decide) rfl (by decide) (by decide)

/-- A climatology that keeps only the month comes back with a day and a time of day it did not have. -/
theorem month_climatology_violated :
    ((encodeTime ⟨.noleap, .days, { month := some 1 }, [{ month := some 1 }, { month := some 2 }]⟩).bind decodeTime).map TimeAx.dates =
      some [⟨none, some 1, some 1, some 0, some 0, some 0⟩, ⟨none, some 2, some 1, some 0, some 0, some 0⟩] := by decide +kernel

/-! ### C68: axes -/

/-- C68: auxiliary arrays come back under their own names, from the variables they were stored in, for names without
blanks. -/
theorem aux_roundtrip (axis : Name) (aux vars : List Name) (hne : aux ≠ []) (hax : ' ' ∉ axis) (haux : ∀ a ∈ aux, ' ' ∉ a)
    (hv : ∀ n ∈ (encodeAux axis aux).1, n ∈ vars) :
    decodeAux axis vars (encodeAux axis aux).2 = some (aux.map fun a => (a, axis ++ ['_'] ++ a)) := by
  have hs : (encodeAux axis aux).2.splitOn ' ' = aux.map fun a => axis ++ ['_'] ++ a := by
    unfold encodeAux
    refine List.splitOn_intercalate _ (fun l hl => ?_) (by simpa using hne)
    obtain ⟨a, ha, rfl⟩ := List.mem_map.1 hl
    simp [hax, haux a ha]
  unfold decodeAux
  simp only [hs]
  rw [if_pos (show ∀ a ∈ aux.map fun a => axis ++ ['_'] ++ a, a ∈ vars from hv)]
  congr 1
  rw [List.map_map]
  refine List.map_congr_left fun a _ => ?_
  simp only [Function.comp, dropPrefix]
  rw [if_pos (List.prefix_append _ _)]
  congr 1
  have : axis.length + 1 = (axis ++ ['_']).length := by simp
  rw [this, List.drop_left]

example := aux_roundtrip "eta".toList ["A".toList, "B".toList] ["u".toList, "eta_A".toList, "eta_B".toList] (by decide)
  (by decide) (by decide) (by decide)

/-- A name with a blank is split in two. -/
theorem aux_blank_violated : decodeAux "x".toList (encodeAux "x".toList ["a b".toList]).1 (encodeAux "x".toList ["a b".toList]).2 = none := by
  decide +kernel

/-- C68: latitudes, longitudes, pressures and hybrid levels (with their coefficients) come back as such, whatever
attributes and name the axis has. -/
theorem class_roundtrip (own name : Name) (a : Atts) (ab : Bool) :
    decodeClass own name (encodeAtts ["Lat".toList, "YAxis".toList, "Axis".toList] a) ab = "Lat".toList ∧
    decodeClass own name (encodeAtts ["Lon".toList, "XAxis".toList, "Axis".toList] a) ab = "Lon".toList ∧
    decodeClass own name (encodeAtts ["Pres".toList, "ZAxis".toList, "Axis".toList] a) ab = "Pres".toList ∧
    decodeClass own name (encodeAtts ["Hybrid".toList, "ZAxis".toList, "Axis".toList] a) true = "Hybrid".toList := by
  refine ⟨?_, ?_, ?_, ?_⟩ <;> simp [decodeClass, encodeAtts, isa, lower]

/-- Nothing in the name or the attributes suggests another kind of axis. -/
def _root_.PyGeode.Spec.PlainAtts (name : Name) (a : Atts) : Prop :=
  lower (a.standardName.getD (lower (a.longName.getD name))) ∉
    ["latitude".toList, "longitude".toList, "air_pressure".toList, "atmosphere_hybrid_sigma_pressure_coordinate".toList, "station".toList] ∧
  a.units.getD [] ∉ ["degrees_north".toList, "degrees_east".toList, "hPa".toList, "mbar".toList]

/-- C68: plain x, y, z and t axes come back as such, unless their name or attributes suggest something else. -/
theorem plain_roundtrip (own name : Name) (a : Atts) (ab : Bool) (h : PlainAtts name a) :
    decodeClass own name (encodeAtts ["XAxis".toList, "Axis".toList] a) ab = "XAxis".toList ∧
    decodeClass own name (encodeAtts ["YAxis".toList, "Axis".toList] a) ab = "YAxis".toList ∧
    decodeClass own name (encodeAtts ["ZAxis".toList, "Axis".toList] a) ab = "ZAxis".toList ∧
    decodeClass own name (encodeAtts ["TAxis".toList, "Axis".toList] a) ab = "TAxis".toList := by
  obtain ⟨h1, h2⟩ := h
  simp only [List.mem_cons, List.not_mem_nil, or_false, not_or] at h1 h2
  obtain ⟨a1, a2, a3, a4, a5⟩ := h1
  obtain ⟨b1, b2, b3, b4⟩ := h2
  have key : ∀ ax : Name, decodeClass own name { a with axis := some ax } ab =
      decodeClass own [] { axis := some ax } ab := by
    intro ax
    unfold decodeClass
    simp only [a1, a2, a3, a4, a5, b1, b2, b3, b4, List.mem_cons, List.not_mem_nil, or_false, false_and, if_false, Option.getD_none]
    rfl
  have e1 : encodeAtts ["XAxis".toList, "Axis".toList] a = { a with axis := some "X".toList } := rfl
  have e2 : encodeAtts ["YAxis".toList, "Axis".toList] a = { a with axis := some "Y".toList } := rfl
  have e3 : encodeAtts ["ZAxis".toList, "Axis".toList] a = { a with axis := some "Z".toList } := rfl
  have e4 : encodeAtts ["TAxis".toList, "Axis".toList] a = { a with axis := some "T".toList } := rfl
  rw [e1, e2, e3, e4, key, key, key, key]
  cases ab <;> exact ⟨rfl, rfl, rfl, rfl⟩

example : PlainAtts "depth".toList { units := some "m".toList } := by
  unfold PlainAtts; decide +kernel

/-- A height axis comes back as a plain z axis, and a z axis called Latitude as a latitude. -/
theorem class_violated : decodeClass "NamedAxis".toList "z".toList (encodeAtts ["Height".toList, "ZAxis".toList, "Axis".toList] {}) false = "ZAxis".toList ∧
    decodeClass "NamedAxis".toList "Latitude".toList (encodeAtts ["ZAxis".toList, "Axis".toList] {}) false = "Lat".toList := by
  decide +kernel

/-! ### C52: fill values -/

/-- C52: of the three attributes, the first that is set (in the order FillValue, _FillValue, missing_value) gives the fill
value, provided those that are set are not 0. -/
theorem pickFill_first_partial (a b c : Option (Option ℚ)) (h : ∀ f ∈ [a, b, c], f ≠ some (some 0)) :
    pickFill a b c = ((a.or b).or c) := by
  simp only [List.mem_cons, List.not_mem_nil, or_false, forall_eq_or_imp, forall_eq] at h
  obtain ⟨ha, hb, hc⟩ := h
  unfold pickFill
  rcases a with _ | a <;> rcases b with _ | b <;> rcases c with _ | c <;> simp_all

/-- A fill value 0 is not used. -/
theorem pickFill_zero_violated : pickFill none (some (some 0)) none = none ∧
    decodeCell (pickFill none (some (some 0)) none) none none (some 0) = some 0 := by decide +kernel

/-- What is expected of a stored value: NaN if it is the fill value (or NaN already), and otherwise `x * scale + offset`. -/
def _root_.PyGeode.Spec.unpacked (fill : Option ℚ) (scale offset : ℚ) (x : Option ℚ) : Option ℚ :=
  x.bind fun x => if fill = some x then none else some (x * scale + offset)

/-- C52: exactly the cells that hold the fill value become NaN, and all others are scaled and shifted, in every request. -/
theorem unpack_correct (nr : List ℚ → ℚ) (junk : List ℕ → Option ℚ) (x : Var (Option ℚ)) (new : List Axis) (fill scale offset : Option ℚ)
    (data : List ℕ → Option ℚ) (hx : Contains x data) (hr : Regular x.axes) (hl : x.axes.map Axis.len = new.map Axis.len) :
    ∃ y, varNewaxes nr junk x new (fill.map some) scale offset = some y ∧ y.axes = new ∧
      Contains y fun k => unpacked fill (scale.getD 1) (offset.getD 0) (data k) := by
  unfold varNewaxes
  rw [if_pos hl]
  refine ⟨_, rfl, rfl, ?_⟩
  have hcell : ∀ v, decodeCell (fill.map some) scale offset v = unpacked fill (scale.getD 1) (offset.getD 0) v := by
    intro v
    rcases v with _ | v <;> rcases fill with _ | f <;> rcases scale with _ | s <;> rcases offset with _ | o <;>
      simp [decodeCell, unpacked, eq_comm]
  refine contains_ofView junk _ _ _ fun I hI hne => ?_
  obtain ⟨r, h1, h2⟩ := read_own nr junk x data hx hr I (by rw [hl]; exact hI) hne
  refine ⟨r.map (decodeCell (fill.map some) scale offset), by show (x.read nr junk ⟨x.axes, I⟩).map _ = _; rw [h1]; rfl, ?_⟩
  refine ⟨h2.1, fun k hk => ?_⟩
  simp only [NArr.map]
  rw [h2.2 k hk, hcell]

/-! ### C30: compact dates -/

/-- C30: yyyymmddhh. -/
theorem compact_hours (fmt : Name) (hf : lower fmt = "yyyymmddhh".toList) (y m d h : ℤ) (hm : 0 ≤ m ∧ m < 100) (hd : 0 ≤ d ∧ d < 100)
    (hh : 0 ≤ h ∧ h < 100) : decodeCompact fmt (1000000 * y + 10000 * m + 100 * d + h) = some ⟨y, m, d, h, 0, 0⟩ := by
  unfold decodeCompact
  rw [if_pos hf]
  simp only [Int.fdiv_eq_ediv_of_nonneg _ (show (0:ℤ) ≤ 1000000 by norm_num), Int.fdiv_eq_ediv_of_nonneg _ (show (0:ℤ) ≤ 10000 by norm_num),
    Int.fdiv_eq_ediv_of_nonneg _ (show (0:ℤ) ≤ 100 by norm_num), Int.fmod_eq_emod_of_nonneg _ (show (0:ℤ) ≤ 1000000 by norm_num),
    Int.fmod_eq_emod_of_nonneg _ (show (0:ℤ) ≤ 10000 by norm_num), Int.fmod_eq_emod_of_nonneg _ (show (0:ℤ) ≤ 100 by norm_num)]
  simp only [Option.some.injEq, Date.mk.injEq, and_true]
  refine ⟨?_, ?_, ?_, ?_⟩ <;> omega

/-- C30: yyyymmdd. -/
theorem compact_days (fmt : Name) (hf : lower fmt = "yyyymmdd".toList) (y m d : ℤ) (hm : 0 ≤ m ∧ m < 100) (hd : 0 ≤ d ∧ d < 100) :
    decodeCompact fmt (10000 * y + 100 * m + d) = some ⟨y, m, d, 0, 0, 0⟩ := by
  unfold decodeCompact
  rw [if_neg (by rw [hf]; decide), if_pos hf]
  simp only [Int.fdiv_eq_ediv_of_nonneg _ (show (0:ℤ) ≤ 10000 by norm_num),
    Int.fdiv_eq_ediv_of_nonneg _ (show (0:ℤ) ≤ 100 by norm_num),
    Int.fmod_eq_emod_of_nonneg _ (show (0:ℤ) ≤ 10000 by norm_num), Int.fmod_eq_emod_of_nonneg _ (show (0:ℤ) ≤ 100 by norm_num)]
  simp only [Option.some.injEq, Date.mk.injEq, and_true]
  refine ⟨?_, ?_, ?_⟩ <;> omega

/-- C30: other formats are refused. -/
theorem compact_refused (fmt : Name) (h1 : lower fmt ≠ "yyyymmddhh".toList) (h2 : lower fmt ≠ "yyyymmdd".toList) (v : ℤ) :
    decodeCompact fmt v = none := by
  unfold decodeCompact
  rw [if_neg h1, if_neg h2]

example : decodeCompact "YYYYMMDDHH".toList 2011013106 = some ⟨2011, 1, 31, 6, 0, 0⟩ := by decide +kernel

end Cf
end PyGeode
