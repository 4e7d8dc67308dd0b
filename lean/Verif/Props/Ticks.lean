/-
C89: the ticks of a time axis.  C90: the choice of the multiple.
-/
import Verif.Model.Ticks
import Verif.Props.TimeRange

namespace PyGeode
open Spec Calendar Cf DateText

namespace Spec
open Ticks

/-- The dates a generator puts ticks at: 1 January of the years that are multiples; the first of every `mult`-th month of the year,
January included; the beginning of every day; every `mult`-th hour of the day, minute of the hour, second of the minute. -/
def OnTick : Gen → ℤ → Date → Prop
  | .year, m, d => m ∣ d.year ∧ d.month = 1 ∧ d.day = 1 ∧ d.hour = 0 ∧ d.minute = 0 ∧ d.second = 0
  | .month, m, d => m ∣ d.month - 1 ∧ d.day = 1 ∧ d.hour = 0 ∧ d.minute = 0 ∧ d.second = 0
  | .day, m, d => m ∣ d.day - 1 ∧ d.hour = 0 ∧ d.minute = 0 ∧ d.second = 0
  | .hour, m, d => m ∣ d.hour ∧ d.minute = 0 ∧ d.second = 0
  | .minute, m, d => m ∣ d.minute ∧ d.second = 0
  | .second, m, d => m ∣ d.second

/-- The multiples that divide the next larger unit evenly. Months have different lengths, so for days only 1. -/
def Divides : Gen → ℤ → Prop
  | .year, _ => True
  | .month, m => m ∣ 12
  | .day, m => m = 1
  | .hour, m => m ∣ 24
  | .minute, m => m ∣ 60
  | .second, m => m ∣ 60

end Spec

namespace Ticks

/-- the date with its month in 1..12 -/
def norm (d : Date) : Date := { d with year := d.year + (d.month - 1) / 12, month := (d.month - 1) % 12 + 1 }

theorem norm_eq {d : Date} (h : 1 ≤ d.month ∧ d.month ≤ 12) : norm d = d := by
  unfold norm
  have h1 : (d.month - 1) / 12 = 0 := by omega
  have h2 : (d.month - 1) % 12 + 1 = d.month := by omega
  rw [h1, h2, add_zero]

theorem norm_month (d : Date) : 1 ≤ (norm d).month ∧ (norm d).month ≤ 12 := by
  unfold norm; simp only; omega

theorem dateAsVal_norm (c : Cal) {s : Date} (hs : 1 ≤ s.month ∧ s.month ≤ 12) (d : Date) :
    dateAsVal c s d = some ((count c).abs (norm d) - (count c).abs s) := by
  rw [← dateAsVal_eq c hs (norm_month d)]
  have := month_wrap c s d.year ((d.month - 1) % 12 + 1) ((d.month - 1) / 12) d.day d.hour d.minute d.second
  have e : (d.month - 1) % 12 + 1 + 12 * ((d.month - 1) / 12) = d.month := by omega
  rw [e] at this
  exact this

theorem diff_norm (c : Cal) {A : DateDict} (ha : 1 ≤ (getDates A).month ∧ (getDates A).month ≤ 12) (B : DateDict) (u : Units) :
    dateAsValPy c A B u = some ((((count c).abs (norm (getDates B)) - (count c).abs (getDates A) : ℤ) : ℚ) / unitfactor u) := by
  unfold dateAsValPy
  rw [dateAsVal_norm c ha]; rfl

section
variable (t : TAxis)

/-- seconds of the start date -/
def TAxis.a0 : ℤ := (count t.c).abs (getDates t.start)

variable {t} (hs : 1 ≤ (getDates t.start).month ∧ (getDates t.start).month ≤ 12)
include hs

theorem value_norm (D : DateDict) :
    t.value D = some ((((count t.c).abs (norm (getDates D)) - t.a0 : ℤ) : ℚ) / unitfactor t.u) := diff_norm t.c hs D t.u

theorem value_at {D : DateDict} (h : 1 ≤ (getDates D).month ∧ (getDates D).month ≤ 12) :
    t.value D = some ((((count t.c).abs (getDates D) - t.a0 : ℤ) : ℚ) / unitfactor t.u) := by
  rw [value_norm hs, norm_eq h]

theorem date_near (v : ℚ) : ∃ d, t.date v = some (full d) ∧ ValidDate t.c d ∧ (count t.c).abs d = t.a0 + npRound (v * unitfactor t.u) := by
  obtain ⟨d, h1, h2, h3⟩ := valAsDate_spec t.c (getDates t.start) hs (npRound (v * unitfactor t.u))
  refine ⟨d, ?_, h2, h3⟩
  unfold TAxis.date valAsDatePy
  rw [h1]; rfl

theorem date_exact {v : ℚ} {z : ℤ} (hv : v = (z : ℚ) / unitfactor t.u) :
    ∃ d, t.date v = some (full d) ∧ ValidDate t.c d ∧ (count t.c).abs d = t.a0 + z := by
  obtain ⟨d, h1, h2, h3⟩ := date_near hs v
  refine ⟨d, h1, h2, ?_⟩
  rwa [hv, div_mul_cancel₀ _ (TimeRange.uf_pos t.u).ne', npRound_int] at h3

theorem wrap_at (D : DateDict) : ∃ d, t.wrap D = some (full d) ∧ ValidDate t.c d ∧ (count t.c).abs d = (count t.c).abs (norm (getDates D)) := by
  obtain ⟨d, h1, h2, h3⟩ := date_exact hs (v := (((count t.c).abs (norm (getDates D)) - t.a0 : ℤ) : ℚ) / unitfactor t.u) rfl
  refine ⟨d, ?_, h2, by omega⟩
  unfold TAxis.wrap
  rw [value_norm hs, Option.bind_some, h1]

end

/-! ### positions of the ticks -/

theorem bracket {B : ℤ → ℤ} (hB : StrictMono B) {i z : ℤ} {x : ℚ} (h1 : B i ≤ z) (h2 : z < B (i + 1)) (hz : |(z : ℚ) - x| ≤ 1 / 2) :
    (B ((if x > B i then i + 1 else i) - 1) : ℚ) < x ∧ x ≤ B (if x > B i then i + 1 else i) := by
  have hz' := abs_le.1 hz
  split_ifs with h
  · refine ⟨by rwa [add_sub_cancel_right], ?_⟩
    have : ((z + 1 : ℤ) : ℚ) ≤ B (i + 1) := by exact_mod_cast h2
    push_cast at this
    linarith [hz'.1]
  · refine ⟨?_, not_lt.1 h⟩
    have h3 : B (i - 1) < B i := hB (by omega)
    have : ((B (i - 1) + 1 : ℤ) : ℚ) ≤ z := by exact_mod_cast (by omega : B (i - 1) + 1 ≤ z)
    push_cast at this
    linarith [hz'.2]

theorem bracket_mult {B : ℤ → ℤ} (hB : StrictMono B) {i mult : ℤ} {x : ℚ} (hm : 0 < mult) (h1 : (B (i - 1) : ℚ) < x) (h2 : x ≤ B i) :
    (B ((i - 1) / mult * mult) : ℚ) < x ∧ x ≤ B (((i - 1) / mult + 1) * mult) := by
  have e := Int.mul_ediv_add_emod (i - 1) mult
  have l0 := Int.emod_nonneg (i - 1) hm.ne'
  have l1 := Int.emod_lt_of_pos (i - 1) hm
  have h3 : (i - 1) / mult * mult ≤ i - 1 := by rw [mul_comm]; omega
  have h4 : i ≤ ((i - 1) / mult + 1) * mult := by rw [add_mul, mul_comm]; omega
  have a : (B ((i - 1) / mult * mult) : ℚ) ≤ B (i - 1) := by exact_mod_cast hB.monotone h3
  have b : (B i : ℚ) ≤ B (((i - 1) / mult + 1) * mult) := by exact_mod_cast hB.monotone h4
  exact ⟨lt_of_le_of_lt a h1, h2.trans b⟩

/-- first day of a year / month -/
def yearDate (y : ℤ) : Date := ⟨y, 1, 1, 0, 0, 0⟩
def monthDate (i : ℤ) : Date := ⟨i / 12, i % 12 + 1, 1, 0, 0, 0⟩

theorem monthDate_valid (c : Cal) (i : ℤ) : ValidDate c (monthDate i) := by
  have := monthLength_pos c (i / 12) (i % 12 + 1)
  constructor <;> simp only [monthDate] <;> omega

theorem yearDate_valid (c : Cal) (i : ℤ) : ValidDate c (yearDate i) := by
  have := monthLength_pos c i 1
  constructor <;> simp only [yearDate] <;> omega

/-- seconds of the `i`-th unit of a generator -/
def base (c : Cal) : Gen → ℤ → ℤ
  | .year, i => (count c).abs (yearDate i)
  | .month, i => (count c).abs (monthDate i)
  | .day, i => 86400 * i
  | .hour, i => 3600 * i
  | .minute, i => 60 * i
  | .second, i => i

theorem base_mono (c : Cal) (g : Gen) : StrictMono (base c g) := by
  intro i j h
  cases g <;> simp only [base]
  · exact (count_ok c).abs_lt (yearDate_valid c i) (yearDate_valid c j) (Or.inl h)
  · refine (count_ok c).abs_lt (monthDate_valid c i) (monthDate_valid c j) ?_
    unfold Earlier; simp only [monthDate]; omega
  all_goals omega

theorem between {c : Cal} {a d b : Date} (ha : ValidDate c a) (hd : ValidDate c d) (hb : ValidDate c b)
    (h1 : ¬ Earlier d a) (h2 : Earlier d b) : (count c).abs a ≤ (count c).abs d ∧ (count c).abs d < (count c).abs b := by
  refine ⟨?_, (count_ok c).abs_lt hd hb h2⟩
  rcases DayCount.earlier_trichotomy a d with h | h | h
  · exact ((count_ok c).abs_lt ha hd h).le
  · rw [h]
  · exact absurd h h1

/-- what is needed of a generator: ticks are `base (k * mult)`, `prior` finds the one before, `next` the one after -/
structure PriorOk (t : TAxis) (g : Gen) (mult : ℤ) (v : ℚ) (D : DateDict) (k : ℤ) : Prop where
  eq : prior t g mult v = some D
  month : 1 ≤ (getDates D).month ∧ (getDates D).month ≤ 12
  abs : (count t.c).abs (getDates D) = base t.c g (k * mult)
  lt : ((base t.c g (k * mult) - t.a0 : ℤ) : ℚ) < v * unitfactor t.u
  le : v * unitfactor t.u ≤ ((base t.c g ((k + 1) * mult) - t.a0 : ℤ) : ℚ)
  year : g = .year → D.year = some (k * mult)
  months : g = .month → D = full (monthDate (k * mult))

def NextOk (t : TAxis) (g : Gen) (mult : ℤ) : Prop := ∀ k : ℤ,
  next t g mult (((base t.c g (k * mult) - t.a0 : ℤ) : ℚ) / unitfactor t.u) =
    some (((base t.c g ((k + 1) * mult) - t.a0 : ℤ) : ℚ) / unitfactor t.u)

theorem bind_of {α β : Type} {o : Option α} {x : α} {F : α → Option β} {r : Option β} (h : o = some x) (h' : F x = r) : o.bind F = r := by
  subst h; exact h'

theorem gt_iff {u : Units} {v : ℚ} {z : ℤ} : v > (z : ℚ) / unitfactor u ↔ v * unitfactor u > z := by
  rw [gt_iff_lt, gt_iff_lt, div_lt_iff₀ (TimeRange.uf_pos u)]

theorem shift_mono (c : Cal) (g : Gen) (a : ℤ) : StrictMono fun i => base c g i - a := by
  intro i j h
  have := base_mono c g h
  simp only; omega

section
variable {t : TAxis} (hs : 1 ≤ (getDates t.start).month ∧ (getDates t.start).month ≤ 12) {mult : ℤ} (hm : 0 < mult)
include hs hm

/-- the position of a value, given the unit it falls in -/
theorem position (g : Gen) (v : ℚ) {d : Date} (hd : (count t.c).abs d = t.a0 + npRound (v * unitfactor t.u)) {i : ℤ}
    (h1 : base t.c g i ≤ (count t.c).abs d) (h2 : (count t.c).abs d < base t.c g (i + 1)) {w : ℚ}
    (hw : w = ((base t.c g i - t.a0 : ℤ) : ℚ) / unitfactor t.u) :
    ((base t.c g (((if v > w then i + 1 else i) - 1) / mult * mult) - t.a0 : ℤ) : ℚ) < v * unitfactor t.u ∧
    v * unitfactor t.u ≤ ((base t.c g ((((if v > w then i + 1 else i) - 1) / mult + 1) * mult) - t.a0 : ℤ) : ℚ) := by
  have e : (v > w) = (v * unitfactor t.u > ((base t.c g i - t.a0 : ℤ) : ℚ)) := by rw [hw]; exact propext gt_iff
  have hb := bracket (shift_mono t.c g t.a0) (i := i) (z := npRound (v * unitfactor t.u)) (x := v * unitfactor t.u)
    (by show base t.c g i - t.a0 ≤ _; omega) (by show _ < base t.c g (i + 1) - t.a0; omega) (npRound_near _)
  have := bracket_mult (shift_mono t.c g t.a0) hm hb.1 hb.2
  simp only [e]
  exact this

theorem year_prior (v : ℚ) : ∃ D k, PriorOk t .year mult v D k := by
  obtain ⟨d, h1, h2, h3⟩ := date_near hs v
  have hw := value_at hs (D := { year := some d.year }) (by constructor <;> norm_num [getDates])
  have hb : base t.c .year d.year ≤ (count t.c).abs d ∧ (count t.c).abs d < base t.c .year (d.year + 1) := by
    refine between (yearDate_valid _ _) h2 (yearDate_valid _ _) ?_ (Or.inl (by simp [yearDate]))
    have := h2.month; have := h2.day; have := h2.hour; have := h2.minute; have := h2.second
    unfold Earlier; simp only [yearDate]; omega
  have hp := position hs hm .year v h3 hb.1 hb.2 rfl
  refine ⟨{ year := some (((if v > ((base t.c .year d.year - t.a0 : ℤ) : ℚ) / unitfactor t.u then d.year + 1 else d.year) - 1) / mult * mult) },
    _, ?_, ?_, ?_, hp.1, hp.2, ?_, ?_⟩
  · simp only [prior, yearPrior]
    rw [h1, Option.bind_eq_bind, Option.bind_some]
    simp only [full, Option.getD_some]
    rw [hw, Option.bind_eq_bind, Option.bind_some]
    rfl
  · constructor <;> norm_num [getDates]
  · rfl
  · intro _; rfl
  · intro h; cases h

omit hm in
theorem year_next : NextOk t .year mult := by
  intro k
  obtain ⟨d, h1, h2, h3⟩ := date_exact hs (v := ((base t.c .year (k * mult) - t.a0 : ℤ) : ℚ) / unitfactor t.u) rfl
  have : d = yearDate (k * mult) := (count_ok t.c).abs_inj h2 (yearDate_valid _ _) (by rw [h3]; simp only [base]; omega)
  subst this
  simp only [next, yearNext]
  rw [h1, Option.bind_eq_bind, Option.bind_some, value_at hs (by constructor <;> norm_num [getDates, full, yearDate])]
  have : getDates { full (yearDate (k * mult)) with year := some ((full (yearDate (k * mult))).year.getD 1 + mult) } = yearDate ((k + 1) * mult) := by
    simp only [getDates, full, yearDate, Option.getD_some]
    congr 1; ring
  rw [this]; rfl

theorem month_prior (h12 : mult ∣ 12) (v : ℚ) : ∃ D k, PriorOk t .month mult v D k := by
  obtain ⟨d, h1, h2, h3⟩ := date_near hs v
  have hm' := h2.month
  have hw := value_at hs (D := { year := some d.year, month := some d.month }) hm'
  have hi : getDates { year := some d.year, month := some d.month } = monthDate (12 * d.year + d.month - 1) := by
    simp only [getDates, monthDate, Option.getD_some, Option.getD_none, Date.mk.injEq, and_true]; omega
  rw [hi] at hw
  have hb : base t.c .month (12 * d.year + d.month - 1) ≤ (count t.c).abs d ∧
      (count t.c).abs d < base t.c .month (12 * d.year + d.month - 1 + 1) := by
    have := h2.day; have := h2.hour; have := h2.minute; have := h2.second
    refine between (monthDate_valid _ _) h2 (monthDate_valid _ _) ?_ ?_ <;>
    unfold Earlier <;> simp only [monthDate] <;> omega
  have hp := position hs hm .month v h3 hb.1 hb.2 rfl
  -- the month after the value, if the value is not on a month
  obtain ⟨e, he, hev, hei⟩ : ∃ e, monthStep t v (((base t.c .month (12 * d.year + d.month - 1) - t.a0 : ℤ) : ℚ) / unitfactor t.u) (full d) = some (full e) ∧
      (1 ≤ e.month ∧ e.month ≤ 12) ∧ 12 * e.year + e.month - 1 =
        (if v > ((base t.c .month (12 * d.year + d.month - 1) - t.a0 : ℤ) : ℚ) / unitfactor t.u then 12 * d.year + d.month - 1 + 1 else 12 * d.year + d.month - 1) := by
    unfold monthStep
    split_ifs with h
    · obtain ⟨e, q1, q2, q3⟩ := wrap_at hs { year := some d.year, month := some (d.month + 1) }
      have : e = monthDate (12 * d.year + d.month - 1 + 1) := by
        refine (count_ok t.c).abs_inj q2 (monthDate_valid _ _) ?_
        rw [q3]; congr 1
        simp only [norm, getDates, monthDate, Option.getD_some, Option.getD_none, Date.mk.injEq, and_true]; omega
      refine ⟨e, q1, ?_⟩
      rw [this]; simp only [monthDate]; omega
    · exact ⟨d, rfl, hm', rfl⟩
  rw [← hei] at hp
  obtain ⟨f, f1, f2, f3⟩ := wrap_at hs { year := some e.year, month := some ((e.month - 2) / mult * mult + 1) }
  obtain ⟨q, hq⟩ := h12
  have hdiv : (12 * e.year + e.month - 1 - 1) / mult * mult = 12 * e.year + (e.month - 2) / mult * mult := by
    have : 12 * e.year + e.month - 1 - 1 = e.month - 2 + (q * e.year) * mult := by rw [hq]; ring
    rw [this, Int.add_mul_ediv_right _ _ hm.ne', hq]; ring
  have hf : f = monthDate ((12 * e.year + e.month - 1 - 1) / mult * mult) := by
    refine (count_ok t.c).abs_inj f2 (monthDate_valid _ _) ?_
    rw [f3]; congr 1
    rw [hdiv]
    generalize (e.month - 2) / mult * mult = r
    simp only [norm, getDates, monthDate, Option.getD_some, Option.getD_none, Date.mk.injEq, and_true]; omega
  refine ⟨full f, _, ?_, f2.month, ?_, hp.1, hp.2, ?_, ?_⟩
  · simp only [prior, monthPrior]
    rw [h1, Option.bind_eq_bind, Option.bind_some]
    simp only [full, Option.getD_some]
    rw [hw, Option.bind_eq_bind, Option.bind_some]
    have he' := congrArg (fun o : Option DateDict => o.bind fun dt => t.wrap { year := some (dt.year.getD 1), month := some ((dt.month.getD 1 - 2) / mult * mult + 1) }) he
    exact he'.trans f1
  · rw [getDates_full, hf]; rfl
  · intro h; cases h
  · intro _; rw [hf]

omit hm in
theorem month_next : NextOk t .month mult := by
  intro k
  obtain ⟨d, h1, h2, h3⟩ := date_exact hs (v := ((base t.c .month (k * mult) - t.a0 : ℤ) : ℚ) / unitfactor t.u) rfl
  have : d = monthDate (k * mult) := (count_ok t.c).abs_inj h2 (monthDate_valid _ _) (by rw [h3]; simp only [base]; omega)
  subst this
  simp only [next, monthNext]
  rw [h1, Option.bind_eq_bind, Option.bind_some, value_norm hs]
  have : norm (getDates { full (monthDate (k * mult)) with month := some ((full (monthDate (k * mult))).month.getD 1 + mult) }) = monthDate ((k + 1) * mult) := by
    rw [add_mul, one_mul]
    generalize k * mult = r
    simp only [norm, getDates, full, monthDate, Option.getD_some, Date.mk.injEq, and_true]; omega
  rw [this]; rfl

end

/-! ### hours, minutes, seconds -/

/-- seconds of the unit, and units in the next larger one -/
def Level.secs : Level → ℤ
  | .hour => 3600
  | .minute => 60
  | .second => 1
def Level.per : Level → ℤ
  | .hour => 24
  | .minute => 60
  | .second => 60
def Level.gen : Level → Gen
  | .hour => .hour
  | .minute => .minute
  | .second => .second

def dayNo (c : Cal) (d : Date) : ℤ := (count c).Y d.year + (count c).M d.year d.month + d.day - 1

/-- the number of the next larger unit, the number of the unit in it, and the seconds left -/
def Level.high (lv : Level) (c : Cal) (d : Date) : ℤ :=
  match lv with
  | .hour => dayNo c d
  | .minute => dayNo c d * 24 + d.hour
  | .second => (dayNo c d * 24 + d.hour) * 60 + d.minute
def Level.fld (lv : Level) (d : Date) : ℤ :=
  match lv with
  | .hour => d.hour
  | .minute => d.minute
  | .second => d.second
def Level.low (lv : Level) (d : Date) : ℤ :=
  match lv with
  | .hour => d.minute * 60 + d.second
  | .minute => d.second
  | .second => 0

theorem Level.base_eq (lv : Level) (c : Cal) (i : ℤ) : base c lv.gen i = lv.secs * i := by
  cases lv <;> simp [base, gen, secs]

theorem Level.secs_pos (lv : Level) : 0 < lv.secs := by cases lv <;> simp [secs]

theorem Level.units_secs (lv : Level) : unitfactor lv.units = (lv.secs : ℚ) := by cases lv <;> simp [unitfactor, units, secs]

theorem Level.field_full (lv : Level) (d : Date) : lv.field (full d) = lv.fld d := by cases lv <;> rfl

theorem Level.fld_range (lv : Level) {c : Cal} {d : Date} (h : ValidDate c d) : 0 ≤ lv.fld d ∧ lv.fld d < lv.per := by
  have := h.hour; have := h.minute; have := h.second
  cases lv <;> simp only [fld, per] <;> omega

theorem Level.low_range (lv : Level) {c : Cal} {d : Date} (h : ValidDate c d) : 0 ≤ lv.low d ∧ lv.low d < lv.secs := by
  have := h.hour; have := h.minute; have := h.second
  cases lv <;> simp only [low, secs] <;> omega

theorem Level.abs_split (lv : Level) (c : Cal) (d : Date) : (count c).abs d = lv.secs * (lv.high c d * lv.per + lv.fld d) + lv.low d := by
  cases lv <;> simp only [DayCount.abs, dayNo, tod, secs, high, per, fld, low] <;> ring

theorem Level.pack_month (lv : Level) (d : Date) (x : ℤ) : (getDates (lv.pack (full d) x)).month = d.month := by cases lv <;> rfl
theorem Level.after_month (lv : Level) (d : Date) : (getDates (lv.after (full d))).month = d.month := by cases lv <;> rfl
theorem Level.add_month (lv : Level) (d : Date) (x : ℤ) : (getDates (lv.add (full d) x)).month = d.month := by cases lv <;> rfl
theorem Level.bump_month (lv : Level) (d : Date) : (getDates (lv.bump (full d))).month = d.month := by cases lv <;> rfl

theorem Level.abs_pack (lv : Level) (c : Cal) (d : Date) (x : ℤ) :
    (count c).abs (getDates (lv.pack (full d) x)) = lv.secs * (lv.high c d * lv.per + x) := by
  cases lv <;> simp only [DayCount.abs, dayNo, tod, secs, high, per, pack, getDates, full, Option.getD_some, Option.getD_none] <;> ring

theorem Level.abs_after (lv : Level) (c : Cal) (d : Date) :
    (count c).abs (getDates (lv.after (full d))) = lv.secs * ((lv.high c d + 1) * lv.per) := by
  cases lv <;> simp only [DayCount.abs, dayNo, tod, secs, high, per, after, pack, getDates, full, Option.getD_some, Option.getD_none] <;> ring

theorem Level.abs_add (lv : Level) (c : Cal) (d : Date) (x : ℤ) :
    (count c).abs (getDates (lv.add (full d) x)) = lv.secs * (lv.high c d * lv.per + lv.fld d + x) + lv.low d := by
  cases lv <;> simp only [DayCount.abs, dayNo, tod, secs, high, per, fld, low, add, getDates, full, Option.getD_some, Option.getD_none] <;> ring

theorem Level.abs_bump (lv : Level) (c : Cal) (d : Date) :
    (count c).abs (getDates (lv.bump (full d))) = lv.secs * ((lv.high c d + 1) * lv.per) + lv.low d := by
  cases lv <;> simp only [DayCount.abs, dayNo, tod, secs, high, per, low, bump, getDates, full, Option.getD_some, Option.getD_none] <;> ring

/-- a date on a unit -/
theorem Level.on_unit (lv : Level) {c : Cal} {d : Date} (h : ValidDate c d) {i : ℤ} (hi : (count c).abs d = lv.secs * i) :
    lv.low d = 0 ∧ lv.high c d * lv.per + lv.fld d = i := by
  have h1 := lv.low_range h
  have h2 := lv.abs_split c d
  rw [hi] at h2
  generalize lv.high c d * lv.per + lv.fld d = j at *
  cases lv <;> simp only [secs] at * <;> omega

section
variable {t : TAxis} (hs : 1 ≤ (getDates t.start).month ∧ (getDates t.start).month ≤ 12) {mult : ℤ} (hm : 0 < mult)
include hs hm

theorem level_prior (lv : Level) (hn : mult ∣ lv.per) (v : ℚ) : ∃ d k, ValidDate t.c d ∧ levelPrior t lv mult v = some (full d) ∧
    (count t.c).abs d = base t.c lv.gen (k * mult) ∧ ((base t.c lv.gen (k * mult) - t.a0 : ℤ) : ℚ) < v * unitfactor t.u ∧
    v * unitfactor t.u ≤ ((base t.c lv.gen ((k + 1) * mult) - t.a0 : ℤ) : ℚ) := by
  obtain ⟨d, h1, h2, h3⟩ := date_near hs v
  have hw := value_at hs (D := lv.pack (full d) (lv.field (full d))) (by rw [lv.pack_month]; exact h2.month)
  rw [lv.abs_pack, lv.field_full] at hw
  set i := lv.high t.c d * lv.per + lv.fld d with hi
  have hsp := lv.abs_split t.c d
  rw [← hi] at hsp
  have hlow := lv.low_range h2
  have hb1 : base t.c lv.gen i ≤ (count t.c).abs d := by rw [lv.base_eq]; omega
  have hb2 : (count t.c).abs d < base t.c lv.gen (i + 1) := by rw [lv.base_eq, mul_add, mul_one]; omega
  have hp := position hs hm lv.gen v h3 hb1 hb2 (w := ((lv.secs * i - t.a0 : ℤ) : ℚ) / unitfactor t.u) (by rw [lv.base_eq])
  obtain ⟨e, he, hev, hei⟩ : ∃ e, levelStep t lv v (((lv.secs * i - t.a0 : ℤ) : ℚ) / unitfactor t.u) (full d) = some (full e) ∧
      ValidDate t.c e ∧ lv.high t.c e * lv.per + lv.fld e =
        (if v > ((lv.secs * i - t.a0 : ℤ) : ℚ) / unitfactor t.u then i + 1 else i) := by
    unfold levelStep
    split_ifs with h
    · obtain ⟨e, q1, q2, q3⟩ := wrap_at hs (lv.pack (full d) (lv.field (full d) + 1))
      rw [norm_eq (by rw [lv.pack_month]; exact h2.month), lv.abs_pack, lv.field_full, ← add_assoc, ← hi] at q3
      exact ⟨e, q1, q2, (lv.on_unit q2 q3).2⟩
    · exact ⟨d, rfl, h2, hi.symm⟩
  rw [← hei] at hp
  obtain ⟨f, f1, f2, f3⟩ := wrap_at hs (lv.pack (full e) ((lv.field (full e) - 1) / mult * mult))
  rw [norm_eq (by rw [lv.pack_month]; exact hev.month), lv.abs_pack, lv.field_full] at f3
  obtain ⟨g, g1, g2, g3⟩ := wrap_at hs (lv.after (full e))
  rw [norm_eq (by rw [lv.after_month]; exact hev.month), lv.abs_after] at g3
  obtain ⟨q, hq⟩ := hn
  have hdiv : (lv.high t.c e * lv.per + lv.fld e - 1) / mult * mult = lv.high t.c e * lv.per + (lv.fld e - 1) / mult * mult := by
    have : lv.high t.c e * lv.per + lv.fld e - 1 = lv.fld e - 1 + (q * lv.high t.c e) * mult := by rw [hq]; ring
    rw [this, Int.add_mul_ediv_right _ _ hm.ne', hq]; ring
  have hx : (lv.fld e - 1) / mult * mult ≤ lv.per - mult := by
    have h5 := (lv.fld_range hev).2
    have h6 : (lv.fld e - 1) / mult < q := by
      apply Int.ediv_lt_of_lt_mul hm
      rw [mul_comm]; omega
    have h7 : (lv.fld e - 1) / mult * mult ≤ (q - 1) * mult := mul_le_mul_of_nonneg_right (by omega) hm.le
    rw [hq]; linarith [h7, mul_comm q mult]
  refine ⟨f, _, f2, ?_, ?_, hp.1, hp.2⟩
  · unfold levelPrior
    rw [h1, Option.bind_eq_bind, Option.bind_some, lv.field_full, hw, Option.bind_eq_bind, Option.bind_some]
    refine bind_of he (bind_of f1 (bind_of g1 ?_))
    rw [diff_norm t.c (A := full f) f2.month, Option.bind_some, if_neg]
    rw [not_lt, getDates_full, getDates_full, norm_eq g2.month, f3, g3, lv.units_secs]
    have hp' : (0 : ℚ) < lv.secs := by exact_mod_cast lv.secs_pos
    rw [le_div_iff₀ hp']
    have hx' : ((lv.secs * mult : ℤ) : ℚ) ≤ ((lv.secs * ((lv.high t.c e + 1) * lv.per) - lv.secs * (lv.high t.c e * lv.per + (lv.fld e - 1) / mult * mult) : ℤ) : ℚ) := by
      have := mul_le_mul_of_nonneg_left hx lv.secs_pos.le
      exact_mod_cast (by linarith : lv.secs * mult ≤ lv.secs * ((lv.high t.c e + 1) * lv.per) - lv.secs * (lv.high t.c e * lv.per + (lv.fld e - 1) / mult * mult))
    have hm' : (0 : ℚ) < (lv.secs * mult : ℤ) := by exact_mod_cast mul_pos lv.secs_pos hm
    rw [Int.cast_mul] at hx' hm'
    linarith
  · rw [f3, hdiv, lv.base_eq]

theorem level_next (lv : Level) (hn : mult ∣ lv.per) (k : ℤ) :
    levelNext t lv mult (((base t.c lv.gen (k * mult) - t.a0 : ℤ) : ℚ) / unitfactor t.u) =
      some (((base t.c lv.gen ((k + 1) * mult) - t.a0 : ℤ) : ℚ) / unitfactor t.u) := by
  obtain ⟨d, h1, h2, h3⟩ := date_exact hs (v := ((base t.c lv.gen (k * mult) - t.a0 : ℤ) : ℚ) / unitfactor t.u) rfl
  have h3' : (count t.c).abs d = lv.secs * (k * mult) := by rw [h3, lv.base_eq]; ring
  obtain ⟨h4, h5⟩ := lv.on_unit h2 h3'
  unfold levelNext
  have v1 := value_at hs (D := lv.bump (full d)) (by rw [lv.bump_month]; exact h2.month)
  have v2 := value_at hs (D := lv.add (full d) mult) (by rw [lv.add_month]; exact h2.month)
  rw [lv.abs_bump, h4, add_zero] at v1
  rw [lv.abs_add, h4, add_zero, h5] at v2
  rw [h1, Option.bind_eq_bind, Option.bind_some, diff_norm t.c (by rw [lv.add_month]; exact h2.month), Option.bind_eq_bind, Option.bind_some,
    norm_eq (by rw [lv.bump_month]; exact h2.month), lv.abs_bump, lv.abs_add, h4, add_zero, add_zero, h5, v1, v2, lv.units_secs, lv.base_eq]
  split_ifs with hlt
  · have hp' : (0 : ℚ) < lv.secs := by exact_mod_cast lv.secs_pos
    rw [div_lt_iff₀ hp'] at hlt
    have hlt' : ((2 * (lv.secs * ((lv.high t.c d + 1) * lv.per) - lv.secs * (k * mult + mult)) : ℤ) : ℚ) < ((lv.secs * mult : ℤ) : ℚ) := by
      push_cast at hlt ⊢; linarith
    have hz : 2 * (lv.secs * ((lv.high t.c d + 1) * lv.per) - lv.secs * (k * mult + mult)) < lv.secs * mult := by exact_mod_cast hlt'
    have hz2 : 2 * ((lv.high t.c d + 1) * lv.per - (k + 1) * mult) < mult := by
      have : lv.secs * (2 * ((lv.high t.c d + 1) * lv.per - (k + 1) * mult)) < lv.secs * mult := by linarith
      exact lt_of_mul_lt_mul_left this lv.secs_pos.le
    obtain ⟨q, hq⟩ := hn
    have hr := lv.fld_range h2
    -- the tick after is not beyond the larger unit
    have e1 : (lv.high t.c d + 1) * lv.per = ((lv.high t.c d + 1) * q) * mult := by rw [hq]; ring
    rw [e1] at hz2 ⊢
    have a1 : (lv.high t.c d + 1) * q ≤ k + 1 := by
      by_contra h
      push Not at h
      have := mul_le_mul_of_nonneg_right (by omega : k + 2 ≤ (lv.high t.c d + 1) * q) hm.le
      linarith
    have a2 : k < (lv.high t.c d + 1) * q := by
      by_contra h
      push Not at h
      have h8 := mul_le_mul_of_nonneg_right h hm.le
      have : lv.high t.c d * lv.per + lv.per = (lv.high t.c d + 1) * q * mult := by rw [← e1]; ring
      omega
    have : (lv.high t.c d + 1) * q = k + 1 := by omega
    rw [this]
  · rw [add_mul, one_mul]

omit hm in
theorem dayNo_of {c : Cal} {d : Date} (h : ValidDate c d) {i : ℤ} (hi : (count c).abs d = 86400 * i) :
    tod d = 0 ∧ dayNo c d = i := by
  have := DayCount.tod_range h
  unfold DayCount.abs at hi
  unfold dayNo
  omega

omit hs hm in
theorem next_month_day (c : Cal) {d : Date} (h : ValidDate c d) : dayNo c d - d.day + 29 ≤ dayNo c (norm { d with month := d.month + 1, day := 1 }) ∧
    dayNo c d + 1 ≤ dayNo c (norm { d with month := d.month + 1, day := 1 }) := by
  have hm := h.month
  have hd := h.day
  have hl := monthLength_pos c d.year d.month
  unfold norm dayNo
  rcases eq_or_lt_of_le hm.2 with e | hlt
  · have h1 : d.year + (d.month + 1 - 1) / 12 = d.year + 1 := by omega
    have h2 : (d.month + 1 - 1) % 12 + 1 = 1 := by omega
    simp only [h1, h2, (count_ok c).jan, (count_ok c).year]
    rw [e] at hl hd ⊢
    omega
  · have h1 : d.year + (d.month + 1 - 1) / 12 = d.year := by omega
    have h2 : (d.month + 1 - 1) % 12 + 1 = d.month + 1 := by omega
    simp only [h1, h2, (count_ok c).month d.year d.month hm.1 hlt]
    omega

omit hm in
theorem day_prior (v : ℚ) : ∃ d k, ValidDate t.c d ∧ dayPrior t 1 v = some (full d) ∧
    (count t.c).abs d = base t.c .day (k * 1) ∧ ((base t.c .day (k * 1) - t.a0 : ℤ) : ℚ) < v * unitfactor t.u ∧
    v * unitfactor t.u ≤ ((base t.c .day ((k + 1) * 1) - t.a0 : ℤ) : ℚ) := by
  have abs_eq : ∀ d : Date, (count t.c).abs d = 86400 * dayNo t.c d + tod d := fun d => by
    unfold DayCount.abs dayNo; ring
  obtain ⟨d, h1, h2, h3⟩ := date_near hs v
  have hw := value_at hs (D := { year := some d.year, month := some d.month, day := some d.day }) h2.month
  have e0 : (count t.c).abs (getDates { year := some d.year, month := some d.month, day := some d.day }) = 86400 * dayNo t.c d := by
    rw [abs_eq]; simp [dayNo, getDates, tod]
  rw [e0] at hw
  have ht := DayCount.tod_range h2
  have h2d := abs_eq d
  have hp := position hs (mult := 1) (by norm_num) .day v h3 (i := dayNo t.c d) (by simp only [base]; omega) (by simp only [base]; omega)
    (w := ((86400 * dayNo t.c d - t.a0 : ℤ) : ℚ) / unitfactor t.u) rfl
  obtain ⟨e, he, hev, hei⟩ : ∃ e, dayStep t v (((86400 * dayNo t.c d - t.a0 : ℤ) : ℚ) / unitfactor t.u) (full d) = some (full e) ∧
      ValidDate t.c e ∧ dayNo t.c e = (if v > ((86400 * dayNo t.c d - t.a0 : ℤ) : ℚ) / unitfactor t.u then dayNo t.c d + 1 else dayNo t.c d) := by
    unfold dayStep
    split_ifs with h
    · obtain ⟨e, q1, q2, q3⟩ := wrap_at hs { year := some d.year, month := some d.month, day := some (d.day + 1) }
      refine ⟨e, q1, q2, (dayNo_of hs q2 ?_).2⟩
      rw [q3, norm_eq (by exact h2.month), abs_eq]
      simp only [dayNo, getDates, tod, Option.getD_some, Option.getD_none]; ring
    · exact ⟨d, rfl, h2, rfl⟩
  rw [← hei] at hp
  obtain ⟨f, f1, f2, f3⟩ := wrap_at hs { year := some e.year, month := some e.month, day := some ((e.day - 2) / 1 * 1 + 1) }
  have f4 : (count t.c).abs f = 86400 * (dayNo t.c e - 1) := by
    rw [f3, norm_eq (by exact hev.month), abs_eq]
    simp only [dayNo, getDates, tod, Option.getD_some, Option.getD_none, Int.ediv_one]; ring
  obtain ⟨g, g1, g2, g3⟩ := wrap_at hs { year := some e.year, month := some (e.month + 1), day := some 1 }
  have g4 : 86400 * (dayNo t.c e + 1) ≤ (count t.c).abs g := by
    have := (next_month_day t.c hev).2
    rw [g3, abs_eq]
    have e2 : dayNo t.c (norm (getDates { year := some e.year, month := some (e.month + 1), day := some 1 })) = dayNo t.c (norm { e with month := e.month + 1, day := 1 }) := rfl
    rw [e2]
    have e3 : tod (norm (getDates { year := some e.year, month := some (e.month + 1), day := some 1 })) = 0 := rfl
    omega
  refine ⟨f, dayNo t.c e - 1, f2, ?_, ?_, ?_, ?_⟩
  · unfold dayPrior
    rw [h1, Option.bind_eq_bind, Option.bind_some]
    simp only [full, Option.getD_some]
    rw [hw, Option.bind_eq_bind, Option.bind_some]
    refine bind_of he (bind_of f1 (bind_of g1 ?_))
    rw [diff_norm t.c (A := full f) f2.month, Option.bind_some, if_neg]
    · rfl
    rw [not_lt, getDates_full, getDates_full, norm_eq g2.month, f4]
    have : ((86400 : ℤ) : ℚ) ≤ (((count t.c).abs g - 86400 * (dayNo t.c e - 1) : ℤ) : ℚ) := by exact_mod_cast (by omega)
    norm_num [unitfactor] at this ⊢
    linarith
  · rw [f4]; simp only [base, mul_one]
  · simpa only [base, Int.ediv_one, mul_one] using hp.1
  · simpa only [base, Int.ediv_one, mul_one] using hp.2

omit hm in
theorem day_next (k : ℤ) : dayNext t 1 (((base t.c .day (k * 1) - t.a0 : ℤ) : ℚ) / unitfactor t.u) =
      some (((base t.c .day ((k + 1) * 1) - t.a0 : ℤ) : ℚ) / unitfactor t.u) := by
  have abs_eq : ∀ d : Date, (count t.c).abs d = 86400 * dayNo t.c d + tod d := fun d => by
    unfold DayCount.abs dayNo; ring
  obtain ⟨d, h1, h2, h3⟩ := date_exact hs (v := ((base t.c .day (k * 1) - t.a0 : ℤ) : ℚ) / unitfactor t.u) rfl
  obtain ⟨h4, h5⟩ := dayNo_of hs (i := k) h2 (by rw [h3]; simp only [base]; ring)
  simp only [dayNext]
  have e1 : (count t.c).abs (getDates { full d with day := some ((full d).day.getD 1 + 1) }) = 86400 * (k + 1) := by
    rw [abs_eq]
    simp only [dayNo, getDates, full, tod, Option.getD_some] at h4 h5 ⊢
    omega
  have e2 : (count t.c).abs (norm (getDates { full d with month := some ((full d).month.getD 1 + 1), day := some 1 })) =
      86400 * dayNo t.c (norm { d with month := d.month + 1, day := 1 }) := by
    rw [abs_eq]
    simp only [norm, dayNo, getDates, full, tod, Option.getD_some] at h4 ⊢
    omega
  have g := (next_month_day t.c h2).2
  rw [h5] at g
  rw [h1, Option.bind_eq_bind, Option.bind_some, diff_norm t.c (by exact h2.month), Option.bind_eq_bind, Option.bind_some, e1, e2,
    value_norm hs, value_at hs (by exact h2.month), e1, e2]
  generalize dayNo t.c (norm { d with month := d.month + 1, day := 1 }) = n at *
  split_ifs with hlt
  · have : n = k + 1 := by
      rw [div_lt_iff₀ (TimeRange.uf_pos _)] at hlt
      have : ((86400 * n - 86400 * (k + 1) : ℤ) : ℚ) < (86400 : ℤ) := by
        refine hlt.trans_le ?_
        norm_num [unitfactor]
      have : 86400 * n - 86400 * (k + 1) < 86400 := by exact_mod_cast this
      omega
    subst this
    simp only [base, mul_one]
  · simp only [base, mul_one]

end

/-! ### the property -/

section
variable {t : TAxis} (hs : 1 ≤ (getDates t.start).month ∧ (getDates t.start).month ≤ 12) {mult : ℤ} (hm : 0 < mult)
include hs hm

theorem prior_ok (g : Gen) (hg : Divides g mult) (v : ℚ) : ∃ D k, PriorOk t g mult v D k := by
  have lvl : ∀ lv : Level, prior t lv.gen = levelPrior t lv := fun lv => by cases lv <;> rfl
  have go : ∀ lv : Level, mult ∣ lv.per → ∃ D k, PriorOk t lv.gen mult v D k := fun lv h => by
    obtain ⟨d, k, q1, q2, q3, q4, q5⟩ := level_prior hs hm lv h v
    exact ⟨full d, k, by rw [lvl]; exact q2, q1.month, q3, q4, q5, (by cases lv <;> exact fun h => nomatch h), (by cases lv <;> exact fun h => nomatch h)⟩
  cases g
  · exact year_prior hs hm v
  · exact month_prior hs hm hg v
  · obtain rfl : mult = 1 := hg
    obtain ⟨d, k, q1, q2, q3, q4, q5⟩ := day_prior hs v
    exact ⟨full d, k, q2, q1.month, q3, q4, q5, (fun h => by cases h), (fun h => by cases h)⟩
  · exact go .hour hg
  · exact go .minute hg
  · exact go .second hg

theorem next_ok (g : Gen) (hg : Divides g mult) : NextOk t g mult := by
  cases g
  · exact year_next hs
  · exact month_next hs
  · obtain rfl : mult = 1 := hg
    exact day_next hs
  · exact level_next hs hm .hour hg
  · exact level_next hs hm .minute hg
  · exact level_next hs hm .second hg

theorem onTick_iff (g : Gen) (hg : Divides g mult) (z : ℤ) :
    (∃ d, ValidDate t.c d ∧ OnTick g mult d ∧ (count t.c).abs d = z) ↔ ∃ k, z = base t.c g (k * mult) := by
  have lvl : ∀ lv : Level, mult ∣ lv.per → ((∃ d, ValidDate t.c d ∧ (mult ∣ lv.fld d ∧ lv.low d = 0) ∧ (count t.c).abs d = z) ↔
      ∃ k, z = base t.c lv.gen (k * mult)) := fun lv hn => by
    constructor
    · rintro ⟨d, h1, ⟨h2, h3⟩, rfl⟩
      obtain ⟨k, hk⟩ := (dvd_add (hn.mul_left (lv.high t.c d)) h2)
      exact ⟨k, by rw [lv.abs_split, h3, hk, lv.base_eq, mul_comm k]; ring⟩
    · rintro ⟨k, rfl⟩
      obtain ⟨d, -, h2, h3⟩ := date_exact hs (v := ((base t.c lv.gen (k * mult) - t.a0 : ℤ) : ℚ) / unitfactor t.u) rfl
      rw [lv.base_eq] at h3 ⊢
      have h3' : (count t.c).abs d = lv.secs * (k * mult) := by rw [h3]; ring
      obtain ⟨h4, h5⟩ := lv.on_unit h2 h3'
      refine ⟨d, h2, ⟨?_, h4⟩, h3'⟩
      have : lv.fld d = k * mult - lv.high t.c d * lv.per := by omega
      rw [this]
      exact dvd_sub (dvd_mul_left _ _) (hn.mul_left _)
  cases g
  · constructor
    · rintro ⟨⟨y, m, dd, h, mi, s⟩, h1, ⟨⟨k, hk⟩, h2, h3, h4, h5, h6⟩, rfl⟩
      simp only at *
      subst h2 h3 h4 h5 h6
      exact ⟨k, by rw [hk, mul_comm]; rfl⟩
    · rintro ⟨k, rfl⟩
      exact ⟨yearDate (k * mult), yearDate_valid _ _, ⟨dvd_mul_left _ _, rfl, rfl, rfl, rfl, rfl⟩, rfl⟩
  · constructor
    · rintro ⟨⟨y, m, dd, h, mi, s⟩, h1, ⟨h2, h3, h4, h5, h6⟩, rfl⟩
      have hm' := h1.month
      simp only at *
      subst h3 h4 h5 h6
      obtain ⟨k, hk⟩ := dvd_add (Dvd.dvd.mul_right (show mult ∣ 12 from hg) y) h2
      refine ⟨k, ?_⟩
      rw [mul_comm k, ← hk]
      simp only [base]; congr 1
      simp only [monthDate, Date.mk.injEq, and_true]; omega
    · rintro ⟨k, rfl⟩
      refine ⟨monthDate (k * mult), monthDate_valid _ _, ⟨?_, rfl, rfl, rfl, rfl⟩, rfl⟩
      simp only [monthDate, add_sub_cancel_right]
      rw [Int.emod_def]
      exact dvd_sub (dvd_mul_left _ _) (Dvd.dvd.mul_right (show mult ∣ 12 from hg) _)
  · obtain rfl : mult = 1 := hg
    constructor
    · rintro ⟨d, h1, ⟨-, h3, h4, h5⟩, rfl⟩
      refine ⟨dayNo t.c d, ?_⟩
      simp only [DayCount.abs, base, dayNo, tod, h3, h4, h5]; ring
    · rintro ⟨k, rfl⟩
      obtain ⟨d, -, h2, h3⟩ := date_exact hs (v := ((base t.c .day (k * 1) - t.a0 : ℤ) : ℚ) / unitfactor t.u) rfl
      have h3' : (count t.c).abs d = base t.c .day (k * 1) := by rw [h3]; ring
      obtain ⟨h4, -⟩ := dayNo_of hs (i := k) h2 (by rw [h3']; simp only [base]; ring)
      have := h2.hour; have := h2.minute; have := h2.second
      unfold tod at h4
      exact ⟨d, h2, ⟨one_dvd _, by omega, by omega, by omega⟩, h3'⟩
  · refine Iff.trans ?_ (lvl .hour hg)
    refine exists_congr fun d => and_congr_right fun hd => and_congr_left fun _ => and_congr_right fun _ => ?_
    have := hd.minute; have := hd.second
    simp only [Level.low]; omega
  · refine Iff.trans ?_ (lvl .minute hg)
    rfl
  · refine Iff.trans ?_ (lvl .second hg)
    refine exists_congr fun d => and_congr_right fun hd => and_congr_left fun _ => ?_
    simp [OnTick, Level.low, Level.fld]

end

/-- the values between two positions -/
def upTo (S : ℤ → ℚ) (a : ℤ) (n : ℕ) : List ℚ := (List.range n).map fun i : ℕ => S (a + 1 + i)

theorem loop_eq {S : ℤ → ℚ} (hS : StrictMono S) {nx : ℚ → Option ℚ} (hn : ∀ k, nx (S k) = some (S (k + 1))) (b : ℤ) :
    ∀ (fuel : ℕ) (a : ℤ), (b - a).toNat < fuel → loop nx (S b) fuel (S a) = some (upTo S a (b - a).toNat) := by
  intro fuel
  induction fuel with
  | zero => intro a h; omega
  | succ fuel ih =>
    intro a h
    rw [loop]
    split_ifs with hlt
    · have hab := hS.lt_iff_lt.1 hlt
      rw [hn, Option.bind_eq_bind, Option.bind_some, ih (a + 1) (by omega), Option.bind_eq_bind, Option.bind_some]
      have : (b - a).toNat = (b - (a + 1)).toNat + 1 := by omega
      rw [this, upTo, upTo, List.range_succ_eq_map, List.map_cons, List.map_map]
      congr 2
      · congr 1; push_cast; ring
      · refine List.map_congr_left fun i _ => ?_
        simp only [Function.comp]; congr 1; push_cast; ring
    · have : (b - a).toNat = 0 := by
        have := mt hS.lt_iff_lt.2 hlt
        omega
      rw [this]; rfl

theorem mem_upTo {S : ℤ → ℚ} {a b : ℤ} {v : ℚ} : v ∈ upTo S a (b - a).toNat ↔ ∃ k, a < k ∧ k ≤ b ∧ v = S k := by
  unfold upTo
  simp only [List.mem_map, List.mem_range]
  constructor
  · rintro ⟨i, h, rfl⟩; exact ⟨a + 1 + i, by omega, by omega, rfl⟩
  · rintro ⟨k, h1, h2, rfl⟩; exact ⟨(k - a - 1).toNat, by omega, by congr 1; omega⟩

/-- **C89.** The ticks of a generator between `vmin` and `vmax`: exactly the values of the dates on its grid that are in
`[vmin, vmax)`, in increasing order, each once. -/
theorem ticks_correct (t : TAxis) (hs : 1 ≤ (getDates t.start).month ∧ (getDates t.start).month ≤ 12) (g : Gen) {mult : ℤ} (hm : 0 < mult)
    (hg : Divides g mult) (vmin vmax : ℚ) : ∃ (l : List ℚ) (N : ℕ), (∀ fuel, N ≤ fuel → ticks t g mult vmin vmax fuel = some l) ∧
      l.Pairwise (· < ·) ∧
      ∀ v, v ∈ l ↔ vmin ≤ v ∧ v < vmax ∧ ∃ d, ValidDate t.c d ∧ OnTick g mult d ∧ dateAsValPy t.c t.start (full d) t.u = some v := by
  obtain ⟨D1, k1, p1⟩ := prior_ok hs hm g hg vmin
  obtain ⟨D2, k2, p2⟩ := prior_ok hs hm g hg vmax
  set S : ℤ → ℚ := fun k => ((base t.c g (k * mult) - t.a0 : ℤ) : ℚ) / unitfactor t.u with hS
  have up := TimeRange.uf_pos t.u
  have hmono : StrictMono S := by
    intro i j h
    have := base_mono t.c g (mul_lt_mul_of_pos_right h hm)
    refine div_lt_div_of_pos_right ?_ up
    exact_mod_cast (by omega)
  refine ⟨upTo S k1 (k2 - k1).toNat, (k2 - k1).toNat + 1, ?_, ?_, ?_⟩
  · intro fuel hf
    unfold ticks
    refine bind_of p1.eq (bind_of p2.eq (bind_of (value_at hs p1.month) (bind_of (value_at hs p2.month) ?_)))
    rw [p1.abs, p2.abs]
    exact loop_eq hmono (next_ok hs hm g hg) k2 fuel k1 (by omega)
  · unfold upTo
    rw [List.pairwise_map]
    exact List.pairwise_lt_range.imp fun h => hmono (by omega)
  · intro v
    have b1 : S k1 < vmin := (div_lt_iff₀ up).2 p1.lt
    have b2 : vmin ≤ S (k1 + 1) := (le_div_iff₀ up).2 p1.le
    have b3 : S k2 < vmax := (div_lt_iff₀ up).2 p2.lt
    have b4 : vmax ≤ S (k2 + 1) := (le_div_iff₀ up).2 p2.le
    have key : ∀ v : ℚ, (∃ d, ValidDate t.c d ∧ OnTick g mult d ∧ dateAsValPy t.c t.start (full d) t.u = some v) ↔ ∃ k, v = S k := by
      intro v
      constructor
      · rintro ⟨d, h1, h2, h3⟩
        obtain ⟨k, hk⟩ := (onTick_iff hs hm g hg _).1 ⟨d, h1, h2, rfl⟩
        refine ⟨k, ?_⟩
        have h4 := value_at hs (D := full d) h1.month
        rw [getDates_full, hk] at h4
        exact Option.some_injective _ (h3.symm.trans h4)
      · rintro ⟨k, rfl⟩
        obtain ⟨d, h1, h2, h3⟩ := (onTick_iff hs hm g hg _).2 ⟨k, rfl⟩
        refine ⟨d, h1, h2, ?_⟩
        have h4 := value_at hs (D := full d) h1.month
        rw [getDates_full, h3] at h4
        exact h4
    rw [mem_upTo, key]
    constructor
    · rintro ⟨k, h1, h2, rfl⟩
      exact ⟨b2.trans (hmono.monotone (by omega)), (hmono.monotone h2).trans_lt b3, k, rfl⟩
    · rintro ⟨h1, h2, k, rfl⟩
      refine ⟨k, hmono.lt_iff_lt.1 (b1.trans_le h1), ?_, rfl⟩
      have := hmono.lt_iff_lt.1 (h2.trans_le b4)
      omega

/-- **C89.** `nticks` is the number of ticks, if the multiple asked for is the one the generator has. -/
theorem nticks_correct (t : TAxis) (hs : 1 ≤ (getDates t.start).month ∧ (getDates t.start).month ≤ 12) (g : Gen) {mult : ℤ} (hm : 0 < mult)
    (hg : Divides g mult) {vmin vmax : ℚ} (hv : vmin ≤ vmax) : ∃ (l : List ℚ) (N : ℕ), ∀ fuel, N ≤ fuel →
      ticks t g mult vmin vmax fuel = some l ∧ nticks t g mult mult vmin vmax fuel = some (l.length : ℚ) := by
  obtain ⟨D1, k1, p1⟩ := prior_ok hs hm g hg vmin
  obtain ⟨D2, k2, p2⟩ := prior_ok hs hm g hg vmax
  set S : ℤ → ℚ := fun k => ((base t.c g (k * mult) - t.a0 : ℤ) : ℚ) / unitfactor t.u with hS
  have up := TimeRange.uf_pos t.u
  have hmono : StrictMono S := by
    intro i j h
    have := base_mono t.c g (mul_lt_mul_of_pos_right h hm)
    refine div_lt_div_of_pos_right ?_ up
    exact_mod_cast (by omega)
  have b1 : S k1 < vmin := (div_lt_iff₀ up).2 p1.lt
  have b4 : vmax ≤ S (k2 + 1) := (le_div_iff₀ up).2 p2.le
  have hk : k1 ≤ k2 := by
    have := hmono.lt_iff_lt.1 (b1.trans_le (hv.trans b4))
    omega
  have hmq : (mult : ℚ) ≠ 0 := by exact_mod_cast hm.ne'
  refine ⟨upTo S k1 (k2 - k1).toNat, (k2 - k1).toNat + 1, fun fuel hf => ?_⟩
  have ht : ticks t g mult vmin vmax fuel = some (upTo S k1 (k2 - k1).toNat) := by
    unfold ticks
    refine bind_of p1.eq (bind_of p2.eq (bind_of (value_at hs p1.month) (bind_of (value_at hs p2.month) ?_)))
    rw [p1.abs, p2.abs]
    exact loop_eq hmono (next_ok hs hm g hg) k2 fuel k1 (by omega)
  refine ⟨ht, ?_⟩
  have hl : ((upTo S k1 (k2 - k1).toNat).length : ℚ) = ((k2 - k1 : ℤ) : ℚ) := by
    rw [upTo, List.length_map, List.length_range, ← Int.cast_natCast, Int.toNat_of_nonneg (by omega)]
  rw [hl]
  have lvl : ∀ (lv : Level) (h : g = lv.gen), ((dateAsValPy t.c D1 D2 lv.units).bind fun q => some (q / (mult : ℚ))) = some ((k2 - k1 : ℤ) : ℚ) := by
    intro lv h
    rw [diff_norm t.c p1.month, norm_eq p2.month, p1.abs, p2.abs, h, lv.base_eq, lv.base_eq, Option.bind_some, lv.units_secs]
    congr 1
    have : (lv.secs : ℚ) ≠ 0 := by exact_mod_cast lv.secs_pos.ne'
    push_cast
    field_simp
  cases g <;> simp only [nticks]
  · refine bind_of p1.eq (bind_of p2.eq ?_)
    rw [p1.year rfl, p2.year rfl]
    congr 1
    simp only [Option.getD_some]; push_cast; field_simp
  · refine bind_of p1.eq (bind_of p2.eq ?_)
    rw [p1.months rfl, p2.months rfl]
    congr 1
    simp only [full, monthDate, Option.getD_some]
    have : 12 * (k2 * mult / 12) + (k2 * mult % 12 + 1) - (12 * (k1 * mult / 12) + (k1 * mult % 12 + 1)) = k2 * mult - k1 * mult := by omega
    rw [this]; push_cast; field_simp
  · rw [ht, Option.map_some, hl]
  all_goals refine bind_of p1.eq (bind_of p2.eq ?_)
  · exact lvl .hour rfl
  · exact lvl .minute rfl
  · exact lvl .second rfl

/-- the axis "days since 1 January 2000" -/
def axEx (c : Cal) : TAxis := ⟨c, full ⟨2000, 1, 1, 0, 0, 0⟩, .days⟩

example : 1 ≤ (getDates (axEx .standard).start).month ∧ (getDates (axEx .standard).start).month ≤ 12 := by decide
example : Divides .month 3 := by unfold Divides; decide
/-- quarters between the days 10 and 300 of 2000 -/
example : ticks (axEx .standard) .month 3 10 300 10 = some [91, 182, 274] := by decide +kernel
example : ticks (axEx .days360) .hour 6 (1 / 2) 1 10 = some [1 / 2, 3 / 4] := by decide +kernel
example : ticks (axEx .noleap) .day 1 (1 / 2) 3 10 = some [1, 2] := by decide +kernel
example : nticks (axEx .standard) .month 3 3 10 300 0 = some 3 := by decide +kernel

/-- **C89, violated** for multiples that do not divide 12: the ticks depend on where the axis begins, and the last one can be beyond the
end. Every fifth month from day 10 gives 1 June, 1 November, 1 April 2001 (day 456), beyond the end at day 400 -/
theorem month_ticks_violated : ticks (axEx .standard) .month 5 10 400 10 = some [152, 305, 456] ∧
    ticks (axEx .standard) .month 5 160 400 10 = some [305, 456] ∧ ticks (axEx .standard) .month 5 400 800 10 = some [517, 670, 821] := by decide +kernel

/-- **C89, violated** for `nticks` of the hour, minute and second generators with another multiple than the one in use: between noon
and one o'clock there is one multiple of 12 hours, `nticks` for 12 hours of a generator in use with 1 hour says 1/12. -/
theorem nticks_violated : ticks (axEx .standard) .hour 12 (1 / 2) (13 / 24) 10 = some [1 / 2] ∧
    nticks (axEx .standard) .hour 1 12 (1 / 2) (13 / 24) 10 = some (1 / 12) := by decide +kernel

/-! ### C90: the best multiple -/

theorem bestLoop_down {count : ℕ → ℚ} {n : ℕ} {want : ℚ} (hc : Monotone count) : ∀ (fuel i : ℕ), i < fuel → want < count i → i < n →
    (∀ j, i < j → count i ≤ count j) → ∃ k, bestLoop count n want fuel i (count i) = some (count k, k) ∧ k ≤ i ∧
      ∀ j, j < n → |count k - want| ≤ |count j - want| := by
  intro fuel
  induction fuel with
  | zero => intro i h; omega
  | succ fuel ih =>
    intro i hf hw hi hup
    rw [bestLoop]
    by_cases h0 : 0 < i
    · rw [if_pos ⟨hw, h0⟩]
      split_ifs with h1 h2
      · refine ⟨i, rfl, le_refl i, fun j hj => ?_⟩
        rw [abs_of_pos (by linarith : 0 < count i - want)]
        rcases Nat.lt_or_ge j i with h | h
        · have := hc (show j ≤ i - 1 by omega)
          rw [abs_of_nonpos (by linarith)]; linarith
        · have := hc h
          rw [abs_of_nonneg (by linarith)]; linarith
      · refine ⟨i - 1, rfl, by omega, fun j hj => ?_⟩
        rw [abs_of_nonpos (by linarith : count (i - 1) - want ≤ 0)]
        rcases Nat.lt_or_ge j i with h | h
        · have := hc (show j ≤ i - 1 by omega)
          rw [abs_of_nonpos (by linarith)]; linarith
        · have := hc h
          rw [abs_of_nonneg (by linarith)]; linarith
      · obtain ⟨k, hk, hle, hbest⟩ := ih (i - 1) (by omega) (by linarith) (by omega) (fun j hj => hc hj.le)
        exact ⟨k, hk, by omega, hbest⟩
    · rw [if_neg (fun h => h0 h.2), if_neg (fun h => absurd hw (not_lt.2 h.1.le))]
      refine ⟨i, rfl, le_refl i, fun j hj => ?_⟩
      have := hc (show i ≤ j by omega)
      rw [abs_of_nonneg (by linarith), abs_of_nonneg (by linarith)]; linarith

theorem bestLoop_up {count : ℕ → ℚ} {n : ℕ} {want : ℚ} (hc : Monotone count) : ∀ (fuel i : ℕ), n - i < fuel → count i ≤ want → i < n →
    ∃ k, bestLoop count n want fuel i (count i) = some (count k, k) ∧ k < n ∧ ∀ j, j < n → |count k - want| ≤ |count j - want| := by
  intro fuel
  induction fuel with
  | zero => intro i h; omega
  | succ fuel ih =>
    intro i hf hw hi
    rw [bestLoop, if_neg (fun h => absurd hw (not_le.2 h.1))]
    by_cases h0 : count i < want ∧ i < n - 1
    · rw [if_pos h0]
      split_ifs with h1 h2
      · refine ⟨i, rfl, hi, fun j hj => ?_⟩
        rw [abs_of_nonpos (by linarith : count i - want ≤ 0)]
        rcases Nat.lt_or_ge i j with h | h
        · have := hc (show i + 1 ≤ j by omega)
          rw [abs_of_nonneg (by linarith)]; linarith
        · have := hc h
          rw [abs_of_nonpos (by linarith)]; linarith
      · refine ⟨i + 1, rfl, by omega, fun j hj => ?_⟩
        rw [abs_of_nonneg (by linarith : 0 ≤ count (i + 1) - want)]
        rcases Nat.lt_or_ge i j with h | h
        · have := hc (show i + 1 ≤ j by omega)
          rw [abs_of_nonneg (by linarith)]; linarith
        · have := hc h
          rw [abs_of_nonpos (by linarith)]; linarith
      · exact ih (i + 1) (by omega) (by linarith) (by omega)
    · rw [if_neg h0]
      refine ⟨i, rfl, hi, fun j hj => ?_⟩
      by_cases he : count i = want
      · rw [he, sub_self, abs_zero]; exact abs_nonneg _
      · have := hc (show j ≤ i by
          have : ¬ i < n - 1 := fun h => h0 ⟨lt_of_le_of_ne hw he, h⟩
          omega)
        rw [abs_of_nonpos (by linarith), abs_of_nonpos (by linarith)]; linarith

/-- **C90.** `best_mult` ends, for every start, and gives the multiple (its position and its number of ticks) whose number of ticks is
nearest to the one wanted, if the multiples are listed from fewest ticks to most. -/
theorem bestMult_correct {count : ℕ → ℚ} (hc : Monotone count) {n : ℕ} (want : ℚ) {i : ℕ} (hi : i < n) :
    ∃ (k N : ℕ), k < n ∧ (∀ fuel, N ≤ fuel → bestMult count n want i fuel = some (count k, k)) ∧
      ∀ j, j < n → |count k - want| ≤ |count j - want| := by
  have mono : ∀ (f : ℕ) (i : ℕ) (nt : ℚ) (r : ℚ × ℕ), bestLoop count n want f i nt = some r → ∀ g, f ≤ g → bestLoop count n want g i nt = some r := by
    intro f
    induction f with
    | zero => intro i nt r h; cases h
    | succ f ih =>
      intro i nt r h g hg
      obtain ⟨g, rfl⟩ : ∃ g', g = g' + 1 := ⟨g - 1, by omega⟩
      rw [bestLoop] at h ⊢
      split_ifs at h ⊢ with a b c d e
      all_goals first | exact h | exact ih _ _ _ h g (by omega)
  rcases lt_or_ge want (count i) with h | h
  · obtain ⟨k, h1, h2, h3⟩ := bestLoop_down hc (i + 1) i (by omega) h hi (fun j hj => hc hj.le)
    exact ⟨k, i + 1, by omega, fun fuel hf => mono _ _ _ _ h1 _ hf, h3⟩
  · obtain ⟨k, h1, h2, h3⟩ := bestLoop_up hc (n - i + 1) i (by omega) h hi
    exact ⟨k, n - i + 1, h2, fun fuel hf => mono _ _ _ _ h1 _ hf, h3⟩

example : bestMult (fun i => [1, 2, 5, 10, 60].getD i 60) 5 7 0 10 = some (5, 2) ∧ bestMult (fun i => [1, 2, 5, 10, 60].getD i 60) 5 7 4 10 = some (5, 2) := by
  decide +kernel

/-- **C90**, without any assumption on the counts the search still ends, at one of the multiples. -/
theorem bestMult_ends (count : ℕ → ℚ) {n : ℕ} (want : ℚ) {i : ℕ} (hi : i < n) :
    ∃ k N, k < n ∧ N ≤ n + 1 ∧ ∀ fuel, N ≤ fuel → bestMult count n want i fuel = some (count k, k) := by
  have down : ∀ (m i : ℕ), i < n → want < count i → i < m → ∃ k, k < n ∧ ∀ fuel, m ≤ fuel → bestLoop count n want fuel i (count i) = some (count k, k) := by
    intro m
    induction m with
    | zero => intro i _ _ h; omega
    | succ m ih =>
      intro i hi hw hm
      by_cases hr : 0 < i ∧ ¬ count i - want ≤ want - count (i - 1) ∧ ¬ count (i - 1) ≤ want
      · obtain ⟨k, hk, hf⟩ := ih (i - 1) (by omega) (by linarith [hr.2.2]) (by omega)
        refine ⟨k, hk, fun fuel hfuel => ?_⟩
        obtain ⟨f, rfl⟩ : ∃ f, fuel = f + 1 := ⟨fuel - 1, by omega⟩
        rw [bestLoop, if_pos ⟨hw, hr.1⟩, if_neg hr.2.1, if_neg hr.2.2]
        exact hf f (by omega)
      · by_cases h0 : 0 < i
        · by_cases h1 : count i - want ≤ want - count (i - 1)
          · refine ⟨i, hi, fun fuel hfuel => ?_⟩
            obtain ⟨f, rfl⟩ : ∃ f, fuel = f + 1 := ⟨fuel - 1, by omega⟩
            rw [bestLoop, if_pos ⟨hw, h0⟩, if_pos h1]
          · refine ⟨i - 1, by omega, fun fuel hfuel => ?_⟩
            obtain ⟨f, rfl⟩ : ∃ f, fuel = f + 1 := ⟨fuel - 1, by omega⟩
            rw [bestLoop, if_pos ⟨hw, h0⟩, if_neg h1, if_pos (by by_contra h; exact hr ⟨h0, h1, h⟩)]
        · refine ⟨i, hi, fun fuel hfuel => ?_⟩
          obtain ⟨f, rfl⟩ : ∃ f, fuel = f + 1 := ⟨fuel - 1, by omega⟩
          rw [bestLoop, if_neg (fun h => h0 h.2), if_neg (fun h => absurd hw (not_lt.2 h.1.le))]
  have up : ∀ (m i : ℕ), i < n → count i ≤ want → n - i < m → ∃ k, k < n ∧ ∀ fuel, m ≤ fuel → bestLoop count n want fuel i (count i) = some (count k, k) := by
    intro m
    induction m with
    | zero => intro i _ _ h; omega
    | succ m ih =>
      intro i hi hw hm
      have hd : ¬ (want < count i ∧ 0 < i) := fun h => absurd hw (not_le.2 h.1)
      by_cases h0 : count i < want ∧ i < n - 1
      · by_cases h1 : want - count i < count (i + 1) - want
        · refine ⟨i, hi, fun fuel hfuel => ?_⟩
          obtain ⟨f, rfl⟩ : ∃ f, fuel = f + 1 := ⟨fuel - 1, by omega⟩
          rw [bestLoop, if_neg hd, if_pos h0, if_pos h1]
        · by_cases h2 : want < count (i + 1)
          · refine ⟨i + 1, by omega, fun fuel hfuel => ?_⟩
            obtain ⟨f, rfl⟩ : ∃ f, fuel = f + 1 := ⟨fuel - 1, by omega⟩
            rw [bestLoop, if_neg hd, if_pos h0, if_neg h1, if_pos h2]
          · obtain ⟨k, hk, hf⟩ := ih (i + 1) (by omega) (not_lt.1 h2) (by omega)
            refine ⟨k, hk, fun fuel hfuel => ?_⟩
            obtain ⟨f, rfl⟩ : ∃ f, fuel = f + 1 := ⟨fuel - 1, by omega⟩
            rw [bestLoop, if_neg hd, if_pos h0, if_neg h1, if_neg h2]
            exact hf f (by omega)
      · refine ⟨i, hi, fun fuel hfuel => ?_⟩
        obtain ⟨f, rfl⟩ : ∃ f, fuel = f + 1 := ⟨fuel - 1, by omega⟩
        rw [bestLoop, if_neg hd, if_neg h0]
  rcases lt_or_ge want (count i) with h | h
  · obtain ⟨k, hk, hf⟩ := down (i + 1) i hi h (by omega)
    exact ⟨k, i + 1, hk, by omega, hf⟩
  · obtain ⟨k, hk, hf⟩ := up (n - i + 1) i hi h (by omega)
    exact ⟨k, n - i + 1, hk, by omega, hf⟩

end Ticks
end PyGeode
