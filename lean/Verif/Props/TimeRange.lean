/-
C88: time axes from a start date to an end date, or of a given length.
-/
import Verif.Model.TimeRange
import Verif.Props.DateText

namespace PyGeode
open Spec Calendar Cf DateText

namespace TimeRange

theorem arange_length {stop step : ℚ} (h : 0 < step) (k : ℕ) : k < ⌈stop / step⌉.toNat ↔ (k : ℚ) * step < stop := by
  rw [← lt_div_iff₀ h, Int.lt_toNat, Int.lt_ceil]
  norm_cast

theorem arange_n {n : ℕ} {step : ℚ} (h : step ≠ 0) : arange (n * step) step = some ((List.range n).map fun k : ℕ => (k : ℚ) * step) := by
  unfold arange
  rw [if_neg h, mul_div_cancel_right₀ _ h]
  simp

/-- the date read from a text, with what is missing filled in: the start of the year, month or day -/
def _root_.PyGeode.Spec.ReadsAs (t : Name) (d : Date) : Prop := ∃ D, strAsDate t = some D ∧ getDates D = d

/-- the reference date of the new axis: the start if none is given -/
def _root_.PyGeode.Spec.RefDate (s : Date) (ref : Option Name) (f : Date) : Prop := (ref = none ∧ f = s) ∨ ∃ r, ref = some r ∧ ReadsAs r f

theorem year_isSome {t : Name} {D : DateDict} (h : strAsDate t = some D) : D.year.isSome = true := by
  rcases (strAsDate_iff _ _).1 h with h | ⟨s, -, h⟩ <;> cases h <;> rfl

theorem fillStart_eq {t : Name} {D : DateDict} (h : strAsDate t = some D) : fillStart D = getDates D := by
  obtain ⟨y, hy⟩ := Option.isSome_iff_exists.1 (year_isSome h)
  unfold fillStart getDates
  rw [hy]
  rfl

theorem refDate_eq {s : DateDict} {start : Name} (hs : strAsDate start = some s) {ref : Option Name} {f : Date} (h : RefDate (getDates s) ref f) :
    ∃ F, refDate s ref = some F ∧ getDates F = f ∧ fillStart F = f := by
  rcases h with ⟨rfl, rfl⟩ | ⟨r, rfl, F, h1, h2⟩
  · exact ⟨s, rfl, rfl, fillStart_eq hs⟩
  · exact ⟨F, h1, h2, by rw [← h2]; exact fillStart_eq h1⟩

/-- seconds from one date to another -/
theorem diff_eq (c : Cal) {A B : DateDict} (ha : 1 ≤ (getDates A).month ∧ (getDates A).month ≤ 12)
    (hb : 1 ≤ (getDates B).month ∧ (getDates B).month ≤ 12) (u : Units) :
    dateDiff c A B u = some ((((count c).abs (getDates B) - (count c).abs (getDates A) : ℤ) : ℚ) / unitfactor u) := by
  unfold dateDiff dateAsValPy
  rw [dateAsVal_eq c ha hb]; rfl

/-- The date at a value of an axis: it is that long after the start, if the value is a whole number of seconds. -/
theorem date_at (c : Cal) {f : Date} (hf : 1 ≤ f.month ∧ f.month ≤ 12) (u : Units) (v : ℚ) (z : ℤ) (hz : v * unitfactor u = z) :
    ∃ d, valAsDatePy c (full f) v u false = some (full d) ∧ ValidDate c d ∧ (count c).abs d = (count c).abs f + z := by
  obtain ⟨d, h1, h2, h3⟩ := valAsDate_spec c f hf z
  refine ⟨d, ?_, h2, h3⟩
  unfold valAsDatePy
  rw [getDates_full, hz, npRound_int, h1]
  rfl

theorem uf_pos (u : Units) : 0 < unitfactor u := by cases u <;> norm_num [unitfactor]

/-- **C88.** The axis from `start` to `stop` by `step`: it begins at the start and goes on by `step` as long as the time is before
`stop`; counted from the reference date. -/
theorem timeRange_correct (c : Cal) (u : Units) {start stop : Name} {s e f : Date} (hs : ReadsAs start s) (he : ReadsAs stop e)
    {ref : Option Name} (hf : RefDate s ref f) (ms : 1 ≤ s.month ∧ s.month ≤ 12) (me : 1 ≤ e.month ∧ e.month ≤ 12)
    (mf : 1 ≤ f.month ∧ f.month ≤ 12) {step : ℚ} (hstep : 0 < step) :
    ∃ n o : ℚ, dateAsValPy c (full s) (full e) u = some n ∧ dateAsValPy c (full f) (full s) u = some o ∧
      ∃ N : ℕ, timeRange c u start stop step ref false = some (f, (List.range N).map fun k : ℕ => (k : ℚ) * step + o) ∧
        ∀ k : ℕ, k < N ↔ (k : ℚ) * step < n := by
  obtain ⟨S, hS, rfl⟩ := hs
  obtain ⟨E, hE, rfl⟩ := he
  obtain ⟨F, hF, rfl, hF2⟩ := refDate_eq hS hf
  refine ⟨(((count c).abs (getDates E) - (count c).abs (getDates S) : ℤ) : ℚ) / unitfactor u, (((count c).abs (getDates S) - (count c).abs (getDates F) : ℤ) : ℚ) / unitfactor u,
    ?_, ?_, ⌈((((count c).abs (getDates E) - (count c).abs (getDates S) : ℤ) : ℚ) / unitfactor u) / step⌉.toNat, ?_,
    fun k => arange_length hstep k⟩
  · unfold dateAsValPy
    rw [getDates_full, getDates_full, dateAsVal_eq c ms me]
    rfl
  · unfold dateAsValPy
    rw [getDates_full, getDates_full, dateAsVal_eq c mf ms]
    rfl
  · unfold timeRange
    rw [hS, hE]
    simp only [Option.bind_eq_bind, Option.bind_some]
    rw [hF, Option.bind_some, diff_eq c ms me, diff_eq c mf ms, Option.bind_some, Option.bind_some]
    unfold arange
    simp only [Bool.false_eq_true, if_false, if_neg hstep.ne', Option.bind_some]
    rw [hF2, List.map_map]
    rfl

/-- **C88.** The dates of that axis: each is `k` steps after the start, and before the end. -/
theorem timeRange_dates (c : Cal) (u : Units) {start stop : Name} {s e f : Date} (hs : ReadsAs start s) (he : ReadsAs stop e)
    {ref : Option Name} (hf : RefDate s ref f) (ms : 1 ≤ s.month ∧ s.month ≤ 12) (me : 1 ≤ e.month ∧ e.month ≤ 12)
    (mf : 1 ≤ f.month ∧ f.month ≤ 12) {step : ℚ} (hstep : 0 < step) (z : ℤ) (hz : step * unitfactor u = z) :
    ∃ vals, timeRange c u start stop step ref false = some (f, vals) ∧
      List.Forall₂ (fun (v : ℚ) (k : ℕ) => ∃ d, valAsDatePy c (full f) v u false = some (full d) ∧ ValidDate c d ∧
          dateAsVal c s d = some (k * z) ∧ ∃ w, 0 < w ∧ dateAsVal c d e = some w) vals (List.range vals.length) := by
  obtain ⟨n, o, hn, ho, N, h1, h2⟩ := timeRange_correct c u hs he hf ms me mf hstep
  refine ⟨_, h1, ?_⟩
  rw [List.length_map, List.length_range, List.forall₂_map_left_iff, List.forall₂_same]
  intro k hk
  have hk := (h2 k).1 (List.mem_range.1 hk)
  have hn' : n = (((count c).abs e - (count c).abs s : ℤ) : ℚ) / unitfactor u := by
    unfold dateAsValPy at hn
    rw [getDates_full, getDates_full, dateAsVal_eq c ms me] at hn
    exact (Option.some_injective _ hn).symm
  have ho' : o * unitfactor u = (((count c).abs s - (count c).abs f : ℤ) : ℚ) := by
    unfold dateAsValPy at ho
    rw [getDates_full, getDates_full, dateAsVal_eq c mf ms] at ho
    rw [← Option.some_injective _ ho]
    exact div_mul_cancel₀ _ (uf_pos u).ne'
  obtain ⟨d, d1, d2, d3⟩ := date_at c mf u ((k : ℚ) * step + o) (k * z + ((count c).abs s - (count c).abs f)) (by
    rw [add_mul, mul_assoc, hz, ho']; push_cast; ring)
  refine ⟨d, d1, d2, ?_, ?_⟩
  · rw [dateAsVal_eq c ms d2.month, d3]
    congr 1; ring
  · rw [dateAsVal_eq c d2.month me, d3]
    refine ⟨_, ?_, rfl⟩
    have : (k : ℚ) * z < (((count c).abs e - (count c).abs s : ℤ) : ℚ) := by
      rw [hn', lt_div_iff₀ (uf_pos u), mul_assoc, hz] at hk
      exact hk
    have : (k : ℤ) * z < (count c).abs e - (count c).abs s := by exact_mod_cast this
    omega

/-- **C88.** With `inc=True`, if the end is a whole number of steps after the start: the end is the last time. -/
theorem timeRange_inc (c : Cal) (u : Units) {start stop : Name} {s e f : Date} (hs : ReadsAs start s) (he : ReadsAs stop e)
    {ref : Option Name} (hf : RefDate s ref f) (ms : 1 ≤ s.month ∧ s.month ≤ 12) (me : 1 ≤ e.month ∧ e.month ≤ 12)
    (mf : 1 ≤ f.month ∧ f.month ≤ 12) {step : ℚ} (hstep : 0 < step) (m : ℕ)
    (hm : dateAsValPy c (full s) (full e) u = some (m * step)) :
    ∃ o, dateAsValPy c (full f) (full s) u = some o ∧
      timeRange c u start stop step ref true = some (f, (List.range (m + 1)).map fun k : ℕ => (k : ℚ) * step + o) ∧
      dateAsValPy c (full f) (full e) u = some (m * step + o) := by
  obtain ⟨S, hS, rfl⟩ := hs
  obtain ⟨E, hE, rfl⟩ := he
  obtain ⟨F, hF, rfl, hF2⟩ := refDate_eq hS hf
  have hn : (((count c).abs (getDates E) - (count c).abs (getDates S) : ℤ) : ℚ) / unitfactor u = m * step := by
    unfold dateAsValPy at hm
    rw [getDates_full, getDates_full, dateAsVal_eq c ms me] at hm
    exact Option.some_injective _ hm
  refine ⟨(((count c).abs (getDates S) - (count c).abs (getDates F) : ℤ) : ℚ) / unitfactor u, ?_, ?_, ?_⟩
  · unfold dateAsValPy
    rw [getDates_full, getDates_full, dateAsVal_eq c mf ms]
    rfl
  · unfold timeRange
    rw [hS, hE]
    simp only [Option.bind_eq_bind, Option.bind_some]
    rw [hF, Option.bind_some, diff_eq c ms me, diff_eq c mf ms, Option.bind_some, Option.bind_some, hn, if_pos trivial,
      show (m : ℚ) * step + step = ((m + 1 : ℕ) : ℚ) * step by push_cast; ring, arange_n hstep.ne', Option.bind_some, hF2, List.map_map]
    rfl
  · unfold dateAsValPy
    rw [getDates_full, getDates_full, dateAsVal_eq c mf me]
    rw [← hn, Option.map_some, ← add_div]
    push_cast
    congr 2; ring

/-- With `inc=True`, if the end is not a whole number of steps after the start, the axis goes on beyond the end: here to 2 January
18:00 although the end is 2 January 12:00. -/
theorem timeRange_inc_violated : timeRange .standard .hours "1 Jan 2001".toList "12:00 2 Jan 2001".toList 21 none true =
    some (⟨2001, 1, 1, 0, 0, 0⟩, [0, 21, 42]) ∧
    strAsVal .standard (full ⟨2001, 1, 1, 0, 0, 0⟩) .hours "12:00 2 Jan 2001".toList = some 36 := by decide +kernel

/-- **C88.** An axis of `n` times, `step` apart (which may be negative), from the start. -/
theorem timeN_correct (c : Cal) (u : Units) {start : Name} {s f : Date} (hs : ReadsAs start s) {ref : Option Name} (hf : RefDate s ref f)
    (ms : 1 ≤ s.month ∧ s.month ≤ 12) (mf : 1 ≤ f.month ∧ f.month ≤ 12) {step : ℚ} (hstep : step ≠ 0) (n : ℕ) :
    ∃ o, dateAsValPy c (full f) (full s) u = some o ∧
      timeN c u start n step ref = some (f, (List.range n).map fun k : ℕ => (k : ℚ) * step + o) := by
  obtain ⟨S, hS, rfl⟩ := hs
  obtain ⟨F, hF, rfl, hF2⟩ := refDate_eq hS hf
  refine ⟨(((count c).abs (getDates S) - (count c).abs (getDates F) : ℤ) : ℚ) / unitfactor u, ?_, ?_⟩
  · unfold dateAsValPy
    rw [getDates_full, getDates_full, dateAsVal_eq c mf ms]
    rfl
  · unfold timeN
    rw [hS]
    simp only [Option.bind_eq_bind, Option.bind_some]
    rw [hF, Option.bind_some, diff_eq c mf ms, Option.bind_some, arange_n hstep, Option.bind_some, hF2, List.map_map]
    rfl

/-- six-hourly from a reference date in the year before -/
example : timeRange .standard .hours "1 Mar 2000".toList "2000-03-02".toList 6 (some "31 Dec 1999".toList) false =
      some (⟨1999, 12, 31, 0, 0, 0⟩, [1464, 1470, 1476, 1482]) ∧
    timeN .days360 .days "30 Feb 2000".toList 3 (-1) none = some (⟨2000, 2, 30, 0, 0, 0⟩, [0, -1, -2]) := by decide +kernel

example : ReadsAs "1 Mar 2000".toList ⟨2000, 3, 1, 0, 0, 0⟩ ∧ ReadsAs "2000-03-02".toList ⟨2000, 3, 2, 0, 0, 0⟩ ∧
    RefDate ⟨2000, 3, 1, 0, 0, 0⟩ (some "31 Dec 1999".toList) ⟨1999, 12, 31, 0, 0, 0⟩ :=
  ⟨⟨{ year := some 2000, month := some 3, day := some 1 }, by decide +kernel, rfl⟩,
    ⟨{ year := some 2000, month := some 3, day := some 2 }, by decide +kernel, rfl⟩,
    Or.inr ⟨_, rfl, ⟨{ year := some 1999, month := some 12, day := some 31 }, by decide +kernel, rfl⟩⟩⟩

end TimeRange
end PyGeode
