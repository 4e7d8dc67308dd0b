/-
C146: limits and labels of logarithmic colours.
-/
import Verif.Spec.LogLabels
import Verif.Props.LogNorm

namespace PyGeode
open Spec LogNorm

namespace LogLabels

theorem max_spec {M : List ℝ} {m : ℝ} (h : M.max? = some m) : m ∈ M ∧ ∀ a ∈ M, a ≤ m := by
  rw [List.max?_eq_some_iff] at h
  exact h

theorem min_spec {M : List ℝ} {m : ℝ} (h : M.min? = some m) : m ∈ M ∧ ∀ a ∈ M, m ≤ a := by
  rw [List.min?_eq_some_iff] at h
  exact h

theorem mem_magnitudes (A : List ℝ) (b : ℝ) : b ∈ magnitudes A ↔ (∃ a ∈ A, |a| = b) ∧ 1 / 10 ^ 16 < b := by
  unfold magnitudes
  rw [List.mem_filter, List.mem_map]
  simp

/-- **C146.** Limits taken from data: up to the largest size, on both sides; linear up to the smallest size that counts. -/
theorem autoscale_limits (L : Limits) (A : List ℝ) (h : ∃ a ∈ A, 1 / 10 ^ 16 < |a|) :
    ∃ N, autoscale L A = some N ∧ N.cin = L.cin ∧ N.vmin = -N.vmax ∧ (∃ a ∈ A, |a| = N.vmax) ∧ (∀ a ∈ A, |a| ≤ N.vmax) ∧
      (∃ a ∈ A, |a| = N.vin) ∧ 1 / 10 ^ 16 < N.vin ∧ (∀ a ∈ A, 1 / 10 ^ 16 < |a| → N.vin ≤ |a|) := by
  obtain ⟨a0, ha0, h0⟩ := h
  have hne : magnitudes A ≠ [] := List.ne_nil_of_mem ((mem_magnitudes A _).2 ⟨⟨a0, ha0, rfl⟩, h0⟩)
  obtain ⟨M, hM⟩ : ∃ m, (magnitudes A).max? = some m := by
    cases e : (magnitudes A).max? with
    | none => exact absurd (List.max?_eq_none_iff.1 e) hne
    | some m => exact ⟨m, rfl⟩
  obtain ⟨m, hm⟩ : ∃ m, (magnitudes A).min? = some m := by
    cases e : (magnitudes A).min? with
    | none => exact absurd (List.min?_eq_none_iff.1 e) hne
    | some m => exact ⟨m, rfl⟩
  obtain ⟨M1, M2⟩ := max_spec hM
  obtain ⟨m1, m2⟩ := min_spec hm
  rw [mem_magnitudes] at M1 m1
  refine ⟨⟨-M, M, m, L.cin⟩, ?_, rfl, rfl, M1.1, fun a ha => ?_, m1.1, m1.2, fun a ha h => ?_⟩
  · simp [autoscale, autoscaleNone, hM, hm]
  · by_cases h : 1 / 10 ^ 16 < |a|
    · exact M2 _ ((mem_magnitudes A _).2 ⟨⟨a, ha, rfl⟩, h⟩)
    · exact (not_lt.1 h).trans M1.2.le
  · exact m2 _ ((mem_magnitudes A _).2 ⟨⟨a, ha, rfl⟩, h⟩)

/-- **C146.** Limits that are set are kept. -/
theorem autoscale_keeps (L : Limits) (A : List ℝ) (N : Norm) (h : autoscaleNone L A = some N) :
    (∀ v, L.vmin = some v → N.vmin = v) ∧ (∀ v, L.vmax = some v → N.vmax = v) ∧ (∀ v, L.vin = some v → N.vin = v) ∧ N.cin = L.cin := by
  unfold autoscaleNone at h
  simp only [Option.bind_eq_some_iff, Option.map_eq_some_iff] at h
  obtain ⟨a, ha, b, hb, c, hc, rfl⟩ := h
  refine ⟨?_, ?_, ?_, rfl⟩ <;> intro v hv <;> simp only [hv, Option.some_or, Option.some.injEq] at ha hb hc <;> simp_all

/-- **C146.** With limits taken from data every value has a colour between 0 and 1, and opposite values have opposite colours. -/
theorem autoscale_colours (L : Limits) (A : List ℝ) (N : Norm) (h : ∃ a ∈ A, 1 / 10 ^ 16 < |a|) (hN : autoscale L A = some N)
    (hc : 0 ≤ L.cin ∧ L.cin ≤ 1 / 2) (a : ℝ) (ha : a ∈ A) :
    ∃ c, N.apply a = some c ∧ 0 ≤ c ∧ c ≤ 1 ∧ N.apply (-a) = some (1 - c) := by
  obtain ⟨N', e, h1, h2, ⟨b, hb, hbM⟩, h4, ⟨d, hd, hdm⟩, h6, h7⟩ := autoscale_limits L A h
  obtain rfl := Option.some_injective _ (hN.symm.trans e)
  have hv : 0 < N.vin := lt_trans (by positivity) h6
  have hvM : N.vin ≤ N.vmax := hdm ▸ h4 d hd
  have hM : 0 < N.vmax := hv.trans_le hvM
  have habs := abs_le.1 (h4 a ha)
  rw [← h1] at hc
  have happ : ∀ v, N.apply v = some (if N.vin < v then 1 / 2 + N.cin + (1 / 2 - N.cin) *
      (Real.log v - Real.log N.vin) / (Real.log N.vmax - Real.log N.vin)
      else if v < -N.vin then 1 / 2 - N.cin - (1 / 2 - N.cin) *
      (Real.log (-v) - Real.log N.vin) / (Real.log N.vmax - Real.log N.vin) else 1 / 2 + N.cin * v / N.vin) := by
    intro v
    unfold Norm.apply
    rw [if_neg (by linarith), if_neg (by linarith), if_neg (by linarith), if_neg (by linarith), h2, neg_neg]
    split_ifs <;> rfl
  have hfrac : ∀ v, N.vin < v → v ≤ N.vmax → 0 ≤ (Real.log v - Real.log N.vin) / (Real.log N.vmax - Real.log N.vin) ∧
      (Real.log v - Real.log N.vin) / (Real.log N.vmax - Real.log N.vin) ≤ 1 := by
    intro v hv1 hv2
    have l1 := Real.log_lt_log hv hv1
    have l2 := Real.log_le_log (hv.trans hv1) hv2
    exact ⟨div_nonneg (by linarith) (by linarith), (div_le_one (by linarith)).2 (by linarith)⟩
  rw [happ, happ]
  refine ⟨_, rfl, ?_⟩
  by_cases c1 : N.vin < a
  · obtain ⟨f1, f2⟩ := hfrac a c1 habs.2
    rw [if_pos c1, if_neg (by linarith), if_pos (by linarith), neg_neg, mul_div_assoc]
    refine ⟨by nlinarith, by nlinarith, ?_⟩
    congr 1; ring
  · rw [if_neg c1]
    by_cases c2 : a < -N.vin
    · obtain ⟨f1, f2⟩ := hfrac (-a) (by linarith) (by linarith)
      rw [if_pos c2, if_pos (by linarith), mul_div_assoc]
      refine ⟨by nlinarith, by nlinarith, ?_⟩
      congr 1; ring
    · rw [if_neg c2, if_neg (by linarith), if_neg (by linarith), mul_div_assoc]
      have f1 : a / N.vin ≤ 1 := (div_le_one hv).2 (by linarith)
      have f2 : -1 ≤ a / N.vin := by rw [le_div_iff₀ hv]; linarith
      refine ⟨by nlinarith, by nlinarith, ?_⟩
      congr 1; ring

/-- C146 fails when only `vmin` and `vmax` are set and the data are larger: `vin` is taken above `vmax`, and the colours go backwards. -/
theorem autoscale_vin_violated (cin : ℝ) (hc : cin < 1 / 2) :
    ∃ N, autoscaleNone ⟨some (-1), some 1, none, cin⟩ [2, 4, 8] = some N ∧ N.vmax < N.vin ∧
      ∃ a b, N.apply 4 = some a ∧ N.apply 8 = some b ∧ b < a := by
  have hm : (magnitudes [2, 4, 8]).min? = some 2 := by
    rw [List.min?_eq_some_iff]
    refine ⟨(mem_magnitudes _ _).2 ⟨⟨2, by simp, by norm_num⟩, by norm_num⟩, fun b hb => ?_⟩
    obtain ⟨⟨a, ha, rfl⟩, _⟩ := (mem_magnitudes _ _).1 hb
    simp only [List.mem_cons, List.not_mem_nil, or_false] at ha
    rcases ha with rfl | rfl | rfl <;> norm_num
  refine ⟨⟨-1, 1, 2, cin⟩, by simp [autoscaleNone, hm], by norm_num, ?_⟩
  have l4 : Real.log 4 = 2 * Real.log 2 := by
    rw [show (4 : ℝ) = 2 ^ 2 by norm_num, Real.log_pow]; norm_num
  have l8 : Real.log 8 = 3 * Real.log 2 := by
    rw [show (8 : ℝ) = 2 ^ 3 by norm_num, Real.log_pow]; norm_num
  have l2 : Real.log 2 ≠ 0 := (Real.log_pos (by norm_num)).ne'
  unfold Norm.apply
  norm_num
  rw [l4, l8]
  have e1 : (1 / 2 - cin) * (2 * Real.log 2 - Real.log 2) / -Real.log 2 = -(1 / 2 - cin) := by field_simp; ring
  have e2 : (1 / 2 - cin) * (3 * Real.log 2 - Real.log 2) / -Real.log 2 = -2 * (1 / 2 - cin) := by field_simp; ring
  rw [e1, e2]
  linarith

/-! ### labels -/

theorem round_near (q : ℚ) : |(roundHalfEven q : ℚ) - q| ≤ 1 / 2 := by
  have h1 := Int.floor_le q
  have h2 := Int.lt_floor_add_one q
  unfold roundHalfEven
  rw [abs_le]
  split_ifs <;> push_cast <;> constructor <;> linarith

theorem round_int (n : ℤ) : roundHalfEven (n : ℚ) = n := by
  unfold roundHalfEven
  simp

theorem log_bounds {x : ℚ} (hx : x ≠ 0) : (10 : ℚ) ^ Int.log 10 |x| ≤ |x| ∧ |x| < (10 : ℚ) ^ (Int.log 10 |x| + 1) :=
  ⟨by exact_mod_cast Int.zpow_log_le_self (b := 10) (by norm_num) (abs_pos.2 hx),
    by exact_mod_cast Int.lt_zpow_succ_log_self (b := 10) (by norm_num) |x|⟩

theorem log_eq {x : ℚ} {e : ℤ} (h1 : (10 : ℚ) ^ e ≤ |x|) (h2 : |x| < (10 : ℚ) ^ (e + 1)) : Int.log 10 |x| = e := by
  have hx : x ≠ 0 := by
    rintro rfl
    rw [abs_zero] at h1
    exact absurd h1 (not_le.2 (by positivity))
  obtain ⟨g1, g2⟩ := log_bounds hx
  have k1 := (zpow_lt_zpow_iff_right₀ (show (1 : ℚ) < 10 by norm_num)).1 (h1.trans_lt g2)
  have k2 := (zpow_lt_zpow_iff_right₀ (show (1 : ℚ) < 10 by norm_num)).1 (g1.trans_lt h2)
  omega

/-- **C146.** A label shows the number to within a twentieth if its size is from 0.1 to below 100, else to within half a unit of its first
digit; so no label is off by more than half the number, and none has the wrong sign. -/
theorem lfmt_close (x : ℚ) :
    (lfmt x = .zero ↔ x = 0) ∧ (1 / 10 ≤ |x| → |x| < 100 → |shownNumber (lfmt x) - x| ≤ 1 / 20) ∧
      (∀ e : ℤ, 10 ^ e ≤ |x| → |x| < 10 ^ (e + 1) → (e < -1 ∨ 1 < e) →
        ∃ n : ℤ, lfmt x = .power n e ∧ |(n : ℚ) * 10 ^ e - x| ≤ 10 ^ e / 2 ∧ 1 ≤ |n| ∧ |n| ≤ 10) := by
  refine ⟨?_, ?_, ?_⟩
  · unfold lfmt
    constructor
    · intro h
      by_contra hx
      rw [if_neg hx] at h
      simp only at h
      split_ifs at h
    · rintro rfl; simp
  · intro h1 h2
    have hx : x ≠ 0 := by rintro rfl; norm_num at h1
    have hlog : |Int.log 10 (|x|)| < 2 := by
      obtain ⟨g1, g2⟩ := log_bounds hx
      have k1 : (10 : ℚ) ^ Int.log 10 |x| < 10 ^ (2 : ℤ) := g1.trans_lt (by norm_num; exact h2)
      have k2 : (10 : ℚ) ^ (-1 : ℤ) < 10 ^ (Int.log 10 |x| + 1) := lt_of_le_of_lt (by norm_num at h1 ⊢; exact h1) g2
      have k1 := (zpow_lt_zpow_iff_right₀ (show (1 : ℚ) < 10 by norm_num)).1 k1
      have k2 := (zpow_lt_zpow_iff_right₀ (show (1 : ℚ) < 10 by norm_num)).1 k2
      rw [abs_lt]; omega
    unfold lfmt
    rw [if_neg hx]
    simp only [hlog, if_true, shownNumber]
    have := abs_le.1 (round_near (10 * x))
    rw [abs_le]; constructor <;> linarith
  · intro e h1 h2 he
    have hlog := log_eq h1 h2
    have hx : x ≠ 0 := by
      rintro rfl
      rw [abs_zero] at h1
      exact absurd h1 (not_le.2 (by positivity))
    have hp : (0 : ℚ) < 10 ^ e := by positivity
    have hbig : ¬ |e| < 2 := by rw [abs_lt]; omega
    have hr := abs_le.1 (round_near (x / 10 ^ e))
    have hq1 : 1 ≤ |x / 10 ^ e| := by rw [abs_div, abs_of_pos hp]; exact (one_le_div hp).2 h1
    have hq2 : |x / 10 ^ e| < 10 := by
      rw [abs_div, abs_of_pos hp, div_lt_iff₀ hp]
      rw [zpow_add₀ (by norm_num), zpow_one] at h2; linarith
    obtain ⟨n, hn⟩ : ∃ n, n = roundHalfEven (x / 10 ^ e) := ⟨_, rfl⟩
    rw [← hn] at hr
    refine ⟨n, ?_, ?_, ?_, ?_⟩
    · unfold lfmt
      rw [if_neg hx]
      simp only [hlog, hbig, if_false, hn]
    · have : (n : ℚ) * 10 ^ e - x = (n - x / 10 ^ e) * 10 ^ e := by field_simp
      rw [this, abs_mul, abs_of_pos hp]
      have := abs_le.2 hr
      nlinarith
    · refine Int.one_le_abs ?_
      rintro rfl
      rcases le_abs.1 hq1 with h | h <;> norm_num at hr <;> linarith
    · have k : |(n : ℚ)| < 11 := by
        rcases abs_cases (n : ℚ) with ⟨e1, _⟩ | ⟨e1, _⟩ <;> rw [e1] <;> rcases abs_lt.1 hq2 with ⟨_, _⟩ <;> linarith
      have : |n| < 11 := by exact_mod_cast k
      omega

/-- **C146.** The ticks of a scale in powers of ten that begins with one digit are shown as they are, on both sides of zero. -/
theorem lfmt_ticks (n k : ℤ) (i : ℕ) (hn : 1 ≤ |n|) (hn' : |n| ≤ 9) :
    shownNumber (lfmt ((n : ℚ) * 10 ^ k * 10 ^ i)) = n * 10 ^ k * 10 ^ i := by
  obtain ⟨e, he⟩ : ∃ e : ℤ, e = k + i := ⟨_, rfl⟩
  have hx : (n : ℚ) * 10 ^ k * 10 ^ i = n * 10 ^ e := by rw [he, zpow_add₀ (by norm_num), zpow_natCast, mul_assoc]
  rw [hx]
  have hp : (0 : ℚ) < 10 ^ e := by positivity
  have q1 : (1 : ℚ) ≤ |(n : ℚ)| := by exact_mod_cast hn
  have q2 : |(n : ℚ)| ≤ 9 := by exact_mod_cast hn'
  have habs : |(n : ℚ) * 10 ^ e| = |(n : ℚ)| * 10 ^ e := by rw [abs_mul, abs_of_pos hp]
  have h1 : (10 : ℚ) ^ e ≤ |(n : ℚ) * 10 ^ e| := by rw [habs]; nlinarith
  have h2 : |(n : ℚ) * 10 ^ e| < (10 : ℚ) ^ (e + 1) := by rw [habs, zpow_add₀ (by norm_num), zpow_one]; nlinarith
  have hlog := log_eq h1 h2
  have hne : (n : ℚ) * 10 ^ e ≠ 0 := by
    have : n ≠ 0 := by rintro rfl; norm_num at hn
    exact mul_ne_zero (by exact_mod_cast this) hp.ne'
  unfold lfmt
  rw [if_neg hne]
  simp only [hlog]
  split_ifs with hs
  · obtain ⟨s1, s2⟩ := abs_lt.1 hs
    obtain ⟨m, hm⟩ : ∃ m : ℕ, e = m - 1 := ⟨(e + 1).toNat, by omega⟩
    have : (10 : ℚ) * (n * 10 ^ e) = ((n * 10 ^ m : ℤ) : ℚ) := by
      rw [hm, zpow_sub₀ (by norm_num), zpow_natCast, zpow_one]; push_cast; ring
    have hr := round_int (n * 10 ^ m)
    rw [← this] at hr
    simp only [shownNumber, hr]
    rw [← this]; ring
  · rw [mul_div_assoc, div_self hp.ne', mul_one, round_int]
    rfl

/-- C146 fails for other ticks: ones far apart get the same label, and a label may have two digits. -/
theorem lfmt_violated : lfmt 150 = lfmt 250 ∧ lfmt 999 = .power 10 2 := by
  decide +kernel

example : lfmt 0 = .zero ∧ lfmt (1 / 4) = .plain 2 ∧ lfmt (-30) = .plain (-300) ∧ lfmt 3000 = .power 3 3 ∧
    lfmt (-1 / 500) = .power (-2) (-3) := by decide +kernel

/-- The premises are met. -/
example : (∃ a ∈ [(0 : ℝ), -4, 2], 1 / 10 ^ 16 < |a|) ∧ (10 : ℚ) ^ (3 : ℤ) ≤ |(3456 : ℚ)| ∧ |(3456 : ℚ)| < 10 ^ ((3 : ℤ) + 1) := by
  refine ⟨⟨2, by simp, by norm_num⟩, by norm_num, ?_⟩
  rw [show ((3 : ℤ) + 1) = ((4 : ℕ) : ℤ) by norm_num, zpow_natCast]
  norm_num

end LogLabels
end PyGeode
