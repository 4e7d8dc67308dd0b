/-
Property C119: two-sided logarithmic colours (`LogNorm2Sided`, `log1sdict`, `log2sdict`, /repo/pygeode/plot/cnt_helpers.py).
-/
import Verif.Model.LogNorm
import Mathlib.Data.List.GetD

namespace PyGeode

/-- the limits in order: the linear part of the scale lies inside both in value and in colour -/
structure Spec.TwoSided (N : LogNorm.Norm) : Prop where
  lo : N.vmin < -N.vin
  pos : 0 < N.vin
  hi : N.vin < N.vmax
  cpos : 0 < N.cin
  chalf : N.cin < 1 / 2

namespace LogNorm
open Spec

theorem apply_eq {N : Norm} (h : TwoSided N) (v : ℝ) : N.apply v = some (
    if N.vin < v then 1 / 2 + N.cin + (1 / 2 - N.cin) * (Real.log v - Real.log N.vin) / (Real.log N.vmax - Real.log N.vin)
    else if v < -N.vin then 1 / 2 - N.cin - (1 / 2 - N.cin) * (Real.log (-v) - Real.log N.vin) / (Real.log (-N.vmin) - Real.log N.vin)
    else 1 / 2 + N.cin * v / N.vin) := by
  have h1 := h.lo; have h2 := h.pos; have h3 := h.hi
  unfold Norm.apply
  rw [if_neg (by linarith), if_neg (by linarith), if_neg (by linarith), if_neg (by linarith)]
  split_ifs <;> rfl

theorem back {d D L : ℝ} (x : ℝ) (hd : d ≠ 0) (hD : D ≠ 0) : d * (L + x / d * D - L) / D = x := by
  field_simp
  ring

theorem forth {d D l : ℝ} (hd : d ≠ 0) : d * l / D / d = l / D := by
  field_simp

theorem dpos {N : Norm} (h : TwoSided N) : 0 < Real.log N.vmax - Real.log N.vin :=
  sub_pos.2 (Real.log_lt_log h.pos h.hi)

theorem dneg {N : Norm} (h : TwoSided N) : 0 < Real.log (-N.vmin) - Real.log N.vin :=
  sub_pos.2 (Real.log_lt_log h.pos (by linarith [h.lo]))

/-- C119: taking the colour of a value and back gives the value ... -/
theorem inverse_apply (N : Norm) (h : TwoSided N) (v : ℝ) : (N.apply v).map N.inverse = some v := by
  have h1 := h.lo; have h2 := h.pos; have h3 := h.hi; have h4 := h.cpos; have h5 := h.chalf
  rw [apply_eq h]
  simp only [Option.map_some, Option.some.injEq]
  have hc : 0 < 1 / 2 - N.cin := by linarith
  split_ifs with a b
  · have hl : 0 < Real.log v - Real.log N.vin := sub_pos.2 (Real.log_lt_log h2 a)
    have hd := dpos h
    have hq : 0 < (1 / 2 - N.cin) * (Real.log v - Real.log N.vin) / (Real.log N.vmax - Real.log N.vin) := by positivity
    unfold Norm.inverse
    rw [if_pos (by linarith)]
    have e : (1 / 2 + N.cin + (1 / 2 - N.cin) * (Real.log v - Real.log N.vin) / (Real.log N.vmax - Real.log N.vin) - (1 / 2 + N.cin)) /
        (1 / 2 - N.cin) = (Real.log v - Real.log N.vin) / (Real.log N.vmax - Real.log N.vin) := by
      rw [add_sub_cancel_left, forth hc.ne']
    rw [e, Real.rpow_def_of_pos (div_pos (by linarith) h2), Real.log_div (by linarith) (by linarith), mul_div_cancel₀ _ hd.ne',
      Real.exp_sub, Real.exp_log (by linarith), Real.exp_log h2]
    field_simp
  · have hv : 0 < -v := by linarith
    have hl : 0 < Real.log (-v) - Real.log N.vin := sub_pos.2 (Real.log_lt_log h2 (by linarith))
    have hd := dneg h
    have hq : 0 < (1 / 2 - N.cin) * (Real.log (-v) - Real.log N.vin) / (Real.log (-N.vmin) - Real.log N.vin) := by positivity
    unfold Norm.inverse
    rw [if_neg (by linarith), if_pos (by linarith)]
    have e : (1 / 2 - N.cin - (1 / 2 - N.cin - (1 / 2 - N.cin) * (Real.log (-v) - Real.log N.vin) / (Real.log (-N.vmin) - Real.log N.vin))) /
        (1 / 2 - N.cin) = (Real.log (-v) - Real.log N.vin) / (Real.log (-N.vmin) - Real.log N.vin) := by
      rw [sub_sub_cancel, forth hc.ne']
    have hm : 0 < -N.vmin := by linarith
    rw [e, Real.rpow_def_of_pos (by positivity), Real.log_div (by linarith) (by linarith), mul_div_cancel₀ _ hd.ne',
      Real.exp_sub, Real.exp_log hv, Real.exp_log h2]
    field_simp
  · have b1 : N.cin * v / N.vin ≤ N.cin := by
      rw [div_le_iff₀ h2]; nlinarith
    have b2 : -N.cin ≤ N.cin * v / N.vin := by
      rw [le_div_iff₀ h2]; nlinarith
    unfold Norm.inverse
    rw [if_neg (by linarith), if_neg (by linarith)]
    field_simp
    ring

/-- C119: ... and the other way round. -/
theorem apply_inverse (N : Norm) (h : TwoSided N) (c : ℝ) : N.apply (N.inverse c) = some c := by
  have h1 := h.lo; have h2 := h.pos; have h3 := h.hi; have h4 := h.cpos; have h5 := h.chalf
  have hc : 0 < 1 / 2 - N.cin := by linarith
  rw [apply_eq h]
  congr 1
  unfold Norm.inverse
  by_cases a : 1 / 2 + N.cin < c
  · rw [if_pos a]
    have hd := dpos h
    have hb : 1 < N.vmax / N.vin := by rw [lt_div_iff₀ h2]; linarith
    have he : 0 < (c - (1 / 2 + N.cin)) / (1 / 2 - N.cin) := div_pos (by linarith) hc
    have hp := Real.one_lt_rpow hb he
    rw [if_pos (by nlinarith), Real.log_mul h2.ne' (by linarith), Real.log_rpow (by linarith), Real.log_div (by linarith) h2.ne',
      back _ hc.ne' hd.ne']
    ring
  · rw [if_neg a]
    by_cases b : c < 1 / 2 - N.cin
    · rw [if_pos b]
      have hd := dneg h
      have hm : 0 < -N.vmin := by linarith
      have hb : 1 < -N.vmin / N.vin := by rw [lt_div_iff₀ h2]; linarith
      have he : 0 < (1 / 2 - N.cin - c) / (1 / 2 - N.cin) := div_pos (by linarith) hc
      have hp := Real.one_lt_rpow hb he
      rw [if_neg (by nlinarith), if_pos (by nlinarith)]
      rw [show -(-N.vin * (-N.vmin / N.vin) ^ ((1 / 2 - N.cin - c) / (1 / 2 - N.cin))) =
        N.vin * (-N.vmin / N.vin) ^ ((1 / 2 - N.cin - c) / (1 / 2 - N.cin)) by ring]
      rw [Real.log_mul h2.ne' (by linarith), Real.log_rpow (by linarith), Real.log_div (by linarith) h2.ne',
        back _ hc.ne' hd.ne']
      ring
    · rw [if_neg b]
      have b1 : (c - 1 / 2) * N.vin / N.cin ≤ N.vin := by
        rw [div_le_iff₀ h4]; nlinarith
      have b2 : -N.vin ≤ (c - 1 / 2) * N.vin / N.cin := by
        rw [le_div_iff₀ h4]; nlinarith
      rw [if_neg (by linarith), if_neg (by linarith)]
      field_simp
      ring

/-- C119: greater values have greater colours. -/
theorem apply_mono (N : Norm) (h : TwoSided N) (v w : ℝ) (hvw : v < w) : ∃ a b, N.apply v = some a ∧ N.apply w = some b ∧ a < b := by
  have h1 := h.lo; have h2 := h.pos; have h3 := h.hi; have h4 := h.cpos; have h5 := h.chalf
  have hc : 0 < 1 / 2 - N.cin := by linarith
  refine ⟨_, _, apply_eq h v, apply_eq h w, ?_⟩
  have mid : ∀ x, ¬ N.vin < x → ¬ x < -N.vin → -N.cin ≤ N.cin * x / N.vin ∧ N.cin * x / N.vin ≤ N.cin := by
    intro x hx hx'
    constructor
    · rw [le_div_iff₀ h2]; nlinarith
    · rw [div_le_iff₀ h2]; nlinarith
  have up : ∀ x, N.vin < x → 0 < (1 / 2 - N.cin) * (Real.log x - Real.log N.vin) / (Real.log N.vmax - Real.log N.vin) := by
    intro x hx
    have := dpos h
    have : 0 < Real.log x - Real.log N.vin := sub_pos.2 (Real.log_lt_log h2 hx)
    positivity
  have dn : ∀ x, x < -N.vin → 0 < (1 / 2 - N.cin) * (Real.log (-x) - Real.log N.vin) / (Real.log (-N.vmin) - Real.log N.vin) := by
    intro x hx
    have := dneg h
    have : 0 < Real.log (-x) - Real.log N.vin := sub_pos.2 (Real.log_lt_log h2 (by linarith))
    positivity
  by_cases a1 : N.vin < v
  · have a2 : N.vin < w := by linarith
    rw [if_pos a1, if_pos a2]
    have hl := Real.log_lt_log (by linarith) hvw
    have hd := dpos h
    have : (1 / 2 - N.cin) * (Real.log v - Real.log N.vin) / (Real.log N.vmax - Real.log N.vin) <
        (1 / 2 - N.cin) * (Real.log w - Real.log N.vin) / (Real.log N.vmax - Real.log N.vin) := by
      rw [div_lt_div_iff_of_pos_right hd]
      exact mul_lt_mul_of_pos_left (by linarith) hc
    linarith
  · rw [if_neg a1]
    by_cases b1 : v < -N.vin
    · rw [if_pos b1]
      by_cases a2 : N.vin < w
      · rw [if_pos a2]
        linarith [up w a2, dn v b1]
      · rw [if_neg a2]
        by_cases b2 : w < -N.vin
        · rw [if_pos b2]
          have hl := Real.log_lt_log (show (0 : ℝ) < -w by linarith) (show -w < -v by linarith)
          have hd := dneg h
          have : (1 / 2 - N.cin) * (Real.log (-w) - Real.log N.vin) / (Real.log (-N.vmin) - Real.log N.vin) <
              (1 / 2 - N.cin) * (Real.log (-v) - Real.log N.vin) / (Real.log (-N.vmin) - Real.log N.vin) := by
            rw [div_lt_div_iff_of_pos_right hd]
            exact mul_lt_mul_of_pos_left (by linarith) hc
          linarith
        · rw [if_neg b2]
          linarith [dn v b1, (mid w a2 b2).1]
    · rw [if_neg b1]
      by_cases a2 : N.vin < w
      · rw [if_pos a2]
        linarith [up w a2, (mid v a1 b1).2]
      · rw [if_neg a2, if_neg (by linarith)]
        have : N.cin * v / N.vin < N.cin * w / N.vin := by
          rw [div_lt_div_iff_of_pos_right h2]
          exact mul_lt_mul_of_pos_left hvw h4
        linarith

/-- C119: the ends of the scale, of its linear part, and zero -/
theorem apply_ends (N : Norm) (h : TwoSided N) : N.apply N.vmin = some 0 ∧ N.apply (-N.vin) = some (1 / 2 - N.cin) ∧
    N.apply 0 = some (1 / 2) ∧ N.apply N.vin = some (1 / 2 + N.cin) ∧ N.apply N.vmax = some 1 := by
  have h1 := h.lo; have h2 := h.pos; have h3 := h.hi
  have hd := dpos h; have hd' := dneg h
  refine ⟨?_, ?_, ?_, ?_, ?_⟩ <;> rw [apply_eq h] <;> congr 1
  · rw [if_neg (by linarith), if_pos h1, mul_div_assoc, div_self hd'.ne']; ring
  · rw [if_neg (by linarith), if_neg (lt_irrefl _)]; field_simp; ring
  · rw [if_neg (by linarith), if_neg (by linarith)]; simp
  · rw [if_neg (lt_irrefl _), if_neg (by linarith)]; field_simp
  · rw [if_pos h3, mul_div_assoc, div_self hd.ne']; ring

/-! ### the levels of `log2sdict` -/

/-- level number `k` above zero: linear up to number `n`, then logarithmic -/
noncomputable def level (cmin cdelt : ℝ) (n k : ℕ) : ℝ := if k ≤ n then cmin * k / n else cmin * cdelt ^ (((k : ℝ) - n) / n)

theorem inner_map {f : ℕ → ℝ} (n : ℕ) : inner ((List.range (n + 1)).map f) = (List.range (n - 1)).map fun k => f (k + 1) := by
  unfold inner
  apply List.ext_getElem
  · simp
  · intro i h1 h2
    simp [add_comm]

theorem linspace_map (a b : ℝ) (n : ℕ) : linspace a b (n + 1) = (List.range (n + 1)).map fun i : ℕ => a + i * ((b - a) / n) := by
  unfold linspace
  simp

theorem inner_pos (cmin cdelt : ℝ) {n : ℕ} (hn : 0 < n) :
    inner (linspace 0 cmin (n + 1)) = (List.range (n - 1)).map fun k : ℕ => level cmin cdelt n (k + 1) := by
  rw [linspace_map, inner_map]
  refine List.map_congr_left fun k hk => ?_
  have : k + 1 ≤ n := by rw [List.mem_range] at hk; omega
  unfold level
  rw [if_pos this]
  push_cast
  ring

theorem inner_neg (cmin cdelt : ℝ) {n : ℕ} (hn : 0 < n) :
    inner (linspace (-cmin) 0 (n + 1)) = ((inner (linspace 0 cmin (n + 1))).map Neg.neg).reverse := by
  rw [inner_pos cmin cdelt hn, linspace_map, inner_map]
  apply List.ext_getElem
  · simp
  · intro i h1 h2
    have hi : i < n - 1 := by simpa using h1
    have hn' : (n : ℝ) ≠ 0 := by exact_mod_cast hn.ne'
    simp only [List.getElem_map, List.getElem_range, List.getElem_reverse, List.length_map, List.length_range]
    unfold level
    rw [if_pos (by omega), show n - 1 - 1 - i + 1 = n - (i + 1) by omega, Nat.cast_sub (by omega)]
    push_cast
    field_simp
    ring

theorem inner_both (cmin cdelt : ℝ) {n : ℕ} (hn : 0 < n) :
    inner (linspace (-cmin) cmin (2 * n + 1)) = inner (linspace (-cmin) 0 (n + 1)) ++ [0] ++ inner (linspace 0 cmin (n + 1)) := by
  rw [linspace_map, linspace_map, linspace_map, inner_map, inner_map, inner_map]
  have hn' : (n : ℝ) ≠ 0 := by exact_mod_cast hn.ne'
  rw [show 2 * n - 1 = (n - 1) + (1 + (n - 1)) by omega, List.range_add, List.range_add, List.map_append, List.map_map, List.map_append,
    List.append_assoc]
  congr 1
  · refine List.map_congr_left fun k _ => ?_
    push_cast
    field_simp
    ring
  · congr 1
    · simp only [List.range_one, List.map_cons, List.map_nil, Function.comp, List.cons.injEq, and_true]
      rw [show n - 1 + 0 + 1 = n by omega]
      push_cast
      field_simp
      ring
    · rw [List.map_map]
      refine List.map_congr_left fun k _ => ?_
      simp only [Function.comp]
      rw [show n - 1 + (1 + k) + 1 = n + (k + 1) by omega]
      push_cast
      field_simp
      ring

/-- the levels above zero -/
theorem above (cmin cdelt : ℝ) {n ndiv : ℕ} (hn : 0 < n) (hd : 2 ≤ ndiv) :
    inner (linspace 0 cmin (n + 1)) ++ (linspace 0 ((ndiv : ℝ) - 1) (n * (ndiv - 1) + 1)).map (fun x => cmin * cdelt ^ x) =
      (List.range (n * ndiv)).map fun k : ℕ => level cmin cdelt n (k + 1) := by
  have hn' : (n : ℝ) ≠ 0 := by exact_mod_cast hn.ne'
  have hd' : ((ndiv : ℝ) - 1) ≠ 0 := by
    have : (2 : ℝ) ≤ ndiv := by exact_mod_cast hd
    linarith
  obtain ⟨e, rfl⟩ : ∃ e, ndiv = e + 1 := ⟨ndiv - 1, by omega⟩
  rw [inner_pos cmin cdelt hn, linspace_map, List.map_map, show n * (e + 1) = (n - 1) + (n * (e + 1 - 1) + 1) by
    rw [show e + 1 - 1 = e by omega, Nat.mul_add]; omega, List.range_add (n := n - 1), List.map_append, List.map_map]
  congr 1
  refine List.map_congr_left fun k _ => ?_
  simp only [Function.comp]
  rw [show n - 1 + k + 1 = n + k by omega]
  unfold level
  have e1 : (0 : ℝ) + k * ((((e + 1 : ℕ) : ℝ) - 1 - 0) / ((n * (e + 1 - 1) : ℕ) : ℝ)) = k / n := by
    rw [show e + 1 - 1 = e by omega]
    have he : (e : ℝ) ≠ 0 := by
      push_cast at hd'
      simpa using hd'
    push_cast
    rw [add_sub_cancel_right, sub_zero]
    field_simp
    ring
  rw [e1]
  by_cases hk : k = 0
  · rw [if_pos (by omega), hk]
    simp [hn']
  · rw [if_neg (by omega)]
    push_cast
    rw [add_sub_cancel_left]

/-- the colour of a level and of its opposite -/
theorem level_colour {cmin cdelt : ℝ} (hc : 0 < cmin) (hd : 1 < cdelt) {n ndiv : ℕ} (hn : 0 < n) (hdiv : 2 ≤ ndiv) {N : Norm}
    (hN : N = { vmin := -(cmin * cdelt ^ ((ndiv : ℝ) - 1)), vmax := cmin * cdelt ^ ((ndiv : ℝ) - 1), vin := cmin, cin := 1 / (2 * ndiv) })
    (h : TwoSided N) (k : ℕ) :
    N.apply (level cmin cdelt n k) = some (1 / 2 + (k : ℝ) / (2 * n * ndiv)) ∧
    N.apply (-(level cmin cdelt n k)) = some (1 / 2 - (k : ℝ) / (2 * n * ndiv)) := by
  have hn' : (0 : ℝ) < n := by exact_mod_cast hn
  have hdiv' : (2 : ℝ) ≤ ndiv := by exact_mod_cast hdiv
  have hl : 0 < Real.log cdelt := Real.log_pos hd
  rw [apply_eq h, apply_eq h]
  have e1 : N.vin = cmin := by rw [hN]
  have e2 : N.vmax = cmin * cdelt ^ ((ndiv : ℝ) - 1) := by rw [hN]
  have e3 : N.vmin = -(cmin * cdelt ^ ((ndiv : ℝ) - 1)) := by rw [hN]
  have e4 : N.cin = 1 / (2 * ndiv) := by rw [hN]
  have hp : ∀ x : ℝ, 0 < cdelt ^ x := fun x => Real.rpow_pos_of_pos (by linarith) x
  have elog : ∀ x : ℝ, Real.log (cmin * cdelt ^ x) - Real.log cmin = x * Real.log cdelt := by
    intro x
    rw [Real.log_mul hc.ne' (hp x).ne', Real.log_rpow (by linarith)]
    ring
  rw [e1, e2, e3, e4, neg_neg, neg_neg, elog]
  by_cases hk : k ≤ n
  · have hk' : (k : ℝ) ≤ n := by exact_mod_cast hk
    have b1 : cmin * k / n ≤ cmin := by rw [div_le_iff₀ hn']; nlinarith
    have b2 : 0 ≤ cmin * k / n := by positivity
    unfold level
    rw [if_pos hk, if_neg (by linarith), if_neg (by linarith), if_neg (by linarith), if_neg (by linarith)]
    constructor <;> congr 1 <;> field_simp <;> ring
  · have hk' : (n : ℝ) < k := by exact_mod_cast (not_le.1 hk)
    have b : cmin < cmin * cdelt ^ (((k : ℝ) - n) / n) := by
      have := Real.one_lt_rpow hd (show 0 < ((k : ℝ) - n) / n from div_pos (by linarith) hn')
      nlinarith
    unfold level
    rw [if_neg hk, if_pos b, if_neg (by linarith), if_pos (by linarith), elog]
    have e5 : (1 / 2 - 1 / (2 * (ndiv : ℝ))) * (((k : ℝ) - n) / n * Real.log cdelt) / (((ndiv : ℝ) - 1) * Real.log cdelt) =
        k / (2 * n * ndiv) - 1 / (2 * ndiv) := by
      have : (ndiv : ℝ) - 1 ≠ 0 := by linarith
      field_simp
    rw [e5]
    constructor <;> congr 1 <;> ring

/-- the scale of `log2sdict` is two-sided -/
theorem log2s_norm {cmin cdelt : ℝ} (hc : 0 < cmin) (hd : 1 < cdelt) (nf nl : ℕ) {ndiv : ℕ} (hdiv : 2 ≤ ndiv) (nozero : Bool) :
    (log2s cmin cdelt nf nl ndiv nozero).norm =
      { vmin := -(cmin * cdelt ^ ((ndiv : ℝ) - 1)), vmax := cmin * cdelt ^ ((ndiv : ℝ) - 1), vin := cmin, cin := 1 / (2 * ndiv) } ∧
    TwoSided (log2s cmin cdelt nf nl ndiv nozero).norm := by
  have hdiv' : (2 : ℝ) ≤ ndiv := by exact_mod_cast hdiv
  have e : (log2s cmin cdelt nf nl ndiv nozero).norm =
      { vmin := -(cmin * cdelt ^ ((ndiv : ℝ) - 1)), vmax := cmin * cdelt ^ ((ndiv : ℝ) - 1), vin := cmin, cin := 1 / (2 * ndiv) } := by
    obtain ⟨e, rfl⟩ : ∃ e, ndiv = e + 1 := ⟨ndiv - 1, by omega⟩
    unfold log2s
    simp [List.range_succ]
  refine ⟨e, ?_⟩
  rw [e]
  have := Real.one_lt_rpow hd (show (0 : ℝ) < ndiv - 1 by linarith)
  refine ⟨?_, hc, ?_, ?_, ?_⟩
  · show -(cmin * cdelt ^ ((ndiv : ℝ) - 1)) < -cmin
    nlinarith
  · show cmin < cmin * cdelt ^ ((ndiv : ℝ) - 1)
    nlinarith
  · show 0 < 1 / (2 * (ndiv : ℝ))
    positivity
  · show 1 / (2 * (ndiv : ℝ)) < 1 / 2
    exact one_div_lt_one_div_of_lt (by norm_num) (by linarith)

theorem colours_above {cmin cdelt : ℝ} (hc : 0 < cmin) (hd : 1 < cdelt) {n ndiv : ℕ} (hn : 0 < n) (hdiv : 2 ≤ ndiv) {N : Norm}
    (hN : N = { vmin := -(cmin * cdelt ^ ((ndiv : ℝ) - 1)), vmax := cmin * cdelt ^ ((ndiv : ℝ) - 1), vin := cmin, cin := 1 / (2 * ndiv) })
    (h : TwoSided N) :
    (inner (linspace 0 cmin (n + 1)) ++ (linspace 0 ((ndiv : ℝ) - 1) (n * (ndiv - 1) + 1)).map (fun x => cmin * cdelt ^ x)).map N.apply =
      (List.range (n * ndiv)).map (fun k : ℕ => some (1 / 2 + ((k : ℝ) + 1) / (2 * n * ndiv))) ∧
    ((((linspace 0 ((ndiv : ℝ) - 1) (n * (ndiv - 1) + 1)).map (fun x => cmin * cdelt ^ x)).map Neg.neg).reverse ++
        inner (linspace (-cmin) 0 (n + 1))).map N.apply =
      (List.range (n * ndiv)).map fun k : ℕ => some ((k : ℝ) / (2 * n * ndiv)) := by
  have hn' : (0 : ℝ) < n := by exact_mod_cast hn
  have hdiv' : (2 : ℝ) ≤ ndiv := by exact_mod_cast hdiv
  constructor
  · rw [above cmin cdelt hn hdiv, List.map_map]
    refine List.map_congr_left fun k _ => ?_
    rw [Function.comp, (level_colour hc hd hn hdiv hN h _).1]
    push_cast
    rfl
  · rw [inner_neg cmin cdelt hn, ← List.reverse_append, ← List.map_append, above cmin cdelt hn hdiv, List.map_map, List.map_reverse,
      List.map_map]
    apply List.ext_getElem
    · simp
    · intro i h1 h2
      have hi : i < n * ndiv := by simpa using h1
      simp only [List.getElem_map, List.getElem_range, List.getElem_reverse, List.length_map, List.length_range, Function.comp]
      rw [(level_colour hc hd hn hdiv hN h _).2, show n * ndiv - 1 - i + 1 = n * ndiv - i by omega, Nat.cast_sub hi.le]
      push_cast
      congr 1
      field_simp
      ring

/-- C119: the colour boundaries of `log2sdict` are evenly spaced in colour, `nf` to a division, `ndiv` divisions on each side, with none at
zero. -/
theorem log2s_fills (cmin cdelt : ℝ) (hc : 0 < cmin) (hd : 1 < cdelt) (nf nl ndiv : ℕ) (hn : 0 < nf) (hdiv : 2 ≤ ndiv) (nozero : Bool) :
    ∃ l, (log2s cmin cdelt nf nl ndiv nozero).fills = some l ∧ l.map (log2s cmin cdelt nf nl ndiv nozero).norm.apply =
      ((List.range (2 * nf * ndiv + 1)).eraseIdx (nf * ndiv)).map fun k : ℕ => some ((k : ℝ) / (2 * nf * ndiv)) := by
  obtain ⟨hN, h⟩ := log2s_norm hc hd nf nl hdiv nozero
  refine ⟨_, if_pos hn, ?_⟩
  have hn' : (0 : ℝ) < nf := by exact_mod_cast hn
  have hdiv' : (2 : ℝ) ≤ ndiv := by exact_mod_cast hdiv
  obtain ⟨a, b⟩ := colours_above hc hd hn hdiv hN h
  rw [List.append_assoc, List.append_assoc, ← List.append_assoc, List.map_append, a, b]
  rw [show 2 * nf * ndiv + 1 = nf * ndiv + (1 + nf * ndiv) by ring, List.range_add, List.range_add, List.map_append,
    List.eraseIdx_append_of_length_le (by simp), List.map_append]
  congr 1
  simp only [List.length_range, Nat.sub_self, List.range_one, List.map_cons, List.map_nil, List.singleton_append, List.eraseIdx_cons_zero,
    List.map_map]
  refine List.map_congr_left fun k _ => ?_
  simp only [Function.comp]
  congr 1
  push_cast
  field_simp
  ring

/-- C119: the contour lines are too, with one at zero unless `nozero` is given. -/
theorem log2s_lines (cmin cdelt : ℝ) (hc : 0 < cmin) (hd : 1 < cdelt) (nf nl ndiv : ℕ) (hn : 0 < nl) (hdiv : 2 ≤ ndiv) :
    (∃ l, (log2s cmin cdelt nf nl ndiv false).lines = some l ∧ l.map (log2s cmin cdelt nf nl ndiv false).norm.apply =
      (List.range (2 * nl * ndiv + 1)).map fun k : ℕ => some ((k : ℝ) / (2 * nl * ndiv))) ∧
    (∃ l, (log2s cmin cdelt nf nl ndiv true).lines = some l ∧ l.map (log2s cmin cdelt nf nl ndiv true).norm.apply =
      ((List.range (2 * nl * ndiv + 1)).eraseIdx (nl * ndiv)).map fun k : ℕ => some ((k : ℝ) / (2 * nl * ndiv))) := by
  have hn' : (0 : ℝ) < nl := by exact_mod_cast hn
  have hdiv' : (2 : ℝ) ≤ ndiv := by exact_mod_cast hdiv
  constructor
  · obtain ⟨hN, h⟩ := log2s_norm hc hd nf nl hdiv false
    refine ⟨_, if_pos hn, ?_⟩
    obtain ⟨a, b⟩ := colours_above hc hd hn hdiv hN h
    simp only [Bool.false_eq_true, if_false]
    rw [inner_both cmin cdelt hn]
    rw [show ∀ A B C D E : List ℝ, A ++ (B ++ C ++ D) ++ E = (A ++ B) ++ (C ++ (D ++ E)) by intros; simp, List.map_append, b,
      List.map_append, a]
    rw [show 2 * nl * ndiv + 1 = nl * ndiv + (1 + nl * ndiv) by ring, List.range_add, List.range_add, List.map_append, List.map_append,
      List.map_append]
    congr 1
    congr 1
    · simp only [List.range_one, List.map_cons, List.map_nil, List.cons.injEq, and_true]
      rw [(apply_ends _ h).2.2.1]
      congr 1
      push_cast
      field_simp
      ring
    · rw [List.map_map, List.map_map]
      refine List.map_congr_left fun k _ => ?_
      simp only [Function.comp]
      congr 1
      push_cast
      field_simp
      ring
  · obtain ⟨l, h1, h2⟩ := log2s_fills cmin cdelt hc hd nl nl ndiv hn hdiv true
    refine ⟨l, ?_, h2⟩
    rw [← h1]
    unfold log2s
    simp only [if_true, hn]

/-- C119: the ticks are `0` and `cmin * cdelt^i` on both sides; they stand at the ends of the divisions. -/
theorem log2s_ticks (cmin cdelt : ℝ) (hc : 0 < cmin) (hd : 1 < cdelt) (nf nl ndiv : ℕ) (hdiv : 2 ≤ ndiv) (nozero : Bool) :
    (log2s cmin cdelt nf nl ndiv nozero).ticks.map (log2s cmin cdelt nf nl ndiv nozero).norm.apply =
      (List.range (2 * ndiv + 1)).map fun k : ℕ => some ((k : ℝ) / (2 * ndiv)) := by
  obtain ⟨hN, h⟩ := log2s_norm hc hd nf nl hdiv nozero
  obtain ⟨l, h1, h2⟩ := (log2s_lines cmin cdelt hc hd nf 1 ndiv one_pos hdiv).1
  have e : (log2s cmin cdelt nf 1 ndiv false).norm = (log2s cmin cdelt nf nl ndiv nozero).norm := rfl
  rw [e] at h2
  have : (log2s cmin cdelt nf nl ndiv nozero).ticks = l := by
    have : (log2s cmin cdelt nf 1 ndiv false).lines = some ((log2s cmin cdelt nf nl ndiv nozero).ticks) := by
      have key : (linspace 0 ((ndiv : ℝ) - 1) (1 * (ndiv - 1) + 1)).map (fun x => cmin * cdelt ^ x) =
          (List.range ndiv).map fun i : ℕ => cmin * cdelt ^ (i : ℝ) := by
        obtain ⟨d, rfl⟩ : ∃ d, ndiv = d + 1 := ⟨ndiv - 1, by omega⟩
        have hd0 : (d : ℝ) ≠ 0 := by
          have : d ≠ 0 := by omega
          exact_mod_cast this
        rw [linspace_map, List.map_map, show 1 * (d + 1 - 1) + 1 = d + 1 by omega]
        refine List.map_congr_left fun k _ => ?_
        simp only [Function.comp]
        congr 2
        rw [show 1 * (d + 1 - 1) = d by omega]
        push_cast
        field_simp
        ring
      unfold log2s
      simp only [one_pos, if_true, Bool.false_eq_true, if_false]
      rw [key]
      congr 3
      rw [linspace_map, inner_map]
      norm_num
    rw [this] at h1
    exact Option.some.inj h1
  rw [this, h2]
  norm_num

/-! ### the levels of `log1sdict` -/

/-- C119: the boundaries, lines and ticks of `log1sdict` run evenly on the logarithmic scale from `cmin` to `cmin * cdelt^ndiv`. -/
theorem log1s_even (cmin cdelt : ℝ) (hc : 0 < cmin) (hd : 1 < cdelt) (nf nl ndiv : ℕ) (hf : 0 < nf) (hl : 0 < nl) (hdiv : 0 < ndiv) :
    ∃ cf cl tks lo hi, log1s cmin cdelt nf nl ndiv = (some cf, some cl, tks, lo, hi) ∧ lo = cmin ∧
      let colour := fun v : ℝ => (Real.log v - Real.log lo) / (Real.log hi - Real.log lo)
      cf.map colour = (List.range (nf * ndiv + 1)).map (fun k : ℕ => (k : ℝ) / (nf * ndiv)) ∧
      cl.map colour = (List.range (nl * ndiv + 1)).map (fun k : ℕ => (k : ℝ) / (nl * ndiv)) ∧
      tks.map colour = (List.range (ndiv + 1)).map (fun k : ℕ => (k : ℝ) / ndiv) := by
  refine ⟨_, _, _, _, _, by unfold log1s; rw [if_pos hf, if_pos hl], rfl, ?_⟩
  have hl : 0 < Real.log cdelt := Real.log_pos hd
  have hdiv' : (0 : ℝ) < ndiv := by exact_mod_cast hdiv
  have elog : ∀ x : ℝ, Real.log (cmin * cdelt ^ x) - Real.log cmin = x * Real.log cdelt := by
    intro x
    rw [Real.log_mul hc.ne' (Real.rpow_pos_of_pos (by linarith) x).ne', Real.log_rpow (by linarith)]
    ring
  have one : ∀ n : ℕ, 0 < n → ((linspace 0 (ndiv : ℝ) (n * ndiv + 1)).map fun x => cmin * cdelt ^ x).map
      (fun v : ℝ => (Real.log v - Real.log cmin) / (Real.log (cmin * cdelt ^ (ndiv : ℝ)) - Real.log cmin)) =
      (List.range (n * ndiv + 1)).map (fun k : ℕ => (k : ℝ) / (n * ndiv)) := by
    intro n hn
    have hn' : (0 : ℝ) < n := by exact_mod_cast hn
    rw [linspace_map, List.map_map, List.map_map]
    refine List.map_congr_left fun k _ => ?_
    simp only [Function.comp]
    rw [elog, elog]
    push_cast
    field_simp
    ring
  refine ⟨one nf hf, one nl (by assumption), ?_⟩
  rw [List.map_map]
  refine List.map_congr_left fun k _ => ?_
  simp only [Function.comp]
  rw [elog, elog]
  field_simp

/-! ### a case -/

example : TwoSided ⟨-100, 100, 1, 1 / 6⟩ := ⟨by norm_num, by norm_num, by norm_num, by norm_num, by norm_num⟩

/-- C119: with one division the scale has no logarithmic part: its ends are those of the linear part (`vin = vmax`), and colours outside are
quotients by zero. -/
theorem log2s_one_violated (cmin cdelt : ℝ) (nf nl : ℕ) (nozero : Bool) : (log2s cmin cdelt nf nl 1 nozero).norm.vin =
    (log2s cmin cdelt nf nl 1 nozero).norm.vmax ∧ (log2s cmin cdelt nf nl 1 nozero).norm.cin = 1 / 2 := by
  unfold log2s
  simp

end LogNorm
end PyGeode
