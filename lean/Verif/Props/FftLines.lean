/-
The discrete Fourier transform on a line of `n` points, as used by `fft_smooth`: orthogonality of the harmonics, and what
is left of a line after the harmonics from `m` on have been removed.
-/
import Verif.Model.FftSmooth
import Verif.Spec.FftSmooth
import Mathlib.Algebra.Ring.GeomSum
import Mathlib.Algebra.BigOperators.Ring.Finset
import Mathlib.Algebra.BigOperators.Field

namespace PyGeode
namespace FftSmooth
open Spec

/-! ### the roots of unity -/

theorem root_add (n : ℕ) (s t : ℤ) : root n (s + t) = root n s * root n t := by
  unfold root; rw [← Complex.exp_add]; congr 1; push_cast; ring

theorem root_zero (n : ℕ) : root n 0 = 1 := by simp [root]

theorem root_neg (n : ℕ) (t : ℤ) : root n (-t) = (starRingEnd ℂ) (root n t) := by
  unfold root
  rw [← Complex.exp_conj]
  congr 1
  simp [Complex.conj_I, Complex.conj_ofNat]

theorem root_eq_one {n : ℕ} (hn : n ≠ 0) (t : ℤ) : root n t = 1 ↔ (n : ℤ) ∣ t := by
  unfold root
  rw [Complex.exp_eq_one_iff]
  have h2 : (2 * Real.pi * Complex.I : ℂ) ≠ 0 := Complex.two_pi_I_ne_zero
  have hn' : (n : ℂ) ≠ 0 := by exact_mod_cast hn
  constructor
  · rintro ⟨q, hq⟩
    refine ⟨q, ?_⟩
    rw [div_eq_iff hn'] at hq
    have h3 : (2 * Real.pi * Complex.I : ℂ) * (t : ℂ) = (2 * Real.pi * Complex.I) * ((n : ℂ) * q) := by rw [hq]; ring
    have := mul_left_cancel₀ h2 h3
    exact_mod_cast this
  · rintro ⟨q, rfl⟩
    refine ⟨q, ?_⟩
    rw [div_eq_iff hn']
    push_cast; ring

theorem root_mul (n : ℕ) (t : ℤ) (j : ℕ) : root n (j * t) = root n t ^ j := by
  unfold root; rw [← Complex.exp_nat_mul]; congr 1; push_cast; ring

theorem root_congr {n : ℕ} (hn : n ≠ 0) {s t : ℤ} (h : (n : ℤ) ∣ s - t) : root n s = root n t := by
  have : s = (s - t) + t := by ring
  rw [this, root_add, (root_eq_one hn _).2 h, one_mul]

/-- the sum of a harmonic over the line -/
theorem root_sum {n : ℕ} (hn : n ≠ 0) (t : ℤ) :
    ∑ j ∈ Finset.range n, root n (j * t) = if (n : ℤ) ∣ t then (n : ℂ) else 0 := by
  simp only [root_mul]
  split_ifs with h
  · rw [(root_eq_one hn t).2 h]; simp
  · have h1 : root n t - 1 ≠ 0 := sub_ne_zero.2 fun e => h ((root_eq_one hn t).1 e)
    have h2 : root n t ^ n = 1 := by
      rw [← root_mul]; exact (root_eq_one hn _).2 ⟨t, rfl⟩
    have := geom_sum_mul (root n t) n
    rw [h2, sub_self] at this
    exact (mul_eq_zero.1 this).resolve_right h1

/-! ### the transform and its inverse -/

theorem fft_congr {n : ℕ} (hn : n ≠ 0) (x : ℕ → ℂ) {p q : ℤ} (h : (n : ℤ) ∣ p - q) : fft n x p = fft n x q := by
  refine Finset.sum_congr rfl fun j _ => ?_
  rw [root_congr hn (s := -(j * p)) (t := -(j * q)) ?_]
  have : -((j : ℤ) * p) - -(j * q) = (p - q) * (-j) := by ring
  rw [this]
  exact Dvd.dvd.mul_right h _

theorem fft_conj (n : ℕ) (x : ℕ → ℂ) (q : ℤ) : fft n (fun j => (starRingEnd ℂ) (x j)) q = (starRingEnd ℂ) (fft n x (-q)) := by
  unfold fft
  rw [map_sum]
  refine Finset.sum_congr rfl fun j _ => ?_
  rw [map_mul, ← root_neg]
  congr 2; ring

/-- a real line: the coefficients of opposite harmonics are conjugate -/
theorem fft_real (n : ℕ) (x : ℕ → ℝ) (q : ℤ) : (starRingEnd ℂ) (fft n (fun j => (x j : ℂ)) q) = fft n (fun j => (x j : ℂ)) (-q) := by
  have := fft_conj n (fun j => (x j : ℂ)) (-q)
  simp only [Complex.conj_ofReal, neg_neg] at this
  exact this.symm

theorem emod_toNat_lt {n : ℕ} (hn : n ≠ 0) (q : ℤ) : (q % n).toNat < n := by
  have h1 := Int.emod_lt_of_pos q (by omega : (0 : ℤ) < n)
  have h0 := Int.emod_nonneg q (by omega : (n : ℤ) ≠ 0)
  omega

/-- the coefficients of a line made by `ifft` -/
theorem fft_ifft {n : ℕ} (hn : n ≠ 0) (c : ℕ → ℂ) (q : ℤ) : fft n (ifft n c) q = c (q % n).toNat := by
  have hn' : (n : ℂ) ≠ 0 := by exact_mod_cast hn
  unfold fft ifft
  have h1 : ∀ j ∈ Finset.range n, (∑ k ∈ Finset.range n, c k * root n (j * k)) / n * root n (-(j * q)) =
      ∑ k ∈ Finset.range n, c k / n * root n (j * (k - q)) := by
    intro j _
    rw [Finset.sum_div, Finset.sum_mul]
    refine Finset.sum_congr rfl fun k _ => ?_
    have : (j : ℤ) * (k - q) = j * k + -(j * q) := by ring
    rw [this, root_add]; ring
  rw [Finset.sum_congr rfl h1, Finset.sum_comm]
  simp only [← Finset.mul_sum]
  set r := (q % n).toNat with hr
  have hrn : r < n := emod_toNat_lt hn q
  have hrq : (r : ℤ) = q % n := by
    rw [hr, Int.toNat_of_nonneg (Int.emod_nonneg q (by omega : (n : ℤ) ≠ 0))]
  rw [Finset.sum_eq_single_of_mem r (Finset.mem_range.2 hrn)]
  · rw [root_sum hn, if_pos, div_mul_cancel₀ _ hn']
    rw [hrq]
    have := Int.emod_add_mul_ediv q n
    exact ⟨-(q / n), by linarith⟩
  · intro k hk hne
    rw [root_sum hn, if_neg, mul_zero]
    intro hd
    apply hne
    have h3 : (n : ℤ) ∣ (k : ℤ) - r := by
      have h4 : (n : ℤ) ∣ q - r := by rw [hrq]; exact ⟨q / n, by have := Int.emod_add_mul_ediv q n; linarith⟩
      have := dvd_add hd h4
      have e : (k : ℤ) - q + (q - r) = k - r := by ring
      rwa [e] at this
    have hk' := Finset.mem_range.1 hk
    have := Int.eq_zero_of_abs_lt_dvd h3 (by rw [abs_lt]; omega)
    omega

theorem fft_add (n : ℕ) (x y : ℕ → ℂ) (q : ℤ) : fft n (fun j => x j + y j) q = fft n x q + fft n y q := by
  unfold fft; rw [← Finset.sum_add_distrib]; exact Finset.sum_congr rfl fun _ _ => by ring

theorem fft_sub (n : ℕ) (x y : ℕ → ℂ) (q : ℤ) : fft n (fun j => x j - y j) q = fft n x q - fft n y q := by
  unfold fft; rw [← Finset.sum_sub_distrib]; exact Finset.sum_congr rfl fun _ _ => by ring

theorem fft_smul (n : ℕ) (a : ℂ) (x : ℕ → ℂ) (q : ℤ) : fft n (fun j => a * x j) q = a * fft n x q := by
  unfold fft; rw [Finset.mul_sum]; exact Finset.sum_congr rfl fun _ _ => by ring

/-- the harmonic of the line that has the coefficient number `k` -/
def harmonic (n k : ℕ) : ℕ := min k (n - k)

/-- the coefficients of the harmonics below `m` -/
noncomputable def kept (n m : ℕ) (c : ℕ → ℂ) (k : ℕ) : ℂ := if harmonic n k < m then c k else 0

theorem kept_mod {n m : ℕ} (hn : n ≠ 0) (x : ℕ → ℂ) {q : ℤ} (h1 : -(m : ℤ) < q) (h2 : q < m) :
    kept n m (fun k : ℕ => fft n x k) (q % n).toNat = fft n x q := by
  have hn0 : (n : ℤ) ≠ 0 := by omega
  have hrq : ((q % n).toNat : ℤ) = q % n := Int.toNat_of_nonneg (Int.emod_nonneg q hn0)
  have hlt := emod_toNat_lt hn q
  have hdvd : (n : ℤ) ∣ ((q % n).toNat : ℤ) - q := by
    rw [hrq]; have := Int.emod_add_mul_ediv q n; exact ⟨-(q / n), by linarith⟩
  have hh : harmonic n (q % n).toNat < m := by
    unfold harmonic
    rcases le_or_gt 0 q with h | h
    · have h3 : 0 ≤ q / n := Int.ediv_nonneg h (by omega)
      have h4 : 0 ≤ (n : ℤ) * (q / n) := mul_nonneg (by omega) h3
      have := Int.emod_add_mul_ediv q n
      omega
    · obtain ⟨e, he⟩ := hdvd
      have : (n : ℤ) - (q % n).toNat ≤ -q ∨ (q % n).toNat = 0 := by
        left
        have : q = (q % n).toNat - n * e := by linarith
        have hq : 1 ≤ e := by
          by_contra hc
          have : (n : ℤ) * e ≤ 0 := mul_nonpos_of_nonneg_of_nonpos (by omega) (by omega)
          omega
        have : (n : ℤ) * 1 ≤ n * e := mul_le_mul_of_nonneg_left hq (by omega)
        omega
      omega
  unfold kept
  rw [if_pos hh]
  exact fft_congr hn x hdvd

/-! ### what the edits of the coefficients leave -/

theorem zeroed_real (n m : ℕ) (c : ℕ → ℂ) {k : ℕ} (hk : 2 * k ≤ n) :
    zeroed (n / 2 + 1) m none c k = if k < m then c k else 0 := by
  unfold zeroed sliceBound
  simp only [Option.map_none, Option.getD_none]
  have : (max 0 (min (if (m : ℤ) < 0 then (m : ℤ) + ((n / 2 + 1 : ℕ) : ℤ) else m) ((n / 2 + 1 : ℕ) : ℤ)) ≤ (k : ℤ) ∧
      (k : ℤ) < ((n / 2 + 1 : ℕ) : ℤ)) ↔ ¬ k < m := by
    rw [if_neg (by omega)]
    omega
  by_cases h : k < m
  · rw [if_neg (by rw [this]; simpa using h), if_pos h]
  · rw [if_pos (this.2 h), if_neg h]

theorem hermitian_kept {n m : ℕ} (x : ℕ → ℝ) {k : ℕ} (hk : k < n) :
    hermitian n (zeroed (n / 2 + 1) m none (rfft n x)) k = kept n m (fun k : ℕ => fft n (fun j => (x j : ℂ)) k) k := by
  have hn : n ≠ 0 := by omega
  have real : ∀ q : ℕ, (n : ℤ) ∣ (q : ℤ) - -q → ((fft n (fun j => (x j : ℂ)) q).re : ℂ) = fft n (fun j => (x j : ℂ)) q := by
    intro q hq
    refine Complex.conj_eq_iff_re.1 ?_
    rw [fft_real]
    exact (fft_congr hn _ hq).symm
  unfold hermitian kept harmonic
  split_ifs with h1 h2 h2 h3 h3 h3
  · rw [zeroed_real n m _ (by omega), if_pos (by omega)]
    exact real k (by
      rcases h1 with rfl | h1
      · simp
      · exact ⟨1, by push_cast [← h1]; ring⟩)
  · rw [zeroed_real n m _ (by omega), if_neg (by omega)]; simp
  · rw [zeroed_real n m _ (by omega), if_pos (by omega)]; rfl
  · rw [zeroed_real n m _ (by omega), if_neg (by omega)]
  · rw [zeroed_real n m _ (by omega), if_pos (by omega)]
    unfold rfft
    rw [fft_real]
    refine fft_congr hn _ ⟨-1, ?_⟩
    push_cast [Nat.cast_sub hk.le]; ring
  · rw [zeroed_real n m _ (by omega), if_neg (by omega)]; simp

theorem zeroed_complex {n m : ℕ} (hm : 2 ≤ m) (c : ℕ → ℂ) {k : ℕ} (hk : k < n) :
    zeroed n m (some (-(m : ℤ) + 1)) c k = kept n m c k := by
  unfold zeroed sliceBound kept harmonic
  simp only [Option.map_some, Option.getD_some]
  have : (max 0 (min (if (m : ℤ) < 0 then (m : ℤ) + (n : ℤ) else m) n) ≤ (k : ℤ) ∧
      (k : ℤ) < max 0 (min (if -(m : ℤ) + 1 < 0 then -(m : ℤ) + 1 + n else -(m : ℤ) + 1) n)) ↔ ¬ min k (n - k) < m := by
    rw [if_neg (by omega), if_pos (by omega)]
    omega
  by_cases h : min k (n - k) < m
  · rw [if_neg (fun hc => this.1 hc h), if_pos h]
  · rw [if_pos (this.2 h), if_neg h]

theorem ifft_congr {n : ℕ} {c c' : ℕ → ℂ} (h : ∀ k < n, c k = c' k) : ifft n c = ifft n c' := by
  funext j
  unfold ifft
  rw [Finset.sum_congr rfl fun k hk => by rw [h k (Finset.mem_range.1 hk)]]

/-! ### the line that is left -/

theorem wave_root (n : ℕ) (k : ℤ) (j : ℕ) : wave n k j = root n (j * k) := by
  unfold wave root; congr 1; push_cast; ring

/-- the number of turns of the coefficient `k`, the shorter way round -/
def turns (n k : ℕ) : ℤ := if 2 * k ≤ n then (k : ℤ) else (k : ℤ) - n

theorem kept_low {n : ℕ} (hn : n ≠ 0) (m : ℕ) (x : ℕ → ℂ) : LowWaves n m x (ifft n (kept n m fun k : ℕ => fft n x k)) where
  made := by
    refine ⟨fun q => ∑ k ∈ (Finset.range n).filter (fun k => harmonic n k < m) with turns n k = q, fft n x k / n, fun j hj => ?_⟩
    have h1 : ifft n (kept n m fun k : ℕ => fft n x k) j =
        ∑ k ∈ (Finset.range n).filter (fun k => harmonic n k < m), fft n x k / n * wave n (turns n k) j := by
      unfold ifft
      rw [Finset.sum_filter, Finset.sum_div]
      refine Finset.sum_congr rfl fun k hk => ?_
      unfold kept
      split_ifs with h
      · rw [wave_root, root_congr hn (s := j * turns n k) (t := j * k)]
        · ring
        · unfold turns
          split_ifs
          · simp
          · exact ⟨-j, by ring⟩
      · simp
    rw [h1, ← Finset.sum_fiberwise_of_maps_to (t := Finset.Ioo (-(m : ℤ)) m) (g := turns n)]
    · refine Finset.sum_congr rfl fun q hq => ?_
      rw [Finset.sum_mul]
      refine Finset.sum_congr rfl fun k hk => ?_
      rw [(Finset.mem_filter.1 hk).2]
    · intro k hk
      simp only [Finset.mem_filter, Finset.mem_range] at hk
      have h2 := hk.2
      unfold harmonic at h2
      rw [Finset.mem_Ioo]
      unfold turns
      split_ifs <;> omega
  rest := by
    intro k h1 h2
    have h3 : ∑ j ∈ Finset.range n, (x j - ifft n (kept n m fun k : ℕ => fft n x k) j) * (starRingEnd ℂ) (wave n k j) =
        fft n (fun j => x j - ifft n (kept n m fun k : ℕ => fft n x k) j) k := by
      unfold fft
      refine Finset.sum_congr rfl fun j _ => ?_
      rw [wave_root, ← root_neg]
    rw [h3, fft_sub, fft_ifft hn, kept_mod hn x h1 h2, sub_self]

theorem re_wave (n : ℕ) (q : ℤ) (j : ℕ) (a : ℂ) :
    (a * wave n q j).re = a.re * cosine n q.natAbs j + -a.im * q.sign * sine n q.natAbs j := by
  have e : (2 * Real.pi * Complex.I * q * j / n : ℂ) = ((2 * Real.pi * q * j / n : ℝ) : ℂ) * Complex.I := by push_cast; ring
  unfold wave cosine sine
  rw [e, Complex.exp_mul_I, ← Complex.ofReal_cos, ← Complex.ofReal_sin]
  have hre : ∀ c s : ℝ, (a * ((c : ℂ) + (s : ℂ) * Complex.I)).re = a.re * c - a.im * s := by intro c s; simp
  rw [hre]
  rcases lt_trichotomy q 0 with h | rfl | h
  · have hq : (q : ℝ) = -(q.natAbs : ℝ) := by
      have : q = -(q.natAbs : ℤ) := by omega
      exact_mod_cast congrArg (fun z : ℤ => (z : ℝ)) this
    rw [hq, Int.sign_eq_neg_one_of_neg h]
    have e2 : 2 * Real.pi * -(q.natAbs : ℝ) * j / n = -(2 * Real.pi * q.natAbs * j / n) := by ring
    rw [e2, Real.cos_neg, Real.sin_neg]; push_cast; ring
  · simp
  · have hq : (q : ℝ) = (q.natAbs : ℝ) := by
      have : q = (q.natAbs : ℤ) := by omega
      have h3 := congrArg (fun z : ℤ => (z : ℝ)) this
      simpa only [Int.cast_natCast] using h3
    rw [hq, Int.sign_eq_one_of_pos h]; push_cast; ring

/-- the real part of a line made of waves is made of harmonics -/
theorem re_made {n m : ℕ} {y : ℕ → ℂ} (h : ∃ a : ℤ → ℂ, ∀ j < n, y j = ∑ k ∈ Finset.Ioo (-(m : ℤ)) m, a k * wave n k j) :
    MadeOfHarmonics n m fun j => (y j).re := by
  obtain ⟨a, ha⟩ := h
  refine ⟨fun k => ∑ q ∈ Finset.Ioo (-(m : ℤ)) m with q.natAbs = k, (a q).re,
    fun k => ∑ q ∈ Finset.Ioo (-(m : ℤ)) m with q.natAbs = k, -(a q).im * q.sign, fun j hj => ?_⟩
  show (y j).re = _
  rw [ha j hj, Complex.re_sum, ← Finset.sum_fiberwise_of_maps_to (t := Finset.range m) (g := Int.natAbs)]
  · refine Finset.sum_congr rfl fun k hk => ?_
    rw [Finset.sum_mul, Finset.sum_mul, ← Finset.sum_add_distrib]
    refine Finset.sum_congr rfl fun q hq => ?_
    rw [re_wave, (Finset.mem_filter.1 hq).2]
  · intro q hq
    rw [Finset.mem_Ioo] at hq
    rw [Finset.mem_range]
    omega

theorem root_parts (n k j : ℕ) : root n (-(j * (k : ℤ))) = (cosine n k j : ℂ) - (sine n k j : ℂ) * Complex.I := by
  rw [root_neg, ← wave_root]
  have e : (2 * Real.pi * Complex.I * (k : ℤ) * j / n : ℂ) = ((2 * Real.pi * k * j / n : ℝ) : ℂ) * Complex.I := by
    push_cast; ring
  unfold wave cosine sine
  rw [e, Complex.exp_mul_I, ← Complex.ofReal_cos, ← Complex.ofReal_sin]
  generalize Real.cos (2 * Real.pi * k * j / n) = c
  generalize Real.sin (2 * Real.pi * k * j / n) = s
  simp [sub_eq_add_neg]

/-- the common part of a real line with a harmonic, from its coefficient -/
theorem fft_parts (n : ℕ) (z : ℕ → ℝ) (k : ℕ) (h : fft n (fun j => (z j : ℂ)) k = 0) :
    ∑ j ∈ Finset.range n, z j * cosine n k j = 0 ∧ ∑ j ∈ Finset.range n, z j * sine n k j = 0 := by
  unfold fft at h
  simp only [root_parts] at h
  constructor
  · have := congrArg Complex.re h
    rw [Complex.re_sum] at this
    simpa using this
  · have := congrArg Complex.im h
    rw [Complex.im_sum] at this
    simpa using this

/-- a line is recovered from its coefficients -/
theorem ifft_fft {n : ℕ} (hn : n ≠ 0) (x : ℕ → ℂ) {j : ℕ} (hj : j < n) : ifft n (fun k : ℕ => fft n x k) j = x j := by
  have hn' : (n : ℂ) ≠ 0 := by exact_mod_cast hn
  unfold ifft fft
  have h1 : ∀ k ∈ Finset.range n, (∑ i ∈ Finset.range n, x i * root n (-(i * (k : ℤ)))) * root n (j * k) =
      ∑ i ∈ Finset.range n, x i * root n (k * (j - i)) := by
    intro k _
    rw [Finset.sum_mul]
    refine Finset.sum_congr rfl fun i _ => ?_
    have : (k : ℤ) * (j - i) = -(i * k) + j * k := by ring
    rw [this, root_add]; ring
  rw [Finset.sum_congr rfl h1, Finset.sum_comm]
  simp only [← Finset.mul_sum]
  rw [Finset.sum_eq_single_of_mem j (Finset.mem_range.2 hj)]
  · rw [root_sum hn, if_pos (by simp), mul_div_assoc, div_self hn', mul_one]
  · intro i hi hne
    rw [root_sum hn, if_neg, mul_zero]
    intro hd
    have hi' := Finset.mem_range.1 hi
    have := Int.eq_zero_of_abs_lt_dvd hd (by rw [abs_lt]; omega)
    omega

theorem smoothLine_low {n : ℕ} (hn : n ≠ 0) (m : ℕ) (x : ℕ → ℝ) : LowHarmonics n m x (smoothLine n m x) := by
  have hy : smoothLine n m x = fun j => (ifft n (kept n m fun k : ℕ => fft n (fun j => (x j : ℂ)) k) j).re := by
    unfold smoothLine
    funext j
    unfold irfft
    rw [ifft_congr fun k hk => hermitian_kept x hk]
  have hl := kept_low hn m fun j => (x j : ℂ)
  set y := ifft n (kept n m fun k : ℕ => fft n (fun j => (x j : ℂ)) k) with hydef
  rw [hy]
  refine ⟨re_made hl.made, fun k hk => fft_parts n _ k ?_⟩
  have h1 : ∀ j, (((x j - (y j).re : ℝ)) : ℂ) = (x j : ℂ) - ((1 / 2) * (y j + (starRingEnd ℂ) (y j))) := by
    intro j
    rw [Complex.add_conj]; push_cast; ring
  have h2 : fft n y k = fft n (fun j => (x j : ℂ)) k := by
    rw [hydef, fft_ifft hn, kept_mod hn _ (by omega) (by omega)]
  have h3 : fft n (fun j => (starRingEnd ℂ) (y j)) k = fft n (fun j => (x j : ℂ)) k := by
    rw [fft_conj, hydef, fft_ifft hn, kept_mod hn _ (by omega) (by omega), fft_real, neg_neg]
  simp only [h1]
  rw [fft_sub, fft_smul n (1 / 2) (fun j => y j + (starRingEnd ℂ) (y j)), fft_add, h2, h3]
  ring

theorem smoothLineC_low {n : ℕ} (hn : n ≠ 0) {m : ℕ} (hm : 2 ≤ m) (x : ℕ → ℂ) : LowWaves n m x (smoothLineC n m x) := by
  have : smoothLineC n m x = ifft n (kept n m fun k : ℕ => fft n x k) := by
    unfold smoothLineC
    exact ifft_congr fun k hk => zeroed_complex hm _ hk
  rw [this]
  exact kept_low hn m x

end FftSmooth
end PyGeode
