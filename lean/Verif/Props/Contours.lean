/-
Properties C115 and C116: the contours `showvar` chooses reach all values but outliers, at round numbers; the levels of `clfdict` and
`cldict`.
-/
import Verif.Spec.Contours
import Mathlib.Data.List.GetD
import Mathlib.Tactic.Linarith
import Mathlib.Tactic.FieldSimp
import Mathlib.Tactic.Ring
import Mathlib.Tactic.NormNum
import Mathlib.Tactic.Positivity
import Mathlib.Algebra.Order.Floor.Semiring

namespace PyGeode
namespace Contours
open Spec

/-! ### percentiles -/

/-- the value at a fractional place of a sorted list -/
def interp (s : List ℚ) (h : ℚ) : ℚ :=
  s.getD ⌊h⌋₊ 0 + (h - ⌊h⌋₊) * (s.getD (min (⌊h⌋₊ + 1) (s.length - 1)) 0 - s.getD ⌊h⌋₊ 0)

theorem percentile_eq (l : List ℚ) (q : ℚ) :
    percentile l q = interp (l.insertionSort (· ≤ ·)) (q / 100 * ((l.length : ℚ) - 1)) := by
  unfold percentile interp
  simp only [List.length_insertionSort]

theorem sorted_le {s : List ℚ} (hs : s.Pairwise (· ≤ ·)) {i j : ℕ} (hij : i ≤ j) (hj : j < s.length) : s.getD i 0 ≤ s.getD j 0 := by
  rw [List.getD_eq_getElem _ _ (by omega), List.getD_eq_getElem _ _ hj]
  rcases Nat.eq_or_lt_of_le hij with rfl | h
  · exact le_refl _
  · exact List.pairwise_iff_getElem.1 hs i j (by omega) hj h

theorem interp_bounds {s : List ℚ} (hs : s.Pairwise (· ≤ ·)) {h : ℚ} (h0 : 0 ≤ h) (h1 : ⌊h⌋₊ < s.length) :
    s.getD ⌊h⌋₊ 0 ≤ interp s h ∧ interp s h ≤ s.getD (min (⌊h⌋₊ + 1) (s.length - 1)) 0 := by
  have hle := sorted_le hs (i := ⌊h⌋₊) (j := min (⌊h⌋₊ + 1) (s.length - 1)) (by omega) (by omega)
  have hf0 := Nat.floor_le h0
  have hf1 := Nat.lt_floor_add_one h
  unfold interp
  constructor
  · have := mul_nonneg (sub_nonneg.2 hf0) (sub_nonneg.2 hle)
    linarith
  · have : (h - ⌊h⌋₊) * (s.getD (min (⌊h⌋₊ + 1) (s.length - 1)) 0 - s.getD ⌊h⌋₊ 0) ≤
        1 * (s.getD (min (⌊h⌋₊ + 1) (s.length - 1)) 0 - s.getD ⌊h⌋₊ 0) :=
      mul_le_mul_of_nonneg_right (by linarith) (sub_nonneg.2 hle)
    linarith

theorem interp_mono {s : List ℚ} (hs : s.Pairwise (· ≤ ·)) {h h' : ℚ} (h0 : 0 ≤ h) (hh : h ≤ h') (h1 : ⌊h'⌋₊ < s.length) :
    interp s h ≤ interp s h' := by
  have hfl := Nat.floor_le_floor hh
  rcases Nat.eq_or_lt_of_le hfl with he | hlt
  · unfold interp
    rw [he]
    have hle := sorted_le hs (i := ⌊h'⌋₊) (j := min (⌊h'⌋₊ + 1) (s.length - 1)) (by omega) (by omega)
    have := mul_le_mul_of_nonneg_right (sub_le_sub_right hh (⌊h'⌋₊ : ℚ)) (sub_nonneg.2 hle)
    linarith
  · have a := (interp_bounds hs h0 (by omega)).2
    have b := (interp_bounds hs (h0.trans hh) h1).1
    have c := sorted_le hs (i := min (⌊h⌋₊ + 1) (s.length - 1)) (j := ⌊h'⌋₊) (by omega) h1
    linarith

theorem place_lt {l : List ℚ} (hl : l ≠ []) {q : ℚ} (h0 : 0 ≤ q) (h1 : q ≤ 100) :
    0 ≤ q / 100 * ((l.length : ℚ) - 1) ∧ ⌊q / 100 * ((l.length : ℚ) - 1)⌋₊ < l.length := by
  have hn := List.length_pos_of_ne_nil hl
  have hn' : (0 : ℚ) ≤ (l.length : ℚ) - 1 := by
    have : (1 : ℚ) ≤ (l.length : ℚ) := by exact_mod_cast hn
    linarith
  have ha : 0 ≤ q / 100 * ((l.length : ℚ) - 1) := mul_nonneg (by linarith) hn'
  refine ⟨ha, (Nat.floor_lt ha).2 ?_⟩
  have : q / 100 * ((l.length : ℚ) - 1) ≤ 1 * ((l.length : ℚ) - 1) := mul_le_mul_of_nonneg_right (by linarith) hn'
  linarith

theorem percentile_mono {l : List ℚ} (hl : l ≠ []) {q q' : ℚ} (h0 : 0 ≤ q) (hq : q ≤ q') (h1 : q' ≤ 100) :
    percentile l q ≤ percentile l q' := by
  rw [percentile_eq, percentile_eq]
  have hn := List.length_pos_of_ne_nil hl
  have hn' : (0 : ℚ) ≤ (l.length : ℚ) - 1 := by
    have : (1 : ℚ) ≤ (l.length : ℚ) := by exact_mod_cast hn
    linarith
  refine interp_mono (List.pairwise_insertionSort _ _) (place_lt hl h0 (hq.trans h1)).1
    (mul_le_mul_of_nonneg_right (by linarith) hn') ?_
  rw [List.length_insertionSort]
  exact (place_lt hl (h0.trans hq) h1).2

/-- the lowest value -/
theorem percentile_zero {l : List ℚ} (hl : l ≠ []) : percentile l 0 ∈ l ∧ ∀ x ∈ l, percentile l 0 ≤ x := by
  have hn := List.length_pos_of_ne_nil hl
  have hs : (l.insertionSort (· ≤ ·)).Pairwise (· ≤ ·) := List.pairwise_insertionSort _ _
  have hp := List.perm_insertionSort (· ≤ ·) l
  have e : percentile l 0 = (l.insertionSort (· ≤ ·)).getD 0 0 := by
    rw [percentile_eq]; unfold interp; simp
  rw [e]
  have hsl : 0 < (l.insertionSort (· ≤ ·)).length := by rw [List.length_insertionSort]; exact hn
  constructor
  · rw [List.getD_eq_getElem _ _ hsl]
    exact hp.subset (List.getElem_mem hsl)
  · intro x hx
    obtain ⟨i, hi, rfl⟩ := List.getElem_of_mem (hp.symm.subset hx)
    rw [← List.getD_eq_getElem _ 0 hi]
    exact sorted_le hs (Nat.zero_le _) hi

/-- the highest value -/
theorem percentile_all {l : List ℚ} (hl : l ≠ []) : percentile l 100 ∈ l ∧ ∀ x ∈ l, x ≤ percentile l 100 := by
  have hn := List.length_pos_of_ne_nil hl
  have hs : (l.insertionSort (· ≤ ·)).Pairwise (· ≤ ·) := List.pairwise_insertionSort _ _
  have hp := List.perm_insertionSort (· ≤ ·) l
  have hc : (100 : ℚ) / 100 * ((l.length : ℚ) - 1) = ((l.length - 1 : ℕ) : ℚ) := by
    rw [Nat.cast_sub hn]; norm_num
  have e : percentile l 100 = (l.insertionSort (· ≤ ·)).getD (l.length - 1) 0 := by
    rw [percentile_eq, hc]; unfold interp; simp
  rw [e]
  have hsl : l.length - 1 < (l.insertionSort (· ≤ ·)).length := by rw [List.length_insertionSort]; omega
  constructor
  · rw [List.getD_eq_getElem _ _ hsl]
    exact hp.subset (List.getElem_mem hsl)
  · intro x hx
    obtain ⟨i, hi, rfl⟩ := List.getElem_of_mem (hp.symm.subset hx)
    rw [← List.getD_eq_getElem _ 0 hi]
    rw [List.length_insertionSort] at hi
    exact sorted_le hs (by omega) hsl

theorem constant_iff {l : List ℚ} (hl : l ≠ []) : percentile l 100 - percentile l 0 > 0 ↔ NotConstant l := by
  obtain ⟨a1, a2⟩ := percentile_zero hl
  obtain ⟨b1, b2⟩ := percentile_all hl
  constructor
  · intro h
    exact ⟨_, a1, _, b1, by linarith⟩
  · rintro ⟨x, hx, y, hy, hxy⟩
    have := a2 x hx
    have := b2 y hy
    linarith

/-! ### limits -/

theorem limits_spec {l : List ℚ} (hl : l ≠ []) :
    (∀ x ∈ l, ¬ LowOutlier l x → (limits l).1 ≤ x) ∧ (∀ x ∈ l, ¬ HighOutlier l x → x ≤ (limits l).2) ∧
    (limits l).1 < (limits l).2 ∧
    (NotConstant l → percentile l 0 ≤ (limits l).1 ∧ (limits l).2 ≤ percentile l 100) := by
  obtain ⟨a1, a2⟩ := percentile_zero hl
  obtain ⟨b1, b2⟩ := percentile_all hl
  have m1 := percentile_mono hl (q := 0) (q' := 2) (by norm_num) (by norm_num) (by norm_num)
  have m2 := percentile_mono hl (q := 2) (q' := 50) (by norm_num) (by norm_num) (by norm_num)
  have m3 := percentile_mono hl (q := 50) (q' := 98) (by norm_num) (by norm_num) (by norm_num)
  have m4 := percentile_mono hl (q := 98) (q' := 100) (by norm_num) (by norm_num) (by norm_num)
  rw [← constant_iff hl]
  unfold limits LowOutlier HighOutlier
  generalize percentile l 0 = mn at *
  generalize percentile l 2 = p2 at *
  generalize percentile l 50 = md at *
  generalize percentile l 98 = p98 at *
  generalize percentile l 100 = mx at *
  simp only
  by_cases hc : mx - mn > 0
  · rw [if_pos hc]
    refine ⟨?_, ?_, ?_, fun _ => ⟨?_, ?_⟩⟩
    · intro x hx hno
      show (if md - p2 > 0 ∧ (md - mn) / (md - p2) > 50 then p2 else mn) ≤ x
      split_ifs with h
      · by_contra hlt
        refine hno ⟨not_le.1 hlt, by linarith [h.1], mn, a1, ?_⟩
        have := h.2
        rw [gt_iff_lt, lt_div_iff₀ h.1] at this
        exact this
      · exact a2 x hx
    · intro x hx hno
      show x ≤ (if p98 - md > 0 ∧ (mx - md) / (p98 - md) > 50 then p98 else mx)
      split_ifs with h
      · by_contra hlt
        refine hno ⟨not_le.1 hlt, by linarith [h.1], mx, b1, ?_⟩
        have := h.2
        rw [gt_iff_lt, lt_div_iff₀ h.1] at this
        exact this
      · exact b2 x hx
    · show (if md - p2 > 0 ∧ (md - mn) / (md - p2) > 50 then p2 else mn) < (if p98 - md > 0 ∧ (mx - md) / (p98 - md) > 50 then p98 else mx)
      split_ifs with h h'
      · linarith [h.1]
      · linarith [h.1]
      · rename_i h'; linarith [h'.1]
      · linarith
    · show mn ≤ (if md - p2 > 0 ∧ (md - mn) / (md - p2) > 50 then p2 else mn)
      split_ifs <;> linarith
    · show (if p98 - md > 0 ∧ (mx - md) / (p98 - md) > 50 then p98 else mx) ≤ mx
      split_ifs <;> linarith
  · rw [if_neg hc]
    refine ⟨fun x hx _ => ?_, fun x hx _ => ?_, ?_, fun h => absurd h hc⟩
    · have := a2 x hx
      show mn - 1 ≤ x
      linarith
    · have := b2 x hx
      show x ≤ mn + 1
      linarith
    · show mn - 1 < mn + 1
      linarith

/-! ### round numbers -/

theorem decade_spec {d : ℚ} (hd : 0 < d) : 1 ≤ d / 10 ^ decade d ∧ d / 10 ^ decade d < 10 := by
  have h1 : (10 : ℚ) ^ Int.log 10 d ≤ d := by
    have := Int.zpow_log_le_self (R := ℚ) (b := 10) (by norm_num) hd
    simpa using this
  have h2 : d < (10 : ℚ) ^ (Int.log 10 d + 1) := by
    have := Int.lt_zpow_succ_log_self (R := ℚ) (b := 10) (by norm_num) d
    simpa using this
  unfold decade
  rw [abs_of_pos hd]
  have hp : (0 : ℚ) < 10 ^ Int.log 10 d := zpow_pos (by norm_num) _
  rw [zpow_add_one₀ (by norm_num)] at h2
  refine ⟨(one_le_div hp).2 h1, (div_lt_iff₀ hp).2 (by linarith)⟩

theorem roundDiv_spec {m : ℚ} (h1 : 1 ≤ m) (h2 : m < 10) :
    (roundDiv m).1 ∈ ([1, 3 / 2, 2, 3, 4, 5, 6, 10] : List ℚ) ∧ m ≤ (roundDiv m).1 ∧ (roundDiv m).1 ≤ 5 / 3 * m ∧ 0 < (roundDiv m).2 := by
  unfold roundDiv
  split_ifs <;> refine ⟨by simp, ?_, ?_, by simp⟩ <;> simp only <;> linarith

theorem roundSeq_spec {m : ℚ} (h1 : 1 ≤ m) (h2 : m < 10) :
    (roundSeq m).1 ∈ ([1, 3 / 2, 2, 3, 4, 5, 6, 10] : List ℚ) ∧ m ≤ (roundSeq m).1 ∧ (roundSeq m).1 ≤ 5 / 3 * m ∧ 0 < (roundSeq m).2 := by
  unfold roundSeq
  split_ifs <;> refine ⟨by simp, ?_, ?_, by simp⟩ <;> simp only <;> linarith

theorem spacing_spec {round : ℚ → ℚ × ℕ}
    (hr : ∀ m, 1 ≤ m → m < 10 → (round m).1 ∈ ([1, 3 / 2, 2, 3, 4, 5, 6, 10] : List ℚ) ∧ m ≤ (round m).1 ∧ (round m).1 ≤ 5 / 3 * m ∧
      0 < (round m).2) {d : ℚ} (hd : 0 < d) :
    RoundNumber (spacing round d).1 ∧ d ≤ (spacing round d).1 ∧ (spacing round d).1 ≤ 5 / 3 * d ∧ 0 < (spacing round d).2 := by
  obtain ⟨h1, h2⟩ := decade_spec hd
  obtain ⟨a, b, c, e⟩ := hr _ h1 h2
  have hp : (0 : ℚ) < 10 ^ decade d := zpow_pos (by norm_num) _
  unfold spacing
  refine ⟨⟨_, _, a, rfl⟩, ?_, ?_, e⟩
  · rw [div_le_iff₀ hp] at b
    exact b
  · show (round (d / 10 ^ decade d)).1 * 10 ^ decade d ≤ 5 / 3 * d
    have := mul_le_mul_of_nonneg_right c hp.le
    rwa [mul_assoc, div_mul_cancel₀ _ hp.ne'] at this

/-! ### levels -/

theorem linspace_eq (a b : ℚ) (n : ℕ) : linspace a b (n + 1) = evenly a ((b - a) / n) (n + 1) := by
  unfold linspace evenly
  simp

theorem evenly_append (a s : ℚ) (m n : ℕ) : evenly a s (m + n) = evenly a s m ++ evenly (a + m * s) s n := by
  unfold evenly
  rw [List.range_add, List.map_append, List.map_map]
  congr 1
  refine List.map_congr_left fun i _ => ?_
  simp only [Function.comp_apply]
  push_cast
  ring

theorem evenly_dropLast (a s : ℚ) (n : ℕ) : (evenly a s (n + 1)).dropLast = evenly a s n := by
  rw [evenly_append]
  simp [evenly]

theorem evenly_drop (a s : ℚ) (n : ℕ) : (evenly a s (n + 1)).drop 1 = evenly (a + s) s n := by
  rw [Nat.add_comm, evenly_append]
  simp [evenly]

theorem evenly_first {a s : ℚ} {n : ℕ} (h : 0 < n) : a ∈ evenly a s n := List.mem_map.2 ⟨0, by simpa using h, by simp⟩

theorem evenly_at {a s : ℚ} {n i : ℕ} (h : i < n) : a + i * s ∈ evenly a s n := List.mem_map.2 ⟨i, by simpa using h, rfl⟩

theorem arange_eq (a c : ℚ) (n : ℕ) (hc : 0 < c) : arange a (a + n * c + c / 2) c = evenly a c (n + 1) := by
  unfold arange evenly
  have : ⌈(a + n * c + c / 2 - a) / c⌉₊ = n + 1 := by
    rw [show (a + n * c + c / 2 - a) / c = n + 1 / 2 by field_simp; ring, Nat.ceil_eq_iff (by omega)]
    constructor <;> push_cast <;> linarith
  rw [this]

theorem arange_open (a c : ℚ) (n : ℕ) (hc : 0 < c) : arange a (a + n * c) c = evenly a c n := by
  unfold arange evenly
  have : ⌈(a + n * c - a) / c⌉₊ = n := by
    rw [show (a + n * c - a) / c = n by field_simp; ring, Nat.ceil_natCast]
  rw [this]

theorem lattice (a b : ℚ) (n : ℕ) (s : ℚ) (h : b = a + n * s) : linspace a b (n + 1) = evenly a s (n + 1) := by
  rw [linspace_eq]
  rcases Nat.eq_zero_or_pos n with rfl | hn
  · simp [evenly]
  · have : (n : ℚ) ≠ 0 := by exact_mod_cast hn.ne'
    rw [h, show (a + n * s - a) / n = s by field_simp; ring]

/-! ### C116: the levels -/

/-- C116: divergent contours around `mid`: on each side `ndiv` divisions of width `cdelt`, each of `nf` colours, with no level at `mid`
itself; `nl` lines to a division, also at `mid`; ticks at the ends of the divisions. -/
theorem fill_div (cdelt mid : ℚ) (nf nl ndiv : ℕ) (hf : 0 < nf) (hl : 0 < nl) :
    fillLevels cdelt none mid nf nl ndiv false none =
      { fills := evenly (mid - ndiv * cdelt) (cdelt / nf) (nf * ndiv) ++ evenly (mid + cdelt / nf) (cdelt / nf) (nf * ndiv)
        lines := some (evenly (mid - ndiv * cdelt) (cdelt / nl) (2 * nl * ndiv + 1))
        ticks := evenly (mid - ndiv * cdelt) cdelt (2 * ndiv + 1) } ∧
    fillLevels cdelt none mid nf nl ndiv false (some .div) = fillLevels cdelt none mid nf nl ndiv false none := by
  have hf' : (nf : ℚ) ≠ 0 := by exact_mod_cast hf.ne'
  have hl' : (nl : ℚ) ≠ 0 := by exact_mod_cast hl.ne'
  refine ⟨?_, rfl⟩
  have e1 : linspace (mid - cdelt * ndiv * 2 / 2) mid (nf * ndiv + 1) = evenly (mid - ndiv * cdelt) (cdelt / nf) (nf * ndiv + 1) := by
    rw [show mid - cdelt * ndiv * 2 / 2 = mid - ndiv * cdelt by ring]
    exact lattice _ _ _ _ (by push_cast; field_simp; ring)
  have e2 : linspace mid (mid + cdelt * ndiv * 2 / 2) (nf * ndiv + 1) = evenly mid (cdelt / nf) (nf * ndiv + 1) :=
    lattice _ _ _ _ (by push_cast; field_simp)
  have e3 : linspace (mid - cdelt * ndiv * 2 / 2) (mid + cdelt * ndiv * 2 / 2) (2 * nl * ndiv + 1) =
      evenly (mid - ndiv * cdelt) (cdelt / nl) (2 * nl * ndiv + 1) := by
    rw [show mid - cdelt * ndiv * 2 / 2 = mid - ndiv * cdelt by ring]
    exact lattice _ _ _ _ (by push_cast; field_simp; ring)
  have e4 : linspace (mid - cdelt * ndiv * 2 / 2) (mid + cdelt * ndiv * 2 / 2) (2 * ndiv + 1) =
      evenly (mid - ndiv * cdelt) cdelt (2 * ndiv + 1) := by
    rw [show mid - cdelt * ndiv * 2 / 2 = mid - ndiv * cdelt by ring]
    exact lattice _ _ _ _ (by push_cast; ring)
  unfold fillLevels
  simp only [Option.getD_none, Option.isSome_none, Bool.false_eq_true, if_false, if_true, e1, e2, e3, e4, evenly_dropLast,
    evenly_drop, hl.ne']

/-- C116: sequential contours from `m`: `ndiv` divisions of width `cdelt`, each of `nf` colours, with `nl` lines; ticks at the ends of
the divisions. -/
theorem fill_seq (cdelt m mid : ℚ) (nf nl ndiv : ℕ) (hf : 0 < nf) (hl : 0 < nl) (nozero : Bool) :
    fillLevels cdelt (some m) mid nf nl ndiv nozero none =
      { fills := evenly m (cdelt / nf) (nf * ndiv + 1)
        lines := some (evenly m (cdelt / nl) (nl * ndiv + 1))
        ticks := evenly m cdelt (ndiv + 1) } ∧
    fillLevels cdelt (some m) mid nf nl ndiv nozero (some .seq) = fillLevels cdelt (some m) mid nf nl ndiv nozero none := by
  have hf' : (nf : ℚ) ≠ 0 := by exact_mod_cast hf.ne'
  have hl' : (nl : ℚ) ≠ 0 := by exact_mod_cast hl.ne'
  refine ⟨?_, rfl⟩
  have e1 : linspace m (m + cdelt * ndiv) (nf * ndiv + 1) = evenly m (cdelt / nf) (nf * ndiv + 1) :=
    lattice _ _ _ _ (by push_cast; field_simp)
  have e2 : linspace m (m + cdelt * ndiv) (nl * ndiv + 1) = evenly m (cdelt / nl) (nl * ndiv + 1) :=
    lattice _ _ _ _ (by push_cast; field_simp)
  have e3 : linspace m (m + cdelt * ndiv) (ndiv + 1) = evenly m cdelt (ndiv + 1) := lattice _ _ _ _ (by ring)
  unfold fillLevels
  simp [e1, e2, e3, hl.ne']

/-- C116: with `nozero`, divergent contours around zero have the same lines but the one at zero. -/
theorem fill_nozero (cdelt : ℚ) (nf nl ndiv : ℕ) (hl : 0 < nl) :
    (fillLevels cdelt none 0 nf nl ndiv true none).lines =
      some (evenly (-(ndiv * cdelt)) (cdelt / nl) (nl * ndiv) ++ evenly (cdelt / nl) (cdelt / nl) (nl * ndiv)) := by
  have hl' : (nl : ℚ) ≠ 0 := by exact_mod_cast hl.ne'
  have e1 : linspace (0 - cdelt * ndiv * 2 / 2) 0 (nl * ndiv + 1) = evenly (-(ndiv * cdelt)) (cdelt / nl) (nl * ndiv + 1) := by
    rw [show 0 - cdelt * ndiv * 2 / 2 = -(ndiv * cdelt) by ring]
    exact lattice _ _ _ _ (by push_cast; field_simp; ring)
  have e2 : linspace 0 (0 + cdelt * ndiv * 2 / 2) (nl * ndiv + 1) = evenly 0 (cdelt / nl) (nl * ndiv + 1) :=
    lattice _ _ _ _ (by push_cast; field_simp)
  unfold fillLevels
  simp only [Option.getD_none, Option.isSome_none, Bool.false_eq_true, if_false, if_true, e1, e2, evenly_dropLast, evenly_drop,
    hl.ne']
  rw [zero_add]

/-- C116: contour lines around `mid`, `cdelt` apart, up to `n` intervals on each side -/
theorem lines_mid (cdelt mid : ℚ) (n : ℕ) (hc : 0 < cdelt) :
    lineLevels cdelt (some (n * cdelt)) none mid 0 false = evenly (mid - n * cdelt) cdelt (2 * n + 1) := by
  unfold lineLevels
  simp only [Bool.false_eq_true, if_false, Option.getD_some, gt_iff_lt, lt_irrefl]
  rw [show mid + n * cdelt + cdelt / 2 = (mid - n * cdelt) + ((2 * n : ℕ) : ℚ) * cdelt + cdelt / 2 by push_cast; ring]
  exact arange_eq _ _ _ hc

/-- C116: contour lines from `m`, `cdelt` apart, over `n` intervals -/
theorem lines_min (cdelt m mid : ℚ) (n : ℕ) (hc : 0 < cdelt) :
    lineLevels cdelt (some (n * cdelt / 2)) (some m) mid 0 false = evenly m cdelt (n + 1) := by
  unfold lineLevels
  simp only [Bool.false_eq_true, if_false, Option.getD_some, gt_iff_lt, lt_irrefl]
  rw [show m + 2 * (n * cdelt / 2) + cdelt / 2 = m + n * cdelt + cdelt / 2 by ring]
  exact arange_eq _ _ _ hc

/-- C116: with `nozero` the lines are the multiples of `cdelt` but zero, up to `n` intervals on each side. -/
theorem lines_nozero (cdelt cidelt : ℚ) (n : ℕ) (hn : 0 < n) (hc : 0 < cdelt) :
    lineLevels cdelt (some (n * cdelt)) none 0 cidelt true = evenly (-(n * cdelt)) cdelt n ++ evenly cdelt cdelt n := by
  unfold lineLevels
  simp only [if_true, Option.getD_some]
  rw [if_pos (by linarith)]
  obtain ⟨k, rfl⟩ : ∃ k, n = k + 1 := ⟨n - 1, by omega⟩
  have e1 : arange (-(((k + 1 : ℕ) : ℚ) * cdelt)) (-cdelt) cdelt = evenly (-(((k + 1 : ℕ) : ℚ) * cdelt)) cdelt k := by
    rw [show -cdelt = -(((k + 1 : ℕ) : ℚ) * cdelt) + k * cdelt by push_cast; ring]
    exact arange_open _ _ _ hc
  have e2 : arange (-cdelt) cdelt (2 * cdelt) = evenly (-cdelt) (2 * cdelt) 1 := by
    have := arange_open (-cdelt) (2 * cdelt) 1 (by linarith)
    rwa [show -cdelt + ((1 : ℕ) : ℚ) * (2 * cdelt) = cdelt by push_cast; ring] at this
  have e3 : arange cdelt (((k + 1 : ℕ) : ℚ) * cdelt + cdelt / 2) cdelt = evenly cdelt cdelt (k + 1) := by
    rw [show ((k + 1 : ℕ) : ℚ) * cdelt + cdelt / 2 = cdelt + k * cdelt + cdelt / 2 by push_cast; ring]
    exact arange_eq _ _ _ hc
  rw [e1, e2, e3, evenly_append (-(((k + 1 : ℕ) : ℚ) * cdelt)) cdelt k 1]
  congr 2
  simp [evenly]
  ring

/-- C116: `nozero` around a `mid` other than zero does not leave out the line at `mid` (here 4), and the lines are not evenly spaced
(here around 10). -/
theorem nozero_mid_violated : (fillLevels 4 none 4 1 2 1 true none).lines = some [0, 0, 4, 8] ∧
    (fillLevels 2 none 10 1 2 1 true none).lines = some [8, 4, 6, 12] := by decide +kernel

/-- C116: `nozero` (or `cidelt`) in `cldict` forgets `mid` and `min`: the lines asked for around 10 are around zero. -/
theorem nozero_lines_violated : lineLevels 1 (some 2) none 10 0 true = [-2, -1, 1, 2] ∧
    lineLevels 1 (some 2) (some 10) 0 0 true = [-2, -1, 1, 2] := by decide +kernel

/-! ### C115: the contours chosen for data -/

/-- C115: the style is the one asked for; if none is asked for, it is divergent for values on both sides of zero and for a constant. -/
theorem guess_style (z : List (Option ℚ)) (style : Option Style) (ndiv : Option ℕ) (clf : Bool) (hz : z.filterMap id ≠ []) :
    (∀ s, style = some s → (guess z style ndiv clf).style = s) ∧
    (style = none → GuessedStyle (z.filterMap id) (guess z style ndiv clf).style) := by
  have e : (guess z style ndiv clf).style = styleOf (z.filterMap id) style := by
    unfold guess
    simp only [if_neg hz]
    rcases styleOf (z.filterMap id) style <;> rfl
  rw [e]
  refine ⟨fun s h => by rw [h]; rfl, fun h => ?_⟩
  rw [h]
  unfold GuessedStyle styleOf
  rw [← constant_iff hz]
  by_cases hc : percentile (z.filterMap id) 100 - percentile (z.filterMap id) 0 > 0
  · rw [if_neg (not_not.2 hc)]
    by_cases h2 : percentile (z.filterMap id) 2 < 0 ∧ percentile (z.filterMap id) 98 > 0
    · rw [if_pos h2]
      exact ⟨fun _ => Or.inr h2, fun _ => rfl⟩
    · rw [if_neg h2]
      exact ⟨fun h => by simp at h, fun h => h.elim (fun h => absurd hc h) fun h => absurd h h2⟩
  · rw [if_pos hc]
    exact ⟨fun _ => Or.inl hc, fun _ => rfl⟩

theorem guess_div {z : List (Option ℚ)} {style : Option Style} {ndiv : Option ℕ} {clf : Bool} (hz : z.filterMap id ≠ [])
    (hs : (guess z style ndiv clf).style = .div) :
    guess z style ndiv clf =
      let n := ndiv.getD (if clf then 3 else 10)
      let s := spacing roundDiv (max (-(limits (z.filterMap id)).1) (limits (z.filterMap id)).2 / n)
      { cdelt := s.1, ndiv := n, nf := s.2, min := none, range := n * s.1, style := .div } := by
  unfold guess at hs ⊢
  simp only [if_neg hz] at hs ⊢
  rcases hst : styleOf (z.filterMap id) style with _ | _
  · rfl
  · rw [hst] at hs
    simp at hs

theorem guess_seq {z : List (Option ℚ)} {style : Option Style} {ndiv : Option ℕ} {clf : Bool} (hz : z.filterMap id ≠ [])
    (hs : (guess z style ndiv clf).style = .seq) :
    guess z style ndiv clf =
      let lim := limits (z.filterMap id)
      let n := ndiv.getD (if clf then 5 else 10)
      let s := spacing roundSeq ((lim.2 - lim.1) / n)
      { cdelt := s.1, ndiv := n, nf := s.2, min := some (lim.1 - (lim.1 - s.1 * ⌊lim.1 / s.1⌋)), range := n * s.1 / 2,
        style := .seq } := by
  unfold guess at hs ⊢
  simp only [if_neg hz] at hs ⊢
  rcases hst : styleOf (z.filterMap id) style with _ | _
  · rw [hst] at hs
    simp at hs
  · rfl

theorem ndiv_pos {ndiv : Option ℕ} {clf : Bool} (hn : ∀ n, ndiv = some n → 0 < n) (a b : ℕ) (ha : 0 < a) (hb : 0 < b) :
    0 < ndiv.getD (if clf then a else b) := by
  rcases ndiv with _ | n
  · cases clf <;> simpa
  · exact hn n rfl

/-- what the divergent guess has to do with the data -/
theorem div_facts {z : List (Option ℚ)} {style : Option Style} {ndiv : Option ℕ} {clf : Bool} (hz : z.filterMap id ≠ [])
    (hn : ∀ n, ndiv = some n → 0 < n) (hs : (guess z style ndiv clf).style = .div) :
    ∃ (c : ℚ) (n nf : ℕ), guess z style ndiv clf = { cdelt := c, ndiv := n, nf := nf, min := none, range := n * c, style := .div } ∧
      RoundNumber c ∧ 0 < c ∧ 0 < n ∧ 0 < nf ∧
      max (-(limits (z.filterMap id)).1) (limits (z.filterMap id)).2 ≤ n * c ∧
      n * c ≤ 5 / 3 * max (-(limits (z.filterMap id)).1) (limits (z.filterMap id)).2 := by
  obtain ⟨-, -, hlt, -⟩ := limits_spec hz
  have hM : 0 < max (-(limits (z.filterMap id)).1) (limits (z.filterMap id)).2 := by
    rcases lt_or_ge 0 (limits (z.filterMap id)).2 with h | h
    · exact lt_max_of_lt_right h
    · exact lt_max_of_lt_left (by linarith)
  have hp := ndiv_pos (clf := clf) hn 3 10 (by norm_num) (by norm_num)
  have hp' : (0 : ℚ) < (ndiv.getD (if clf then 3 else 10) : ℕ) := by exact_mod_cast hp
  obtain ⟨a, b, c, d⟩ := spacing_spec (fun m h1 h2 => roundDiv_spec h1 h2) (div_pos hM hp')
  refine ⟨_, _, _, guess_div hz hs, a, lt_of_lt_of_le (div_pos hM hp') b, hp, d, ?_, ?_⟩
  · rw [div_le_iff₀ hp'] at b
    linarith
  · have := mul_le_mul_of_nonneg_left c hp'.le
    rw [show ∀ n M : ℚ, n * (5 / 3 * (M / n)) = 5 / 3 * (n * (M / n)) by intros; ring, mul_div_cancel₀ _ hp'.ne'] at this
    exact this

theorem seq_facts {z : List (Option ℚ)} {style : Option Style} {ndiv : Option ℕ} {clf : Bool} (hz : z.filterMap id ≠ [])
    (hn : ∀ n, ndiv = some n → 0 < n) (hs : (guess z style ndiv clf).style = .seq) :
    ∃ (c m : ℚ) (n nf : ℕ) (k : ℤ), guess z style ndiv clf =
        { cdelt := c, ndiv := n, nf := nf, min := some m, range := n * c / 2, style := .seq } ∧
      RoundNumber c ∧ 0 < c ∧ 0 < n ∧ 0 < nf ∧ m = k * c ∧ m ≤ (limits (z.filterMap id)).1 ∧ (limits (z.filterMap id)).1 < m + c ∧
      (limits (z.filterMap id)).2 - (limits (z.filterMap id)).1 ≤ n * c ∧
      n * c ≤ 5 / 3 * ((limits (z.filterMap id)).2 - (limits (z.filterMap id)).1) := by
  obtain ⟨-, -, hlt, -⟩ := limits_spec hz
  have hM : 0 < (limits (z.filterMap id)).2 - (limits (z.filterMap id)).1 := by linarith
  have hp := ndiv_pos (clf := clf) hn 5 10 (by norm_num) (by norm_num)
  have hp' : (0 : ℚ) < (ndiv.getD (if clf then 5 else 10) : ℕ) := by exact_mod_cast hp
  obtain ⟨a, b, c, d⟩ := spacing_spec (fun m h1 h2 => roundSeq_spec h1 h2) (div_pos hM hp')
  have hc := lt_of_lt_of_le (div_pos hM hp') b
  refine ⟨_, _, _, _, ⌊(limits (z.filterMap id)).1 / (spacing roundSeq (((limits (z.filterMap id)).2 - (limits (z.filterMap id)).1) /
    (ndiv.getD (if clf then 5 else 10) : ℕ))).1⌋, guess_seq hz hs, a, hc, hp, d, by ring, ?_, ?_, ?_, ?_⟩
  · have := Int.floor_le ((limits (z.filterMap id)).1 / (spacing roundSeq (((limits (z.filterMap id)).2 - (limits (z.filterMap id)).1) /
      (ndiv.getD (if clf then 5 else 10) : ℕ))).1)
    rw [le_div_iff₀ hc] at this
    linarith
  · have := Int.lt_floor_add_one ((limits (z.filterMap id)).1 / (spacing roundSeq (((limits (z.filterMap id)).2 - (limits (z.filterMap id)).1) /
      (ndiv.getD (if clf then 5 else 10) : ℕ))).1)
    rw [div_lt_iff₀ hc] at this
    linarith
  · rw [div_le_iff₀ hp'] at b
    linarith
  · have := mul_le_mul_of_nonneg_left c hp'.le
    rw [show ∀ n M : ℚ, n * (5 / 3 * (M / n)) = 5 / 3 * (n * (M / n)) by intros; ring, mul_div_cancel₀ _ hp'.ne'] at this
    exact this

/-- the lowest and highest divergent levels -/
theorem autoFill_div {z : List (Option ℚ)} {style : Option Style} {ndiv : Option ℕ} {c : ℚ} {n nf : ℕ} {r : ℚ} (hf : 0 < nf)
    (hg : guess z style ndiv true = { cdelt := c, ndiv := n, nf := nf, min := none, range := r, style := .div }) :
    (autoFill z style ndiv).fills = evenly (0 - n * c) (c / nf) (nf * n) ++ evenly (0 + c / nf) (c / nf) (nf * n) := by
  unfold autoFill
  rw [hg]
  show (fillLevels c none 0 nf 2 n false (some .div)).fills = _
  rw [(fill_div c 0 nf 2 n hf (by norm_num)).2, (fill_div c 0 nf 2 n hf (by norm_num)).1]

theorem autoLines_div {z : List (Option ℚ)} {style : Option Style} {ndiv : Option ℕ} {c : ℚ} {n nf : ℕ} (hc : 0 < c)
    (hg : guess z style ndiv false = { cdelt := c, ndiv := n, nf := nf, min := none, range := n * c, style := .div }) :
    autoLines z style ndiv = evenly (0 - n * c) c (2 * n + 1) := by
  unfold autoLines
  rw [hg]
  exact lines_mid c 0 n hc

theorem abs_evenly {a s M : ℚ} {n : ℕ} (h1 : -M ≤ a) (hs : 0 ≤ s) (h2 : a + ((n : ℚ) - 1) * s ≤ M) : ∀ b ∈ evenly a s n, |b| ≤ M := by
  intro b hb
  obtain ⟨i, hi, rfl⟩ := List.mem_map.1 hb
  have hi' : i + 1 ≤ n := List.mem_range.1 hi
  have hi'' : ((i : ℚ) + 1) ≤ n := by exact_mod_cast hi'
  have h3 : (0 : ℚ) ≤ i * s := mul_nonneg (by positivity) hs
  have h4 : (i : ℚ) * s ≤ ((n : ℚ) - 1) * s := mul_le_mul_of_nonneg_right (by linarith) hs
  rw [abs_le]
  constructor <;> linarith

/-- C115, divergent: filled contours and contour lines are at multiples of a round number (or whole fractions of it), reach every value
that is not an outlier, and, unless the data are constant, no level is farther from zero than 5/3 of the value farthest from zero. -/
theorem contours_div (z : List (Option ℚ)) (style : Option Style) (ndiv : Option ℕ) (hz : z.filterMap id ≠ [])
    (hn : ∀ n, ndiv = some n → 0 < n) (hs : (guess z style ndiv true).style = .div) :
    RoundNumber (guess z style ndiv true).cdelt ∧
    (∀ x ∈ z.filterMap id, ¬ LowOutlier (z.filterMap id) x → ¬ HighOutlier (z.filterMap id) x →
      Reaches (autoFill z style ndiv).fills x ∧ Reaches (autoLines z style ndiv) x) ∧
    (NotConstant (z.filterMap id) → ∃ x ∈ z.filterMap id, (∀ b ∈ (autoFill z style ndiv).fills, |b| ≤ 5 / 3 * |x|) ∧
      ∀ b ∈ autoLines z style ndiv, |b| ≤ 5 / 3 * |x|) := by
  have hs' : (guess z style ndiv false).style = .div := by
    have e : ∀ clf, (guess z style ndiv clf).style = styleOf (z.filterMap id) style := by
      intro clf
      unfold guess
      simp only [if_neg hz]
      rcases styleOf (z.filterMap id) style <;> rfl
    rw [e] at hs ⊢
    exact hs
  obtain ⟨c, n, nf, hg, hr, hc, hnp, hf, hlo, hhi⟩ := div_facts hz hn hs
  obtain ⟨c', n', nf', hg', hr', hc', hnp', hf', hlo', hhi'⟩ := div_facts hz hn hs'
  obtain ⟨l1, l2, l3, l4⟩ := limits_spec hz
  obtain ⟨a1, a2⟩ := percentile_zero hz
  obtain ⟨b1, b2⟩ := percentile_all hz
  rw [autoFill_div hf hg, autoLines_div hc' hg']
  have hnf : 0 < nf * n := Nat.mul_pos hf hnp
  have hf0 : (0 : ℚ) < nf := by exact_mod_cast hf
  refine ⟨by rw [hg]; exact hr, fun x hx h1 h2 => ?_, fun hnc => ?_⟩
  · have x1 := l1 x hx h1
    have x2 := l2 x hx h2
    have m1 := le_max_left (-(limits (z.filterMap id)).1) (limits (z.filterMap id)).2
    have m2 := le_max_right (-(limits (z.filterMap id)).1) (limits (z.filterMap id)).2
    refine ⟨⟨⟨_, List.mem_append_left _ (evenly_first hnf), by linarith⟩,
        ⟨_, List.mem_append_right _ (evenly_at (i := nf * n - 1) (by omega)), ?_⟩⟩,
      ⟨⟨_, evenly_first (by omega), by linarith⟩, ⟨_, evenly_at (i := 2 * n') (by omega), ?_⟩⟩⟩
    · rw [Nat.cast_sub (by omega)]
      push_cast
      have : (0 : ℚ) + c / nf + (nf * n - 1) * (c / nf) = n * c := by field_simp; ring
      rw [this]
      linarith
    · push_cast
      linarith
  · have key : ∃ x ∈ z.filterMap id, max (-(limits (z.filterMap id)).1) (limits (z.filterMap id)).2 ≤ |x| := by
      obtain ⟨q1, q2⟩ := l4 hnc
      rcases max_choice (-(limits (z.filterMap id)).1) (limits (z.filterMap id)).2 with h | h
      · exact ⟨_, a1, by rw [h]; exact le_trans (by linarith) (neg_le_abs _)⟩
      · exact ⟨_, b1, by rw [h]; exact le_trans q2 (le_abs_self _)⟩
    obtain ⟨x, hx, hM⟩ := key
    have hnfq : ((nf * n : ℕ) : ℚ) * (c / nf) = n * c := by push_cast; field_simp
    have hcf : 0 ≤ c / nf := (div_pos hc hf0).le
    refine ⟨x, hx, fun b hb => ?_, ?_⟩
    · rcases List.mem_append.1 hb with hb | hb
      · refine abs_evenly (M := 5 / 3 * |x|) (by linarith) hcf ?_ b hb
        rw [sub_mul, hnfq]
        have := abs_nonneg x
        linarith
      · refine abs_evenly (M := 5 / 3 * |x|) ?_ hcf ?_ b hb
        · have := abs_nonneg x
          linarith
        · rw [sub_mul, hnfq]
          linarith
    · refine abs_evenly (M := 5 / 3 * |x|) (by linarith) hc'.le ?_
      push_cast
      linarith

/-- C115, sequential: the contours are at multiples of a round number (or whole fractions of it), begin at or below every value that is
not an outlier, and less than one division of the values is above the last; none if the lowest value is zero. -/
theorem contours_seq_partial (z : List (Option ℚ)) (style : Option Style) (ndiv : Option ℕ) (hz : z.filterMap id ≠ [])
    (hn : ∀ n, ndiv = some n → 0 < n) (hs : (guess z style ndiv true).style = .seq) :
    RoundNumber (guess z style ndiv true).cdelt ∧
    (∀ x ∈ z.filterMap id, ¬ LowOutlier (z.filterMap id) x →
      (∃ a ∈ (autoFill z style ndiv).fills, a ≤ x) ∧ ∃ a ∈ autoLines z style ndiv, a ≤ x) ∧
    (∀ x ∈ z.filterMap id, ¬ HighOutlier (z.filterMap id) x →
      (∃ b ∈ (autoFill z style ndiv).fills, x < b + (guess z style ndiv true).cdelt) ∧
      ∃ b ∈ autoLines z style ndiv, x < b + (guess z style ndiv false).cdelt) ∧
    ((∀ x ∈ z.filterMap id, 0 ≤ x) → (0 ∈ z.filterMap id) → (∀ x, ¬ LowOutlier (z.filterMap id) x) → NotConstant (z.filterMap id) →
      ∀ x ∈ z.filterMap id, ¬ HighOutlier (z.filterMap id) x →
        Reaches (autoFill z style ndiv).fills x ∧ Reaches (autoLines z style ndiv) x) := by
  have hs' : (guess z style ndiv false).style = .seq := by
    have e : ∀ clf, (guess z style ndiv clf).style = styleOf (z.filterMap id) style := by
      intro clf
      unfold guess
      simp only [if_neg hz]
      rcases styleOf (z.filterMap id) style <;> rfl
    rw [e] at hs ⊢
    exact hs
  obtain ⟨c, m, n, nf, k, hg, hr, hc, hnp, hf, hmk, hm1, hm2, hlo, -⟩ := seq_facts hz hn hs
  obtain ⟨c', m', n', nf', k', hg', hr', hc', hnp', hf', hmk', hm1', hm2', hlo', -⟩ := seq_facts hz hn hs'
  obtain ⟨l1, l2, l3, l4⟩ := limits_spec hz
  obtain ⟨a1, a2⟩ := percentile_zero hz
  have hf0 : (0 : ℚ) < nf := by exact_mod_cast hf
  have e1 : (autoFill z style ndiv).fills = evenly m (c / nf) (nf * n + 1) := by
    unfold autoFill
    rw [hg]
    show (fillLevels c (some m) 0 nf 2 n false (some .seq)).fills = _
    rw [(fill_seq c m 0 nf 2 n hf (by norm_num) false).2, (fill_seq c m 0 nf 2 n hf (by norm_num) false).1]
  have e2 : autoLines z style ndiv = evenly m' c' (n' + 1) := by
    unfold autoLines
    rw [hg']
    exact lines_min c' m' 0 n' hc'
  have t1 : m + n * c ∈ evenly m (c / nf) (nf * n + 1) := by
    have := evenly_at (a := m) (s := c / nf) (n := nf * n + 1) (i := nf * n) (by omega)
    rwa [show ((nf * n : ℕ) : ℚ) * (c / nf) = n * c by push_cast; field_simp] at this
  have t2 : m' + n' * c' ∈ evenly m' c' (n' + 1) := evenly_at (by omega)
  rw [e1, e2, hg, hg']
  refine ⟨hr, fun x hx h1 => ?_, fun x hx h2 => ?_, ?_⟩
  · have := l1 x hx h1
    exact ⟨⟨_, evenly_first (by omega), by linarith⟩, ⟨_, evenly_first (by omega), by linarith⟩⟩
  · have := l2 x hx h2
    refine ⟨⟨_, t1, ?_⟩, ⟨_, t2, ?_⟩⟩
    · show x < m + n * c + c
      linarith
    · show x < m' + n' * c' + c'
      linarith
  · intro hpos h0 hno hnc x hx h2
    have hl0 : (limits (z.filterMap id)).1 = 0 := by
      refine le_antisymm (l1 0 h0 (hno 0)) ?_
      exact le_trans (hpos _ a1) (l4 hnc).1
    have zero_of : ∀ {c m : ℚ} {k : ℤ}, 0 < c → m = k * c → m ≤ 0 → 0 < m + c → m = 0 := by
      intro c m k hc hmk h1 h2
      have hk1 : (k : ℚ) ≤ 0 := by
        by_contra h
        have := mul_pos (not_le.1 h) hc
        linarith
      have hk2 : (-1 : ℚ) < k := by
        by_contra h
        have := mul_le_mul_of_nonneg_right (not_lt.1 h) hc.le
        linarith
      have hk : k = 0 := by
        have h1 : k ≤ 0 := by exact_mod_cast hk1
        have h2 : -1 < k := by exact_mod_cast hk2
        omega
      rw [hmk, hk]; simp
    rw [hl0] at hm1 hm2 hm1' hm2' hlo hlo'
    have z1 := zero_of hc hmk hm1 hm2
    have z2 := zero_of hc' hmk' hm1' hm2'
    have x1 := hpos x hx
    have x2 := l2 x hx h2
    refine ⟨⟨⟨_, evenly_first (by omega), by linarith⟩, ⟨_, t1, by linarith⟩⟩,
      ⟨⟨_, evenly_first (by omega), by linarith⟩, ⟨_, t2, by linarith⟩⟩⟩

/-- C115: sequential contours may end below the highest value, which is no outlier: values from 5 to 35 get contours from 0 to 30. -/
theorem contours_seq_violated : (guess [some 5, some 35] none none true).style = .seq ∧
    (autoFill [some 5, some 35] none none).ticks = [0, 6, 12, 18, 24, 30] ∧
    ¬ HighOutlier [5, 35] 35 ∧ ¬ Reaches (autoFill [some 5, some 35] none none).fills 35 := by
  refine ⟨by decide +kernel, by decide +kernel, ?_, ?_⟩
  · rintro ⟨-, -, m, hm, h⟩
    have e1 : percentile [5, 35] 98 = 172 / 5 := by decide +kernel
    have e2 : percentile [5, 35] 50 = 20 := by decide +kernel
    rw [e1, e2] at h
    simp only [List.mem_cons, List.not_mem_nil, or_false] at hm
    rcases hm with rfl | rfl <;> norm_num at h
  · rintro ⟨-, b, hb, h⟩
    have : ∀ b ∈ (autoFill [some 5, some 35] none none).fills, b ≤ 30 := by decide +kernel
    have := this b hb
    linarith

/-! ### Examples -/

example : (guess [some 3, none, some (-7), some 1] none none true).style = .div ∧
    (autoFill [some 3, none, some (-7), some 1] none none).ticks = [-9, -6, -3, 0, 3, 6, 9] ∧
    autoLines [some 3, none, some (-7), some 1] none (some 4) = [-8, -6, -4, -2, 0, 2, 4, 6, 8] := by decide +kernel

example : Reaches (autoFill [some 3, none, some (-7), some 1] none none).fills 1 ∧
    Reaches (autoLines [some 3, none, some (-7), some 1] none none) 1 :=
  (contours_div [some 3, none, some (-7), some 1] none none (by decide +kernel) (by simp) (by decide +kernel)).2.1 1 (by decide +kernel)
    (fun h => absurd h.1 (by decide +kernel)) (fun h => absurd h.1 (by decide +kernel))

example : (guess [some 0, some 12, some 47] none none true).style = .seq ∧
    (autoFill [some 0, some 12, some 47] none none).ticks = [0, 10, 20, 30, 40, 50] := by decide +kernel

end Contours
end PyGeode
