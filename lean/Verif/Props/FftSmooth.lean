/-
C105: `fft_smooth(axis, maxharm)` keeps, of every line along the axis, the part made of the harmonics below `maxharm`.
-/
import Verif.Props.FftLines
import Verif.Props.Along

namespace PyGeode
namespace FftSmooth
open Spec NArr Axis Combine VarOps Along
variable {α : Type}

theorem smoothLine_congr {n : ℕ} {x x' : ℕ → ℝ} (m : ℤ) (h : ∀ p < n, x p = x' p) : smoothLine n m x = smoothLine n m x' := by
  have : rfft n x = rfft n x' := by
    funext k
    unfold rfft fft
    exact Finset.sum_congr rfl fun j hj => by simp only [h j (Finset.mem_range.1 hj)]
  unfold smoothLine
  rw [this]

theorem smoothLineC_congr {n : ℕ} {x x' : ℕ → ℂ} (m : ℤ) (h : ∀ p < n, x p = x' p) : smoothLineC n m x = smoothLineC n m x' := by
  have : fft n x = fft n x' := by
    funext k
    unfold fft
    exact Finset.sum_congr rfl fun j hj => by rw [h j (Finset.mem_range.1 hj)]
  unfold smoothLineC
  rw [this]

/-- every line of the whole axis goes through `line`, and the requested points are picked out of the result -/
theorem smoothView_contains (nr : List ℚ → ℚ) (junk : List ℕ → α) (line : (ℕ → α) → ℕ → α) (x : Var α) (d : ℕ) (ax : Axis)
    (data : List ℕ → α) (hx : Contains x data) (hr : Regular x.axes) (hax : x.axes[d]? = some ax)
    (hline : ∀ f g : ℕ → α, (∀ p < ax.len, f p = g p) → line f = line g) :
    Contains (Var.ofView junk x.axes (smoothView nr junk line x d ax.len))
      (fun k => line (fun p => data (k.set d p)) (k.getD d 0)) := by
  obtain ⟨hdl, hax'⟩ := List.getElem?_eq_some_iff.1 hax
  refine contains_ofView junk _ _ _ fun I hI hne => ?_
  have hIl : I.length = x.axes.length := by simpa using hI.length_eq
  have hdI : d < I.length := by omega
  set ind := I.getD d [] with hind
  have hmem : ind ∈ I := by rw [hind, List.getD_eq_getElem _ _ hdI]; exact List.getElem_mem _
  have hindne : ind ≠ [] := hne _ hmem
  have hlt : ∀ p ∈ ind, p < ax.len := by
    have := (List.forall₂_iff_get.1 hI).2 d hdI (by simpa using hdl)
    simp only [List.get_eq_getElem, List.getElem_map] at this
    rw [hax', ← List.getD_eq_getElem I [] hdI] at this
    exact this
  have hR : InRange (x.axes.map Axis.len) (I.set d (List.range ax.len)) := by
    unfold InRange
    rw [List.forall₂_iff_get]
    refine ⟨by simp [hIl], fun i hi hi' => ?_⟩
    simp only [List.get_eq_getElem, List.getElem_map]
    rw [List.getElem_set]
    split_ifs with e
    · subst e
      intro q hq
      rw [hax']
      exact List.mem_range.1 hq
    · have := (List.forall₂_iff_get.1 hI).2 i (by simpa using hi) (by simpa using hi')
      simpa only [List.get_eq_getElem, List.getElem_map] using this
  have hne' : ∀ i ∈ I.set d (List.range ax.len), i ≠ [] := by
    intro i hi
    rcases List.mem_or_eq_of_mem_set hi with h | rfl
    · exact hne _ h
    · obtain ⟨p, hp⟩ := List.exists_mem_of_ne_nil _ hindne
      intro e
      have := List.mem_range.2 (hlt p hp)
      rw [e] at this; simp at this
  obtain ⟨r, h1, h2⟩ := read_own nr junk x data hx hr _ hR hne'
  refine ⟨(alongLines line r d).takeAxis d ind, ?_, ?_, fun k hk => ?_⟩
  · unfold smoothView
    rw [if_neg (by rw [← hind]; exact hindne)]
    simp only
    rw [h1]; rfl
  · show r.shape.set d ind.length = _
    rw [h2.1, List.map_set, List.set_set]
    refine List.ext_getElem (by simp) fun j hj hj' => ?_
    rw [List.getElem_set]
    split_ifs with e
    · subst e; rw [List.getElem_map, hind, List.getD_eq_getElem _ _ hdI]
    · rfl
  · have hkl : k.length = I.length := by simpa using hk.length_eq
    have hkd : k.getD d 0 < ind.length := by
      have := (inBounds_iff.1 hk).2 d (by simpa using hdI)
      rwa [List.getD_eq_getElem (I.map List.length) _ (by simpa using hdI), List.getElem_map, ← List.getD_eq_getElem I [] hdI,
        ← hind] at this
    show line (fun p => r.get ((k.set d _).set d p)) ((k.set d _).getD d 0) = _
    show _ = line (fun p => data ((cell I k).set d p)) ((cell I k).getD d 0)
    rw [getD_cell I k d hdI hkl, ← hind]
    rw [List.getD_eq_getElem (k.set d _) _ (by simp; omega), List.getElem_set_self]
    refine congrFun ?_ _
    refine hline _ _ fun p hp => ?_
    rw [List.set_set, h2.2 _ (by
      rw [List.map_set]
      exact inBounds_set hk d _ _ (by simpa using hp)), set_cell I k d _ _ hdI hkl, List.getD_eq_getElem _ _ (by simpa using hp),
      List.getElem_range]

variable {nr : List ℚ → ℚ} {x : Var ℝ} {id : AxisId} {d : ℕ} {ax : Axis} {data : List ℕ → ℝ}

/-- **C105.** `fft_smooth` of a real variable: the axes are those of the variable, and every line along the axis holds
the part of the line made of the harmonics below `maxharm`. -/
theorem fftSmooth_correct (junk : List ℕ → ℝ) (hx : Contains x data) (hr : Regular x.axes)
    (hd : foundAt (whichaxis x.axes id) = some d) (hax : x.axes[d]? = some ax) (hn : ax.len ≠ 0) (m : ℕ) :
    ∃ (y : Var ℝ) (out : List ℕ → ℝ), fftSmooth nr junk x id m = some y ∧ y.axes = x.axes ∧ Contains y out ∧
      ∀ k : List ℕ, k.length = x.axes.length →
        LowHarmonics ax.len m (fun p => data (k.set d p)) (fun p => out (k.set d p)) := by
  refine ⟨Var.ofView junk x.axes (smoothView nr junk (smoothLine ax.len m) x d ax.len), _, ?_, rfl, smoothView_contains nr junk (smoothLine ax.len m) x d ax data hx hr hax
    (fun f g h => smoothLine_congr m h), fun k hk => ?_⟩
  · unfold fftSmooth
    rw [hd, Option.bind_some, hax]; rfl
  · have hdl : d < k.length := by rw [hk]; exact foundAt_lt hd
    have : (fun p => smoothLine ax.len m (fun p' => data ((k.set d p).set d p')) ((k.set d p).getD d 0)) =
        smoothLine ax.len m fun p => data (k.set d p) := by
      funext p
      rw [List.getD_eq_getElem (k.set d p) _ (by simpa using hdl), List.getElem_set_self]
      simp only [List.set_set]
    show LowHarmonics ax.len m _ (fun p => smoothLine ax.len m (fun p' => data ((k.set d p).set d p')) ((k.set d p).getD d 0))
    rw [this]
    exact smoothLine_low hn m _

/-- an axis that is not there is refused -/
theorem fftSmooth_refused (junk : List ℕ → ℝ) (m : ℤ) (h : foundAt (whichaxis x.axes id) = none) :
    fftSmooth nr junk x id m = none := by
  unfold fftSmooth; rw [h]; rfl

/-- `fft_smooth` of a complex variable, for `maxharm` of at least 2: every line along the axis holds the part of the line
made of the waves that go round fewer than `maxharm` times, either way -/
theorem fftSmoothC_correct_partial (junk : List ℕ → ℂ) {x : Var ℂ} {data : List ℕ → ℂ} (hx : Contains x data) (hr : Regular x.axes)
    (hd : foundAt (whichaxis x.axes id) = some d) (hax : x.axes[d]? = some ax) (hn : ax.len ≠ 0) {m : ℕ} (hm : 2 ≤ m) :
    ∃ (y : Var ℂ) (out : List ℕ → ℂ), fftSmoothC nr junk x id m = some y ∧ y.axes = x.axes ∧ Contains y out ∧
      ∀ k : List ℕ, k.length = x.axes.length →
        LowWaves ax.len m (fun p => data (k.set d p)) (fun p => out (k.set d p)) := by
  refine ⟨Var.ofView junk x.axes (smoothView nr junk (smoothLineC ax.len m) x d ax.len), _, ?_, rfl, smoothView_contains nr junk (smoothLineC ax.len m) x d ax data hx hr hax
    (fun f g h => smoothLineC_congr m h), fun k hk => ?_⟩
  · unfold fftSmoothC
    rw [hd, Option.bind_some, hax]; rfl
  · have hdl : d < k.length := by rw [hk]; exact foundAt_lt hd
    have : (fun p => smoothLineC ax.len m (fun p' => data ((k.set d p).set d p')) ((k.set d p).getD d 0)) =
        smoothLineC ax.len m fun p => data (k.set d p) := by
      funext p
      rw [List.getD_eq_getElem (k.set d p) _ (by simpa using hdl), List.getElem_set_self]
      simp only [List.set_set]
    show LowWaves ax.len m _ (fun p => smoothLineC ax.len m (fun p' => data ((k.set d p).set d p')) ((k.set d p).getD d 0))
    rw [this]
    exact smoothLineC_low hn hm _

/-! ### what this means: the part is determined, harmonics pass or are removed, the nearest series of low harmonics -/

theorem made_orthogonal {n m : ℕ} {y z : ℕ → ℝ} (hy : MadeOfHarmonics n m y) (hz : NoHarmonics n m z) :
    ∑ j ∈ Finset.range n, z j * y j = 0 := by
  obtain ⟨a, b, h⟩ := hy
  have : ∀ j ∈ Finset.range n, z j * y j =
      ∑ k ∈ Finset.range m, (a k * (z j * cosine n k j) + b k * (z j * sine n k j)) := by
    intro j hj
    rw [h j (Finset.mem_range.1 hj), Finset.mul_sum]
    exact Finset.sum_congr rfl fun k _ => by ring
  rw [Finset.sum_congr rfl this, Finset.sum_comm]
  refine Finset.sum_eq_zero fun k hk => ?_
  rw [Finset.sum_add_distrib, ← Finset.mul_sum, ← Finset.mul_sum, (hz k (Finset.mem_range.1 hk)).1,
    (hz k (Finset.mem_range.1 hk)).2]
  ring

theorem made_sub {n m : ℕ} {y z : ℕ → ℝ} (hy : MadeOfHarmonics n m y) (hz : MadeOfHarmonics n m z) :
    MadeOfHarmonics n m fun j => y j - z j := by
  obtain ⟨a, b, h⟩ := hy
  obtain ⟨a', b', h'⟩ := hz
  refine ⟨fun k => a k - a' k, fun k => b k - b' k, fun j hj => ?_⟩
  show y j - z j = _
  rw [h j hj, h' j hj, ← Finset.sum_sub_distrib]
  exact Finset.sum_congr rfl fun k _ => by ring

/-- **C105.** The part made of the first harmonics is unique. -/
theorem lowHarmonics_unique {n m : ℕ} {x y z : ℕ → ℝ} (hy : LowHarmonics n m x y) (hz : LowHarmonics n m x z) :
    ∀ j < n, y j = z j := by
  have hd : NoHarmonics n m fun j => y j - z j := by
    intro k hk
    have h1 := hy.rest k hk
    have h2 := hz.rest k hk
    constructor
    · have := congrArg₂ (· - ·) h2.1 h1.1
      simp only [sub_self] at this
      rw [← this, ← Finset.sum_sub_distrib]
      exact Finset.sum_congr rfl fun j _ => by ring
    · have := congrArg₂ (· - ·) h2.2 h1.2
      simp only [sub_self] at this
      rw [← this, ← Finset.sum_sub_distrib]
      exact Finset.sum_congr rfl fun j _ => by ring
  have h0 := made_orthogonal (made_sub hy.made hz.made) hd
  intro j hj
  have := (Finset.sum_eq_zero_iff_of_nonneg fun j _ => mul_self_nonneg (y j - z j)).1 h0 j (Finset.mem_range.2 hj)
  have := mul_self_eq_zero.1 this
  linarith

/-- **C105.** It is the nearest series made of the first harmonics, in the sense of least squares. -/
theorem lowHarmonics_nearest {n m : ℕ} {x y z : ℕ → ℝ} (hy : LowHarmonics n m x y) (hz : MadeOfHarmonics n m z) :
    ∑ j ∈ Finset.range n, (x j - y j) ^ 2 ≤ ∑ j ∈ Finset.range n, (x j - z j) ^ 2 := by
  have h0 := made_orthogonal (made_sub hy.made hz) hy.rest
  have : ∑ j ∈ Finset.range n, (x j - z j) ^ 2 = ∑ j ∈ Finset.range n, (x j - y j) ^ 2 +
      2 * ∑ j ∈ Finset.range n, (x j - y j) * (y j - z j) + ∑ j ∈ Finset.range n, (y j - z j) ^ 2 := by
    rw [Finset.mul_sum, ← Finset.sum_add_distrib, ← Finset.sum_add_distrib]
    exact Finset.sum_congr rfl fun j _ => by ring
  rw [this, h0]
  have : 0 ≤ ∑ j ∈ Finset.range n, (y j - z j) ^ 2 := Finset.sum_nonneg fun j _ => sq_nonneg _
  linarith

/-- a series made of the first harmonics is not changed -/
theorem lowHarmonics_pass {n m : ℕ} {x : ℕ → ℝ} (h : MadeOfHarmonics n m x) : LowHarmonics n m x x :=
  ⟨h, fun k _ => by simp⟩

/-- smoothing twice is smoothing once -/
theorem lowHarmonics_twice {n m : ℕ} {x y z : ℕ → ℝ} (hy : LowHarmonics n m x y) (hz : LowHarmonics n m y z) :
    ∀ j < n, z j = y j := lowHarmonics_unique hz (lowHarmonics_pass hy.made)

/-- the mean is kept -/
theorem lowHarmonics_mean {n m : ℕ} (hm : 1 ≤ m) {x y : ℕ → ℝ} (hy : LowHarmonics n m x y) :
    ∑ j ∈ Finset.range n, y j = ∑ j ∈ Finset.range n, x j := by
  have := (hy.rest 0 (by omega)).1
  simp only [cosine, Nat.cast_zero, mul_zero, zero_mul, zero_div, Real.cos_zero, mul_one] at this
  rw [Finset.sum_sub_distrib] at this
  linarith

/-- with more harmonics than a line of `n` points has, nothing is removed -/
theorem lowHarmonics_all {n m : ℕ} (hn : n ≠ 0) (hm : n / 2 < m) {x y : ℕ → ℝ} (hy : LowHarmonics n m x y) :
    ∀ j < n, y j = x j := by
  have hmask : ∀ k, harmonic n k < m := by intro k; unfold harmonic; omega
  have hz : fft n (fun j => ((x j - y j : ℝ) : ℂ)) = fun _ => 0 := by
    funext q
    have h1 : fft n (fun j => ((x j - y j : ℝ) : ℂ)) q = kept n m (fun k : ℕ => fft n (fun j => ((x j - y j : ℝ) : ℂ)) k) (q % n).toNat := by
      unfold kept; rw [if_pos (hmask _)]
      have hrq : ((q % n).toNat : ℤ) = q % n := Int.toNat_of_nonneg (Int.emod_nonneg q (by omega))
      refine fft_congr hn _ ?_
      rw [hrq]; have := Int.emod_add_mul_ediv q n; exact ⟨q / n, by linarith⟩
    have hlow : ∀ k : ℕ, k < m → fft n (fun j => ((x j - y j : ℝ) : ℂ)) k = 0 := by
      intro k hk
      have h2 := hy.rest k hk
      unfold fft
      have e : ∀ j : ℕ, root n (-(j * (k : ℤ))) = (cosine n k j : ℂ) - (sine n k j : ℂ) * Complex.I := root_parts n k
      simp only [e]
      have : ∀ j ∈ Finset.range n, ((x j - y j : ℝ) : ℂ) * ((cosine n k j : ℂ) - (sine n k j : ℂ) * Complex.I) =
          (((x j - y j) * cosine n k j : ℝ) : ℂ) - (((x j - y j) * sine n k j : ℝ) : ℂ) * Complex.I := by
        intro j _; push_cast; ring
      rw [Finset.sum_congr rfl this, Finset.sum_sub_distrib, ← Finset.sum_mul, ← Complex.ofReal_sum, ← Complex.ofReal_sum,
        h2.1, h2.2]
      simp
    rw [h1]
    unfold kept
    rw [if_pos (hmask _)]
    set k := (q % n).toNat with hk
    have hkn : k < n := emod_toNat_lt hn q
    by_cases h : k < m
    · exact hlow k h
    · have h3 : n - k < m := by omega
      have h4 := hlow (n - k) h3
      have h5 := fft_real n (fun j => x j - y j) ((n - k : ℕ) : ℤ)
      rw [h4, map_zero] at h5
      rw [h5]
      refine fft_congr hn _ ⟨1, ?_⟩
      push_cast [Nat.cast_sub hkn.le]; ring
  intro j hj
  have h6 := ifft_fft hn (fun j => ((x j - y j : ℝ) : ℂ)) hj
  rw [hz] at h6
  have : (x j - y j : ℝ) = 0 := by
    have h7 : ((x j - y j : ℝ) : ℂ) = 0 := by rw [← h6]; unfold ifft; simp
    exact_mod_cast h7
  linarith

/-- the sum over the line of the product of a harmonic with a lower one, as long as the two together go round fewer
times than there are points -/
theorem harmonic_apart {n m k : ℕ} (hmk : m ≤ k) (hkn : k + m ≤ n) : NoHarmonics n m (cosine n k) ∧ NoHarmonics n m (sine n k) := by
  have key : ∀ q < m, fft n (fun j => root n (-(j * (k : ℤ)))) q = 0 ∧ fft n (fun j => root n (j * (k : ℤ))) q = 0 := by
    intro q hq
    have hn : n ≠ 0 := by omega
    unfold fft
    constructor
    · have : ∀ j ∈ Finset.range n, root n (-(j * (k : ℤ))) * root n (-(j * (q : ℤ))) = root n (j * (-((k : ℤ) + q))) := by
        intro j _; rw [← root_add]; congr 1; ring
      rw [Finset.sum_congr rfl this, root_sum hn, if_neg]
      rw [Int.dvd_neg]
      intro hd
      have := Int.le_of_dvd (by omega) hd
      omega
    · have : ∀ j ∈ Finset.range n, root n (j * (k : ℤ)) * root n (-(j * (q : ℤ))) = root n (j * ((k : ℤ) - q)) := by
        intro j _; rw [← root_add]; congr 1; ring
      rw [Finset.sum_congr rfl this, root_sum hn, if_neg]
      intro hd
      have := Int.le_of_dvd (by omega) hd
      omega
  have hc : ∀ j : ℕ, (cosine n k j : ℂ) = (1 / 2) * (root n (j * (k : ℤ)) + root n (-(j * (k : ℤ)))) := by
    intro j
    have h1 := root_parts n k j
    have h2 : root n (j * (k : ℤ)) = (cosine n k j : ℂ) + (sine n k j : ℂ) * Complex.I := by
      have h3 := congrArg (starRingEnd ℂ) h1
      rw [root_neg, Complex.conj_conj] at h3
      rw [h3]; simp
    rw [h1, h2]; ring
  have hs : ∀ j : ℕ, (sine n k j : ℂ) = (-Complex.I / 2) * (root n (j * (k : ℤ)) - root n (-(j * (k : ℤ)))) := by
    intro j
    have h1 := root_parts n k j
    have h2 : root n (j * (k : ℤ)) = (cosine n k j : ℂ) + (sine n k j : ℂ) * Complex.I := by
      have h3 := congrArg (starRingEnd ℂ) h1
      rw [root_neg, Complex.conj_conj] at h3
      rw [h3]; simp
    rw [h1, h2]
    have : (-Complex.I / 2) * ((cosine n k j : ℂ) + (sine n k j : ℂ) * Complex.I - ((cosine n k j : ℂ) - (sine n k j : ℂ) * Complex.I)) =
        -(Complex.I * Complex.I) * (sine n k j : ℂ) := by ring
    rw [this, Complex.I_mul_I]; ring
  constructor
  · intro q hq
    refine fft_parts n _ q ?_
    simp only [hc]
    rw [fft_smul n (1 / 2) (fun j => root n (j * (k : ℤ)) + root n (-(j * (k : ℤ)))), fft_add, (key q hq).1, (key q hq).2]
    simp
  · intro q hq
    refine fft_parts n _ q ?_
    simp only [hs]
    rw [fft_smul n (-Complex.I / 2) (fun j => root n (j * (k : ℤ)) - root n (-(j * (k : ℤ)))), fft_sub, (key q hq).1, (key q hq).2]
    simp

/-- **C105.** A harmonic from `maxharm` up to half the number of points is removed, whatever its phase. -/
theorem lowHarmonics_stop {n m k : ℕ} (hmk : m ≤ k) (hkn : 2 * k ≤ n) (a b : ℝ) {y : ℕ → ℝ}
    (hy : LowHarmonics n m (fun j => a * cosine n k j + b * sine n k j) y) : ∀ j < n, y j = 0 := by
  refine lowHarmonics_unique hy ⟨⟨fun _ => 0, fun _ => 0, fun j _ => by simp⟩, fun q hq => ?_⟩
  obtain ⟨h1, h2⟩ := harmonic_apart (n := n) hmk (by omega)
  have h1' := h1 q hq
  have h2' := h2 q hq
  constructor
  · have : ∀ j ∈ Finset.range n, (a * cosine n k j + b * sine n k j - 0) * cosine n q j =
        a * (cosine n k j * cosine n q j) + b * (sine n k j * cosine n q j) := by intro j _; ring
    rw [Finset.sum_congr rfl this, Finset.sum_add_distrib, ← Finset.mul_sum, ← Finset.mul_sum, h1'.1, h2'.1]; ring
  · have : ∀ j ∈ Finset.range n, (a * cosine n k j + b * sine n k j - 0) * sine n q j =
        a * (cosine n k j * sine n q j) + b * (sine n k j * sine n q j) := by intro j _; ring
    rw [Finset.sum_congr rfl this, Finset.sum_add_distrib, ← Finset.mul_sum, ← Finset.mul_sum, h1'.2, h2'.2]; ring

/-- a harmonic below `maxharm` is not changed -/
theorem lowHarmonics_keep {n m k : ℕ} (hk : k < m) (a b : ℝ) {y : ℕ → ℝ}
    (hy : LowHarmonics n m (fun j => a * cosine n k j + b * sine n k j) y) :
    ∀ j < n, y j = a * cosine n k j + b * sine n k j := by
  refine lowHarmonics_unique hy (lowHarmonics_pass ⟨fun q => if q = k then a else 0, fun q => if q = k then b else 0, fun j _ => ?_⟩)
  rw [Finset.sum_eq_single_of_mem k (Finset.mem_range.2 hk)]
  · simp
  · intro q _ hq; simp [hq]

/-- the parts of a sum of series are the sums of their parts -/
theorem lowHarmonics_add {n m : ℕ} {x y x' y' : ℕ → ℝ} (h : LowHarmonics n m x y) (h' : LowHarmonics n m x' y') (a b : ℝ) :
    LowHarmonics n m (fun j => a * x j + b * x' j) (fun j => a * y j + b * y' j) where
  made := by
    obtain ⟨c, e, h1⟩ := h.made
    obtain ⟨c', e', h2⟩ := h'.made
    refine ⟨fun k => a * c k + b * c' k, fun k => a * e k + b * e' k, fun j hj => ?_⟩
    show a * y j + b * y' j = _
    rw [h1 j hj, h2 j hj, Finset.mul_sum, Finset.mul_sum, ← Finset.sum_add_distrib]
    exact Finset.sum_congr rfl fun k _ => by ring
  rest := by
    intro k hk
    have h1 := h.rest k hk
    have h2 := h'.rest k hk
    constructor
    · have : ∀ j ∈ Finset.range n, (a * x j + b * x' j - (a * y j + b * y' j)) * cosine n k j =
          a * ((x j - y j) * cosine n k j) + b * ((x' j - y' j) * cosine n k j) := by intro j _; ring
      rw [Finset.sum_congr rfl this, Finset.sum_add_distrib, ← Finset.mul_sum, ← Finset.mul_sum, h1.1, h2.1]; ring
    · have : ∀ j ∈ Finset.range n, (a * x j + b * x' j - (a * y j + b * y' j)) * sine n k j =
          a * ((x j - y j) * sine n k j) + b * ((x' j - y' j) * sine n k j) := by intro j _; ring
      rw [Finset.sum_congr rfl this, Finset.sum_add_distrib, ← Finset.mul_sum, ← Finset.mul_sum, h1.2, h2.2]; ring

/-! ### violations -/

theorem zeroed_one {n : ℕ} (c : ℕ → ℂ) (k : ℕ) : zeroed n 1 (some (-1 + 1)) c k = c k := by
  unfold zeroed sliceBound
  simp only [Option.map_some, Option.getD_some]
  rw [if_neg]
  rintro ⟨_, h⟩
  rw [if_neg (by omega)] at h
  omega

/-- **C105 violated.** `fft_smooth(axis, 1)` of a complex variable returns the variable as it is, where only the mean
should be left: the slice `1:0` of the coefficients to be removed is empty. -/
theorem complex_one_violated {n : ℕ} (hn : n ≠ 0) (x : ℕ → ℂ) {j : ℕ} (hj : j < n) : smoothLineC n 1 x j = x j := by
  unfold smoothLineC
  rw [ifft_congr fun k _ => zeroed_one _ k]
  exact ifft_fft hn x hj

/-- so that what is left is not the part made of the harmonics below 1 -/
theorem complex_one_not_low : ¬ LowWaves 2 1 (fun j : ℕ => (j : ℂ)) (smoothLineC 2 1 fun j : ℕ => (j : ℂ)) := by
  rintro ⟨⟨a, ha⟩, _⟩
  have h0 := ha 0 (by omega)
  have h1 := ha 1 (by omega)
  rw [complex_one_violated (by omega) _ (by omega)] at h0 h1
  have e : Finset.Ioo (-((1 : ℕ) : ℤ)) ((1 : ℕ) : ℤ) = {0} := by decide
  rw [e, Finset.sum_singleton] at h0 h1
  simp [wave] at h0 h1
  rw [← h0] at h1
  exact one_ne_zero h1

/-- **C105 violated.** A negative `maxharm` is not refused: `fft_smooth(axis, -1)` of a real variable removes the
harmonic of highest frequency only. -/
theorem negative_violated : smoothLine 2 (-1) (fun j : ℕ => (j : ℝ)) 0 = 1 / 2 := by
  have h : ∀ k < 2, hermitian 2 (zeroed (2 / 2 + 1) (-1) none (rfft 2 fun j : ℕ => (j : ℝ))) k = if k = 0 then 1 else 0 := by
    intro k hk
    have hk' : k = 0 ∨ k = 1 := by omega
    rcases hk' with rfl | rfl
    · simp [hermitian, zeroed, sliceBound, rfft, fft, Finset.sum_range_succ, root_zero]
    · simp [hermitian, zeroed, sliceBound]
  unfold smoothLine irfft
  rw [ifft_congr h]
  simp [ifft, Finset.sum_range_succ, root_zero]

/-! ### examples -/

/-- a variable of one axis, a year of months, that holds the harmonic number 3 -/
noncomputable def waveEx : Var ℝ :=
  { axes := [timeEx 12], src := .values ⟨[12], fun k => cosine 12 3 (k.getD 0 0)⟩ }

theorem waveEx_contains : Contains waveEx fun k => cosine 12 3 (k.getD 0 0) :=
  ⟨rfl, fun _ _ => rfl⟩

/-- as in the example of the documentation: with `maxharm = 3` nothing of the wave is left, with 4 all of it -/
example : ∃ (y : Var ℝ) (out : List ℕ → ℝ), fftSmooth (fun _ => 0) (fun _ => 0) waveEx (.int 0) 3 = some y ∧ Contains y out ∧
    ∀ j < 12, out [j] = 0 := by
  obtain ⟨y, out, h1, -, h2, h3⟩ := fftSmooth_correct (nr := fun _ => 0) (id := .int 0) (d := 0) (ax := timeEx 12) (fun _ => 0)
    waveEx_contains ⟨by decide +kernel, by decide +kernel⟩ (by decide +kernel) rfl (by decide +kernel) 3
  refine ⟨y, out, h1, h2, fun j hj => ?_⟩
  have hlen : (timeEx 12).len = 12 := by decide +kernel
  have h4 := h3 [0] rfl
  rw [hlen] at h4
  have h5 := lowHarmonics_stop (n := 12) (m := 3) (k := 3) le_rfl (by omega) 1 0 (y := fun p => out ([0].set 0 p)) (by
    convert h4 using 2
    simp)
  exact h5 j hj

example : ∃ (y : Var ℝ) (out : List ℕ → ℝ), fftSmooth (fun _ => 0) (fun _ => 0) waveEx (.int 0) 4 = some y ∧ Contains y out ∧
    ∀ j < 12, out [j] = cosine 12 3 j := by
  obtain ⟨y, out, h1, -, h2, h3⟩ := fftSmooth_correct (nr := fun _ => 0) (id := .int 0) (d := 0) (ax := timeEx 12) (fun _ => 0)
    waveEx_contains ⟨by decide +kernel, by decide +kernel⟩ (by decide +kernel) rfl (by decide +kernel) 4
  refine ⟨y, out, h1, h2, fun j hj => ?_⟩
  have hlen : (timeEx 12).len = 12 := by decide +kernel
  have h4 := h3 [0] rfl
  rw [hlen] at h4
  have h5 := lowHarmonics_keep (n := 12) (m := 4) (k := 3) (by omega) 1 0 (y := fun p => out ([0].set 0 p)) (by
    convert h4 using 2
    simp)
  have h6 := h5 j hj
  simpa using h6

end FftSmooth
end PyGeode
