/-
C57: smoothing with a kernel.
-/
import Verif.Model.Smooth
import Verif.Spec.Smooth
import Verif.Props.AlongLoop
import Verif.Props.Integrate

namespace PyGeode
open Spec NArr Axis Combine VarOps Reduce

namespace Smooth

/-- the extended source: the values read, with the ends mirrored, are the values at the reflected positions -/
theorem extended (data : List ℕ → ℚ) (c : List (List ℕ)) (r : NArr ℚ) (hr : IsRead data c r) (d N st sp m : ℕ)
    (hd : d < c.length) (hm : 3 ≤ m) (hmN : m ≤ N) (hst : st ≤ sp) (hsp : sp < N)
    (hc : c.getD d [] = List.range' (st - m / 2) (Min.min (sp + (m - m / 2)) N - (st - m / 2))) :
    ∃ src, (do let s ← placeIn r d (sp - st + m) (m / 2 - st) (Max.max (sp + (m - m / 2)) N - N)
               let s ← mirrorLeft s d (m / 2 - st)
               mirrorRight s d (Max.max (sp + (m - m / 2)) N - N)) = some src ∧
      src.shape = (c.map List.length).set d (sp - st + m) ∧
      ∀ k, InBounds ((c.map List.length).set d (sp - st + m)) k →
        src.get k = data ((cell c (k.set d 0)).set d (reflect N ((k.getD d 0 : ℤ) + st - (m / 2 : ℕ)))) := by
  set lo := m / 2 with hlo
  set ml := lo - st with hml
  set mr := Max.max (sp + (m - lo)) N - N with hmr
  set L := sp - st + m with hL
  set a := st - lo with ha
  set b := Min.min (sp + (m - lo)) N with hb
  have hsh : r.shape = c.map List.length := hr.1
  have hcl : (c.map List.length).getD d 0 = b - a := by
    rw [List.getD_eq_getElem _ _ (by simpa using hd), List.getElem_map, ← List.getD_eq_getElem c [] hd, hc]
    simp
  have hlen : b - a = L - mr - ml := by omega
  have hp1 : placeIn r d L ml mr = some ⟨r.shape.set d L, fun k =>
      if ml ≤ k.getD d 0 ∧ k.getD d 0 < L - mr then r.get (k.set d (k.getD d 0 - ml)) else 0⟩ := by
    unfold placeIn
    rw [if_pos (by rw [hsh, hcl]; exact hlen)]
  set p1 : NArr ℚ := ⟨r.shape.set d L, fun k =>
      if ml ≤ k.getD d 0 ∧ k.getD d 0 < L - mr then r.get (k.set d (k.getD d 0 - ml)) else 0⟩ with hp1d
  have hp1s : p1.shape.getD d 0 = L := by
    simp [hp1d, hsh, hd]
  have hp2 : mirrorLeft p1 d ml = some ⟨p1.shape, fun k => if k.getD d 0 < ml then p1.get (k.set d (2 * ml - 1 - k.getD d 0))
      else p1.get k⟩ := by
    unfold mirrorLeft
    rw [hp1s]
    by_cases h : 0 < ml
    · rw [if_pos h, if_pos (by omega)]
    · rw [if_neg h]
      have : ml = 0 := by omega
      simp [this]
  set p2 : NArr ℚ := ⟨p1.shape, fun k => if k.getD d 0 < ml then p1.get (k.set d (2 * ml - 1 - k.getD d 0))
      else p1.get k⟩ with hp2d
  have hp3 : ∃ p3, mirrorRight p2 d mr = some p3 ∧ p3.shape = p1.shape ∧ ∀ k, k.getD d 0 < L →
      p3.get k = if L - mr ≤ k.getD d 0 then p2.get (k.set d (L - mr - 1 - (k.getD d 0 - (L - mr)))) else p2.get k := by
    unfold mirrorRight
    have : p2.shape.getD d 0 = L := hp1s
    rw [this]
    by_cases h : 0 < mr
    · simp only [if_pos h]
      rw [if_pos (by omega)]
      exact ⟨_, rfl, rfl, fun k hk => rfl⟩
    · simp only [if_neg h]
      refine ⟨_, rfl, rfl, fun k hk => ?_⟩
      rw [if_neg (by omega)]
  obtain ⟨p3, hp3, hp3s, hp3v⟩ := hp3
  refine ⟨p3, by rw [hp1]; show (mirrorLeft p1 d ml).bind _ = _; rw [hp2]; exact hp3, by rw [hp3s, ← hsh], fun k hk => ?_⟩
  have hkl : k.length = c.length := by simpa using hk.length_eq
  have hdk : d < k.length := by omega
  have hkd : k.getD d 0 < L := by
    have := InBounds.lt hk (i := d) (by simpa using hd)
    simpa [hd] using this
  -- a value read
  have hval : ∀ q : ℕ, q < b - a → r.get (k.set d q) = data ((cell c (k.set d 0)).set d (a + q)) := by
    intro q hq
    have hib : InBounds (c.map List.length) (k.set d q) := by
      have := Along.inBounds_set hk d (b - a) q hq
      rw [List.set_set] at this
      rwa [← hcl, Along.set_getD_self] at this
    rw [hr.2 _ hib]
    congr 1
    have h1 := Along.set_cell c (k.set d 0) d (c.getD d []) q hd (by simp [hkl])
    rw [List.set_set, Along.set_getD_self, hc] at h1
    rw [h1]
    congr 1
    simp [hq]
  -- a value placed
  have hp1v : ∀ q : ℕ, ml ≤ q → q < L - mr → p1.get (k.set d q) = data ((cell c (k.set d 0)).set d (a + (q - ml))) := by
    intro q h1 h2
    simp only [hp1d]
    rw [Along.getD_set_self _ _ _ _ hdk, if_pos ⟨h1, h2⟩, List.set_set]
    exact hval _ (by omega)
  have hp2v : ∀ q : ℕ, q < L - mr → p2.get (k.set d q) =
      data ((cell c (k.set d 0)).set d (reflect N ((q : ℤ) + st - (lo : ℕ)))) := by
    intro q h1
    simp only [hp2d]
    rw [Along.getD_set_self _ _ _ _ hdk, List.set_set]
    by_cases h : q < ml
    · rw [if_pos h, hp1v _ (by omega) (by omega)]
      congr 2
      unfold reflect
      rw [if_pos (by omega)]
      omega
    · rw [if_neg h, hp1v _ (by omega) h1]
      congr 2
      unfold reflect
      rw [if_neg (by omega), if_pos (by omega)]
      omega
  have hkk : k = k.set d (k.getD d 0) := (Along.set_getD_self _ _ _).symm
  rw [hp3v k hkd]
  by_cases h : L - mr ≤ k.getD d 0
  · rw [if_pos h, hp2v _ (by omega)]
    congr 2
    unfold reflect
    rw [if_neg (by omega), if_pos (by omega), if_neg (by omega), if_neg (by omega)]
    omega
  · rw [if_neg h]
    conv_lhs => rw [hkk]
    exact hp2v _ (by omega)

theorem filter_range_lt {n M : ℕ} (h : n ≤ M) : (List.range M).filter (fun p => decide (p < n)) = List.range n := by
  obtain ⟨e, rfl⟩ := Nat.exists_eq_add_of_le h
  rw [List.range_add, List.filter_append, List.filter_eq_self.2 (by simp), List.filter_eq_nil_iff.2 (by simp), List.append_nil]

/-- Conditions under which the views a smoothed variable makes of its source are known to be read correctly: axes of pairwise
unrelated classes, with different positions holding values that do not compare equal. -/
structure _root_.PyGeode.Spec.Smoothable (A : List Axis) : Prop where
  reg : Regular A
  tol : ∀ a ∈ A, 0 ≤ a.rtol
  sep : ∀ a ∈ A, Separated a.values

theorem smoothView_spec (nr : List ℚ → ℚ) (hnr : ∀ l, 0 ≤ nr l) (junk : List ℕ → ℚ) {limit : ℕ} (hl : 1 ≤ limit)
    (x : Var ℚ) (data : List ℕ → ℚ) (hx : Contains x data) (hA : Smoothable x.axes) (kernel : List ℚ) (d : ℕ)
    (hd : d < x.axes.length) (hk3 : 3 ≤ kernel.length) (hkN : kernel.length ≤ x.axes[d].len) (I : List (List ℕ))
    (hI : InRange (x.axes.map Axis.len) I) (hIp : ∀ ind ∈ I, ind ≠ [] ∧ ind.Pairwise (· < ·)) :
    ∃ r, smoothView nr junk limit x (kernel.map (· / kernel.sum)) d x.axes[d].len ⟨x.axes, I⟩ = some r ∧
      IsRead (smoothed kernel d x.axes[d].len data) I r := by
  set N := x.axes[d].len with hN
  set w := kernel.map (· / kernel.sum) with hw
  set m := kernel.length with hm
  have hwm : w.length = m := by simp [hw, hm]
  have hIl : I.length = x.axes.length := by rw [hI.length_eq]; simp
  have hdI : d < I.length := by omega
  set ind := I.getD d [] with hind
  have hindm : ind ∈ I := getD_mem hdI
  have hindne := (hIp _ hindm).1
  have hindN : ∀ p ∈ ind, p < N := by
    intro p hp
    have := Along.inRange_get hI d hdI p hp
    rwa [List.getD_eq_getElem _ _ (by simpa using hd), List.getElem_map] at this
  have hindnd : ind.Nodup := (hIp _ hindm).2.imp fun h => Nat.ne_of_lt h
  obtain ⟨st, hst⟩ := Option.isSome_iff_exists.1 (List.isSome_min?_of_ne_nil hindne)
  obtain ⟨sp, hsp⟩ := Option.isSome_iff_exists.1 (List.isSome_max?_of_ne_nil hindne)
  have hstm : st ∈ ind := List.min?_mem hst
  have hspm : sp ∈ ind := List.max?_mem hsp
  have hstle : ∀ p ∈ ind, st ≤ p := fun p hp => ((List.min?_eq_some_iff).1 hst).2 p hp
  have hsple : ∀ p ∈ ind, p ≤ sp := fun p hp => ((List.max?_eq_some_iff).1 hsp).2 p hp
  have hss := hstle sp hspm
  have hspN := hindN sp hspm
  set insl := List.range' (st - m / 2) (Min.min (sp + (m - m / 2)) N - (st - m / 2)) with hinsl
  have hcov : ∀ p ∈ ind, p ∈ insl := by
    intro p hp
    have h1 := hstle p hp
    have h2 := hsple p hp
    rw [hinsl, List.mem_range'_1]
    omega
  have hsub : ind.length ≤ insl.length := (List.subperm_of_subset hindnd hcov).length_le
  have hF := Loop.along_loop nr hnr hl hA.reg hA.tol hA.sep I hI hIp d hd insl
    (by intro p hp; rw [hinsl, List.mem_range'_1] at hp; omega)
    (by intro h0; exact (List.ne_nil_of_mem (hcov st hstm)) h0) (List.nodup_range' ..) hcov
    (smoothed kernel d N data)
    (smoothStep nr junk x w d (sp - st + m) (m / 2 - st) (Max.max (sp + (m - m / 2)) N - N) (ind.map fun i => i + m / 2 - st))
    { shape := I.map List.length, get := fun _ => 0 } rfl ?_
  · obtain ⟨r, h1, h2⟩ := hF
    refine ⟨r, ?_, h2⟩
    unfold smoothView
    simp only [hwm]
    rw [show (⟨x.axes, I⟩ : View Axis).inds.getD d [] = ind from rfl, hst, hsp]
    exact h1
  intro c hc hcne hcd out pos hout hpd hpl
  have hcl : c.length = x.axes.length := by rw [hc.length_eq]; simp
  obtain ⟨ri, hr1, hr2⟩ := read_own nr junk x data hx hA.reg c hc hcne
  obtain ⟨src, hs1, hs2, hs3⟩ := extended data c ri hr2 d N st sp m (by omega) hk3 hkN hss hspN hcd
  refine ⟨((convolveSame src w d).takeAxis d (ind.map fun i => i + m / 2 - st)), ⟨?_, ?_⟩, ?_⟩
  · show ((src.shape).set d _) = _
    rw [hs2, List.set_set, List.length_map, List.map_set]
  · intro k hk
    rw [List.map_set] at hk
    have hkl : k.length = c.length := by simpa using hk.length_eq
    have hdk : d < k.length := by omega
    have hki : k.getD d 0 < ind.length := by
      have := InBounds.lt hk (i := d) (by simpa using by omega)
      rwa [Along.getD_set_self _ _ _ _ (by simpa using by omega)] at this
    set p := ind.getD (k.getD d 0) 0 with hp
    have hpm : p ∈ ind := getD_mem hki
    have hp1 := hstle p hpm
    have hp2 := hsple p hpm
    have hq : (ind.map fun i => i + m / 2 - st).getD (k.getD d 0) 0 = p + m / 2 - st := by
      rw [List.getD_eq_getElem _ _ (by simpa using hki), List.getElem_map, hp, List.getD_eq_getElem _ _ hki]
    show (convolveSame src w d).get (k.set d _) = _
    rw [hq]
    have hcell : cell (c.set d ind) k = (cell c (k.set d 0)).set d p := by
      have := Along.set_cell c (k.set d 0) d ind (k.getD d 0) (by omega) (by simpa using hkl)
      rwa [List.set_set, Along.set_getD_self] at this
    have hcelll : d < (cell c (k.set d 0)).length := by simp [cell]; omega
    unfold convolveSame smoothed
    dsimp only
    rw [Along.getD_set_self _ _ _ _ hdk, hcell, Along.getD_set_self _ _ _ _ hcelll, hwm, hs2, div_eq_mul_inv, ← List.sum_map_mul_right]
    congr 1
    refine List.map_congr_left fun j hj => ?_
    have hjm : j < m := by simpa using hj
    have hLd : ((c.map List.length).set d (sp - st + m)).getD d 0 = sp - st + m := by
      rw [Along.getD_set_self _ _ _ _ (by simpa using by omega)]
    rw [hLd, if_pos (by constructor <;> omega), List.set_set, List.set_set]
    have hib : InBounds ((c.map List.length).set d (sp - st + m))
        (k.set d ((((p + m / 2 - st : ℕ) : ℤ) + ((m - 1) / 2 : ℕ) - (j : ℤ)).toNat)) := by
      have := Along.inBounds_set hk d (sp - st + m)
        ((((p + m / 2 - st : ℕ) : ℤ) + ((m - 1) / 2 : ℕ) - (j : ℤ)).toNat) (by omega)
      rwa [List.set_set] at this
    rw [hs3 _ hib, Along.getD_set_self _ _ _ _ hdk, List.set_set]
    have hwj : w.getD j 0 = kernel.getD j 0 / kernel.sum := by
      rw [List.getD_eq_getElem _ _ (by omega), List.getD_eq_getElem _ _ (by omega)]
      simp [hw]
    rw [hwj, ← div_eq_mul_inv, div_mul_eq_mul_div]
    congr 5
    omega
  · unfold smoothStep
    dsimp only
    rw [hr1]
    have e : ∀ f : NArr ℚ → Option (NArr ℚ), ((placeIn ri d (sp - st + m) (m / 2 - st) (Max.max (sp + (m - m / 2)) N - N)).bind
        fun s => (mirrorLeft s d (m / 2 - st)).bind fun s =>
          (mirrorRight s d (Max.max (sp + (m - m / 2)) N - N)).bind f) = f src := by
      intro f
      have : (((placeIn ri d (sp - st + m) (m / 2 - st) (Max.max (sp + (m - m / 2)) N - N)).bind
        fun s => (mirrorLeft s d (m / 2 - st)).bind fun s =>
          (mirrorRight s d (Max.max (sp + (m - m / 2)) N - N)))).bind f = f src := by
        have h : _ = some src := hs1
        simp only [Option.bind_eq_bind] at h
        rw [h]; rfl
      rw [← this, Option.bind_assoc]
      congr 1
      funext s
      rw [Option.bind_assoc]
    refine Eq.trans (e _) ?_
    unfold assign
    have hn : out.shape.getD d 0 = ind.length := by
      rw [hout, List.getD_eq_getElem _ _ (by simpa using hdI), List.getElem_map, hind, List.getD_eq_getElem _ _ hdI]
    have hf : (pos.getD d []).filter (fun p => decide (p < out.shape.getD d 0)) = List.range ind.length := by
      rw [hpd, hn]
      exact filter_range_lt hsub
    dsimp only
    rw [hf, if_pos (by
      show _ = ((src.shape).set d _).getD d 0
      rw [Along.getD_set_self _ _ _ _ (by rw [hs2]; simpa using by omega)]; simp)]

variable (nr : List ℚ → ℚ) (hnr : ∀ l, 0 ≤ nr l) (junk : List ℕ → ℚ) {limit : ℕ} (hl : 1 ≤ limit) (x : Var ℚ) (id : AxisId) (d : ℕ)
  (ax : Axis) (data : List ℕ → ℚ) (kernel : List ℚ)

/-- C57: smoothing gives, at every position, the average of the data around it weighted with the kernel, positions beyond
the ends being reflected - whatever part is requested and however the request is split up. -/
theorem smooth_shows (hnr : ∀ l, 0 ≤ nr l) (hl : 1 ≤ limit) (hx : Contains x data) (hA : Smoothable x.axes)
    (hd : foundAt (whichaxis x.axes id) = some d) (hax : x.axes[d]? = some ax) (h3 : 3 ≤ kernel.length)
    (hN : kernel.length ≤ ax.len) (hs : kernel.sum ≠ 0) :
    ∃ y, smooth nr junk limit x id kernel = some y ∧ y.axes = x.axes ∧ Shows nr y (smoothed kernel d ax.len data) := by
  obtain ⟨hdl, rfl⟩ := List.getElem?_eq_some_iff.1 hax
  refine ⟨Var.ofView junk x.axes (smoothView nr junk limit x (kernel.map (· / kernel.sum)) d x.axes[d].len), ?_, rfl, ?_⟩
  · unfold smooth
    rw [if_neg (by omega), hd]
    simp only [Option.bind_eq_bind, Option.bind_some, hax]
    rw [if_pos ⟨hN, hs⟩]
  · intro junk' I hI hdist
    exact Loop.read_distinct nr junk junk' x.axes hA.reg _ _
      (fun J hJ hJp => smoothView_spec nr hnr junk hl x data hx hA kernel d hdl h3 hN J hJ hJp) I hI hdist

/-- C57: a kernel of one or two weights leaves the variable as it is; a kernel longer than the axis is refused. -/
theorem smooth_short (h : kernel.length ≤ 2) : smooth nr junk limit x id kernel = some x := by
  unfold smooth; rw [if_pos h]

theorem smooth_long (hd : foundAt (whichaxis x.axes id) = some d) (hax : x.axes[d]? = some ax) (h3 : 3 ≤ kernel.length)
    (hN : ax.len < kernel.length) : smooth nr junk limit x id kernel = none := by
  unfold smooth
  rw [if_neg (by omega), hd]
  simp only [Option.bind_eq_bind, Option.bind_some, hax]
  rw [if_neg (by omega)]

theorem reflect_lt {N m : ℕ} (hm : m ≤ N) {p : ℕ} (hp : p < N) {j : ℕ} (hj : j < m) :
    reflect N ((p : ℤ) + ((m - 1) / 2 : ℕ) - (j : ℤ)) < N := by
  unfold reflect
  split_ifs <;> omega

/-- reflected positions are the positions themselves inside the axis -/
theorem reflect_inside {N p : ℕ} (hp : p < N) : reflect N (p : ℤ) = p := by
  unfold reflect
  rw [if_neg (by omega), if_pos (by omega)]
  omega

theorem sum_getD (l : List ℚ) : ((List.range l.length).map fun j => l.getD j 0).sum = l.sum := by
  congr 1
  refine List.ext_getElem (by simp) fun i h1 h2 => ?_
  simp [h2]

/-- C57: data that does not vary along the axis is not changed. -/
theorem smoothed_constant (hs : kernel.sum ≠ 0) {N : ℕ} {k : List ℕ} (hN : kernel.length ≤ N) (hk : k.getD d 0 < N)
    (hc : ∀ i < N, data (k.set d i) = data k) : smoothed kernel d N data k = data k := by
  unfold smoothed
  have : ((List.range kernel.length).map fun j : ℕ =>
      kernel.getD j 0 * data (k.set d (reflect N ((k.getD d 0 : ℤ) + ((kernel.length - 1) / 2 : ℕ) - (j : ℤ))))) =
      (List.range kernel.length).map fun j : ℕ => kernel.getD j 0 * data k := by
    refine List.map_congr_left fun j hj => ?_
    rw [hc _ (reflect_lt hN hk (by simpa using hj))]
  rw [this, List.sum_map_mul_right, sum_getD]
  field_simp

theorem sum_map_le {ι : Type} (f g : ι → ℚ) (l : List ι) (h : ∀ i ∈ l, f i ≤ g i) : (l.map f).sum ≤ (l.map g).sum :=
  List.sum_le_sum h

/-- C57: with weights that are not negative, the smoothed values stay between the bounds of the data along the axis. -/
theorem smoothed_between (hs : 0 < kernel.sum) (hw : ∀ w ∈ kernel, 0 ≤ w) {N : ℕ} {k : List ℕ} (hN : kernel.length ≤ N)
    (hk : k.getD d 0 < N) (lo hi : ℚ) (hb : ∀ i < N, lo ≤ data (k.set d i) ∧ data (k.set d i) ≤ hi) :
    lo ≤ smoothed kernel d N data k ∧ smoothed kernel d N data k ≤ hi := by
  have hg : ∀ j ∈ List.range kernel.length, 0 ≤ kernel.getD j 0 := by
    intro j hj
    exact hw _ (getD_mem (by simpa using hj))
  have hr : ∀ j ∈ List.range kernel.length,
      reflect N ((k.getD d 0 : ℤ) + ((kernel.length - 1) / 2 : ℕ) - (j : ℤ)) < N := fun j hj =>
    reflect_lt hN hk (by simpa using hj)
  unfold smoothed
  rw [le_div_iff₀ hs, div_le_iff₀ hs]
  constructor
  · calc lo * kernel.sum = ((List.range kernel.length).map fun j => kernel.getD j 0 * lo).sum := by
          rw [List.sum_map_mul_right, sum_getD, mul_comm]
      _ ≤ _ := sum_map_le _ _ _ fun j hj => mul_le_mul_of_nonneg_left (hb _ (hr j hj)).1 (hg j hj)
  · calc _ ≤ ((List.range kernel.length).map fun j => kernel.getD j 0 * hi).sum :=
          sum_map_le _ _ _ fun j hj => mul_le_mul_of_nonneg_left (hb _ (hr j hj)).2 (hg j hj)
      _ = _ := by rw [List.sum_map_mul_right, sum_getD, mul_comm]

/-! ### Examples -/

theorem boxEx_smoothable : Smoothable Loop.boxEx.axes where
  reg := ⟨by decide +kernel, by decide +kernel⟩
  tol := by decide +kernel
  sep := by
    intro a ha
    simp only [Loop.boxEx, List.mem_cons, List.not_mem_nil, or_false] at ha
    rcases ha with rfl | rfl | rfl
    · exact separated_of (by decide +kernel)
    · exact separated_of (by decide +kernel)
    · exact separated_of (by decide +kernel)

example := smooth_shows (fun _ => 0) (fun _ => 7) (limit := 4) Loop.boxEx (.int 0) 0 _ _ [1, 2, 3] (fun _ => le_refl 0)
  (by decide) Loop.boxEx_contains boxEx_smoothable (by decide +kernel) rfl (by decide) (by decide +kernel) (by decide +kernel)

/-- `0, 100, 200` smoothed with `1, 2, 3`: `(1·100 + 2·0 + 3·0)/6`, ... -/
example : ((smooth (fun _ => 0) (fun _ => 7) 4 Loop.boxEx (.int 0) [1, 2, 3]).bind fun y =>
    (y.read (fun _ => 0) (fun _ => 7) ⟨y.axes, [[2, 0, 1], [0], [0]]⟩).map fun r => (r.shape, [[0, 0, 0], [1, 0, 0], [2, 0, 0]].map r.get)) =
    some ([3, 1, 1], [150, 50 / 3, 200 / 3]) := by decide +kernel

/-- One position asked for more often than there are values around it (such a request reaches the variable as it is): an
exception. The restriction on requests is needed. -/
theorem smooth_repeated_violated :
    (smoothView (fun _ => 0) (fun _ => 7) 4 Loop.boxEx [1 / 6, 1 / 3, 1 / 2] 0 3
      ⟨Loop.boxEx.axes, [[2, 2, 2, 2, 2], [0], [0]]⟩).isNone = true := by decide +kernel

end Smooth
end PyGeode
