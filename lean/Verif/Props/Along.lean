/-
C45: forward differences.
-/
import Verif.Model.Along
import Verif.Props.Concat
import Mathlib.Algebra.Group.ForwardDiff

namespace PyGeode
open Spec NArr Axis Combine VarOps

namespace Along
variable {α : Type}

/-! ### positions -/

theorem countP_lt_succ (u : List ℕ) (hu : u.Nodup) (p : ℕ) (hp : p ∈ u) :
    u.countP (fun y => decide (y < p + 1)) = u.countP (fun y => decide (y < p)) + 1 := by
  induction u with
  | nil => simp at hp
  | cons a u ih =>
    rw [List.nodup_cons] at hu
    rcases List.mem_cons.1 hp with rfl | h
    · have : u.countP (fun y => decide (y < p + 1)) = u.countP (fun y => decide (y < p)) := by
        refine List.countP_congr fun b hb => ?_
        have : b ≠ p := fun e => hu.1 (e ▸ hb)
        simp; omega
      rw [List.countP_cons, List.countP_cons, this]
      simp
    · have hap : a ≠ p := fun e => hu.1 (e ▸ h)
      have ih := ih hu.2 h
      rw [List.countP_cons, List.countP_cons, ih]
      by_cases h1 : a < p
      · simp [h1, (by omega : a < p + 1)]
      · have h2 : ¬ a < p + 1 := by omega
        rw [if_neg (by simpa using h2), if_neg (by simpa using h1)]

theorem uniq_nodup (l : List ℕ) : (uniq l).Nodup := (uniq_sorted l).imp fun h => Nat.ne_of_lt h

theorem searchsorted_add (l : List ℕ) (p : ℕ) : ∀ i : ℕ, (∀ j < i, p + j ∈ l) →
    searchsorted (uniq l) (p + i) = searchsorted (uniq l) p + i
  | 0, _ => rfl
  | i + 1, h => by
    have ih := searchsorted_add l p i fun j hj => h j (by omega)
    have := countP_lt_succ (uniq l) (uniq_nodup l) (p + i) (mem_uniq.2 (h i (by omega)))
    unfold searchsorted at ih ⊢
    rw [← Nat.add_assoc, this, ih]
    omega

theorem set_cell (I : List (List ℕ)) (k : List ℕ) (d : ℕ) (l : List ℕ) (i : ℕ) (hd : d < I.length) (hk : k.length = I.length) :
    cell (I.set d l) (k.set d i) = (cell I k).set d (l.getD i 0) := by
  unfold cell
  refine List.ext_getElem (by simp) fun j hj hj' => ?_
  rw [List.getElem_zipWith, List.getElem_set, List.getElem_set, List.getElem_set]
  split_ifs with h
  · rfl
  · rw [List.getElem_zipWith]

theorem inBounds_set {s k : List ℕ} (h : InBounds s k) (d n i : ℕ) (hi : i < n) : InBounds (s.set d n) (k.set d i) := by
  rw [inBounds_iff] at h ⊢
  refine ⟨by simp [h.1], fun j hj => ?_⟩
  have hj' : j < s.length := by simpa using hj
  have hjk : j < k.length := by rw [h.1]; exact hj'
  have := h.2 j hj'
  rw [List.getD_eq_getElem _ _ (by simpa using hjk), List.getD_eq_getElem _ _ hj, List.getElem_set, List.getElem_set]
  split_ifs with e
  · exact hi
  · rwa [List.getD_eq_getElem _ _ hjk, List.getD_eq_getElem _ _ hj'] at this

/-- picking points out of an array read at the points `uniq l` along axis `d` -/
theorem take_read (data : List ℕ → α) (I : List (List ℕ)) (d : ℕ) (hd : d < I.length) (l pts : List ℕ) (r : NArr α)
    (hr : IsRead data (I.set d (uniq l)) r) (hlen : pts.length = (I.getD d []).length) (hin : ∀ p ∈ pts, p ∈ l) :
    (r.takeAxis d (pts.map (searchsorted (uniq l)))).shape = I.map List.length ∧
    ∀ k, InBounds (I.map List.length) k → (r.takeAxis d (pts.map (searchsorted (uniq l)))).get k =
      data ((cell I k).set d (pts.getD (k.getD d 0) 0)) := by
  have hmap : (I.map List.length).set d pts.length = I.map List.length := by
    refine List.ext_getElem (by simp) fun j hj hj' => ?_
    rw [List.getElem_set]
    split_ifs with e
    · subst e; rw [hlen, List.getD_eq_getElem _ _ hd, List.getElem_map]
    · rfl
  constructor
  · simp only [takeAxis]
    rw [hr.1, List.map_set, List.set_set, List.length_map, hmap]
  · intro k hk
    have hkl : k.length = I.length := by simpa using hk.length_eq
    have hkd : k.getD d 0 < pts.length := by
      have := (inBounds_iff.1 hk).2 d (by simpa using hd)
      rwa [List.getD_eq_getElem (I.map List.length) _ (by simpa using hd), List.getElem_map, ← List.getD_eq_getElem I [] hd,
        ← hlen] at this
    simp only [takeAxis]
    have hg : (pts.map (searchsorted (uniq l))).getD (k.getD d 0) 0 = searchsorted (uniq l) (pts.getD (k.getD d 0) 0) := by
      rw [List.getD_eq_getElem (pts.map _) _ (by simpa using hkd), List.getElem_map, List.getD_eq_getElem pts _ hkd]
    have hp : pts.getD (k.getD d 0) 0 ∈ l := by
      rw [List.getD_eq_getElem pts _ hkd]; exact hin _ (List.getElem_mem _)
    rw [hg, hr.2 _ (by
      rw [List.map_set]
      exact inBounds_set hk d _ _ (searchsorted_lt l _ hp))]
    rw [set_cell I k d _ _ hd hkl, uniq_getD_searchsorted l _ hp]

/-! ### C45 -/

theorem npDiff_shape [Sub α] (a : NArr α) (d : ℕ) (n : ℕ) :
    (npDiff a d n).shape = if n = 0 then a.shape else a.shape.set d (a.shape.getD d 0 - n) := by
  induction n with
  | zero => rfl
  | succ n ih =>
    simp only [npDiff, diff1]
    rw [ih]
    rw [if_neg (Nat.succ_ne_zero n)]
    by_cases h : n = 0
    · subst h; simp
    · rw [if_neg h, List.set_set]
      by_cases hd : d < a.shape.length
      · rw [List.getD_eq_getElem (a.shape.set d _) _ (by simpa using hd), List.getElem_set_self]
        congr 1
      · rw [List.set_eq_of_length_le (by omega), List.set_eq_of_length_le (by omega)]

open fwdDiff in
theorem npDiff_get [AddCommGroup α] (a : NArr α) (d : ℕ) (n : ℕ) : ∀ k : List ℕ, d < k.length →
    (npDiff a d n).get k = Δ_[1]^[n] (fun p : ℕ => a.get (k.set d p)) (k.getD d 0) := by
  induction n with
  | zero =>
    intro k hk
    simp only [npDiff, Function.iterate_zero, id]
    rw [List.getD_eq_getElem _ _ hk]
    simp
  | succ n ih =>
    intro k hk
    simp only [npDiff, diff1]
    rw [ih _ (by simpa using hk), ih k hk, Function.iterate_succ_apply', fwdDiff]
    rw [List.getD_eq_getElem (k.set d _) _ (by simpa using hk), List.getElem_set_self]
    simp only [List.set_set]

open fwdDiff in
theorem fwdDiff_congr [AddCommGroup α] (f g : ℕ → α) (n p q : ℕ) (h : ∀ i ≤ n, f (p + i) = g (q + i)) :
    Δ_[1]^[n] f p = Δ_[1]^[n] g q := by
  rw [fwdDiff_iter_eq_sum_shift, fwdDiff_iter_eq_sum_shift]
  refine Finset.sum_congr rfl fun i hi => ?_
  have := h i (by simpa [Nat.lt_succ_iff] using hi)
  simp only [smul_eq_mul, mul_one]
  rw [this]

theorem leadPositions_eq (len n : ℕ) (hn : 1 ≤ n) (hl : n < len) : leadPositions len n = List.range (len - n) := by
  unfold leadPositions expand
  have h1 : -(n : ℤ) < 0 := by omega
  simp [(by omega : 0 < n), arange, arangeLen]
  rw [show ((-(n:ℤ) + (len : ℤ))).toNat = len - n by omega]
  refine List.ext_getElem (by simp) fun i hi hi' => ?_
  simp

theorem regular_of_classes {A B : List Axis} (h : B.map Axis.classes = A.map Axis.classes) (hr : Regular A) : Regular B := by
  have hlen : B.length = A.length := by simpa using congrArg List.length h
  have hget : ∀ (i : ℕ) (hi : i < B.length) (hi' : i < A.length), B[i].classes = A[i].classes := by
    intro i hi hi'
    have := congrArg (fun l : List (List Name) => l[i]?) h
    simpa [hi, hi'] using this
  constructor
  · intro b hb
    obtain ⟨i, hi, rfl⟩ := List.getElem_of_mem hb
    rw [hget i hi (by omega)]
    exact hr.cls _ (List.getElem_mem _)
  · rw [List.pairwise_iff_getElem]
    intro i j hi hj hij
    have := List.pairwise_iff_getElem.1 hr.inc i j (by omega) (by omega) hij
    unfold compatible isParentOf at this ⊢
    rw [hget i hi (by omega), hget j hj (by omega)]
    exact this

theorem foundAt_lt {axes : List Axis} {id : AxisId} {d : ℕ} (h : foundAt (whichaxis axes id) = some d) : d < axes.length := by
  have := whichAll_lt (axes := axes) (ids := [id]) (l := [d]) (by simp [whichAll, h])
  exact this d (by simp)

theorem classes_set (A : List Axis) (d : ℕ) (a b : Axis) (ha : A[d]? = some a) (h : b.classes = a.classes) :
    (A.set d b).map Axis.classes = A.map Axis.classes := by
  obtain ⟨hd, rfl⟩ := List.getElem?_eq_some_iff.1 ha
  refine List.ext_getElem (by simp) fun i hi hi' => ?_
  rw [List.getElem_map, List.getElem_map, List.getElem_set]
  split_ifs with e
  · subst e; exact h
  · rfl

open fwdDiff in
/-- C45: `diff(n)` drops the last `n` points of the axis and holds, at each remaining position, the n-th forward difference
of the data along the axis. The result is a variable like any other: any positions in any order can be read from it. -/
theorem diff_correct [AddCommGroup α] (nr : List ℚ → ℚ) (junk : List ℕ → α) (x y : Var α) (id : AxisId) (d n : ℕ)
    (data : List ℕ → α) (hx : Contains x data) (hr : Regular x.axes) (hd : foundAt (whichaxis x.axes id) = some d)
    (hn : 1 ≤ n) (hy : diff nr junk x id n = some y) :
    ∃ ax b : Axis, x.axes[d]? = some ax ∧ y.axes = x.axes.set d b ∧ b.values = ax.values.take (ax.len - n) ∧
      b.classes = ax.classes ∧ b.name = ax.name ∧ Regular y.axes ∧
      Contains y (fun k => Δ_[1]^[n] (fun p : ℕ => data (k.set d p)) (k.getD d 0)) := by
  have hdl := foundAt_lt hd
  unfold diff at hy
  rw [hd] at hy
  simp only [Option.bind_eq_bind, Option.bind_some, List.getElem?_eq_getElem hdl] at hy
  split_ifs at hy with hlen
  simp only [Option.some.injEq] at hy
  set ax := x.axes[d] with hax
  have hax' : x.axes[d]? = some ax := List.getElem?_eq_getElem hdl
  rw [leadPositions_eq _ _ hn hlen] at hy
  have hv : (sliceAxis nr ax (List.range (ax.len - n))).values = ax.values.take (ax.len - n) := by
    rw [sliceAxis_values]
    refine List.ext_getElem (by simp [Axis.len]) fun i hi hi' => ?_
    have : i < ax.values.length := by simp at hi'; omega
    rw [List.getElem_map, List.getElem_range, List.getElem_take, List.getD_eq_getElem _ _ this]
  have hcl : (sliceAxis nr ax (List.range (ax.len - n))).classes = ax.classes := sliceAxis_classes _ _ _
  refine ⟨ax, _, hax', by rw [← hy]; rfl, hv, hcl, by unfold sliceAxis; simp only; split_ifs <;> rfl, ?_, ?_⟩
  · rw [← hy]
    exact regular_of_classes (classes_set _ _ _ _ hax' hcl) hr
  rw [← hy]
  refine contains_ofView junk _ _ _ fun I hI hne => ?_
  set b := sliceAxis nr ax (List.range (ax.len - n)) with hb
  have hIl : I.length = x.axes.length := by simpa using hI.length_eq
  have hdI : d < I.length := by omega
  set left := I.getD d [] with hleft
  have hlr : ∀ p ∈ left, p < ax.len - n := by
    intro p hp
    have := (List.forall₂_iff_get.1 hI).2 d hdI (by simpa using hdl)
    simp only [List.get_eq_getElem, List.getElem_map, List.getElem_set_self] at this
    have h2 := this p (by rwa [hleft, List.getD_eq_getElem _ _ hdI] at hp)
    have hbl : b.len = ax.len - n := by
      unfold Axis.len; rw [hv]; simp [Axis.len]
    rwa [hbl] at h2
  set l := (List.range (n + 1)).flatMap fun i => left.map fun p => p + i with hl
  have hmem : ∀ q, q ∈ l ↔ ∃ p ∈ left, ∃ i ≤ n, q = p + i := by
    intro q
    simp only [hl, List.mem_flatMap, List.mem_range, List.mem_map, Nat.lt_succ_iff]
    constructor
    · rintro ⟨i, hi, p, hp, rfl⟩; exact ⟨p, hp, i, hi, rfl⟩
    · rintro ⟨p, hp, i, hi, rfl⟩; exact ⟨i, hi, p, hp, rfl⟩
  have hR : InRange (x.axes.map Axis.len) (I.set d (uniq l)) := by
    unfold InRange
    rw [List.forall₂_iff_get]
    refine ⟨by simp [hIl], fun i hi hi' => ?_⟩
    simp only [List.get_eq_getElem, List.getElem_map]
    rw [List.getElem_set]
    split_ifs with e
    · subst e
      intro q hq
      obtain ⟨p, hp, i, hi, rfl⟩ := (hmem q).1 (mem_uniq.1 hq)
      have := hlr p hp
      show p + i < ax.len
      omega
    · have := (List.forall₂_iff_get.1 hI).2 i (by simpa using hi) (by simpa using hi')
      simp only [List.get_eq_getElem, List.getElem_map] at this
      rwa [List.getElem_set_ne e] at this
  have hlne : left ≠ [] := hne _ (by rw [hleft, List.getD_eq_getElem _ _ hdI]; exact List.getElem_mem _)
  have hne' : ∀ ind ∈ I.set d (uniq l), ind ≠ [] := by
    intro ind hind
    rcases List.mem_or_eq_of_mem_set hind with h | rfl
    · exact hne _ h
    · intro e
      obtain ⟨p, hp⟩ := List.exists_mem_of_ne_nil _ hlne
      have : p ∈ uniq l := mem_uniq.2 ((hmem p).2 ⟨p, hp, 0, by omega, rfl⟩)
      rw [e] at this; simp at this
  obtain ⟨r, h1, h2⟩ := read_own nr junk x data hx hr _ hR hne'
  refine ⟨(npDiff r d n).takeAxis d (left.map (searchsorted (uniq l))), ?_, ?_⟩
  · unfold diffView Concat.replaceAxis
    simp only [List.set_set]
    have : x.axes.set d ax = x.axes := by rw [hax]; simp
    have e : allPoints left n = uniq l := rfl
    rw [this, e, h1]
    rfl
  · have hrs : r.shape = (I.map List.length).set d (uniq l).length := by rw [h2.1, List.map_set]
    have hsh : (npDiff r d n).shape.set d left.length = I.map List.length := by
      rw [npDiff_shape, if_neg (by omega), hrs, List.set_set, List.set_set]
      refine List.ext_getElem (by simp) fun j hj hj' => ?_
      rw [List.getElem_set]
      split_ifs with e
      · subst e; rw [List.getElem_map, hleft, List.getD_eq_getElem _ _ hdI]
      · rfl
    refine ⟨by simp only [takeAxis]; rw [List.length_map, hsh], fun k hk => ?_⟩
    have hkl : k.length = I.length := by simpa using hk.length_eq
    have hkd : k.getD d 0 < left.length := by
      have := (inBounds_iff.1 hk).2 d (by simpa using hdI)
      rwa [List.getD_eq_getElem (I.map List.length) _ (by simpa using hdI), List.getElem_map, ← List.getD_eq_getElem I [] hdI,
        ← hleft] at this
    set p := left.getD (k.getD d 0) 0 with hp
    have hpm : p ∈ left := by rw [hp, List.getD_eq_getElem _ _ hkd]; exact List.getElem_mem _
    simp only [takeAxis]
    have hg : (left.map (searchsorted (uniq l))).getD (k.getD d 0) 0 = searchsorted (uniq l) p := by
      rw [List.getD_eq_getElem (left.map _) _ (by simpa using hkd), List.getElem_map, hp, List.getD_eq_getElem left _ hkd]
    rw [hg, npDiff_get _ _ _ _ (by simp; omega)]
    rw [getD_cell I k d hdI hkl, ← hleft, ← hp]
    rw [List.getD_eq_getElem (k.set d _) _ (by simp; omega), List.getElem_set_self]
    refine fwdDiff_congr _ _ n _ _ fun i hi => ?_
    simp only [List.set_set]
    have hpi : p + i ∈ l := (hmem _).2 ⟨p, hpm, i, hi, rfl⟩
    rw [← searchsorted_add l p i fun j hj => (hmem _).2 ⟨p, hpm, j, by omega, rfl⟩]
    rw [h2.2 _ (by
      rw [List.map_set]
      exact inBounds_set hk d _ _ (searchsorted_lt l _ hpi)), set_cell I k d _ _ hdI hkl, uniq_getD_searchsorted l _ hpi]

/-- C45: in particular the first difference is the next value minus this one. -/
theorem diff_one [AddCommGroup α] (nr : List ℚ → ℚ) (junk : List ℕ → α) (x y : Var α) (id : AxisId) (d : ℕ)
    (data : List ℕ → α) (hx : Contains x data) (hr : Regular x.axes) (hd : foundAt (whichaxis x.axes id) = some d)
    (hy : diff nr junk x id 1 = some y) :
    ∃ dat, Contains y dat ∧ ∀ k, d < k.length → dat k = data (k.set d (k.getD d 0 + 1)) - data k := by
  obtain ⟨_, _, _, _, _, _, _, _, h⟩ := diff_correct nr junk x y id d 1 data hx hr hd le_rfl hy
  refine ⟨_, h, fun k hk => ?_⟩
  simp only [Function.iterate_one, fwdDiff]
  congr 2
  rw [List.getD_eq_getElem _ _ hk]
  simp

/-- C45: the request is refused exactly when the axis is unknown or too short. -/
theorem diff_refused [Sub α] (nr : List ℚ → ℚ) (junk : List ℕ → α) (x : Var α) (id : AxisId) (n : ℕ) :
    diff nr junk x id n = none ↔ ∀ (d : ℕ) (ax : Axis), foundAt (whichaxis x.axes id) = some d → x.axes[d]? = some ax → ax.len ≤ n := by
  unfold diff
  cases h : foundAt (whichaxis x.axes id) with
  | none => simp
  | some d =>
    cases h2 : x.axes[d]? with
    | none =>
      simp only [Option.bind_eq_bind, Option.bind_some, h2, Option.bind_none, true_iff]
      intro d' ax e1 e2
      cases e1
      rw [h2] at e2
      simp at e2
    | some ax =>
      simp only [Option.bind_eq_bind, Option.bind_some, h2]
      constructor
      · intro h3 d' ax' e1 e2
        cases e1
        rw [h2] at e2
        cases e2
        by_contra hc
        rw [if_pos (by omega)] at h3
        simp at h3
      · intro h3
        rw [if_neg (by have := h3 d ax rfl h2; omega)]

/-! ### examples -/

def lineEx : Var ℤ :=
  { axes := [timeEx 5, lonEx]
    src := .values ⟨[5, lonEx.len], fun k => (k.getD 0 0 : ℤ) ^ 3 + 10 * (k.getD 1 0 : ℤ)⟩ }

theorem lineEx_contains : Contains lineEx (fun k => (k.getD 0 0 : ℤ) ^ 3 + 10 * (k.getD 1 0 : ℤ)) :=
  ⟨by decide +kernel, fun k _ => rfl⟩

theorem lineEx_regular : Regular lineEx.axes := ⟨by decide +kernel, by decide +kernel⟩

example : foundAt (whichaxis lineEx.axes (.name "time".toList)) = some 0 ∧
    ((diff (fun _ => 0) (fun _ => 0) lineEx (.name "time".toList) 2).bind fun y =>
      (y.read (fun _ => 0) (fun _ => 0) ⟨y.axes, [[2, 0, 2], [1]]⟩).map fun r =>
        (y.axes.map Axis.len, [r.get [0, 0], r.get [1, 0], r.get [2, 0]])) = some ([3, lonEx.len], [18, 6, 18]) := by decide +kernel

/-- `diff(n=0)` should be the variable itself (as in numpy) but has no points: `slice[:-0]` is empty. -/
theorem diff_zero_violated : (diff (fun _ => 0) (fun _ => 0) lineEx (.int 0) 0).map (fun y => y.axes.map Axis.len) =
    some [0, lonEx.len] := by decide +kernel

end Along
end PyGeode
