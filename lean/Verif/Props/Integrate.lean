/-
C47: running integrals and sums.
-/
import Verif.Props.Deriv

namespace PyGeode
open Spec NArr Axis Combine VarOps

namespace Along

theorem sum_range_list (f : ℕ → ℚ) : ∀ n : ℕ, ((List.range n).map f).sum = ∑ p ∈ Finset.range n, f p
  | 0 => rfl
  | n + 1 => by rw [List.range_succ, List.map_append, List.sum_append, sum_range_list f n, Finset.sum_range_succ]; simp

/-- what the constant of integration is read as -/
theorem start_read (nr : List ℚ → ℚ) (junk : List ℕ → ℚ) (axes : List Axis) (hr : Regular axes) (d : ℕ) (ax : Axis)
    (hax : axes[d]? = some ax) (a : Option Start) (c : List ℕ → ℚ) (hc : StartIs axes ax a c) (s : Start)
    (hs : startOf axes ax a = some s) (J : List (List ℕ)) (hJ : InRange (axes.map Axis.len) J) (hne : ∀ ind ∈ J, ind ≠ []) :
    ∃ r, startArr nr junk ⟨axes, J⟩ d s = some r ∧ r.shape = (J.map List.length).set d 1 ∧
      (∀ k, InBounds (J.map List.length) k → ∀ i, i < (J.getD d []).length → r.get (k.set d i) = c (cell J k)) := by
  obtain ⟨hd, hax'⟩ := List.getElem?_eq_some_iff.1 hax
  have hJl : J.length = axes.length := by simpa using hJ.length_eq
  cases hc with
  | zero =>
    simp only [startOf, Option.some.injEq] at hs
    subst hs
    exact ⟨_, rfl, rfl, fun k hk i hi => rfl⟩
  | number v =>
    simp only [startOf, Option.some.injEq] at hs
    subst hs
    exact ⟨_, rfl, rfl, fun k hk i hi => rfl⟩
  | var z f c hsub hnd hnot hf hsame =>
    simp only [startOf] at hs
    split_ifs at hs with he
    simp only [Option.some.injEq] at hs
    subst hs
    obtain ⟨r, h1, h2, h3⟩ := read_on nr junk z f hf hnd axes hr hsub J hJ hne
    refine ⟨_, by simp only [startArr, h1, Option.map_some]; rfl, rfl, fun k hk i hi => ?_⟩
    have hkl : k.length = J.length := by simpa using hk.length_eq
    have hb : InBounds (J.map List.length) (k.set d i) := by
      have e : (J.map List.length).set d (J.getD d []).length = J.map List.length := by
        refine List.ext_getElem (by simp) fun j hj hj' => ?_
        rw [List.getElem_set]
        split_ifs with e
        · subst e; rw [List.getElem_map, List.getD_eq_getElem _ _ (by simpa using hj')]
        · rfl
      rw [← e]; exact inBounds_set hk d _ _ hi
    show r.get (bindex r.shape (k.set d i)) = _
    rw [h3 _ hb]
    have hcell : (cell J k).length = axes.length := by simp [cell]; omega
    have := sameData_unique hr.nodup (relabel_same z.axes axes f hsub) hsame (cell J k) hcell
    rw [← this]
    unfold relabel
    congr 1
    refine List.map_congr_left fun a ha => ?_
    have hai : axes.idxOf a < axes.length := List.idxOf_lt_length_of_mem (hsub a ha)
    have had : axes.idxOf a ≠ d := by
      intro e
      apply hnot
      have : axes[axes.idxOf a] = a := List.getElem_idxOf hai
      rw [← hax']
      simp only [e] at this
      rw [this]; exact ha
    rw [getD_cell J _ _ (by omega) (by simpa using hkl), getD_cell J _ _ (by omega) hkl]
    congr 1
    rw [List.getD_eq_getElem _ _ (by simp; omega), List.getElem_set_ne (Ne.symm had), List.getD_eq_getElem _ _ (by omega)]

/-- C47: a start variable that has the axis integrated along, or an axis the integrand does not have, is refused. -/
theorem integrate_refuses (nr : List ℚ → ℚ) (junk : List ℕ → ℚ) (x z : Var ℚ) (axid : AxisId) (d : ℕ) (ax : Axis)
    (dx : Option (Var ℚ)) (rev : Bool) (rule : Rule) (hd : whichaxis x.axes axid = .at d) (hax : x.axes[d]? = some ax)
    (h : (∃ b ∈ z.axes, axEq b ax = true) ∨ ∃ b ∈ z.axes, ∀ a ∈ x.axes, axEq a b = false) :
    integrate nr junk x axid dx (some (.var z)) rev rule = none := by
  have hs : startOf x.axes ax (some (.var z)) = none := by
    refine if_pos ?_
    simp only [elem, Bool.or_eq_true, List.any_eq_true, Bool.not_eq_true', List.all_eq_false]
    rcases h with h | ⟨b, hb, hn⟩
    · exact Or.inl h
    · refine Or.inr ⟨b, hb, ?_⟩
      rintro ⟨a, ha, he⟩
      rw [hn a ha] at he
      cases he
  unfold integrate
  rw [hd]
  show Option.bind (x.axes[d]?) _ = none
  rw [hax, Option.bind_some]
  show Option.bind (startOf x.axes ax (some (.var z))) _ = none
  rw [hs]
  rfl

theorem set_getD_self {γ : Type} (l : List γ) (d : ℕ) (x : γ) : l.set d (l.getD d x) = l := by
  by_cases h : d < l.length
  · rw [List.getD_eq_getElem _ _ h]; simp
  · rw [List.set_eq_of_length_le (by omega)]

theorem getD_set_self {γ : Type} (l : List γ) (d : ℕ) (x y : γ) (h : d < l.length) : (l.set d y).getD d x = y := by
  rw [List.getD_eq_getElem _ _ (by simpa using h), List.getElem_set_self]

/-- C47: `integrate` keeps the axes and holds at every position the constant plus the steps of the rule up to that position
(from that position on, if integrated backwards). `cumsum` is the rule `cumsum`. -/
theorem integrate_correct (nr : List ℚ → ℚ) (junk : List ℕ → ℚ) (x y : Var ℚ) (axid : AxisId) (d : ℕ) (ax : Axis)
    (dx : Option (Var ℚ)) (v0 : Option Start) (rev : Bool) (rule : Rule) (data c s : List ℕ → ℚ)
    (hx : Contains x data) (hr : Regular x.axes) (hd : foundAt (whichaxis x.axes axid) = some d) (hax : x.axes[d]? = some ax)
    (hc : CoordIs x.axes d ax dx c) (hs : StartIs x.axes ax v0 s)
    (hy : integrate nr junk x axid dx v0 rev rule = some y) :
    y.axes = x.axes ∧ 2 ≤ ax.len ∧ Contains y (integral rule rev data c s d ax.len) := by
  unfold integrate at hy
  rw [hd] at hy
  simp only [Option.bind_eq_bind, Option.bind_some, hax] at hy
  cases hst : startOf x.axes ax v0 with
  | none => rw [hst] at hy; simp at hy
  | some st =>
  rw [hst] at hy
  simp only [Option.bind_some] at hy
  cases hz : coordinate nr junk x.axes ax dx with
  | none => rw [hz] at hy; simp at hy
  | some z =>
  rw [hz] at hy
  simp only [Option.bind_some] at hy
  split_ifs at hy with hlen
  simp only [Option.some.injEq] at hy
  subst hy
  obtain ⟨hdl, hax'⟩ := List.getElem?_eq_some_iff.1 hax
  set N := ax.len with hN
  have hlenD : (x.axes.map Axis.len).getD d 0 = N := by
    rw [List.getD_eq_getElem _ _ (by simpa using hdl), List.getElem_map, hax']
  refine ⟨rfl, hlen, contains_ofView junk _ _ _ fun I hI hne => ?_⟩
  have hIl : I.length = x.axes.length := by simpa using hI.length_eq
  have hdI : d < I.length := by omega
  set ind := I.getD d [] with hind
  have hir : ∀ p ∈ ind, p < N := by
    intro p hp
    have := inRange_get hI d hdI p hp
    rwa [hlenD] at this
  have hJ : InRange (x.axes.map Axis.len) (I.set d (List.range N)) :=
    inRange_set hI d _ fun p hp => by rw [hlenD]; simpa using hp
  have hindne : ind ≠ [] := hne _ (by rw [hind, List.getD_eq_getElem _ _ hdI]; exact List.getElem_mem _)
  have hind0 : 0 < ind.length := List.length_pos_iff.2 hindne
  have hJne : ∀ m ∈ I.set d (List.range N), m ≠ [] := by
    intro m hm
    rcases List.mem_or_eq_of_mem_set hm with h | rfl
    · exact hne _ h
    · intro e
      have := congrArg List.length e
      simp at this; omega
  obtain ⟨r, h1, h2⟩ := read_own nr junk x data hx hr _ hJ hJne
  obtain ⟨ra, g1, g2, g3, g4⟩ := coord_read nr junk x.axes hr d ax hax dx c hc z hz _ hJ hJne
  obtain ⟨d0, e1, e2, e3⟩ := start_read nr junk x.axes hr d ax hax v0 s hs st hst I hI hne
  set S := I.map List.length with hS
  have hSl : S.length = I.length := by simp [hS]
  have hSd : S.getD d 0 = ind.length := by
    rw [hS, List.getD_eq_getElem (I.map List.length) _ (by simpa using hdI), List.getElem_map, hind, List.getD_eq_getElem I _ hdI]
  have hrs : r.shape = S.set d N := by rw [h2.1, List.map_set]; simp [hS]
  have hJmap : (I.set d (List.range N)).map List.length = S.set d N := by rw [List.map_set]; simp [hS]
  -- the steps
  have hinc : ∀ k, InBounds S k → ∀ p, p + 1 < N → (increments rule r ra d).get (k.set d p) = step rule data c d (cell I k) p := by
    intro k hk p hp
    have hkl : k.length = I.length := by have := hk.length_eq; omega
    have hat : ∀ q, q < N → r.get (bindex r.shape (k.set d q)) = data ((cell I k).set d q) := by
      intro q hq
      have hb : InBounds (S.set d N) (k.set d q) := inBounds_set hk d _ _ hq
      rw [hrs, bindex_self hb, h2.2 _ (by rw [hJmap]; exact hb), set_cell I k d _ _ hdI hkl,
        List.getD_eq_getElem _ _ (by simpa using hq), List.getElem_range]
    have hac : ∀ q, q < N → ra.get (bindex ra.shape (k.set d q)) = c ((cell I k).set d q) := by
      intro q hq
      have hb : InBounds (S.set d N) (k.set d q) := inBounds_set hk d _ _ hq
      rw [g4 _ (by rw [hJmap]; exact hb), set_cell I k d _ _ hdI hkl,
        List.getD_eq_getElem _ _ (by simpa using hq), List.getElem_range]
    simp only [increments, List.set_set, getD_set_self k d 0 p (by omega)]
    rw [hat p (by omega), hat (p + 1) hp, hac p (by omega), hac (p + 1) hp]
    cases rule <;> simp only [step]
    ring
  have hincs : (increments rule r ra d).shape = S.set d (N - 1) := by
    simp only [increments]
    rw [hrs, List.set_set, getD_set_self S d 0 N (by omega)]
  -- the joined array
  set fl := flip rev (increments rule r ra d) d with hfl
  have hfls : fl.shape = S.set d (N - 1) := by rw [hfl]; unfold flip; split_ifs <;> exact hincs
  have hflg : ∀ k, InBounds S k → ∀ p, p + 1 < N → fl.get (k.set d p) =
      step rule data c d (cell I k) (if rev then N - 2 - p else p) := by
    intro k hk p hp
    have hkl : k.length = I.length := by have := hk.length_eq; omega
    rw [hfl]
    unfold flip
    cases rev with
    | true =>
      simp only [if_true, List.set_set, getD_set_self k d 0 p (by omega), hincs, getD_set_self S d 0 (N - 1) (by omega)]
      rw [hinc k hk _ (by omega)]
      congr 1
    | false =>
      simp only [Bool.false_eq_true, if_false]
      exact hinc k hk p hp
  have hcat : Concat.concatenate junk d [d0, fl] = some { shape := S.set d N, get := Concat.joinGet junk d [d0, fl] } := by
    unfold Concat.concatenate
    simp only
    rw [if_pos (by
      simp only [List.all_cons, List.all_nil, Bool.and_true, decide_eq_true_eq]
      rw [hfls, e2, List.set_set, List.set_set])]
    congr 2
    rw [e2, List.set_set]
    congr 1
    simp only [List.map_cons, List.map_nil, List.sum_cons, List.sum_nil]
    rw [e2, hfls, getD_set_self S d 0 1 (by omega), getD_set_self S d 0 _ (by omega)]
    omega
  set dat : NArr ℚ := { shape := S.set d N, get := Concat.joinGet junk d [d0, fl] } with hdat
  have hacc : ∀ k, InBounds S k → ∀ m, m < N → (accumulate dat d).get (k.set d m) =
      s (cell I k) + ∑ p ∈ Finset.range m, step rule data c d (cell I k) (if rev then N - 2 - p else p) := by
    intro k hk m hm
    have hkl : k.length = I.length := by have := hk.length_eq; omega
    simp only [accumulate, List.set_set, getD_set_self k d 0 m (by omega)]
    rw [sum_range_list, Finset.sum_range_succ']
    rw [add_comm]
    congr 1
    · simp only [hdat, Concat.joinGet]
      rw [getD_set_self k d 0 0 (by omega), e2, getD_set_self S d 0 1 (by omega), if_pos (by omega)]
      exact e3 k hk 0 hind0
    · refine Finset.sum_congr rfl fun p hp => ?_
      have hp' : p < m := by simpa using hp
      simp only [hdat, Concat.joinGet]
      rw [getD_set_self k d 0 _ (by omega), e2, getD_set_self S d 0 1 (by omega), if_neg (by omega), hfls]
      simp only [List.set_set]
      rw [getD_set_self k d 0 _ (by omega), getD_set_self S d 0 _ (by omega), if_pos (by omega), Nat.add_sub_cancel]
      exact hflg k hk p (by omega)
  refine ⟨(flip rev (accumulate dat d) d).takeAxis d ind, ?_, ?_, ?_⟩
  · unfold integrateView
    simp only [h1, g1, e1, ← hfl, hcat, Option.bind_eq_bind, Option.bind_some]
    rfl
  · simp only [takeAxis]
    have : (flip rev (accumulate dat d) d).shape = S.set d N := by unfold flip; split_ifs <;> rfl
    rw [this, List.set_set, ← hSd, set_getD_self]
  · intro k hk
    rw [← hS] at hk
    have hkl : k.length = I.length := by have := hk.length_eq; omega
    have hkd : k.getD d 0 < ind.length := by
      have := (inBounds_iff.1 hk).2 d (by omega)
      rwa [hSd] at this
    set i := ind.getD (k.getD d 0) 0 with hi
    have hiN : i < N := hir i (by rw [hi, List.getD_eq_getElem _ _ hkd]; exact List.getElem_mem _)
    simp only [takeAxis, ← hi]
    have hcd : (cell I k).getD d 0 = i := by rw [getD_cell I k d hdI hkl]
    unfold integral
    rw [hcd]
    cases rev with
    | false =>
      simp only [flip, Bool.false_eq_true, if_false]
      rw [hacc k hk i hiN]
      simp
    | true =>
      simp only [flip, if_true, List.set_set, getD_set_self k d 0 i (by omega)]
      have hsh : (accumulate dat d).shape = S.set d N := rfl
      rw [hsh, getD_set_self S d 0 N (by omega), hacc k hk _ (by omega)]
      congr 1
      simp only [if_true]
      have := Finset.sum_Ico_reflect (fun q => step rule data c d (cell I k) q) 0 (m := N - 1 - i) (n := N - 2) (by omega)
      rw [Finset.range_eq_Ico]
      rw [this]
      congr 1
      ext q
      simp only [Finset.mem_Ico]
      omega

/-- C47: the integral starts from the constant: at the first position, or at the last one if integrated backwards. -/
theorem integral_start (rule : Rule) (rev : Bool) (data c s : List ℕ → ℚ) (d N : ℕ) (k : List ℕ)
    (h : k.getD d 0 = if rev then N - 1 else 0) : integral rule rev data c s d N k = s k := by
  unfold integral
  rw [h]
  cases rev <;> simp

/-- C47: the difference of the integral between neighbouring positions is the step of the rule there (for a constant that
does not depend on the position along the axis). -/
theorem integral_step (rule : Rule) (rev : Bool) (data c s : List ℕ → ℚ) (d N : ℕ) (k : List ℕ) (p : ℕ) (hd : d < k.length)
    (hp : p + 1 < N) (hs : s (k.set d (p + 1)) = s (k.set d p)) :
    integral rule rev data c s d N (k.set d (p + 1)) - integral rule rev data c s d N (k.set d p) =
      (if rev then -1 else 1) * step rule data c d k p := by
  have hst : ∀ i q, step rule data c d (k.set d i) q = step rule data c d k q := by
    intro i q; cases rule <;> simp [step]
  unfold integral
  rw [getD_set_self k d 0 _ hd, getD_set_self k d 0 _ hd, hs]
  simp only [hst]
  cases rev with
  | false => simp only [Bool.false_eq_true, if_false]; rw [Finset.sum_range_succ]; ring
  | true =>
    simp only [if_true]
    rw [Finset.sum_eq_sum_Ico_succ_bot (by omega : p < N - 1)]
    ring

theorem start_const {axes : List Axis} {ax : Axis} {v0 : Option Start} {s : List ℕ → ℚ} (h : StartIs axes ax v0 s) (hr : Regular axes)
    (d : ℕ) (hax : axes[d]? = some ax) (k : List ℕ) (hk : k.length = axes.length) (i : ℕ) : s (k.set d i) = s k := by
  obtain ⟨hd, hax'⟩ := List.getElem?_eq_some_iff.1 hax
  cases h with
  | zero => rfl
  | number v => rfl
  | var z f c hsub hnd hnot hf hsame =>
    have h1 := sameData_unique hr.nodup (relabel_same z.axes axes f hsub) hsame (k.set d i) (by simpa using hk)
    have h2 := sameData_unique hr.nodup (relabel_same z.axes axes f hsub) hsame k hk
    rw [← h1, ← h2]
    unfold relabel
    congr 1
    refine List.map_congr_left fun a ha => ?_
    have hai : axes.idxOf a < axes.length := List.idxOf_lt_length_of_mem (hsub a ha)
    have had : axes.idxOf a ≠ d := by
      intro e
      apply hnot
      have : axes[axes.idxOf a] = a := List.getElem_idxOf hai
      rw [← hax']
      simp only [e] at this
      rw [this]; exact ha
    rw [List.getD_eq_getElem _ _ (by simp; omega), List.getElem_set_ne (Ne.symm had), List.getD_eq_getElem _ _ (by omega)]

/-- C47: differencing the integral (`diff`) gives the steps back, with a minus sign if it was integrated backwards. -/
theorem diff_integrate (nr : List ℚ → ℚ) (junk : List ℕ → ℚ) (x y w : Var ℚ) (axid : AxisId) (d : ℕ) (ax : Axis)
    (dx : Option (Var ℚ)) (v0 : Option Start) (rev : Bool) (rule : Rule) (data c s : List ℕ → ℚ)
    (hx : Contains x data) (hr : Regular x.axes) (hd : foundAt (whichaxis x.axes axid) = some d) (hax : x.axes[d]? = some ax)
    (hc : CoordIs x.axes d ax dx c) (hs : StartIs x.axes ax v0 s)
    (hy : integrate nr junk x axid dx v0 rev rule = some y) (hw : diff nr junk y axid 1 = some w) :
    ∃ dat, Contains w dat ∧ ∀ k, k.length = x.axes.length → k.getD d 0 + 1 < ax.len →
      dat k = (if rev then -1 else 1) * step rule data c d k (k.getD d 0) := by
  obtain ⟨h1, h2, h3⟩ := integrate_correct nr junk x y axid d ax dx v0 rev rule data c s hx hr hd hax hc hs hy
  obtain ⟨dat, g1, g2⟩ := diff_one nr junk y w axid d _ h3 (by rw [h1]; exact hr) (by rw [h1]; exact hd) hw
  obtain ⟨hdl, hax'⟩ := List.getElem?_eq_some_iff.1 hax
  refine ⟨dat, g1, fun k hk hp => ?_⟩
  have hst := integral_step rule rev data c s d ax.len k (k.getD d 0) (by omega) hp (by
    rw [start_const hs hr d hax k hk, start_const hs hr d hax k hk])
  rw [set_getD_self] at hst
  rw [g2 k (by omega), hst]

/-! ### examples -/

def rampEx : Var ℚ :=
  { axes := [mkEx [0, 1, 3, 6], lonEx]
    src := .values ⟨[4, lonEx.len], fun k => (k.getD 0 0 : ℚ) + 1 + 10 * (k.getD 1 0 : ℚ)⟩ }

theorem rampEx_contains : Contains rampEx (fun k => (k.getD 0 0 : ℚ) + 1 + 10 * (k.getD 1 0 : ℚ)) :=
  ⟨by decide +kernel, fun k _ => rfl⟩

/-- the hypotheses of `integrate_correct` are met by a trapezoid integral that starts from a variable -/
example : ∃ y, integrate (fun _ => 0) (fun _ => 0) rampEx (.int 0) none
      (some (.var { axes := [lonEx], src := .values ⟨[4], fun k => 100 * (k.getD 0 0 : ℚ)⟩ })) false .trapz = some y ∧
    Contains y (integral .trapz false (fun k => (k.getD 0 0 : ℚ) + 1 + 10 * (k.getD 1 0 : ℚ))
      (fun k => (mkEx [0, 1, 3, 6]).values.getD (k.getD 0 0) 0) (fun k => 100 * (k.getD 1 0 : ℚ)) 0 4) := by
  have hsome : (integrate (fun _ => 0) (fun _ => 0) rampEx (.int 0) none
      (some (.var { axes := [lonEx], src := .values ⟨[4], fun k => 100 * (k.getD 0 0 : ℚ)⟩ })) false .trapz).isSome := by decide +kernel
  obtain ⟨y, hy⟩ := Option.isSome_iff_exists.1 hsome
  refine ⟨y, hy, ?_⟩
  have hr : Regular rampEx.axes := ⟨by decide +kernel, by decide +kernel⟩
  exact (integrate_correct (fun _ => 0) (fun _ => 0) rampEx y (.int 0) 0 (mkEx [0, 1, 3, 6]) none _ false .trapz _ _ _
    rampEx_contains hr (by decide +kernel) rfl CoordIs.own
    (StartIs.var { axes := [lonEx], src := .values ⟨[4], fun k => 100 * (k.getD 0 0 : ℚ)⟩ } (fun k => 100 * (k.getD 0 0 : ℚ)) _ (by decide +kernel) (by decide +kernel) (by decide +kernel)
      ⟨by decide +kernel, fun k _ => rfl⟩ (fun pos => by simp [rampEx])) hy).2.2

example : ((integrate (fun _ => 0) (fun _ => 0) rampEx (.int 0) none (some (.number 5)) true .rectl).bind fun y =>
      (y.read (fun _ => 0) (fun _ => 0) ⟨y.axes, [[3, 0, 2], [0]]⟩).map fun r => (List.range 3).map fun i => r.get [i, 0]) =
    some [5, 5 + 9 + 4 + 1, 5 + 9] := by decide +kernel

/-- `integrate_refuses`: a start variable over the integration axis, and one over a foreign axis -/
example : integrate (fun _ => 0) (fun _ => 0) rampEx (.int 0) none (some (.var rampEx)) false .trapz = none ∧
    integrate (fun _ => 0) (fun _ => 0) { axes := [mkEx [0, 1, 3, 6]], src := .values ⟨[4], fun _ => 1⟩ } (.int 0) none
      (some (.var { axes := [lonEx], src := .values ⟨[4], fun k => 100 * (k.getD 0 0 : ℚ)⟩ })) false .trapz = none :=
  ⟨integrate_refuses _ _ _ _ _ 0 (mkEx [0, 1, 3, 6]) _ _ _ (by decide +kernel) rfl (Or.inl (by decide +kernel)),
   integrate_refuses _ _ _ _ _ 0 (mkEx [0, 1, 3, 6]) _ _ _ (by decide +kernel) rfl (Or.inr (by decide +kernel))⟩

/-- `cumsum` is documented to behave like `np.cumsum`, which gives 1, 3, 6 here: the first value is left out of the sum. -/
theorem cumsum_first_value_violated :
    ((integrate (fun _ => 0) (fun _ => 0) { axes := [timeEx 3], src := .values ⟨[3], fun k => (k.getD 0 0 : ℚ) + 1⟩ }
      (.int 0) none none false .cumsum).bind fun y =>
        (y.read (fun _ => 0) (fun _ => 0) ⟨y.axes, [[0, 1, 2]]⟩).map fun r => (List.range 3).map fun i => r.get [i]) =
    some [0, 2, 5] := by decide +kernel

end Along
end PyGeode
