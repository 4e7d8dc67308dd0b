/-
C46: derivatives.
-/
import Verif.Spec.Along
import Verif.Props.Along

namespace PyGeode
open Spec NArr Axis Combine VarOps

namespace Along
variable {α : Type}

/-! ### the coordinate -/

theorem axisVar_contains (a : Axis) : Contains (axisVar a) (fun k => a.values.getD (k.getD 0 0) 0) :=
  ⟨rfl, fun _ _ => rfl⟩

theorem getD_zipWith_flags (s : List ℕ) (b : List Bool) (d : ℕ) (hd : d < s.length) (hl : s.length = b.length)
    (hb : b.getD d false = true) :
    (List.zipWith (fun (n : ℕ) (b : Bool) => if b then n else 1) s b).getD d 0 = s.getD d 0 := by
  rw [List.getD_eq_getElem (List.zipWith _ s b) _ (by simp; omega), List.getElem_zipWith, List.getD_eq_getElem s _ hd]
  rw [List.getD_eq_getElem b _ (by omega)] at hb
  rw [hb]; rfl

/-- reading the coordinate through a view on the axes of the variable -/
theorem coord_read (nr : List ℚ → ℚ) (junk : List ℕ → ℚ) (axes : List Axis) (hr : Regular axes) (d : ℕ) (ax : Axis)
    (hax : axes[d]? = some ax) (dx : Option (Var ℚ)) (c : List ℕ → ℚ) (hc : CoordIs axes d ax dx c) (z : Var ℚ)
    (hz : coordinate nr junk axes ax dx = some z) (J : List (List ℕ)) (hJ : InRange (axes.map Axis.len) J)
    (hne : ∀ ind ∈ J, ind ≠ []) :
    ∃ r, z.read nr junk ⟨axes, J⟩ = some r ∧ r.shape.length = J.length ∧ r.shape.getD d 0 = (J.getD d []).length ∧
      ∀ k, InBounds (J.map List.length) k → r.get (bindex r.shape k) = c (cell J k) := by
  obtain ⟨hd, hax'⟩ := List.getElem?_eq_some_iff.1 hax
  have hJl : J.length = axes.length := by simpa using hJ.length_eq
  have key : ∀ (z : Var ℚ) (f : List ℕ → ℚ), Contains z f → z.axes.Nodup → (∀ a ∈ z.axes, a ∈ axes) → ax ∈ z.axes →
      (∀ k, k.length = axes.length → relabel z.axes axes f k = c k) →
      ∃ r, z.read nr junk ⟨axes, J⟩ = some r ∧ r.shape.length = J.length ∧ r.shape.getD d 0 = (J.getD d []).length ∧
      ∀ k, InBounds (J.map List.length) k → r.get (bindex r.shape k) = c (cell J k) := by
    intro z f hzc hznd hzs hza hzr
    obtain ⟨r, h1, h2, h3⟩ := read_on nr junk z f hzc hznd axes hr hzs J hJ hne
    refine ⟨r, h1, by rw [h2]; simp [hJl], ?_, fun k hk => ?_⟩
    · rw [h2, getD_zipWith_flags _ _ _ (by simp; omega) (by simp [hJl]) (by
        rw [List.getD_eq_getElem _ _ (by simpa using hd), List.getElem_map, hax']
        simpa using hza)]
      rw [List.getD_eq_getElem (J.map List.length) _ (by simp; omega), List.getElem_map, List.getD_eq_getElem J _ (by omega)]
    · rw [h3 k hk, hzr]
      have := hk.length_eq
      simp [cell] at this ⊢
      omega
  have hidx : axes.idxOf ax = d := by
    rw [← hax']; exact hr.nodup.idxOf_getElem d hd
  cases hc with
  | own =>
    simp only [coordinate, Option.some.injEq] at hz
    subst hz
    refine key _ _ (axisVar_contains ax) (by simp [axisVar]) ?_ (by simp [axisVar]) ?_
    · intro a ha
      simp only [axisVar, List.mem_singleton] at ha
      rw [ha]; exact List.mem_of_getElem? hax
    · intro k hk
      simp [relabel, axisVar, hidx]
  | line dx f h1 hr1 hf =>
    simp only [coordinate, h1, if_true] at hz
    obtain ⟨e1, e2⟩ := replaceAxes_correct nr junk dx z [ax] f hf hr1 hz
    refine key z f e2 (by rw [e1]; simp) ?_ (by rw [e1]; simp) ?_
    · intro a ha
      rw [e1, List.mem_singleton] at ha
      rw [ha]; exact List.mem_of_getElem? hax
    · intro k hk
      simp [relabel, e1, hidx]
  | field dx f c h1 hsub hnd hf hs =>
    simp only [coordinate, h1, if_false] at hz
    split_ifs at hz with he
    simp only [Option.some.injEq] at hz
    subst hz
    simp only [Bool.and_eq_true, elem, List.any_eq_true] at he
    obtain ⟨⟨e, heq, hee⟩, _⟩ := he
    have : e = ax := by
      have := hr.clean.axEq (hsub e heq) (List.mem_of_getElem? hax)
      rw [this] at hee
      simpa using hee
    refine key dx f hf hnd hsub (this ▸ heq) ?_
    intro k hk
    exact sameData_unique hr.nodup (relabel_same _ _ _ hsub) hs k hk

/-- picking points out of a broadcast array read at the points `uniq l` along axis `d` -/
theorem take_bread (c : List ℕ → α) (I : List (List ℕ)) (d : ℕ) (hd : d < I.length) (l pts : List ℕ) (r : NArr α)
    (hrl : r.shape.length = I.length) (hrd : r.shape.getD d 0 = (uniq l).length)
    (hget : ∀ k, InBounds ((I.set d (uniq l)).map List.length) k → r.get (bindex r.shape k) = c (cell (I.set d (uniq l)) k))
    (hlen : pts.length = (I.getD d []).length) (hin : ∀ p ∈ pts, p ∈ l) (k : List ℕ) (hk : InBounds (I.map List.length) k) :
    (r.takeAxis d (pts.map (searchsorted (uniq l)))).get
      (bindex (r.takeAxis d (pts.map (searchsorted (uniq l)))).shape k) =
      c ((cell I k).set d (pts.getD (k.getD d 0) 0)) := by
  have hkl : k.length = I.length := by simpa using hk.length_eq
  have hkd : k.getD d 0 < pts.length := by
    have := (inBounds_iff.1 hk).2 d (by simpa using hd)
    rwa [List.getD_eq_getElem (I.map List.length) _ (by simpa using hd), List.getElem_map, ← List.getD_eq_getElem I [] hd,
      ← hlen] at this
  simp only [takeAxis, List.length_map]
  have hg : ∀ i, i < pts.length → (pts.map (searchsorted (uniq l))).getD i 0 = searchsorted (uniq l) (pts.getD i 0) := by
    intro i hi
    rw [List.getD_eq_getElem (pts.map _) _ (by simpa using hi), List.getElem_map, List.getD_eq_getElem pts _ hi]
  have hb : (bindex (r.shape.set d pts.length) k).getD d 0 = k.getD d 0 := by
    unfold bindex
    rw [List.getD_eq_getElem (List.zipWith _ _ _) _ (by simp; omega), List.getElem_zipWith, List.getElem_set_self,
      ← List.getD_eq_getElem k 0 (by omega)]
    split_ifs with e
    · omega
    · rfl
  rw [hb, hg _ hkd]
  have hp : pts.getD (k.getD d 0) 0 ∈ l := by rw [List.getD_eq_getElem pts _ hkd]; exact hin _ (List.getElem_mem _)
  set q := searchsorted (uniq l) (pts.getD (k.getD d 0) 0) with hq
  have hql : q < (uniq l).length := searchsorted_lt l _ hp
  have e : (bindex (r.shape.set d pts.length) k).set d q = bindex r.shape (k.set d q) := by
    unfold bindex
    refine List.ext_getElem (by simp) fun j hj hj' => ?_
    rw [List.getElem_set, List.getElem_zipWith, List.getElem_zipWith, List.getElem_set]
    split_ifs with e1 e2 e3 e4 e5
    · subst e1
      rw [← List.getD_eq_getElem r.shape 0 (by omega), hrd] at e2
      omega
    · simp [e1]
    all_goals simp_all
  rw [e, hget _ (by rw [List.map_set]; exact inBounds_set hk d _ _ hql), set_cell I k d _ _ hd hkl,
    uniq_getD_searchsorted l _ hp]

/-- a request with other points along one axis -/
theorem inRange_set {A : List ℕ} {I : List (List ℕ)} (hI : InRange A I) (d : ℕ) (l : List ℕ)
    (h : ∀ p ∈ l, p < A.getD d 0) : InRange A (I.set d l) := by
  unfold InRange
  have hl := hI.length_eq
  rw [List.forall₂_iff_get]
  refine ⟨by simpa using hl, fun i hi hi' => ?_⟩
  simp only [List.get_eq_getElem]
  rw [List.getElem_set]
  split_ifs with e
  · subst e
    intro p hp
    have := h p hp
    rwa [List.getD_eq_getElem _ _ hi'] at this
  · exact (List.forall₂_iff_get.1 hI).2 i (by simpa using hi) hi'

theorem inRange_get {A : List ℕ} {I : List (List ℕ)} (hI : InRange A I) (d : ℕ) (hd : d < I.length) :
    ∀ p ∈ I.getD d [], p < A.getD d 0 := by
  have hl := hI.length_eq
  have := (List.forall₂_iff_get.1 hI).2 d hd (by omega)
  rw [List.getD_eq_getElem I _ hd, List.getD_eq_getElem A _ (by omega : d < A.length)]
  exact this

/-! ### first derivative -/

theorem neighbours_eq (df : Df) (N i : ℕ) (hN : 2 ≤ N) (hi : i < N) :
    neighbours df N i = (((stencil df N i).1 : ℤ), ((stencil df N i).2 : ℤ)) := by
  unfold neighbours stencil
  cases df <;> dsimp only <;> split_ifs <;> dsimp only at * <;>
    rw [Prod.mk.injEq] <;> constructor <;> omega

/-- C46: the two points are different points of the axis around the position. -/
theorem stencil_in_bounds (df : Df) (N i : ℕ) (hN : 2 ≤ N) (hi : i < N) :
    (stencil df N i).1 < (stencil df N i).2 ∧ (stencil df N i).2 < N ∧ (stencil df N i).1 ≤ i ∧ i ≤ (stencil df N i).2 ∧
    (stencil df N i).2 ≤ (stencil df N i).1 + 2 := by
  unfold stencil
  cases df <;> simp only <;> split_ifs <;> simp <;> omega

/-- C46: `deriv` keeps the axes and holds at every position the difference quotient over the two points of the stencil. -/
theorem deriv_correct (nr : List ℚ → ℚ) (junk : List ℕ → Option ℚ) (junk' : List ℕ → ℚ) (cast : ℚ → ℚ) (x y : Var (Option ℚ))
    (id : AxisId) (d : ℕ) (ax : Axis) (dx : Option (Var ℚ)) (df : Df) (data : List ℕ → Option ℚ) (c : List ℕ → ℚ)
    (hx : Contains x data) (hr : Regular x.axes) (hd : foundAt (whichaxis x.axes id) = some d) (hax : x.axes[d]? = some ax)
    (hc : CoordIs x.axes d ax dx c) (hy : deriv cast nr junk junk' x id dx df = some y) :
    y.axes = x.axes ∧ 2 ≤ ax.len ∧ ∃ dat, Contains y dat ∧ ∀ k, InBounds (x.axes.map Axis.len) k →
      ∀ p q : List ℕ, p = k.set d (stencil df ax.len (k.getD d 0)).1 → q = k.set d (stencil df ax.len (k.getD d 0)).2 →
      ((data p = none ∨ data q = none) → dat k = none) ∧
      ∀ u v : ℚ, data p = some u → data q = some v → c p ≠ c q → dat k = some (cast ((v - u) / (c q - c p))) := by
  unfold deriv at hy
  rw [hd] at hy
  simp only [Option.bind_eq_bind, Option.bind_some, hax] at hy
  cases hz : coordinate nr junk' x.axes ax dx with
  | none => rw [hz] at hy; simp at hy
  | some z =>
    rw [hz] at hy
    simp only [Option.bind_some] at hy
    split_ifs at hy with hlen
    simp only [Option.some.injEq] at hy
    subst hy
    obtain ⟨hdl, hax'⟩ := List.getElem?_eq_some_iff.1 hax
    set N := ax.len with hN
    have hN2 : 2 ≤ N := hlen
    have hlenD : (x.axes.map Axis.len).getD d 0 = N := by
      rw [List.getD_eq_getElem _ _ (by simpa using hdl), List.getElem_map, hax']
    refine ⟨rfl, hN2, fun k => slope cast (data (k.set d (stencil df N (k.getD d 0)).2)) (data (k.set d (stencil df N (k.getD d 0)).1))
      (c (k.set d (stencil df N (k.getD d 0)).2)) (c (k.set d (stencil df N (k.getD d 0)).1)), ?_, ?_⟩
    · refine contains_ofView junk _ _ _ fun I hI hne => ?_
      have hIl : I.length = x.axes.length := by simpa using hI.length_eq
      have hdI : d < I.length := by omega
      set ind := I.getD d [] with hind
      have hir : ∀ p ∈ ind, p < N := by
        intro p hp
        have := inRange_get hI d hdI p hp
        rwa [hlenD] at this
      set left := ind.map fun i => (stencil df N i).1 with hleft
      set right := ind.map fun i => (stencil df N i).2 with hright
      have eleft : (ind.map fun i => (neighbours df N i).1.toNat) = left := by
        refine List.map_congr_left fun i hi => ?_
        rw [neighbours_eq df N i hN2 (hir i hi)]; rfl
      have eright : (ind.map fun i => (neighbours df N i).2.toNat) = right := by
        refine List.map_congr_left fun i hi => ?_
        rw [neighbours_eq df N i hN2 (hir i hi)]; rfl
      have hJ : InRange (x.axes.map Axis.len) (I.set d (uniq (left ++ right))) := by
        refine inRange_set hI d _ fun p hp => ?_
        rw [hlenD]
        rcases List.mem_append.1 (mem_uniq.1 hp) with h | h
        · obtain ⟨i, hi, rfl⟩ := List.mem_map.1 h
          have := stencil_in_bounds df N i hN2 (hir i hi); omega
        · obtain ⟨i, hi, rfl⟩ := List.mem_map.1 h
          have := stencil_in_bounds df N i hN2 (hir i hi); omega
      have hindne : ind ≠ [] := hne _ (by rw [hind, List.getD_eq_getElem _ _ hdI]; exact List.getElem_mem _)
      have hJne : ∀ l ∈ I.set d (uniq (left ++ right)), l ≠ [] := by
        intro l hl
        rcases List.mem_or_eq_of_mem_set hl with h | rfl
        · exact hne _ h
        · intro e
          obtain ⟨i, hi⟩ := List.exists_mem_of_ne_nil _ hindne
          have : (stencil df N i).1 ∈ uniq (left ++ right) := mem_uniq.2 (List.mem_append_left _ (List.mem_map.2 ⟨i, hi, rfl⟩))
          rw [e] at this; simp at this
      obtain ⟨r, h1, h2⟩ := read_own nr junk x data hx hr _ hJ hJne
      obtain ⟨ra, g1, g2, g3, g4⟩ := coord_read nr junk' x.axes hr d ax hax dx c hc z hz _ hJ hJne
      have hll : left.length = ind.length := by simp [hleft]
      have hrl : right.length = ind.length := by simp [hright]
      have g2' : ra.shape.length = I.length := by simpa using g2
      have g3' : ra.shape.getD d 0 = (uniq (left ++ right)).length := by
        rw [g3, List.getD_eq_getElem _ _ (by simpa using hdI), List.getElem_set_self]
      refine ⟨_, by
        unfold derivView
        simp only [← hind, eleft, eright, h1, g1, Option.bind_eq_bind, Option.bind_some]
        rfl, ?_, fun k hk => ?_⟩
      · exact (take_read data I d hdI (left ++ right) right r h2 hrl fun p hp => List.mem_append_right _ hp).1
      · have hkl : k.length = I.length := by simpa using hk.length_eq
        have hkd : k.getD d 0 < ind.length := by
          have := (inBounds_iff.1 hk).2 d (by simpa using hdI)
          rwa [List.getD_eq_getElem (I.map List.length) _ (by simpa using hdI), List.getElem_map, ← List.getD_eq_getElem I [] hdI] at this
        simp only
        rw [(take_read data I d hdI (left ++ right) right r h2 hrl fun p hp => List.mem_append_right _ hp).2 k hk,
          (take_read data I d hdI (left ++ right) left r h2 hll fun p hp => List.mem_append_left _ hp).2 k hk,
          take_bread c I d hdI (left ++ right) right ra g2' g3' g4 hrl (fun p hp => List.mem_append_right _ hp) k hk,
          take_bread c I d hdI (left ++ right) left ra g2' g3' g4 hll (fun p hp => List.mem_append_left _ hp) k hk]
        rw [getD_cell I k d hdI hkl, ← hind]
        have e1 : left.getD (k.getD d 0) 0 = (stencil df N (ind.getD (k.getD d 0) 0)).1 := by
          rw [List.getD_eq_getElem left _ (by omega), List.getElem_map, List.getD_eq_getElem ind _ hkd]
        have e2 : right.getD (k.getD d 0) 0 = (stencil df N (ind.getD (k.getD d 0) 0)).2 := by
          rw [List.getD_eq_getElem right _ (by omega), List.getElem_map, List.getD_eq_getElem ind _ hkd]
        rw [e1, e2]
    · intro k hk p q hp hq
      subst hp hq
      refine ⟨?_, ?_⟩
      · rintro (h | h)
        · simp only [h]
          cases data (k.set d (stencil df N (k.getD d 0)).2) <;> rfl
        · simp only [h]; rfl
      · intro u v hu hv hne
        simp only [hu, hv, slope]
        rw [if_neg (fun e => hne (sub_eq_zero.1 e).symm)]

/-- C46: on data that are linear in the coordinate (along the axis) the derivative is the slope, at every position, if the
coordinate takes different values at different positions of the axis. -/
theorem deriv_linear (nr : List ℚ → ℚ) (junk : List ℕ → Option ℚ) (junk' : List ℕ → ℚ) (x y : Var (Option ℚ))
    (axid : AxisId) (d : ℕ) (ax : Axis) (dx : Option (Var ℚ)) (df : Df) (data : List ℕ → Option ℚ) (c : List ℕ → ℚ)
    (hx : Contains x data) (hr : Regular x.axes) (hd : foundAt (whichaxis x.axes axid) = some d) (hax : x.axes[d]? = some ax)
    (hc : CoordIs x.axes d ax dx c) (hy : deriv id nr junk junk' x axid dx df = some y)
    (a b : List ℕ → ℚ) (hlin : ∀ (k : List ℕ) (i : ℕ), InBounds (x.axes.map Axis.len) k → i < ax.len → data (k.set d i) = some (a k * c (k.set d i) + b k))
    (hinj : ∀ (k : List ℕ) (i j : ℕ), InBounds (x.axes.map Axis.len) k → i < ax.len → j < ax.len → i ≠ j → c (k.set d i) ≠ c (k.set d j)) :
    ∃ dat, Contains y dat ∧ ∀ k, InBounds (x.axes.map Axis.len) k → dat k = some (a k) := by
  obtain ⟨_, hN, dat, h1, h2⟩ := deriv_correct nr junk junk' id x y axid d ax dx df data c hx hr hd hax hc hy
  refine ⟨dat, h1, fun k hk => ?_⟩
  obtain ⟨hdl, hax'⟩ := List.getElem?_eq_some_iff.1 hax
  have hkd : k.getD d 0 < ax.len := by
    have := (inBounds_iff.1 hk).2 d (by simpa using hdl)
    rwa [List.getD_eq_getElem (x.axes.map Axis.len) _ (by simpa using hdl), List.getElem_map, hax'] at this
  obtain ⟨s1, s2, _, _, _⟩ := stencil_in_bounds df ax.len (k.getD d 0) hN hkd
  have hne := hinj k _ _ hk (by omega : (stencil df ax.len (k.getD d 0)).1 < ax.len) s2 (by omega)
  rw [(h2 k hk _ _ rfl rfl).2 _ _ (hlin k _ hk (by omega)) (hlin k _ hk s2) hne]
  have : c (k.set d (stencil df ax.len (k.getD d 0)).2) - c (k.set d (stencil df ax.len (k.getD d 0)).1) ≠ 0 :=
    sub_ne_zero.2 hne.symm
  simp only [id_eq, Option.some.injEq]
  field_simp
  ring

/-! ### second derivative -/

/-- The three points used at `i`: the point and its neighbours; at an end the end point and the next two. -/
def _root_.PyGeode.Spec.stencil2 (N i : ℕ) : ℕ × ℕ × ℕ :=
  if i = 0 then (2, 0, 1) else if i + 1 = N then (i - 1, i, i - 2) else (i - 1, i, i + 1)

theorem stencil3_eq (N i : ℕ) (hN : 3 ≤ N) (hi : i < N) : stencil3 N i =
    (((stencil2 N i).1 : ℤ), ((stencil2 N i).2.1 : ℤ), ((stencil2 N i).2.2 : ℤ)) := by
  unfold stencil3 stencil2
  by_cases h0 : i = 0
  · subst h0
    rw [if_pos (by norm_num), if_pos rfl, if_neg (by push_cast; omega)]
    rfl
  · rw [if_neg (by omega), if_neg h0]
    by_cases h1 : i + 1 = N
    · rw [if_pos (by push_cast; omega), if_pos h1]
      simp only [Prod.mk.injEq, true_and]
      constructor
      · omega
      · omega
    · rw [if_neg (by push_cast; omega), if_neg h1]
      simp only [Prod.mk.injEq, true_and]
      constructor
      · omega
      · push_cast; rfl

/-- C46: the three points of the second derivative are different points of the axis, if it has at least three. -/
theorem stencil2_in_bounds (N i : ℕ) (hN : 3 ≤ N) (hi : i < N) :
    (stencil2 N i).1 < N ∧ (stencil2 N i).2.1 = i ∧ (stencil2 N i).2.2 < N ∧
    (stencil2 N i).1 ≠ i ∧ (stencil2 N i).2.2 ≠ i ∧ (stencil2 N i).1 ≠ (stencil2 N i).2.2 := by
  unfold stencil2
  split_ifs <;> simp <;> omega

/-- On an axis of two points (which the constructor accepts) a point outside the axis is used. -/
theorem stencil3_two_points_violated : stencil3 2 0 = (2, 0, 1) ∧ stencil3 2 1 = (0, 1, -1) := by decide

/-- C46: the second derivative keeps the axes and holds at every position the second divided difference (times two) over
the three points of the stencil. -/
theorem deriv2_correct (nr : List ℚ → ℚ) (junk : List ℕ → Option ℚ) (junk' : List ℕ → ℚ) (cast : ℚ → ℚ) (x y : Var (Option ℚ))
    (id : AxisId) (d : ℕ) (ax : Axis) (dx : Option (Var ℚ)) (data : List ℕ → Option ℚ) (c : List ℕ → ℚ)
    (hx : Contains x data) (hr : Regular x.axes) (hd : foundAt (whichaxis x.axes id) = some d) (hax : x.axes[d]? = some ax)
    (hN : 3 ≤ ax.len) (hc : CoordIs x.axes d ax dx c) (hy : deriv2 cast nr junk junk' x id dx = some y) :
    y.axes = x.axes ∧ ∃ dat, Contains y dat ∧ ∀ k, InBounds (x.axes.map Axis.len) k →
      ∀ p o q : List ℕ, p = k.set d (stencil2 ax.len (k.getD d 0)).1 → o = k →
      q = k.set d (stencil2 ax.len (k.getD d 0)).2.2 →
      ((data p = none ∨ data o = none ∨ data q = none) → dat k = none) ∧
      ∀ u v w : ℚ, data p = some u → data o = some v → data q = some w → c p ≠ c o → c o ≠ c q → c p ≠ c q →
        dat k = some (cast (2 * ((w - v) / (c q - c o) - (v - u) / (c o - c p)) / (c q - c p))) := by
  unfold deriv2 at hy
  rw [hd] at hy
  simp only [Option.bind_eq_bind, Option.bind_some, hax] at hy
  cases hz : coordinate nr junk' x.axes ax dx with
  | none => rw [hz] at hy; simp at hy
  | some z =>
    rw [hz] at hy
    simp only [Option.bind_some] at hy
    split_ifs at hy with hlen
    simp only [Option.some.injEq] at hy
    subst hy
    obtain ⟨hdl, hax'⟩ := List.getElem?_eq_some_iff.1 hax
    set N := ax.len with hNd
    have hlenD : (x.axes.map Axis.len).getD d 0 = N := by
      rw [List.getD_eq_getElem _ _ (by simpa using hdl), List.getElem_map, hax']
    refine ⟨rfl, fun k => curvature cast (data (k.set d (stencil2 N (k.getD d 0)).1)) (data (k.set d (stencil2 N (k.getD d 0)).2.1))
      (data (k.set d (stencil2 N (k.getD d 0)).2.2)) (c (k.set d (stencil2 N (k.getD d 0)).1))
      (c (k.set d (stencil2 N (k.getD d 0)).2.1)) (c (k.set d (stencil2 N (k.getD d 0)).2.2)), ?_, ?_⟩
    · refine contains_ofView junk _ _ _ fun I hI hne => ?_
      have hIl : I.length = x.axes.length := by simpa using hI.length_eq
      have hdI : d < I.length := by omega
      set ind := I.getD d [] with hind
      have hir : ∀ p ∈ ind, p < N := by
        intro p hp
        have := inRange_get hI d hdI p hp
        rwa [hlenD] at this
      set left := ind.map fun i => (stencil2 N i).1 with hleft
      set mid := ind.map fun i => (stencil2 N i).2.1 with hmid
      set right := ind.map fun i => (stencil2 N i).2.2 with hright
      have eleft : (ind.map fun i => (stencil3 N i).1.toNat) = left := by
        refine List.map_congr_left fun i hi => ?_
        rw [stencil3_eq N i hN (hir i hi)]; rfl
      have emid : (ind.map fun i => (stencil3 N i).2.1.toNat) = mid := by
        refine List.map_congr_left fun i hi => ?_
        rw [stencil3_eq N i hN (hir i hi)]; rfl
      have eright : (ind.map fun i => (stencil3 N i).2.2.toNat) = right := by
        refine List.map_congr_left fun i hi => ?_
        rw [stencil3_eq N i hN (hir i hi)]; rfl
      set l := left ++ uniq (mid ++ right) with hl
      have ml : ∀ p ∈ left, p ∈ l := fun p hp => List.mem_append_left _ hp
      have mm : ∀ p ∈ mid, p ∈ l := fun p hp => List.mem_append_right _ (mem_uniq.2 (List.mem_append_left _ hp))
      have mr : ∀ p ∈ right, p ∈ l := fun p hp => List.mem_append_right _ (mem_uniq.2 (List.mem_append_right _ hp))
      have hJ : InRange (x.axes.map Axis.len) (I.set d (uniq l)) := by
        refine inRange_set hI d _ fun p hp => ?_
        rw [hlenD]
        rcases List.mem_append.1 (mem_uniq.1 hp) with h | h
        · obtain ⟨i, hi, rfl⟩ := List.mem_map.1 h
          exact (stencil2_in_bounds N i hN (hir i hi)).1
        · rcases List.mem_append.1 (mem_uniq.1 h) with h | h
          · obtain ⟨i, hi, rfl⟩ := List.mem_map.1 h
            have h1 := (stencil2_in_bounds N i hN (hir i hi)).2.1
            have := hir i hi
            omega
          · obtain ⟨i, hi, rfl⟩ := List.mem_map.1 h
            exact (stencil2_in_bounds N i hN (hir i hi)).2.2.1
      have hindne : ind ≠ [] := hne _ (by rw [hind, List.getD_eq_getElem _ _ hdI]; exact List.getElem_mem _)
      have hJne : ∀ m ∈ I.set d (uniq l), m ≠ [] := by
        intro m hm
        rcases List.mem_or_eq_of_mem_set hm with h | rfl
        · exact hne _ h
        · intro e
          obtain ⟨i, hi⟩ := List.exists_mem_of_ne_nil _ hindne
          have : (stencil2 N i).1 ∈ uniq l := mem_uniq.2 (ml _ (List.mem_map.2 ⟨i, hi, rfl⟩))
          rw [e] at this; simp at this
      obtain ⟨r, h1, h2⟩ := read_own nr junk x data hx hr _ hJ hJne
      obtain ⟨ra, g1, g2, g3, g4⟩ := coord_read nr junk' x.axes hr d ax hax dx c hc z hz _ hJ hJne
      have hll : left.length = ind.length := by simp [hleft]
      have hml : mid.length = ind.length := by simp [hmid]
      have hrl : right.length = ind.length := by simp [hright]
      have g2' : ra.shape.length = I.length := by simpa using g2
      have g3' : ra.shape.getD d 0 = (uniq l).length := by
        rw [g3, List.getD_eq_getElem _ _ (by simpa using hdI), List.getElem_set_self]
      refine ⟨_, by
        unfold deriv2View
        simp only [← hind, eleft, emid, eright, ← hl, h1, g1, Option.bind_eq_bind, Option.bind_some]
        rfl, ?_, fun k hk => ?_⟩
      · exact (take_read data I d hdI l right r h2 hrl mr).1
      · have hkl : k.length = I.length := by simpa using hk.length_eq
        have hkd : k.getD d 0 < ind.length := by
          have := (inBounds_iff.1 hk).2 d (by simpa using hdI)
          rwa [List.getD_eq_getElem (I.map List.length) _ (by simpa using hdI), List.getElem_map, ← List.getD_eq_getElem I [] hdI] at this
        simp only
        rw [(take_read data I d hdI l right r h2 hrl mr).2 k hk, (take_read data I d hdI l left r h2 hll ml).2 k hk,
          (take_read data I d hdI l mid r h2 hml mm).2 k hk,
          take_bread c I d hdI l right ra g2' g3' g4 hrl mr k hk, take_bread c I d hdI l left ra g2' g3' g4 hll ml k hk,
          take_bread c I d hdI l mid ra g2' g3' g4 hml mm k hk]
        rw [getD_cell I k d hdI hkl, ← hind]
        have e1 : left.getD (k.getD d 0) 0 = (stencil2 N (ind.getD (k.getD d 0) 0)).1 := by
          rw [List.getD_eq_getElem left _ (by omega), List.getElem_map, List.getD_eq_getElem ind _ hkd]
        have e2 : right.getD (k.getD d 0) 0 = (stencil2 N (ind.getD (k.getD d 0) 0)).2.2 := by
          rw [List.getD_eq_getElem right _ (by omega), List.getElem_map, List.getD_eq_getElem ind _ hkd]
        have e3 : mid.getD (k.getD d 0) 0 = (stencil2 N (ind.getD (k.getD d 0) 0)).2.1 := by
          rw [List.getD_eq_getElem mid _ (by omega), List.getElem_map, List.getD_eq_getElem ind _ hkd]
        rw [e1, e2, e3]
    · intro k hk p o q hp ho hq
      have hkd : k.getD d 0 < N := by
        have := (inBounds_iff.1 hk).2 d (by simpa using hdl)
        rwa [hlenD] at this
      have hkl : k.length = x.axes.length := by simpa using hk.length_eq
      have hset : k.set d (stencil2 N (k.getD d 0)).2.1 = k := by
        rw [(stencil2_in_bounds N _ hN hkd).2.1, List.getD_eq_getElem _ _ (by omega)]
        simp
      simp only [hset]
      rw [← hp, ← hq]
      subst ho
      refine ⟨?_, ?_⟩
      · rintro (h | h | h)
        · simp only [h]; cases data o <;> cases data q <;> rfl
        · simp only [h]; cases data p <;> cases data q <;> rfl
        · simp only [h]; cases data p <;> cases data o <;> rfl
      · intro u v w hu hv hw h1 h2 h3
        simp only [hu, hv, hw, curvature]
        have a1 : c q - c o ≠ 0 := sub_ne_zero.2 h2.symm
        have a2 : c o - c p ≠ 0 := sub_ne_zero.2 h1.symm
        have a3 : c q - c p ≠ 0 := sub_ne_zero.2 h3.symm
        rw [if_neg (by simp [a1, a2, a3])]
        congr 2
        field_simp
        ring

/-- C46: on data that are quadratic in the coordinate (along the axis) the second derivative is twice the leading
coefficient at every position, ends included. -/
theorem deriv2_quadratic (nr : List ℚ → ℚ) (junk : List ℕ → Option ℚ) (junk' : List ℕ → ℚ) (x y : Var (Option ℚ))
    (axid : AxisId) (d : ℕ) (ax : Axis) (dx : Option (Var ℚ)) (data : List ℕ → Option ℚ) (c : List ℕ → ℚ)
    (hx : Contains x data) (hr : Regular x.axes) (hd : foundAt (whichaxis x.axes axid) = some d) (hax : x.axes[d]? = some ax)
    (hN : 3 ≤ ax.len) (hc : CoordIs x.axes d ax dx c) (hy : deriv2 id nr junk junk' x axid dx = some y)
    (a b e : List ℕ → ℚ) (hquad : ∀ (k : List ℕ) (i : ℕ), InBounds (x.axes.map Axis.len) k → i < ax.len →
      data (k.set d i) = some (a k * c (k.set d i) ^ 2 + b k * c (k.set d i) + e k))
    (hinj : ∀ (k : List ℕ) (i j : ℕ), InBounds (x.axes.map Axis.len) k → i < ax.len → j < ax.len → i ≠ j → c (k.set d i) ≠ c (k.set d j)) :
    ∃ dat, Contains y dat ∧ ∀ k, InBounds (x.axes.map Axis.len) k → dat k = some (2 * a k) := by
  obtain ⟨_, dat, h1, h2⟩ := deriv2_correct nr junk junk' id x y axid d ax dx data c hx hr hd hax hN hc hy
  refine ⟨dat, h1, fun k hk => ?_⟩
  obtain ⟨hdl, hax'⟩ := List.getElem?_eq_some_iff.1 hax
  have hkl : k.length = x.axes.length := by simpa using hk.length_eq
  have hkd : k.getD d 0 < ax.len := by
    have := (inBounds_iff.1 hk).2 d (by simpa using hdl)
    rwa [List.getD_eq_getElem (x.axes.map Axis.len) _ (by simpa using hdl), List.getElem_map, hax'] at this
  obtain ⟨s1, s2, s3, s4, s5, s6⟩ := stencil2_in_bounds ax.len (k.getD d 0) hN hkd
  have hset : k.set d (k.getD d 0) = k := by rw [List.getD_eq_getElem _ _ (by omega)]; simp
  have n1 := hinj k _ _ hk s1 hkd s4
  have n2 := hinj k _ _ hk hkd s3 s5.symm
  have n3 := hinj k _ _ hk s1 s3 s6
  have q0 := hquad k _ hk hkd
  rw [hset] at n1 n2 q0
  rw [(h2 k hk _ _ _ rfl rfl rfl).2 _ _ _ (hquad k _ hk s1) q0 (hquad k _ hk s3) n1 n2 n3]
  have a1 := sub_ne_zero.2 n2.symm
  have a2 := sub_ne_zero.2 n1.symm
  have a3 := sub_ne_zero.2 n3.symm
  simp only [id_eq, Option.some.injEq]
  field_simp
  ring

/-! ### examples -/

def lineExQ (n : ℕ) : Var (Option ℚ) :=
  { axes := [timeEx n, lonEx]
    src := .values ⟨[n, lonEx.len], fun k => some (3 * (k.getD 0 0 : ℚ) + (k.getD 1 0 : ℚ))⟩ }

theorem lineExQ_contains (n : ℕ) : Contains (lineExQ n) (fun k => some (3 * (k.getD 0 0 : ℚ) + (k.getD 1 0 : ℚ))) :=
  ⟨by simp [lineExQ, timeEx, Axis.len], fun k _ => rfl⟩

theorem timeEx_inj (n i j : ℕ) (hi : i < n) (hj : j < n) (h : i ≠ j) :
    (timeEx n).values.getD i 0 ≠ (timeEx n).values.getD j 0 := by
  simp only [timeEx]
  rw [List.getD_eq_getElem _ _ (by simpa using hi), List.getD_eq_getElem _ _ (by simpa using hj)]
  simpa using h

/-- the hypotheses of `deriv_linear` hold for data growing by 3 per time step -/
example (df : Df) : ∃ y dat, deriv id (fun _ => 0) (fun _ => none) (fun _ => 0) (lineExQ 4) (.name "time".toList) none df = some y ∧
    Contains y dat ∧ ∀ k, InBounds ((lineExQ 4).axes.map Axis.len) k → dat k = some 3 := by
  have hsome : (deriv id (fun _ => 0) (fun _ => none) (fun _ => 0) (lineExQ 4) (.name "time".toList) none df).isSome := by
    cases df <;> decide +kernel
  obtain ⟨y, hy⟩ := Option.isSome_iff_exists.1 hsome
  obtain ⟨dat, h1, h2⟩ := deriv_linear (fun _ => 0) (fun _ => none) (fun _ => 0) (lineExQ 4) y (.name "time".toList) 0 (timeEx 4) none df
    _ _ (lineExQ_contains 4) ⟨by decide +kernel, by decide +kernel⟩ (by decide +kernel) rfl CoordIs.own hy
    (fun _ => 3) (fun k => (k.getD 1 0 : ℚ)) (by
      intro k i hk hi
      have hkl : k.length = 2 := by simpa [lineExQ] using hk.length_eq
      have hi' : i < 4 := hi
      have h0 : (k.set 0 i).getD 0 0 = i := by
        rw [List.getD_eq_getElem _ _ (by simp; omega), List.getElem_set_self]
      have h1 : (k.set 0 i).getD 1 0 = k.getD 1 0 := by
        rw [List.getD_eq_getElem _ _ (by simp; omega), List.getElem_set_ne (by omega), List.getD_eq_getElem _ _ (by omega)]
      have h2 : (timeEx 4).values.getD i 0 = (i : ℚ) := by
        simp only [timeEx]; rw [List.getD_eq_getElem _ _ (by simpa using hi')]; simp
      simp only [h0, h1, h2]) (by
      intro k i j hk hi hj hij
      have hkl : k.length = 2 := by simpa [lineExQ] using hk.length_eq
      have h0 : ∀ q, (k.set 0 q).getD 0 0 = q := fun q => by
        rw [List.getD_eq_getElem _ _ (by simp; omega), List.getElem_set_self]
      simp only [h0]
      exact timeEx_inj 4 i j hi hj hij)
  exact ⟨y, dat, hy, h1, h2⟩

/-- a NaN, uneven coordinates given by a second variable, the ends of the axis, repeated and unordered positions -/
example : ((deriv id (fun _ => 0) (fun _ => none) (fun _ => 0)
    { axes := [timeEx 5], src := .values ⟨[5], fun k => [some 1, some 2, none, some 7, some 11].getD (k.getD 0 0) none⟩ }
    (.int 0) (some { axes := [mkEx [1, 2, 3, 4, 5]], src := .values ⟨[5], fun k => [0, 2, 3, 5, 6].getD (k.getD 0 0) 0⟩ }) .centre).bind fun y =>
      (y.read (fun _ => 0) (fun _ => none) ⟨y.axes, [[4, 0, 2, 1, 0, 3]]⟩).map fun r => (List.range 6).map fun i => r.get [i]) =
    some [some 4, some (1 / 2), some (5 / 3), none, some (1 / 2), none] := by decide +kernel

/-- second derivative of a square on uneven points -/
example : ((deriv2 id (fun _ => 0) (fun _ => none) (fun _ => 0)
    { axes := [mkEx [0, 1, 3, 7]], src := .values ⟨[4], fun k => some (([0, 1, 3, 7].getD (k.getD 0 0) 0) ^ 2)⟩ }
    (.int 0) none).bind fun y =>
      (y.read (fun _ => 0) (fun _ => none) ⟨y.axes, [[3, 0, 2, 1]]⟩).map fun r => (List.range 4).map fun i => r.get [i]) =
    some [some 2, some 2, some 2, some 2] := by decide +kernel

/-- C46 is false for variables of integer type: the result is cast back to the type of the variable, and a slope of one
half becomes zero. -/
theorem deriv_integer_violated :
    ((deriv (fun q => ((q.num.tdiv q.den : ℤ) : ℚ)) (fun _ => 0) (fun _ => none) (fun _ => 0)
      { axes := [timeEx 3], src := .values ⟨[3], fun k => some ([0, 1, 1].getD (k.getD 0 0) 0)⟩ }
      (.int 0) none .centre).bind fun y =>
        (y.read (fun _ => 0) (fun _ => none) ⟨y.axes, [[1]]⟩).map fun r => r.get [0]) = some (some 0) := by decide +kernel

end Along
end PyGeode
