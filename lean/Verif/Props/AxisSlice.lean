/-
Property C15: a sliced variable reads the data at the sliced positions (`SlicedVar`, /repo/pygeode/varoperations.py:494-535,
through `View.get`), and C65: what equality of axes (`is_equivalent`, /repo/pygeode/axis.py:652-747) guarantees.
-/
import Verif.Props.Axis

namespace PyGeode
namespace Axis
open Spec NArr

/-! ### C65: equality -/

theorem allclose_iff (rtol : ℚ) (a b : List ℚ) : allclose rtol a b = true ↔
    ∀ (k : ℕ) (x y : ℚ), a[k]? = some x → b[k]? = some y → |x - y| ≤ 1 / 100000000 + rtol * |y| := by
  unfold allclose
  rw [List.all_eq_true]
  constructor
  · intro h k x y hx hy
    obtain ⟨hk, rfl⟩ := List.getElem?_eq_some_iff.1 hx
    obtain ⟨hk', rfl⟩ := List.getElem?_eq_some_iff.1 hy
    have := h _ (List.getElem_mem (l := List.zipWith _ a b) (n := k) (by rw [List.length_zipWith]; omega))
    simpa using this
  · intro h v hv
    obtain ⟨k, hk, rfl⟩ := List.getElem_of_mem hv
    rw [List.length_zipWith] at hk
    rw [List.getElem_zipWith]
    simp only [id_eq, decide_eq_true_eq]
    exact h k _ _ (List.getElem?_eq_getElem (by omega)) (List.getElem?_eq_getElem (by omega))

/-- C65: axes that compare equal have classes of which one derives from the other, the same length, and values that
differ by at most 1e-8 + 1e-5 |y|. -/
theorem axEq_sound {a b : Axis} (h : axEq a b = true) (hc : a.classes ≠ []) :
    (a.classes.headD [] ∈ b.classes ∨ b.classes.headD [] ∈ a.classes) ∧ a.values.length = b.values.length ∧
    ∀ (k : ℕ) (x y : ℚ), a.values[k]? = some x → b.values[k]? = some y →
      |x - y| ≤ 1 / 100000000 + 1 / 100000 * |y| := by
  unfold axEq at h
  rw [Bool.or_eq_true] at h
  rcases h with h | h
  · have h : a = b := by simpa using h
    subst h
    refine ⟨Or.inl ?_, rfl, ?_⟩
    · cases hcl : a.classes with
      | nil => exact absurd hcl hc
      | cons c cs => simp
    · intro k x y hx hy
      rw [hx] at hy
      have : x = y := by simpa using hy
      rw [this, sub_self, abs_zero]
      positivity
  · unfold isEquivalent at h
    simp only [Bool.and_eq_true] at h
    obtain ⟨⟨⟨⟨⟨h1, _⟩, h3⟩, h4⟩, _⟩, _⟩ := h
    refine ⟨?_, by simpa using h3, (allclose_iff _ _ _).1 h4⟩
    simpa [compatible, isParentOf] using h1

/-- C65: generic axes that compare equal have the same name, and equal axes the same auxiliary attributes. -/
theorem axEq_name {a b : Axis} (h : axEq a b = true) (ha : a.classes.headD [] = genericClass)
    (hb : b.classes.headD [] = genericClass) : a.name = b.name := by
  unfold axEq isEquivalent at h
  simp only [Bool.or_eq_true, Bool.and_eq_true, decide_eq_true_eq] at h
  rcases h with h | h
  · rw [h]
  · rcases h.1.1.1.1.2 with h | h
    · rw [ha, hb] at h; simp at h
    · exact h

private theorem lookup_of_mem {V : Type} : ∀ {d : List (Name × V)} {p : Name × V}, p ∈ d → (d.map Prod.fst).Nodup →
    d.lookup p.1 = some p.2
  | q :: d, p, h, hnd => by
    rw [List.map_cons, List.nodup_cons] at hnd
    rw [List.lookup_cons]
    rcases List.mem_cons.1 h with rfl | h
    · simp
    · have : p.1 ≠ q.1 := fun e => hnd.1 (e ▸ List.mem_map_of_mem h)
      rw [beq_false_of_ne this]
      exact lookup_of_mem h hnd.2

private theorem dictEq_refl {V : Type} (eq : V → V → Bool) (he : ∀ v, eq v v = true) (d : List (Name × V))
    (hd : (d.map Prod.fst).Nodup) : dictEq eq d d = true := by
  have : (d.all fun p => match d.lookup p.1 with | some v => eq p.2 v | none => false) = true := by
    rw [List.all_eq_true]
    intro p hp
    rw [lookup_of_mem hp hd]
    exact he _
  simp only [dictEq, Bool.and_eq_true, decide_eq_true_eq]
  exact ⟨⟨fun k hk => hk, fun k hk => hk⟩, this⟩

private theorem allclose_refl (r : ℚ) (hr : 0 ≤ r) (l : List ℚ) : allclose r l l = true := by
  rw [allclose_iff]
  intro k x y hx hy
  rw [hx] at hy
  have : x = y := by simpa using hy
  rw [this, sub_self, abs_zero]
  positivity

/-- C65: a copy of an axis (another object with the same contents) compares equal to it. -/
theorem isEquivalent_refl (a : Axis) (hc : a.classes ≠ []) (h1 : (a.auxatts.map Prod.fst).Nodup)
    (h2 : (a.auxarrays.map Prod.fst).Nodup) : isEquivalent a a = true := by
  have hcomp : compatible a a = true := by
    cases hcl : a.classes with
    | nil => exact absurd hcl hc
    | cons c cs => simp [compatible, isParentOf, hcl]
  unfold isEquivalent
  rw [hcomp, allclose_refl _ (by norm_num), dictEq_refl _ (by simp) _ h1, dictEq_refl _ _ _ h2]
  · simp
  · intro v; rw [allclose_refl _ (by norm_num)]; simp

/-- an axis of given values -/
def mkEx (vs : List ℚ) : Axis := ⟨["Lat".toList, "Axis".toList], [], "lat".toList, vs, true, 0, [], []⟩

/-- C65: equality is not symmetric ... -/
theorem axEq_symm_violated :
    axEq (mkEx [100001/1000]) (mkEx [100]) = true ∧ axEq (mkEx [0]) (mkEx [100000001/10000000000000000]) = true ∧
    axEq (mkEx [100000001/10000000000000000]) (mkEx [0]) = false := by decide +kernel

/-- ... and not transitive. -/
theorem axEq_trans_violated :
    axEq (mkEx [100000]) (mkEx [100001]) = true ∧ axEq (mkEx [100001]) (mkEx [100002]) = true ∧
    axEq (mkEx [100000]) (mkEx [100002]) = false := by decide +kernel

/-! ### C15: slices -/

/-- Different positions of the axis hold values that do not compare equal. -/
def _root_.PyGeode.Spec.Separated (vals : List ℚ) : Prop :=
  ∀ (i j : ℕ) (x y : ℚ), vals[i]? = some x → vals[j]? = some y → i ≠ j → 1 / 100000000 + 1 / 100000 * |y| < |x - y|

theorem _root_.PyGeode.Spec.Separated.nodup {vals : List ℚ} (h : Separated vals) : vals.Nodup := by
  rw [List.nodup_iff_injective_getElem]
  intro i j hij
  by_contra hne
  have := h i j _ _ (List.getElem?_eq_getElem i.2) (List.getElem?_eq_getElem j.2) (fun e => hne (Fin.ext e))
  simp only at hij
  rw [hij, sub_self, abs_zero] at this
  have h0 : (0:ℚ) ≤ |vals[j.1]| := abs_nonneg _
  linarith

/-- Matching a slice of an axis back to the axis gives the positions of the slice. -/
theorem axisMapTo_slice (a b : Axis) (s : List ℕ) (hc : a.classes ≠ []) (hcb : b.classes = a.classes)
    (hb : b.values = s.map fun i : ℕ => a.values.getD i 0) (hs : ∀ i ∈ s, i < a.len) (hr : 0 ≤ a.rtol)
    (hsep : Separated a.values) : axisMapTo a b = some s := by
  have hcomp : compatible a b = true := by
    cases hcl : a.classes with
    | nil => exact absurd hcl hc
    | cons c cs => simp [compatible, isParentOf, hcb, hcl]
  unfold axisMapTo
  rw [hcomp]
  simp only [Bool.not_true, Bool.false_eq_true, if_false]
  split_ifs with he
  · obtain ⟨_, hl, hcl⟩ := axEq_sound he hc
    rw [hb, List.length_map] at hl
    congr 1
    refine (List.ext_getElem (by simp [len, hl]) fun k hk hk' => ?_).symm
    rw [List.getElem_range]
    by_contra hne
    have hsk := hs s[k] (List.getElem_mem hk)
    have hka : k < a.values.length := by omega
    have h1 := hcl k (a.values[k]) (a.values[s[k]]'hsk) (List.getElem?_eq_getElem hka) (by
      rw [hb, List.getElem?_map, List.getElem?_eq_getElem hk, Option.map_some, List.getD_eq_getElem _ _ hsk])
    have h2 := hsep k s[k] _ _ (List.getElem?_eq_getElem hka) (List.getElem?_eq_getElem hsk) (fun e => hne e.symm)
    linarith
  · rw [hb, mapTo_of_slice _ hsep.nodup _ hs _ hr]

/-- Without separation this fails: an axis of two large, close values equals its reverse, so reversing it does
nothing to the positions read. -/
theorem axisMapTo_slice_violated :
    axisMapTo (mkEx [1000000, 1000001]) (sliceAxis (fun _ => 0) (mkEx [1000000, 1000001]) [1, 0]) = some [0, 1] := by
  decide +kernel

theorem sliceAxis_values (nr : List ℚ → ℚ) (a : Axis) (s : List ℕ) :
    (sliceAxis nr a s).values = s.map fun i : ℕ => a.values.getD i 0 := by
  unfold sliceAxis
  simp only
  split_ifs with h
  · exact h.symm
  · rfl

/-- C66: the auxiliary arrays of an axis are sliced along with its values (for an axis without repeated values). -/
theorem sliceAxis_aux (nr : List ℚ → ℚ) (a : Axis) (s : List ℕ) (hn : a.values.Nodup) (hs : ∀ i ∈ s, i < a.len)
    (name : Name) (arr : List ℚ) (harr : a.auxarrays.lookup name = some arr) (hlen : arr.length = a.len) :
    ∃ arr' : List ℚ, (sliceAxis nr a s).auxarrays.lookup name = some arr' ∧ arr'.length = s.length ∧
      ∀ (k i : ℕ), s[k]? = some i → arr'[k]? = arr[i]? := by
  unfold sliceAxis
  simp only
  split_ifs with h
  · have hsl : s.length = a.values.length := by rw [← h, List.length_map]
    refine ⟨arr, harr, by rw [hsl, hlen]; rfl, fun k i hk => ?_⟩
    obtain ⟨hk1, rfl⟩ := List.getElem?_eq_some_iff.1 hk
    have hlt : s[k] < a.values.length := hs _ (List.getElem_mem hk1)
    have hkv : k < a.values.length := by omega
    have e : a.values[k]? = some (a.values.getD s[k] 0) := by
      conv_lhs => rw [← h]
      rw [List.getElem?_map, List.getElem?_eq_getElem hk1]; rfl
    rw [List.getD_eq_getElem _ _ hlt, List.getElem?_eq_getElem hkv, Option.some.injEq] at e
    have := (List.Nodup.getElem_inj_iff hn).1 e
    rw [← this]
  · refine ⟨s.map fun i : ℕ => arr.getD i 0, ?_, by simp, fun k i hk => ?_⟩
    · generalize a.auxarrays = l at harr
      induction l with
      | nil => simp at harr
      | cons p l ih =>
        obtain ⟨q, w⟩ := p
        rw [List.map_cons, List.lookup_cons]
        rw [List.lookup_cons] at harr
        split at harr
        · rename_i hq
          cases harr
          simp only [hq]
        · rename_i hq
          simp only [hq]
          exact ih harr
    · have hi : i < arr.length := by
        rw [hlen]; exact hs i (List.mem_of_getElem? hk)
      rw [List.getElem?_map, hk, Option.map_some, List.getD_eq_getElem _ _ hi, List.getElem?_eq_getElem hi]

/-- An axis with repeated values is not sliced when the selected values equal its own: the auxiliary arrays then stay
those of the unsliced axis. Here the two points of a repeated value are swapped, the auxiliary array is not. -/
theorem sliceAxis_aux_violated : ∃ (a : Axis) (s : List ℕ), (∀ i ∈ s, i < a.len) ∧
    ∃ arr : List ℚ, a.auxarrays.lookup "w".toList = some arr ∧ arr.length = a.len ∧
      ¬ ∃ arr' : List ℚ, (sliceAxis (fun _ => 0) a s).auxarrays.lookup "w".toList = some arr' ∧
        ∀ (k i : ℕ), s[k]? = some i → arr'[k]? = arr[i]? := by
  refine ⟨{ mkEx [5, 5] with auxarrays := [("w".toList, [1, 2])] }, [1, 0], by decide +kernel, [1, 2], by decide +kernel,
    by decide +kernel, ?_⟩
  rintro ⟨arr', h1, h2⟩
  have h3 : arr' = [1, 2] := by
    have : (sliceAxis (fun _ => 0) { mkEx [5, 5] with auxarrays := [("w".toList, [1, 2])] } [1, 0]).auxarrays.lookup
      "w".toList = some [1, 2] := by decide +kernel
    rw [this] at h1
    exact (Option.some.inj h1).symm
  have := h2 0 1 rfl
  rw [h3] at this
  revert this
  decide +kernel

theorem sliceAxis_classes (nr : List ℚ → ℚ) (a : Axis) (s : List ℕ) : (sliceAxis nr a s).classes = a.classes := by
  unfold sliceAxis
  simp only
  split_ifs <;> rfl

theorem mapM_forall₂ {γ δ : Type} (f : γ → Option δ) {l : List γ} {r : List δ}
    (h : List.Forall₂ (fun x y => f x = some y) l r) : l.mapM f = some r := by
  induction h with
  | nil => rfl
  | cons hx _ ih => rw [List.mapM_cons, hx, ih]; rfl

/-- C15 without the condition on the values of the axes that are not sliced at all. -/
theorem slicedVar_read_whole {α : Type} (nr : List ℚ → ℚ) (A : List Axis) (S I : List (List ℕ)) (junk : List ℕ → α)
    (src : View.Source Axis α) (data : List ℕ → α)
    (hS : InRange (A.map Axis.len) S) (hI : InRange (S.map List.length) I) (hne : ∀ ind ∈ I, ind ≠ [])
    (hcl : ∀ a ∈ A, a.classes ≠ [])
    (hsep : ∀ (o : ℕ) (ho : o < A.length), S.getD o [] = List.range A[o].len ∨ 0 ≤ A[o].rtol ∧ Separated A[o].values)
    (hinc : A.Pairwise fun a b => compatible a b = false)
    (hs : Serves data A (A.map Axis.len) src) :
    ∃ r, View.get axEq (viewMapAx nr) Axis.len junk ⟨List.zipWith (sliceAxis nr) A S, I⟩ A src = some r ∧
      r.shape = I.map List.length ∧ ∀ k, InBounds r.shape k → r.get k = data (cell S (cell I k)) := by
  unfold InRange at hS hI
  rw [List.forall₂_map_right_iff] at hS hI
  have lS := hS.length_eq
  have lI := hI.length_eq
  rw [List.forall₂_iff_get] at hS hI
  -- compatible axes are the same axis
  have hsame : ∀ (i j : ℕ) (hi : i < A.length) (hj : j < A.length) (b : Axis), b.classes = (A[j]'hj).classes →
      compatible (A[i]'hi) b = true → i = j := by
    intro i j hi hj b hb hc
    have hc' : compatible A[i] A[j] = true := by simpa [compatible, isParentOf, hb] using hc
    have hsym : compatible A[j] A[i] = compatible A[i] A[j] := by simp [compatible, Bool.or_comm]
    rw [List.pairwise_iff_getElem] at hinc
    rcases lt_trichotomy i j with h | h | h
    · rw [hinc i j hi hj h] at hc'; cases hc'
    · exact h
    · rw [← hsym, hinc j i hj hi h] at hc'; cases hc'
  let comp : ℕ → List ℕ := fun o => (I.getD o []).map fun i : ℕ => (S.getD o []).getD i 0
  let m : List (Option ℕ × List ℕ) := (List.range A.length).map fun o : ℕ => (some o, comp o)
  have hA' : ∀ (o : ℕ) (ho : o < A.length), (List.zipWith (sliceAxis nr) A S)[o]? = some (sliceAxis nr A[o] (S[o]'(by omega))) := by
    intro o ho
    rw [List.getElem?_eq_getElem (by rw [List.length_zipWith]; omega), List.getElem_zipWith]
  -- the mapping of one axis
  have hone : ∀ (o : ℕ) (ho : o < A.length), View.mapAxis axEq (viewMapAx nr) ⟨List.zipWith (sliceAxis nr) A S, I⟩ A[o] =
      some (o, comp o) := by
    intro o ho
    have hoS : o < S.length := by omega
    have hoI : o < I.length := by omega
    have hcomp : comp o = I[o].map fun i : ℕ => S[o].getD i 0 := by
      simp only [comp]
      rw [List.getD_eq_getElem I _ hoI, List.getD_eq_getElem S _ hoS]
    unfold View.mapAxis
    cases hf : (List.zipWith (sliceAxis nr) A S).findIdx? (fun a => axEq A[o] a) with
    | some i =>
      simp only
      rw [List.findIdx?_eq_some_iff_getElem] at hf
      obtain ⟨hi, he, _⟩ := hf
      rw [List.length_zipWith] at hi
      rw [List.getElem_zipWith] at he
      obtain ⟨hc, hl, hv⟩ := axEq_sound he (hcl _ (List.getElem_mem ho))
      have hio : o = i := hsame o i ho (by omega) _ (sliceAxis_classes _ _ _)
        (by simpa [compatible, isParentOf] using hc)
      subst hio
      have hSo : S[o] = List.range (A[o]).len := by
        rcases hsep o ho with hw | ⟨-, hsep⟩
        · rwa [List.getD_eq_getElem _ _ hoS] at hw
        rw [sliceAxis_values, List.length_map] at hl
        refine List.ext_getElem (by simp [len, hl]) fun k hk hk' => ?_
        rw [List.getElem_range]
        by_contra hne'
        have hsk := hS.2 o hoS ho S[o][k] (by simp)
        simp only [List.get_eq_getElem] at hsk
        have hka : k < A[o].values.length := by omega
        have h1 := hv k (A[o].values[k]) (A[o].values[S[o][k]]'hsk) (List.getElem?_eq_getElem hka) (by
          rw [sliceAxis_values, List.getElem?_map, List.getElem?_eq_getElem hk, Option.map_some,
            List.getD_eq_getElem _ _ hsk])
        have h2 := hsep k S[o][k] _ _ (List.getElem?_eq_getElem hka)
          (List.getElem?_eq_getElem hsk) (fun e => hne' e.symm)
        linarith
      congr 2
      rw [hcomp, List.getD_eq_getElem I _ hoI]
      refine List.ext_getElem (by simp) fun k hk hk' => ?_
      rw [List.getElem_map]
      have := hI.2 o hoI hoS I[o][k] (by simp)
      simp only [List.get_eq_getElem] at this
      rw [List.getD_eq_getElem _ _ this]
      simp [hSo]
    | none =>
      simp only
      have hsep' : 0 ≤ A[o].rtol ∧ Separated A[o].values := by
        rcases hsep o ho with hw | h
        · exfalso
          rw [List.getD_eq_getElem _ _ hoS] at hw
          rw [List.findIdx?_eq_none_iff] at hf
          have h1 := hf _ (List.mem_of_getElem? (hA' o ho))
          have h2 : sliceAxis nr A[o] S[o] = A[o] := by
            unfold sliceAxis
            simp only
            rw [if_pos]
            rw [hw]
            refine List.ext_getElem (by simp [len]) fun k hk hk' => ?_
            rw [List.getElem_map, List.getElem_range, List.getD_eq_getElem _ _ hk']
          rw [h2] at h1
          simp [axEq] at h1
        · exact h
      have hval : (sliceAxis nr (sliceAxis nr A[o] S[o]) I[o]).values = (comp o).map fun i : ℕ => A[o].values.getD i 0 := by
        rw [sliceAxis_values, sliceAxis_values, hcomp, List.map_map]
        refine List.map_congr_left fun i hi => ?_
        have := hI.2 o hoI hoS i hi
        simp only [List.get_eq_getElem] at this
        simp only [Function.comp_apply]
        rw [List.getD_eq_getElem _ _ (by simpa using this), List.getElem_map, List.getD_eq_getElem (S[o]) _ this]
      have hmap : viewMapAx nr A[o] (sliceAxis nr A[o] S[o]) I[o] = some (comp o) := by
        refine axisMapTo_slice _ _ _ (hcl _ (List.getElem_mem ho)) ?_ hval ?_ hsep'.1 hsep'.2
        · rw [sliceAxis_classes, sliceAxis_classes]
        · intro i hi
          rw [hcomp] at hi
          obtain ⟨j, hj, rfl⟩ := List.mem_map.1 hi
          have hj' := hI.2 o hoI hoS j hj
          simp only [List.get_eq_getElem] at hj'
          rw [List.getD_eq_getElem _ _ hj']
          exact hS.2 o hoS ho _ (List.getElem_mem hj')
      rw [List.findSome?_eq_some_iff]
      set Z := ((List.zipWith (sliceAxis nr) A S).zip I).zipIdx with hZ
      have hZl : Z.length = A.length := by simp [hZ]; omega
      have hZo : ∀ (i : ℕ) (hi : i < A.length), Z[i]'(by omega) = ((sliceAxis nr A[i] (S[i]'(by omega)), I[i]'(by omega)), i) := by
        intro i hi
        simp [hZ]
      refine ⟨Z.take o, Z[o], Z.drop (o + 1), ?_, ?_, ?_⟩
      · rw [List.getElem_cons_drop, List.take_append_drop]
      · rw [hZo o ho]
        simp only
        rw [hmap]
        rfl
      · intro z hz
        obtain ⟨i, hi, rfl⟩ := List.getElem_of_mem hz
        rw [List.length_take] at hi
        rw [List.getElem_take, hZo i (by omega)]
        have hnc : compatible A[o] (sliceAxis nr (sliceAxis nr (A[i]'(by omega)) (S[i]'(by omega))) (I[i]'(by omega))) = false := by
          by_contra h
          have := hsame o i ho (by omega) _ ((sliceAxis_classes nr _ _).trans (sliceAxis_classes nr _ _)) (by simpa using h)
          omega
        simp [viewMapAx, axisMapTo, hnc]
  have hm : View.mapTo axEq (viewMapAx nr) Axis.len true ⟨List.zipWith (sliceAxis nr) A S, I⟩ A = some m := by
    unfold View.mapTo
    apply mapM_forall₂
    rw [List.forall₂_iff_get]
    refine ⟨by simp [m], fun o ho ho' => ?_⟩
    simp only [List.get_eq_getElem]
    rw [hone o ho]
    simp only [m, List.getElem_map, List.getElem_range]
  obtain ⟨r, h1, h2, h3⟩ := get_correct axEq (viewMapAx nr) Axis.len junk ⟨List.zipWith (sliceAxis nr) A S, I⟩ A src data
    (by simp; omega) hs m hm (by
      intro q hq
      obtain ⟨o, ho, rfl⟩ := List.mem_map.1 hq
      rw [List.mem_range] at ho
      exact ⟨o, rfl, show o < I.length by omega, by simp [comp]⟩) (by
      simp only [m, List.map_map]
      refine (List.nodup_range).map ?_
      intro a b hab
      simpa using hab) (by
      simp only [m, List.map_map]
      unfold InRange
      rw [List.forall₂_iff_get]
      refine ⟨by simp, fun o ho ho' => ?_⟩
      intro i hi
      have hoA : o < A.length := by simpa using ho
      have hoS : o < S.length := by omega
      have hoI : o < I.length := by omega
      simp only [List.get_eq_getElem, List.getElem_map, List.getElem_range, Function.comp_apply, comp] at hi ⊢
      rw [List.getD_eq_getElem I _ hoI, List.getD_eq_getElem S _ hoS] at hi
      obtain ⟨j, hj, rfl⟩ := List.mem_map.1 hi
      have hj' := hI.2 o hoI hoS j hj
      simp only [List.get_eq_getElem] at hj'
      rw [List.getD_eq_getElem _ _ hj']
      exact hS.2 o hoS hoA _ (List.getElem_mem hj')) (by
      intro q hq
      obtain ⟨o, ho, rfl⟩ := List.mem_map.1 hq
      rw [List.mem_range] at ho
      have hoI : o < I.length := by omega
      simp only [comp]
      rw [List.getD_eq_getElem I _ hoI]
      intro h
      exact hne _ (List.getElem_mem hoI) (List.map_eq_nil_iff.1 h))
  have h4 : r.shape = I.map List.length := by
    rw [h2]
    refine List.ext_getElem (by simp) fun o ho ho' => ?_
    have hoI : o < I.length := by simpa using ho
    simp only [List.getElem_map, List.getElem_range]
    rw [if_pos, List.getD_eq_getElem _ _ hoI]
    simp only [m, List.map_map, List.mem_map, List.mem_range]
    exact ⟨o, by omega, rfl⟩
  refine ⟨r, h1, h4, fun k hk => ?_⟩
  rw [h3 k hk]
  congr 1
  rw [h4] at hk
  have hkl : k.length = I.length := by
    have := (inBounds_iff.1 hk).1
    simpa using this
  unfold cell
  simp only [m, List.map_map]
  refine List.ext_getElem (by simp; omega) fun o ho ho' => ?_
  have hoA : o < A.length := by simpa using ho
  have hoS : o < S.length := by omega
  have hoI : o < I.length := by omega
  have hko : o < k.length := by omega
  have hb := (inBounds_iff.1 hk).2 o (by simpa using hoI)
  rw [List.getD_eq_getElem (I.map List.length) _ (by simpa using hoI), List.getElem_map, List.getD_eq_getElem _ _ hko] at hb
  simp only [List.getElem_map, List.getElem_range, Function.comp_apply, Option.getD_some, comp, List.getElem_zipWith]
  rw [List.getD_eq_getElem I _ hoI, List.getD_eq_getElem S _ hoS, List.getD_eq_getElem k _ hko,
    List.getD_eq_getElem _ _ (by simpa using hb), List.getElem_map, List.getD_eq_getElem (I[o]) _ hb]

/-- C15: reading positions `I` of a variable sliced with positions `S` gives the data of the original variable at the
positions `S[I]` along every axis; the shape is the shape requested. No two axes of the variable are of the same kind,
and values at different positions of an axis do not compare equal. -/
theorem slicedVar_read {α : Type} (nr : List ℚ → ℚ) (A : List Axis) (S I : List (List ℕ)) (junk : List ℕ → α)
    (src : View.Source Axis α) (data : List ℕ → α)
    (hS : InRange (A.map Axis.len) S) (hI : InRange (S.map List.length) I) (hne : ∀ ind ∈ I, ind ≠ [])
    (hcl : ∀ a ∈ A, a.classes ≠ []) (hrt : ∀ a ∈ A, 0 ≤ a.rtol) (hsep : ∀ a ∈ A, Separated a.values)
    (hinc : A.Pairwise fun a b => compatible a b = false)
    (hs : Serves data A (A.map Axis.len) src) :
    ∃ r, View.get axEq (viewMapAx nr) Axis.len junk ⟨List.zipWith (sliceAxis nr) A S, I⟩ A src = some r ∧
      r.shape = I.map List.length ∧ ∀ k, InBounds r.shape k → r.get k = data (cell S (cell I k)) :=
  slicedVar_read_whole nr A S I junk src data hS hI hne hcl
    (fun _ ho => Or.inr ⟨hrt _ (List.getElem_mem ho), hsep _ (List.getElem_mem ho)⟩) hinc hs

/-- A two-dimensional variable, one axis reversed, the other subsampled, read with a repeat: the hypotheses are met. -/
example : (View.get axEq (viewMapAx fun _ => 0) Axis.len (fun _ => 0)
    ⟨List.zipWith (sliceAxis fun _ => 0) [lonEx, mkEx [10, 20, 30]] [[0, 2, 3], [2, 1, 0]], [[2, 2, 0], [0, 1]]⟩
    [lonEx, mkEx [10, 20, 30]] (.values ⟨[4, 3], fun k => 10 * k.getD 0 0 + k.getD 1 0⟩)).map
      (fun r => (r.shape, (product [[0, 1, 2], [0, 1]]).map r.get)) =
    some ([3, 2], [32, 31, 32, 31, 2, 1]) := by decide +kernel

theorem separated_of {vals : List ℚ} (h : ∀ i < vals.length, ∀ j < vals.length, i ≠ j →
    1 / 100000000 + 1 / 100000 * |vals.getD j 0| < |vals.getD i 0 - vals.getD j 0|) : Separated vals := by
  intro i j x y hi hj hij
  obtain ⟨hi', rfl⟩ := List.getElem?_eq_some_iff.1 hi
  obtain ⟨hj', rfl⟩ := List.getElem?_eq_some_iff.1 hj
  have := h i hi' j hj' hij
  rwa [List.getD_eq_getElem _ _ hi', List.getD_eq_getElem _ _ hj'] at this

example : Separated (mkEx [10, 20, 30]).values ∧ Separated lonEx.values ∧ compatible lonEx (mkEx [10, 20, 30]) = false :=
  ⟨separated_of (by decide +kernel), separated_of (by decide +kernel), by decide +kernel⟩

/-- C15 fails when values at different positions compare equal: the reversed variable shows the data unreversed. -/
theorem slicedVar_read_violated :
    (View.get axEq (viewMapAx fun _ => 0) Axis.len (fun _ => 0)
      ⟨List.zipWith (sliceAxis fun _ => 0) [mkEx [1000000, 1000001]] [[1, 0]], [[0, 1]]⟩ [mkEx [1000000, 1000001]]
      (.values ⟨[2], fun k => k.getD 0 0⟩)).map (fun r => [r.get [0], r.get [1]]) = some [0, 1] := by decide +kernel

end Axis
end PyGeode
