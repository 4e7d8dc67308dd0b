/-
C48: rotating longitudes.
-/
import Verif.Model.Rotate
import Verif.Props.Loop
import Verif.Props.Deriv

namespace PyGeode
open Spec NArr Axis Combine VarOps

namespace Rotate
variable {α : Type}

/-- C48: every longitude is moved by a whole number of turns into `[origin, origin + 360)`. -/
theorem rotateValues_spec (origin : ℚ) (lons : List ℚ) : List.Forall₂ (fun new old =>
    origin ≤ new ∧ new < origin + 360 ∧ ∃ z : ℤ, new = old + 360 * z) (rotateValues origin lons) lons := by
  unfold rotateValues
  rw [List.forall₂_map_left_iff, List.forall₂_same]
  intro l _
  set o := mod360 origin with ho
  have h1 := Int.floor_le ((l - o) / 360)
  have h2 := Int.lt_floor_add_one ((l - o) / 360)
  have e : mod360 (l - o) + o - (o - origin) = (l - o) - 360 * (⌊(l - o) / 360⌋ : ℤ) + origin := by
    unfold mod360; ring
  rw [e]
  refine ⟨?_, ?_, ⟨⌊origin / 360⌋ - ⌊(l - o) / 360⌋, ?_⟩⟩
  · have : ((l - o) / 360) * 360 = l - o := by field_simp
    linarith
  · have : ((l - o) / 360) * 360 = l - o := by field_simp
    linarith
  · rw [ho]
    unfold mod360
    push_cast
    ring

theorem contains_congr {x : Var α} {data data' : List ℕ → α} (hx : Contains x data)
    (h : ∀ k, InBounds (x.axes.map Axis.len) k → data k = data' k) : Contains x data' := by
  unfold Contains at hx ⊢
  have hcell : ∀ I : List (List ℕ), InRange (x.axes.map Axis.len) I → ∀ k, InBounds (I.map List.length) k →
      InBounds (x.axes.map Axis.len) (cell I k) := by
    intro I hI k hk
    have hm := Reduce.cell_mem hk
    unfold InRange at hI
    unfold InBounds
    rw [List.forall₂_iff_get] at hm hI ⊢
    refine ⟨hm.1.trans hI.1, fun i h1 h2 => ?_⟩
    exact hI.2 i (by rw [← hm.1]; exact h1) h2 _ (hm.2 i h1 (by rw [← hm.1]; exact h1))
  cases hs : x.src with
  | values a => rw [hs] at hx; exact ⟨hx.1, fun k hk => by rw [hx.2 k hk, h k hk]⟩
  | getview f =>
    rw [hs] at hx
    intro I hI ht
    exact ⟨(hx I hI ht).1, fun k hk => by rw [(hx I hI ht).2 k hk, h _ (hcell I hI k hk)]⟩
  | getvalues i f =>
    rw [hs] at hx
    intro sc hsc
    refine ⟨(hx sc hsc).1, fun k hk => ?_⟩
    rw [(hx sc hsc).2 k hk]
    refine h _ ?_
    unfold InBounds at hk ⊢
    rw [List.forall₂_iff_get] at hk hsc ⊢
    refine ⟨by rw [List.length_zipWith, hk.1, List.length_map, Nat.min_self]; exact hsc.1, fun i h1 h2 => ?_⟩
    have hi : i < sc.length := by rw [hsc.1]; exact h2
    have hik : i < k.length := by rw [hk.1, List.length_map]; exact hi
    have a1 := hsc.2 i hi h2
    have a2 := hk.2 i hik (by simpa using hi)
    simp only [List.get_eq_getElem, List.getElem_zipWith, List.getElem_map] at a1 a2 ⊢
    omega

theorem regular_set {A : List Axis} (h : Regular A) (d : ℕ) (hd : d < A.length) (b : Axis) (hb : b.classes = A[d].classes) :
    Regular (A.set d b) := by
  refine ⟨?_, ?_⟩
  · intro a ha
    rcases List.mem_or_eq_of_mem_set ha with h1 | rfl
    · exact h.cls a h1
    · rw [hb]; exact h.cls _ (List.getElem_mem _)
  · rw [List.pairwise_iff_getElem]
    intro i j hi hj hij
    have hi' : i < A.length := by simpa using hi
    have hj' : j < A.length := by simpa using hj
    have := h.incompatible hi' hj' (by omega)
    rw [← this]
    refine Loop.compatible_congr ?_ ?_
    · rw [List.getElem_set]; split_ifs with h1
      · subst h1; exact hb
      · rfl
    · rw [List.getElem_set]; split_ifs with h1
      · subst h1; exact hb
      · rfl

/-- C48: the rotated variable has the same axes but for longitude, whose values are increasing and each of them a
longitude of the variable moved by whole turns into `[origin, origin + 360)`; and the data move along with the
longitudes. Longitudes that coincide after the rotation are excluded. -/
theorem rotatelon_correct (nr : List ℚ → ℚ) (hnr : ∀ l, 0 ≤ nr l) (junk : List ℕ → α) (x : Var α) (origin : ℚ)
    (data : List ℕ → α) (d : ℕ) (ax : Axis) (hx : Contains x data) (hR : Regular x.axes) (htol : ∀ a ∈ x.axes, 0 ≤ a.rtol)
    (hsep : ∀ a ∈ x.axes, Separated a.values) (hd : whichaxis x.axes (.name "lon".toList) = .at d) (hax : x.axes[d]? = some ax)
    (hcls : ax.classes = ["Lon".toList, "XAxis".toList, "Axis".toList])
    (hsep' : Separated (rotateValues origin ax.values)) :
    ∃ y, rotatelon nr junk x origin = some y ∧ ∃ (s : List ℕ) (b : Axis), s.Perm (List.range ax.len) ∧ y.axes = x.axes.set d b ∧
      b.values.Pairwise (· < ·) ∧
      (∀ (i p : ℕ), s[i]? = some p → ∃ z : ℤ, b.values.getD i 0 = ax.values.getD p 0 + 360 * z) ∧
      (∀ v ∈ b.values, origin ≤ v ∧ v < origin + 360) ∧
      Contains y fun k => data (k.set d (s.getD (k.getD d 0) 0)) := by
  obtain ⟨hdl, hax'⟩ := List.getElem?_eq_some_iff.1 hax
  set new := rotateValues origin ax.values with hnew
  have hnl : new.length = ax.values.length := by simp [hnew, rotateValues]
  set B := x.axes.set d (newLon nr new) with hB
  have hBl : x.axes.map Axis.len = B.map Axis.len := by
    rw [hB, List.map_set]
    have : (newLon nr new).len = (x.axes.map Axis.len)[d]'(by simpa using hdl) := by
      rw [List.getElem_map, hax']; exact hnl
    rw [this, List.set_getElem_self]
  have hBR : Regular B := regular_set hR d hdl _ (by rw [hax', hcls]; rfl)
  have hrep : ∃ v, replaceAxes nr junk x B = some v := by
    unfold replaceAxes; rw [if_pos hBl]; exact ⟨_, rfl⟩
  obtain ⟨v, hv⟩ := hrep
  obtain ⟨hva, hvc⟩ := replaceAxes_correct nr junk x v B data hx hR hv
  have hfind : x.axes.findIdx? (fun a => a.hasAlias "lon".toList) = some d := by
    simp only [whichaxis] at hd
    cases h : x.axes.findIdx? (fun a => a.hasAlias "lon".toList) with
    | none => rw [h] at hd; cases hd
    | some i => rw [h] at hd; cases hd; rfl
  have hfind' : whichaxis B (.name "lon".toList) = .at d := by
    simp only [whichaxis]
    have : B.findIdx? (fun a => a.hasAlias "lon".toList) = some d := by
      rw [List.findIdx?_eq_some_iff_getElem] at hfind ⊢
      obtain ⟨h1, h2, h3⟩ := hfind
      refine ⟨by simpa [hB] using h1, ?_, fun j hj => ?_⟩
      · simp only [hB, List.getElem_set_self]; simp [Axis.hasAlias, newLon]
      · have := h3 j hj
        simp only [hB]
        rw [List.getElem_set_ne (by omega)]
        exact this
    rw [this]
  have hBtol : ∀ a ∈ B, 0 ≤ a.rtol := by
    intro a ha
    rcases List.mem_or_eq_of_mem_set ha with h1 | rfl
    · exact htol a h1
    · exact hnr _
  have hBsep : ∀ a ∈ B, Separated a.values := by
    intro a ha
    rcases List.mem_or_eq_of_mem_set ha with h1 | rfl
    · exact hsep a h1
    · exact hsep'
  set order : ℕ → Option Bool := fun i => if i = d then some false else none with horder
  refine ⟨sortedVar nr junk v order, ?_, ?_⟩
  · unfold rotatelon
    rw [hd]
    simp only [Option.bind_eq_bind, hax, Option.bind_some]
    rw [← hnew, ← hB, hv]
    simp only [Option.bind_some]
    rw [hva, hfind']
    rfl
  rw [sortedVar_eq]
  set S := sortPositions v.axes order with hS
  set s := argsort new with hs
  have hSd : S = (B.map fun a => List.range a.len).set d s := by
    rw [hS, hva]
    refine List.ext_getElem (by simp [sortPositions]) fun i h1 h2 => ?_
    simp only [sortPositions, List.getElem_map, List.getElem_zipIdx, Nat.zero_add, List.getElem_set, horder]
    by_cases hi : i = d
    · subst hi
      simp only [if_true]
      unfold axisArgsort
      simp only [hB, List.getElem_set_self]
      rfl
    · rw [if_neg hi, if_neg (Ne.symm hi)]
  have hperm := (argsort_spec new).1
  rw [← hs] at hperm
  have hSr : InRange (v.axes.map Axis.len) S := by
    rw [hva, hSd]
    refine Along.inRange_set ?_ d s ?_
    · unfold InRange
      rw [List.forall₂_map_left_iff, List.forall₂_map_right_iff, List.forall₂_same]
      intro a _ i hi; simpa using hi
    · intro p hp
      rw [List.getD_eq_getElem _ _ (by simpa [hB] using hdl), List.getElem_map]
      simp only [hB, List.getElem_set_self]
      exact List.mem_range.1 (hperm.mem_iff.1 hp)
  have hsl := slice_correct nr junk v S data hvc (hva ▸ hBR) (hva ▸ hBtol) (hva ▸ hBsep) hSr
  refine ⟨s, sliceAxis nr (newLon nr new) s, ?_, ?_, ?_, ?_, ?_, ?_⟩
  · rw [hnl] at hperm; exact hperm
  · show List.zipWith (sliceAxis nr) v.axes S = _
    rw [hva, hSd]
    refine List.ext_getElem (by simp [hB]) fun i h1 h2 => ?_
    simp only [List.getElem_zipWith, List.getElem_set, hB]
    by_cases hi : d = i
    · simp [hi]
    · simp only [if_neg hi, List.getElem_map, List.getElem_set]
      exact sliceAxis_range nr _
  · rw [sliceAxis_values]
    have h1 := (argsort_spec new).2
    rw [← hs] at h1
    have hnd : (s.map fun j : ℕ => new.getD j 0).Nodup := by
      refine (List.Nodup.map_on ?_ (hperm.nodup_iff.2 List.nodup_range))
      intro i hi j hj hij
      have hi' : i < new.length := by simpa using hperm.mem_iff.1 hi
      have hj' : j < new.length := by simpa using hperm.mem_iff.1 hj
      by_contra hne
      have := hsep' i j _ _ (List.getElem?_eq_getElem hi') (List.getElem?_eq_getElem hj') hne
      rw [List.getD_eq_getElem _ _ hi', List.getD_eq_getElem _ _ hj'] at hij
      rw [hij, sub_self, abs_zero] at this
      have h0 := abs_nonneg new[j]
      linarith
    exact (h1.and hnd).imp fun h => lt_of_le_of_ne h.1 h.2
  · intro i p hip
    obtain ⟨hi, rfl⟩ := List.getElem?_eq_some_iff.1 hip
    have hp : s[i] < new.length := by simpa using hperm.mem_iff.1 (List.getElem_mem hi)
    rw [sliceAxis_values, List.getD_eq_getElem _ _ (by simpa using hi), List.getElem_map]
    have := rotateValues_spec origin ax.values
    rw [← hnew, List.forall₂_iff_get] at this
    obtain ⟨_, _, z, hz⟩ := this.2 s[i] hp (by omega)
    refine ⟨z, ?_⟩
    show new.getD s[i] 0 = _
    rw [List.getD_eq_getElem _ _ hp, List.getD_eq_getElem _ _ (by omega)]
    exact hz
  · intro u hu
    rw [sliceAxis_values] at hu
    obtain ⟨p, hp, rfl⟩ := List.mem_map.1 hu
    have hp : p < new.length := by simpa using hperm.mem_iff.1 hp
    have := rotateValues_spec origin ax.values
    rw [← hnew, List.forall₂_iff_get] at this
    obtain ⟨h1, h2, _⟩ := this.2 p hp (by omega)
    show origin ≤ new.getD p 0 ∧ _
    rw [show (newLon nr new).values.getD p 0 = new.getD p 0 from rfl, List.getD_eq_getElem _ _ hp]
    exact ⟨h1, h2⟩
  · refine contains_congr hsl.1 fun k hk => ?_
    rw [hsl.2.2] at hk
    congr 1
    have hkl : k.length = S.length := by simpa using hk.length_eq
    have hSl : S.length = x.axes.length := by rw [hSd]; simp [hB]
    refine List.ext_getElem (by simp [cell, hkl]) fun i h1 h2 => ?_
    simp only [cell, List.getElem_zipWith, List.getElem_set]
    have hiS : i < S.length := by simp [cell] at h1; omega
    have hib := InBounds.lt hk (i := i) (by simpa using hiS)
    rw [List.getD_eq_getElem k _ (by omega), List.getD_eq_getElem (S.map List.length) _ (by simpa using hiS), List.getElem_map] at hib
    by_cases hi : d = i
    · subst hi
      simp only [if_true]
      have e : S[d] = s := by simp [hSd]
      rw [e, List.getD_eq_getElem k _ (by omega)]
    · rw [if_neg hi]
      have e : S[i] = List.range (B[i]'(by simp [hB]; omega)).len := by
        simp only [hSd, List.getElem_set, if_neg hi, List.getElem_map]
      rw [e] at hib ⊢
      rw [List.getD_eq_getElem _ _ hib, List.getElem_range]

/-- C48: a variable without longitudes is returned as it is. -/
theorem rotatelon_without (nr : List ℚ → ℚ) (junk : List ℕ → α) (x : Var α) (origin : ℚ)
    (h : whichaxis x.axes (.name "lon".toList) = .keyError) : rotatelon nr junk x origin = some x := by
  unfold rotatelon; rw [h]

/-! ### Examples -/

/-- latitude by longitude; at longitude number `i` the value `i` (plus ten times the latitude number) -/
def rotEx : Var ℚ :=
  { axes := [mkEx [30, 10, 20], { lonEx with auxarrays := [] }]
    src := .values ⟨[3, 4], fun k => 10 * k.getD 0 0 + k.getD 1 0⟩ }

example := rotatelon_correct (fun _ => 0) (fun _ => le_refl 0) (fun _ => 7) rotEx (-180) _ 1 _
  (show Contains rotEx _ from ⟨by decide +kernel, fun _ _ => rfl⟩) ⟨by decide +kernel, by decide +kernel⟩ (by decide +kernel)
  (by
    intro a ha
    simp only [rotEx, List.mem_cons, List.not_mem_nil, or_false] at ha
    rcases ha with rfl | rfl
    · exact separated_of (by decide +kernel)
    · exact separated_of (by decide +kernel))
  (by decide +kernel) rfl rfl (separated_of (by decide +kernel))

example : ((rotatelon (fun _ => 0) (fun _ => 7) rotEx (-180)).bind fun y =>
    (y.read (fun _ => 0) (fun _ => 7) ⟨y.axes, [[2], [0, 1, 2, 3]]⟩).map fun r =>
      ((y.axes.map Axis.values).getD 1 [], (product [[0], [0, 1, 2, 3]]).map r.get)) =
    some ([-180, -90, 0, 90], [22, 23, 20, 21]) := by decide +kernel

/-- `duplicate=True` is meant to repeat the value at the origin at the end (axis.py:894-896). It repeats the value at
longitude 0: rotated to -180, the last point (longitude 180) shows 20, not the 22 of longitude -180. -/
theorem duplicate_violated : ((rotatelonDup (fun _ => 0) (fun _ => 7) rotEx (-180)).bind fun y =>
    (y.read (fun _ => 0) (fun _ => 7) ⟨y.axes, [[2], [0, 1, 2, 3, 4]]⟩).map fun r =>
      ((y.axes.map Axis.values).getD 1 [], (product [[0], [0, 1, 2, 3, 4]]).map r.get)) =
    some ([-180, -90, 0, 90, 180], [22, 23, 20, 21, 20]) := by decide +kernel

end Rotate
end PyGeode
