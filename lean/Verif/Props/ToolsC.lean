/-
Properties C12-C16: coordinate sorting and matching (pygeode/tools.c:14-213).
-/
import Verif.Lemmas.ToolsC

namespace PyGeode
open ToolsC

/-! ## C12 — the coordinate sort -/

/-- The output values are in non-decreasing order; the output positions are a permutation of
`0..n-1`; and each output value is the input value at its reported position. -/
theorem sort_correct (a : List ℚ) :
    ((sort a).map Prod.fst).Pairwise (· ≤ ·) ∧
    ((sort a).map Prod.snd).Perm (List.range a.length) ∧
    ∀ p ∈ sort a, a[p.2]? = some p.1 := by
  refine ⟨List.pairwise_map.2 (sort_sorted a), ?_, ?_⟩
  · rw [← withPos_snd]; exact (sort_perm a).map _
  · intro p hp
    exact withPos_mem.1 ((sort_perm a).mem_iff.1 hp)

/-- The recursive merge sort is stable: equal values keep their original order. -/
theorem msort_stable (a : List ℚ) :
    (msort a).Pairwise (fun p q => p.1 < q.1 ∨ (p.1 = q.1 ∧ p.2 < q.2)) :=
  msortFuel_sorted _ _ (by simp [withPos]) (withPos_pos_sorted a)

/-- The sort as a whole is not stable: the shortcut for non-increasing input reverses equal
values (tools.c:83-90). -/
theorem sort_stable_violated : sort [2, 2, 1] = [(1, 2), (2, 1), (2, 0)] := by decide +kernel

example : sort [3, 1, 2, 1] = [(1, 1), (1, 3), (2, 2), (3, 0)] := by decide +kernel

/-! ## C13 — coordinate matching is sound -/

/-- One outcome per request, in request order; a reported position exists and its coordinate is
within the relative tolerance of the requested one. -/
theorem mapTo_sound (a b : List ℚ) (rtol : ℚ) :
    (mapToC a b rtol).length = b.length ∧
    ∀ (k i : ℕ), (mapToC a b rtol)[k]? = some (some i) →
      ∃ x y : ℚ, a[i]? = some x ∧ b[k]? = some y ∧ |x - y| ≤ rtol * |y| := by
  have hlen : (mapToC a b rtol).length = b.length := by
    unfold mapToC
    split
    · simp
    · rw [matchLoop_length]; simp
  refine ⟨hlen, ?_⟩
  intro k i hki
  have hkb : k < b.length := by
    rw [← hlen]; exact (List.getElem?_eq_some_iff.1 hki).1
  unfold mapToC at hki
  split at hki
  · rw [List.getElem?_replicate] at hki
    simp at hki
  · next x xs hsort =>
    have hmem : (b[k], k) ∈ sort b := by
      rw [(sort_perm b).mem_iff, withPos_mem]
      exact List.getElem?_eq_getElem hkb
    obtain ⟨c, hc, he⟩ := matchLoop_sound rtol (sort b) x xs (List.replicate b.length none)
      (sort_snd_nodup b) (by
        intro p hp
        have := withPos_mem.1 ((sort_perm b).mem_iff.1 hp)
        rw [List.length_replicate]
        exact (List.getElem?_eq_some_iff.1 this).1) (b[k], k) hmem
    rw [hki] at he
    split_ifs at he with hcond
    · simp only [Option.some.injEq] at he
      refine ⟨c.1, b[k], ?_, List.getElem?_eq_getElem hkb, hcond⟩
      rw [he]
      rw [← hsort, (sort_perm a).mem_iff, withPos_mem] at hc
      exact hc
    · rw [List.getElem?_replicate, if_pos hkb] at he
      simp at he

/-- The Python wrapper keeps the matches in request order and drops the rest: nothing is
invented. -/
theorem mapTo_wrapper (a b : List ℚ) (rtol : ℚ) (hall : ∀ o ∈ mapToC a b rtol, o ≠ none) :
    (mapTo a b rtol).map some = mapToC a b rtol := by
  unfold mapTo
  generalize mapToC a b rtol = l at *
  induction l with
  | nil => rfl
  | cons o l ih =>
    cases o with
    | none => exact absurd rfl (hall none (by simp))
    | some i =>
      rw [List.filterMap_cons_some (f := id) (a := some i) (b := i) rfl, List.map_cons,
        ih (fun o ho => hall o (by simp [ho]))]

example : mapToC [10, 20, 30] [30, 10, 15] (1/100000) = [some 2, some 0, none] := by decide +kernel

/-! ## C14 — coordinate matching is complete on distinct coordinates -/

/-- With pairwise distinct coordinates, a request that has some coordinate within tolerance is
matched, and with a nearest coordinate. -/
theorem mapTo_complete (a b : List ℚ) (rtol : ℚ) (ha : a.Nodup) (k j : ℕ) (x y : ℚ)
    (hx : a[j]? = some x) (hy : b[k]? = some y) (hclose : |x - y| ≤ rtol * |y|) :
    ∃ i z, (mapToC a b rtol)[k]? = some (some i) ∧ a[i]? = some z ∧
      ∀ z' ∈ a, |z - y| ≤ |z' - y| := by
  have hkb : k < b.length := (List.getElem?_eq_some_iff.1 hy).1
  have hmem : (y, k) ∈ sort b := by
    rw [(sort_perm b).mem_iff, withPos_mem]; exact hy
  have hmemx : (x, j) ∈ sort a := by
    rw [(sort_perm a).mem_iff, withPos_mem]; exact hx
  unfold mapToC
  split
  · next hs => rw [hs] at hmemx; simp at hmemx
  · next c0 cs hsort =>
    have hst := sort_strict ha
    rw [hsort] at hst hmemx
    obtain ⟨c, hc, hn, he⟩ := matchLoop_nearest rtol (sort b) c0 cs [] (List.replicate b.length none)
      (sort_snd_nodup b) (by
        intro p hp
        have := withPos_mem.1 ((sort_perm b).mem_iff.1 hp)
        rw [List.length_replicate]
        exact (List.getElem?_eq_some_iff.1 this).1) (sort_sorted b) (by simpa using hst)
      (by simp) (y, k) hmem
    rw [List.nil_append] at hc hn
    have h1 : |c.1 - y| ≤ |x - y| := hn (x, j) hmemx
    rw [if_pos (le_trans h1 hclose)] at he
    have hca : a[c.2]? = some c.1 := by
      rw [← hsort, (sort_perm a).mem_iff, withPos_mem] at hc; exact hc
    refine ⟨c.2, c.1, he, hca, ?_⟩
    intro z' hz'
    obtain ⟨j', hj', hjz⟩ := List.getElem_of_mem hz'
    have : (z', j') ∈ c0 :: cs := by
      rw [← hsort, (sort_perm a).mem_iff, withPos_mem]
      simp only
      rw [List.getElem?_eq_getElem hj', hjz]
    exact hn (z', j') this

example : mapToC [5, 1, 3] [3, 5] 0 = [some 2, some 0] := by decide +kernel

/-- Without distinctness a request may be missed although it matches exactly: equal neighbours
stop the walk (strict comparison at tools.c:137). -/
theorem mapTo_complete_violated : mapToC [1, 1, 2] [2] (1/100000) = [none] := by decide +kernel

/-! ## C15 (matching part) — sliced coordinates are found at the sliced positions -/

/-- Taking any coordinates of an axis (in any order, with repeats) and matching them back gives
exactly the positions taken. -/
theorem mapTo_of_slice (a : List ℚ) (ha : a.Nodup) (s : List ℕ) (hs : ∀ i ∈ s, i < a.length)
    (rtol : ℚ) (hr : 0 ≤ rtol) :
    mapTo a (s.map (fun i => a.getD i 0)) rtol = s := by
  have key : mapToC a (s.map (fun i => a.getD i 0)) rtol = s.map some := by
    apply List.ext_getElem?
    intro k
    by_cases hk : k < s.length
    · have hsk := hs s[k] (List.getElem_mem hk)
      have hy : (s.map (fun i => a.getD i 0))[k]? = some (a[s[k]]) := by
        rw [List.getElem?_map, List.getElem?_eq_getElem hk, Option.map_some,
          List.getD_eq_getElem _ _ hsk]
      obtain ⟨i, z, h1, h2, h3⟩ := mapTo_complete a _ rtol ha k s[k] _ _
        (List.getElem?_eq_getElem hsk) hy
        (by rw [sub_self, abs_zero]; exact mul_nonneg hr (abs_nonneg _))
      have h4 := h3 (a[s[k]]) (List.getElem_mem hsk)
      rw [sub_self, abs_zero] at h4
      have hz : z = a[s[k]] := by
        have := abs_nonpos_iff.1 h4
        linarith
      have hi : i = s[k] := by
        obtain ⟨hi, hiz⟩ := List.getElem?_eq_some_iff.1 h2
        exact (ha.getElem_inj_iff (hi := hi) (hj := hsk)).1 (hiz.trans hz)
      rw [h1, List.getElem?_map, List.getElem?_eq_getElem hk, Option.map_some, hi]
    · have h1 := (mapTo_sound a (s.map (fun i => a.getD i 0)) rtol).1
      rw [List.getElem?_eq_none (by rw [h1, List.length_map]; omega),
        List.getElem?_eq_none (by rw [List.length_map]; omega)]
  unfold mapTo
  rw [key, List.filterMap_map]
  simp

example : mapTo [10, 40, 20, 30] [30, 10, 10, 40] (1/100000) = [3, 0, 0, 1] := by decide +kernel

/-- With a repeated coordinate the data come from the wrong place: position 1 is requested,
position 0 is reported. -/
theorem mapTo_of_slice_violated : mapTo [7, 7] [7] (1/100000) = [0] := by decide +kernel

/-! ## C16 — common coordinates of two axes -/

/-- The code pairs coordinates that are not equal: the difference is truncated to an integer
before it is compared with zero (tools.c:166). -/
theorem commonMap_equal_violated : commonMapC [1/2] [1/4] 0 0 = [(0, 0)] := by decide +kernel

/-- What does hold: paired positions hold coordinates less than one apart (in particular, exactly
equal ones when all coordinates are integers). -/
theorem commonMap_sound_partial (a b : List ℚ) (i j : ℕ) (h : (i, j) ∈ commonMapC a b 0 0) :
    ∃ x y, a[i]? = some x ∧ b[j]? = some y ∧ |x - y| < 1 := by
  obtain ⟨i', j', x, y, h1, h2, h3, h4, h5⟩ := commonMapC_sound a b 0 0 (i, j) h
  simp only [Nat.zero_add] at h1 h2
  exact ⟨x, y, by rw [h1]; exact h3, by rw [h2]; exact h4, h5⟩

theorem commonMap_integer_sound_partial (a b : List ℚ) (ha : ∀ x ∈ a, ∃ n : ℤ, x = n)
    (hb : ∀ x ∈ b, ∃ n : ℤ, x = n) (i j : ℕ) (h : (i, j) ∈ commonMapC a b 0 0) :
    ∃ x, a[i]? = some x ∧ b[j]? = some x := by
  obtain ⟨x, y, h1, h2, h3⟩ := commonMap_sound_partial a b i j h
  obtain ⟨n, hn⟩ := ha x (List.mem_of_getElem? h1)
  obtain ⟨m, hm⟩ := hb y (List.mem_of_getElem? h2)
  have : |(n - m : ℤ)| < 1 := by
    have h4 : |((n - m : ℤ) : ℚ)| < 1 := by push_cast; rw [← hn, ← hm]; exact h3
    rw [← Int.cast_abs] at h4
    exact_mod_cast h4
  have hnm : n = m := by
    have := Int.abs_lt_one_iff.1 this
    omega
  exact ⟨x, h1, by rw [h2, hm, hn, hnm]⟩

example : commonMapC [1, 3, 5, 7, 9] [2, 3, 5, 7] 0 0 = [(1, 1), (2, 2), (3, 3)] := by
  decide +kernel

end PyGeode
