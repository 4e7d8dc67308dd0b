/-
Properties C19, C20, C61, C62, C63: date lookup (pygeode/timeaxis.c:21-204, timeaxis.py).
Tuples of integers are compared lexicographically (`<`, `≤` on lists).
-/
import Verif.Lemmas.TimeC
import Verif.Props.Calendar

namespace PyGeode.TimeC
open PyGeode.Calendar PyGeode.Spec

/-! ### C19: binary search -/

/-- In a sorted list of tuples of the same width, the search returns a position holding the
tuple if there is one, and fails only if there is none. -/
theorem get_index_correct {n : ℕ} (values : List Row) (key : Row)
    (hw : ∀ r ∈ values, r.length = n) (hk : key.length = n) (hs : values.Pairwise (· ≤ ·)) :
    (∀ i, getIndex values key = some i → values[i]? = some key) ∧
    (getIndex values key = none ↔ key ∉ values) :=
  getIndex_spec ⟨hw, hs⟩ key hk

/-- With distinct tuples the answer is *the* position. -/
theorem get_index_exact {n : ℕ} (values : List Row) (key : Row)
    (hw : ∀ r ∈ values, r.length = n) (hk : key.length = n) (hs : values.Pairwise (· < ·)) (i : ℕ) :
    getIndex values key = some i ↔ values[i]? = some key := by
  obtain ⟨h1, h2⟩ := get_index_correct values key hw hk (hs.imp fun h => le_of_lt h)
  refine ⟨h1 i, fun hi => ?_⟩
  cases hg : getIndex values key with
  | none => exact absurd (List.mem_of_getElem? hi) (h2.1 hg)
  | some j =>
    have hj := h1 j hg
    have hnd : values.Nodup := hs.imp fun h => ne_of_lt h
    obtain ⟨hi', hie⟩ := List.getElem?_eq_some_iff.1 hi
    obtain ⟨hj', hje⟩ := List.getElem?_eq_some_iff.1 hj
    rw [(List.Nodup.getElem_inj_iff hnd).1 (hje.trans hie.symm)]

/-- The batch lookup answers each request independently, in request order. -/
theorem get_indices_correct {n : ℕ} (values out : List Row)
    (hw : ∀ r ∈ values, r.length = n) (ho : ∀ r ∈ out, r.length = n)
    (hs : values.Pairwise (· < ·)) :
    (getIndices values out).length = out.length ∧
    ∀ (k : ℕ) (r : Row), out[k]? = some r →
      ∃ o, (getIndices values out)[k]? = some o ∧ ∀ i, o = some i ↔ values[i]? = some r := by
  refine ⟨by simp [getIndices], ?_⟩
  intro k r hk
  refine ⟨getIndex values r, by simp [getIndices, hk], ?_⟩
  intro i
  exact get_index_exact values r hw (ho r (List.mem_of_getElem? hk)) hs i

example : getIndices [[1999, 12], [2000, 1], [2000, 2]] [[2000, 2], [1998, 1], [1999, 12]] =
    [some 2, none, some 0] := by decide +kernel

/-! ### C20: removing duplicates -/

theorem uniquify_correct {n : ℕ} (rows : List Row) (hw : ∀ r ∈ rows, r.length = n)
    (hs : rows.Pairwise (· ≤ ·)) :
    (uniquify rows).Pairwise (· < ·) ∧ ∀ x, x ∈ uniquify rows ↔ x ∈ rows := by
  obtain ⟨h1, h2⟩ := uniquify_aux rows [] hw hs (by simp) (by simp) (by simp)
  exact ⟨h1, fun x => (h2 x).trans (by simp)⟩

example : uniquify [[1, 1], [1, 1], [1, 2], [2, 1], [2, 1]] = [[1, 1], [1, 2], [2, 1]] := by
  decide +kernel

/-- On unsorted input duplicates may survive: sorting first is required. -/
theorem uniquify_unsorted_violated : uniquify [[3], [1], [3], [1]] = [[3], [1], [1]] := by
  decide +kernel

/-! ### C62: nearest lower date -/

/-- The result is the last position whose tuple is not after the one looked up; failure means
that all tuples are after it. -/
theorem nearest_lower_correct {n : ℕ} (values : List Row) (key : Row)
    (hw : ∀ r ∈ values, r.length = n) (hk : key.length = n) (hs : values.Pairwise (· ≤ ·)) :
    (∀ i, nearestLower values key = some i ↔
      i < values.length ∧ values.getD i [] ≤ key ∧
        ∀ j, i < j → j < values.length → key < values.getD j []) ∧
    (nearestLower values key = none ↔ ∀ r ∈ values, key < r) := by
  obtain ⟨h1, h2⟩ := nearestLoop_spec ⟨hw, hs⟩ key hk 0 ((values.length : ℤ) - 1) (by omega)
    (by omega) (Or.inl rfl) (by intro j h1 h2; omega)
  change (∀ i, nearestLower values key = some i → _) at h1
  change (nearestLower values key = none → _) at h2
  have toMem : (∀ j, j < values.length → key < values.getD j []) ↔ ∀ r ∈ values, key < r := by
    constructor
    · intro h r hr
      obtain ⟨j, hj, rfl⟩ := List.getElem_of_mem hr
      have := h j hj
      rwa [List.getD_eq_getElem _ _ hj] at this
    · intro h j hj
      rw [List.getD_eq_getElem _ _ hj]
      exact h _ (List.getElem_mem hj)
  constructor
  · intro i
    refine ⟨h1 i, ?_⟩
    rintro ⟨a1, a2, a3⟩
    cases hg : nearestLower values key with
    | none => exact absurd (lt_of_lt_of_le (h2 hg i a1) a2) (lt_irrefl _)
    | some k =>
      obtain ⟨b1, b2, b3⟩ := h1 k hg
      rcases lt_trichotomy i k with h | h | h
      · exact absurd (lt_of_lt_of_le (a3 k h b1) b2) (lt_irrefl _)
      · rw [h]
      · exact absurd (lt_of_lt_of_le (b3 i h a1) a2) (lt_irrefl _)
  · constructor
    · intro h; exact toMem.1 (h2 h)
    · intro h
      cases hg : nearestLower values key with
      | none => rfl
      | some k =>
        obtain ⟨b1, b2, -⟩ := h1 k hg
        exact absurd (lt_of_lt_of_le (toMem.2 h k b1) b2) (lt_irrefl _)

example : nearestLower [[1], [3], [3], [5]] [4] = some 2 ∧ nearestLower [[1], [3]] [0] = none := by
  decide +kernel

/-! ### C61: common dates of two time axes -/

theorem mem_of_translate {rows : List Row} {p : ℕ} {r : Row}
    (h : ((argsortRows rows).map (fun i : ℕ => rows.getD i []))[p]? = some r) :
    rows[(argsortRows rows).getD p 0]? = some r := by
  rw [List.getElem?_map] at h
  obtain ⟨i, hi, he⟩ := Option.map_eq_some_iff.1 h
  rw [List.getD_eq_getElem?_getD, hi, Option.getD_some]
  have hlt := argsortRows_lt rows i (List.mem_of_getElem? hi)
  rw [List.getElem?_eq_getElem hlt, ← he, List.getD_eq_getElem _ _ hlt]

theorem translate_of_mem {rows : List Row} {i : ℕ} {r : Row} (h : rows[i]? = some r) :
    ∃ p, (argsortRows rows).getD p 0 = i ∧
      ((argsortRows rows).map (fun i : ℕ => rows.getD i []))[p]? = some r := by
  obtain ⟨hi, he⟩ := List.getElem?_eq_some_iff.1 h
  have : i ∈ argsortRows rows := by
    rw [(argsortRows_perm rows).mem_iff, List.mem_range]; exact hi
  obtain ⟨p, hp, hpe⟩ := List.getElem_of_mem this
  refine ⟨p, ?_, ?_⟩
  · rw [List.getD_eq_getElem _ _ hp, hpe]
  · rw [List.getElem?_map, List.getElem?_eq_getElem hp, hpe, Option.map_some,
      List.getD_eq_getElem _ _ hi, he]

/-- Every reported pair holds equal date tuples, for arbitrary (unsorted, repeated) input. -/
theorem time_common_map_sound {n : ℕ} (a b : List Row) (ha : ∀ r ∈ a, r.length = n)
    (hb : ∀ r ∈ b, r.length = n) (i j : ℕ) (h : (i, j) ∈ commonMap a b) :
    ∃ r, a[i]? = some r ∧ b[j]? = some r := by
  unfold commonMap at h
  obtain ⟨⟨p, q⟩, hm, he⟩ := List.mem_map.1 h
  simp only [Prod.mk.injEq] at he
  obtain ⟨p', q', r, h1, h2, h3, h4⟩ := commonWalk_sound _ _ 0 0 (sortedRows_argsort ha).width
    (sortedRows_argsort hb).width p q hm
  simp only [zero_add] at h1 h2
  subst h1 h2
  rw [← he.1, ← he.2]
  exact ⟨r, mem_of_translate h3, mem_of_translate h4⟩

/-- If the dates of at least one of the two axes are distinct, every pair of positions with equal
tuples is reported, in whatever order the axes are stored. -/
theorem time_common_map_complete {n : ℕ} (a b : List Row) (ha : ∀ r ∈ a, r.length = n)
    (hb : ∀ r ∈ b, r.length = n) (hd : a.Nodup ∨ b.Nodup) (i j : ℕ) (r : Row)
    (hi : a[i]? = some r) (hj : b[j]? = some r) : (i, j) ∈ commonMap a b := by
  obtain ⟨p, hp, hpr⟩ := translate_of_mem hi
  obtain ⟨q, hq, hqr⟩ := translate_of_mem hj
  have := commonWalk_complete _ _ 0 0 (sortedRows_argsort ha) (sortedRows_argsort hb)
    (hd.imp argsort_strict argsort_strict) p q r hpr hqr
  simp only [zero_add] at this
  unfold commonMap
  exact List.mem_map.2 ⟨(p, q), this, by simp only [hp, hq]⟩

/-- The output buffers of length `max(na, nb)` suffice under the same condition. -/
theorem commonMap_fits {n : ℕ} (a b : List Row) (ha : ∀ r ∈ a, r.length = n)
    (hb : ∀ r ∈ b, r.length = n) (hd : a.Nodup ∨ b.Nodup) :
    (commonMap a b).length ≤ max a.length b.length := by
  unfold commonMap
  rw [List.length_map]
  rcases hd with h | h
  · have := commonWalk_length_left _ ((argsortRows b).map (fun i : ℕ => b.getD i [])) 0 0
      (sortedRows_argsort ha).width (argsort_strict h)
    rw [List.length_map, argsortRows_length] at this
    omega
  · have := commonWalk_length_right ((argsortRows a).map (fun i : ℕ => a.getD i [])) _ 0 0
      (sortedRows_argsort hb).width (argsort_strict h)
    rw [List.length_map, argsortRows_length] at this
    omega

/-- Without it both fail: with repeated dates on both sides a pair is missed and the three pairs
found do not fit in the buffers of length two (the C assertion aborts the process). -/
theorem commonMap_repeats_violated :
    commonMap [[1], [1]] [[1], [1]] = [(0, 0), (1, 0), (1, 1)] := by decide +kernel

example : commonMap [[2], [1], [2]] [[2], [3], [1]] = [(1, 2), (0, 0), (2, 0)] := by
  decide +kernel

/-! ### C63: mapping one time axis to another by date -/

/-- the six fields of a date as a tuple, most significant first (`allowed_fields`,
/repo/pygeode/timeaxis.py:347) -/
def row (d : Date) : Row := [d.year, d.month, d.day, d.hour, d.minute, d.second]

theorem row_lt_iff (a b : Date) : row a < row b ↔ Earlier a b := by
  unfold row Earlier
  simp only [List.cons_lt_cons_iff, List.not_lt_nil, and_false, or_false]

theorem row_inj {a b : Date} (h : row a = row b) : a = b := by
  obtain ⟨y, m, d, hh, mi, s⟩ := a
  obtain ⟨y', m', d', hh', mi', s'⟩ := b
  simp only [row, List.cons.injEq, and_true] at h
  simp only [Date.mk.injEq]
  exact h

theorem row_le_iff {a b : Date} : row a ≤ row b ↔ ¬ Earlier b a := by
  rw [← not_lt, row_lt_iff]

/-- Time axes with full dates on any calendar: `order` is any argsort of the axis values (offsets
from the start date). If the dates of the axis are valid and distinct, mapping it to another
list of dates returns, in request order, exactly the positions of the requested dates that are
on the axis. -/
theorem time_map_to_exact (c : Cal) (s : Date) (hs : 1 ≤ s.month ∧ s.month ≤ 12)
    (mine other : List Date) (hv : ∀ d ∈ mine, ValidDate c d) (hnd : mine.Nodup)
    (order : List ℕ) (hperm : order.Perm (List.range mine.length))
    (hsorted : order.Pairwise fun i j =>
      ∃ d e vi vj, mine[i]? = some d ∧ mine[j]? = some e ∧ dateAsVal c s d = some vi ∧
        dateAsVal c s e = some vj ∧ vi ≤ vj) :
    timeMapTo order (mine.map row) (other.map row) = (other.filter (· ∈ mine)).map mine.idxOf := by
  have hlt : ∀ i ∈ order, i < mine.length := by
    intro i hi; rwa [hperm.mem_iff, List.mem_range] at hi
  have hget : ∀ i ∈ order, (mine.map row).getD i [] = row (mine.getD i s) := by
    intro i hi
    rw [List.getD_eq_getElem _ _ (by simpa using hlt i hi), List.getD_eq_getElem _ _ (hlt i hi),
      List.getElem_map]
  have hnodup : order.Nodup := hperm.nodup_iff.2 List.nodup_range
  -- the rows, reordered, are strictly increasing
  have hstrict : (order.map fun i : ℕ => (mine.map row).getD i []).Pairwise (· < ·) := by
    rw [List.pairwise_map]
    have hcomb := hsorted.and (List.nodup_iff_pairwise_ne.1 hnodup)
    refine List.Pairwise.imp_of_mem ?_ hcomb
    rintro i j hi hj ⟨⟨d, e, vi, vj, h1, h2, h3, h4, h5⟩, hne⟩
    rw [hget i hi, hget j hj]
    rw [List.getD_eq_getElem?_getD, h1, List.getD_eq_getElem?_getD, h2, Option.getD_some,
      Option.getD_some, row_lt_iff]
    obtain ⟨va, vb, g1, g2, g3, g4⟩ := offset_order c s d e hs (hv d (List.mem_of_getElem? h1))
      (hv e (List.mem_of_getElem? h2))
    rw [h3] at g1; rw [h4] at g2
    cases g1; cases g2
    rw [← g3]
    refine lt_of_le_of_ne h5 ?_
    rw [ne_eq, g4]
    rintro rfl
    obtain ⟨hi', hie⟩ := List.getElem?_eq_some_iff.1 h1
    obtain ⟨hj', hje⟩ := List.getElem?_eq_some_iff.1 h2
    exact hne ((List.Nodup.getElem_inj_iff hnd).1 (hie.trans hje.symm))
  have hw : ∀ r ∈ (order.map fun i : ℕ => (mine.map row).getD i []), r.length = 6 := by
    intro r hr
    obtain ⟨i, hi, rfl⟩ := List.mem_map.1 hr
    rw [hget i hi]; rfl
  -- one request
  have hone : ∀ d : Date, (getIndex (order.map fun i : ℕ => (mine.map row).getD i []) (row d)).map
      (fun k : ℕ => order.getD k 0) = if d ∈ mine then some (mine.idxOf d) else none := by
    intro d
    by_cases hd : d ∈ mine
    · rw [if_pos hd]
      have hidx := List.idxOf_lt_length_of_mem hd
      have hmem : mine.idxOf d ∈ order := by rw [hperm.mem_iff, List.mem_range]; exact hidx
      obtain ⟨p, hp, hpe⟩ := List.getElem_of_mem hmem
      have : getIndex (order.map fun i : ℕ => (mine.map row).getD i []) (row d) = some p := by
        rw [get_index_exact _ (row d) hw rfl hstrict]
        rw [List.getElem?_map, List.getElem?_eq_getElem hp, hpe, Option.map_some,
          hget _ hmem, List.getD_eq_getElem _ _ hidx, List.getElem_idxOf]
      rw [this, Option.map_some, List.getD_eq_getElem _ _ hp, hpe]
    · rw [if_neg hd]
      have : getIndex (order.map fun i : ℕ => (mine.map row).getD i []) (row d) = none := by
        rw [(get_index_correct _ (row d) hw rfl (hstrict.imp fun h => le_of_lt h)).2]
        intro hm
        obtain ⟨i, hi, hie⟩ := List.mem_map.1 hm
        rw [hget i hi] at hie
        have := row_inj hie
        rw [List.getD_eq_getElem _ _ (hlt i hi)] at this
        exact hd (this ▸ List.getElem_mem _)
      rw [this]; rfl
  unfold timeMapTo getIndices
  induction other with
  | nil => rfl
  | cons d ds ih =>
    have h1 := hone d
    rw [List.map_cons, List.map_cons, List.filterMap_cons]
    by_cases hd : d ∈ mine
    · rw [if_pos hd] at h1
      obtain ⟨k, hk, hke⟩ := Option.map_eq_some_iff.1 h1
      rw [hk]
      rw [List.filter_cons_of_pos (by simpa using hd), List.map_cons, ← ih]
      simp only [id, List.map_cons, hke]
    · rw [if_neg hd, Option.map_eq_none_iff] at h1
      rw [h1]
      rw [List.filter_cons_of_neg (by simpa using hd), ← ih]
      rfl

example : timeMapTo [1, 0] ([⟨2001, 1, 1, 0, 0, 0⟩, ⟨2000, 1, 1, 0, 0, 0⟩].map row)
    ([⟨2000, 1, 1, 0, 0, 0⟩, ⟨1999, 1, 1, 0, 0, 0⟩, ⟨2001, 1, 1, 0, 0, 0⟩].map row) = [1, 0] := by
  decide +kernel

end PyGeode.TimeC
