/-
Reading a variable put together from several files (data_scanner.py): every value comes from the last file that has the point.
-/
import Mathlib.Tactic
import Verif.Model.Scan

namespace PyGeode

namespace Spec
open Scan
variable {α : Type}

/-- the coordinates of position `k` of a request for the values `xs` on the axes -/
def point (xs : List (List ℚ)) (k : List ℕ) : List ℚ :=
  (List.range xs.length).map fun j : ℕ => (xs.getD j []).getD (k.getD j 0) 0

/-- the piece has the value `v` at the point `pt`: there are positions `n` on its axes with these coordinates -/
def Offers (p : Piece α) (pt : List ℚ) (v : α) : Prop :=
  ∃ n : List ℕ, n.length = pt.length ∧ (∀ j < pt.length, (p.coords.getD j [])[n.getD j 0]? = some (pt.getD j 0)) ∧ p.data n = v

/-- the axis does not start downwards -/
def NotDown (a : List ℚ) : Prop := ∀ (x y : ℚ) (l : List ℚ), a = x :: y :: l → x ≤ y

end Spec

namespace Scan
open Spec

/-- `r` is where `key` would be inserted into the sorted list -/
structure IsPlace (a : List ℚ) (key : ℚ) (r : ℕ) : Prop where
  le : r ≤ a.length
  before : ∀ i < r, a.getD i 0 < key
  after : ∀ i, r ≤ i → i < a.length → key ≤ a.getD i 0

theorem sorted_getD {a : List ℚ} (h : a.Pairwise (· < ·)) {i j : ℕ} (hij : i ≤ j) (hj : j < a.length) :
    a.getD i 0 ≤ a.getD j 0 := by
  rw [List.getD_eq_getElem a _ (by omega), List.getD_eq_getElem a _ hj]
  rcases Nat.eq_or_lt_of_le hij with rfl | hlt
  · exact le_rfl
  · exact le_of_lt (List.pairwise_iff_getElem.1 h i j (by omega) hj hlt)

theorem bisect_place {a : List ℚ} (h : a.Pairwise (· < ·)) (key : ℚ) : ∀ (fuel lo hi : ℕ), hi - lo ≤ fuel → lo ≤ hi →
    hi ≤ a.length → (∀ i < lo, a.getD i 0 < key) → (∀ i, hi ≤ i → i < a.length → key ≤ a.getD i 0) →
    IsPlace a key (bisect a key fuel lo hi)
  | 0, lo, hi, hf, hlh, hle, hb, ha => by
    have : lo = hi := by omega
    subst this
    exact ⟨hle, hb, ha⟩
  | fuel + 1, lo, hi, hf, hlh, hle, hb, ha => by
    rw [bisect]
    split_ifs with h1
    · dsimp only
      split_ifs with h2
      · refine bisect_place h key fuel _ _ (by omega) (by omega) hle ?_ ha
        intro i hi'
        exact lt_of_le_of_lt (sorted_getD h (by omega) (by omega)) h2
      · refine bisect_place h key fuel _ _ (by omega) (by omega) (by omega) hb ?_
        intro i hi1 hi2
        exact (not_lt.1 h2).trans (sorted_getD h hi1 hi2)
    · have : lo = hi := by omega
      subst this
      exact ⟨hle, hb, ha⟩

theorem searchLoop_place {a : List ℚ} (h : a.Pairwise (· < ·)) : ∀ (keys : List ℚ) (last : ℚ) (lo hi : ℕ), lo ≤ a.length →
    hi ≤ a.length → (∀ i < lo, a.getD i 0 < last) → (∀ i, hi ≤ i → i < a.length → last ≤ a.getD i 0) →
    (searchLoop a last lo hi keys).length = keys.length ∧
    ∀ i < keys.length, IsPlace a (keys.getD i 0) ((searchLoop a last lo hi keys).getD i 0)
  | [], _, _, _, _, _, _, _ => by simp [searchLoop]
  | key :: keys, last, lo, hi, hlo, hhi, hb, ha => by
    rw [searchLoop]
    have hp : IsPlace a key (bisect a key
        ((if last < key then a.length else if hi < a.length then hi + 1 else a.length) - (if last < key then lo else 0))
        (if last < key then lo else 0) (if last < key then a.length else if hi < a.length then hi + 1 else a.length)) := by
      refine bisect_place h key _ _ _ le_rfl ?_ ?_ ?_ ?_
      · split_ifs <;> omega
      · split_ifs <;> omega
      · intro i hi'
        split_ifs at hi' with h1
        · exact (hb i hi').trans h1
        · omega
      · intro i h1 h2
        split_ifs at h1 with h3 h4
        · omega
        · exact (not_lt.1 h3).trans (ha i (by omega) h2)
        · omega
    obtain ⟨ih1, ih2⟩ := searchLoop_place h keys key _ _ hp.le hp.le hp.before hp.after
    refine ⟨by simp [ih1], ?_⟩
    intro i hi'
    cases i with
    | zero => simpa using hp
    | succ i => simpa using ih2 i (by simpa using hi')

/-- numpy's `searchsorted` on a sorted list, for keys in any order -/
theorem searchsorted_place {a : List ℚ} (h : a.Pairwise (· < ·)) (keys : List ℚ) :
    (searchsorted a keys).length = keys.length ∧
    ∀ i < keys.length, IsPlace a (keys.getD i 0) ((searchsorted a keys).getD i 0) :=
  searchLoop_place h keys _ _ _ (Nat.zero_le _) le_rfl (by omega) (fun i h1 h2 => by omega)

theorem place_mem {a : List ℚ} (h : a.Pairwise (· < ·)) {key : ℚ} {r : ℕ} (hr : IsPlace a key r) :
    (r < a.length ∧ a.getD r 0 = key) ↔ key ∈ a := by
  constructor
  · rintro ⟨h1, h2⟩
    rw [← h2, List.getD_eq_getElem a _ h1]
    exact List.getElem_mem h1
  · intro hm
    obtain ⟨i, hi, he⟩ := List.getElem_of_mem hm
    have he' : a.getD i 0 = key := by rw [List.getD_eq_getElem a _ hi, he]
    have h1 : r ≤ i := by
      by_contra hlt
      have := hr.before i (by omega)
      rw [he'] at this
      exact lt_irrefl _ this
    have h2 : r < a.length := by omega
    refine ⟨h2, le_antisymm ?_ (hr.after r le_rfl h2)⟩
    rw [← he']
    exact sorted_getD h h1 hi

theorem inter_spec {a1 a2 : List ℚ} (h : NotDown a1) :
    (inter a1 a2).Pairwise (· < ·) ∧ ∀ x, x ∈ inter a1 a2 ↔ x ∈ a1 ∧ x ∈ a2 := by
  have key : inter a1 a2 = ((a1.filter fun x => decide (x ∈ a2)).dedup).insertionSort (· ≤ ·) := by
    unfold inter
    match a1, h with
    | [], _ => rfl
    | [x], _ => rfl
    | x :: y :: l, h =>
      dsimp only
      rw [if_neg (not_lt.2 (h x y l rfl))]
  rw [key]
  refine ⟨?_, ?_⟩
  · have h1 := (List.sortedLE_insertionSort (l := (a1.filter fun x => decide (x ∈ a2)).dedup)).pairwise
    have h2 : (((a1.filter fun x => decide (x ∈ a2)).dedup).insertionSort (· ≤ ·)).Nodup :=
      (List.perm_insertionSort _ _).nodup_iff.2 (List.nodup_dedup _)
    exact (h1.and h2).imp fun h => lt_of_le_of_ne h.1 h.2
  · intro x
    rw [(List.perm_insertionSort _ _).mem_iff]
    simp

variable {α : Type}

theorem mem_maskOf {a1 a2 : List ℚ} (h : a2.Pairwise (· < ·)) {i : ℕ} (hi : i < a1.length) :
    i ∈ maskOf a1 a2 ↔ a1.getD i 0 ∈ a2 := by
  have hp := (searchsorted_place h a1).2 i hi
  unfold maskOf
  rw [List.mem_filter, ← place_mem h hp]
  simp [hi]

theorem reorderOf_at {a1 a2 : List ℚ} {i : ℕ} (hi : i ∈ maskOf a1 a2) :
    (reorderOf a1 a2).getD ((maskOf a1 a2).idxOf i) 0 = (searchsorted a2 a1).getD i 0 := by
  have hlt := List.idxOf_lt_length_iff.2 hi
  unfold reorderOf
  rw [List.getD_eq_getElem _ _ (by rw [List.length_map]; exact hlt), List.getElem_map, List.getElem_idxOf hlt]

/-- one file: what it has at the requested points replaces what was there -/
theorem overlay_correct {xs : List (List ℚ)} {out out' : List ℕ → α} {p : Piece α} (hx : ∀ a ∈ xs, NotDown a)
    (hl : p.coords.length = xs.length) (hn : ∀ c ∈ p.coords, c.Nodup) (h : overlay xs out p = some out') (k : List ℕ)
    (hk : ∀ j < xs.length, k.getD j 0 < (xs.getD j []).length) :
    (∀ v, Offers p (point xs k) v → out' k = v) ∧ ((¬ ∃ v, Offers p (point xs k) v) → out' k = out k) := by
  have hpl : (point xs k).length = xs.length := by simp [point]
  have hpt : ∀ j < xs.length, (point xs k).getD j 0 = (xs.getD j []).getD (k.getD j 0) 0 := by
    intro j hj
    unfold point
    rw [List.getD_eq_getElem _ _ (by simpa using hj)]
    simp
  have hsub : ∀ j < xs.length, (List.zipWith inter xs p.coords).getD j [] = inter (xs.getD j []) (p.coords.getD j []) := by
    intro j hj
    rw [List.getD_eq_getElem _ _ (by rw [List.length_zipWith]; omega), List.getElem_zipWith, List.getD_eq_getElem _ _ hj,
      List.getD_eq_getElem _ _ (by omega)]
  have hup : ∀ j < xs.length, NotDown (xs.getD j []) := by
    intro j hj
    rw [List.getD_eq_getElem _ _ hj]
    exact hx _ (List.getElem_mem hj)
  have hmask : ∀ j < xs.length, (k.getD j 0 ∈ maskOf (xs.getD j []) ((List.zipWith inter xs p.coords).getD j []) ↔
      (xs.getD j []).getD (k.getD j 0) 0 ∈ p.coords.getD j []) := by
    intro j hj
    rw [hsub j hj, mem_maskOf (inter_spec (hup j hj)).1 (hk j hj), (inter_spec (hup j hj)).2]
    constructor
    · exact fun h => h.2
    · intro h
      refine ⟨?_, h⟩
      rw [List.getD_eq_getElem _ _ (hk j hj)]
      exact List.getElem_mem _
  have hoff : ∀ v, Offers p (point xs k) v ↔ (∀ j < xs.length, (xs.getD j []).getD (k.getD j 0) 0 ∈ p.coords.getD j []) ∧
      p.data ((List.range xs.length).map fun j : ℕ => (p.coords.getD j []).idxOf ((xs.getD j []).getD (k.getD j 0) 0)) = v := by
    intro v
    constructor
    · rintro ⟨n, h1, h2, h3⟩
      rw [hpl] at h1 h2
      have h4 : ∀ j < xs.length, (xs.getD j []).getD (k.getD j 0) 0 ∈ p.coords.getD j [] := by
        intro j hj
        rw [← hpt j hj]
        exact List.mem_of_getElem? (h2 j hj)
      refine ⟨h4, ?_⟩
      rw [← h3]
      congr 1
      apply List.ext_getElem (by simp [h1])
      intro j hj1 hj2
      have hj : j < xs.length := by simpa using hj1
      rw [List.getElem_map, List.getElem_range]
      have h5 := h2 j hj
      rw [hpt j hj, List.getD_eq_getElem n _ hj2] at h5
      obtain ⟨h6, h7⟩ := List.getElem?_eq_some_iff.1 h5
      rw [← h7]
      refine List.Nodup.idxOf_getElem ?_ _ h6
      rw [List.getD_eq_getElem _ _ (by omega)]
      exact hn _ (List.getElem_mem _)
    · rintro ⟨h1, h2⟩
      refine ⟨_, by simp [hpl], ?_, h2⟩
      intro j hj
      rw [hpl] at hj
      rw [hpt j hj, List.getD_eq_getElem ((List.range xs.length).map _) _ (by simpa using hj), List.getElem_map,
        List.getElem_range]
      have := List.idxOf_lt_length_iff.2 (h1 j hj)
      rw [List.getElem?_eq_getElem this, List.getElem_idxOf this]
  unfold overlay overlayOn at h
  split_ifs at h with h1 h2
  · cases h
    rw [List.any_eq_true] at h1
    obtain ⟨s, hs, hs0⟩ := h1
    have hs0 : s = [] := by simpa using hs0
    subst hs0
    obtain ⟨j, hj, he⟩ := List.getElem_of_mem hs
    have hj' : j < xs.length := by rw [List.length_zipWith] at hj; omega
    have hnone : ¬ (xs.getD j []).getD (k.getD j 0) 0 ∈ p.coords.getD j [] := by
      intro hm
      have h3 := hsub j hj'
      rw [List.getD_eq_getElem _ _ hj, he] at h3
      have : (xs.getD j []).getD (k.getD j 0) 0 ∈ inter (xs.getD j []) (p.coords.getD j []) := by
        rw [(inter_spec (hup j hj')).2]
        refine ⟨?_, hm⟩
        rw [List.getD_eq_getElem _ _ (hk j hj')]
        exact List.getElem_mem _
      rw [← h3] at this
      cases this
    refine ⟨fun v hv => absurd (((hoff v).1 hv).1 j hj') hnone, fun _ => rfl⟩
  · cases h
    by_cases hall : ∀ j < xs.length, (xs.getD j []).getD (k.getD j 0) 0 ∈ p.coords.getD j []
    · have hcond : ((List.range xs.length).all fun j : ℕ =>
          decide (k.getD j 0 ∈ maskOf (xs.getD j []) ((List.zipWith inter xs p.coords).getD j []))) = true := by
        rw [List.all_eq_true]
        intro j hj
        have hj' := List.mem_range.1 hj
        exact decide_eq_true ((hmask j hj').2 (hall j hj'))
      have hval : chunk p (List.zipWith inter xs p.coords) ((List.range xs.length).map fun j : ℕ =>
          (reorderOf (xs.getD j []) ((List.zipWith inter xs p.coords).getD j [])).getD
            ((maskOf (xs.getD j []) ((List.zipWith inter xs p.coords).getD j [])).idxOf (k.getD j 0)) 0) =
          p.data ((List.range xs.length).map fun j : ℕ => (p.coords.getD j []).idxOf ((xs.getD j []).getD (k.getD j 0) 0)) := by
        unfold chunk
        congr 1
        have hzl : (List.zipWith inter xs p.coords).length = xs.length := by rw [List.length_zipWith]; omega
        rw [hzl]
        apply List.map_congr_left
        intro j hj
        have hj' := List.mem_range.1 hj
        congr 1
        rw [List.getD_eq_getElem ((List.range xs.length).map _) _ (by simpa using hj'), List.getElem_map, List.getElem_range,
          reorderOf_at ((hmask j hj').2 (hall j hj'))]
        rw [hsub j hj']
        have hs := (inter_spec (a2 := p.coords.getD j []) (hup j hj')).1
        have hpl := (searchsorted_place hs (xs.getD j [])).2 _ (hk j hj')
        refine ((place_mem hs hpl).2 ?_).2
        have := (hmask j hj').2 (hall j hj')
        rwa [hsub j hj', mem_maskOf hs (hk j hj')] at this
      refine ⟨fun v hv => ?_, fun hno => absurd ⟨_, (hoff _).2 ⟨hall, rfl⟩⟩ hno⟩
      refine (if_pos hcond).trans ?_
      rw [hval]
      exact ((hoff v).1 hv).2
    · refine ⟨fun v hv => absurd ((hoff v).1 hv).1 hall, fun _ => ?_⟩
      refine if_neg fun hcond => hall fun j hj => ?_
      rw [List.all_eq_true] at hcond
      exact (hmask j hj).1 (of_decide_eq_true (hcond j (List.mem_range.2 hj)))

/-- C80: at every requested point the variable has the value that the last of the files with this point has there, and NaN if no
file has it. -/
theorem getview_correct_partial (nan : α) (xs : List (List ℚ)) (table : List (Piece α)) (hx : ∀ a ∈ xs, NotDown a)
    (ht : ∀ p ∈ table, p.coords.length = xs.length ∧ ∀ c ∈ p.coords, c.Nodup) (out : List ℕ → α)
    (h : getview nan xs table = some out) (k : List ℕ) (hk : ∀ j < xs.length, k.getD j 0 < (xs.getD j []).length) :
    (∀ (t1 t2 : List (Piece α)) (p : Piece α) (v : α), table = t1 ++ p :: t2 → Offers p (point xs k) v →
      (∀ q ∈ t2, ¬ ∃ v', Offers q (point xs k) v') → out k = v) ∧
    ((∀ p ∈ table, ¬ ∃ v, Offers p (point xs k) v) → out k = nan) := by
  unfold getview at h
  induction table using List.reverseRecOn generalizing out with
  | nil =>
    cases h
    refine ⟨fun t1 t2 p v he => ?_, fun _ => rfl⟩
    simp at he
  | append_singleton table p ih =>
    rw [List.foldlM_append] at h
    obtain ⟨out1, h1, h2⟩ := Option.bind_eq_some_iff.1 h
    rw [List.foldlM_cons] at h2
    obtain ⟨out2, h2, h3⟩ := Option.bind_eq_some_iff.1 h2
    cases h3
    obtain ⟨ih1, ih2⟩ := ih (fun q hq => ht q (List.mem_append_left _ hq)) out1 h1
    obtain ⟨hl, hn⟩ := ht p (by simp)
    obtain ⟨o1, o2⟩ := overlay_correct hx hl hn h2 k hk
    constructor
    · intro t1 t2 q v he hq hno
      rcases List.eq_nil_or_concat t2 with rfl | ⟨t2', p', rfl⟩
      · have := List.append_inj' he rfl
        obtain ⟨-, h5⟩ := this
        cases h5
        exact o1 v hq
      · rw [List.concat_eq_append] at he hno
        have he' : table ++ [p] = (t1 ++ q :: t2') ++ [p'] := by rw [he]; simp
        obtain ⟨h5, h6⟩ := List.append_inj' he' rfl
        cases h6
        rw [o2 (hno p (by simp))]
        exact ih1 t1 t2' q v h5 hq fun q' hq' => hno q' (List.mem_append_left _ hq')
    · intro hno
      rw [o2 (hno p (by simp))]
      exact ih2 fun q hq => hno q (List.mem_append_left _ hq)

/-! ### examples and violations -/

/-- two files: times 1, 2, 3 and times 3, 5, at two latitudes; the second file wins at time 3 -/
def tableEx : List (Piece ℚ) :=
  [⟨[[1, 2, 3], [10, 20]], fun n => 100 + 10 * n.getD 0 0 + n.getD 1 0⟩,
   ⟨[[3, 5], [10, 20]], fun n => 200 + 10 * n.getD 0 0 + n.getD 1 0⟩]

example : (getview (-1) [[1, 3, 4, 5], [10, 20]] tableEx).map (fun out => [[0, 0], [1, 1], [2, 0], [3, 1]].map out) =
    some [100, 201, -1, 211] := by decide +kernel

example : (∀ a ∈ ([[1, 3, 4, 5], [10, 20]] : List (List ℚ)), NotDown a) ∧
    ∀ p ∈ tableEx, p.coords.length = 2 ∧ ∀ c ∈ p.coords, c.Nodup := by
  constructor
  · intro a ha x y l h
    simp at ha
    rcases ha with rfl | rfl <;> (simp at h; obtain ⟨rfl, rfl, -⟩ := h; norm_num)
  · intro p hp
    simp [tableEx] at hp
    rcases hp with rfl | rfl <;> simp

/-- An axis that goes downwards: nothing is found, the values are NaN everywhere though the file has them. -/
theorem getview_down_violated : ∃ (xs : List (List ℚ)) (table : List (Piece ℚ)),
    (∀ i < 2, (getview (-1) xs table).map (fun out => out [i]) = some (-1)) ∧
    ∀ i < 2, ∃ p ∈ table, Offers p (point xs [i]) (5 + (i : ℚ)) := by
  refine ⟨[[2, 1]], [⟨[[2, 1]], fun n => 5 + (n.getD 0 0 : ℚ)⟩], ?_, ?_⟩
  · decide +kernel
  · intro i hi
    refine ⟨_, List.mem_cons_self .., [i], by simp [point], ?_, by simp⟩
    interval_cases i <;> simp [point]

/-- Points requested that the files have at irregular places on two axes: the read raises. -/
theorem getview_irregular_violated : getview (-1) [[1, 2, 4], [1, 2, 4]]
    [(⟨[[1, 2, 4], [1, 2, 4]], fun _ => 5⟩ : Piece ℚ)] ≠ none ∧
    getview (-1) [[1, 2, 3, 4], [1, 2, 3, 4]] [(⟨[[1, 2, 4], [1, 2, 4]], fun _ => 5⟩ : Piece ℚ)] = none := by
  constructor
  · intro h
    have := congrArg Option.isSome h
    revert this
    decide +kernel
  · have : (getview (-1) [[1, 2, 3, 4], [1, 2, 3, 4]] [(⟨[[1, 2, 4], [1, 2, 4]], fun _ => 5⟩ : Piece ℚ)]).isNone = true := by
      decide +kernel
    simpa using this

end Scan
end PyGeode
