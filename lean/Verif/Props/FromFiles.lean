/-
C110: `from_files` from the table to the values that are read.
-/
import Verif.Spec.FromFiles
import Verif.Props.Domains
import Verif.Props.Scan
import Mathlib.Data.Rat.Encodable

namespace PyGeode

/-! ### an invariant of the search for domains -/

namespace Domains
open Spec
variable {β : Type} [DecidableEq β]

theorem mergeLoop_inv {P : Domain β → Prop} (hm : ∀ d1 d2 m, m ∈ mergeInto d1 d2 → P d1 → P d2 → P m) {ds : List (Domain β)} :
    ∀ (fuel : ℕ) {merged out : List (Domain β)}, (∀ d ∈ ds, P d) → (∀ d ∈ merged, P d) → mergeLoop ds fuel merged = some out → ∀ d ∈ out, P d
  | 0, _, _, _, _, h => by simp [mergeLoop] at h
  | fuel + 1, merged, out, hd, hp, h => by
    rw [mergeLoop] at h
    split_ifs at h
    · cases h; exact hp
    · refine mergeLoop_inv hm fuel hd ?_ h
      intro d hd'
      rcases List.mem_append.1 hd' with h1 | h1
      · exact hp d h1
      · obtain ⟨-, d1, h2, d2, h3, h4⟩ := mem_mergeRound h1
        rcases merge_spec h4 with ⟨h5, -⟩ | ⟨h5, -⟩
        · exact hm _ _ _ h5 (hd d1 h2) (hp d2 h3)
        · exact hm _ _ _ h5 (hp d2 h3) (hd d1 h2)

theorem domainLoop_inv {P : Domain β → Prop} (hm : ∀ d1 d2 m, m ∈ mergeInto d1 d2 → P d1 → P d2 → P m) :
    ∀ (fuel : ℕ) {ds out : List (Domain β)}, (∀ d ∈ ds, P d) → domainLoop fuel ds = some out → ∀ d ∈ out, P d
  | 0, _, _, _, h => by simp [domainLoop] at h
  | fuel + 1, ds, out, hd, h => by
    rw [domainLoop] at h
    obtain ⟨m, h1, h2⟩ := Option.bind_eq_some_iff.1 h
    have h3 : ∀ d ∈ m, P d := by
      unfold mergeAll at h1
      obtain ⟨l, h4, rfl⟩ := Option.map_eq_some_iff.1 h1
      intro d h5
      rcases List.mem_append.1 h5 with h6 | h6
      · exact hd d h6
      · exact mergeLoop_inv hm fuel hd hd h4 d (List.mem_of_mem_filter h6)
    have h4 : ∀ d ∈ cleanup m, P d := fun d h5 => h3 d (List.mem_of_mem_filter h5)
    simp only at h2
    split_ifs at h2
    · cases h2; exact h4
    · exact domainLoop_inv hm fuel h4 h2

theorem getDomains_inv {P : Domain β → Prop} (hw : ∀ ds n d, d ∈ ds → P d → P (widen ds n d))
    (hm : ∀ d1 d2 m, m ∈ mergeInto d1 d2 → P d1 → P d2 → P m) (fuel : ℕ) (entries out : List (Domain β)) (he : ∀ d ∈ entries, P d)
    (h : getDomains fuel entries = some out) : ∀ d ∈ out, P d := by
  refine domainLoop_inv hm fuel ?_ h
  unfold prime
  suffices ∀ (ns : List Name) (cs : List (Domain β)), (∀ d ∈ cs, P d) → ∀ d ∈ ns.foldl aggregate cs, P d from
    this _ _ fun d hd => he d (List.mem_dedup.1 hd)
  intro ns
  induction ns with
  | nil => exact fun cs h => h
  | cons n ns ih =>
    intro cs h
    refine ih _ fun d hd => ?_
    obtain ⟨d', h1, rfl⟩ := mem_aggregate.1 hd
    exact hw _ _ _ h1 (h d' h1)

/-- no axis of a domain is without values if none of an entry is -/
theorem getDomains_nonempty (fuel : ℕ) (entries out : List (Domain β)) (he : ∀ d ∈ entries, ∅ ∉ d.vals)
    (h : getDomains fuel entries = some out) : ∀ d ∈ out, ∅ ∉ d.vals := by
  refine getDomains_inv (P := fun d => ∅ ∉ d.vals) ?_ ?_ fuel entries out he h
  · intro ds n d hd hP
    unfold widen
    split
    · exact hP
    · rename_i i hi
      intro hmem
      rcases List.mem_or_eq_of_mem_set hmem with h1 | h1
      · exact hP h1
      · by_cases hil : i < d.vals.length
        · apply hP
          have hsub : d.vals.getD i ∅ = ∅ := by
            rw [← Finset.subset_empty]
            intro x hx
            rw [h1, mem_foldl_union]
            refine Or.inr ⟨_, List.mem_map.2 ⟨d, List.mem_filter.2 ⟨hd, by simp [hi]⟩, rfl⟩, hx⟩
          rw [List.getD_eq_getElem _ _ hil] at hsub
          rw [← hsub]
          exact List.getElem_mem hil
        · rw [List.set_eq_of_length_le (by omega)] at hmem
          exact hP hmem
  · intro d1 d2 m hm _ _
    unfold mergeInto at hm
    simp only at hm
    split_ifs at hm
    · cases hm
    · obtain ⟨vs, -, h2⟩ := List.mem_filterMap.1 hm
      split_ifs at h2 with h3
      cases h2
      exact h3

end Domains

namespace FromFiles
open Spec Domains Scan NArr
variable {α O : Type} [DecidableEq O]

/-! ### the axis manager -/

theorem sorted_spec {β : Type} [LinearOrder β] (s : Finset β) : (∀ x, x ∈ sorted s ↔ x ∈ s) ∧ (sorted s).Pairwise (· < ·) := by
  obtain ⟨m, hm⟩ := s
  induction m using Quotient.inductionOn with
  | h l =>
    have hn : l.Nodup := hm
    refine ⟨fun x => List.mem_insertionSort _, ?_⟩
    show (l.insertionSort (· ≤ ·)).Pairwise (· < ·)
    have h1 := List.pairwise_insertionSort (· ≤ ·) l
    have h2 : (l.insertionSort (· ≤ ·)).Nodup := (List.perm_insertionSort _ l).nodup_iff.2 hn
    exact (List.pairwise_and_iff.2 ⟨h1, h2⟩).imp fun h => lt_of_le_of_ne h.1 h.2

theorem mem_numbers {V : Finset Coord} {x : ℚ} : x ∈ numbers V ↔ Sum.inr x ∈ V := by
  unfold numbers
  rw [(sorted_spec _).1, Multiset.mem_toFinset, Multiset.mem_filterMap]
  constructor
  · rintro ⟨c, hc, h⟩
    cases c with
    | inl n => simp at h
    | inr y =>
      have : y = x := by simpa using h
      subst this
      exact hc
  · intro h
    exact ⟨_, h, rfl⟩

theorem mem_namesIn {V : Finset Coord} {n : Name} : n ∈ namesIn V ↔ Sum.inl n ∈ V := by
  unfold namesIn
  rw [(sorted_spec _).1, Multiset.mem_toFinset, Multiset.mem_filterMap]
  constructor
  · rintro ⟨c, hc, h⟩
    cases c with
    | inr n => simp at h
    | inl y =>
      have : y = n := by simpa using h
      subst this
      exact hc
  · intro h
    exact ⟨_, h, rfl⟩

theorem namesIn_nodup (V : Finset Coord) : (namesIn V).Nodup := (sorted_spec _).2.imp fun h => ne_of_lt h

theorem numbers_sorted (V : Finset Coord) : (numbers V).Pairwise (· < ·) := (sorted_spec _).2

omit [DecidableEq O] in
theorem mem_settify {a : Ax O} {x : ℚ} : Sum.inr x ∈ settify a ↔ x ∈ a.values := by
  unfold settify
  rw [List.mem_toFinset, List.mem_map]
  constructor
  · rintro ⟨y, h1, h2⟩
    cases h2
    exact h1
  · exact fun h => ⟨x, h, rfl⟩

omit [DecidableEq O] in
theorem numbers_inter {a b : Ax O} (h : NotDown a.values) : numbers (settify a ∩ settify b) = inter a.values b.values := by
  obtain ⟨h1, h2⟩ := inter_spec (a2 := b.values) h
  refine List.Pairwise.eq_of_mem_iff (numbers_sorted _) h1 fun x => ?_
  rw [h2, mem_numbers, Finset.mem_inter, mem_settify, mem_settify]

/-- the axis has the name, the class and the origin of an axis of the files -/
def Kin (entries : List (Entry α O)) (s : Ax O) : Prop :=
  ∃ e ∈ entries, ∃ a ∈ e.axes, s.name = a.name ∧ s.cls = a.cls ∧ s.origin = a.origin

/-- what the manager remembers is right -/
structure Sound (entries : List (Entry α O)) (M : Manager O) : Prop where
  made : ∀ p ∈ M.made, p.1.1 = p.2.cls ∧ p.2.values = numbers p.1.2 ∧ Kin entries p.2
  crossed : ∀ p ∈ M.crossed, p.2.values = numbers (settify p.1.1 ∩ settify p.1.2)

omit [DecidableEq O] in
theorem kin_eq {entries : List (Entry α O)} (hs : Scannable entries) {s t : Ax O} (h1 : Kin entries s) (h2 : Kin entries t)
    (h : s.cls = t.cls ∨ s.name = t.name) : s.name = t.name ∧ s.cls = t.cls ∧ s.origin = t.origin := by
  obtain ⟨e, he, a, ha, a1, a2, a3⟩ := h1
  obtain ⟨e', he', b, hb, b1, b2, b3⟩ := h2
  obtain ⟨k1, k2⟩ := hs.kind e he e' he' a ha b hb
  have hn : a.name = b.name := by
    rcases h with h | h
    · exact k1.2 (by rw [← a2, ← b2, h])
    · rw [← a1, ← b1, h]
  exact ⟨by rw [a1, b1, hn], by rw [a2, b2, k1.1 hn], by rw [a3, b3, k2 hn]⟩

theorem mem_of_lookup {κ V : Type} [BEq κ] [LawfulBEq κ] {l : List (κ × V)} {k : κ} {v : V} (h : l.lookup k = some v) : (k, v) ∈ l := by
  induction l with
  | nil => cases h
  | cons p l ih =>
    rw [List.lookup_cons] at h
    by_cases hk : k == p.1
    · rw [hk] at h
      cases h
      rw [eq_of_beq hk]
      exact List.mem_cons_self ..
    · rw [Bool.eq_false_iff.2 hk] at h
      exact List.mem_cons_of_mem _ (ih h)

omit [DecidableEq O] in
theorem rebuild_up {s : Ax O} (h : NotDown s.values) (V : Finset Coord) : rebuild s V = { s with values := numbers V } := by
  unfold rebuild
  congr 1
  split
  · rename_i x y l hv
    rw [if_neg (not_lt.2 (h x y l hv))]
  · rfl

theorem unsettify_spec {entries : List (Entry α O)} (hs : Scannable entries) {M : Manager O} (hM : Sound entries M) {s : Ax O}
    (hk : Kin entries s) (hd : NotDown s.values) (V : Finset Coord) :
    (unsettify M s V).1 = { s with values := numbers V } ∧ Sound entries (unsettify M s V).2 := by
  unfold unsettify
  split
  · rename_i a ha
    have hm := mem_of_lookup ha
    obtain ⟨h1, h2, h3⟩ := hM.made _ hm
    obtain ⟨k1, k2, k3⟩ := kin_eq hs h3 hk (Or.inl h1.symm)
    refine ⟨?_, hM⟩
    cases a; cases s
    simp_all
  · rw [rebuild_up hd]
    refine ⟨rfl, ⟨fun p hp => ?_, hM.crossed⟩⟩
    rcases List.mem_cons.1 hp with rfl | hp
    · obtain ⟨e, he, a, ha, hh⟩ := hk
      exact ⟨rfl, rfl, e, he, a, ha, hh⟩
    · exact hM.made p hp

theorem intersect_spec {entries : List (Entry α O)} (hs : Scannable entries) {M : Manager O} (hM : Sound entries M) {a b : Ax O}
    (hk : Kin entries a) (hd : NotDown a.values) :
    (intersect M a b).1.values = inter a.values b.values ∧ Sound entries (intersect M a b).2 := by
  unfold intersect
  split
  · rename_i c hc
    refine ⟨?_, hM⟩
    rw [← numbers_inter hd]
    rcases Option.or_eq_some_iff.1 hc with h | ⟨-, h⟩
    · exact hM.crossed _ (mem_of_lookup h)
    · rw [Finset.inter_comm]
      exact hM.crossed _ (mem_of_lookup h)
  · obtain ⟨h1, h2⟩ := unsettify_spec hs hM hk hd (settify a ∩ settify b)
    have h3 : (unsettify M a (settify a ∩ settify b)).1.values = inter a.values b.values := by
      rw [h1, ← numbers_inter hd]
    simp only
    split_ifs
    · exact ⟨h3, h2⟩
    · refine ⟨h3, ⟨h2.made, fun p hp => ?_⟩⟩
      rcases List.mem_cons.1 hp with rfl | hp
      · rw [h1]
      · exact h2.crossed p hp

theorem subaxes_spec {entries : List (Entry α O)} (hs : Scannable entries) : ∀ (l : List (Ax O × Ax O)) {M : Manager O}, Sound entries M →
    (∀ p ∈ l, Kin entries p.1 ∧ NotDown p.1.values) →
    (subaxes M l).1.map Ax.values = l.map (fun p => inter p.1.values p.2.values) ∧ Sound entries (subaxes M l).2
  | [], M, hM, _ => ⟨rfl, hM⟩
  | (a, b) :: l, M, hM, h => by
    obtain ⟨h1, h2⟩ := intersect_spec hs hM (b := b) (h (a, b) (by simp)).1 (h (a, b) (by simp)).2
    obtain ⟨h3, h4⟩ := subaxes_spec hs l h2 fun p hp => h p (by simp [hp])
    rw [subaxes]
    exact ⟨by rw [List.map_cons, List.map_cons, h1, h3], h4⟩

theorem readStep_spec {entries : List (Entry α O)} (hs : Scannable entries) {axes : List (Ax O)} (hax : ∀ a ∈ axes, Kin entries a ∧ NotDown a.values)
    {st st' : (List ℕ → α) × Manager O} (hM : Sound entries st.2) {e : Entry α O} (h : readStep axes st e = some st') :
    overlay (axes.map Ax.values) st.1 (piece e) = some st'.1 ∧ Sound entries st'.2 := by
  unfold readStep at h
  simp only at h
  obtain ⟨out, h1, rfl⟩ := Option.map_eq_some_iff.1 h
  obtain ⟨h2, h3⟩ := subaxes_spec hs (axes.zip e.axes) hM fun p hp => hax p.1 (List.of_mem_zip hp).1
  refine ⟨?_, h3⟩
  rw [h2] at h1
  unfold overlay piece
  simp only
  rw [List.zipWith_map, ← h1]
  congr 1
  rw [List.zip, List.map_zipWith]

theorem foldlM_spec {entries : List (Entry α O)} (hs : Scannable entries) {axes : List (Ax O)} (hax : ∀ a ∈ axes, Kin entries a ∧ NotDown a.values) :
    ∀ (table : List (Entry α O)) {st st' : (List ℕ → α) × Manager O}, Sound entries st.2 → table.foldlM (readStep axes) st = some st' →
      (table.map piece).foldlM (overlay (axes.map Ax.values)) st.1 = some st'.1 ∧ Sound entries st'.2
  | [], st, st', hM, h => by
    cases h
    exact ⟨rfl, hM⟩
  | e :: table, st, st', hM, h => by
    rw [List.foldlM_cons] at h
    obtain ⟨s1, h1, h2⟩ := Option.bind_eq_some_iff.1 h
    obtain ⟨h3, h4⟩ := readStep_spec hs hax hM h1
    obtain ⟨h5, h6⟩ := foldlM_spec hs hax table h4 h2
    refine ⟨?_, h6⟩
    rw [List.map_cons, List.foldlM_cons, h3]
    exact h5

/-! ### the datasets -/

theorem makeAxes_spec {entries : List (Entry α O)} (hs : Scannable entries) {pick : Name → Ax O} :
    ∀ (l : List (Name × Finset Coord)) {M : Manager O}, Sound entries M →
    (∀ p ∈ l, p.1 ≠ varlist → Kin entries (pick p.1) ∧ NotDown (pick p.1).values) →
    (makeAxes M pick l).1 = (l.filter fun p => decide (p.1 ≠ varlist)).map (fun p => { pick p.1 with values := numbers p.2 }) ∧
      Sound entries (makeAxes M pick l).2
  | [], M, hM, _ => ⟨rfl, hM⟩
  | (n, V) :: l, M, hM, h => by
    rw [makeAxes]
    split_ifs with hn
    · rw [List.filter_cons_of_neg (by simpa using hn)]
      exact makeAxes_spec hs l hM fun p hp => h p (List.mem_cons_of_mem _ hp)
    · obtain ⟨h1, h2⟩ := unsettify_spec hs hM (h (n, V) (by simp) hn).1 (h (n, V) (by simp) hn).2 V
      obtain ⟨h3, h4⟩ := makeAxes_spec hs l h2 fun p hp => h p (by simp [hp])
      rw [List.filter_cons_of_pos (by simpa using hn), List.map_cons]
      exact ⟨by rw [← h3]; exact congrArg₂ _ h1 rfl, h4⟩

/-- the axes of the dataset of a domain -/
def axesOf (pick : Name → Ax O) (d : Domain Coord) : List (Ax O) :=
  ((d.names.zip d.vals).filter fun p => decide (p.1 ≠ varlist)).map (fun p => { pick p.1 with values := numbers p.2 })

theorem asDatasets_spec {entries : List (Entry α O)} (hs : Scannable entries) {pick : Domain Coord → Name → Ax O} :
    ∀ (ds : List (Domain Coord)) {M : Manager O}, Sound entries M →
    (∀ d ∈ ds, ∀ p ∈ d.names.zip d.vals, p.1 ≠ varlist → Kin entries (pick d p.1) ∧ NotDown (pick d p.1).values) →
    (asDatasets entries pick M ds).1 = ds.map (fun d => (namesIn (valuesOf d varlist)).map (construct entries (axesOf (pick d) d))) ∧
      Sound entries (asDatasets entries pick M ds).2
  | [], M, hM, _ => ⟨rfl, hM⟩
  | d :: ds, M, hM, h => by
    obtain ⟨h1, h2⟩ := makeAxes_spec hs (d.names.zip d.vals) hM (h d (by simp))
    obtain ⟨h3, h4⟩ := asDatasets_spec hs ds h2 fun e he => h e (by simp [he])
    rw [asDatasets]
    refine ⟨?_, h4⟩
    rw [List.map_cons, ← h3]
    show (asDataset entries (pick d) M d).1 :: _ = _
    rw [asDataset]
    simp only
    rw [h1]
    rfl

theorem entry_proper {entries : List (Entry α O)} (hs : Scannable entries) : ∀ d ∈ entries.map entryDomain, Proper d := by
  intro d hd
  obtain ⟨e, he, rfl⟩ := List.mem_map.1 hd
  refine ⟨List.nodup_cons.2 ⟨hs.novarlist e he, hs.nodup e he⟩, ?_⟩
  unfold entryDomain
  simp only [List.length_cons, List.length_map]

omit [DecidableEq O] in
theorem names_eq {entries : List (Entry α O)} (hs : Scannable entries) {e e' : Entry α O} (he : e ∈ entries) (he' : e' ∈ entries)
    (h : ∀ n ∈ e.axes.map Ax.name, n ∈ e'.axes.map Ax.name) :
    e.axes.map Ax.name = (e'.axes.map Ax.name).filter (fun n => decide (n ∈ e.axes.map Ax.name)) := by
  rw [← hs.order e he e' he', List.filter_eq_self.2]
  exact fun n hn => decide_eq_true (h n hn)

theorem entry_order {entries : List (Entry α O)} (hs : Scannable entries) : SameOrder (entries.map entryDomain) := by
  intro d hd d' hd' h
  obtain ⟨e, he, rfl⟩ := List.mem_map.1 hd
  obtain ⟨e', he', rfl⟩ := List.mem_map.1 hd'
  have h1 : ∀ n, n ∈ e.axes.map Ax.name ↔ n ∈ e'.axes.map Ax.name := by
    intro n
    have := h n
    unfold entryDomain at this
    simp only [List.mem_cons] at this
    constructor
    · intro hn
      rcases this.1 (Or.inr hn) with rfl | h2
      · exact absurd hn (hs.novarlist e he)
      · exact h2
    · intro hn
      rcases this.2 (Or.inr hn) with rfl | h2
      · exact absurd hn (hs.novarlist e' he')
      · exact h2
  show varlist :: _ = varlist :: _
  rw [names_eq hs he he' fun n hn => (h1 n).1 hn, List.filter_eq_self.2]
  exact fun n hn => decide_eq_true ((h1 n).2 hn)

omit [DecidableEq O] in
theorem inBox_entry {e : Entry α O} {p : Name → Coord} : InBox (entryDomain e) p ↔ p varlist = Sum.inl e.name ∧
    ∀ a ∈ e.axes, p a.name ∈ settify a := by
  unfold InBox entryDomain
  constructor
  · intro h
    refine ⟨by simpa using h 0 varlist {Sum.inl e.name} rfl rfl, fun a ha => ?_⟩
    obtain ⟨i, hi, rfl⟩ := List.getElem_of_mem ha
    refine h (i + 1) _ _ ?_ ?_
    · rw [List.getElem?_cons_succ, List.getElem?_map, List.getElem?_eq_getElem hi]; rfl
    · rw [List.getElem?_cons_succ, List.getElem?_map, List.getElem?_eq_getElem hi]; rfl
  · rintro ⟨h1, h2⟩ i n v hn hv
    cases i with
    | zero =>
      cases hn; cases hv
      rw [h1]
      exact Finset.mem_singleton_self _
    | succ i =>
      rw [List.getElem?_cons_succ, List.getElem?_map] at hn hv
      obtain ⟨a, h3, rfl⟩ := Option.map_eq_some_iff.1 hn
      rw [h3] at hv
      cases hv
      exact h2 a (List.mem_of_getElem? h3)

/-- what is known about a domain of the files -/
structure Good (entries : List (Entry α O)) (pick : Name → Ax O) (d : Domain Coord) : Prop where
  proper : Proper d
  names : ∃ e ∈ entries, d.names = varlist :: e.axes.map Ax.name
  full : ∅ ∉ d.vals
  covered : ∀ p : Name → Coord, InBox d p → ∃ e ∈ entries, InBox (entryDomain e) p

omit [DecidableEq O] in
theorem mem_axesOf {pick : Name → Ax O} {d : Domain Coord} (hd : Proper d) {a : Ax O} (ha : a ∈ axesOf pick d) :
    ∃ n ∈ d.names, n ≠ varlist ∧ a = { pick n with values := numbers (valuesOf d n) } := by
  unfold axesOf at ha
  obtain ⟨p, h1, rfl⟩ := List.mem_map.1 ha
  obtain ⟨h2, h3⟩ := List.mem_filter.1 h1
  obtain ⟨i, hi, rfl⟩ := List.getElem_of_mem h2
  have hi' : i < d.names.length := by rw [List.length_zip] at hi; omega
  have hi2 : i < d.vals.length := by rw [List.length_zip] at hi; omega
  refine ⟨d.names[i], List.getElem_mem _, ?_, ?_⟩
  · simpa using h3
  · rw [valuesOf_at hd (List.getElem?_eq_getElem hi') (List.getElem?_eq_getElem hi2)]
    simp

theorem good_of {entries : List (Entry α O)} (hs : Scannable entries) {pick : Name → Ax O} {fuel : ℕ} {ds : List (Domain Coord)}
    (h : getDomains fuel (entries.map entryDomain) = some ds) : ∀ d ∈ ds, Good entries pick d := by
  obtain ⟨h1, h2⟩ := getDomains_correct fuel _ _ (entry_proper hs) (entry_order hs) h
  intro d hd
  obtain ⟨h3, d0, he0, h4⟩ := h2 d hd
  obtain ⟨e, he, rfl⟩ := List.mem_map.1 he0
  refine ⟨h3, ⟨e, he, h4⟩, ?_, ?_⟩
  · refine getDomains_nonempty fuel _ _ ?_ h d hd
    intro d hd
    obtain ⟨e, he, rfl⟩ := List.mem_map.1 hd
    intro hm
    rcases List.mem_cons.1 hm with h5 | h5
    · exact absurd h5.symm (Finset.singleton_ne_empty _)
    · obtain ⟨a, ha, h6⟩ := List.mem_map.1 h5
      obtain ⟨x, hx⟩ := List.exists_mem_of_ne_nil _ (hs.up e he a ha).2
      have := mem_settify.2 hx
      rw [h6] at this
      cases this
  · intro p hp
    obtain ⟨d', hd', h5⟩ := (h1 p).1 ⟨d, hd, hp⟩
    obtain ⟨e, he, rfl⟩ := List.mem_map.1 hd'
    exact ⟨e, he, h5⟩

omit [DecidableEq O] in
theorem sample_kin {entries : List (Entry α O)} (hs : Scannable entries) {pick : Name → Ax O} (hp : Samples entries pick) {n : Name}
    (hn : ∃ e ∈ entries, n ∈ e.axes.map Ax.name) : (pick n).name = n ∧ Kin entries (pick n) ∧ NotDown (pick n).values := by
  obtain ⟨e, he, h⟩ := hn
  obtain ⟨a, ha, rfl⟩ := List.mem_map.1 h
  obtain ⟨h1, e', he', h2⟩ := hp e he a ha
  refine ⟨h1, ⟨e', he', _, h2, rfl, rfl, rfl⟩, ?_⟩
  intro x y l hv
  have := (hs.up e' he' _ h2).1
  rw [hv] at this
  exact le_of_lt ((List.pairwise_cons.1 this).1 y (by simp))

/-- every point on the axes of a domain, for a variable in it, is in some file -/
theorem found_in {entries : List (Entry α O)} {pick : Name → Ax O} {d : Domain Coord} (hg : Good entries pick d)
    {name : Name} (hn : Sum.inl name ∈ valuesOf d varlist) (q : Name → Coord) (S : Name → Prop)
    (hpt : ∀ n ∈ d.names, n ≠ varlist → S n → q n ∈ valuesOf d n) :
    ∃ e ∈ entries, e.name = name ∧ ∀ a ∈ e.axes, a.name ∈ d.names ∧ (S a.name → q a.name ∈ settify a) := by
  classical
  have hne : ∀ n ∈ d.names, ∃ c, c ∈ valuesOf d n := by
    intro n hn
    obtain ⟨i, hi, rfl⟩ := List.getElem_of_mem hn
    have hi' : i < d.vals.length := by rw [hg.proper.len]; exact hi
    rw [valuesOf_at hg.proper (List.getElem?_eq_getElem hi) (List.getElem?_eq_getElem hi')]
    refine Finset.Nonempty.exists_mem (Finset.nonempty_iff_ne_empty.2 fun h => hg.full ?_)
    rw [← h]
    exact List.getElem_mem _
  let p : Name → Coord := fun n =>
    if n = varlist then Sum.inl name else
    if h : n ∈ d.names then (if S n then q n else (hne n h).choose) else Sum.inl []
  have hp : InBox d p := by
    rw [holds_iff hg.proper]
    intro n h
    show (if n = varlist then _ else _) ∈ _
    split_ifs with h1 h2
    · rw [h1]; exact hn
    · exact hpt n h h1 h2
    · exact (hne n h).choose_spec
  obtain ⟨e, he, h⟩ := hg.covered p hp
  obtain ⟨h1, h2⟩ := inBox_entry.1 h
  have h1' : (Sum.inl name : Coord) = Sum.inl e.name := by
    rw [← h1]
    exact (if_pos rfl).symm
  have hl : ∀ (a : Ax O) (m : Name), Sum.inl m ∉ settify a := by
    intro a m hm
    unfold settify at hm
    rw [List.mem_toFinset, List.mem_map] at hm
    obtain ⟨y, -, hy⟩ := hm
    cases hy
  refine ⟨e, he, (Sum.inl.inj h1').symm, fun a ha => ?_⟩
  have h3 : (if a.name = varlist then Sum.inl name else
    if h : a.name ∈ d.names then (if S a.name then q a.name else (hne a.name h).choose) else Sum.inl []) ∈ settify a := h2 a ha
  split_ifs at h3 with h4 h5 h6
  · exact absurd h3 (hl _ _)
  · exact ⟨h5, fun _ => h3⟩
  · exact ⟨h5, fun hS => absurd hS h6⟩
  · exact absurd h3 (hl _ _)

theorem exists_last {β : Type} {P : β → Prop} {l : List β} (h : ∃ e ∈ l, P e) :
    ∃ l1 e l2, l = l1 ++ e :: l2 ∧ P e ∧ ∀ e' ∈ l2, ¬ P e' := by
  classical
  induction l with
  | nil => obtain ⟨e, he, -⟩ := h; cases he
  | cons a l ih =>
    by_cases hl : ∃ e ∈ l, P e
    · obtain ⟨l1, e, l2, rfl, h1, h2⟩ := ih hl
      exact ⟨a :: l1, e, l2, rfl, h1, h2⟩
    · refine ⟨[], a, l, rfl, ?_, fun e' he' hP => hl ⟨e', he', hP⟩⟩
      obtain ⟨e, he, hP⟩ := h
      rcases List.mem_cons.1 he with rfl | he
      · exact hP
      · exact absurd ⟨e, he, hP⟩ hl

omit [DecidableEq O] in
theorem filter_map_name {axes : List (Ax O)} (P : Name → Bool) : (axes.filter fun a => P a.name).map Ax.name = (axes.map Ax.name).filter P := by
  rw [List.filter_map]
  rfl

theorem axesOf_names {entries : List (Entry α O)} (hs : Scannable entries) {pick : Name → Ax O} (hp : Samples entries pick)
    {d : Domain Coord} (hd : Proper d) {e : Entry α O} (he : e ∈ entries) (hn : d.names = varlist :: e.axes.map Ax.name) :
    (axesOf pick d).map Ax.name = e.axes.map Ax.name := by
  unfold axesOf
  rw [List.map_map]
  have h1 : ((d.names.zip d.vals).filter fun p => decide (p.1 ≠ varlist)).map (Ax.name ∘ fun p => { pick p.1 with values := numbers p.2 }) =
      ((d.names.zip d.vals).filter fun p => decide (p.1 ≠ varlist)).map Prod.fst := by
    refine List.map_congr_left fun p hp' => ?_
    obtain ⟨h2, h3⟩ := List.mem_filter.1 hp'
    have h4 := (List.of_mem_zip (a := p.1) (b := p.2) h2).1
    rw [hn] at h4
    rcases List.mem_cons.1 h4 with h5 | h5
    · exact absurd h5 (of_decide_eq_true h3)
    · exact (sample_kin hs hp ⟨e, he, h5⟩).1
  rw [h1]
  have h2 : ((d.names.zip d.vals).filter fun p => decide (p.1 ≠ varlist)).map Prod.fst =
      ((d.names.zip d.vals).map Prod.fst).filter fun n => decide (n ≠ varlist) := by
    rw [List.filter_map]
    rfl
  rw [h2, List.map_fst_zip (by rw [hd.len]), hn, List.filter_cons_of_neg (by simp), List.filter_eq_self.2]
  intro n h
  exact decide_eq_true fun h3 => hs.novarlist e he (h3 ▸ h)

theorem construct_spec {entries : List (Entry α O)} (hs : Scannable entries) {pick : Name → Ax O} (hp : Samples entries pick)
    {d : Domain Coord} (hg : Good entries pick d) {name : Name} (hn : Sum.inl name ∈ valuesOf d varlist) :
    (∃ e ∈ entries, e.name = name) ∧
    (∀ e ∈ entries, e.name = name → (construct entries (axesOf pick d) name).axes.map Ax.name = e.axes.map Ax.name) ∧
    (∀ a ∈ (construct entries (axesOf pick d) name).axes, Kin entries a ∧ a.name ∈ d.names ∧ a.name ≠ varlist ∧
      a = { pick a.name with values := numbers (valuesOf d a.name) }) := by
  obtain ⟨e1, he1, hn1, hsub⟩ := found_in hg hn (fun _ => Sum.inl []) (fun _ => False) (fun _ _ _ h => h.elim)
  obtain ⟨e0, he0, hd0⟩ := hg.names
  have hsub1 : ∀ n ∈ e1.axes.map Ax.name, n ∈ e0.axes.map Ax.name := by
    intro n h
    obtain ⟨a, ha, rfl⟩ := List.mem_map.1 h
    have h2 := (hsub a ha).1
    rw [hd0] at h2
    rcases List.mem_cons.1 h2 with h3 | h3
    · exact absurd (h3 ▸ h) (hs.novarlist e1 he1)
    · exact h3
  refine ⟨⟨e1, he1, hn1⟩, fun e he hne => ?_, fun a ha => ?_⟩
  · rw [hs.same e he e1 he1 (hne.trans hn1.symm)]
    unfold construct
    simp only
    rw [filter_map_name fun n => decide (n ∈ (entries.filter fun e => decide (e.name = name)).flatMap fun e => e.axes.map Ax.name),
      axesOf_names hs hp hg.proper he0 hd0, names_eq hs he1 he0 hsub1]
    refine List.filter_congr fun n _ => ?_
    refine decide_eq_decide.2 ?_
    rw [List.mem_flatMap]
    constructor
    · rintro ⟨e', h1, h2⟩
      obtain ⟨h3, h4⟩ := List.mem_filter.1 h1
      have h5 := hs.same e' h3 e1 he1 ((of_decide_eq_true h4).trans hn1.symm)
      rw [← h5]
      exact h2
    · intro h
      exact ⟨e1, List.mem_filter.2 ⟨he1, decide_eq_true hn1⟩, h⟩
  · have ha' := List.mem_of_mem_filter ha
    obtain ⟨n, h1, h2, h3⟩ := mem_axesOf hg.proper ha'
    have h4 : n ∈ e0.axes.map Ax.name := by
      rw [hd0] at h1
      exact (List.mem_cons.1 h1).resolve_left h2
    obtain ⟨k1, k2, k3⟩ := sample_kin hs hp ⟨e0, he0, h4⟩
    have h5 : a.name = n := by rw [h3]; exact k1
    refine ⟨?_, by rw [h5]; exact h1, by rw [h5]; exact h2, by rw [h5]; exact h3⟩
    rw [h3]
    obtain ⟨e, he, b, hb, hh⟩ := k2
    exact ⟨e, he, b, hb, hh⟩

theorem values_spec {entries : List (Entry α O)} (hs : Scannable entries) {pick : Name → Ax O} (hp : Samples entries pick)
    {d : Domain Coord} (hg : Good entries pick d) {name : Name} (hn : Sum.inl name ∈ valuesOf d varlist) :
    ∀ a ∈ (construct entries (axesOf pick d) name).axes, a.values.Pairwise (· < ·) ∧ a.values ≠ [] := by
  obtain ⟨h1, h2, h3⟩ := construct_spec hs hp hg hn
  intro a ha
  obtain ⟨-, h4, h5, h6⟩ := h3 a ha
  have hv : a.values = numbers (valuesOf d a.name) := by
    conv_lhs => rw [h6]
  refine ⟨by rw [hv]; exact numbers_sorted _, ?_⟩
  obtain ⟨i, hi, hi2⟩ := List.getElem_of_mem h4
  have hi' : i < d.vals.length := by rw [hg.proper.len]; exact hi
  have h7 : valuesOf d a.name = d.vals[i] :=
    valuesOf_at hg.proper (by rw [← hi2]; exact List.getElem?_eq_getElem hi) (List.getElem?_eq_getElem hi')
  obtain ⟨c, hc⟩ : (valuesOf d a.name).Nonempty := by
    refine Finset.nonempty_iff_ne_empty.2 fun h => hg.full ?_
    rw [← h, h7]
    exact List.getElem_mem _
  obtain ⟨e, he, hne, h8⟩ := found_in hg hn (fun _ => c) (fun n => n = a.name) (fun n _ _ h => h ▸ hc)
  have h9 : a.name ∈ e.axes.map Ax.name := by
    rw [← h2 e he hne]
    exact List.mem_map_of_mem ha
  obtain ⟨b, hb, hbn⟩ := List.mem_map.1 h9
  have h10 := (h8 b hb).2 hbn
  unfold settify at h10
  rw [List.mem_toFinset, List.mem_map] at h10
  obtain ⟨x, -, rfl⟩ := h10
  rw [hv]
  exact List.ne_nil_of_mem (mem_numbers.2 hc)

omit [DecidableEq O] in
theorem labels_eq {entries : List (Entry α O)} (hs : Scannable entries) {l l' : List (Ax O)} (h : l.map Ax.name = l'.map Ax.name)
    (h1 : ∀ a ∈ l, Kin entries a) (h2 : ∀ a ∈ l', Kin entries a) : labels l = labels l' := by
  induction l generalizing l' with
  | nil =>
    cases l' with
    | nil => rfl
    | cons b l' => cases h
  | cons a l ih =>
    cases l' with
    | nil => cases h
    | cons b l' =>
      rw [List.map_cons, List.map_cons, List.cons.injEq] at h
      obtain ⟨k1, k2, k3⟩ := kin_eq hs (h1 a (by simp)) (h2 b (by simp)) (Or.inr h.1)
      have := ih h.2 (fun c hc => h1 c (by simp [hc])) (fun c hc => h2 c (by simp [hc]))
      unfold labels at this ⊢
      rw [List.map_cons, List.map_cons, this, k1, k2, k3]

omit [DecidableEq O] in
theorem kin_own {entries : List (Entry α O)} {e : Entry α O} (he : e ∈ entries) : ∀ a ∈ e.axes, Kin entries a :=
  fun a ha => ⟨e, he, a, ha, rfl, rfl, rfl⟩

theorem pairwise_pick {a : List ℚ} (ha : a.Pairwise (· < ·)) {l : List ℕ} (hl : l.Pairwise (· < ·)) (hb : ∀ i ∈ l, i < a.length) :
    (l.map fun i : ℕ => a.getD i 0).Pairwise (· < ·) := by
  rw [List.pairwise_map]
  refine hl.imp_of_mem fun {i j} hi hj hij => ?_
  rw [List.getD_eq_getElem _ _ (hb i hi), List.getD_eq_getElem _ _ (hb j hj)]
  exact List.pairwise_iff_getElem.1 ha i j _ _ hij

theorem notDown_of {a : List ℚ} (ha : a.Pairwise (· < ·)) : NotDown a := by
  rintro x y l rfl
  exact le_of_lt ((List.pairwise_cons.1 ha).1 y (by simp))

theorem clipped_ok {entries : List (Entry α O)} {x : DVar α O} (hx : ∀ a ∈ x.axes, Kin entries a ∧ a.values.Pairwise (· < ·))
    {I : List (List ℕ)} (hI : Ascending x.axes I) : ∀ a ∈ clipped x I, Kin entries a ∧ NotDown a.values := by
  intro a ha
  unfold clipped at ha
  obtain ⟨j, hj, rfl⟩ := List.getElem_of_mem ha
  rw [List.getElem_zipWith]
  rw [List.length_zipWith] at hj
  have h1 : j < x.axes.length := by omega
  have h2 : j < I.length := by omega
  obtain ⟨h3, h4⟩ := hx _ (List.getElem_mem h1)
  obtain ⟨h5, h6⟩ := (List.forall₂_iff_get.1 hI).2 j h1 h2
  refine ⟨?_, notDown_of (pairwise_pick h4 h5 h6)⟩
  obtain ⟨e, he, b, hb, hh⟩ := h3
  exact ⟨e, he, b, hb, hh⟩

/-- the datasets and the memory of the manager -/
structure Made (entries : List (Entry α O)) (pick : Domain Coord → Name → Ax O) (ds : List (Domain Coord)) (sets : List (List (DVar α O)))
    (M : Manager O) : Prop where
  good : ∀ d ∈ ds, Good entries (pick d) d
  sets : sets = ds.map (fun d => (namesIn (valuesOf d varlist)).map (construct entries (axesOf (pick d) d)))
  sound : Sound entries M

theorem made_of {files : List (List (Entry α O))} (hs : Scannable files.flatten) {pick : Domain Coord → Name → Ax O}
    (hp : ∀ d, Samples files.flatten (pick d)) {fuel : ℕ} {sets : List (List (DVar α O))} {M : Manager O}
    (h : fromFiles fuel pick files = some (sets, M)) :
    ∃ ds, getDomains fuel (files.flatten.map entryDomain) = some ds ∧ Made files.flatten pick ds sets M := by
  unfold fromFiles at h
  obtain ⟨ds, h1, h2⟩ := Option.map_eq_some_iff.1 h
  have hg : ∀ d ∈ ds, Good files.flatten (pick d) d := fun d hd => good_of hs h1 d hd
  obtain ⟨h3, h4⟩ := asDatasets_spec (M := {}) hs (pick := pick) ds ⟨fun p hp => (by cases hp), fun p hp => (by cases hp)⟩ (by
    intro d hd p hpd hne
    obtain ⟨e0, he0, hd0⟩ := (hg d hd).names
    have h5 := (List.of_mem_zip (a := p.1) (b := p.2) hpd).1
    rw [hd0] at h5
    exact (sample_kin hs (hp d) ⟨e0, he0, (List.mem_cons.1 h5).resolve_left hne⟩).2)
  rw [h2] at h3 h4
  exact ⟨ds, h1, hg, h3, h4⟩

theorem Made.var {entries : List (Entry α O)} {pick : Domain Coord → Name → Ax O} {ds : List (Domain Coord)}
    {sets : List (List (DVar α O))} {M : Manager O} (hm : Made entries pick ds sets M) {set : List (DVar α O)} (hset : set ∈ sets) :
    ∃ d ∈ ds, set = (namesIn (valuesOf d varlist)).map (construct entries (axesOf (pick d) d)) := by
  rw [hm.sets] at hset
  obtain ⟨d, hd, h⟩ := List.mem_map.1 hset
  exact ⟨d, hd, h.symm⟩

theorem assembled {entries : List (Entry α O)} (hs : Scannable entries) {pick : Domain Coord → Name → Ax O}
    (hp : ∀ d, Samples entries (pick d)) {ds : List (Domain Coord)} {sets : List (List (DVar α O))} {M : Manager O}
    (hm : Made entries pick ds sets M) : ∀ set ∈ sets, Assembled entries set := by
  intro set hset
  obtain ⟨d, hd, rfl⟩ := hm.var hset
  have hg := hm.good d hd
  refine ⟨?_, ?_, ?_, ?_⟩
  · intro x hx
    obtain ⟨n, hn, rfl⟩ := List.mem_map.1 hx
    obtain ⟨⟨e, he, h1⟩, h2, h3⟩ := construct_spec hs (hp d) hg (mem_namesIn.1 hn)
    exact ⟨e, he, h1, labels_eq hs (h2 e he h1) (fun a ha => (h3 a ha).1) (kin_own he)⟩
  · intro x hx
    obtain ⟨n, hn, rfl⟩ := List.mem_map.1 hx
    exact values_spec hs (hp d) hg (mem_namesIn.1 hn)
  · rw [List.map_map]
    have : (DVar.name ∘ construct entries (axesOf (pick d) d)) = id := rfl
    rw [this, List.map_id]
    exact namesIn_nodup _
  · intro x hx y hy a ha b hb hab
    obtain ⟨n, hn, rfl⟩ := List.mem_map.1 hx
    obtain ⟨m, hm, rfl⟩ := List.mem_map.1 hy
    have h1 := ((construct_spec hs (hp d) hg (mem_namesIn.1 hn)).2.2 a ha).2.2.2
    have h2 := ((construct_spec hs (hp d) hg (mem_namesIn.1 hm)).2.2 b hb).2.2.2
    rw [h1, h2, hab]

theorem sound_after {entries : List (Entry α O)} (hs : Scannable entries) {pick : Domain Coord → Name → Ax O}
    (hp : ∀ d, Samples entries (pick d)) {ds : List (Domain Coord)} {sets : List (List (DVar α O))} {M : Manager O}
    (hm : Made entries pick ds sets M) {nan : α} {M' : Manager O} (h : AfterReads nan sets M M') : Sound entries M' := by
  induction h with
  | start => exact hm.sound
  | read h1 hds hx hI hg ih =>
    obtain ⟨d, hd, rfl⟩ := hm.var hds
    obtain ⟨n, hn, rfl⟩ := List.mem_map.1 hx
    obtain ⟨-, -, h3⟩ := construct_spec hs (hp d) (hm.good d hd) (mem_namesIn.1 hn)
    have h4 := values_spec hs (hp d) (hm.good d hd) (mem_namesIn.1 hn)
    exact (foldlM_spec hs (clipped_ok (fun a ha => ⟨(h3 a ha).1, (h4 a ha).1⟩) hI) _ ih hg).2

theorem offers_iff {x : DVar α O} {I : List (List ℕ)} (hI : Ascending x.axes I) {k : List ℕ} {pt : Name → ℚ} (hk : CellAt x I k pt)
    {e : Entry α O} (he : x.axes.map Ax.name = e.axes.map Ax.name) (v : α) :
    Offers (piece e) (Spec.point ((clipped x I).map Ax.values) k) v ↔ HasValue e pt v := by
  have hlen : x.axes.length = e.axes.length := by simpa using congrArg List.length he
  have hIl : x.axes.length = I.length := hI.length_eq
  have hcl : ((clipped x I).map Ax.values).length = x.axes.length := by
    rw [List.length_map, clipped, List.length_zipWith, hIl, min_self]
  have hpl : (Spec.point ((clipped x I).map Ax.values) k).length = e.axes.length := by
    unfold Spec.point
    rw [List.length_map, List.length_range, hcl, hlen]
  have key : ∀ (j : ℕ) (a : Ax O), e.axes[j]? = some a → (Spec.point ((clipped x I).map Ax.values) k).getD j 0 = pt a.name ∧
      (piece e).coords.getD j [] = a.values := by
    intro j a ha
    obtain ⟨hj, haj⟩ := List.getElem?_eq_some_iff.1 ha
    have hjx : j < x.axes.length := by omega
    have hjI : j < I.length := by omega
    have hname : x.axes[j].name = a.name := by
      have h1 : (x.axes.map Ax.name)[j]? = (e.axes.map Ax.name)[j]? := by rw [he]
      rw [List.getElem?_map, List.getElem?_map, ha, List.getElem?_eq_getElem hjx] at h1
      simpa using h1
    obtain ⟨h2, h3⟩ := hk j _ (List.getElem?_eq_getElem hjx)
    constructor
    · unfold Spec.point
      rw [List.getD_eq_getElem _ _ (by rw [List.length_map, List.length_range]; omega), List.getElem_map, List.getElem_range]
      rw [List.getD_eq_getElem ((clipped x I).map Ax.values) _ (by omega), List.getElem_map]
      unfold clipped
      rw [List.getElem_zipWith]
      simp only
      rw [List.getD_eq_getElem I _ hjI] at h2 h3
      rw [List.getD_eq_getElem _ _ (by rw [List.length_map]; exact h2), List.getElem_map]
      rw [List.getD_eq_getElem (I[j]) _ h2] at h3
      rw [List.getD_eq_getElem?_getD, h3, ← hname]
      rfl
    · unfold piece
      simp only
      rw [List.getD_eq_getElem _ _ (by rw [List.length_map]; exact hj), List.getElem_map, haj]
  unfold Offers HasValue
  constructor
  · rintro ⟨n, h1, h2, h3⟩
    refine ⟨n, by rw [h1, hpl], fun j a ha => ?_, h3⟩
    obtain ⟨k1, k2⟩ := key j a ha
    have := h2 j (by rw [hpl]; exact (List.getElem?_eq_some_iff.1 ha).1)
    rw [k1, k2] at this
    exact this
  · rintro ⟨n, h1, h2, h3⟩
    refine ⟨n, by rw [h1, hpl], fun j hj => ?_, h3⟩
    rw [hpl] at hj
    obtain ⟨k1, k2⟩ := key j _ (List.getElem?_eq_getElem hj)
    rw [k1, k2]
    exact h2 j _ (List.getElem?_eq_getElem hj)

omit [DecidableEq O] in
theorem hasValue_of {e : Entry α O} {pt : Name → ℚ} (h : OnAxes e.axes pt) : ∃ v, HasValue e pt v := by
  refine ⟨_, e.axes.map (fun a => a.values.idxOf (pt a.name)), by rw [List.length_map], fun j a ha => ?_, rfl⟩
  have h1 := h a (List.mem_of_getElem? ha)
  rw [List.getD_eq_getElem?_getD, List.getElem?_map, ha]
  simp only [Option.map_some, Option.getD_some]
  rw [List.getElem?_eq_getElem (List.idxOf_lt_length_of_mem h1), List.getElem_idxOf]

omit [DecidableEq O] in
theorem onAxes_of {e : Entry α O} {pt : Name → ℚ} {v : α} (h : HasValue e pt v) : OnAxes e.axes pt := by
  obtain ⟨k, -, h2, -⟩ := h
  intro a ha
  obtain ⟨j, hj, rfl⟩ := List.getElem_of_mem ha
  exact List.mem_of_getElem? (h2 j _ (List.getElem?_eq_getElem hj))

theorem read_says {entries : List (Entry α O)} (hs : Scannable entries) {pick : Domain Coord → Name → Ax O}
    (hp : ∀ d, Samples entries (pick d)) {ds : List (Domain Coord)} {sets : List (List (DVar α O))} {M : Manager O}
    (hm : Made entries pick ds sets M) {nan : α} {M' M'' : Manager O} (h : AfterReads nan sets M M') {set : List (DVar α O)} (hset : set ∈ sets)
    {x : DVar α O} (hx : x ∈ set) {I : List (List ℕ)} (hI : Ascending x.axes I) {out : List ℕ → α} (hg : getview nan M' x I = some (out, M''))
    {k : List ℕ} {pt : Name → ℚ} (hk : CellAt x I k pt) : LastSays entries x.name pt (out k) := by
  have hM' := sound_after hs hp hm h
  obtain ⟨d, hd, rfl⟩ := hm.var hset
  obtain ⟨n, hn, rfl⟩ := List.mem_map.1 hx
  obtain ⟨-, h2, h3⟩ := construct_spec hs (hp d) (hm.good d hd) (mem_namesIn.1 hn)
  have h4 := values_spec hs (hp d) (hm.good d hd) (mem_namesIn.1 hn)
  set x := construct entries (axesOf (pick d) d) n with hxdef
  have hcl := clipped_ok (fun a ha => ⟨(h3 a ha).1, (h4 a ha).1⟩) hI
  have h5 := (foldlM_spec hs hcl x.table (st := (fun _ => nan, M')) hM' hg).1
  have htab : x.table = entries.filter fun e => decide (e.name = n) := rfl
  have hxn : x.name = n := rfl
  have hIl : x.axes.length = I.length := hI.length_eq
  have hcll : ((clipped x I).map Ax.values).length = x.axes.length := by
    rw [List.length_map, clipped, List.length_zipWith, hIl, min_self]
  have h6 := Scan.getview_correct_partial nan ((clipped x I).map Ax.values) (x.table.map piece)
    (by
      intro a ha
      obtain ⟨b, hb, rfl⟩ := List.mem_map.1 ha
      exact (hcl b hb).2)
    (by
      intro p hp'
      obtain ⟨e, he, rfl⟩ := List.mem_map.1 hp'
      obtain ⟨he1, he2⟩ := List.mem_filter.1 he
      have := congrArg List.length (h2 e he1 (of_decide_eq_true he2))
      rw [List.length_map, List.length_map] at this
      refine ⟨by rw [hcll, this, piece, List.length_map], fun c hc => ?_⟩
      unfold piece at hc
      obtain ⟨a, ha, rfl⟩ := List.mem_map.1 hc
      exact (hs.up e he1 a ha).1.imp fun h => ne_of_lt h)
    out h5 k
    (by
      intro j hj
      rw [hcll] at hj
      have hjI : j < I.length := by omega
      have h7 := (hk j _ (List.getElem?_eq_getElem hj)).1
      rw [List.getD_eq_getElem ((clipped x I).map Ax.values) _ (by rw [hcll]; exact hj), List.getElem_map]
      unfold clipped
      rw [List.getElem_zipWith, List.length_map]
      rw [List.getD_eq_getElem I _ hjI] at h7
      exact h7)
  -- some file has the point
  obtain ⟨e1, he1, hn1, h7⟩ := found_in (hm.good d hd) (mem_namesIn.1 hn) (fun m => Sum.inr (pt m)) (fun m => m ∈ x.axes.map Ax.name)
    (by
      intro m _ _ hmx
      obtain ⟨a, ha, rfl⟩ := List.mem_map.1 hmx
      obtain ⟨j, hj, rfl⟩ := List.getElem_of_mem ha
      have h8 := List.mem_of_getElem? (hk j _ (List.getElem?_eq_getElem hj)).2
      have h9 := (h3 _ (List.getElem_mem hj)).2.2.2
      have h10 : x.axes[j].values = numbers (valuesOf d x.axes[j].name) := by conv_lhs => rw [h9]
      rw [h10] at h8
      exact mem_numbers.1 h8)
  have hon : OnAxes e1.axes pt := fun a ha => mem_settify.1 ((h7 a ha).2 (by
    rw [h2 e1 he1 hn1]
    exact List.mem_map_of_mem ha))
  obtain ⟨l1, e, l2, hl, ⟨hen, v, hv⟩, hlast⟩ := exists_last (P := fun e : Entry α O => e.name = n ∧ ∃ v, HasValue e pt v)
    ⟨e1, he1, hn1, hasValue_of hon⟩
  have hee : e ∈ entries := by rw [hl]; simp
  have h8 : out k = v := by
    refine h6.1 ((l1.filter fun e => decide (e.name = n)).map piece) ((l2.filter fun e => decide (e.name = n)).map piece) (piece e) v ?_ ?_ ?_
    · rw [htab, hl, List.filter_append, List.filter_cons_of_pos (by exact decide_eq_true hen), List.map_append, List.map_cons]
    · exact (offers_iff hI hk (h2 e hee hen) v).2 hv
    · rintro q hq ⟨v', hv'⟩
      obtain ⟨e', he', rfl⟩ := List.mem_map.1 hq
      obtain ⟨h9, h10⟩ := List.mem_filter.1 he'
      have hn' : e'.name = n := of_decide_eq_true h10
      exact hlast e' h9 ⟨hn', v', (offers_iff hI hk (h2 e' (by rw [hl]; simp [h9]) hn') v').1 hv'⟩
  refine ⟨l1, e, l2, hl, hen, by rw [h8]; exact hv, fun e' he' hn' ⟨v', hv'⟩ => hlast e' he' ⟨hn', v', hv'⟩⟩

/-- **C110**: for every collection of files whose variables have consistent axes, `from_files` ends and returns datasets such that
every variable has the axes (names, classes, what their values refer to) it has in the files, with increasing values, and shares them
with the other variables of the dataset; every value of every file can be found: some dataset has the variable with that point on its
axes; and whatever has been read before, reading any part of any variable gives at every point the value of the last file that has the
point - one always does, no invented and no missing values. -/
theorem from_files_correct (files : List (List (Entry α O))) (hs : Scannable files.flatten) (pick : Domain Coord → Name → Ax O)
    (hp : ∀ d, Samples files.flatten (pick d)) (nan : α) :
    (∃ fuel sets M, fromFiles fuel pick files = some (sets, M)) ∧
    ∀ fuel sets M, fromFiles fuel pick files = some (sets, M) →
      (∀ ds ∈ sets, Assembled files.flatten ds) ∧
      (∀ e ∈ files.flatten, ∀ pt v, HasValue e pt v → ∃ ds ∈ sets, ∃ x ∈ ds, x.name = e.name ∧ OnAxes x.axes pt) ∧
      (∀ M', AfterReads nan sets M M' → ∀ ds ∈ sets, ∀ x ∈ ds, ∀ I, Ascending x.axes I → ∀ out M'', getview nan M' x I = some (out, M'') →
        ∀ k pt, CellAt x I k pt → LastSays files.flatten x.name pt (out k)) := by
  constructor
  · obtain ⟨fuel, ds, h⟩ := getDomains_ends _ (entry_proper hs) (entry_order hs)
    refine ⟨fuel, (asDatasets files.flatten pick {} ds).1, (asDatasets files.flatten pick {} ds).2, ?_⟩
    unfold fromFiles
    rw [h]
    rfl
  · intro fuel sets M h
    obtain ⟨ds, hds, hm⟩ := made_of hs hp h
    refine ⟨assembled hs hp hm, fun e he pt v hv => ?_, fun M' hM' set hset x hx I hI out M'' hg k pt hk => read_says hs hp hm hM' hset hx hI hg hk⟩
    have hon := onAxes_of hv
    let p : Name → Coord := fun n => if n = varlist then Sum.inl e.name else Sum.inr (pt n)
    have hp1 : p varlist = Sum.inl e.name := if_pos rfl
    have hp2 : ∀ n, n ≠ varlist → p n = Sum.inr (pt n) := fun n hn => if_neg hn
    have hcov : Covered (files.flatten.map entryDomain) p := by
      refine ⟨_, List.mem_map_of_mem he, inBox_entry.2 ⟨hp1, fun a ha => ?_⟩⟩
      rw [hp2 _ fun h => hs.novarlist e he (h ▸ List.mem_map_of_mem ha)]
      exact mem_settify.2 (hon a ha)
    obtain ⟨d, hd, hin⟩ := ((getDomains_correct fuel _ _ (entry_proper hs) (entry_order hs) hds).1 p).2 hcov
    have hg := hm.good d hd
    rw [holds_iff hg.proper] at hin
    obtain ⟨e0, he0, hd0⟩ := hg.names
    have hn : Sum.inl e.name ∈ valuesOf d varlist := by
      rw [← hp1]
      exact hin varlist (by rw [hd0]; exact List.mem_cons_self ..)
    refine ⟨_, by rw [hm.sets]; exact List.mem_map_of_mem hd, _, List.mem_map_of_mem (mem_namesIn.2 hn), rfl, fun a ha => ?_⟩
    obtain ⟨-, h1, h2, h3⟩ := (construct_spec hs (hp d) hg hn).2.2 a ha
    have h4 : a.values = numbers (valuesOf d a.name) := by conv_lhs => rw [h3]
    rw [h4, mem_numbers, ← hp2 _ h2]
    exact hin _ h1

/-! ### a concrete case -/

/-- the first axis of that name in the files -/
def firstAxis (dflt : Ax O) (entries : List (Entry α O)) (n : Name) : Ax O :=
  ((entries.flatMap Entry.axes).find? fun a => decide (a.name = n)).getD dflt

omit [DecidableEq O] in
theorem firstAxis_samples (dflt : Ax O) (entries : List (Entry α O)) : Samples entries (firstAxis dflt entries) := by
  intro e he a ha
  have hmem : a ∈ entries.flatMap Entry.axes := List.mem_flatMap.2 ⟨e, he, ha⟩
  unfold firstAxis
  cases hf : (entries.flatMap Entry.axes).find? fun b => decide (b.name = a.name) with
  | none => exact absurd (by simp) (List.find?_eq_none.1 hf a hmem)
  | some b =>
    obtain ⟨e', he', hb⟩ := List.mem_flatMap.1 (List.mem_of_find?_eq_some hf)
    exact ⟨by simpa using List.find?_some hf, e', he', hb⟩

def tEx (l : List ℚ) : Ax ℕ := ⟨"time".toList, "T".toList, 0, l⟩
def yEx (l : List ℚ) : Ax ℕ := ⟨"lat".toList, "Y".toList, 0, l⟩

/-- two files with parts of `u(time, lat)`, which have one time in common, and a file with `z(lat)` -/
def filesEx : List (List (Entry ℚ ℕ)) :=
  [[⟨"u".toList, [tEx [0, 1], yEx [5, 7]], fun k => 10 * k.getD 0 0 + k.getD 1 0⟩],
   [⟨"u".toList, [tEx [1, 2], yEx [5, 7]], fun k => 100 + 10 * k.getD 0 0 + k.getD 1 0⟩, ⟨"z".toList, [yEx [5, 7]], fun k => 1000 + k.getD 0 0⟩]]

instance {α O : Type} [DecidableEq O] (entries : List (Entry α O)) : Decidable (Scannable entries) :=
  decidable_of_iff (
    (∀ e ∈ entries, (e.axes.map Ax.name).Nodup) ∧ (∀ e ∈ entries, varlist ∉ e.axes.map Ax.name) ∧
    (∀ e ∈ entries, ∀ a ∈ e.axes, a.values.Pairwise (· < ·) ∧ a.values ≠ []) ∧
    (∀ e ∈ entries, ∀ e' ∈ entries, e.name = e'.name → e.axes.map Ax.name = e'.axes.map Ax.name) ∧
    (∀ e ∈ entries, ∀ e' ∈ entries, (e.axes.map Ax.name).filter (fun n => decide (n ∈ e'.axes.map Ax.name)) =
      (e'.axes.map Ax.name).filter (fun n => decide (n ∈ e.axes.map Ax.name))) ∧
    (∀ e ∈ entries, ∀ e' ∈ entries, ∀ a ∈ e.axes, ∀ a' ∈ e'.axes, (a.name = a'.name ↔ a.cls = a'.cls) ∧
      (a.name = a'.name → a.origin = a'.origin)))
    ⟨fun ⟨h1, h2, h3, h4, h5, h6⟩ => ⟨h1, h2, h3, h4, h5, h6⟩, fun ⟨h1, h2, h3, h4, h5, h6⟩ => ⟨h1, h2, h3, h4, h5, h6⟩⟩

theorem filesEx_scannable : Scannable filesEx.flatten := by decide +kernel

/-- what a scan shows: the names of the variables and their axes -/
def shown (r : Option (List (List (DVar α O)) × Manager O)) : List (List (Name × List (Ax O))) :=
  ((r.map Prod.fst).getD []).map fun ds => ds.map fun x => (x.name, x.axes)

/-- a dataset with `z` alone and one with `u` at all times and `z`; the second file wins where both have data -/
example : shown (fromFiles 10 (fun _ => firstAxis (tEx []) filesEx.flatten) filesEx) =
    [[("z".toList, [yEx [5, 7]])], [("u".toList, [tEx [0, 1, 2], yEx [5, 7]]), ("z".toList, [yEx [5, 7]])]] := by decide +kernel

/-- the values of the cells of a part of a variable of a dataset -/
def readOf (r : Option (List (List (DVar ℚ O)) × Manager O)) (i j : ℕ) (I : List (List ℕ)) (ks : List (List ℕ)) : Option (List ℚ) :=
  r.bind fun p => ((p.1.getD i [])[j]?).bind fun x => (getview (-1) p.2 x I).map fun q => ks.map q.1

example : readOf (fromFiles 10 (fun _ => firstAxis (tEx []) filesEx.flatten) filesEx) 1 0 [[0, 1, 2], [0, 1]]
    [[0, 0], [0, 1], [1, 0], [1, 1], [2, 0], [2, 1]] = some [0, 1, 100, 101, 110, 111] := by decide +kernel

example : ∃ (fuel : ℕ) (sets : List (List (DVar ℚ ℕ))) (M : Manager ℕ),
    fromFiles fuel (fun _ => firstAxis (tEx []) filesEx.flatten) filesEx = some (sets, M) :=
  (from_files_correct filesEx filesEx_scannable _ (fun _ => firstAxis_samples _ _) (-1)).1

/-! ### what goes wrong otherwise -/

/-- Two axes of the same class with the same values (say a square domain on unknown dimensions `x` and `y`): the manager remembers axes by
class and values only, and the second axis of the variable gets the name of the first. -/
theorem name_violated : ∃ files : List (List (Entry ℚ ℕ)), files = [[⟨"h".toList, [⟨"x".toList, "N".toList, 0, [0, 1]⟩,
    ⟨"y".toList, "N".toList, 0, [0, 1]⟩], fun k => k.getD 0 0⟩]] ∧
    shown (fromFiles 10 (fun _ => firstAxis (tEx []) files.flatten) files) =
      [[("h".toList, [⟨"x".toList, "N".toList, 0, [0, 1]⟩, ⟨"x".toList, "N".toList, 0, [0, 1]⟩])]] :=
  ⟨_, rfl, by decide +kernel⟩

/-- Times that count from different dates are put together by their numbers: of two files with days 0 and 1 of two different months
only one month is left, with the values of the second file and the reference date of the first. -/
theorem origin_violated : ∃ files : List (List (Entry ℚ ℕ)), files = [[⟨"u".toList, [⟨"time".toList, "T".toList, 0, [0, 1]⟩], fun k => k.getD 0 0⟩],
    [⟨"u".toList, [⟨"time".toList, "T".toList, 31, [0, 1]⟩], fun k => 100 + k.getD 0 0⟩]] ∧
    shown (fromFiles 10 (fun _ => firstAxis (tEx []) files.flatten) files) = [[("u".toList, [⟨"time".toList, "T".toList, 0, [0, 1]⟩])]] ∧
    readOf (fromFiles 10 (fun _ => firstAxis (tEx []) files.flatten) files) 0 0 [[0, 1]] [[0], [1]] = some [100, 101] :=
  ⟨_, rfl, by decide +kernel, by decide +kernel⟩

/-- `u(lon, lat)` put together with `t(time, lat, lon)` gets the axes in the order of the other variable, and is read as if the file had
them in this order: the latitudes are compared with the longitudes, and only cells with `lat = lon` are found, with wrong positions. -/
theorem order_violated : ∃ files : List (List (Entry ℚ ℕ)), files = [[⟨"t".toList, [tEx [0], yEx [0, 1], ⟨"lon".toList, "X".toList, 0, [0, 1, 2]⟩], fun _ => 7⟩],
    [⟨"u".toList, [⟨"lon".toList, "X".toList, 0, [0, 1, 2]⟩, yEx [0, 1]], fun k => 10 * k.getD 0 0 + k.getD 1 0⟩]] ∧
    shown (fromFiles 10 (fun _ => firstAxis (tEx []) files.flatten) files) =
      [[("u".toList, [⟨"lon".toList, "X".toList, 0, [0, 1, 2]⟩, yEx [0, 1]])],
       [("t".toList, [tEx [0], yEx [0, 1], ⟨"lon".toList, "X".toList, 0, [0, 1, 2]⟩]),
        ("u".toList, [yEx [0, 1], ⟨"lon".toList, "X".toList, 0, [0, 1, 2]⟩])]] ∧
    readOf (fromFiles 10 (fun _ => firstAxis (tEx []) files.flatten) files) 1 1 [[0, 1], [0, 1, 2]]
      [[0, 0], [0, 1], [0, 2], [1, 0], [1, 1], [1, 2]] = some [0, 1, -1, 10, 11, -1] :=
  ⟨_, rfl, by decide +kernel, by decide +kernel⟩

end FromFiles
end PyGeode
