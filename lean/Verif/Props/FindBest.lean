/-
C111: looking for variables in several datasets.
-/
import Verif.Model.FindBest

namespace PyGeode
namespace Spec
open FindBest
variable {V : Type}

/-- the dataset has a variable or an axis of that name, and `v` is it (the variable if both) -/
def IsMember (name : V → Name) (d : Members V) (n : Name) (v : V) : Prop :=
  name v = n ∧ ((v ∈ d.vars) ∨ (v ∈ d.axes ∧ ∀ w ∈ d.vars, name w ≠ n))

/-- no two variables and no two axes have the same name -/
def OwnMembers (name : V → Name) (d : Members V) : Prop := (d.vars.map name).Nodup ∧ (d.axes.map name).Nodup

/-- the dataset meets the requirement, if any, and has members of these names: `c`, in this order -/
def IsCandidate (name : V → Name) (names : List Name) (requirement : Option (Members V → Bool)) (d : Members V) (c : List V) : Prop :=
  (∀ f, requirement = some f → f d = true) ∧ List.Forall₂ (IsMember name d) names c

/-- `a` is preferred to `b` by the scores: the first function whose values differ decides -/
def Higher (F : List (List V → ℚ)) (a b : List V) : Prop :=
  ∃ (l1 l2 : List (List V → ℚ)) (f : List V → ℚ), F = l1 ++ f :: l2 ∧ (∀ g ∈ l1, g a = g b) ∧ f b < f a

/-- the names and shapes of the variables in order -/
def IsSize (name : V → Name) (shape : V → List ℕ) (c : List V) (s : List (Name ×ₗ List ℕ)) : Prop :=
  s.Perm (c.map fun v => toLex (name v, shape v)) ∧ s.Pairwise (· ≤ ·)

/-- the names and shapes of `a`, in order, come after those of `b` -/
def Larger (name : V → Name) (shape : V → List ℕ) (a b : List V) : Prop := ∃ s t, IsSize name shape a s ∧ IsSize name shape b t ∧ t < s

/-- `a` is preferred to `b`: higher scores in `maximize`; without `maximize`, lower in `minimize`; and if these do not decide, larger by
names and shapes -/
def Preferred (name : V → Name) (shape : V → List ℕ) (maximize minimize : Option (List (List V → ℚ))) (a b : List V) : Prop :=
  match maximize, minimize with
  | some F, _ => Higher F a b ∨ (¬ Higher F b a ∧ Larger name shape a b)
  | none, some F => Higher F b a ∨ (¬ Higher F a b ∧ Larger name shape a b)
  | none, none => Larger name shape a b

end Spec

namespace FindBest
open Spec
variable {V : Type}

theorem head_sort {β : Type} {r : β → β → Prop} [DecidableRel r] (ht : ∀ a b, r a b ∨ r b a) (htr : ∀ a b c, r a b → r b c → r a c)
    {l : List β} {x : β} (h : (l.insertionSort r).head? = some x) : x ∈ l ∧ ∀ b ∈ l, r x b := by
  haveI : Std.Total r := ⟨ht⟩
  haveI : IsTrans β r := ⟨htr⟩
  obtain ⟨t, hl⟩ := List.head?_eq_some_iff.1 h
  have h1 := List.pairwise_insertionSort r l
  rw [hl] at h1
  refine ⟨(List.perm_insertionSort r l).subset (by rw [hl]; simp), fun b hb => ?_⟩
  have h2 : b ∈ l.insertionSort r := (List.perm_insertionSort r l).symm.subset hb
  rw [hl] at h2
  rcases List.mem_cons.1 h2 with rfl | h2
  · rcases ht b b with h | h <;> exact h
  · exact (List.pairwise_cons.1 h1).1 b h2

theorem pair_sub {β : Type} {l : List β} {m n : ℕ} (hm : m < l.length) (hn : n < l.length) (h : m < n) : [l[m], l[n]].Sublist l :=
  List.map_getElem_sublist (l := l) (is := [⟨m, hm⟩, ⟨n, hn⟩]) (by simpa using h)

/-- the head of two stable sorts, one after the other -/
theorem head_two {β : Type} {r1 r2 : β → β → Prop} [DecidableRel r1] [DecidableRel r2] (t1 : ∀ a b, r1 a b ∨ r1 b a)
    (tr1 : ∀ a b c, r1 a b → r1 b c → r1 a c) (t2 : ∀ a b, r2 a b ∨ r2 b a) (tr2 : ∀ a b c, r2 a b → r2 b c → r2 a c)
    {l : List β} {x : β} (h : ((l.insertionSort r1).insertionSort r2).head? = some x) :
    ∃ i : ℕ, l[i]? = some x ∧ ∀ j b, l[j]? = some b → r2 x b ∧ (r2 b x → r1 x b ∧ (r1 b x → i ≤ j)) := by
  haveI : Std.Total r1 := ⟨t1⟩
  haveI : IsTrans β r1 := ⟨tr1⟩
  -- the same sorts of the numbered elements
  let s1 : β × ℕ → β × ℕ → Prop := fun p q => r1 p.1 q.1
  let s2 : β × ℕ → β × ℕ → Prop := fun p q => r2 p.1 q.1
  haveI : DecidableRel s1 := fun p q => inferInstanceAs (Decidable (r1 p.1 q.1))
  haveI : DecidableRel s2 := fun p q => inferInstanceAs (Decidable (r2 p.1 q.1))
  haveI : Std.Total s1 := ⟨fun p q => t1 p.1 q.1⟩
  haveI : IsTrans (β × ℕ) s1 := ⟨fun p q r => tr1 p.1 q.1 r.1⟩
  have e1 : (l.zipIdx.insertionSort s1).map Prod.fst = l.insertionSort r1 := by
    rw [List.map_insertionSort (r := s1) (s := r1) Prod.fst _ (fun _ _ _ _ => Iff.rfl), List.zipIdx_map_fst]
  have e2 : ((l.zipIdx.insertionSort s1).insertionSort s2).map Prod.fst = (l.insertionSort r1).insertionSort r2 := by
    rw [List.map_insertionSort (r := s2) (s := r2) Prod.fst _ (fun _ _ _ _ => Iff.rfl), e1]
  rw [← e2, List.head?_map] at h
  obtain ⟨⟨x', i⟩, h1, h2⟩ := Option.map_eq_some_iff.1 h
  have h2 : x' = x := h2
  subst h2
  obtain ⟨h3, h4⟩ := head_sort (fun p q => t2 p.1 q.1) (fun p q r => tr2 p.1 q.1 r.1) h1
  have hp := List.perm_insertionSort s1 l.zipIdx
  have h5 : (x', i) ∈ l.zipIdx := hp.subset h3
  have h6 := List.mem_zipIdx_iff_getElem?.1 h5
  refine ⟨i, h6, fun j b hj => ?_⟩
  have hb : (b, j) ∈ l.zipIdx := List.mem_zipIdx_iff_getElem?.2 hj
  have h7 : r2 x' b := h4 _ (hp.symm.subset hb)
  refine ⟨h7, fun h8 => ?_⟩
  obtain ⟨t, ht⟩ := List.head?_eq_some_iff.1 h1
  have hnd : (l.zipIdx).Nodup := List.Nodup.of_map Prod.snd (by rw [List.zipIdx_map_snd]; exact List.nodup_range' )
  have hnd2 : ((l.zipIdx.insertionSort s1).insertionSort s2).Nodup :=
    (List.perm_insertionSort s2 _).nodup_iff.2 (hp.nodup_iff.2 hnd)
  rw [ht] at hnd2
  -- nothing that ties with it comes before it
  have key : ∀ p : β × ℕ, s2 p (x', i) → ¬ [p, (x', i)].Sublist (l.zipIdx.insertionSort s1) := by
    intro p hp2 hsub
    have h9 := List.pair_sublist_insertionSort (r := s2) hp2 hsub
    rw [ht] at h9
    rcases List.sublist_cons_iff.1 h9 with h10 | ⟨r, h10, h11⟩
    · exact (List.nodup_cons.1 hnd2).1 (h10.subset (by simp))
    · rw [List.cons.injEq] at h10
      obtain ⟨-, rfl⟩ := h10
      exact (List.nodup_cons.1 hnd2).1 (h11.subset (by simp))
  by_cases hij : (b, j) = (x', i)
  · obtain ⟨rfl, rfl⟩ := Prod.mk.inj hij
    exact ⟨(t1 b b).elim id id, fun _ => le_refl _⟩
  · have hmem : (b, j) ∈ l.zipIdx.insertionSort s1 := hp.symm.subset hb
    have hpair : [(x', i), (b, j)].Sublist (l.zipIdx.insertionSort s1) ∨ [(b, j), (x', i)].Sublist (l.zipIdx.insertionSort s1) := by
      obtain ⟨m, hm, hm'⟩ := List.getElem_of_mem h3
      obtain ⟨n, hn, hn'⟩ := List.getElem_of_mem hmem
      rcases lt_trichotomy m n with hlt | heq | hlt
      · left
        rw [← hm', ← hn']
        exact pair_sub hm hn hlt
      · subst heq
        exact absurd (hn'.symm.trans hm') hij
      · right
        rw [← hm', ← hn']
        exact pair_sub hn hm hlt
    rcases hpair with hpair | hpair
    · refine ⟨(List.pairwise_iff_forall_sublist.1 (List.pairwise_insertionSort s1 l.zipIdx)) hpair, fun h12 => ?_⟩
      by_contra hlt
      push Not at hlt
      refine key (b, j) h8 (List.pair_sublist_insertionSort (r := s1) h12 ?_)
      obtain ⟨hi', h13⟩ := List.getElem?_eq_some_iff.1 h6
      obtain ⟨hj', h14⟩ := List.getElem?_eq_some_iff.1 hj
      have : [l.zipIdx[j]'(by simpa using hj'), l.zipIdx[i]'(by simpa using hi')].Sublist l.zipIdx :=
        pair_sub _ _ hlt
      simpa [h13, h14] using this
    · exact absurd hpair (key _ h8)

theorem higher_iff (F : List (List V → ℚ)) (a b : List V) : Higher F a b ↔ F.map (fun f => f b) < F.map fun f => f a := by
  induction F with
  | nil =>
    constructor
    · rintro ⟨l1, l2, f, h, -⟩
      exact absurd h (by simp)
    · intro h
      exact absurd h (by simp)
  | cons g F ih =>
    rw [List.map_cons, List.map_cons, List.cons_lt_cons_iff]
    constructor
    · rintro ⟨l1, l2, f, h, h1, h2⟩
      cases l1 with
      | nil =>
        rw [List.nil_append, List.cons.injEq] at h
        obtain ⟨rfl, rfl⟩ := h
        exact Or.inl h2
      | cons g' l1 =>
        rw [List.cons_append, List.cons.injEq] at h
        obtain ⟨rfl, rfl⟩ := h
        exact Or.inr ⟨(h1 g (by simp)).symm, ih.1 ⟨l1, l2, f, rfl, fun g hg => h1 g (by simp [hg]), h2⟩⟩
    · rintro (h | ⟨h, h'⟩)
      · exact ⟨[], F, g, rfl, by simp, h⟩
      · obtain ⟨l1, l2, f, rfl, h1, h2⟩ := ih.2 h'
        refine ⟨g :: l1, l2, f, rfl, fun k hk => ?_, h2⟩
        rcases List.mem_cons.1 hk with rfl | hk
        · exact h.symm
        · exact h1 k hk

theorem neg_map_lt (F : List (List V → ℚ)) (a b : List V) : F.map (fun f => -f a) < F.map (fun f => -f b) ↔ F.map (fun f => f b) < F.map fun f => f a := by
  induction F with
  | nil => simp
  | cons g F ih =>
    simp only [List.map_cons, List.cons_lt_cons_iff, neg_lt_neg_iff, neg_inj, ih]
    constructor
    · rintro (h | ⟨h, h'⟩)
      · exact Or.inl h
      · exact Or.inr ⟨h.symm, h'⟩
    · rintro (h | ⟨h, h'⟩)
      · exact Or.inl h
      · exact Or.inr ⟨h.symm, h'⟩

theorem lookup_iff {name : V → Name} {d : Members V} (hd : OwnMembers name d) (n : Name) (v : V) : lookup name d n = some v ↔ IsMember name d n v := by
  have huniq : ∀ (l : List V), (l.map name).Nodup → ∀ v, l.find? (fun w => decide (name w = n)) = some v ↔ v ∈ l ∧ name v = n := by
    intro l hl v
    constructor
    · intro h
      exact ⟨List.mem_of_find?_eq_some h, by simpa using List.find?_some h⟩
    · rintro ⟨h1, h2⟩
      cases hf : l.find? (fun w => decide (name w = n)) with
      | none => exact absurd (decide_eq_true h2) (by simpa using List.find?_eq_none.1 hf v h1)
      | some w =>
        have h3 : name w = n := by simpa using List.find?_some hf
        rw [List.inj_on_of_nodup_map hl (List.mem_of_find?_eq_some hf) h1 (h3.trans h2.symm)]
  unfold lookup IsMember
  rw [List.find?_append]
  cases hf : d.vars.find? (fun w => decide (name w = n)) with
  | some w =>
    rw [Option.some_or]
    obtain ⟨h1, h2⟩ := (huniq _ hd.1 w).1 hf
    constructor
    · intro h
      cases h
      exact ⟨h2, Or.inl h1⟩
    · rintro ⟨h3, h4 | ⟨-, h4⟩⟩
      · rw [List.inj_on_of_nodup_map hd.1 h1 h4 (h2.trans h3.symm)]
      · exact absurd h2 (h4 w h1)
  | none =>
    rw [Option.none_or, huniq _ hd.2]
    have hno : ∀ w ∈ d.vars, name w ≠ n := fun w hw => by simpa using List.find?_eq_none.1 hf w hw
    constructor
    · rintro ⟨h1, h2⟩
      exact ⟨h2, Or.inr ⟨h1, hno⟩⟩
    · rintro ⟨h1, h2 | ⟨h2, -⟩⟩
      · exact absurd h1 (hno v h2)
      · exact ⟨h2, h1⟩

theorem mapM_iff {name : V → Name} {d : Members V} (hd : OwnMembers name d) : ∀ (names : List Name) (c : List V),
    names.mapM (lookup name d) = some c ↔ List.Forall₂ (IsMember name d) names c
  | [], c => by
    rw [List.mapM_nil, List.forall₂_nil_left_iff]
    constructor
    · intro h; cases h; rfl
    · rintro rfl; rfl
  | n :: names, c => by
    rw [List.mapM_cons]
    constructor
    · intro h
      obtain ⟨v, h1, h2⟩ := Option.bind_eq_some_iff.1 h
      obtain ⟨c', h3, h4⟩ := Option.bind_eq_some_iff.1 h2
      cases h4
      exact List.Forall₂.cons ((lookup_iff hd n v).1 h1) ((mapM_iff hd names c').1 h3)
    · intro h
      cases h with
      | cons h1 h2 =>
        rw [(lookup_iff hd n _).2 h1]
        show (names.mapM (lookup name d)).bind _ = _
        rw [(mapM_iff hd names _).2 h2]
        rfl

theorem match_iff {name : V → Name} {d : Members V} (hd : OwnMembers name d) (names : List Name) (requirement : Option (Members V → Bool))
    (c : List V) : match? name names requirement d = some c ↔ IsCandidate name names requirement d c := by
  unfold match? IsCandidate
  rw [← mapM_iff hd]
  cases requirement with
  | none => simp
  | some f =>
    cases hf : f d with
    | false => simp [hf]
    | true => simp [hf]

/-- **C111** `find` goes through the datasets in order and yields from each that meets the requirement and has all the names the
members of these names; `have` tells whether a dataset has a variable - or an axis - of that name. -/
theorem find_correct (name : V → Name) (datasets : List (Members V)) (hd : ∀ d ∈ datasets, OwnMembers name d) (names : List Name)
    (requirement : Option (Members V → Bool)) :
    (∃ chosen : List (Members V), chosen.Sublist datasets ∧ List.Forall₂ (IsCandidate name names requirement) chosen (find name datasets names requirement) ∧
      ∀ d ∈ datasets, (∃ c, IsCandidate name names requirement d c) → d ∈ chosen) ∧
    (∀ n, have? name datasets n = true ↔ ∃ d ∈ datasets, ∃ v, IsMember name d n v) := by
  constructor
  · refine ⟨datasets.filter fun d => (match? name names requirement d).isSome, List.filter_sublist, ?_, ?_⟩
    · unfold find
      induction datasets with
      | nil => exact List.Forall₂.nil
      | cons d ds ih =>
        have ih := ih fun e he => hd e (by simp [he])
        cases hm : match? name names requirement d with
        | none =>
          rw [List.filter_cons_of_neg (by simp [hm]), List.filterMap_cons_none hm]
          exact ih
        | some c =>
          rw [List.filter_cons_of_pos (by simp [hm]), List.filterMap_cons_some hm]
          exact List.Forall₂.cons ((match_iff (hd d (by simp)) names requirement c).1 hm) ih
    · rintro d h ⟨c, hc⟩
      exact List.mem_filter.2 ⟨h, by rw [(match_iff (hd d h) names requirement c).2 hc]; rfl⟩
  · intro n
    unfold have?
    rw [List.any_eq_true]
    constructor
    · rintro ⟨d, h1, h2⟩
      obtain ⟨v, hv⟩ := Option.isSome_iff_exists.1 h2
      exact ⟨d, h1, v, (lookup_iff (hd d h1) n v).1 hv⟩
    · rintro ⟨d, h1, v, hv⟩
      exact ⟨d, h1, by rw [(lookup_iff (hd d h1) n v).2 hv]; rfl⟩

theorem larger_iff (name : V → Name) (shape : V → List ℕ) (a b : List V) :
    Larger name shape a b ↔ domainSize name shape b < domainSize name shape a := by
  have hsize : ∀ c, IsSize name shape c (domainSize name shape c) := fun c =>
    ⟨List.perm_insertionSort _ _, List.pairwise_insertionSort _ _⟩
  have huniq : ∀ c s, IsSize name shape c s → s = domainSize name shape c := fun c s h =>
    List.Perm.eq_of_pairwise' h.2 (hsize c).2 (h.1.trans (hsize c).1.symm)
  constructor
  · rintro ⟨s, t, h1, h2, h3⟩
    rwa [← huniq a s h1, ← huniq b t h2]
  · intro h
    exact ⟨_, _, hsize a, hsize b, h⟩

theorem ranked_head (name : V → Name) (shape : V → List ℕ) (datasets : List (Members V)) (names : List Name)
    (requirement : Option (Members V → Bool)) (maximize minimize : Option (List (List V → ℚ))) {r : List V}
    (h : findBest name shape datasets names requirement maximize minimize = some r) :
    ∃ i : ℕ, (find name datasets names requirement)[i]? = some r ∧ ∀ j b, (find name datasets names requirement)[j]? = some b →
      ¬ Preferred name shape maximize minimize b r ∧ (j < i → Preferred name shape maximize minimize r b) := by
  unfold findBest ranked at h
  have t1 : ∀ a b : List V, domainSize name shape b ≤ domainSize name shape a ∨ domainSize name shape a ≤ domainSize name shape b :=
    fun a b => le_total _ _
  have tr1 : ∀ a b c : List V, domainSize name shape b ≤ domainSize name shape a → domainSize name shape c ≤ domainSize name shape b →
    domainSize name shape c ≤ domainSize name shape a := fun a b c h1 h2 => le_trans h2 h1
  cases maximize with
  | some F =>
    obtain ⟨i, h1, h2⟩ := head_two (r1 := fun a b => domainSize name shape b ≤ domainSize name shape a)
      (r2 := fun a b => F.map (fun f => -f a) ≤ F.map fun f => -f b) t1 tr1 (fun a b => le_total _ _) (fun a b c => le_trans) h
    refine ⟨i, h1, fun j b hj => ?_⟩
    obtain ⟨h3, h4⟩ := h2 j b hj
    have e1 : Higher F b r ↔ ¬ F.map (fun f => -f r) ≤ F.map (fun f => -f b) := by rw [higher_iff, ← neg_map_lt, not_le]
    have e2 : Higher F r b ↔ ¬ F.map (fun f => -f b) ≤ F.map (fun f => -f r) := by rw [higher_iff, ← neg_map_lt, not_le]
    unfold Preferred
    simp only [larger_iff]
    constructor
    · rintro (h5 | ⟨h5, h6⟩)
      · exact e1.1 h5 h3
      · rw [e2, not_not] at h5
        exact absurd (h4 h5).1 (not_le.2 h6)
    · intro hji
      by_cases h5 : Higher F r b
      · exact Or.inl h5
      · refine Or.inr ⟨fun h6 => e1.1 h6 h3, ?_⟩
        rw [e2, not_not] at h5
        obtain ⟨h7, h8⟩ := h4 h5
        by_contra h9
        exact absurd (h8 (not_lt.1 h9)) (by omega)
  | none =>
    cases minimize with
    | some F =>
      obtain ⟨i, h1, h2⟩ := head_two (r1 := fun a b => domainSize name shape b ≤ domainSize name shape a)
        (r2 := fun a b => F.map (fun f => f a) ≤ F.map fun f => f b) t1 tr1 (fun a b => le_total _ _) (fun a b c => le_trans) h
      refine ⟨i, h1, fun j b hj => ?_⟩
      obtain ⟨h3, h4⟩ := h2 j b hj
      have e1 : Higher F r b ↔ ¬ F.map (fun f => f r) ≤ F.map (fun f => f b) := by rw [higher_iff, not_le]
      have e2 : Higher F b r ↔ ¬ F.map (fun f => f b) ≤ F.map (fun f => f r) := by rw [higher_iff, not_le]
      unfold Preferred
      simp only [larger_iff]
      constructor
      · rintro (h5 | ⟨h5, h6⟩)
        · exact e1.1 h5 h3
        · rw [e2, not_not] at h5
          exact absurd (h4 h5).1 (not_le.2 h6)
      · intro hji
        by_cases h5 : Higher F b r
        · exact Or.inl h5
        · refine Or.inr ⟨fun h6 => e1.1 h6 h3, ?_⟩
          rw [e2, not_not] at h5
          obtain ⟨h7, h8⟩ := h4 h5
          by_contra h9
          exact absurd (h8 (not_lt.1 h9)) (by omega)
    | none =>
      have h' : (((find name datasets names requirement).insertionSort fun a b => domainSize name shape b ≤ domainSize name shape a).insertionSort
          fun _ _ => True).head? = some r := by
        refine Eq.trans (congrArg List.head? ?_) h
        exact List.Pairwise.insertionSort_eq (r := fun _ _ => True) (List.pairwise_of_forall fun _ _ => trivial)
      obtain ⟨i, h1, h2⟩ := head_two (r1 := fun a b => domainSize name shape b ≤ domainSize name shape a)
        (r2 := fun _ _ => True) t1 tr1 (fun a b => Or.inl trivial) (fun a b c _ _ => trivial) h'
      refine ⟨i, h1, fun j b hj => ?_⟩
      obtain ⟨-, h4⟩ := h2 j b hj
      obtain ⟨h5, h6⟩ := h4 trivial
      unfold Preferred
      simp only [larger_iff]
      refine ⟨not_lt.2 h5, fun hji => ?_⟩
      by_contra h9
      exact absurd (h6 (not_lt.1 h9)) (by omega)

/-- **C111** `find_best` returns the members of a dataset that meets the requirement and has all the names such that no other such
dataset is preferred to it - by the scores and then by the shapes - and it is the first of those that are not; it raises KeyError only if
no dataset qualifies. -/
theorem find_best_correct (name : V → Name) (shape : V → List ℕ) (datasets : List (Members V)) (hd : ∀ d ∈ datasets, OwnMembers name d)
    (names : List Name) (requirement : Option (Members V → Bool)) (maximize minimize : Option (List (List V → ℚ))) :
    (∀ r, findBest name shape datasets names requirement maximize minimize = some r →
      ∃ (l1 l2 : List (Members V)) (d : Members V), datasets = l1 ++ d :: l2 ∧ IsCandidate name names requirement d r ∧
        (∀ e ∈ l1, ∀ c, IsCandidate name names requirement e c → Preferred name shape maximize minimize r c) ∧
        (∀ e ∈ datasets, ∀ c, IsCandidate name names requirement e c → ¬ Preferred name shape maximize minimize c r)) ∧
    (findBest name shape datasets names requirement maximize minimize = none ↔
      ¬ ∃ d ∈ datasets, ∃ c, IsCandidate name names requirement d c) := by
  constructor
  · intro r h
    obtain ⟨i, h1, h2⟩ := ranked_head name shape datasets names requirement maximize minimize h
    have hall : ∀ e ∈ datasets, ∀ c, IsCandidate name names requirement e c → ¬ Preferred name shape maximize minimize c r := by
      intro e he c hc
      have : c ∈ find name datasets names requirement := List.mem_filterMap.2 ⟨e, he, (match_iff (hd e he) names requirement c).2 hc⟩
      obtain ⟨j, hj, rfl⟩ := List.getElem_of_mem this
      exact (h2 j _ (List.getElem?_eq_getElem hj)).1
    clear h
    unfold find at h1 h2
    suffices ∀ (ds : List (Members V)) (i : ℕ), (∀ d ∈ ds, OwnMembers name d) → (ds.filterMap (match? name names requirement))[i]? = some r →
        (∀ j b, j < i → (ds.filterMap (match? name names requirement))[j]? = some b → Preferred name shape maximize minimize r b) →
        ∃ (l1 l2 : List (Members V)) (d : Members V), ds = l1 ++ d :: l2 ∧ IsCandidate name names requirement d r ∧
          (∀ e ∈ l1, ∀ c, IsCandidate name names requirement e c → Preferred name shape maximize minimize r c) by
      obtain ⟨l1, l2, d, e1, e2, e3⟩ := this datasets i hd h1 fun j b hj hb => (h2 j b hb).2 hj
      exact ⟨l1, l2, d, e1, e2, e3, hall⟩
    intro ds
    induction ds with
    | nil => intro i _ h; simp at h
    | cons d ds ih =>
      intro i hd h1 h2
      cases hm : match? name names requirement d with
      | none =>
        rw [List.filterMap_cons_none hm] at h1 h2
        obtain ⟨l1, l2, d', e1, e2, e3⟩ := ih i (fun e he => hd e (by simp [he])) h1 h2
        refine ⟨d :: l1, l2, d', by rw [e1]; rfl, e2, fun e he c hc => ?_⟩
        rcases List.mem_cons.1 he with rfl | he
        · rw [(match_iff (hd e (by simp)) names requirement c).2 hc] at hm
          cases hm
        · exact e3 e he c hc
      | some c0 =>
        rw [List.filterMap_cons_some hm] at h1 h2
        cases i with
        | zero =>
          cases h1
          exact ⟨[], ds, d, rfl, (match_iff (hd d (by simp)) names requirement r).1 hm, fun e he => absurd he (by simp)⟩
        | succ i =>
          rw [List.getElem?_cons_succ] at h1
          obtain ⟨l1, l2, d', e1, e2, e3⟩ := ih i (fun e he => hd e (by simp [he])) h1 fun j b hj hb =>
            h2 (j + 1) b (by omega) (by rw [List.getElem?_cons_succ]; exact hb)
          refine ⟨d :: l1, l2, d', by rw [e1]; rfl, e2, fun e he c hc => ?_⟩
          rcases List.mem_cons.1 he with rfl | he
          · rw [(match_iff (hd e (by simp)) names requirement c).2 hc] at hm
            refine h2 0 c (by omega) ?_
            rw [List.getElem?_cons_zero, hm]
          · exact e3 e he c hc
  · have hlen : (ranked name shape datasets names requirement maximize minimize).length = (find name datasets names requirement).length := by
      unfold ranked
      cases maximize with
      | some F => simp only [List.length_insertionSort]
      | none =>
        cases minimize with
        | some F => simp only [List.length_insertionSort]
        | none => simp only [List.length_insertionSort]
    unfold findBest
    rw [List.head?_eq_none_iff, ← List.length_eq_zero_iff, hlen, List.length_eq_zero_iff]
    unfold find
    rw [List.filterMap_eq_nil_iff]
    constructor
    · rintro h ⟨d, h1, c, h2⟩
      exact absurd (h d h1) (by rw [(match_iff (hd d h1) names requirement c).2 h2]; simp)
    · intro h d h1
      cases hm : match? name names requirement d with
      | none => rfl
      | some c => exact absurd ⟨d, h1, c, (match_iff (hd d h1) names requirement c).1 hm⟩ h

/-! ### a concrete case -/

/-- variables given by name, shape and a number -/
abbrev VEx := Name × List ℕ × ℕ

def setsEx : List (Members VEx) :=
  [⟨[("t".toList, [2, 3], 0), ("u".toList, [2, 3], 1)], [("lat".toList, [3], 2)]⟩,
   ⟨[("t".toList, [4, 3], 3), ("u".toList, [4, 3], 4)], [("lat".toList, [3], 5)]⟩,
   ⟨[("t".toList, [9, 9], 6)], []⟩,
   ⟨[("t".toList, [4, 3], 7), ("u".toList, [4, 3], 8)], []⟩]

theorem setsEx_own : ∀ d ∈ setsEx, OwnMembers Prod.fst d := by
  unfold OwnMembers
  decide +kernel

/-- the largest one that has both, the first of two alike -/
example : findBest Prod.fst (fun v : VEx => v.2.1) setsEx ["u".toList, "t".toList] none none none = some [("u".toList, [4, 3], 4), ("t".toList, [4, 3], 3)] := by
  decide +kernel

example : findBest Prod.fst (fun v : VEx => v.2.1) setsEx ["t".toList] none (some [fun c => ((c.map fun v => v.2.2).headD 0 : ℕ)]) none =
    some [("t".toList, [4, 3], 7)] := by decide +kernel

/-- With `maximize`, `minimize` does not count. -/
theorem minimize_ignored (name : V → Name) (shape : V → List ℕ) (datasets : List (Members V)) (names : List Name)
    (requirement : Option (Members V → Bool)) (F : List (List V → ℚ)) (minimize : Option (List (List V → ℚ))) :
    findBest name shape datasets names requirement (some F) minimize = findBest name shape datasets names requirement (some F) none := by
  cases minimize <;> rfl

end FindBest
end PyGeode
