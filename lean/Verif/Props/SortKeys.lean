/-
C145: sorting a variable by the axes asked for.
-/
import Verif.Model.SortKeys
import Verif.Spec.SortKeys
import Verif.Props.Combine
import Verif.Props.VarOps
import Verif.Props.Call
import Verif.Props.GetItem

namespace PyGeode
open Spec Axis Combine VarOps

namespace SortKeys

variable {α : Type}

theorem meets_iff (id : AxisId) (a : Axis) : Meets id a ↔ Answers id a := by
  cases id <;> exact Iff.rfl

theorem split_iff (axes : List Axis) (P : Axis → Prop) (i : ℕ) :
    (∃ l a r, axes = l ++ a :: r ∧ l.length = i ∧ P a ∧ ∀ b ∈ l, ¬ P b) ↔
      (∃ a, axes[i]? = some a ∧ P a) ∧ ∀ (j : ℕ) a, j < i → axes[j]? = some a → ¬ P a := by
  constructor
  · rintro ⟨l, a, r, rfl, rfl, h, hb⟩
    refine ⟨⟨a, by simp, h⟩, fun j b hj hb' => ?_⟩
    rw [List.getElem?_append_left hj] at hb'
    exact hb b (List.mem_of_getElem? hb')
  · rintro ⟨⟨a, ha, h⟩, hb⟩
    obtain ⟨hi, rfl⟩ := List.getElem?_eq_some_iff.1 ha
    refine ⟨axes.take i, axes[i], axes.drop (i + 1), by simp, by simp; omega, h, fun b hbm => ?_⟩
    obtain ⟨j, hj, rfl⟩ := List.getElem_of_mem hbm
    rw [List.length_take] at hj
    refine hb j _ (by omega) ?_
    rw [List.getElem_take, List.getElem?_eq_getElem]

/-- **C145.** The axis found for a key is the axis it means. -/
theorem found_iff (axes : List Axis) (id : AxisId) (i : ℕ) : foundAt (whichaxis axes id) = some i ↔ Locates axes id i := by
  rw [Call.foundAt_some]
  by_cases hid : ∃ n, id = .int n
  · obtain ⟨n, rfl⟩ := hid
    unfold Locates whichaxis
    simp only [AxisId.int.injEq, Meets]
    constructor
    · intro h
      split_ifs at h with hn
      simp only [Found.at.injEq] at h
      left; omega
    · rintro (⟨rfl, h⟩ | ⟨_, _, _, _, _, h, _⟩)
      · rw [if_pos ⟨by omega, by omega⟩]; simp
      · exact h.elim
  · have hid' : ∀ n, id ≠ .int n := fun n h => hid ⟨n, h⟩
    rw [(whichaxis_correct axes id hid').1 i]
    unfold Locates
    simp only [hid', false_and, false_or]
    rw [split_iff]
    simp only [meets_iff]

theorem locates_lt {axes : List Axis} {id : AxisId} {i : ℕ} (h : Locates axes id i) : i < axes.length := by
  rcases h with ⟨_, h⟩ | ⟨l, a, r, rfl, rfl, _⟩
  · exact h
  · simp

theorem locates_unique {axes : List Axis} {id : AxisId} {i j : ℕ} (h : Locates axes id i) (h' : Locates axes id j) : i = j := by
  rw [← found_iff] at h h'
  exact Option.some_injective _ (h.symm.trans h')

/-- the entry of a keyword -/
def kwEntry (axes : List Axis) (p : Name × ℤ) : Option (ℕ × ℤ) :=
  (foundAt (whichaxis axes (.name p.1))).bind fun i => if p.2 = 1 ∨ p.2 = 0 ∨ p.2 = -1 then some (i, p.2) else none

theorem kwEntry_iff (axes : List Axis) (p : Name × ℤ) (e : ℕ × ℤ) :
    kwEntry axes p = some e ↔ Locates axes (.name p.1) e.1 ∧ e.2 = p.2 ∧ (p.2 = 1 ∨ p.2 = 0 ∨ p.2 = -1) := by
  unfold kwEntry
  rw [Option.bind_eq_some_iff]
  simp only [found_iff]
  constructor
  · rintro ⟨i, h, hs⟩
    split_ifs at hs with hc
    obtain rfl := Option.some_injective _ hs
    exact ⟨h, rfl, hc⟩
  · rintro ⟨h1, h2, h3⟩
    exact ⟨e.1, h1, by rw [if_pos h3, ← h2]⟩

theorem lookup_iff (order : List (ℕ × ℤ)) (i : ℕ) (o : ℤ) :
    lookup order i = some o ↔ ∃ before after, order = before ++ (i, o) :: after ∧ ∀ q ∈ after, q.1 ≠ i := by
  unfold lookup
  rw [Option.map_eq_some_iff]
  constructor
  · rintro ⟨p, h, rfl⟩
    rw [List.find?_eq_some_iff_append] at h
    obtain ⟨hp, l, r, e, hl⟩ := h
    have hp' : p.1 = i := by simpa using hp
    refine ⟨r.reverse, l.reverse, ?_, ?_⟩
    · rw [← List.reverse_reverse order, e]; simp [← hp']
    · intro q hq; simpa using hl q (by simpa using hq)
  · rintro ⟨b, a, rfl, ha⟩
    refine ⟨(i, o), ?_, rfl⟩
    rw [List.find?_eq_some_iff_append]
    refine ⟨by simp, a.reverse, b.reverse, by simp, fun q hq => by simpa using ha q (by simpa using hq)⟩

theorem lookup_none (order : List (ℕ × ℤ)) (i : ℕ) : lookup order i = none ↔ ∀ q ∈ order, q.1 ≠ i := by
  unfold lookup
  simp

theorem entries_some (axes : List Axis) (ids : List AxisId) (kw : List (Name × ℤ)) (order : List (ℕ × ℤ)) :
    entries axes ids kw = some order ↔ ∃ l k, List.Forall₂ (fun id (e : ℕ × ℤ) => Locates axes id e.1 ∧ e.2 = 0) ids l ∧
      List.Forall₂ (fun (p : Name × ℤ) e => kwEntry axes p = some e) kw k ∧
      order = if l ++ k = [] then (List.range axes.length).map fun i => (i, 0) else l ++ k := by
  unfold entries
  rw [Option.bind_eq_some_iff]
  constructor
  · rintro ⟨l, hl, h⟩
    rw [Option.map_eq_some_iff] at h
    obtain ⟨k, hk, rfl⟩ := h
    refine ⟨l, k, ?_, (GetItem.mapM_iff _ _ _).1 hk, rfl⟩
    refine ((GetItem.mapM_iff _ _ _).1 hl).imp fun id e h => ?_
    rw [Option.map_eq_some_iff] at h
    obtain ⟨i, hi, rfl⟩ := h
    exact ⟨(found_iff _ _ _).1 hi, rfl⟩
  · rintro ⟨l, k, hl, hk, rfl⟩
    refine ⟨l, (GetItem.mapM_iff _ _ _).2 (hl.imp fun id e h => ?_), ?_⟩
    · rw [Option.map_eq_some_iff]
      exact ⟨e.1, (found_iff _ _ _).2 h.1, by rw [← h.2]⟩
    · rw [Option.map_eq_some_iff]
      exact ⟨k, (GetItem.mapM_iff _ _ _).2 hk, rfl⟩

theorem forall2_exists {β γ : Type} {R : β → γ → Prop} : ∀ {l : List β}, (∃ m, List.Forall₂ R l m) ↔ ∀ b ∈ l, ∃ c, R b c
  | [] => by simp
  | b :: l => by
    constructor
    · rintro ⟨m, h⟩
      cases h with
      | cons h1 h2 =>
        intro b' hb'
        rcases List.mem_cons.1 hb' with rfl | hb'
        · exact ⟨_, h1⟩
        · exact (forall2_exists (R := R)).1 ⟨_, h2⟩ b' hb'
    · intro h
      obtain ⟨c, hc⟩ := h b (by simp)
      obtain ⟨m, hm⟩ := (forall2_exists (R := R) (l := l)).2 fun b' hb' => h b' (List.mem_cons_of_mem _ hb')
      exact ⟨c :: m, .cons hc hm⟩

/-- **C145.** A request is refused exactly if a key means no axis or an order is not 1, 0 or -1. -/
theorem sorted_accepted (nr : List ℚ → ℚ) (junk : List ℕ → α) (down : Axis → Bool) (x : Var α) (ids : List AxisId)
    (kw : List (Name × ℤ)) :
    (sorted nr junk down x ids kw).isSome ↔
      (∀ id ∈ ids, ∃ i, Locates x.axes id i) ∧
        ∀ p ∈ kw, (∃ i, Locates x.axes (.name p.1) i) ∧ (p.2 = 1 ∨ p.2 = 0 ∨ p.2 = -1) := by
  unfold sorted
  rw [Option.isSome_map, Option.isSome_iff_exists]
  simp only [entries_some]
  constructor
  · rintro ⟨_, l, k, hl, hk, _⟩
    refine ⟨fun id h => ?_, fun p h => ?_⟩
    · obtain ⟨e, he, _⟩ := forall2_exists.1 ⟨l, hl⟩ id h
      exact ⟨_, he⟩
    · obtain ⟨e, he⟩ := forall2_exists.1 ⟨k, hk⟩ p h
      rw [kwEntry_iff] at he
      exact ⟨⟨_, he.1⟩, he.2.2⟩
  · rintro ⟨h1, h2⟩
    obtain ⟨l, hl⟩ := (forall2_exists (R := fun id (e : ℕ × ℤ) => Locates x.axes id e.1 ∧ e.2 = 0) (l := ids)).2 fun id h => by
      obtain ⟨i, hi⟩ := h1 id h
      exact ⟨(i, 0), hi, rfl⟩
    obtain ⟨k, hk⟩ := (forall2_exists (R := fun (p : Name × ℤ) e => kwEntry x.axes p = some e) (l := kw)).2 fun p h => by
      obtain ⟨⟨i, hi⟩, ho⟩ := h2 p h
      exact ⟨(i, p.2), (kwEntry_iff _ _ _).2 ⟨hi, rfl, ho⟩⟩
    exact ⟨_, l, k, hl, hk, rfl⟩

theorem forall2_append {β γ : Type} {R : β → γ → Prop} {l : List β} {m1 m2 : List γ} (h : List.Forall₂ R l (m1 ++ m2)) :
    ∃ l1 l2, l = l1 ++ l2 ∧ List.Forall₂ R l1 m1 ∧ List.Forall₂ R l2 m2 :=
  ⟨l.take m1.length, l.drop m1.length, by simp, by simpa using List.forall₂_take_append l m1 m2 h,
    by simpa using List.forall₂_drop_append l m1 m2 h⟩

theorem forall2_mem_left {β γ : Type} {R : β → γ → Prop} {l : List β} {m : List γ} (h : List.Forall₂ R l m) {b : β} (hb : b ∈ l) :
    ∃ c ∈ m, R b c := by
  induction h with
  | nil => simp at hb
  | cons h1 _ ih =>
    rcases List.mem_cons.1 hb with rfl | hb
    · exact ⟨_, by simp, h1⟩
    · obtain ⟨c, hc, h⟩ := ih hb
      exact ⟨c, by simp [hc], h⟩

theorem forall2_mem_right {β γ : Type} {R : β → γ → Prop} {l : List β} {m : List γ} (h : List.Forall₂ R l m) {c : γ} (hc : c ∈ m) :
    ∃ b ∈ l, R b c := by
  induction h with
  | nil => simp at hc
  | cons h1 _ ih =>
    rcases List.mem_cons.1 hc with rfl | hc
    · exact ⟨_, by simp, h1⟩
    · obtain ⟨b, hb, h⟩ := ih hc
      exact ⟨b, by simp [hb], h⟩

/-- the order taken for an axis is the one wanted -/
theorem lookup_wants {axes : List Axis} {ids : List AxisId} {kw : List (Name × ℤ)} {order : List (ℕ × ℤ)}
    (h : entries axes ids kw = some order) (i : ℕ) (o : ℤ) : lookup order i = some o ↔ Wants axes ids kw i o := by
  obtain ⟨l, k, hl, hk, rfl⟩ := (entries_some _ _ _ _).1 h
  unfold Wants
  rw [lookup_iff]
  by_cases hnil : l ++ k = []
  · obtain ⟨rfl, rfl⟩ := List.append_eq_nil_iff.1 hnil
    rw [List.forall₂_nil_right_iff] at hl hk
    subst hl hk
    simp only [List.append_nil, if_true, List.not_mem_nil, false_and, exists_false, and_false, List.nil_eq, List.append_eq_nil_iff, reduceCtorEq, true_and,
      false_or]
    constructor
    · rintro ⟨b, a, e, _⟩
      have : (i, o) ∈ (List.range axes.length).map fun i => (i, (0 : ℤ)) := by rw [e]; simp
      simp only [List.mem_map, List.mem_range, Prod.mk.injEq] at this
      obtain ⟨j, hj, rfl, rfl⟩ := this
      exact ⟨rfl, hj⟩
    · rintro ⟨rfl, hi⟩
      obtain ⟨d, hd⟩ : ∃ d, axes.length = i + (d + 1) := ⟨axes.length - i - 1, by omega⟩
      refine ⟨(List.range i).map fun i => (i, 0), (List.range' (i + 1) d).map fun i => (i, 0), ?_, ?_⟩
      · rw [hd, List.range_eq_range', ← List.range'_append_1, List.map_append, ← List.range_eq_range', List.range'_succ, List.map_cons]
        simp
      · intro q hq
        simp only [List.mem_map, List.mem_range'_1] at hq
        obtain ⟨j, hj, rfl⟩ := hq
        simp only
        omega
  · rw [if_neg hnil]
    have hno : ¬ (ids = [] ∧ kw = []) := by
      rintro ⟨rfl, rfl⟩
      rw [List.forall₂_nil_left_iff] at hl hk
      exact hnil (by rw [hl, hk]; rfl)
    have fwd : ∀ o, (∃ before after, l ++ k = before ++ (i, o) :: after ∧ ∀ q ∈ after, q.1 ≠ i) →
        (∃ before n after, kw = before ++ (n, o) :: after ∧ Locates axes (.name n) i ∧ ∀ q ∈ after, ¬ Locates axes (.name q.1) i) ∨
        (o = 0 ∧ (∃ id ∈ ids, Locates axes id i) ∧ ∀ q ∈ kw, ¬ Locates axes (.name q.1) i) ∨
        (o = 0 ∧ ids = [] ∧ kw = [] ∧ i < axes.length) := by
      rintro o ⟨b, a, e, ha⟩
      rw [List.append_eq_append_iff] at e
      rcases e with ⟨c, rfl, hc⟩ | ⟨c, rfl, hc⟩
      · left
        subst hc
        obtain ⟨q1, q2, rfl, h1, h2⟩ := forall2_append hk
        obtain ⟨p, rest, hp, hr, rfl⟩ := List.forall₂_cons_right_iff.1 h2
        rw [kwEntry_iff] at hp
        obtain ⟨n, o'⟩ := p
        simp only at hp
        refine ⟨q1, n, rest, by rw [hp.2.1], hp.1, fun q hq hq' => ?_⟩
        obtain ⟨e, he, hqe⟩ := forall2_mem_left hr hq
        rw [kwEntry_iff] at hqe
        exact ha e he (locates_unique hqe.1 hq')
      · rcases c with _ | ⟨e, c⟩
        · rw [List.nil_append] at hc
          left
          rw [← hc] at hk
          obtain ⟨p, rest, hp, hr, rfl⟩ := List.forall₂_cons_right_iff.1 hk
          rw [kwEntry_iff] at hp
          obtain ⟨n, o'⟩ := p
          simp only at hp
          refine ⟨[], n, rest, by rw [hp.2.1]; rfl, hp.1, fun q hq hq' => ?_⟩
          obtain ⟨e, he, hqe⟩ := forall2_mem_left hr hq
          rw [kwEntry_iff] at hqe
          exact ha e he (locates_unique hqe.1 hq')
        · rw [List.cons_append, List.cons.injEq] at hc
          obtain ⟨rfl, rfl⟩ := hc
          right; left
          obtain ⟨id, hid, h1, h2⟩ := forall2_mem_right hl (c := (i, o)) (by simp)
          refine ⟨h2, ⟨id, hid, h1⟩, fun q hq hq' => ?_⟩
          obtain ⟨e, he, hqe⟩ := forall2_mem_left hk hq
          rw [kwEntry_iff] at hqe
          exact ha e (by simp [he]) (locates_unique hqe.1 hq')
    refine ⟨fwd o, ?_⟩
    rintro (⟨b, n, a, rfl, hn, ha⟩ | ⟨rfl, ⟨id, hid, hi⟩, hk'⟩ | ⟨_, h1, h2, _⟩)
    · obtain ⟨k1, k2, rfl, h1, h2⟩ := forall2_append hk.flip
      rw [List.forall₂_cons_right_iff] at h2
      obtain ⟨e, k3, he, h3, rfl⟩ := h2
      rw [kwEntry_iff] at he
      have he1 := locates_unique he.1 hn
      obtain ⟨e1, e2⟩ := e
      simp only at he1 he
      refine ⟨l ++ k1, k3, by rw [← he1, ← he.2.1]; simp, fun q hq hq' => ?_⟩
      obtain ⟨p, hp, hpq⟩ := forall2_mem_left h3 hq
      rw [kwEntry_iff] at hpq
      exact ha p hp (hq' ▸ hpq.1)
    · obtain ⟨e, he, he1, _⟩ := forall2_mem_left hl hid
      cases hlook : lookup (l ++ k) i with
      | none =>
        exact absurd (locates_unique he1 hi) ((lookup_none _ _).1 hlook e (by simp [he]))
      | some o' =>
        rw [lookup_iff] at hlook
        rcases fwd o' hlook with ⟨b, n, a, e', hn, _⟩ | ⟨rfl, _⟩ | ⟨rfl, _⟩
        · exact absurd hn (hk' (n, o') (by rw [e']; simp))
        · exact hlook
        · exact hlook
    · exact absurd ⟨h1, h2⟩ hno

/-- **C145.** `sorted` puts the values of each axis in the order wanted for it, leaves the others alone, and moves the data along. -/
theorem sorted_request (nr : List ℚ → ℚ) (junk : List ℕ → α) (down : Axis → Bool) (x : Var α) (ids : List AxisId)
    (kw : List (Name × ℤ)) (data : List ℕ → α) (hx : Contains x data) (hr : Regular x.axes) (hrt : ∀ a ∈ x.axes, 0 ≤ a.rtol)
    (hsep : ∀ a ∈ x.axes, Separated a.values) (hids : ∀ id ∈ ids, ∃ i, Locates x.axes id i)
    (hkw : ∀ p ∈ kw, (∃ i, Locates x.axes (.name p.1) i) ∧ (p.2 = 1 ∨ p.2 = 0 ∨ p.2 = -1)) :
    ∃ y S, sorted nr junk down x ids kw = some y ∧ S.length = x.axes.length ∧ Contains y (fun k => data (cell S k)) ∧
      ∀ (i : ℕ) (a : Axis), x.axes[i]? = some a → ∃ s b, S[i]? = some s ∧ s.Perm (List.range a.len) ∧ y.axes[i]? = some b ∧
        b.values = s.map (fun j : ℕ => a.values.getD j 0) ∧ (∀ o, Wants x.axes ids kw i o → InOrder (down a) o b.values) ∧
        ((∀ o, ¬ Wants x.axes ids kw i o) → b = a) := by
  have hs := (sorted_accepted nr junk down x ids kw).2 ⟨hids, hkw⟩
  obtain ⟨y, hy⟩ := Option.isSome_iff_exists.1 hs
  have hy' := hy
  unfold sorted at hy'
  rw [Option.map_eq_some_iff] at hy'
  obtain ⟨order, ho, rfl⟩ := hy'
  obtain ⟨S, h1, h2, h3⟩ := sorted_correct nr junk x (fun i => (lookup order i).bind fun o => (reverseOf o).bind fun r =>
    (x.axes[i]?).map fun a => backwards down a r) data hx hr hrt hsep
  refine ⟨_, S, hy, h1, h3, fun i a ha => ?_⟩
  obtain ⟨s, b, hs1, hs2, hb, hv, hn, hf, ht⟩ := h2 i a ha
  refine ⟨s, b, hs1, hs2, hb, hv, fun o hw => ?_, fun hw => hn ?_⟩
  · rw [← lookup_wants ho] at hw
    simp only [hw, Option.bind_some, ha, Option.map_some] at hf ht
    refine ⟨?_, ?_, ?_⟩
    · rintro rfl; exact hf (by simp [reverseOf, backwards])
    · rintro rfl; exact ht (by simp [reverseOf, backwards])
    · rintro rfl
      cases hd : down a
      · exact hf (by simp [reverseOf, backwards, hd])
      · exact ht (by simp [reverseOf, backwards, hd])
  · cases hl : lookup order i with
    | none => rfl
    | some o => exact absurd ((lookup_wants ho i o).1 hl) (hw o)

theorem meets_slice (nr : List ℚ → ℚ) {id : AxisId} (hid : ∀ c, id ≠ .axis c) (a : Axis) (s : List ℕ) :
    Meets id (sliceAxis nr a s) ↔ Meets id a := by
  have h1 : (sliceAxis nr a s).name = a.name ∧ (sliceAxis nr a s).aliases = a.aliases ∧ (sliceAxis nr a s).classes = a.classes := by
    unfold sliceAxis
    simp only
    split_ifs <;> exact ⟨rfl, rfl, rfl⟩
  cases id with
  | axis c => exact absurd rfl (hid c)
  | int n => exact Iff.rfl
  | name n => unfold Meets; simp only [h1.1, h1.2.1]
  | cls c => unfold Meets; simp only [h1.2.2]

theorem locates_map {axes axes' : List Axis} {id : AxisId} (h : List.Forall₂ (fun a a' => Meets id a' ↔ Meets id a) axes axes') {i : ℕ}
    (hi : Locates axes id i) : Locates axes' id i := by
  rcases hi with ⟨h1, h2⟩ | hi
  · exact .inl ⟨h1, h.length_eq ▸ h2⟩
  · right
    rw [split_iff] at hi ⊢
    obtain ⟨⟨a, ha, hm⟩, hb⟩ := hi
    obtain ⟨hl, hg⟩ := List.forall₂_iff_get.1 h
    obtain ⟨hil, rfl⟩ := List.getElem?_eq_some_iff.1 ha
    refine ⟨⟨_, List.getElem?_eq_getElem (by omega), (hg i hil (by omega)).2 hm⟩, fun j b hj hb' => ?_⟩
    obtain ⟨hjl, rfl⟩ := List.getElem?_eq_some_iff.1 hb'
    exact fun hm' => hb j _ hj (List.getElem?_eq_getElem (by omega)) ((hg j (by omega) hjl).1 hm')

theorem sorted_meets (nr : List ℚ → ℚ) (junk : List ℕ → α) (x : Var α) (order : ℕ → Option Bool) {id : AxisId}
    (hid : ∀ c, id ≠ .axis c) :
    List.Forall₂ (fun a a' => Meets id a' ↔ Meets id a) x.axes (sortedVar nr junk x order).axes := by
  rw [List.forall₂_iff_get]
  unfold sortedVar Var.ofView
  refine ⟨by simp, fun i hi hi' => ?_⟩
  simp only [List.get_eq_getElem, List.getElem_map, List.getElem_zipIdx]
  split
  · exact meets_slice nr hid _ _
  · exact Iff.rfl

/-- **C145.** `interp.sorted` with a name, a class or a number sorts that axis alone (in its natural order if nothing is said), and moves the
data along. -/
theorem sortedOne_correct (nr : List ℚ → ℚ) (junk : List ℕ → α) (down : Axis → Bool) (x : Var α) (id : AxisId) (i : ℕ) (a : Axis)
    (r : Reverse) (data : List ℕ → α) (hx : Contains x data) (hr : Regular x.axes) (hrt : ∀ a ∈ x.axes, 0 ≤ a.rtol)
    (hsep : ∀ a ∈ x.axes, Separated a.values) (hid : ∀ c, id ≠ .axis c) (hi : Locates x.axes id i) (ha : x.axes[i]? = some a) :
    ∃ (y : Var α) (s : List ℕ) (b : Axis), sortedOne nr junk down x id r = some y ∧ s.Perm (List.range a.len) ∧
      b.values = s.map (fun j : ℕ => a.values.getD j 0) ∧ y.axes = x.axes.set i b ∧
      Contains y (fun k => data (k.set i (s.getD (k.getD i 0) 0))) ∧
      (r = .bool false → InOrder (down a) 1 b.values) ∧ (r = .bool true → InOrder (down a) (-1) b.values) ∧
      (r = .none → InOrder (down a) 0 b.values) := by
  obtain ⟨S, h1, h2, h3⟩ := sorted_correct nr junk x (fun k => if k = i then (x.axes[k]?).map fun a => backwards down a r else none)
    data hx hr hrt hsep
  obtain ⟨y0, hy0⟩ : ∃ y0, y0 = sortedVar nr junk x fun k => if k = i then (x.axes[k]?).map fun a => backwards down a r else none := ⟨_, rfl⟩
  rw [← hy0] at h2 h3
  have hl0 : y0.axes.length = x.axes.length := by rw [hy0]; simp [sortedVar, Var.ofView]
  have hfound : foundAt (whichaxis y0.axes id) = some i := by
    rw [found_iff, hy0]
    exact locates_map (sorted_meets nr junk x _ hid) hi
  have hil := locates_lt hi
  obtain ⟨s, b, hs1, hs2, hb, hv, hn, hf, ht⟩ := h2 i a ha
  have hax : y0.axes = x.axes.set i b := by
    refine List.ext_getElem (by simp [hl0]) fun k hk hk' => ?_
    have hkx : k < x.axes.length := by omega
    obtain ⟨s', b', _, _, hb', _, hn', _⟩ := h2 k _ (List.getElem?_eq_getElem hkx)
    rw [List.getElem_set]
    obtain ⟨_, e⟩ := List.getElem?_eq_some_iff.1 hb'
    split_ifs with hki
    · subst hki
      obtain ⟨_, e'⟩ := List.getElem?_eq_some_iff.1 hb
      exact e'
    · rw [e]
      exact hn' (by rw [if_neg fun h => hki h.symm])
  have hord : (r = .bool false → InOrder (down a) 1 b.values) ∧ (r = .bool true → InOrder (down a) (-1) b.values) ∧
      (r = .none → InOrder (down a) 0 b.values) := by
    simp only [if_true, ha, Option.map_some, reduceCtorEq, Option.some.injEq] at hf ht
    refine ⟨?_, ?_, ?_⟩
    · rintro rfl; exact ⟨fun _ => hf rfl, fun h => by norm_num at h, fun h => by norm_num at h⟩
    · rintro rfl; exact ⟨fun h => by norm_num at h, fun _ => ht rfl, fun h => by norm_num at h⟩
    · rintro rfl
      refine ⟨fun h => by norm_num at h, fun h => by norm_num at h, fun _ => ?_⟩
      cases hd : down a
      · exact hf hd
      · exact ht hd
  have hcont : Contains y0 fun k => data (k.set i (s.getD (k.getD i 0) 0)) := by
    refine Rotate.contains_congr h3 fun k hk => ?_
    have hkl : k.length = x.axes.length := by have := hk.length_eq; simpa [hl0] using this
    congr 1
    refine List.ext_getElem (by simp [cell, h1, hkl]) fun j hj hj' => ?_
    have hjx : j < x.axes.length := by simpa [hkl] using hj'
    have hkj : k[j]'(by omega) < (y0.axes[j]'(by omega)).len := by
      have := (List.forall₂_iff_get.1 hk).2 j (by omega) (by simpa [hl0] using hjx)
      simpa using this
    simp only [cell, List.getElem_zipWith, List.getElem_set]
    obtain ⟨s', b', hs', hp', hb', hv', hn', _⟩ := h2 j _ (List.getElem?_eq_getElem hjx)
    obtain ⟨_, e'⟩ := List.getElem?_eq_some_iff.1 hs'
    split_ifs with hji
    · subst hji
      rw [hs1, Option.some.injEq] at hs'
      rw [e', List.getD_eq_getElem k 0 (by omega), hs']
    · have hbe := hn' (by rw [if_neg fun h => hji h.symm])
      rw [hbe] at hv'
      have hrange : s' = List.range x.axes[j].len :=
        GetItem.map_getD_range (hsep _ (List.getElem_mem _)).nodup (fun m hm => by simpa [Axis.len] using hp'.mem_iff.1 hm) hv'.symm
      obtain ⟨_, eb⟩ := List.getElem?_eq_some_iff.1 hb'
      rw [eb, hbe] at hkj
      rw [e', hrange, List.getD_eq_getElem _ 0 (by simpa using hkj)]
      simp
  refine ⟨if y0.axes[i]? = x.axes[i]? then x else y0, s, b, ?_, hs2, hv, ?_, ?_, hord⟩
  · unfold sortedOne
    rw [(found_iff _ _ _).2 hi, Option.bind_some]
    simp only [← hy0]
    rw [hfound, Option.map_some]
  · split_ifs with hsame
    · rw [hb, ha, Option.some.injEq] at hsame
      obtain ⟨h, e⟩ := List.getElem?_eq_some_iff.1 ha
      rw [hsame, ← e, List.set_getElem_self]
    · exact hax
  · split_ifs with hsame
    · rw [hb, ha, Option.some.injEq] at hsame
      obtain ⟨_, e⟩ := List.getElem?_eq_some_iff.1 ha
      rw [hsame] at hv
      have hrange : s = List.range a.len :=
        GetItem.map_getD_range (hsep _ (List.mem_of_getElem? ha)).nodup (fun m hm => by simpa [Axis.len] using hs2.mem_iff.1 hm) hv.symm
      refine Rotate.contains_congr hx fun k hk => ?_
      congr 1
      have hkl : k.length = x.axes.length := by have := hk.length_eq; simpa using this
      have hki : k[i]'(by omega) < a.len := by
        have := (List.forall₂_iff_get.1 hk).2 i (by omega) (by simpa using hil)
        simpa [e] using this
      rw [hrange, List.getD_eq_getElem k 0 (by omega), List.getD_eq_getElem _ 0 (by simpa using hki), List.getElem_range,
        List.set_getElem_self]
    · exact hcont

/-- **C145.** If the axis is in the order asked already, the variable itself is returned. -/
theorem sortedOne_same (nr : List ℚ → ℚ) (junk : List ℕ → α) (down : Axis → Bool) (x : Var α) (id : AxisId) (i : ℕ) (a : Axis)
    (r : Reverse) (hid : ∀ c, id ≠ .axis c) (hi : Locates x.axes id i) (ha : x.axes[i]? = some a)
    (hsorted : if backwards down a r then a.values.Pairwise (· > ·) else a.values.Pairwise (· < ·)) :
    sortedOne nr junk down x id r = some x := by
  have hv : (axisArgsort a (backwards down a r)).map (fun j : ℕ => a.values.getD j 0) = a.values := by
    obtain ⟨hp, ho⟩ := argsort_spec a.values
    have hmap : (List.range a.values.length).map (fun j : ℕ => a.values.getD j 0) = a.values := by
      refine List.ext_getElem (by simp) fun i hi hi' => ?_
      rw [List.getElem_map, List.getElem_range, List.getD_eq_getElem _ _ hi']
    have hperm : ((argsort a.values).map fun j : ℕ => a.values.getD j 0).Perm a.values := by
      have := hp.map fun j : ℕ => a.values.getD j 0
      rwa [hmap] at this
    unfold axisArgsort
    split_ifs with hb
    · rw [if_pos hb] at hsorted
      rw [List.map_reverse]
      refine List.Perm.eq_of_pairwise (le := (· ≥ ·)) (fun a b _ _ h1 h2 => le_antisymm h2 h1) ?_ (hsorted.imp fun h => le_of_lt h)
        ((List.reverse_perm _).trans hperm)
      rw [List.pairwise_reverse]
      exact ho
    · rw [if_neg hb] at hsorted
      exact List.Perm.eq_of_pairwise (le := (· ≤ ·)) (fun a b _ _ h1 h2 => le_antisymm h1 h2) ho (hsorted.imp fun h => le_of_lt h) hperm
  have hsl : sliceAxis nr a (axisArgsort a (backwards down a r)) = a := by
    unfold sliceAxis
    simp only [hv, if_true]
  obtain ⟨y0, hy0⟩ : ∃ y0, y0 = sortedVar nr junk x fun k => if k = i then (x.axes[k]?).map fun a => backwards down a r else none := ⟨_, rfl⟩
  have hfound : foundAt (whichaxis y0.axes id) = some i := by
    rw [found_iff, hy0]
    exact locates_map (sorted_meets nr junk x _ hid) hi
  obtain ⟨hil, e⟩ := List.getElem?_eq_some_iff.1 ha
  have hsame : y0.axes[i]? = x.axes[i]? := by
    rw [hy0]
    unfold sortedVar Var.ofView
    simp only [List.getElem?_map, List.getElem?_zipIdx, ha, Option.map_some, Nat.zero_add, if_true, hsl]
  unfold sortedOne
  rw [(found_iff _ _ _).2 hi, Option.bind_some]
  simp only [← hy0]
  rw [hfound, Option.map_some, if_pos hsame]

/-- C145 fails for `interp.sorted` with an axis object: unless its values are in order already, it is looked up in vain in the new variable,
and KeyError is raised. -/
theorem sortedOne_axis_violated :
    (sortedOne (fun _ => 0) (fun _ => (0 : ℕ)) (fun _ => false) (GetItem.lineEx [30, 10, 20]) (.axis (mkEx [30, 10, 20]))
      (.bool false)).isNone = true := by decide +kernel

/-- **C145.** `argsort` lists every position once; the values there increase, or decrease if True is asked, or follow the natural order. -/
theorem argsortOf_correct (down : Axis → Bool) (a : Axis) (r : Reverse) :
    (argsortOf down a r).Perm (List.range a.len) ∧
      (r = .bool false → InOrder (down a) 1 ((argsortOf down a r).map fun j : ℕ => a.values.getD j 0)) ∧
      (r = .bool true → InOrder (down a) (-1) ((argsortOf down a r).map fun j : ℕ => a.values.getD j 0)) ∧
      (r = .none → InOrder (down a) 0 ((argsortOf down a r).map fun j : ℕ => a.values.getD j 0)) := by
  have h1 : ((axisArgsort a false).map fun j : ℕ => a.values.getD j 0).Pairwise (· ≤ ·) := (argsort_spec a.values).2
  have h2 : ((axisArgsort a true).map fun j : ℕ => a.values.getD j 0).Pairwise (· ≥ ·) := by
    simp only [axisArgsort, if_true, List.map_reverse]
    rw [List.pairwise_reverse]
    exact h1
  refine ⟨axisArgsort_perm a _, ?_, ?_, ?_⟩
  · rintro rfl; exact ⟨fun _ => h1, fun h => by norm_num at h, fun h => by norm_num at h⟩
  · rintro rfl; exact ⟨fun h => by norm_num at h, fun _ => h2, fun h => by norm_num at h⟩
  · rintro rfl
    refine ⟨fun h => by norm_num at h, fun h => by norm_num at h, fun _ => ?_⟩
    unfold argsortOf backwards
    cases hd : down a
    · exact h1
    · exact h2

/-- C145 fails for other ways to say True: `argsort(reverse=1)` sorts upwards. -/
theorem reverse_violated : argsortOf (fun _ => false) (mkEx [30, 10, 20]) (.other true) = [1, 2, 0] ∧
    argsortOf (fun _ => false) (mkEx [30, 10, 20]) (.bool true) = [0, 2, 1] := by decide +kernel

/-- axis values and data of a variable on one axis -/
def shownOf (y : Option (Var ℕ)) : Option (List (List ℚ) × List ℕ) :=
  y.bind fun y => (y.read (fun _ => 0) (fun _ => 0) y.whole).map fun r =>
    (y.axes.map Axis.values, (product (r.shape.map List.range)).map r.get)

/-- The premises are met: a keyword after a position, both meaning the same axis. -/
example : Locates (GetItem.lineEx [30, 10, 20]).axes (.name "lat".toList) 0 ∧
    Wants (GetItem.lineEx [30, 10, 20]).axes [.int 0] [("lat".toList, -1)] 0 (-1) := by
  have h : Locates (GetItem.lineEx [30, 10, 20]).axes (.name "lat".toList) 0 := by
    rw [← found_iff]; decide +kernel
  exact ⟨h, .inl ⟨[], "lat".toList, [], rfl, h, by simp⟩⟩

example : shownOf (sorted (fun _ => 0) (fun _ => 0) (fun _ => false) (GetItem.lineEx [30, 10, 20]) [.int 0] [("lat".toList, -1)]) =
      some ([[30, 20, 10]], [10, 12, 11]) ∧
    shownOf (sorted (fun _ => 0) (fun _ => 0) (fun _ => false) (GetItem.lineEx [30, 10, 20]) [] []) =
      some ([[10, 20, 30]], [11, 12, 10]) ∧
    shownOf (sortedOne (fun _ => 0) (fun _ => 0) (fun _ => true) (GetItem.lineEx [30, 10, 20]) (.name "lat".toList) .none) =
      some ([[30, 20, 10]], [10, 12, 11]) ∧
    shownOf (sortedOne (fun _ => 0) (fun _ => 0) (fun _ => true) (GetItem.lineEx [30, 20, 10]) (.name "lat".toList) .none) =
      some ([[30, 20, 10]], [10, 11, 12]) := by
  refine ⟨?_, ?_, ?_, ?_⟩ <;> decide +kernel

example : entries (GetItem.lineEx [30, 10, 20]).axes [] [("lat".toList, 2)] = none := by decide +kernel

end SortKeys
end PyGeode
