/-
Properties C33 (merging attributes), C35 (axis lookup), C34 (axes of a combination and broadcasting):
/repo/pygeode/tools.py:113-264, /repo/pygeode/ufunc.py:25-107.
-/
import Verif.Model.Combine
import Verif.Props.AxisSlice

namespace PyGeode
namespace Combine
open Spec NArr Axis

/-! ### C33: merging attributes -/

section
variable {V : Type}

theorem lookup_dictSet (d : List (Name × V)) (k : Name) (v : V) (k' : Name) :
    (dictSet d k v).lookup k' = if k' = k then some v else d.lookup k' := by
  unfold dictSet
  split_ifs with h1 h2 h2
  · subst h2
    induction d with
    | nil => simp at h1
    | cons q d ih =>
      rw [List.map_cons, List.lookup_cons]
      by_cases hq : q.1 = k'
      · simp [hq]
      · rw [if_neg hq, beq_false_of_ne (Ne.symm hq)]
        exact ih (by simpa [Ne.symm hq] using h1)
  · induction d with
    | nil => rfl
    | cons q d ih =>
      rw [List.map_cons, List.lookup_cons, List.lookup_cons]
      by_cases hq : q.1 = k
      · rw [if_pos hq]
        simp only
        rw [beq_false_of_ne h2, beq_false_of_ne (by rw [hq]; exact h2)]
        simp only
        by_cases hm : k ∈ d.map Prod.fst
        · exact ih hm
        · congr 1
          conv_rhs => rw [← List.map_id d]
          refine List.map_congr_left fun p hp => ?_
          rw [if_neg (fun e : p.1 = k => hm (e ▸ List.mem_map_of_mem hp))]; rfl
      · rw [if_neg hq]
        rw [ih (by simpa [Ne.symm hq] using h1)]
  · subst h2
    rw [List.lookup_append, lookup_none.2 h1]
    simp
  · rw [List.lookup_append, List.lookup_cons, beq_false_of_ne h2]
    simp

theorem lookup_fold : ∀ (l d : List (Name × V)) (k : Name),
    (l.foldl (fun d p => dictSet d p.1 p.2) d).lookup k = (l.reverse.lookup k).or (d.lookup k)
  | [], d, k => by simp
  | p :: l, d, k => by
    rw [List.foldl_cons, lookup_fold l, lookup_dictSet, List.reverse_cons, List.lookup_append, List.lookup_cons]
    by_cases h : k = p.1
    · simp [h]
    · rw [if_neg h, beq_false_of_ne h]
      simp

theorem lookup_reverse : ∀ (d : List (Name × V)), (d.map Prod.fst).Nodup → ∀ k, d.reverse.lookup k = d.lookup k
  | [], _, k => rfl
  | p :: d, h, k => by
    rw [List.map_cons, List.nodup_cons] at h
    rw [List.reverse_cons, List.lookup_append, lookup_reverse d h.2, List.lookup_cons, List.lookup_cons]
    by_cases hk : k = p.1
    · subst hk
      rw [lookup_none.2 h.1]
      simp
    · rw [beq_false_of_ne hk]
      simp

/-- A merged dictionary has, for every key, the value of the last dictionary that has the key. -/
theorem lookup_merge (dicts : List (List (Name × V))) (hd : ∀ d ∈ dicts, (d.map Prod.fst).Nodup) (k : Name) :
    (mergeDicts dicts).lookup k = dicts.reverse.findSome? (fun d => d.lookup k) := by
  unfold mergeDicts
  rw [lookup_fold]
  simp only [List.lookup_nil, Option.or_none]
  induction dicts with
  | nil => rfl
  | cons d ds ih =>
    rw [List.flatten_cons, List.reverse_append, List.lookup_append, ih (fun x hx => hd x (by simp [hx])),
      List.reverse_cons, List.findSome?_append, lookup_reverse d (hd d (by simp))]
    cases hl : d.lookup k <;> simp [hl]

theorem keys_dictSet {d : List (Name × V)} {k : Name} {v : V} (h : (d.map Prod.fst).Nodup) :
    ((dictSet d k v).map Prod.fst).Nodup := by
  unfold dictSet
  split_ifs with hk
  · have : (d.map fun p => if p.1 = k then (k, v) else p).map Prod.fst = d.map Prod.fst := by
      rw [List.map_map]
      refine List.map_congr_left fun p _ => ?_
      simp only [Function.comp_apply]
      split_ifs with e
      · exact e.symm
      · rfl
    rw [this]; exact h
  · rw [List.map_append]
    refine List.Nodup.append h (by simp) ?_
    simpa using hk

theorem keys_merge (dicts : List (List (Name × V))) : ((mergeDicts dicts).map Prod.fst).Nodup := by
  unfold mergeDicts
  have : ∀ (l d : List (Name × V)), (d.map Prod.fst).Nodup →
      ((l.foldl (fun d p => dictSet d p.1 p.2) d).map Prod.fst).Nodup := by
    intro l
    induction l with
    | nil => intro d h; exact h
    | cons p l ih => intro d h; exact ih _ (keys_dictSet h)
  exact this _ _ (by simp)

theorem lookup_filter {P : Name × V → Bool} {d : List (Name × V)} (hd : (d.map Prod.fst).Nodup) (k : Name) (v : V) :
    (d.filter P).lookup k = some v ↔ d.lookup k = some v ∧ P (k, v) = true := by
  induction d with
  | nil => simp
  | cons p d ih =>
    rw [List.map_cons, List.nodup_cons] at hd
    obtain ⟨pk, pv⟩ := p
    have hni : k = pk → d.lookup k = none := fun e => lookup_none.2 (e ▸ hd.1)
    have hni' : k = pk → (d.filter P).lookup k = none := fun e => by
      rw [lookup_none]
      intro hm
      obtain ⟨q, hq, hqe⟩ := List.mem_map.1 hm
      exact hd.1 (List.mem_map.2 ⟨q, List.mem_of_mem_filter hq, by rw [hqe, e]⟩)
    rw [List.filter_cons, List.lookup_cons]
    by_cases hk : k = pk
    · subst hk
      by_cases hp : P (k, pv) = true
      · rw [if_pos hp, List.lookup_cons]
        simp only [beq_self_eq_true, Option.some.injEq]
        constructor
        · rintro rfl; exact ⟨rfl, hp⟩
        · exact fun h => h.1
      · rw [if_neg hp, hni' rfl]
        simp only [beq_self_eq_true, Option.some.injEq]
        constructor
        · intro h; cases h
        · rintro ⟨rfl, h⟩; exact absurd h hp
    · rw [beq_false_of_ne hk]
      by_cases hp : P (pk, pv) = true
      · rw [if_pos hp, List.lookup_cons, beq_false_of_ne hk]
        exact ih hd.2
      · rw [if_neg hp]
        exact ih hd.2

/-- C33, for any comparison of values (NaN is different from itself): an attribute of the result has the value of the
last dictionary, is present in every dictionary and nowhere different from it; and every such attribute is kept. -/
theorem commonDict_general (ne : V → V → Bool) (dicts : List (List (Name × V)))
    (hd : ∀ d ∈ dicts, (d.map Prod.fst).Nodup) (k : Name) (v : V) :
    (commonDict ne dicts).lookup k = some v ↔
      (∃ d, dicts.getLast? = some d ∧ d.lookup k = some v) ∧
      ∀ d ∈ dicts, ∃ w, d.lookup k = some w ∧ ne w v = false := by
  unfold commonDict
  rw [lookup_filter (keys_merge _), lookup_merge _ hd]
  have hcons : consistent ne dicts (k, v) = true ↔ ∀ d ∈ dicts, ∃ w, d.lookup k = some w ∧ ne w v = false := by
    unfold consistent
    rw [List.all_eq_true]
    refine forall₂_congr fun d _ => ?_
    cases hl : d.lookup k with
    | none => simp
    | some w => simp
  rw [hcons]
  refine and_congr_left fun h => ?_
  rcases List.eq_nil_or_concat dicts with rfl | ⟨ds, d, rfl⟩
  · simp
  · rw [List.concat_eq_append] at *
    rw [List.reverse_append]
    obtain ⟨w, hw, _⟩ := h d (by simp)
    simp [hw]

/-- C33: a key is kept, with value `v`, exactly when every dictionary has it with the value `v`. -/
theorem commonDict_correct [DecidableEq V] (dicts : List (List (Name × V))) (hne : dicts ≠ [])
    (hd : ∀ d ∈ dicts, (d.map Prod.fst).Nodup) (k : Name) (v : V) :
    (commonDict (fun x y => decide (x ≠ y)) dicts).lookup k = some v ↔ ∀ d ∈ dicts, d.lookup k = some v := by
  rw [commonDict_general _ _ hd]
  constructor
  · rintro ⟨_, h⟩ d hdm
    obtain ⟨w, hw, he⟩ := h d hdm
    have : w = v := by simpa using he
    rw [hw, this]
  · intro h
    refine ⟨⟨_, List.getLast?_eq_some_getLast hne, h _ (List.getLast_mem hne)⟩, fun d hdm => ⟨v, h d hdm, by simp⟩⟩

/-- C33: the result is a dictionary (keys are distinct), and merging the same dictionaries in another order gives the
same attributes. -/
theorem commonDict_perm [DecidableEq V] (dicts dicts' : List (List (Name × V))) (hp : dicts.Perm dicts')
    (hd : ∀ d ∈ dicts, (d.map Prod.fst).Nodup) (k : Name) :
    ((commonDict (fun x y => decide (x ≠ y)) dicts).map Prod.fst).Nodup ∧
    (commonDict (fun x y => decide (x ≠ y)) dicts).lookup k = (commonDict (fun x y => decide (x ≠ y)) dicts').lookup k := by
  refine ⟨(keys_merge dicts).sublist (List.filter_sublist.map _), ?_⟩
  by_cases hne : dicts = []
  · subst hne
    rw [hp.nil_eq]
  · have hne' : dicts' ≠ [] := fun e => hne (by subst e; exact hp.eq_nil)
    refine Option.ext fun v => ?_
    rw [commonDict_correct _ hne hd, commonDict_correct _ hne' (fun d hm => hd d (hp.mem_iff.2 hm))]
    exact forall_congr' fun d => by rw [hp.mem_iff]

end

/-- The hypotheses are met: one attribute agrees, one differs, one is missing in the second dictionary. -/
example : commonDict (fun x y => decide (x ≠ y))
    [[("units".toList, 1), ("long_name".toList, 2), ("x".toList, 5)], [("long_name".toList, 3), ("units".toList, 1)]] =
    [("units".toList, 1)] := by decide +kernel

/-- Combining names: the result has the common name when all operands have the same one. -/
theorem combineName_correct (names : List Name) (old s : Name) (hne : names ≠ []) (h : ∀ n ∈ names, n = s) :
    combineName names old = s := by
  have hm : s ∈ names := by
    cases names with
    | nil => exact absurd rfl hne
    | cons a l => rw [← h a (by simp)]; simp
  have hrep : names.dedup = [s] := by
    have h1 : names.dedup.Nodup := List.nodup_dedup _
    have h2 : ∀ x ∈ names.dedup, x = s := fun x hx => h x (List.mem_dedup.1 hx)
    have h3 : s ∈ names.dedup := List.mem_dedup.2 hm
    revert h1 h2 h3
    generalize names.dedup = l
    intro h1 h2 h3
    match l with
    | [] => simp at h3
    | [x] => rw [h2 x (by simp)]
    | x :: y :: l =>
      rw [h2 x (by simp), h2 y (by simp)] at h1
      simp at h1
  simp [combineName, hrep]

/-- Combining names: when two operands have different names, or there is none, the result keeps its own. -/
theorem combineName_differ (names : List Name) (old : Name) (h : ∀ s, ¬ (names ≠ [] ∧ ∀ n ∈ names, n = s)) :
    combineName names old = old := by
  unfold combineName
  split
  · rename_i s hs
    exfalso
    have hm : ∀ n, n ∈ names ↔ n = s := fun n => by rw [← List.mem_dedup, hs]; simp
    refine h s ⟨?_, fun n hn => (hm n).1 hn⟩
    rintro rfl
    simpa using (hm s).2 rfl
  · rfl

/-- Two different names, and none. -/
example : combineName ["u".toList, "v".toList, "u".toList] "old".toList = "old".toList ∧
    combineName ["u".toList, "u".toList] "old".toList = "u".toList := by decide +kernel

/-! ### C35: axis lookup -/

/-- the criterion by which an axis answers to an identifier -/
def _root_.PyGeode.Spec.Answers : AxisId → Axis → Prop
  | .name s, a => lower s = lower a.name ∨ lower s ∈ a.aliases
  | .int _, _ => False
  | .axis x, a => axEq a x = true
  | .cls c, a => c ∈ a.classes

private theorem findIdx_first {α : Type} {p : α → Bool} {l : List α} {i : ℕ} :
    l.findIdx? p = some i ↔ (∃ a, l[i]? = some a ∧ p a = true) ∧ ∀ (j : ℕ) a, j < i → l[j]? = some a → p a = false := by
  rw [List.findIdx?_eq_some_iff_getElem]
  constructor
  · rintro ⟨h, h1, h2⟩
    refine ⟨⟨_, List.getElem?_eq_getElem h, h1⟩, ?_⟩
    intro j a hj ha
    obtain ⟨hl, rfl⟩ := List.getElem?_eq_some_iff.1 ha
    simpa using h2 j hj
  · rintro ⟨⟨a, ha, hp⟩, h2⟩
    obtain ⟨hl, rfl⟩ := List.getElem?_eq_some_iff.1 ha
    exact ⟨hl, hp, fun j hj => by simpa using h2 j _ hj (List.getElem?_eq_getElem (by omega))⟩

/-- C35: lookup by name, axis or class gives the first axis that answers, and fails with KeyError exactly when none
does. -/
theorem whichaxis_correct (axes : List Axis) (id : AxisId) (hid : ∀ n, id ≠ .int n) :
    (∀ i, whichaxis axes id = .at i ↔ (∃ a, axes[i]? = some a ∧ Answers id a) ∧
      ∀ (j : ℕ) a, j < i → axes[j]? = some a → ¬ Answers id a) ∧
    (whichaxis axes id = .keyError ↔ ∀ a ∈ axes, ¬ Answers id a) ∧ whichaxis axes id ≠ .typeError := by
  have key : ∀ p : Axis → Bool, (∀ a, p a = true ↔ Answers id a) →
      whichaxis axes id = (match axes.findIdx? p with | some i => .at i | none => .keyError) →
      (∀ i, whichaxis axes id = .at i ↔ (∃ a, axes[i]? = some a ∧ Answers id a) ∧
        ∀ (j : ℕ) a, j < i → axes[j]? = some a → ¬ Answers id a) ∧
      (whichaxis axes id = .keyError ↔ ∀ a ∈ axes, ¬ Answers id a) ∧ whichaxis axes id ≠ .typeError := by
    intro p hp he
    have hp' : ∀ a, p a = false ↔ ¬ Answers id a := fun a => by rw [← hp]; simp
    rw [he]
    cases hf : axes.findIdx? p with
    | none =>
      rw [List.findIdx?_eq_none_iff] at hf
      refine ⟨?_, ?_, by simp⟩
      · intro i
        simp only [reduceCtorEq, false_iff, not_and]
        rintro ⟨a, ha, hA⟩
        exact absurd hA ((hp' a).1 (hf a (List.mem_of_getElem? ha)))
      · simp only [true_iff]
        exact fun a ha => (hp' a).1 (hf a ha)
    | some i =>
      refine ⟨?_, ?_, by simp⟩
      · intro i'
        simp only [Found.at.injEq]
        have := findIdx_first (p := p) (l := axes) (i := i')
        rw [hf] at this
        simp only [Option.some.injEq] at this
        rw [this]
        simp only [hp, hp']
      · simp only [reduceCtorEq, false_iff]
        intro h
        obtain ⟨⟨a, ha, hpa⟩, _⟩ := findIdx_first.1 hf
        exact h a (List.mem_of_getElem? ha) ((hp a).1 hpa)
  cases id with
  | int n => exact absurd rfl (hid n)
  | name s =>
    refine key (fun a => a.hasAlias s) (fun a => ?_) rfl
    simp [hasAlias, Answers]
  | axis x => exact key (fun a => axEq a x) (fun a => Iff.rfl) rfl
  | cls c => exact key (fun a => decide (c ∈ a.classes)) (fun a => by simp [Answers]) rfl

/-- C35: a valid position is its own answer. -/
theorem whichaxis_int (axes : List Axis) (n : ℤ) :
    (∃ i, whichaxis axes (.int n) = .at i) ↔ 0 ≤ n ∧ n < axes.length := by
  simp only [whichaxis]
  split_ifs with h <;> simp [h]

/-- C35 fails for positions that do not exist: TypeError and not KeyError, so `hasaxis(-1)` raises. -/
theorem whichaxis_int_violated (axes : List Axis) : whichaxis axes (.int (-1)) = .typeError := by
  simp [whichaxis]

example : whichaxis [mkEx [1], lonEx, lonEx] (.name "LONGITUDE".toList) = .at 1 ∧
    whichaxis [mkEx [1], lonEx] (.cls "XAxis".toList) = .at 1 ∧ whichaxis [mkEx [1], lonEx] (.name "time".toList) = .keyError ∧
    whichaxis [lonEx, mkEx [1], mkEx [2]] (.axis (mkEx [2])) = .at 2 := by decide +kernel

end Combine
end PyGeode
