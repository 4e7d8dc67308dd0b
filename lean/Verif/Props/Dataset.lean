/-
C31, C32, C67: names in a dataset.
-/
import Verif.Model.Dataset
import Verif.Props.VarOps
import Verif.Props.Concat

namespace PyGeode
namespace Dataset
open Axis Spec VarOps

/-! ### generated names -/

theorem fresh_spec (taken : List Name) (n : Name) : ∃ k, fresh taken n = n ++ List.replicate k 'x' ∧
    fresh taken n ∉ taken ∧ ∀ j < k, n ++ List.replicate j 'x' ∈ taken := by
  induction n using fresh.induct taken with
  | case1 n h ih =>
    obtain ⟨k, h1, h2, h3⟩ := ih
    rw [fresh, dif_pos h]
    refine ⟨k + 1, ?_, h2, ?_⟩
    · rw [h1, List.replicate_succ]; simp
    · intro j hj
      cases j with
      | zero => simpa using h
      | succ j =>
        have := h3 j (by omega)
        rw [List.replicate_succ]
        simpa using this
  | case2 n h =>
    rw [fresh, dif_neg h]
    exact ⟨0, by simp, h, by simp⟩

theorem fresh_not_mem (taken : List Name) (n : Name) : fresh taken n ∉ taken := (fresh_spec taken n).choose_spec.2.1

theorem fresh_of_not_mem {taken : List Name} {n : Name} (h : n ∉ taken) : fresh taken n = n := by
  rw [fresh, dif_neg h]

theorem fmt02_table : ((List.range 100).map fmt02).Nodup ∧ ∀ c ∈ List.range 100, ∃ a b, fmt02 c = [a, b] ∧ b ≠ 'x' := by
  constructor
  · decide +kernel
  · have h : ∀ c ∈ List.range 100, (fmt02 c).length = 2 ∧ (fmt02 c).getLastD 'x' ≠ 'x' := by decide +kernel
    intro c hc
    obtain ⟨h1, h2⟩ := h c hc
    match hf : fmt02 c, h1, h2 with
    | [a, b], _, h2 => exact ⟨a, b, rfl, by simpa using h2⟩

theorem fmt02_inj {c c' : ℕ} (hc : c < 100) (hc' : c' < 100) (h : fmt02 c = fmt02 c') : c = c' := by
  have hn := fmt02_table.1
  have h1 : ((List.range 100).map fmt02)[c]'(by simpa using hc) = ((List.range 100).map fmt02)[c']'(by simpa using hc') := by
    simpa using h
  exact (hn.getElem_inj_iff).1 h1

/-- names built from a name, a number below 100 and a number of x determine the name and the number -/
theorem generated_inj {n n' : Name} {c c' k k' : ℕ} (hc : c < 100) (hc' : c' < 100)
    (h : n ++ fmt02 c ++ List.replicate k 'x' = n' ++ fmt02 c' ++ List.replicate k' 'x') : n = n' ∧ c = c' := by
  obtain ⟨a, b, e, hb⟩ := fmt02_table.2 c (List.mem_range.2 hc)
  obtain ⟨a', b', e', hb'⟩ := fmt02_table.2 c' (List.mem_range.2 hc')
  have key : ∀ (k k' : ℕ) (l l' : Name) (d d' : Char), d ≠ 'x' → d' ≠ 'x' →
      l ++ [d] ++ List.replicate k 'x' = l' ++ [d'] ++ List.replicate k' 'x' → k = k' := by
    intro k
    induction k with
    | zero =>
      intro k' l l' d d' hd hd' hh
      cases k' with
      | zero => rfl
      | succ k' =>
        have := congrArg List.getLast? hh
        rw [List.replicate_succ', ← List.append_assoc, List.getLast?_concat, List.replicate_zero, List.append_nil,
          List.getLast?_concat, Option.some.injEq] at this
        exact absurd this hd
    | succ k ih =>
      intro k' l l' d d' hd hd' hh
      cases k' with
      | zero =>
        have := congrArg List.getLast? hh
        rw [List.replicate_succ', ← List.append_assoc, List.getLast?_concat, List.replicate_zero, List.append_nil,
          List.getLast?_concat, Option.some.injEq] at this
        exact absurd this.symm hd'
      | succ k' =>
        rw [List.replicate_succ', List.replicate_succ', ← List.append_assoc, ← List.append_assoc] at hh
        rw [ih k' l l' d d' hd hd' (List.append_cancel_right hh)]
  have hk : k = k' := by
    refine key k k' (n ++ [a]) (n' ++ [a']) b b' hb hb' ?_
    rw [e, e'] at h
    simpa using h
  subst hk
  have h2 := List.append_cancel_right h
  have h3 : (fmt02 c).length = (fmt02 c').length := by rw [e, e']; rfl
  obtain ⟨h4, h5⟩ := List.append_inj' h2 h3
  exact ⟨h4, fmt02_inj hc hc' h5⟩

/-! ### variables -/

theorem renameLoop_length (taken : List Name) (dup : Name → Bool) : ∀ (ns : List Name) (counts : Name → ℕ),
    (renameLoop taken dup ns counts).length = ns.length
  | [], _ => rfl
  | n :: ns, counts => by
    rw [renameLoop]
    split_ifs <;> simp [renameLoop_length taken dup ns]

/-- the name given to the variable at position `i` -/
theorem renameLoop_getElem (taken : List Name) (dup : Name → Bool) : ∀ (ns pre : List Name) (i : ℕ) (n : Name), ns[i]? = some n →
    (renameLoop taken dup ns (fun m => if dup m then pre.count m else 0))[i]? =
      some (if dup n then fresh taken (n ++ fmt02 ((pre ++ ns.take i).count n + 1)) else n)
  | n' :: ns, pre, 0, n, h => by
    simp only [List.getElem?_cons_zero, Option.some.injEq] at h
    subst h
    rw [renameLoop]
    by_cases hd : dup n' = true
    · simp [hd]
    · simp [hd]
  | n' :: ns, pre, i + 1, n, h => by
    have ih := renameLoop_getElem taken dup ns (pre ++ [n']) i n (by simpa using h)
    rw [renameLoop]
    have hc : (fun m => if dup m = true then (pre ++ [n']).count m else 0) =
        fun m => if m = n' ∧ dup n' = true then pre.count n' + 1 else if dup m = true then pre.count m else 0 := by
      funext m
      by_cases hm : m = n'
      · subst hm
        by_cases hd : dup m = true <;> simp [hd]
      · have : List.count m [n'] = 0 := List.count_eq_zero.2 (by simp [hm])
        simp [hm, List.count_append, this]
    rw [hc] at ih
    have e : pre ++ [n'] ++ List.take i ns = pre ++ List.take (i + 1) (n' :: ns) := by simp
    rw [e] at ih
    by_cases hd : dup n' = true
    · simp only [hd, and_true, if_true] at ih ⊢
      rw [List.getElem?_cons_succ]
      exact ih
    · simp only [hd, Bool.false_eq_true, and_false, if_false] at ih ⊢
      simp only [List.getElem?_cons_succ]
      exact ih

theorem uniqueNames_length (names : List Name) : (uniqueNames names).length = names.length := by
  unfold uniqueNames
  rw [renameLoop_length]
  simp

theorem uniqueNames_getElem (names : List Name) (i : ℕ) (n : Name) (h : (names.map fillBlank)[i]? = some n) :
    (uniqueNames names)[i]? = some (if (names.map fillBlank).count n = 1 then n
      else fresh (names.map fillBlank) (n ++ fmt02 (((names.map fillBlank).take i).count n + 1))) := by
  unfold uniqueNames
  simp only
  have := renameLoop_getElem (names.map fillBlank) (fun n => decide ((names.map fillBlank).count n ≠ 1)) (names.map fillBlank) []
    i n h
  have e : (fun m => if decide ((names.map fillBlank).count m ≠ 1) = true then List.count m ([] : List Name) else 0) =
      fun _ => 0 := by
    funext m; simp
  rw [e] at this
  rw [this]
  by_cases hc : (names.map fillBlank).count n = 1 <;> simp [hc]

/-- C31: a name that only one variable has is kept. -/
theorem uniqueNames_kept (names : List Name) (i : ℕ) (n : Name) (hn : n ≠ []) (h : names[i]? = some n)
    (hc : (names.map fillBlank).count n = 1) : (uniqueNames names)[i]? = some n := by
  have h' : (names.map fillBlank)[i]? = some n := by
    rw [List.getElem?_map, h]; simp [fillBlank, hn]
  rw [uniqueNames_getElem names i n h', if_pos hc]

theorem fillBlank_ne (n : Name) : fillBlank n ≠ [] := by
  unfold fillBlank
  split_ifs with h
  · decide
  · exact h

/-- C31: no variable of a dataset is without a name. -/
theorem uniqueNames_ne (names : List Name) : ∀ n ∈ uniqueNames names, n ≠ [] := by
  intro n hn
  obtain ⟨i, hi, rfl⟩ := List.getElem_of_mem hn
  have hl : i < (names.map fillBlank).length := by rw [uniqueNames_length] at hi; simpa using hi
  have := uniqueNames_getElem names i _ (List.getElem?_eq_getElem hl)
  rw [List.getElem?_eq_getElem hi, Option.some.injEq] at this
  rw [this]
  have hne : (names.map fillBlank)[i] ≠ [] := by simp [fillBlank_ne]
  split_ifs
  · exact hne
  · obtain ⟨k, e, _, _⟩ := fresh_spec (names.map fillBlank)
      ((names.map fillBlank)[i] ++ fmt02 (((names.map fillBlank).take i).count (names.map fillBlank)[i] + 1))
    rw [e]
    intro h0
    rw [List.append_assoc, List.append_eq_nil_iff] at h0
    exact hne h0.1

theorem count_take_lt {l : List Name} {i j : ℕ} {n : Name} (hij : i < j) (hi : l[i]? = some n) :
    (l.take i).count n < (l.take j).count n := by
  obtain ⟨hl, hn⟩ := List.getElem?_eq_some_iff.1 hi
  have e : l.take j = l.take i ++ ((l.take j).drop i) := by
    conv_lhs => rw [← List.take_append_drop i (l.take j)]
    rw [List.take_take, min_eq_left (by omega)]
  have hm : n ∈ (l.take j).drop i := by
    rw [List.mem_iff_getElem?]
    refine ⟨0, ?_⟩
    rw [List.getElem?_drop, Nat.add_zero, List.getElem?_take_of_lt hij, hi]
  rw [e, List.count_append]
  have := List.count_pos_iff.2 hm
  omega

/-- C31 (missing: names that more than 99 variables share; there it is false, see `names_unique_violated`): the names of
the variables of a dataset are all different. -/
theorem names_unique_partial (names : List Name) (h100 : ∀ n, (names.map fillBlank).count n < 100) :
    (uniqueNames names).Nodup := by
  rw [List.nodup_iff_pairwise_ne, List.pairwise_iff_getElem]
  intro i j hi hj hij heq
  set old := names.map fillBlank with hold
  have hlo : old.length = names.length := by simp [hold]
  have hi' : i < old.length := by rw [uniqueNames_length] at hi; omega
  have hj' : j < old.length := by rw [uniqueNames_length] at hj; omega
  have ei := uniqueNames_getElem names i _ (List.getElem?_eq_getElem hi')
  have ej := uniqueNames_getElem names j _ (List.getElem?_eq_getElem hj')
  rw [List.getElem?_eq_getElem hi, Option.some.injEq] at ei
  rw [List.getElem?_eq_getElem hj, Option.some.injEq] at ej
  rw [ei, ej] at heq
  have hlt : ∀ m, m < old.length → ∀ n, old[m]? = some n → (old.take m).count n + 1 < 100 := by
    intro m hm n hn
    have h1 := count_take_lt (l := old) (i := m) (j := old.length) hm hn
    rw [List.take_length] at h1
    have := h100 n
    omega
  have hne : old[i] = old[j] → old.count old[i] ≠ 1 := by
    intro he h1
    have a1 := count_take_lt (l := old) (i := i) (j := j) hij (List.getElem?_eq_getElem hi')
    have a2 := count_take_lt (l := old) (i := j) (j := old.length) hj' (n := old[i]) (by
      rw [List.getElem?_eq_getElem hj', he])
    rw [List.take_length] at a2
    omega
  split_ifs at heq with c1 c2 c2
  · exact hne heq c1
  · exact fresh_not_mem old _ (by rw [← heq]; exact List.getElem_mem hi')
  · exact fresh_not_mem old _ (by rw [heq]; exact List.getElem_mem hj')
  · obtain ⟨k, e1, _, _⟩ := fresh_spec old (old[i] ++ fmt02 ((old.take i).count old[i] + 1))
    obtain ⟨k', e2, _, _⟩ := fresh_spec old (old[j] ++ fmt02 ((old.take j).count old[j] + 1))
    rw [e1, e2] at heq
    obtain ⟨g1, g2⟩ := generated_inj (hlt i hi' _ (List.getElem?_eq_getElem hi')) (hlt j hj' _ (List.getElem?_eq_getElem hj')) heq
    have a1 := count_take_lt (l := old) (i := i) (j := j) hij (List.getElem?_eq_getElem hi')
    rw [g1] at a1
    rw [g1] at g2
    omega

/-- C31 is false for 101 variables called `a` and two called `a1`: two variables get the name `a101`. -/
theorem names_unique_violated :
    ¬ (uniqueNames (List.replicate 101 "a".toList ++ List.replicate 2 "a1".toList)).Nodup ∧
    (uniqueNames (List.replicate 101 "a".toList ++ List.replicate 2 "a1".toList)).count "a101".toList = 2 := by
  decide +kernel

/-- C31: with different names each variable is found by its name. -/
theorem vardict_lookup {V : Type} (l : List (Name × V)) (h : (l.map Prod.fst).Nodup) (n : Name) (v : V) :
    (vardict l).lookup n = some v ↔ (n, v) ∈ l := by
  unfold vardict
  rw [Combine.lookup_fold]
  simp only [List.lookup_nil, Option.or_none]
  have : ∀ l' : List (Name × V), (l'.map Prod.fst).Nodup → (l'.lookup n = some v ↔ (n, v) ∈ l') := by
    intro l'
    induction l' with
    | nil => simp
    | cons p l' ih =>
      intro hn
      rw [List.map_cons, List.nodup_cons] at hn
      rw [List.lookup_cons]
      by_cases hp : n = p.1
      · subst hp
        simp only [beq_self_eq_true, Option.some.injEq, List.mem_cons]
        constructor
        · rintro rfl; exact Or.inl rfl
        · rintro (h | h)
          · rw [← h]
          · exact absurd (List.mem_map_of_mem h) hn.1
      · rw [show (n == p.1) = false by simpa using hp]
        simp only [List.mem_cons]
        rw [ih hn.2]
        constructor
        · exact Or.inr
        · rintro (h | h)
          · exact absurd (congrArg Prod.fst h) hp
          · exact h
  rw [this _ (by rw [List.map_reverse, List.nodup_reverse]; exact h)]
  simp

/-! ### axes -/

/-- what holds of the families after any number of axes -/
structure ClumpInv (axes : List Axis) (d : List (Name × Families)) : Prop where
  keys : (d.map Prod.fst).Nodup
  key : ∀ n, n ∈ d.map Prod.fst ↔ ∃ a ∈ axes, a.name = n
  ne : ∀ p ∈ d, p.2 ≠ []
  member : ∀ p ∈ d, ∀ e ∈ p.2, ∃ h t, e = h :: t ∧ ∀ a ∈ e, a.name = p.1 ∧ a ∈ axes ∧ axEq a h = true
  complete : ∀ a ∈ axes, ∃ es, d.lookup a.name = some es ∧ ∃ e ∈ es, a ∈ e

theorem axEq_self (a : Axis) : axEq a a = true := by simp [axEq]

theorem addAxis_spec (a : Axis) : ∀ es : Families, (∀ e ∈ es, e ≠ []) →
    addAxis a es ≠ [] ∧ (∃ e ∈ addAxis a es, a ∈ e) ∧
    (∀ e ∈ addAxis a es, e ∈ es ∨ e = [a] ∨ ∃ h t, e = h :: t ++ [a] ∧ h :: t ∈ es ∧ axEq a h = true) ∧
    (∀ e ∈ es, ∃ e' ∈ addAxis a es, ∀ b ∈ e, b ∈ e')
  | [], _ => by simp [addAxis]
  | e :: es, hne => by
    obtain ⟨i1, i2, i3, i4⟩ := addAxis_spec a es fun x hx => hne x (by simp [hx])
    rw [addAxis]
    split_ifs with h1 h2
    · refine ⟨by simp, ⟨e, by simp, h1⟩, fun x hx => Or.inl hx, fun x hx => ⟨x, hx, fun b hb => hb⟩⟩
    · refine ⟨by simp, ⟨e ++ [a], by simp, by simp⟩, ?_, ?_⟩
      · intro x hx
        rcases List.mem_cons.1 hx with rfl | hx
        · right; right
          obtain ⟨h, t, rfl⟩ := List.exists_cons_of_ne_nil (hne e (by simp))
          exact ⟨h, t, rfl, by simp, by simpa using h2⟩
        · left; simp [hx]
      · intro x hx
        rcases List.mem_cons.1 hx with rfl | hx
        · exact ⟨x ++ [a], by simp, fun b hb => by simp [hb]⟩
        · exact ⟨x, by simp [hx], fun b hb => hb⟩
    · refine ⟨by simp, ?_, ?_, ?_⟩
      · obtain ⟨x, hx, hx2⟩ := i2
        exact ⟨x, by simp [hx], hx2⟩
      · intro x hx
        rcases List.mem_cons.1 hx with rfl | hx
        · left; simp
        · rcases i3 x hx with h | h | ⟨h, t, h1, h2, h3⟩
          · left; simp [h]
          · right; left; exact h
          · right; right; exact ⟨h, t, h1, by simp [h2], h3⟩
      · intro x hx
        rcases List.mem_cons.1 hx with rfl | hx
        · exact ⟨x, by simp, fun b hb => hb⟩
        · obtain ⟨x', h1, h2⟩ := i4 x hx
          exact ⟨x', by simp [h1], h2⟩

theorem lookup_eq_some_mem {V : Type} : ∀ (d : List (Name × V)) (n : Name) (v : V), (d.map Prod.fst).Nodup →
    (d.lookup n = some v ↔ (n, v) ∈ d)
  | [], n, v, _ => by simp
  | p :: d, n, v, hn => by
    rw [List.map_cons, List.nodup_cons] at hn
    rw [List.lookup_cons]
    by_cases hp : n = p.1
    · subst hp
      simp only [beq_self_eq_true, Option.some.injEq, List.mem_cons]
      constructor
      · rintro rfl; exact Or.inl rfl
      · rintro (h | h)
        · rw [← h]
        · exact absurd (List.mem_map_of_mem h) hn.1
    · rw [show (n == p.1) = false by simpa using hp]
      simp only [List.mem_cons]
      rw [lookup_eq_some_mem d n v hn.2]
      constructor
      · exact Or.inr
      · rintro (h | h)
        · exact absurd (congrArg Prod.fst h) hp
        · exact h

theorem clumpInv_step {axes : List Axis} {d : List (Name × Families)} (h : ClumpInv axes d) (a : Axis) :
    ClumpInv (axes ++ [a]) (clumpStep d a) := by
  have hkeys : (clumpStep d a).map Prod.fst = if a.name ∈ d.map Prod.fst then d.map Prod.fst else d.map Prod.fst ++ [a.name] := by
    unfold clumpStep
    split_ifs
    · rw [List.map_map]
      refine List.map_congr_left fun p _ => ?_
      simp only [Function.comp]
      split_ifs <;> rfl
    · simp
  have hnd : ((clumpStep d a).map Prod.fst).Nodup := by
    rw [hkeys]
    split_ifs with hn
    · exact h.keys
    · rw [List.nodup_append]
      refine ⟨h.keys, by simp, ?_⟩
      intro x hx y hy
      simp only [List.mem_singleton] at hy
      rintro rfl
      exact hn (hy ▸ hx)
  have hmem : ∀ p ∈ clumpStep d a, (p ∈ d ∧ p.1 ≠ a.name) ∨ (p.1 = a.name ∧
      ((∃ es, (a.name, es) ∈ d ∧ p.2 = addAxis a es) ∨ p.2 = [[a]])) := by
    intro p hp
    unfold clumpStep at hp
    split_ifs at hp with hn
    · obtain ⟨q, hq, rfl⟩ := List.mem_map.1 hp
      by_cases hqa : q.1 = a.name
      · right
        simp only [hqa, if_true]
        exact ⟨trivial, Or.inl ⟨q.2, by rw [← hqa]; exact hq, rfl⟩⟩
      · left
        simp only [hqa, if_false]
        exact ⟨hq, hqa⟩
    · rcases List.mem_append.1 hp with hp | hp
      · left
        refine ⟨hp, fun he => hn ?_⟩
        rw [← he]
        exact List.mem_map_of_mem hp
      · right
        simp only [List.mem_singleton] at hp
        subst hp
        exact ⟨rfl, Or.inr rfl⟩
  have hfam : ∀ es, (a.name, es) ∈ d → ∀ e ∈ es, e ≠ [] := by
    intro es hes e he
    obtain ⟨x, t, rfl, _⟩ := h.member _ hes e he
    simp
  refine ⟨hnd, ?_, ?_, ?_, ?_⟩
  · intro n
    rw [hkeys]
    split_ifs with hn
    · rw [h.key]
      constructor
      · rintro ⟨b, hb, rfl⟩; exact ⟨b, by simp [hb], rfl⟩
      · rintro ⟨b, hb, rfl⟩
        rcases List.mem_append.1 hb with hb | hb
        · exact ⟨b, hb, rfl⟩
        · simp only [List.mem_singleton] at hb
          subst hb
          exact (h.key _).1 hn
    · rw [List.mem_append, h.key, List.mem_singleton]
      constructor
      · rintro (⟨b, hb, rfl⟩ | rfl)
        · exact ⟨b, by simp [hb], rfl⟩
        · exact ⟨a, by simp, rfl⟩
      · rintro ⟨b, hb, rfl⟩
        rcases List.mem_append.1 hb with hb | hb
        · exact Or.inl ⟨b, hb, rfl⟩
        · simp only [List.mem_singleton] at hb
          subst hb
          exact Or.inr rfl
  · intro p hp
    rcases hmem p hp with ⟨hp, _⟩ | ⟨_, ⟨es, hes, e⟩ | e⟩
    · exact h.ne p hp
    · rw [e]; exact (addAxis_spec a es (hfam es hes)).1
    · rw [e]; simp
  · intro p hp e he
    rcases hmem p hp with ⟨hp, _⟩ | ⟨hpa, ⟨es, hes, e'⟩ | e'⟩
    · obtain ⟨x, t, h1, h2⟩ := h.member p hp e he
      exact ⟨x, t, h1, fun b hb => ⟨(h2 b hb).1, by simp [(h2 b hb).2.1], (h2 b hb).2.2⟩⟩
    · rw [e'] at he
      rcases (addAxis_spec a es (hfam es hes)).2.2.1 e he with hh | hh | ⟨x, t, h1, h2, h3⟩
      · obtain ⟨x, t, h1, h2⟩ := h.member _ hes e hh
        exact ⟨x, t, h1, fun b hb => ⟨(h2 b hb).1.trans hpa.symm, by simp [(h2 b hb).2.1], (h2 b hb).2.2⟩⟩
      · refine ⟨a, [], hh, fun b hb => ?_⟩
        rw [hh, List.mem_singleton] at hb
        subst hb
        exact ⟨hpa.symm, by simp, axEq_self b⟩
      · refine ⟨x, t ++ [a], by rw [h1]; simp, fun b hb => ?_⟩
        rw [h1, List.mem_append] at hb
        rcases hb with hb | hb
        · obtain ⟨x', t', h4, h5⟩ := h.member _ hes _ h2
          obtain ⟨rfl, rfl⟩ := List.cons.inj h4
          exact ⟨(h5 b hb).1.trans hpa.symm, by simp [(h5 b hb).2.1], (h5 b hb).2.2⟩
        · rw [List.mem_singleton] at hb
          subst hb
          exact ⟨hpa.symm, by simp, h3⟩
    · rw [e', List.mem_singleton] at he
      refine ⟨a, [], he, fun b hb => ?_⟩
      rw [he, List.mem_singleton] at hb
      subst hb
      exact ⟨hpa.symm, by simp, axEq_self b⟩
  · have hlook : ∀ es, (a.name, es) ∈ d → (clumpStep d a).lookup a.name = some (addAxis a es) := by
      intro es hes
      rw [lookup_eq_some_mem _ _ _ hnd]
      unfold clumpStep
      rw [if_pos (List.mem_map_of_mem hes)]
      exact List.mem_map.2 ⟨(a.name, es), hes, by simp⟩
    have hlook2 : a.name ∉ d.map Prod.fst → (clumpStep d a).lookup a.name = some [[a]] := by
      intro hn
      rw [lookup_eq_some_mem _ _ _ hnd]
      unfold clumpStep
      rw [if_neg hn]
      simp [addAxis]
    have hlook3 : ∀ n es, n ≠ a.name → d.lookup n = some es → (clumpStep d a).lookup n = some es := by
      intro n es hn hl
      rw [lookup_eq_some_mem _ _ _ h.keys] at hl
      rw [lookup_eq_some_mem _ _ _ hnd]
      unfold clumpStep
      split_ifs
      · exact List.mem_map.2 ⟨(n, es), hl, by simp [hn]⟩
      · simp [hl]
    intro b hb
    rcases List.mem_append.1 hb with hb | hb
    · obtain ⟨es, h1, e, he, hbe⟩ := h.complete b hb
      by_cases hba : b.name = a.name
      · rw [hba] at h1 ⊢
        rw [lookup_eq_some_mem _ _ _ h.keys] at h1
        obtain ⟨e', h2, h3⟩ := (addAxis_spec a es (hfam es h1)).2.2.2 e he
        exact ⟨_, hlook es h1, e', h2, h3 b hbe⟩
      · exact ⟨es, hlook3 _ _ hba h1, e, he, hbe⟩
    · rw [List.mem_singleton] at hb
      subst hb
      by_cases hn : b.name ∈ d.map Prod.fst
      · obtain ⟨p, hp, hpn⟩ := List.mem_map.1 hn
        have hes : (b.name, p.2) ∈ d := by rw [← hpn]; exact hp
        exact ⟨_, hlook _ hes, (addAxis_spec b p.2 (hfam _ hes)).2.1⟩
      · exact ⟨_, hlook2 hn, [b], by simp, by simp⟩

theorem clumpInv (axes : List Axis) : ClumpInv axes (clump axes) := by
  have : ∀ (l pre : List Axis) (d : List (Name × Families)), ClumpInv pre d → ClumpInv (pre ++ l) (l.foldl clumpStep d) := by
    intro l
    induction l with
    | nil => intro pre d h; simpa using h
    | cons a l ih =>
      intro pre d h
      have := ih (pre ++ [a]) _ (clumpInv_step h a)
      simpa using this
  have h0 : ClumpInv [] [] := ⟨by simp, by simp, by simp, by simp, by simp⟩
  have := this axes [] [] h0
  rw [List.nil_append] at this
  exact this

/-- how many different axes (families of equal axes) have a name -/
def familiesOf (axes : List Axis) (n : Name) : ℕ := (((clump axes).lookup n).getD []).length

/-- what the new axis of an axis is -/
theorem newAxis_spec (axes : List Axis) (a : Axis) (ha : a ∈ axes) : ∃ es i e h t, (clump axes).lookup a.name = some es ∧
    es[i]? = some e ∧ e = h :: t ∧ a ∈ e ∧ h ∈ axes ∧ h.name = a.name ∧ axEq a h = true ∧
    newAxis (clump axes) a = if es.length = 1 then h
      else { h with name := fresh ((clump axes).map Prod.fst) (a.name ++ fmt02 (i + 1)) } := by
  have inv := clumpInv axes
  obtain ⟨es, h1, e0, he0, hae0⟩ := inv.complete a ha
  have hmem : (a.name, es) ∈ clump axes := (lookup_eq_some_mem _ _ _ inv.keys).1 h1
  set i := es.findIdx fun e => decide (a ∈ e) with hi
  have hil : i < es.length := List.findIdx_lt_length_of_exists ⟨e0, he0, by simpa using hae0⟩
  have hai : a ∈ es[i] := by
    have := List.findIdx_getElem (xs := es) (p := fun e => decide (a ∈ e)) (w := hil)
    simpa using this
  obtain ⟨h, t, h2, h3⟩ := inv.member _ hmem es[i] (List.getElem_mem hil)
  have hh := h3 h (by rw [h2]; simp)
  refine ⟨es, i, es[i], h, t, h1, List.getElem?_eq_getElem hil, h2, hai, hh.2.1, hh.1, (h3 a hai).2.2, ?_⟩
  unfold newAxis
  rw [h1]
  by_cases hl : es.length = 1
  · obtain ⟨e, rfl⟩ := List.length_eq_one_iff.1 hl
    have i0 : i = 0 := by simp at hil; exact hil
    simp only [List.length_singleton, if_true]
    have : [e][i] = e := by simp [i0]
    rw [this] at h2
    rw [h2]; rfl
  · rw [if_neg hl]
    split
    · rename_i hx; simp at hx
    · rename_i e hx
      simp only [Option.some.injEq] at hx
      rw [hx] at hl
      simp at hl
    · rename_i es' hx hx2
      simp only [Option.some.injEq] at hx2
      subst hx2
      simp only
      rw [← hi, List.getD_eq_getElem _ _ hil, h2]
      rfl

/-- C32 (missing: names shared by more than 99 different axes): two axes of a dataset that have the same name are the
same axis. -/
theorem axes_unique_partial (axes : List Axis) (h100 : ∀ n, familiesOf axes n < 100) (a b : Axis) (ha : a ∈ axes)
    (hb : b ∈ axes) (hn : (newAxis (clump axes) a).name = (newAxis (clump axes) b).name) :
    newAxis (clump axes) a = newAxis (clump axes) b := by
  obtain ⟨es, i, e, h, t, l1, l2, l3, l4, l5, l6, l7, l8⟩ := newAxis_spec axes a ha
  obtain ⟨es', i', e', h', t', m1, m2, m3, m4, m5, m6, m7, m8⟩ := newAxis_spec axes b hb
  have inv := clumpInv axes
  have hi : i < es.length := (List.getElem?_eq_some_iff.1 l2).1
  have hi' : i' < es'.length := (List.getElem?_eq_some_iff.1 m2).1
  have b1 : es.length < 100 := by have := h100 a.name; unfold familiesOf at this; rwa [l1] at this
  have b2 : es'.length < 100 := by have := h100 b.name; unfold familiesOf at this; rwa [m1] at this
  have hka : a.name ∈ (clump axes).map Prod.fst := (inv.key _).2 ⟨a, ha, rfl⟩
  have hkb : b.name ∈ (clump axes).map Prod.fst := (inv.key _).2 ⟨b, hb, rfl⟩
  have same : a.name = b.name → i = i' → newAxis (clump axes) a = newAxis (clump axes) b := by
    intro hab hii
    rw [hab, m1, Option.some.injEq] at l1
    subst l1
    rw [hii, m2, Option.some.injEq] at l2
    subst l2
    rw [l3] at m3
    obtain ⟨rfl, rfl⟩ := List.cons.inj m3
    rw [l8, m8, hab, hii]
  have mk : ∀ (x : Axis) (n : Name), ({ x with name := n } : Axis).name = n := fun _ _ => rfl
  rw [l8, m8] at hn
  split_ifs at hn with c1 c2 c2 <;> try simp only [mk] at hn
  · rw [l6, m6] at hn
    have : es = es' := by rw [hn, m1, Option.some.injEq] at l1; exact l1.symm
    exact same hn (by omega)
  · exact absurd (by rw [← hn, l6]; exact hka) (fresh_not_mem _ _)
  · exact absurd (by rw [hn, m6]; exact hkb) (fresh_not_mem _ _)
  · obtain ⟨k, e1, _, _⟩ := fresh_spec ((clump axes).map Prod.fst) (a.name ++ fmt02 (i + 1))
    obtain ⟨k', e2, _, _⟩ := fresh_spec ((clump axes).map Prod.fst) (b.name ++ fmt02 (i' + 1))
    rw [e1, e2] at hn
    obtain ⟨g1, g2⟩ := generated_inj (by omega) (by omega) hn
    exact same g1 (by omega)

/-- 101 different axes called `a` and two called `a1` -/
def manyAxes : List Axis := (List.range 101).map (fun i : ℕ => { mkEx [(i : ℚ)] with name := "a".toList }) ++
  (List.range 2).map (fun i : ℕ => { mkEx [(i : ℚ) + 500] with name := "a1".toList })

/-- C32 is false for them: two different axes are both called `a101`. -/
theorem axes_unique_violated : ∃ a ∈ manyAxes, ∃ b ∈ manyAxes,
    (newAxis (clump manyAxes) a).name = (newAxis (clump manyAxes) b).name ∧
    axEq (newAxis (clump manyAxes) a) (newAxis (clump manyAxes) b) = false :=
  ⟨{ mkEx [100] with name := "a".toList }, by decide +kernel, { mkEx [500] with name := "a1".toList }, by decide +kernel,
    by decide +kernel, by decide +kernel⟩

/-- C32: an axis is replaced by an axis equal to it (apart from the name), the first with its name among those given. -/
theorem newAxis_equal (axes : List Axis) (a : Axis) (ha : a ∈ axes) : ∃ h ∈ axes, h.name = a.name ∧ axEq a h = true ∧
    { newAxis (clump axes) a with name := h.name } = h := by
  obtain ⟨es, i, e, h, t, l1, l2, l3, l4, l5, l6, l7, l8⟩ := newAxis_spec axes a ha
  refine ⟨h, l5, l6, l7, ?_⟩
  rw [l8]
  split_ifs <;> rfl

/-- C32: the name is kept when all axes with this name are equal. -/
theorem newAxis_name_kept (axes : List Axis) (a : Axis) (ha : a ∈ axes)
    (hall : ∀ b ∈ axes, ∀ c ∈ axes, b.name = a.name → c.name = a.name → axEq b c = true) :
    (newAxis (clump axes) a).name = a.name := by
  obtain ⟨es, i, e, h, t, l1, l2, l3, l4, l5, l6, l7, l8⟩ := newAxis_spec axes a ha
  have inv := clumpInv axes
  have key : ∀ (l pre : List Axis) (d : List (Name × Families)), pre ++ l = axes → ClumpInv pre d →
      (∀ es, d.lookup a.name = some es → es.length = 1) →
      ∀ es, (l.foldl clumpStep d).lookup a.name = some es → es.length = 1 := by
    intro l
    induction l with
    | nil => intro pre d _ _ h; exact h
    | cons b l ih =>
      intro pre d hp hinv hd
      refine ih (pre ++ [b]) (clumpStep d b) (by simpa using hp) (clumpInv_step hinv b) ?_
      intro es hes
      have hb : b ∈ axes := by rw [← hp]; simp
      have hinv' := clumpInv_step hinv b
      rw [lookup_eq_some_mem _ _ _ hinv'.keys] at hes
      unfold clumpStep at hes
      split_ifs at hes with hn
      · obtain ⟨q, hq, hqe⟩ := List.mem_map.1 hes
        by_cases hqb : q.1 = b.name
        · rw [if_pos hqb] at hqe
          obtain ⟨q1, q2⟩ := Prod.mk.inj hqe
          have hl := hd q.2 ((lookup_eq_some_mem _ _ _ hinv.keys).2 (by rw [← q1]; exact hq))
          obtain ⟨e, hqe2⟩ := List.length_eq_one_iff.1 hl
          obtain ⟨x, t, hx1, hx2⟩ := hinv.member q hq e (by rw [hqe2]; simp)
          have hx := hx2 x (by rw [hx1]; simp)
          have heq : axEq b x = true := hall b hb x (by rw [← hp]; simp [hx.2.1]) (by rw [← hqb, q1]) (by rw [hx.1, q1])
          rw [← q2, hqe2, addAxis, hx1]
          split_ifs with c1 c2
          · rfl
          · rfl
          · exact absurd heq (by simpa using c2)
        · rw [if_neg hqb] at hqe
          subst hqe
          exact hd es ((lookup_eq_some_mem _ _ _ hinv.keys).2 hq)
      · rcases List.mem_append.1 hes with hes | hes
        · exact hd es ((lookup_eq_some_mem _ _ _ hinv.keys).2 hes)
        · simp only [List.mem_singleton, addAxis] at hes
          rw [(Prod.mk.inj hes).2]; rfl
  have h0 : ClumpInv [] [] := ⟨by simp, by simp, by simp, by simp, by simp⟩
  have hl := key axes [] [] (by simp) h0 (by simp) es l1
  rw [l8, if_pos hl, l6]

/-- C32: the variables of a dataset hold the data they held, with the new axes. -/
theorem withAxes_correct {α : Type} (nr : List ℚ → ℚ) (junk : List ℕ → α) (vars : List (Var α)) (i : ℕ) (v : Var α)
    (data : List ℕ → α) (hv : vars[i]? = some v) (hc : Contains v data) (hr : Regular v.axes) :
    ∃ y, (withAxes nr junk vars)[i]? = some (some y) ∧
      y.axes = v.axes.map (newAxis (clump (vars.flatMap Var.axes))) ∧ Contains y data := by
  unfold withAxes
  simp only [List.getElem?_map, hv, Option.map_some]
  set d := clump (vars.flatMap Var.axes) with hd
  by_cases hs : v.axes = v.axes.map (newAxis d)
  · rw [if_pos hs]
    exact ⟨v, rfl, hs, hc⟩
  · rw [if_neg hs]
    have hlen : v.axes.map Axis.len = (v.axes.map (newAxis d)).map Axis.len := by
      rw [List.map_map]
      refine List.map_congr_left fun a ha => ?_
      have ham : a ∈ vars.flatMap Var.axes := List.mem_flatMap.2 ⟨v, List.mem_of_getElem? hv, ha⟩
      obtain ⟨h, _, _, h3, h4⟩ := newAxis_equal _ a ham
      have h5 := (axEq_sound h3 (hr.cls a ha)).2.1
      have h6 : (newAxis d a).values = h.values := by rw [← h4]
      simp only [Function.comp, Axis.len, h6]
      exact h5
    have hsome : ∃ y, replaceAxes nr junk v (v.axes.map (newAxis d)) = some y := by
      unfold replaceAxes
      rw [if_pos hlen]
      exact ⟨_, rfl⟩
    obtain ⟨y, hy⟩ := hsome
    have := replaceAxes_correct nr junk v y _ data hc hr hy
    exact ⟨y, by rw [hy], this.1, this.2⟩

/-! ### joining datasets -/

/-- C67: joining datasets collects, for each name, the variables with this name in the order of the datasets; the names
are in the order in which they are first found. -/
theorem segments_correct {V : Type} (l : List (Name × V)) :
    ((segments l).map Prod.fst).Nodup ∧
    (segments l).map Prod.fst = (l.map Prod.fst).reverse.dedup.reverse ∧
    (∀ n, n ∈ (segments l).map Prod.fst ↔ n ∈ l.map Prod.fst) ∧
    ∀ n vs, (n, vs) ∈ segments l → vs = (l.filter fun p => decide (p.1 = n)).map Prod.snd := by
  unfold segments
  set step : List (Name × List V) → Name × V → List (Name × List V) := fun d p =>
    if p.1 ∈ d.map Prod.fst then d.map fun q => if q.1 = p.1 then (q.1, q.2 ++ [p.2]) else q else d ++ [(p.1, [p.2])] with hstep
  have key : ∀ (l pre : List (Name × V)) (d : List (Name × List V)),
      ((d.map Prod.fst).Nodup ∧ d.map Prod.fst = (pre.map Prod.fst).reverse.dedup.reverse ∧ (∀ n, n ∈ d.map Prod.fst ↔ n ∈ pre.map Prod.fst) ∧
        ∀ n vs, (n, vs) ∈ d → vs = (pre.filter fun p => decide (p.1 = n)).map Prod.snd) →
      (((l.foldl step d).map Prod.fst).Nodup ∧
        (l.foldl step d).map Prod.fst = ((pre ++ l).map Prod.fst).reverse.dedup.reverse ∧ (∀ n, n ∈ (l.foldl step d).map Prod.fst ↔ n ∈ (pre ++ l).map Prod.fst) ∧
        ∀ n vs, (n, vs) ∈ l.foldl step d → vs = ((pre ++ l).filter fun p => decide (p.1 = n)).map Prod.snd) := by
    intro l
    induction l with
    | nil => intro pre d h; simpa using h
    | cons p l ih =>
      intro pre d ⟨h1, h0, h2, h3⟩
      have := ih (pre ++ [p]) (step d p) ?_
      · simpa using this
      · have hkeys : (step d p).map Prod.fst = if p.1 ∈ d.map Prod.fst then d.map Prod.fst else d.map Prod.fst ++ [p.1] := by
          simp only [hstep]
          split_ifs
          · rw [List.map_map]
            refine List.map_congr_left fun q _ => ?_
            simp only [Function.comp]
            split_ifs <;> rfl
          · simp
        refine ⟨?_, ?_, ?_, ?_⟩
        · rw [hkeys]
          split_ifs with hn
          · exact h1
          · rw [List.nodup_append]
            refine ⟨h1, by simp, ?_⟩
            intro x hx y hy
            simp only [List.mem_singleton] at hy
            rintro rfl
            exact hn (hy ▸ hx)
        · rw [hkeys, List.map_append, List.reverse_append]
          simp only [List.map_cons, List.map_nil, List.reverse_cons, List.reverse_nil, List.nil_append, List.singleton_append]
          split_ifs with hn
          · rw [List.dedup_cons_of_mem (by rw [List.mem_reverse]; exact (h2 _).1 hn)]
            exact h0
          · rw [List.dedup_cons_of_notMem (by rw [List.mem_reverse]; exact fun h => hn ((h2 _).2 h)), List.reverse_cons, h0]
        · intro n
          rw [hkeys]
          split_ifs with hn
          · rw [h2, List.map_append, List.mem_append]
            constructor
            · exact Or.inl
            · rintro (h | h)
              · exact h
              · simp only [List.map_cons, List.map_nil, List.mem_singleton] at h
                rw [h]; exact (h2 _).1 hn
          · rw [List.mem_append, h2, List.map_append, List.mem_append]
            simp
        · intro n vs hm
          simp only [hstep] at hm
          split_ifs at hm with hn
          · obtain ⟨q, hq, hqe⟩ := List.mem_map.1 hm
            by_cases hqp : q.1 = p.1
            · rw [if_pos hqp] at hqe
              obtain ⟨q1, q2⟩ := Prod.mk.inj hqe
              have := h3 q.1 q.2 hq
              rw [List.filter_append, List.map_append, ← q2, ← q1, this]
              simp [hqp]
            · rw [if_neg hqp] at hqe
              subst hqe
              have := h3 _ _ hq
              rw [List.filter_append, List.map_append, ← this]
              simp only at hqp
              simp [Ne.symm hqp]
          · rcases List.mem_append.1 hm with hm | hm
            · have := h3 _ _ hm
              have hne : n ≠ p.1 := by
                rintro rfl
                exact hn (List.mem_map_of_mem hm)
              rw [List.filter_append, List.map_append, ← this]
              simp [Ne.symm hne]
            · simp only [List.mem_singleton, Prod.mk.injEq] at hm
              obtain ⟨rfl, rfl⟩ := hm
              have : (pre.filter fun q => decide (q.1 = p.1)) = [] := by
                rw [List.filter_eq_nil_iff]
                intro q hq
                have : q.1 ≠ p.1 := by
                  intro he
                  exact hn ((h2 _).2 (he ▸ List.mem_map_of_mem hq))
                simpa using this
              rw [List.filter_append, this]
              simp
  simpa using key l [] [] ⟨by simp, by simp, by simp, by simp⟩

/-! ### examples -/

/-- blank names, repeated names, names that look like generated ones -/
example : uniqueNames ["u".toList, [], "u".toList, "u01".toList, [], "t".toList] =
    ["u01x".toList, "var01".toList, "u02".toList, "u01".toList, "var02".toList, "t".toList] := by decide +kernel
example : (uniqueNames ["u".toList, [], "u".toList, "u01".toList, [], "t".toList]).Nodup :=
  names_unique_partial _ (by
    intro n
    refine lt_of_le_of_lt List.count_le_length ?_
    decide)

/-- two different latitude axes and two equal ones -/
example : ([mkEx [1, 2], mkEx [3], mkEx [1, 2], timeEx 2].map (newAxis (clump [mkEx [1, 2], mkEx [3], mkEx [1, 2], timeEx 2]))).map
    Axis.name = ["lat01".toList, "lat02".toList, "lat01".toList, "time".toList] := by decide +kernel
example : ∀ n ∈ [mkEx [1, 2], mkEx [3], mkEx [1, 2], timeEx 2].map Axis.name,
    familiesOf [mkEx [1, 2], mkEx [3], mkEx [1, 2], timeEx 2] n < 100 := by decide +kernel

example : segments [("a".toList, 1), ("b".toList, 2), ("a".toList, 3)] = [("a".toList, [1, 3]), ("b".toList, [2])] := by decide

end Dataset
end PyGeode
