/-
Property C117: the register of axes (`AxisManager.lookup_axis`, /repo/pygeode/formats/data_scanner.py:184-289) over all histories.
-/
import Verif.Model.LookupAxis
import Verif.Props.AxisSlice

namespace PyGeode
namespace LookupAxis

variable {A H S : Type} [DecidableEq H] {hash : A → H} {eqv : A → A → Bool} {toSet : A → S}

/-- what holds at all times -/
structure Inv (hash : A → H) (eqv : A → A → Bool) (toSet : A → S) (w : World A H S) : Prop where
  alive : ∀ o ∈ w.manager.all, w.heap o.id = some o.content
  bins : ∀ h, ∀ o ∈ w.manager.bins h, o ∈ w.manager.all ∧ hash o.content = h ∧ w.manager.byId o.id = some o
  byId : ∀ i r, w.manager.byId i = some r →
    ∃ o ∈ w.manager.all, o.id = i ∧ find eqv (w.manager.bins (hash o.content)) o = some r
  settified : ∀ i s, w.manager.settified i = some s → ∃ r, w.manager.byId i = some r ∧ r.id = i ∧ s = toSet r.content
  answers : ∀ p ∈ w.answers, p.1 ∈ w.manager.all ∧ w.manager.byId p.1.id = some p.2
  sets : ∀ p ∈ w.sets, p.1 ∈ w.manager.all ∧ ∃ r, w.manager.byId p.1.id = some r ∧ p.2 = toSet r.content

omit [DecidableEq H] in
theorem find_append {eqv : A → A → Bool} {l l' : List (Obj A)} {o r : Obj A} (h : find eqv l o = some r) : find eqv (l ++ l') o = some r := by
  unfold find at h ⊢
  rw [List.find?_append, h]
  rfl

omit [DecidableEq H] in
theorem obj_ext {o p : Obj A} (h1 : o.id = p.id) (h2 : o.content = p.content) : o = p := by
  cases o; cases p; cases h1; cases h2; rfl

/-- what a lookup does to the register -/
theorem lookup_spec {w : World A H S} (hw : Inv hash eqv toSet w) {i : Nat} {c : A} (hi : w.heap i = some c)
    {r : Obj A × Manager A H S} (hr : lookup hash eqv w.manager ⟨i, c⟩ = r) :
    Inv hash eqv toSet { w with manager := r.2 } ∧ (⟨i, c⟩ : Obj A) ∈ r.2.all ∧ r.2.byId i = some r.1 ∧
      r.2.byId r.1.id = some r.1 := by
  unfold lookup at hr
  simp only at hr
  rcases hb : w.manager.byId i with _ | r0 <;> rw [hb] at hr <;> simp only at hr
  · rcases hf : find eqv (w.manager.bins (hash c)) ⟨i, c⟩ with _ | r1 <;> rw [hf] at hr <;> simp only at hr <;> subst hr
    · -- a new representative
      have hno : ∀ h, ∀ o ∈ w.manager.bins h, o.id ≠ i := by
        intro h o ho e
        have := (hw.bins h o ho).2.2
        rw [e, hb] at this
        cases this
      refine ⟨⟨?_, ?_, ?_, ?_, ?_, ?_⟩, by simp, by simp, by simp⟩
      · intro o ho
        rcases List.mem_append.1 ho with ho | ho
        · exact hw.alive o ho
        · rw [List.mem_singleton.1 ho]; exact hi
      · intro h o ho
        simp only at ho
        by_cases e : h = hash c
        · rw [if_pos e] at ho
          rcases List.mem_append.1 ho with ho | ho
          · have := hw.bins _ o ho
            refine ⟨List.mem_append_left _ this.1, this.2.1.trans e.symm, ?_⟩
            show (if o.id = i then _ else _) = _
            rw [if_neg (hno _ o ho)]
            exact this.2.2
          · rw [List.mem_singleton.1 ho]
            exact ⟨by simp, e.symm, by simp⟩
        · rw [if_neg e] at ho
          have := hw.bins _ o ho
          refine ⟨List.mem_append_left _ this.1, this.2.1, ?_⟩
          show (if o.id = i then _ else _) = _
          rw [if_neg (hno _ o ho)]
          exact this.2.2
      · intro j r hj
        simp only at hj
        by_cases e : j = i
        · rw [if_pos e] at hj
          cases hj
          refine ⟨⟨i, c⟩, by simp, e.symm, ?_⟩
          simp only [if_true]
          unfold find at hf ⊢
          rw [List.find?_append, hf]
          simp
        · rw [if_neg e] at hj
          obtain ⟨o, ho, hoi, hof⟩ := hw.byId j r hj
          refine ⟨o, List.mem_append_left _ ho, hoi, ?_⟩
          simp only
          by_cases e' : hash o.content = hash c
          · rw [if_pos e', ← e']
            exact find_append hof
          · rw [if_neg e']
            exact hof
      · intro j s hj
        obtain ⟨r, h1, h2, h3⟩ := hw.settified j s hj
        refine ⟨r, ?_, h2, h3⟩
        show (if j = i then _ else _) = _
        rw [if_neg (by rintro rfl; rw [hb] at h1; cases h1)]
        exact h1
      · intro p hp
        obtain ⟨h1, h2⟩ := hw.answers p hp
        refine ⟨List.mem_append_left _ h1, ?_⟩
        show (if p.1.id = i then _ else _) = _
        rw [if_neg (by rintro h; rw [h, hb] at h2; cases h2)]
        exact h2
      · intro p hp
        obtain ⟨h1, r, h2, h3⟩ := hw.sets p hp
        refine ⟨List.mem_append_left _ h1, r, ?_, h3⟩
        show (if p.1.id = i then _ else _) = _
        rw [if_neg (by rintro h; rw [h, hb] at h2; cases h2)]
        exact h2
    · -- an equal one is known
      have hr1 : r1 ∈ w.manager.bins (hash c) := List.mem_of_find?_eq_some hf
      have hr1i : r1.id ≠ i := by
        intro e
        have := (hw.bins _ r1 hr1).2.2
        rw [e, hb] at this
        cases this
      refine ⟨⟨?_, ?_, ?_, ?_, ?_, ?_⟩, by simp, by simp, ?_⟩
      · intro o ho
        rcases List.mem_append.1 ho with ho | ho
        · exact hw.alive o ho
        · rw [List.mem_singleton.1 ho]; exact hi
      · intro h o ho
        have := hw.bins _ o ho
        refine ⟨List.mem_append_left _ this.1, this.2.1, ?_⟩
        show (if o.id = i then _ else _) = _
        rw [if_neg (by rintro h; rw [h, hb] at this; cases this.2.2)]
        exact this.2.2
      · intro j r hj
        simp only at hj
        by_cases e : j = i
        · rw [if_pos e] at hj
          cases hj
          exact ⟨⟨i, c⟩, by simp, e.symm, hf⟩
        · rw [if_neg e] at hj
          obtain ⟨o, ho, hoi, hof⟩ := hw.byId j r hj
          exact ⟨o, List.mem_append_left _ ho, hoi, hof⟩
      · intro j s hj
        obtain ⟨r, h1, h2, h3⟩ := hw.settified j s hj
        refine ⟨r, ?_, h2, h3⟩
        show (if j = i then _ else _) = _
        rw [if_neg (by rintro rfl; rw [hb] at h1; cases h1)]
        exact h1
      · intro p hp
        obtain ⟨h1, h2⟩ := hw.answers p hp
        refine ⟨List.mem_append_left _ h1, ?_⟩
        show (if p.1.id = i then _ else _) = _
        rw [if_neg (by rintro h; rw [h, hb] at h2; cases h2)]
        exact h2
      · intro p hp
        obtain ⟨h1, r, h2, h3⟩ := hw.sets p hp
        refine ⟨List.mem_append_left _ h1, r, ?_, h3⟩
        show (if p.1.id = i then _ else _) = _
        rw [if_neg (by rintro h; rw [h, hb] at h2; cases h2)]
        exact h2
      · show (if r1.id = i then _ else _) = _
        rw [if_neg hr1i]
        exact (hw.bins _ r1 hr1).2.2
  · subst hr
    obtain ⟨o, ho, hoi, hof⟩ := hw.byId i r0 hb
    have : o = ⟨i, c⟩ := obj_ext hoi (by
      have := hw.alive o ho
      rw [hoi, hi] at this
      exact (Option.some.inj this).symm)
    exact ⟨hw, this ▸ ho, hb, (hw.bins _ r0 (List.mem_of_find?_eq_some hof)).2.2⟩

theorem step_inv (w : World A H S) (hw : Inv hash eqv toSet w) (e : Event A) : Inv hash eqv toSet (step hash eqv toSet w e) := by
  rcases e with ⟨i, c⟩ | i | i | i <;> unfold step <;> simp only
  · rcases hh : w.heap i with _ | c0 <;> simp only
    · refine { hw with alive := ?_ }
      intro o ho
      have := hw.alive o ho
      show (if o.id = i then _ else _) = _
      rw [if_neg (by rintro h; rw [h, hh] at this; cases this)]
      exact this
    · exact hw
  · rcases hh : w.manager.all.find? (fun o => o.id == i) with _ | c0 <;> (try simp only) <;> (try rw [hh])
    · refine { hw with alive := ?_ }
      intro o ho
      show (if o.id = i then _ else _) = _
      rw [if_neg (by simpa using List.find?_eq_none.1 hh o ho)]
      exact hw.alive o ho
    · exact hw
  · rcases hh : w.heap i with _ | c <;> simp only
    · exact hw
    · obtain ⟨h1, h2, h3, h4⟩ := lookup_spec hw hh rfl
      refine { h1 with answers := ?_ }
      intro p hp
      rcases List.mem_append.1 hp with hp | hp
      · exact h1.answers p hp
      · rw [List.mem_singleton.1 hp]
        exact ⟨h2, h3⟩
  · rcases hh : w.heap i with _ | c <;> simp only
    · exact hw
    · obtain ⟨h1, h2, h3, h4⟩ := lookup_spec hw hh rfl
      unfold settify
      simp only
      generalize lookup hash eqv w.manager ⟨i, c⟩ = r at h1 h2 h3 h4 ⊢
      rcases hs : r.2.settified r.1.id with _ | s <;> simp only
      · refine { h1 with settified := ?_, sets := ?_ }
        · intro j s hj
          simp only at hj
          by_cases e : j = r.1.id
          · rw [if_pos e] at hj
            cases hj
            exact ⟨r.1, e ▸ h4, e.symm, rfl⟩
          · rw [if_neg e] at hj
            exact h1.settified j s hj
        · intro p hp
          rcases List.mem_append.1 hp with hp | hp
          · exact h1.sets p hp
          · rw [List.mem_singleton.1 hp]
            exact ⟨h2, r.1, h3, rfl⟩
      · refine { h1 with sets := ?_ }
        intro p hp
        rcases List.mem_append.1 hp with hp | hp
        · exact h1.sets p hp
        · rw [List.mem_singleton.1 hp]
          obtain ⟨r', k1, k2, k3⟩ := h1.settified _ _ hs
          refine ⟨h2, r.1, h3, ?_⟩
          rw [show r' = r.1 from Option.some.inj (k1.symm.trans h4)] at k3
          exact k3

theorem run_inv (events : List (Event A)) : Inv hash eqv toSet (run hash eqv toSet events) := by
  unfold run
  have : ∀ w : World A H S, Inv hash eqv toSet w → Inv hash eqv toSet (events.foldl (step hash eqv toSet) w) := by
    induction events with
    | nil => exact fun w hw => hw
    | cons e l ih => exact fun w hw => ih _ (step_inv w hw e)
  refine this _ ⟨?_, ?_, ?_, ?_, ?_, ?_⟩ <;> simp

/-- the representative of an object is one that lookups choose: in the bin, the object itself or equal to it -/
theorem rep_spec {w : World A H S} (hw : Inv hash eqv toSet w) {o r : Obj A} (ho : o ∈ w.manager.all) (hr : w.manager.byId o.id = some r) :
    (r = o ∨ eqv r.content o.content = true) ∧ hash r.content = hash o.content ∧ w.heap r.id = some r.content ∧
      find eqv (w.manager.bins (hash o.content)) o = some r := by
  obtain ⟨o', ho', hi, hf⟩ := hw.byId _ _ hr
  have e : o' = o := obj_ext hi (by
    have h1 := hw.alive o' ho'
    rw [hi, hw.alive o ho] at h1
    exact (Option.some.inj h1).symm)
  rw [e] at hf
  have hm := List.mem_of_find?_eq_some hf
  have hp := List.find?_some hf
  obtain ⟨h1, h2, h3⟩ := hw.bins _ _ hm
  refine ⟨?_, h2, hw.alive r h1, hf⟩
  simp only [Bool.or_eq_true, beq_iff_eq] at hp
  refine hp.imp (fun hp => obj_ext hp ?_) id
  have := hw.alive r h1
  rw [hp, hw.alive o ho] at this
  exact (Option.some.inj this).symm

/-- C117: whatever happened before and since, the answer to a lookup is the axis itself or an axis that compares equal and has the same
hash; both stay in memory, unchanged. -/
theorem lookup_correct (events : List (Event A)) (o r : Obj A) (h : (o, r) ∈ (run hash eqv toSet events).answers) :
    (r = o ∨ eqv r.content o.content = true) ∧ hash r.content = hash o.content ∧
      (run hash eqv toSet events).heap r.id = some r.content ∧ (run hash eqv toSet events).heap o.id = some o.content := by
  have hw : Inv hash eqv toSet (run hash eqv toSet events) := run_inv events
  obtain ⟨h1, h2⟩ := hw.answers _ h
  obtain ⟨k1, k2, k3, -⟩ := rep_spec hw h1 h2
  exact ⟨k1, k2, k3, hw.alive _ h1⟩

/-- C117: the same object always gets the same answer, and an answer is its own answer. -/
theorem lookup_stable (events : List (Event A)) (o o' r r' : Obj A) (h : (o, r) ∈ (run hash eqv toSet events).answers)
    (h' : (o', r') ∈ (run hash eqv toSet events).answers) :
    (o'.id = o.id → o' = o ∧ r' = r) ∧ (o' = r → r' = r) := by
  have hw : Inv hash eqv toSet (run hash eqv toSet events) := run_inv events
  obtain ⟨h1, h2⟩ := hw.answers _ h
  obtain ⟨h1', h2'⟩ := hw.answers _ h'
  refine ⟨fun e => ⟨obj_ext e ?_, ?_⟩, fun e => ?_⟩
  · have := hw.alive _ h1'
    rw [show ((o', r').1 : Obj A).id = o.id from e, hw.alive _ h1] at this
    exact (Option.some.inj this).symm
  · rw [show ((o', r').1 : Obj A).id = o.id from e, h2] at h2'
    exact (Option.some.inj h2').symm
  · have hf := (rep_spec hw h1 h2).2.2.2
    have := (hw.bins _ _ (List.mem_of_find?_eq_some hf)).2.2
    rw [show ((o', r').1 : Obj A).id = r.id from by rw [e], this] at h2'
    exact (Option.some.inj h2').symm

/-- C117: axes that are equal and have the same hash get the same object, if comparison is an equivalence ... -/
theorem lookup_equal (events : List (Event A)) (o o' r r' : Obj A) (h : (o, r) ∈ (run hash eqv toSet events).answers)
    (h' : (o', r') ∈ (run hash eqv toSet events).answers) (hh : hash o'.content = hash o.content)
    (refl : eqv o.content o.content = true) (refl' : eqv o'.content o'.content = true)
    (trans : ∀ a, eqv a o.content = eqv a o'.content) : r' = r := by
  have hw : Inv hash eqv toSet (run hash eqv toSet events) := run_inv events
  obtain ⟨h1, h2⟩ := hw.answers _ h
  obtain ⟨h1', h2'⟩ := hw.answers _ h'
  have hf := (rep_spec hw h1 h2).2.2.2
  have hf' := (rep_spec hw h1' h2').2.2.2
  have hh' : hash ((o', r').1 : Obj A).content = hash o.content := hh
  rw [hh'] at hf'
  have key : ∀ p ∈ (run hash eqv toSet events).manager.bins (hash o.content),
      (p.id == o.id || eqv p.content o.content) = (p.id == o'.id || eqv p.content o'.content) := by
    intro p hp
    have hpa := hw.alive _ (hw.bins _ p hp).1
    have e1 : p.id = o.id → eqv p.content o.content = true := by
      intro e
      rw [e, hw.alive _ h1] at hpa
      rw [← Option.some.inj hpa]
      exact refl
    have e2 : p.id = o'.id → eqv p.content o'.content = true := by
      intro e
      rw [e, hw.alive _ h1'] at hpa
      rw [← Option.some.inj hpa]
      exact refl'
    by_cases a1 : eqv p.content o.content = true
    · rw [a1, ← trans, a1]; simp
    · have a2 : ¬ eqv p.content o'.content = true := by rw [← trans]; exact a1
      have b1 : ¬ p.id = o.id := fun e => a1 (e1 e)
      have b2 : ¬ p.id = o'.id := fun e => a2 (e2 e)
      simp [a1, a2, b1, b2]
  unfold find at hf hf'
  have : ∀ l : List (Obj A), (∀ p ∈ l, (p.id == o.id || eqv p.content o.content) = (p.id == o'.id || eqv p.content o'.content)) →
      (l.find? fun p => p.id == o.id || eqv p.content o.content) = l.find? fun p => p.id == o'.id || eqv p.content o'.content := by
    intro l
    induction l with
    | nil => intro _; rfl
    | cons a l ih =>
      intro hl
      rw [List.find?_cons, List.find?_cons, hl a (by simp), ih fun p hp => hl p (by simp [hp])]
  have hf2 : ((run hash eqv toSet events).manager.bins (hash o.content)).find?
    (fun p => p.id == o.id || eqv p.content o.content) = some r := hf
  rw [this _ key] at hf2
  exact Option.some.inj (hf'.symm.trans hf2)

/-- C117: ... and in any case axes with the same contents do, if such an axis is equal to itself. -/
theorem lookup_identical (events : List (Event A)) (o o' r r' : Obj A) (h : (o, r) ∈ (run hash eqv toSet events).answers)
    (h' : (o', r') ∈ (run hash eqv toSet events).answers) (hc : o'.content = o.content) (refl : eqv o.content o.content = true) :
    r' = r :=
  lookup_equal events o o' r r' h h' (by rw [hc]) refl (by rw [hc]; exact refl) fun a => by rw [hc]

/-- C117: the set made of an axis is that of the axis itself or of an equal one with the same hash; it is that of the answer to a lookup. -/
theorem settify_correct (events : List (Event A)) (o : Obj A) (s : S) (h : (o, s) ∈ (run hash eqv toSet events).sets) :
    (∃ r : Obj A, (r = o ∨ eqv r.content o.content = true) ∧ hash r.content = hash o.content ∧ s = toSet r.content) ∧
    ∀ r, (o, r) ∈ (run hash eqv toSet events).answers → s = toSet r.content := by
  have hw : Inv hash eqv toSet (run hash eqv toSet events) := run_inv events
  obtain ⟨h1, r, h2, h3⟩ := hw.sets _ h
  obtain ⟨k1, k2, -, -⟩ := rep_spec hw h1 h2
  refine ⟨⟨r, k1, k2, h3⟩, fun r' hr' => ?_⟩
  have h2' := (hw.answers _ hr').2
  rw [show r' = r from Option.some.inj (h2'.symm.trans h2)]
  exact h3

/-- C117: every lookup of an object in memory is answered. -/
theorem lookup_answers (events : List (Event A)) (i : Nat) (c : A) (hi : (run hash eqv toSet events).heap i = some c) :
    ∃ r, (run hash eqv toSet (events ++ [.lookup i])).answers = (run hash eqv toSet events).answers ++ [(⟨i, c⟩, r)] := by
  unfold run at hi ⊢
  rw [List.foldl_append]
  show ∃ r, (step hash eqv toSet _ (.lookup i)).answers = _
  rw [step]
  simp only [hi]
  exact ⟨_, rfl⟩

/-! ### for axes -/

open Axis in
/-- C117 for axes: with any hash made of name, classes and values that does not collide, the answer has exactly the same name, classes and
values as the axis, is equal to it, and copies of an axis all get the same object. -/
theorem lookup_axes (hash : List Name × Name × List ℚ → ℕ) (inj : Function.Injective hash) (toSet : Axis → S) (events : List (Event Axis))
    (o r : Obj Axis)
    (h : (o, r) ∈ (run (fun a : Axis => hash (a.classes, a.name, a.values)) axEq toSet events).answers) :
    r.content.name = o.content.name ∧ r.content.classes = o.content.classes ∧ r.content.values = o.content.values ∧
    axEq r.content o.content = true ∧
    ∀ o' r', (o', r') ∈ (run (fun a : Axis => hash (a.classes, a.name, a.values)) axEq toSet events).answers →
      o'.content = o.content → r' = r := by
  obtain ⟨h1, h2, -, -⟩ := lookup_correct events o r h
  have := inj h2
  simp only [Prod.mk.injEq] at this
  refine ⟨this.2.1, this.1, this.2.2, ?_, fun o' r' h' hc => ?_⟩
  · rcases h1 with rfl | h1
    · simp [axEq]
    · exact h1
  · exact lookup_identical events o o' r r' h h' hc (by simp [axEq])

/-! ### a case -/

/-- Three axes, the second equal to the first; it is forgotten, and its place in memory is not reused, as the register keeps it; the third
has the same hash as the first but is not equal. -/
example : ((run (S := Unit) (fun a : ℕ × ℕ => a.1 % 10) (fun a b => decide (a.1 = b.1)) (fun _ => ())
    [.new 0 (5, 1), .new 1 (5, 2), .lookup 0, .lookup 1, .drop 1, .new 1 (7, 7), .new 2 (15, 3), .lookup 1, .lookup 2, .lookup 0]).answers.map
      fun p => ((p.1.id, p.1.content), (p.2.id, p.2.content))) =
    [((0, (5, 1)), (0, (5, 1))), ((1, (5, 2)), (0, (5, 1))), ((1, (5, 2)), (0, (5, 1))), ((2, (15, 3)), (2, (15, 3))),
      ((0, (5, 1)), (0, (5, 1)))] := by decide +kernel

end LookupAxis
end PyGeode
