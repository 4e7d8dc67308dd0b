/-
C95: a call `var(**keywords)`: the selection, the means and the squeezed axes together.
-/
import Verif.Model.Call
import Verif.Props.Weights
import Verif.Props.Composite
import Verif.Props.Rotate

namespace PyGeode
namespace Call
open Spec NArr Axis Combine VarOps Loop Weights

theorem mapM_rel {γ δ : Type} {f : γ → Option δ} : ∀ {l : List γ} {r : List δ}, l.mapM f = some r →
    List.Forall₂ (fun x y => f x = some y) l r
  | [], r, h => by
    have h' : some [] = some r := h
    rw [← Option.some.inj h']
    exact .nil
  | x :: l, r, h => by
    rw [List.mapM_cons] at h
    cases hx : f x with
    | none => rw [hx] at h; cases h
    | some y =>
      cases hl : l.mapM f with
      | none => rw [hx, hl] at h; cases h
      | some ys =>
        rw [hx, hl] at h
        rw [← Option.some.inj h]
        exact .cons hx (mapM_rel hl)

/-! ### Squeezing a reduced variable -/

theorem readUnique_distinct {β : Type} (junk : List ℕ → β) (axes : List Axis) (f f' : View Axis → Option (NArr β))
    (h : ∀ I, (∀ ind ∈ I, ind.Pairwise (· < ·)) → f ⟨axes, I⟩ = f' ⟨axes, I⟩) (I : List (List ℕ)) (hd : DistinctReq I) :
    View.readUnique (Var.ofView junk axes f).src ⟨axes, I⟩ = View.readUnique (Var.ofView junk axes f').src ⟨axes, I⟩ := by
  simp only [Var.ofView]
  unfold View.readUnique
  simp only [View.read]
  split_ifs with hall
  · rw [h I]
    intro ind hind
    have := List.all_eq_true.1 hall ind hind
    simp only [Bool.or_eq_true, decide_eq_true_eq] at this
    rcases this with hu | hu
    · rw [← hu]; exact uniq_sorted ind
    · rcases hd ind hind with h3 | ⟨i, hi, j, hj, hij⟩
      · exact pairwise_of_length_one h3
      · exfalso
        obtain ⟨a, ha⟩ := List.length_eq_one_iff.1 hu
        have hi' := mem_uniq.2 hi
        have hj' := mem_uniq.2 hj
        rw [ha, List.mem_singleton] at hi' hj'
        exact hij (hi'.trans hj'.symm)
  · rw [h (I.map uniq)]
    intro ind hind
    obtain ⟨l, _, rfl⟩ := List.mem_map.1 hind
    exact uniq_sorted l

theorem getRaw_views {β : Type} (nr : List ℚ → ℚ) (junk' : List ℕ → β) (x : Var β) (data : List ℕ → β) (hx : Views x data)
    (hr : Regular x.axes) (R : List Axis) (hsub : R.Sublist x.axes) (h1 : ∀ a ∈ x.axes, a ∉ R → a.len = 1)
    (I : List (List ℕ)) (hI : InRange (R.map Axis.len) I) (hne : ∀ ind ∈ I, ind ≠ [] ∧ ind.Pairwise (· < ·)) :
    ∃ r, getRaw false nr junk' x ⟨R, I⟩ = some r ∧ IsRead (relabel x.axes R data) I (r.reshape (I.map List.length)) := by
  classical
  obtain ⟨junk, f, hy, hf⟩ := hx
  set f' : View Axis → Option (NArr β) := fun v => if (∀ ind ∈ v.inds, ind.Pairwise (· < ·)) then f v
    else some ⟨v.inds.map List.length, fun k => data (cell v.inds k)⟩ with hf'
  have hc : Contains (Var.ofView junk x.axes f') data := by
    refine contains_ofView_tidy junk x.axes f' data fun J hJ ht => ?_
    by_cases hp : ∀ ind ∈ J, ind.Pairwise (· < ·)
    · obtain ⟨r, h1, h2⟩ := hf J hJ fun ind hind => ⟨(ht ind hind).1, hp ind hind⟩
      exact ⟨r, by simp only [hf', if_pos hp]; exact h1, h2⟩
    · exact ⟨_, by simp only [hf', if_neg hp]; rfl, rfl, fun _ _ => rfl⟩
  obtain ⟨r, e1, e2⟩ := getRaw_squeezed nr junk' (Var.ofView junk x.axes f') data hc hr R hsub h1 I hI fun ind hi => (hne ind hi).1
  refine ⟨r, ?_, e2⟩
  rw [← e1]
  conv_lhs => rw [hy]
  unfold getRaw
  show (View.mapTo axEq (viewMapAx nr) Axis.len false ⟨R, I⟩ x.axes).map _ = (View.mapTo axEq (viewMapAx nr) Axis.len false ⟨R, I⟩ x.axes).map _
  cases hm : View.mapTo axEq (viewMapAx nr) Axis.len false ⟨R, I⟩ x.axes with
  | none => rfl
  | some m =>
    have hinds : ∀ p ∈ m, p.2 ∈ I ∨ p.2 = [0] := by
      unfold View.mapTo at hm
      have h2 := mapM_rel hm
      intro p hp
      obtain ⟨j, hj, rfl⟩ := List.getElem_of_mem hp
      have hjx : j < x.axes.length := by rw [h2.length_eq]; exact hj
      have h3 := (List.forall₂_iff_get.1 h2).2 j hjx hj
      simp only [List.get_eq_getElem] at h3
      have hcl := hr.cls _ (List.getElem_mem hjx)
      have hlI : I.length = R.length := by simpa using hI.length_eq
      by_cases haR : x.axes[j] ∈ R
      · obtain ⟨i, hi, hia⟩ := List.getElem_of_mem haR
        rw [mapAxis_at nr ⟨R, I⟩ _ hcl hlI i hi (fun k hk hki => ?_) (I.getD i [])] at h3
        · simp only [Option.some.injEq] at h3
          left
          rw [← h3]
          simp only
          rw [List.getD_eq_getElem _ _ (by rw [hlI]; exact hi)]
          exact List.getElem_mem _
        · simp only
          rw [if_pos (by simp [hia, axEq])]
          trivial
        · have hRr := hr.sublist hsub
          rw [← hia]
          exact hRr.incompatible hi hk (Ne.symm hki)
      · rw [mapAxis_unrelated nr ⟨R, I⟩ _ hcl ?_] at h3
        · simp only [Bool.false_eq_true, if_false, Option.some.injEq] at h3
          right
          rw [← h3]
          simp [h1 _ (List.getElem_mem hjx) haR]
        · intro b hb
          obtain ⟨i, hi, hib⟩ := List.getElem_of_mem (hsub.subset hb)
          rw [← hib]
          refine hr.incompatible hjx hi fun e => haR ?_
          subst e
          rw [hib]; exact hb
    simp only [Option.map_some, Option.some.injEq]
    split_ifs with h0
    · rfl
    · show View.readUnique (Var.ofView junk x.axes f).src ⟨x.axes, m.map Prod.snd⟩ =
        View.readUnique (Var.ofView junk x.axes f').src ⟨x.axes, m.map Prod.snd⟩
      refine readUnique_distinct junk x.axes f f' ?_ _ ?_
      · intro J hJ
        simp only [hf']
        rw [if_pos hJ]
      · intro ind hind
        obtain ⟨p, hp, rfl⟩ := List.mem_map.1 hind
        rcases hinds p hp with h2 | h2
        · obtain ⟨hn, hpw⟩ := hne _ h2
          by_cases hlen : p.2.length = 1
          · exact Or.inl hlen
          · right
            match hq : p.2, hn, hlen, hpw with
            | [], hn, _, _ => exact absurd rfl hn
            | [_], _, hl, _ => exact absurd rfl hl
            | a :: b :: t, _, _, hpw =>
              rw [List.pairwise_cons] at hpw
              exact ⟨a, by simp, b, by simp, Nat.ne_of_lt (hpw.1 b (by simp))⟩
        · left; rw [h2]; rfl

/-- squeezing a reduced variable -/
theorem squeeze_views {β : Type} (nr : List ℚ → ℚ) (junk : List ℕ → β) (x y : Var β) (ids : List AxisId)
    (data : List ℕ → β) (hx : Views x data) (hr : Regular x.axes) (hy : squeeze nr junk x ids = some y) :
    y.axes.Sublist x.axes ∧ Regular y.axes ∧
    (∀ (i : ℕ) (a : Axis), x.axes[i]? = some a → (a ∉ y.axes ↔ a.len = 1 ∧ (ids = [] ∨
      ∃ req, whichAll x.axes ids = some req ∧ i ∈ req))) ∧
    ∃ data', Views y data' ∧ ∀ pos : Axis → ℕ, (∀ a ∈ x.axes, a ∉ y.axes → pos a = 0) →
      data' (y.axes.map pos) = data (x.axes.map pos) := by
  refine squeeze_core nr junk x y ids data hr (fun R hsub h1 => ?_) hy
  refine ⟨junk, _, rfl, fun I hI hne => ?_⟩
  obtain ⟨r, e1, e2⟩ := getRaw_views nr junk x data hx hr R hsub h1 I hI hne
  exact ⟨_, by show (getRaw false nr junk x ⟨R, I⟩).map _ = _; rw [e1]; rfl, e2⟩

/-! ### The keywords -/

/-- the keyword `k` has the letter `c` in its prefix, and what follows the prefix names the axis at position `j` -/
def _root_.PyGeode.Spec.Marks (axes : List Axis) (c : Char) (k : Name) (j : ℕ) : Prop :=
  c ∈ (splitKey (hasAxis axes) k).1 ∧ whichaxis axes (.name (splitKey (hasAxis axes) k).2) = .at j

/-- some keyword asks for the mean along the axis at position `j` -/
def _root_.PyGeode.Spec.Averaged (axes : List Axis) (kw : List (Name × Arg)) (j : ℕ) : Prop := ∃ p ∈ kw, Marks axes 'm' p.1 j

/-- some keyword asks to squeeze the axis at position `j` -/
def _root_.PyGeode.Spec.Squeezed (axes : List Axis) (kw : List (Name × Arg)) (j : ℕ) : Prop := ∃ p ∈ kw, Marks axes 's' p.1 j

/-- a keyword that is not dropped: one that asks for a mean or for squeezing must name an axis -/
def _root_.PyGeode.Spec.Kept (axes : List Axis) (k : Name) : Prop :=
  'm' ∈ (splitKey (hasAxis axes) k).1 ∨ 's' ∈ (splitKey (hasAxis axes) k).1 → ∃ j, whichaxis axes (.name (splitKey (hasAxis axes) k).2) = .at j

/-- `S` lists, for each axis, in increasing order, the positions that satisfy every keyword for that axis (a keyword is for the first axis
that accepts it) -/
def _root_.PyGeode.Spec.Selects (axes : List Axis) (kw : List (Name × Arg)) (S : List (List ℕ)) : Prop :=
  S.length = axes.length ∧ ∀ (j : ℕ) (ax : Axis) (s : List ℕ), axes[j]? = some ax → S[j]? = some s →
    s.Pairwise (· < ·) ∧ ∀ i, i ∈ s ↔ i < ax.len ∧ ∀ p ∈ kw, Kept axes p.1 → Accepts ax (stripKey (hasAxis axes) p.1) →
      (∀ (j' : ℕ) (ax' : Axis), j' < j → axes[j']? = some ax' → ¬ Accepts ax' (stripKey (hasAxis axes) p.1)) →
      Wanted ax (stripKey (hasAxis axes) p.1) p.2 i

/-- no name is an alias of two axes -/
def _root_.PyGeode.Spec.OwnNames (axes : List Axis) : Prop :=
  axes.Pairwise fun a b => ∀ k, ¬ (a.hasAlias k = true ∧ b.hasAlias k = true)

theorem hasAxis_iff {axes : List Axis} {k : Name} : hasAxis axes k = true ↔ ∃ j, whichaxis axes (.name k) = .at j := by
  unfold hasAxis
  cases h : whichaxis axes (.name k) <;> simp [foundAt]

def keptB (has : Name → Bool) (k : Name) : Bool :=
  !(decide ('m' ∈ (splitKey has k).1) || decide ('s' ∈ (splitKey has k).1)) || has (splitKey has k).2

theorem keptB_iff {axes : List Axis} {k : Name} : keptB (hasAxis axes) k = true ↔ Kept axes k := by
  unfold keptB Kept
  rw [← hasAxis_iff]
  by_cases h1 : 'm' ∈ (splitKey (hasAxis axes) k).1 <;> by_cases h2 : 's' ∈ (splitKey (hasAxis axes) k).1 <;> simp [h1, h2]

def meanOf (has : Name → Bool) (p : Name × Arg) : Option Name :=
  if decide ('m' ∈ (splitKey has p.1).1) && has (splitKey has p.1).2 then some (splitKey has p.1).2 else none

theorem steps_spec (has : Name → Bool) (ignore : Bool) : ∀ (kw : List (Name × Arg)) (st0 st : State),
    kw.foldlM (step has ignore) st0 = some st →
    st.means = st0.means ++ kw.filterMap (meanOf has) ∧
    st.newargs = (kw.filter fun p => keptB has p.1).foldl (fun d p => dictSet d (stripKey has p.1) p.2) st0.newargs ∧
    (∀ a ∈ st.squeezes, a ∈ st0.squeezes ∨ ∃ p ∈ kw, 's' ∈ (splitKey has p.1).1 ∧ (splitKey has p.1).2 = a ∧ has a = true ∧ 'm' ∉ (splitKey has p.1).1) ∧
    (∀ a ∈ st0.squeezes, a ∈ st.squeezes) ∧
    (∀ p ∈ kw, 's' ∈ (splitKey has p.1).1 → has (splitKey has p.1).2 = true →
      (splitKey has p.1).2 ∈ st.squeezes ∨ (splitKey has p.1).2 ∈ st.means) ∧
    (ignore = false → ∀ p ∈ kw, keptB has p.1 = true)
  | [], st0, st, h => by
    have h' : some st0 = some st := h
    rw [← Option.some.inj h']
    simp
  | p :: kw, st0, st, h => by
    rw [List.foldlM_cons] at h
    have hsm : 's' ∈ (splitKey has p.1).1.filter (· ≠ 'm') ↔ 's' ∈ (splitKey has p.1).1 := by simp
    cases h1 : step has ignore st0 p with
    | none => rw [h1] at h; cases h
    | some st1 =>
      rw [h1] at h
      obtain ⟨i1, i2, i3, i4, i5, i6⟩ := steps_spec has ignore kw st1 st h
      unfold step at h1
      simp only [decide_eq_decide.2 hsm] at h1
      by_cases ha : has (splitKey has p.1).2 = true
      · simp only [ha, Bool.not_true, Bool.and_false, Bool.false_eq_true, if_false, Option.some.injEq] at h1
        have hk : keptB has p.1 = true := by simp [keptB, ha]
        by_cases hm : 'm' ∈ (splitKey has p.1).1
        · simp only [hm, decide_true, if_true] at h1
          have hM : meanOf has p = some (splitKey has p.1).2 := by simp [meanOf, hm, ha]
          simp only [List.mem_append, List.mem_singleton, or_true, not_true, decide_false, Bool.and_false, Bool.false_eq_true,
            if_false] at h1
          subst h1
          refine ⟨?_, ?_, ?_, i4, ?_, ?_⟩
          · rw [i1, List.filterMap_cons_some hM]; simp
          · rw [i2, List.filter_cons_of_pos (a := p) (by exact hk)]; rfl
          · intro a haa
            rcases i3 a haa with h | ⟨q, hq, h⟩
            · exact Or.inl h
            · exact Or.inr ⟨q, by simp [hq], h⟩
          · intro q hq hs hh
            rcases List.mem_cons.1 hq with rfl | hq
            · right; rw [i1]; simp
            · exact i5 q hq hs hh
          · intro hi q hq
            rcases List.mem_cons.1 hq with rfl | hq
            · exact hk
            · exact i6 hi q hq
        · simp only [hm, decide_false, Bool.false_eq_true, if_false] at h1
          have hM : meanOf has p = none := by simp [meanOf, hm]
          subst h1
          refine ⟨?_, ?_, ?_, ?_, ?_, ?_⟩
          · rw [i1, List.filterMap_cons_none hM]
          · rw [i2, List.filter_cons_of_pos (a := p) (by exact hk)]; rfl
          · intro a haa
            rcases i3 a haa with h | ⟨q, hq, h⟩
            · simp only at h
              split_ifs at h with hc
              · rcases List.mem_append.1 h with h | h
                · exact Or.inl h
                · rw [List.mem_singleton] at h
                  simp only [Bool.and_eq_true, decide_eq_true_eq] at hc
                  exact Or.inr ⟨p, by simp, hc.1, h.symm, h ▸ ha, hm⟩
              · exact Or.inl h
            · exact Or.inr ⟨q, by simp [hq], h⟩
          · intro a haa
            refine i4 a ?_
            simp only
            split_ifs
            · exact List.mem_append_left _ haa
            · exact haa
          · intro q hq hs hh
            rcases List.mem_cons.1 hq with rfl | hq
            · by_cases hmem : (splitKey has q.1).2 ∈ st0.means
              · right; rw [i1]; exact List.mem_append_left _ hmem
              · left
                refine i4 _ ?_
                simp [hs, hmem]
            · exact i5 q hq hs hh
          · intro hi q hq
            rcases List.mem_cons.1 hq with rfl | hq
            · exact hk
            · exact i6 hi q hq
      · have ha' : has (splitKey has p.1).2 = false := by simpa using ha
        simp only [ha', Bool.not_false, Bool.and_true, decide_eq_true_eq] at h1
        have hM : meanOf has p = none := by simp [meanOf, ha']
        by_cases hms : 'm' ∈ (splitKey has p.1).1 ∨ 's' ∈ (splitKey has p.1).1
        · have hk : keptB has p.1 = false := by simp [keptB, ha']; tauto
          have h2 : ignore = true ∧ st1 = st0 := by
            by_cases hm : 'm' ∈ (splitKey has p.1).1
            · simp only [hm, if_true] at h1
              split_ifs at h1 with hi
              exact ⟨hi, (Option.some.inj h1).symm⟩
            · have hs : 's' ∈ (splitKey has p.1).1 := by tauto
              simp only [hm, hs, if_true, if_false] at h1
              split_ifs at h1 with hi
              exact ⟨hi, (Option.some.inj h1).symm⟩
          obtain ⟨hi, rfl⟩ := h2
          refine ⟨?_, ?_, ?_, i4, ?_, ?_⟩
          · rw [i1, List.filterMap_cons_none hM]
          · rw [i2, List.filter_cons_of_neg (by simp [hk])]
          · intro a haa
            rcases i3 a haa with h | ⟨q, hq, h⟩
            · exact Or.inl h
            · exact Or.inr ⟨q, by simp [hq], h⟩
          · intro q hq hs hh
            rcases List.mem_cons.1 hq with rfl | hq
            · rw [ha'] at hh; cases hh
            · exact i5 q hq hs hh
          · intro hf; rw [hi] at hf; cases hf
        · push Not at hms
          have hk : keptB has p.1 = true := by simp [keptB, hms.1, hms.2]
          simp only [hms.1, hms.2, if_false, decide_false, Bool.false_and, Bool.false_eq_true, Option.some.injEq] at h1
          subst h1
          refine ⟨?_, ?_, ?_, i4, ?_, ?_⟩
          · rw [i1, List.filterMap_cons_none hM]
          · rw [i2, List.filter_cons_of_pos (a := p) (by exact hk)]; rfl
          · intro a haa
            rcases i3 a haa with h | ⟨q, hq, h⟩
            · exact Or.inl h
            · exact Or.inr ⟨q, by simp [hq], h⟩
          · intro q hq hs hh
            rcases List.mem_cons.1 hq with rfl | hq
            · exact absurd hs hms.2
            · exact i5 q hq hs hh
          · intro hi q hq
            rcases List.mem_cons.1 hq with rfl | hq
            · exact hk
            · exact i6 hi q hq

/-! ### The positions selected -/

theorem mem_newArgs {axes : List Axis} {ignore : Bool} {kw : List (Name × Arg)} {st : State} (h : args axes ignore kw = some st)
    (hnd : (kw.map fun p => stripKey (hasAxis axes) p.1).Nodup) (q : Name × Arg) :
    q ∈ st.newargs ↔ ∃ p ∈ kw, Kept axes p.1 ∧ q = (stripKey (hasAxis axes) p.1, p.2) := by
  have h2 := (steps_spec (hasAxis axes) ignore kw _ st h).2.1
  have h3 : st.newargs = newArgs (hasAxis axes) (kw.filter fun p => keptB (hasAxis axes) p.1) := h2
  rw [h3, newArgs_distinct _ _ ((List.Sublist.map _ List.filter_sublist).nodup hnd), List.mem_map]
  constructor
  · rintro ⟨p, hp, rfl⟩
    rw [List.mem_filter] at hp
    exact ⟨p, hp.1, keptB_iff.1 hp.2, rfl⟩
  · rintro ⟨p, hp, hk, rfl⟩
    exact ⟨p, List.mem_filter.2 ⟨hp, keptB_iff.2 hk⟩, rfl⟩

theorem positions_spec {axes : List Axis} {ignore : Bool} {kw : List (Name × Arg)} {st : State} (h : args axes ignore kw = some st)
    (hnd : (kw.map fun p => stripKey (hasAxis axes) p.1).Nodup) {sl : List Ind × List (Name × Arg)}
    (hsl : varSlices axes st.newargs = some sl) : ∃ S, positionsOf axes sl.1 = some S ∧ Selects axes kw S := by
  obtain ⟨h1, h2, h3⟩ := varSlices_correct (ss := sl.1) (left := sl.2) hsl
  have hex : ∀ j (hj : j < axes.length), ∃ l : List ℕ, expand (sl.1[j]'(by omega)) axes[j].len = some (l.map fun i : ℕ => (i : ℤ)) ∧
      l.Pairwise (· < ·) ∧ ∀ i, i ∈ l ↔ i < axes[j].len ∧ ∀ p ∈ kw, Kept axes p.1 → Accepts axes[j] (stripKey (hasAxis axes) p.1) →
      (∀ (j' : ℕ) (ax' : Axis), j' < j → axes[j']? = some ax' → ¬ Accepts ax' (stripKey (hasAxis axes) p.1)) →
      Wanted axes[j] (stripKey (hasAxis axes) p.1) p.2 i := by
    intro j hj
    obtain ⟨l, e1, e2, e3⟩ := h2 j axes[j] (sl.1[j]'(by omega)) (List.getElem?_eq_getElem hj) (List.getElem?_eq_getElem _)
    refine ⟨l, e1, e2, fun i => ?_⟩
    rw [e3]
    refine and_congr_right fun _ => ?_
    constructor
    · intro hh p hp hk hacc hno
      exact hh _ ((mem_newArgs h hnd _).2 ⟨p, hp, hk, rfl⟩) hacc hno
    · intro hh q hq hacc hno
      obtain ⟨p, hp, hk, rfl⟩ := (mem_newArgs h hnd q).1 hq
      exact hh p hp hk hacc hno
  let L : ℕ → List ℕ := fun j => if hj : j < axes.length then (hex j hj).choose else []
  have hL : ∀ j (hj : j < axes.length), L j = (hex j hj).choose := fun j hj => by simp only [L, dif_pos hj]
  refine ⟨(List.range axes.length).map L, ?_, by simp, ?_⟩
  · unfold positionsOf
    apply mapM_forall₂
    rw [List.forall₂_iff_get]
    refine ⟨by simp [h1], fun j hj hj' => ?_⟩
    have hj2 : j < axes.length := by simpa using hj'
    simp only [List.get_eq_getElem, List.getElem_zip, List.getElem_map, List.getElem_range]
    rw [(hex j hj2).choose_spec.1, hL j hj2]
    simp [List.map_map, Function.comp_def]
  · intro j ax s hax hs
    obtain ⟨hj, rfl⟩ := List.getElem?_eq_some_iff.1 hax
    have : s = L j := by
      rw [List.getElem?_map, List.getElem?_range hj] at hs
      exact (Option.some.inj hs).symm
    rw [this, hL j hj]
    exact (hex j hj).choose_spec.2

theorem selects_inRange {axes : List Axis} {kw : List (Name × Arg)} {S : List (List ℕ)} (h : Selects axes kw S) :
    InRange (axes.map Axis.len) S := by
  unfold InRange
  rw [List.forall₂_iff_get]
  refine ⟨by simp [h.1], fun j hj hj' i hi => ?_⟩
  have hja : j < axes.length := by rw [← h.1]; exact hj
  simp only [List.get_eq_getElem, List.getElem_map] at hi ⊢
  exact (((h.2 j axes[j] S[j] (List.getElem?_eq_getElem hja) (List.getElem?_eq_getElem hj)).2 i).1 hi).1

/-! ### The sliced variable -/

theorem sliceAxis_hasAlias (nr : List ℚ → ℚ) (a : Axis) (s : List ℕ) (k : Name) : (sliceAxis nr a s).hasAlias k = a.hasAlias k := by
  unfold sliceAxis
  simp only
  split_ifs <;> rfl

theorem sliceAxis_rtol (nr : List ℚ → ℚ) (hnr : ∀ l, 0 ≤ nr l) (a : Axis) (s : List ℕ) (ha : 0 ≤ a.rtol) : 0 ≤ (sliceAxis nr a s).rtol := by
  unfold sliceAxis
  simp only
  split_ifs
  · exact ha
  · exact hnr _

theorem slice_same {nr : List ℚ → ℚ} {a : Axis} {s : List ℕ} (hs : ∀ i ∈ s, i < a.len) (hn : a.values.Nodup) (h : sliceAxis nr a s = a) :
    s = List.range a.len := by
  have hv := sliceAxis_values nr a s
  rw [h] at hv
  have hl : s.length = a.len := by
    have := congrArg List.length hv
    simpa [Axis.len] using this.symm
  refine List.ext_getElem (by simpa using hl) fun i hi hi' => ?_
  rw [List.getElem_range]
  have hia : i < a.values.length := by simpa [Axis.len] using hi'
  have h1 : a.values[i] = a.values[s[i]]'(hs _ (List.getElem_mem hi)) := by
    have h2 : a.values[i]? = (s.map fun i : ℕ => a.values.getD i 0)[i]? := congrArg (·[i]?) hv
    rw [List.getElem?_eq_getElem hia, List.getElem?_map, List.getElem?_eq_getElem hi, Option.map_some] at h2
    rw [Option.some.inj h2, List.getD_eq_getElem _ _ (hs _ (List.getElem_mem hi))]
  exact ((hn.getElem_inj_iff).1 h1).symm

theorem cell_ranges {lens k : List ℕ} (hk : InBounds lens k) : cell (lens.map List.range) k = k := by
  unfold cell
  have hl := hk.length_eq
  refine List.ext_getElem (by simp [hl]) fun i hi hi' => ?_
  have : k[i] < lens[i]'(by omega) := (List.forall₂_iff_get.1 hk).2 i hi' (by omega)
  simp [List.getD_eq_getElem, this]

/-- `_getitem_asvar` -/
theorem getitem_correct {α : Type} (nr : List ℚ → ℚ) (junk : List ℕ → α) (x : Var α) (S : List (List ℕ)) (data : List ℕ → α)
    (hx : Contains x data) (hr : Regular x.axes) (hrt : ∀ a ∈ x.axes, 0 ≤ a.rtol) (hsep : ∀ a ∈ x.axes, Separated a.values)
    (hS : InRange (x.axes.map Axis.len) S) :
    Contains (getitem nr junk x S) (fun k => data (cell S k)) ∧ (getitem nr junk x S).axes = List.zipWith (sliceAxis nr) x.axes S ∧
    Regular (getitem nr junk x S).axes ∧ (getitem nr junk x S).axes.map Axis.len = S.map List.length := by
  obtain ⟨h1, h2, h3⟩ := slice_correct nr junk x S data hx hr hrt hsep hS
  unfold getitem
  split_ifs with he
  · have hlen : x.axes.length = S.length := by simpa using hS.length_eq.symm
    have hSr : S = (x.axes.map Axis.len).map List.range := by
      refine List.ext_getElem (by simp [hlen]) fun i hi hi' => ?_
      have hia : i < x.axes.length := by omega
      rw [List.getElem_map, List.getElem_map]
      have hin := (List.forall₂_iff_get.1 hS).2 i hi (by simpa using hia)
      simp only [List.get_eq_getElem, List.getElem_map] at hin
      refine slice_same (nr := nr) hin (hsep _ (List.getElem_mem hia)).nodup ?_
      have h4 : (List.zipWith (sliceAxis nr) x.axes S)[i]? = x.axes[i]? := congrArg (·[i]?) he
      rw [List.getElem?_eq_getElem hia, List.getElem?_eq_getElem (by simp; omega), List.getElem_zipWith] at h4
      exact Option.some.inj h4
    refine ⟨Rotate.contains_congr hx fun k hk => ?_, he.symm, hr, ?_⟩
    · rw [hSr, cell_ranges hk]
    · rw [← h3, he]
  · exact ⟨h1, rfl, h2, h3⟩

theorem whichaxis_slice (nr : List ℚ → ℚ) (axes : List Axis) (S : List (List ℕ)) (hl : axes.length = S.length) (k : Name) :
    whichaxis (List.zipWith (sliceAxis nr) axes S) (.name k) = whichaxis axes (.name k) := by
  unfold whichaxis
  simp only
  have : (List.zipWith (sliceAxis nr) axes S).findIdx? (fun a => a.hasAlias k) = axes.findIdx? (fun a => a.hasAlias k) := by
    induction axes generalizing S with
    | nil => simp
    | cons a axes ih =>
      cases S with
      | nil => simp at hl
      | cons s S =>
        rw [List.zipWith_cons_cons, List.findIdx?_cons, List.findIdx?_cons, sliceAxis_hasAlias, ih S (by simpa using hl)]
  rw [this]

theorem zip_get (nr : List ℚ → ℚ) (axes : List Axis) (S : List (List ℕ)) (hl : axes.length = S.length) {j : ℕ} (hj : j < axes.length) :
    (List.zipWith (sliceAxis nr) axes S)[j]? = some (sliceAxis nr (axes.getD j ax0) (S.getD j [])) := by
  rw [List.getElem?_eq_getElem (by simp; omega), List.getElem_zipWith, List.getD_eq_getElem _ _ hj, List.getD_eq_getElem _ _ (by omega)]

/-- the default weights of the sliced axes are those of the positions selected -/
theorem weight_slice (nr : List ℚ → ℚ) (axes : List Axis) (S : List (List ℕ)) (hS : InRange (axes.map Axis.len) S)
    (hsep : ∀ a ∈ axes, Separated a.values) (hw : ∀ a ∈ axes, ∀ ws, axisWeights a = some ws → ws.length = a.len)
    (l : List ℕ) (hl : ∀ i ∈ l, i < axes.length) (q : List ℕ) (hq : InBounds (S.map List.length) q) :
    axesWeight (List.zipWith (sliceAxis nr) axes S) l q = axesWeight axes l (cell S q) := by
  have hlen : axes.length = S.length := by simpa using hS.length_eq.symm
  have hqS : q.length = S.length := by simpa using hq.length_eq
  unfold axesWeight
  congr 1
  refine List.map_congr_left fun i hi => ?_
  have hia := hl i hi
  have hiS : i < S.length := by omega
  have hin := (List.forall₂_iff_get.1 hS).2 i hiS (by simpa using hia)
  simp only [List.get_eq_getElem, List.getElem_map] at hin
  have ha := List.getElem_mem hia
  rw [List.getElem?_eq_getElem (by simp; omega), List.getElem?_eq_getElem hia, List.getElem_zipWith, Option.bind_some, Option.bind_some]
  rw [getD_cell S q i hiS hqS]
  cases hws : axisWeights axes[i] with
  | some ws =>
    obtain ⟨arr, h1, h2, h3⟩ := sliceAxis_aux nr axes[i] S[i] (hsep _ ha).nodup hin _ ws hws (hw _ ha ws hws)
    have h1' : axisWeights (sliceAxis nr axes[i] S[i]) = some arr := h1
    rw [h1']
    simp only
    have hqi : q.getD i 0 < S[i].length := by
      have := (List.forall₂_iff_get.1 hq).2 i (by omega) (by simpa using hiS)
      simp only [List.get_eq_getElem, List.getElem_map] at this
      rwa [List.getD_eq_getElem _ _ (by omega)]
    have h4 := h3 (q.getD i 0) _ (List.getElem?_eq_getElem hqi)
    rw [List.getD_eq_getElem S _ hiS, List.getD_eq_getElem?_getD (l := arr), h4, List.getD_eq_getElem S[i] _ hqi, List.getD_eq_getElem?_getD (l := ws)]
  | none =>
    have : axisWeights (sliceAxis nr axes[i] S[i]) = none := by
      unfold axisWeights at hws ⊢
      unfold sliceAxis
      simp only
      split_ifs
      · exact hws
      · simp only
        rw [List.lookup_eq_none_iff] at hws ⊢
        intro p hp
        obtain ⟨p', hp', rfl⟩ := List.mem_map.1 hp
        exact hws p' hp'
    rw [this]

/-! ### C95 -/

/-- What the keywords choose: `S` the positions, `lm` the axes averaged over, `K` the axes that are left (in order): not those averaged
over, nor those to squeeze along which one position is selected. -/
structure _root_.PyGeode.Spec.Chooses (axes : List Axis) (kw : List (Name × Arg)) (S : List (List ℕ)) (lm K : List ℕ) : Prop where
  sel : Selects axes kw S
  nd : lm.Nodup
  avg : ∀ j, j ∈ lm ↔ Averaged axes kw j
  ord : K.Pairwise (· < ·)
  left : ∀ j, j ∈ K ↔ j < axes.length ∧ ¬ Averaged axes kw j ∧ ¬ (Squeezed axes kw j ∧ (S.getD j []).length = 1)

/-- The mean of `data` with the weights of the axes `lm` averaged over, among the positions `S`, at the positions `pos` of the other
axes. -/
def _root_.PyGeode.Spec.meanOver (data : List ℕ → ℚ) (axes : List Axis) (S : List (List ℕ)) (lm : List ℕ) (pos : ℕ → ℕ) : ℚ :=
  let cells := fibre (S.map List.length) lm (((List.range axes.length).filter fun i => i ∉ lm).map pos)
  (cells.map fun q => data (cell S q) * axesWeight axes lm (cell S q)).sum / (cells.map fun q => axesWeight axes lm (cell S q)).sum

theorem sublist_eq_filter {γ : Type} [DecidableEq γ] : ∀ {l' l : List γ}, l'.Sublist l → l.Nodup → l' = l.filter fun a => decide (a ∈ l')
  | _, _, .slnil, _ => rfl
  | l', a :: l, .cons _ h, hn => by
    rw [List.nodup_cons] at hn
    have ha : a ∉ l' := fun h' => hn.1 (h.subset h')
    rw [List.filter_cons_of_neg (by simpa using ha)]
    exact sublist_eq_filter h hn.2
  | _ :: l', a :: l, .cons_cons _ h, hn => by
    rw [List.nodup_cons] at hn
    rw [List.filter_cons_of_pos (by simp)]
    congr 1
    conv_lhs => rw [sublist_eq_filter h hn.2]
    refine List.filter_congr fun b hb => ?_
    have : b ≠ a := fun e => hn.1 (e ▸ hb)
    simp [this]

/-- the position of the axis a keyword asks to average over -/
def meanPos (axes : List Axis) (p : Name × Arg) : Option ℕ :=
  (meanOf (hasAxis axes) p).bind fun k => foundAt (whichaxis axes (.name k))

theorem foundAt_some {f : Found} {j : ℕ} : foundAt f = some j ↔ f = .at j := by
  cases f <;> simp [foundAt]

theorem meanPos_iff {axes : List Axis} {p : Name × Arg} {j : ℕ} : meanPos axes p = some j ↔ Marks axes 'm' p.1 j := by
  unfold meanPos meanOf Marks
  constructor
  · intro h
    split_ifs at h with hc
    · simp only [Bool.and_eq_true, decide_eq_true_eq] at hc
      exact ⟨hc.1, foundAt_some.1 h⟩
    · cases h
  · rintro ⟨h1, h2⟩
    rw [if_pos (by simp only [Bool.and_eq_true, decide_eq_true_eq]; exact ⟨h1, hasAxis_iff.2 ⟨j, h2⟩⟩)]
    exact foundAt_some.2 h2

theorem means_which {axes B : List Axis} (hB : ∀ k, whichaxis B (.name k) = whichaxis axes (.name k)) : ∀ kw : List (Name × Arg),
    whichAll B ((kw.filterMap (meanOf (hasAxis axes))).map .name) = some (kw.filterMap (meanPos axes))
  | [] => rfl
  | p :: kw => by
    have ih := means_which hB kw
    unfold whichAll at ih ⊢
    cases h : meanOf (hasAxis axes) p with
    | none =>
      have h2 : meanPos axes p = none := by unfold meanPos; rw [h]; rfl
      rw [List.filterMap_cons_none h, List.filterMap_cons_none h2]
      exact ih
    | some k =>
      have hk : hasAxis axes k = true := by
        unfold meanOf at h
        split_ifs at h with hc
        rw [← Option.some.inj h]
        simp only [Bool.and_eq_true] at hc
        exact hc.2
      obtain ⟨j, hj⟩ := hasAxis_iff.1 hk
      have h2 : meanPos axes p = some j := by unfold meanPos; rw [h]; exact foundAt_some.2 hj
      rw [List.filterMap_cons_some h, List.filterMap_cons_some h2, List.map_cons, List.mapM_cons, ih, hB, hj]
      rfl

theorem own_unique {axes : List Axis} (h : OwnNames axes) {i j : ℕ} (hi : i < axes.length) (hj : j < axes.length) {k : Name}
    (h1 : axes[i].hasAlias k = true) (h2 : axes[j].hasAlias k = true) : i = j := by
  unfold OwnNames at h
  rw [List.pairwise_iff_getElem] at h
  rcases Nat.lt_trichotomy i j with hlt | he | hlt
  · exact absurd ⟨h1, h2⟩ (h i j hi hj hlt k)
  · exact he
  · exact absurd ⟨h2, h1⟩ (h j i hj hi hlt k)

theorem which_name {axes : List Axis} {k : Name} {j : ℕ} (h : whichaxis axes (.name k) = .at j) :
    ∃ hj : j < axes.length, axes[j].hasAlias k = true := by
  unfold whichaxis at h
  simp only at h
  cases hf : axes.findIdx? (fun a => a.hasAlias k) with
  | none => rw [hf] at h; cases h
  | some i =>
    rw [hf] at h
    simp only [Found.at.injEq] at h
    subst h
    obtain ⟨h1, h2, _⟩ := List.findIdx?_eq_some_iff_getElem.1 hf
    exact ⟨h1, h2⟩

theorem fibre_nil (lens s : List ℕ) (hs : InBounds lens s) : fibre lens [] s = [s] := by
  unfold fibre
  have hd : ∀ p ∈ product (lens.map List.range), dropAxes 0 [] p = p := by
    intro p hp
    unfold dropAxes
    refine List.ext_getElem (by simp) fun i hi hi' => ?_
    simp [List.getD_eq_getElem, hi']
  rw [List.filter_congr (q := fun p => decide (p = s)) fun p hp => by rw [hd p hp]]
  have hnd : (product (lens.map List.range)).Nodup := Reduce.product_range_nodup lens
  refine List.Perm.eq_singleton ?_
  rw [List.perm_ext_iff_of_nodup (hnd.filter _) (List.nodup_singleton _)]
  intro p
  rw [List.mem_filter, List.mem_singleton, decide_eq_true_eq]
  constructor
  · exact fun h => h.2
  · rintro rfl
    exact ⟨Reduce.mem_product_range.2 hs, rfl⟩

theorem squeeze_ok {α : Type} {nr : List ℚ → ℚ} {junk : List ℕ → α} {x y : Var α} {ids : List AxisId} (hne : ids ≠ [])
    (h : squeeze nr junk x ids = some y) : ∃ req, whichAll x.axes ids = some req := by
  unfold squeeze squeezeAxes at h
  rw [if_neg hne] at h
  cases hw : whichAll x.axes ids with
  | none => rw [hw] at h; cases h
  | some req => exact ⟨req, rfl⟩

theorem squeeze_either {nr : List ℚ → ℚ} {junk : List ℕ → ℚ} {x y : Var ℚ} {ids : List AxisId} {data : List ℕ → ℚ}
    (hx : Views x data ∨ Contains x data) (hr : Regular x.axes) (hy : squeeze nr junk x ids = some y) :
    y.axes.Sublist x.axes ∧ Regular y.axes ∧
    (∀ (i : ℕ) (a : Axis), x.axes[i]? = some a → (a ∉ y.axes ↔ a.len = 1 ∧ (ids = [] ∨
      ∃ req, whichAll x.axes ids = some req ∧ i ∈ req))) ∧
    ∃ data', (Views y data' ∨ Contains y data') ∧ ∀ pos : Axis → ℕ, (∀ a ∈ x.axes, a ∉ y.axes → pos a = 0) →
      data' (y.axes.map pos) = data (x.axes.map pos) := by
  rcases hx with hx | hx
  · obtain ⟨h1, h2, h3, d, h4, h5⟩ := squeeze_views nr junk x y ids data hx hr hy
    exact ⟨h1, h2, h3, d, Or.inl h4, h5⟩
  · obtain ⟨h1, h2, h3, d, h4, h5⟩ := squeeze_correct nr junk x y ids data hx hr hy
    exact ⟨h1, h2, h3, d, Or.inr h4, h5⟩

theorem mean_part (nr : List ℚ → ℚ) (hnr : ∀ l, 0 ≤ nr l) (junk : List ℕ → ℚ) {limit : ℕ} (hlim : 1 ≤ limit) (x : Var ℚ)
    (data : List ℕ → ℚ) (hx : Contains x data) (hr : Regular x.axes) (hrt : ∀ a ∈ x.axes, 0 ≤ a.rtol)
    (hsep : ∀ a ∈ x.axes, Separated a.values)
    (hw : ∀ a ∈ x.axes, ∀ ws, axisWeights a = some ws → ws.length = a.len)
    (ignore : Bool) (kw : List (Name × Arg))
    (hm : kw.Pairwise fun p q => ∀ j, ¬ (Marks x.axes 'm' p.1 j ∧ Marks x.axes 'm' q.1 j))
    (st : State) (hst : args x.axes ignore kw = some st) (S : List (List ℕ)) (hsel : Selects x.axes kw S)
    (hpos : ∀ j ∈ kw.filterMap (meanPos x.axes), S.getD j [] ≠ []) :
    ∃ z, (if 0 < st.means.length then Weights.mean nr junk limit (getitem nr junk x S) (st.means.map .name)
        else some (getitem nr junk x S)) = some z ∧
      z.axes = ((List.range x.axes.length).filter fun i => i ∉ kw.filterMap (meanPos x.axes)).map
        (fun j => sliceAxis nr (x.axes.getD j ax0) (S.getD j [])) ∧
      (Views z (fun s => ((fibre (S.map List.length) (kw.filterMap (meanPos x.axes)) s).map fun q =>
          data (cell S q) * axesWeight x.axes (kw.filterMap (meanPos x.axes)) (cell S q)).sum /
          ((fibre (S.map List.length) (kw.filterMap (meanPos x.axes)) s).map fun q => axesWeight x.axes (kw.filterMap (meanPos x.axes)) (cell S q)).sum) ∨
        Contains z (fun s => ((fibre (S.map List.length) (kw.filterMap (meanPos x.axes)) s).map fun q =>
          data (cell S q) * axesWeight x.axes (kw.filterMap (meanPos x.axes)) (cell S q)).sum /
          ((fibre (S.map List.length) (kw.filterMap (meanPos x.axes)) s).map fun q => axesWeight x.axes (kw.filterMap (meanPos x.axes)) (cell S q)).sum)) := by
  classical
  obtain ⟨s1, s2, s3, s4, s5, s6⟩ := steps_spec (hasAxis x.axes) ignore kw _ st hst
  simp only [List.nil_append, List.not_mem_nil, false_or] at s1 s3
  have hSr := selects_inRange hsel
  have hSl : x.axes.length = S.length := hsel.1.symm
  obtain ⟨g1, g2, g3, g4⟩ := getitem_correct nr junk x S data hx hr hrt hsep hSr
  set x1 := getitem nr junk x S with hx1
  set lm := kw.filterMap (meanPos x.axes) with hlm
  set n := x.axes.length with hn
  have hlmA : ∀ j, j ∈ lm ↔ Averaged x.axes kw j := by
    intro j
    rw [hlm, List.mem_filterMap]
    exact ⟨fun ⟨p, hp, h⟩ => ⟨p, hp, meanPos_iff.1 h⟩, fun ⟨p, hp, h⟩ => ⟨p, hp, meanPos_iff.2 h⟩⟩
  have hlmn : lm.Nodup := by
    rw [hlm]
    unfold List.Nodup
    rw [List.pairwise_filterMap]
    refine hm.imp fun {p q} h j hj j' hj' e => ?_
    subst e
    exact h j ⟨meanPos_iff.1 hj, meanPos_iff.1 hj'⟩
  have hlmlt : ∀ j ∈ lm, j < n := by
    intro j hj
    obtain ⟨p, _, h⟩ := (hlmA j).1 hj
    exact (which_name h.2).1
  have hwhich : ∀ k, whichaxis x1.axes (.name k) = whichaxis x.axes (.name k) := by
    intro k; rw [g2]; exact whichaxis_slice nr x.axes S hSl k
  have hA1 : ∀ j, j < n → x1.axes[j]? = some (sliceAxis nr (x.axes.getD j ax0) (S.getD j [])) := by
    intro j hj; rw [g2]; exact zip_get nr x.axes S hSl hj
  have hx1l : x1.axes.length = n := by rw [g2, List.length_zipWith, ← hSl, min_self]
  set g : ℕ → Axis := fun j => sliceAxis nr (x.axes.getD j ax0) (S.getD j []) with hg
  have hx1g : x1.axes = (List.range n).map g := by
    refine List.ext_getElem? fun i => ?_
    by_cases hi : i < n
    · rw [hA1 i hi, List.getElem?_map, List.getElem?_range hi]; rfl
    · rw [List.getElem?_eq_none (by omega), List.getElem?_eq_none (by simpa using hi)]
  have hgl : ∀ j, j < n → (g j).len = (S.getD j []).length := by
    intro j _
    show (sliceAxis nr _ _).values.length = _
    rw [sliceAxis_values, List.length_map]
  have hnd1 := g3.nodup
  have hginj : ∀ i j, i < n → j < n → g i = g j → i = j := by
    intro i j hi hj e
    rw [hx1g] at hnd1
    exact List.inj_on_of_nodup_map hnd1 (by simpa using hi) (by simpa using hj) e
  -- the mean
  set M := (List.range n).filter fun i => i ∉ lm with hM
  let D1 : List ℕ → ℚ := fun s => ((fibre (S.map List.length) lm s).map fun q => data (cell S q) * axesWeight x.axes lm (cell S q)).sum /
    ((fibre (S.map List.length) lm s).map fun q => axesWeight x.axes lm (cell S q)).sum
  have hfib : ∀ s q, q ∈ fibre (S.map List.length) lm s → InBounds (S.map List.length) q := by
    intro s q hq
    exact Reduce.mem_product_range.1 (List.mem_filter.1 hq).1
  have hz : ∃ z, (if 0 < st.means.length then Weights.mean nr junk limit x1 (st.means.map .name) else some x1) = some z ∧
      z.axes = M.map g ∧ (Views z D1 ∨ Contains z D1) := by
    by_cases hme : 0 < st.means.length
    · rw [if_pos hme]
      have hids : st.means.map AxisId.name ≠ [] := by
        intro e
        rw [List.map_eq_nil_iff] at e
        rw [e] at hme; simp at hme
      have hnames : Names x1.axes (st.means.map .name) lm := by
        unfold Names
        rw [if_neg hids, s1]
        exact ⟨means_which hwhich kw, hlmn⟩
      have hlmne : lm ≠ [] := by
        intro e
        have h1 : lm.length = (st.means.map AxisId.name).length := by
          have h2 := means_which hwhich kw
          rw [← s1] at h2
          unfold whichAll at h2
          exact (mapM_rel h2).length_eq.symm
        rw [e] at h1
        simp only [List.length_nil, List.length_map] at h1
        omega
      have hred : Reducible x1.axes lm := by
        refine ⟨g3, ?_, ?_, hlmne, ?_⟩
        · intro a ha
          rw [hx1g] at ha
          obtain ⟨j, hj, rfl⟩ := List.mem_map.1 ha
          have hjn : j < x.axes.length := by simpa using hj
          refine sliceAxis_rtol nr hnr _ _ (hrt _ ?_)
          rw [List.getD_eq_getElem _ _ hjn]; exact List.getElem_mem _
        · intro i a hi _
          have hin : i < n := by
            rw [← hx1l]; exact (List.getElem?_eq_some_iff.1 hi).1
          rw [hA1 i hin] at hi
          rw [← Option.some.inj hi]
          have hiS : i < S.length := by omega
          have hin2 := (List.forall₂_iff_get.1 hSr).2 i hiS (by simpa using hin)
          simp only [List.get_eq_getElem, List.getElem_map] at hin2
          rw [List.getD_eq_getElem x.axes _ hin, List.getD_eq_getElem S _ hiS]
          refine sliceAxis_separated nr _ _ ?_ hin2 (hsep _ (List.getElem_mem _))
          exact (hsel.2 i _ _ (List.getElem?_eq_getElem hin) (List.getElem?_eq_getElem hiS)).1.imp fun h => Nat.ne_of_lt h
        · intro i hi
          rw [g4]
          have hiS : i < S.length := by have := hlmlt i hi; omega
          rw [List.getD_eq_getElem _ _ (by simpa using hiS), List.getElem_map]
          have := hpos i hi
          rw [List.getD_eq_getElem S _ hiS] at this
          exact List.length_pos_iff.2 this
      have hwt : WeightsAre x1.axes lm .default (axesWeight x1.axes lm) := by
        refine .default ?_
        intro i hi a ha ws hws
        have hin := hlmlt i hi
        rw [hA1 i hin] at ha
        have ha' := (Option.some.inj ha).symm
        have hiS : i < S.length := by omega
        have hin2 := (List.forall₂_iff_get.1 hSr).2 i hiS (by simpa using hin)
        simp only [List.get_eq_getElem, List.getElem_map] at hin2
        rw [List.getD_eq_getElem x.axes _ hin, List.getD_eq_getElem S _ hiS] at ha'
        subst ha'
        have hla : (sliceAxis nr x.axes[i] S[i]).len = S[i].length := by
          show (sliceAxis nr _ _).values.length = _
          rw [sliceAxis_values, List.length_map]
        rw [hla]
        cases hw0 : axisWeights x.axes[i] with
        | some ws0 =>
          obtain ⟨arr, e1, e2, _⟩ := sliceAxis_aux nr x.axes[i] S[i] (hsep _ (List.getElem_mem _)).nodup hin2 _ ws0 hw0
            (hw _ (List.getElem_mem _) ws0 hw0)
          have e1' : axisWeights (sliceAxis nr x.axes[i] S[i]) = some arr := e1
          rw [e1'] at hws
          rw [← Option.some.inj hws]; exact e2
        | none =>
          exfalso
          unfold axisWeights at hw0 hws
          have : (sliceAxis nr x.axes[i] S[i]).auxarrays.lookup "weights".toList = none := by
            unfold sliceAxis
            simp only
            split_ifs
            · exact hw0
            · simp only
              rw [List.lookup_eq_none_iff] at hw0 ⊢
              intro p hp
              obtain ⟨p', hp', rfl⟩ := List.mem_map.1 hp
              exact hw0 p' hp'
          rw [this] at hws; cases hws
      obtain ⟨z, z1, z2, z3⟩ := Weights.mean_views nr hnr hlim (st.means.map .name) lm .default _ junk x1 _ g1 hnames hred hwt
      refine ⟨z, z1, ?_, Or.inl ?_⟩
      · rw [z2]
        unfold dropAxes
        rw [hx1l]
        refine List.map_congr_left fun i hi => ?_
        have hin : i < n := by simpa using (List.mem_filter.1 hi).1
        rw [List.getD_eq_getElem?_getD, hA1 i hin]
        rfl
      · convert z3 using 1
        funext s
        simp only [D1]
        rw [g4]
        have hA : ∀ q ∈ fibre (S.map List.length) lm s, axesWeight x.axes lm (cell S q) = axesWeight x1.axes lm q := by
          intro q hq
          rw [g2]
          exact (weight_slice nr x.axes S hSr hsep hw lm hlmlt q (hfib s q hq)).symm
        congr 2
        · exact List.map_congr_left fun q hq => by rw [hA q hq]
        · exact List.map_congr_left fun q hq => hA q hq
    · rw [if_neg hme]
      have hme' : st.means = [] := by
        cases hc : st.means with
        | nil => rfl
        | cons a l => rw [hc] at hme; simp at hme
      have hlm0 : lm = [] := by
        have h2 := means_which hwhich kw
        rw [← s1, hme'] at h2
        exact (Option.some.inj h2).symm
      have hM0 : M = List.range n := by
        rw [hM, hlm0]
        simp
      refine ⟨x1, rfl, by rw [hM0, hx1g], Or.inr ?_⟩
      refine Rotate.contains_congr g1 fun k hk => ?_
      rw [g4] at hk
      simp only [D1, hlm0]
      rw [fibre_nil _ _ hk]
      simp [axesWeight]
  exact hz

/-- C95: `var(**keywords)`. The result has the axes that are neither averaged over nor squeezed, restricted to the positions that satisfy the
keywords, and shows there the data of the variable, averaged with the weights of the axes over the positions selected along the axes asked
for. -/
theorem call_correct_partial (nr : List ℚ → ℚ) (hnr : ∀ l, 0 ≤ nr l) (junk : List ℕ → ℚ) {limit : ℕ} (hlim : 1 ≤ limit) (x y : Var ℚ)
    (data : List ℕ → ℚ) (hx : Contains x data) (hr : Regular x.axes) (hrt : ∀ a ∈ x.axes, 0 ≤ a.rtol)
    (hsep : ∀ a ∈ x.axes, Separated a.values) (hown : OwnNames x.axes)
    (hw : ∀ a ∈ x.axes, ∀ ws, axisWeights a = some ws → ws.length = a.len)
    (ignore : Bool) (kw : List (Name × Arg)) (hnd : (kw.map fun p => stripKey (hasAxis x.axes) p.1).Nodup)
    (hm : kw.Pairwise fun p q => ∀ j, ¬ (Marks x.axes 'm' p.1 j ∧ Marks x.axes 'm' q.1 j))
    (hy : call nr junk limit x ignore kw = some y) :
    ∃ S lm K, Chooses x.axes kw S lm K ∧
      (ignore = false → ∀ p ∈ kw, Kept x.axes p.1 ∧ ∃ ax ∈ x.axes, Accepts ax (stripKey (hasAxis x.axes) p.1)) ∧
      ((∀ j ∈ lm, S.getD j [] ≠ []) →
        y.axes = K.map (fun j => sliceAxis nr (x.axes.getD j ax0) (S.getD j [])) ∧
        ∃ D, Shows nr y D ∧ ∀ pos : ℕ → ℕ, (∀ j < x.axes.length, j ∉ K → pos j = 0) →
          D (K.map pos) = meanOver data x.axes S lm pos) := by
  classical
  unfold call at hy
  cases hst : args x.axes ignore kw with
  | none => rw [hst] at hy; cases hy
  | some st =>
  rw [hst, Option.bind_some] at hy
  cases hsl : varSlices x.axes st.newargs with
  | none => rw [hsl] at hy; cases hy
  | some sl =>
  rw [hsl, Option.bind_some] at hy
  obtain ⟨S, hS, hsel⟩ := positions_spec hst hnd hsl
  by_cases hleft : (decide (sl.2 ≠ []) && !ignore) = true
  · rw [if_pos hleft] at hy; cases hy
  rw [if_neg hleft, hS, Option.bind_some] at hy
  simp only at hy
  obtain ⟨s1, s2, s3, s4, s5, s6⟩ := steps_spec (hasAxis x.axes) ignore kw _ st hst
  simp only [List.nil_append, List.not_mem_nil, false_or] at s1 s3
  have hSr := selects_inRange hsel
  have hSl : x.axes.length = S.length := hsel.1.symm
  obtain ⟨g1, g2, g3, g4⟩ := getitem_correct nr junk x S data hx hr hrt hsep hSr
  set x1 := getitem nr junk x S with hx1
  set lm := kw.filterMap (meanPos x.axes) with hlm
  set n := x.axes.length with hn
  have hlmA : ∀ j, j ∈ lm ↔ Averaged x.axes kw j := by
    intro j
    rw [hlm, List.mem_filterMap]
    exact ⟨fun ⟨p, hp, h⟩ => ⟨p, hp, meanPos_iff.1 h⟩, fun ⟨p, hp, h⟩ => ⟨p, hp, meanPos_iff.2 h⟩⟩
  have hlmn : lm.Nodup := by
    rw [hlm]
    unfold List.Nodup
    rw [List.pairwise_filterMap]
    refine hm.imp fun {p q} h j hj j' hj' e => ?_
    subst e
    exact h j ⟨meanPos_iff.1 hj, meanPos_iff.1 hj'⟩
  have hlmlt : ∀ j ∈ lm, j < n := by
    intro j hj
    obtain ⟨p, _, h⟩ := (hlmA j).1 hj
    exact (which_name h.2).1
  have hwhich : ∀ k, whichaxis x1.axes (.name k) = whichaxis x.axes (.name k) := by
    intro k; rw [g2]; exact whichaxis_slice nr x.axes S hSl k
  have hA1 : ∀ j, j < n → x1.axes[j]? = some (sliceAxis nr (x.axes.getD j ax0) (S.getD j [])) := by
    intro j hj; rw [g2]; exact zip_get nr x.axes S hSl hj
  have hx1l : x1.axes.length = n := by rw [g2, List.length_zipWith, ← hSl, min_self]
  set g : ℕ → Axis := fun j => sliceAxis nr (x.axes.getD j ax0) (S.getD j []) with hg
  have hx1g : x1.axes = (List.range n).map g := by
    refine List.ext_getElem? fun i => ?_
    by_cases hi : i < n
    · rw [hA1 i hi, List.getElem?_map, List.getElem?_range hi]; rfl
    · rw [List.getElem?_eq_none (by omega), List.getElem?_eq_none (by simpa using hi)]
  have hgl : ∀ j, j < n → (g j).len = (S.getD j []).length := by
    intro j _
    show (sliceAxis nr _ _).values.length = _
    rw [sliceAxis_values, List.length_map]
  have hnd1 := g3.nodup
  have hginj : ∀ i j, i < n → j < n → g i = g j → i = j := by
    intro i j hi hj e
    rw [hx1g] at hnd1
    exact List.inj_on_of_nodup_map hnd1 (by simpa using hi) (by simpa using hj) e
  have hkeep : ignore = false → ∀ p ∈ kw, Kept x.axes p.1 ∧ ∃ ax ∈ x.axes, Accepts ax (stripKey (hasAxis x.axes) p.1) := by
    intro hi p hp
    have hk := keptB_iff.1 (s6 hi p hp)
    refine ⟨hk, ?_⟩
    have hl2 : sl.2 = [] := by
      simpa [hi] using hleft
    by_contra hno
    push Not at hno
    have := (varSlices_correct (ss := sl.1) (left := sl.2) hsl).2.2 (stripKey (hasAxis x.axes) p.1, p.2)
    rw [hl2] at this
    exact List.not_mem_nil (this.2 ⟨(mem_newArgs hst hnd _).2 ⟨p, hp, hk, rfl⟩, hno⟩)
  by_cases hpos : ∀ j ∈ lm, S.getD j [] ≠ []
  swap
  · refine ⟨S, lm, (List.range n).filter fun j => decide (¬ Averaged x.axes kw j ∧ ¬ (Squeezed x.axes kw j ∧ (S.getD j []).length = 1)),
      ⟨hsel, hlmn, hlmA, List.pairwise_lt_range.sublist List.filter_sublist, fun j => by rw [List.mem_filter, List.mem_range, decide_eq_true_eq]⟩, hkeep, fun h => absurd h hpos⟩
  -- the mean
  set M := (List.range n).filter fun i => i ∉ lm with hM
  let D1 : List ℕ → ℚ := fun s => ((fibre (S.map List.length) lm s).map fun q => data (cell S q) * axesWeight x.axes lm (cell S q)).sum /
    ((fibre (S.map List.length) lm s).map fun q => axesWeight x.axes lm (cell S q)).sum
  have hfib : ∀ s q, q ∈ fibre (S.map List.length) lm s → InBounds (S.map List.length) q := by
    intro s q hq
    exact Reduce.mem_product_range.1 (List.mem_filter.1 hq).1
  have hz : ∃ z, (if 0 < st.means.length then Weights.mean nr junk limit x1 (st.means.map .name) else some x1) = some z ∧
      z.axes = M.map g ∧ (Views z D1 ∨ Contains z D1) :=
    mean_part nr hnr junk hlim x data hx hr hrt hsep hw ignore kw hm st hst S hsel hpos
  obtain ⟨z, z1, z2, z3⟩ := hz
  rw [z1, Option.bind_some] at hy
  have hzr : Regular z.axes := by
    rw [z2]
    refine g3.sublist ?_
    rw [hx1g]
    exact List.filter_sublist.map g
  have hzget : ∀ i (hi : i < z.axes.length), ∃ j, j < n ∧ j ∉ lm ∧ z.axes[i] = g j := by
    intro i hi
    have h1 : z.axes[i] ∈ M.map g := by rw [← z2]; exact List.getElem_mem hi
    obtain ⟨j, hj, he⟩ := List.mem_map.1 h1
    have h2 := List.mem_filter.1 hj
    exact ⟨j, by simpa using h2.1, by simpa using h2.2, he.symm⟩
  have hown2 : ∀ i j, i < n → j < n → ∀ k, (g i).hasAlias k = true → (g j).hasAlias k = true → i = j := by
    intro i j hi hj k h1 h2
    simp only [hg, sliceAxis_hasAlias] at h1 h2
    rw [List.getD_eq_getElem _ _ hi] at h1
    rw [List.getD_eq_getElem _ _ hj] at h2
    exact own_unique hown hi hj h1 h2
  have halias : ∀ (j : ℕ) (k : Name), whichaxis x.axes (.name k) = .at j → j < n ∧ (g j).hasAlias k = true := by
    intro j k h
    obtain ⟨hj, h2⟩ := which_name h
    refine ⟨hj, ?_⟩
    simp only [hg, sliceAxis_hasAlias]
    rw [List.getD_eq_getElem _ _ hj]
    exact h2
  -- squeezing
  have hfin : y.axes.Sublist z.axes ∧ Regular y.axes ∧
      (∀ j, j < n → j ∉ lm → (g j ∉ y.axes ↔ (g j).len = 1 ∧ Squeezed x.axes kw j)) ∧
      ∃ data', (Views y data' ∨ Contains y data') ∧ ∀ pos : Axis → ℕ, (∀ a ∈ z.axes, a ∉ y.axes → pos a = 0) →
        data' (y.axes.map pos) = D1 (z.axes.map pos) := by
    by_cases hsq : 0 < st.squeezes.length
    · rw [if_pos hsq] at hy
      have hids : st.squeezes.map AxisId.name ≠ [] := by
        intro e
        rw [List.map_eq_nil_iff] at e
        rw [e] at hsq; simp at hsq
      obtain ⟨req, hreq⟩ := squeeze_ok hids hy
      obtain ⟨q1, q2, q3, q4⟩ := squeeze_either z3 hzr hy
      refine ⟨q1, q2, ?_, q4⟩
      intro j hj hjm
      have hjz : g j ∈ z.axes := by
        rw [z2]; exact List.mem_map.2 ⟨j, List.mem_filter.2 ⟨by simpa using hj, by simpa using hjm⟩, rfl⟩
      obtain ⟨i, hi, hie⟩ := List.getElem_of_mem hjz
      rw [q3 i (g j) (by rw [List.getElem?_eq_getElem hi, hie])]
      have hrel := mapM_rel (show (st.squeezes.map AxisId.name).mapM (fun a => foundAt (whichaxis z.axes a)) = some req from hreq)
      have hrel2 : ∀ t (ht : t < st.squeezes.length) (ht' : t < req.length), whichaxis z.axes (.name st.squeezes[t]) = .at req[t] := by
        intro t ht ht'
        have := (List.forall₂_iff_get.1 hrel).2 t (by simpa using ht) ht'
        simp only [List.get_eq_getElem, List.getElem_map] at this
        exact foundAt_some.1 this
      have hrl : st.squeezes.length = req.length := by simpa using hrel.length_eq
      refine and_congr_right fun _ => ?_
      constructor
      · rintro (h | ⟨req', h1, h2⟩)
        · exact absurd h hids
        · rw [hreq] at h1
          rw [← Option.some.inj h1] at h2
          obtain ⟨t, ht, hte⟩ := List.getElem_of_mem h2
          have h3 := hrel2 t (by omega) ht
          rw [hte] at h3
          obtain ⟨_, h4⟩ := which_name h3
          rw [hie] at h4
          obtain ⟨p, hp, p1, p2, p3, _⟩ := s3 _ (List.getElem_mem (by omega : t < st.squeezes.length))
          obtain ⟨j0, hj0⟩ := hasAxis_iff.1 p3
          obtain ⟨hj0n, h5⟩ := halias j0 _ hj0
          have : j = j0 := hown2 j j0 hj hj0n _ h4 h5
          subst this
          exact ⟨p, hp, p1, by rw [p2]; exact hj0⟩
      · rintro ⟨p, hp, p1, p2⟩
        right
        refine ⟨req, hreq, ?_⟩
        obtain ⟨_, h5⟩ := halias j _ p2
        rcases s5 p hp p1 (hasAxis_iff.2 ⟨j, p2⟩) with h | h
        · obtain ⟨t, ht, hte⟩ := List.getElem_of_mem h
          have h3 := hrel2 t ht (by omega)
          rw [hte] at h3
          obtain ⟨hlt, h4⟩ := which_name h3
          obtain ⟨j2, hj2, hj2m, hj2e⟩ := hzget _ hlt
          rw [hj2e] at h4
          have : j = j2 := hown2 j j2 hj hj2 _ h5 h4
          subst this
          have : i = req[t]'(by omega) := (hzr.nodup.getElem_inj_iff).1 (hie.trans hj2e.symm)
          rw [this]
          exact List.getElem_mem _
        · exfalso
          apply hjm
          rw [s1, List.mem_filterMap] at h
          obtain ⟨p', hp', h6⟩ := h
          rw [hlm, List.mem_filterMap]
          refine ⟨p', hp', ?_⟩
          unfold meanPos
          rw [h6]
          exact foundAt_some.2 p2
    · rw [if_neg hsq] at hy
      have hyz : z = y := Option.some.inj hy
      subst hyz
      refine ⟨List.Sublist.refl _, hzr, ?_, D1, z3, fun _ _ => rfl⟩
      intro j hj hjm
      have hjz : g j ∈ z.axes := by
        rw [z2]; exact List.mem_map.2 ⟨j, List.mem_filter.2 ⟨by simpa using hj, by simpa using hjm⟩, rfl⟩
      constructor
      · intro h; exact absurd hjz h
      · rintro ⟨_, p, hp, p1, p2⟩
        exfalso
        rcases s5 p hp p1 (hasAxis_iff.2 ⟨j, p2⟩) with h | h
        · have : st.squeezes = [] := by
            cases hc : st.squeezes with
            | nil => rfl
            | cons a l => rw [hc] at hsq; simp at hsq
          rw [this] at h; cases h
        · apply hjm
          rw [s1, List.mem_filterMap] at h
          obtain ⟨p', hp', h6⟩ := h
          rw [hlm, List.mem_filterMap]
          refine ⟨p', hp', ?_⟩
          unfold meanPos
          rw [h6]
          exact foundAt_some.2 p2
  obtain ⟨f1, f2, f3, D, f4, f5⟩ := hfin
  set K := (List.range n).filter fun j => decide (g j ∈ y.axes) with hK
  have hyK : y.axes = K.map g := by
    have hsub : y.axes.Sublist x1.axes := f1.trans (by rw [z2, hx1g]; exact List.filter_sublist.map g)
    have h1 := sublist_eq_filter hsub hnd1
    rw [hx1g, List.filter_map] at h1
    exact h1
  refine ⟨S, lm, K, ⟨hsel, hlmn, hlmA, List.pairwise_lt_range.sublist List.filter_sublist, ?_⟩, hkeep, fun _ => ⟨hyK, D, ?_, ?_⟩⟩
  · intro j
    rw [hK, List.mem_filter, List.mem_range, decide_eq_true_eq]
    refine and_congr_right fun hj => ?_
    rw [← hlmA]
    constructor
    · intro hmem
      have hjm : j ∉ lm := by
        have := f1.subset hmem
        rw [z2] at this
        obtain ⟨j2, hj2, he⟩ := List.mem_map.1 this
        have h2 := List.mem_filter.1 hj2
        have : j2 = j := hginj j2 j (by simpa using h2.1) hj he
        rw [← this]; simpa using h2.2
      refine ⟨hjm, fun hs => ?_⟩
      exact (f3 j hj hjm).2 ⟨by rw [hgl j hj]; exact hs.2, hs.1⟩ hmem
    · rintro ⟨hjm, hns⟩
      by_contra hno
      obtain ⟨h1, h2⟩ := (f3 j hj hjm).1 hno
      exact hns ⟨h2, by rw [← hgl j hj]; exact h1⟩
  · rcases f4 with f4 | f4
    · exact f4.shows f2
    · intro junk' I hI hd
      refine read_own nr junk' y D f4 f2 I hI ?_
      intro ind hind h0
      rcases hd ind hind with h1 | ⟨i, hi, _⟩
      · rw [h0] at h1; simp at h1
      · rw [h0] at hi; simp at hi
  · intro pos hpos0
    let posA : Axis → ℕ := fun a => pos (x1.axes.idxOf a)
    have hposA : ∀ j, j < n → posA (g j) = pos j := by
      intro j hj
      show pos (x1.axes.idxOf (g j)) = pos j
      congr 1
      have h1 := hA1 j hj
      obtain ⟨h2, h3⟩ := List.getElem?_eq_some_iff.1 h1
      have h4 : g j = x1.axes[j] := h3.symm
      rw [h4, hnd1.idxOf_getElem j h2]
    have h1 := f5 posA ?_
    · rw [hyK, List.map_map, z2, List.map_map] at h1
      have e1 : K.map (posA ∘ g) = K.map pos := by
        refine List.map_congr_left fun j hj => hposA j ?_
        simpa using (List.mem_filter.1 hj).1
      have e2 : M.map (posA ∘ g) = M.map pos := by
        refine List.map_congr_left fun j hj => hposA j ?_
        simpa using (List.mem_filter.1 hj).1
      rw [e1, e2] at h1
      rw [h1]
      rfl
    · intro a ha hay
      rw [z2] at ha
      obtain ⟨j, hj, rfl⟩ := List.mem_map.1 ha
      have hjn : j < n := by simpa using (List.mem_filter.1 hj).1
      rw [hposA j hjn]
      refine hpos0 j hjn fun hjK => hay ?_
      simpa using (List.mem_filter.1 hjK).2

/-! ### When a call succeeds -/

theorem getSlice_ok (ax : Axis) (kw : List (Name × Arg)) (h : ∀ p ∈ kw, keyMask ax true p.1 p.2 ≠ none) :
    ∃ r, getSlice ax true kw = some r ∧ ∀ q ∈ r.2, q ∈ kw := by
  have h1 : ∀ p ∈ kw, ∃ m, ((keyMask ax true p.1 p.2).map fun m => (p, m)) = some m ∧ m.1 = p := by
    intro p hp
    cases hk : keyMask ax true p.1 p.2 with
    | none => exact absurd hk (h p hp)
    | some m => exact ⟨(p, m), rfl, rfl⟩
  obtain ⟨masks, h2, h3⟩ := Concat.mapM_exists (fun p : Name × Arg => (keyMask ax true p.1 p.2).map fun m => (p, m))
    (fun p m => m.1 = p) kw h1
  have h4 : masks.map Prod.fst = kw := by
    clear h2 h1 h
    induction h3 with
    | nil => rfl
    | cons hm _ ih => rw [List.map_cons, hm, ih]
  unfold getSlice
  simp only [h2, Option.bind_eq_bind, Option.bind_some]
  refine ⟨_, rfl, ?_⟩
  intro q hq
  simp only at hq
  obtain ⟨m, hm, rfl⟩ := List.mem_map.1 hq
  rw [← h4]
  exact List.mem_map.2 ⟨m, (List.mem_filter.1 hm).1, rfl⟩

theorem varSlices_ok : ∀ (axes : List Axis) (kw : List (Name × Arg)), (∀ ax ∈ axes, ∀ p ∈ kw, keyMask ax true p.1 p.2 ≠ none) →
    ∃ r, varSlices axes kw = some r
  | [], kw, _ => ⟨_, rfl⟩
  | ax :: axes, kw, h => by
    obtain ⟨⟨s, kw'⟩, h1, h2⟩ := getSlice_ok ax kw (h ax (by simp))
    obtain ⟨⟨ss, kw''⟩, h3⟩ := varSlices_ok axes kw' fun a ha p hp => h a (by simp [ha]) p (h2 p hp)
    exact ⟨_, by unfold varSlices; rw [h1]; simp only [Option.bind_eq_bind, Option.bind_some, h3]; rfl⟩

theorem args_ok (has : Name → Bool) (ignore : Bool) : ∀ (kw : List (Name × Arg)) (st : State),
    (∀ p ∈ kw, keptB has p.1 = true ∨ ignore = true) → ∃ st', kw.foldlM (step has ignore) st = some st'
  | [], st, _ => ⟨st, rfl⟩
  | p :: kw, st, h => by
    have h1 : ∃ st1, step has ignore st p = some st1 := by
      unfold step
      simp only
      have h2 := h p (by simp)
      split_ifs with c1 c2 c3 c4 <;> first | exact ⟨_, rfl⟩ | skip
      · exfalso
        rcases h2 with h2 | h2
        · simp only [Bool.and_eq_true, decide_eq_true_eq, Bool.not_eq_true'] at c1
          simp [keptB, c1.1, c1.2] at h2
        · exact c2 h2
      · exfalso
        rcases h2 with h2 | h2
        · simp only [Bool.and_eq_true, decide_eq_true_eq, Bool.not_eq_true'] at c3
          have : 's' ∈ (splitKey has p.1).1 := (List.mem_filter.1 c3.1).1
          simp [keptB, this, c3.2] at h2
        · exact c4 h2
    obtain ⟨st1, h1⟩ := h1
    obtain ⟨st', h3⟩ := args_ok has ignore kw st1 fun q hq => h q (by simp [hq])
    exact ⟨st', by rw [List.foldlM_cons, h1]; exact h3⟩

theorem accepts_of_keyMask {ax : Axis} {k : Name} {v : Arg} (h : keyMask ax true k v = none) : Accepts ax k := by
  unfold keyMask at h
  unfold Accepts
  simp only at h ⊢
  by_cases ha : ax.hasAlias (splitKey ax.hasAlias k).2 = true
  · exact Or.inl ha
  right
  by_cases hi : 'i' ∈ (splitKey ax.hasAlias k).1
  · rw [if_pos hi, if_neg ha] at h; simp at h
  · rw [if_neg hi, if_neg ha] at h
    refine ⟨hi, ?_⟩
    cases hl : ax.auxarrays.lookup (splitKey ax.hasAlias k).2 with
    | none => rw [hl] at h; simp at h
    | some vals => exact Ensemble.lookup_mem hl

/-- C95: the call succeeds when every keyword names an axis or an auxiliary array of one (unless mismatches are to be ignored), its value can be
understood by that axis, some position is selected along the axes averaged over, and no axis is to be squeezed by one keyword and averaged
over by another. -/
theorem call_defined (nr : List ℚ → ℚ) (hnr : ∀ l, 0 ≤ nr l) (junk : List ℕ → ℚ) {limit : ℕ} (hlim : 1 ≤ limit) (x : Var ℚ)
    (data : List ℕ → ℚ) (hx : Contains x data) (hr : Regular x.axes) (hrt : ∀ a ∈ x.axes, 0 ≤ a.rtol)
    (hsep : ∀ a ∈ x.axes, Separated a.values)
    (hw : ∀ a ∈ x.axes, ∀ ws, axisWeights a = some ws → ws.length = a.len)
    (ignore : Bool) (kw : List (Name × Arg)) (hnd : (kw.map fun p => stripKey (hasAxis x.axes) p.1).Nodup)
    (hm : kw.Pairwise fun p q => ∀ j, ¬ (Marks x.axes 'm' p.1 j ∧ Marks x.axes 'm' q.1 j))
    (hkeep : ignore = true ∨ ∀ p ∈ kw, Kept x.axes p.1 ∧ ∃ ax ∈ x.axes, Accepts ax (stripKey (hasAxis x.axes) p.1))
    (huse : ∀ p ∈ kw, ∀ ax ∈ x.axes, Accepts ax (stripKey (hasAxis x.axes) p.1) →
      keyMask ax true (stripKey (hasAxis x.axes) p.1) p.2 ≠ none)
    (hpos : ∀ S, Selects x.axes kw S → ∀ j, Averaged x.axes kw j → S.getD j [] ≠ [])
    (hsm : ∀ p ∈ kw, ∀ q ∈ kw, ∀ j, Marks x.axes 's' p.1 j → Marks x.axes 'm' q.1 j → Marks x.axes 'm' p.1 j) :
    ∃ y, call nr junk limit x ignore kw = some y := by
  obtain ⟨st, hst⟩ : ∃ st, args x.axes ignore kw = some st := args_ok _ ignore kw _ fun p hp => by
    rcases hkeep with h | h
    · exact Or.inr h
    · exact Or.inl (keptB_iff.2 (h p hp).1)
  obtain ⟨sl, hsl⟩ := varSlices_ok x.axes st.newargs fun ax hax q hq => by
    obtain ⟨p, hp, _, rfl⟩ := (mem_newArgs hst hnd q).1 hq
    intro h
    exact huse p hp ax hax (accepts_of_keyMask h) h
  obtain ⟨S, hS, hsel⟩ := positions_spec hst hnd hsl
  have hleft : ¬ (decide (sl.2 ≠ []) && !ignore) = true := by
    rcases hkeep with h | h
    · simp [h]
    · have : sl.2 = [] := by
        rw [List.eq_nil_iff_forall_not_mem]
        intro q hq
        obtain ⟨h1, h2⟩ := ((varSlices_correct (ss := sl.1) (left := sl.2) hsl).2.2 q).1 hq
        obtain ⟨p, hp, _, rfl⟩ := (mem_newArgs hst hnd q).1 h1
        obtain ⟨ax, hax, hacc⟩ := (h p hp).2
        exact h2 ax hax hacc
      simp [this]
  have hlmA : ∀ j, j ∈ kw.filterMap (meanPos x.axes) ↔ Averaged x.axes kw j := by
    intro j
    rw [List.mem_filterMap]
    exact ⟨fun ⟨p, hp, h⟩ => ⟨p, hp, meanPos_iff.1 h⟩, fun ⟨p, hp, h⟩ => ⟨p, hp, meanPos_iff.2 h⟩⟩
  obtain ⟨z, z1, z2, z3⟩ := mean_part nr hnr junk hlim x data hx hr hrt hsep hw ignore kw hm st hst S hsel
    fun j hj => hpos S hsel j ((hlmA j).1 hj)
  unfold call
  rw [hst, Option.bind_some, hsl, Option.bind_some, if_neg hleft, hS, Option.bind_some]
  simp only
  rw [z1, Option.bind_some]
  split_ifs with hsq
  · obtain ⟨s1, s2, s3, s4, s5, s6⟩ := steps_spec (hasAxis x.axes) ignore kw _ st hst
    simp only [List.not_mem_nil, false_or] at s3
    have hids : st.squeezes.map AxisId.name ≠ [] := by
      intro e
      rw [List.map_eq_nil_iff] at e
      rw [e] at hsq; simp at hsq
    have hwhich : ∃ req, whichAll z.axes (st.squeezes.map .name) = some req := by
      obtain ⟨req, h1, _⟩ := Concat.mapM_exists (fun a => foundAt (whichaxis z.axes a)) (fun _ _ => True) (st.squeezes.map .name) (by
        intro id hid
        obtain ⟨k, hk, rfl⟩ := List.mem_map.1 hid
        obtain ⟨p, hp, p1, p2, p3, p4⟩ := s3 k hk
        obtain ⟨j, hj⟩ := hasAxis_iff.1 p3
        obtain ⟨hjn, hja⟩ := which_name hj
        have hjm : j ∉ kw.filterMap (meanPos x.axes) := by
          intro hmem
          obtain ⟨q, hq, hqm⟩ := (hlmA j).1 hmem
          exact p4 (hsm p hp q hq j ⟨p1, by rw [p2]; exact hj⟩ hqm).1
        have hmem : ∃ a ∈ z.axes, a.hasAlias k = true := by
          refine ⟨sliceAxis nr (x.axes.getD j ax0) (S.getD j []), ?_, ?_⟩
          · rw [z2]
            exact List.mem_map.2 ⟨j, List.mem_filter.2 ⟨by simpa using hjn, by rw [decide_eq_true_eq]; exact hjm⟩, rfl⟩
          · rw [sliceAxis_hasAlias, List.getD_eq_getElem _ _ hjn]; exact hja
        unfold whichaxis
        simp only
        cases hf : z.axes.findIdx? (fun a => a.hasAlias k) with
        | none =>
          rw [List.findIdx?_eq_none_iff] at hf
          obtain ⟨a, ha, hak⟩ := hmem
          rw [hf a ha] at hak; cases hak
        | some i => exact ⟨i, rfl, trivial⟩)
      exact ⟨req, h1⟩
    obtain ⟨req, hreq⟩ := hwhich
    unfold squeeze squeezeAxes
    rw [if_neg hids, hreq]
    exact ⟨_, rfl⟩
  · exact ⟨z, rfl⟩

/-! ### Examples, and what goes wrong -/

/-- mean over the longitudes from 80 to 200, the time with position 1 (squeezed) -/
def kwEx : List (Name × Arg) := [("m_lon".toList, .seq [some 80, some 200]), ("si_time".toList, .scalar 1)]

theorem lower_alias (a b : Axis) (h : ∀ k ∈ lower a.name :: a.aliases, k ∉ lower b.name :: b.aliases) (k : Name) :
    ¬ (a.hasAlias k = true ∧ b.hasAlias k = true) := by
  rintro ⟨h1, h2⟩
  unfold hasAlias at h1 h2
  simp only [Bool.or_eq_true, decide_eq_true_eq] at h1 h2
  exact h (lower k) (by simpa using h1) (by simpa using h2)

example : OwnNames boxEx.axes := by
  have h : ∀ l : List Axis, (l.Pairwise fun a b => ∀ k ∈ lower a.name :: a.aliases, k ∉ lower b.name :: b.aliases) → OwnNames l :=
    fun l hl => List.Pairwise.imp (fun {a b} h k => lower_alias a b h k) hl
  exact h _ (by decide +kernel)

example : (kwEx.map fun p => stripKey (hasAxis boxEx.axes) p.1) = ["lon".toList, "i_time".toList] ∧
    splitKey (hasAxis boxEx.axes) "m_lon".toList = ("m".toList, "lon".toList) ∧
    hasAxis boxEx.axes "lon".toList = true := by decide +kernel

example : (kwEx.map fun p => stripKey (hasAxis boxEx.axes) p.1).Nodup := by decide +kernel

example : kwEx.Pairwise fun p q => ∀ j, ¬ (Marks boxEx.axes 'm' p.1 j ∧ Marks boxEx.axes 'm' q.1 j) := by
  have h : 'm' ∉ (splitKey (hasAxis boxEx.axes) "si_time".toList).1 := by decide +kernel
  simp only [kwEx, List.pairwise_cons, List.mem_singleton, forall_eq, List.not_mem_nil, false_imp_iff, implies_true, List.Pairwise.nil,
    and_true]
  exact fun j hj => h hj.2.1

/-- the mean over the longitudes 90 and 180 (weights 2 and 3) at time 1 is 8/5 more than the first value of the row; the axes of times and
longitudes are gone -/
example : ((call (fun _ => 0) (fun _ => 7) 3 boxEx false kwEx).bind fun y =>
    (y.read (fun _ => 0) (fun _ => 7) ⟨y.axes, [[2, 0]]⟩).map fun r => (r.shape, [[0], [1]].map r.get)) =
    some ([2], [210 + 8 / 5, 10 + 8 / 5]) := by decide +kernel

/-- a keyword for no axis is refused, or ignored if so requested -/
example : (call (fun _ => 0) (fun _ => 7) 3 boxEx false [("m_depth".toList, .scalar 1)]).isNone = true ∧
    ((call (fun _ => 0) (fun _ => 7) 3 boxEx true [("m_depth".toList, .scalar 1)]).map Var.axes) = some boxEx.axes := by decide +kernel

/-- C95, violated: the order of the keywords matters. Squeezing the longitudes by one keyword and averaging over them by another works when the
mean is asked for first, and raises an exception when it is asked for last. -/
theorem order_violated :
    (call (fun _ => 0) (fun _ => 7) 3 boxEx false [("m_lon".toList, .seq [some 80, some 200]), ("si_lon".toList, .scalar 1)]).isSome = true ∧
    (call (fun _ => 0) (fun _ => 7) 3 boxEx false [("si_lon".toList, .scalar 1), ("m_lon".toList, .seq [some 80, some 200])]).isNone = true := by
  decide +kernel

end Call
end PyGeode
