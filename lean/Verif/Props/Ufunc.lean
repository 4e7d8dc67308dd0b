/-
Property C34: arithmetic on variables (`combine_axes`, /repo/pygeode/tools.py:180-264; `UfuncVar.getview`,
/repo/pygeode/ufunc.py:87-107).
-/
import Verif.Props.Combine

namespace PyGeode
namespace Combine
open Spec NArr Axis

/-! ### axes that are identical or unrelated -/

/-- Any two axes at hand are the same axis or of unrelated classes (two longitude axes of one computation are the same
axis). -/
def _root_.PyGeode.Spec.Clean (axs : List Axis) : Prop :=
  (∀ a ∈ axs, a.classes ≠ []) ∧ ∀ a ∈ axs, ∀ b ∈ axs, a = b ∨ compatible a b = false

theorem _root_.PyGeode.Spec.Clean.axEq {axs : List Axis} (h : Clean axs) {a b : Axis} (ha : a ∈ axs) (hb : b ∈ axs) :
    axEq a b = decide (a = b) := by
  by_cases hab : a = b
  · subst hab; simp [Axis.axEq]
  · rcases h.2 a ha b hb with h' | h'
    · exact absurd h' hab
    · simp [Axis.axEq, hab, isEquivalent, h']

theorem _root_.PyGeode.Spec.Clean.canMap {axs : List Axis} (h : Clean axs) {a b : Axis} (ha : a ∈ axs) (hb : b ∈ axs) :
    canMap a b = some (if a = b then some a else none) := by
  by_cases hab : a = b
  · subst hab
    have hp : isParentOf a a = true := by
      have := h.1 a ha
      cases hcl : a.classes with
      | nil => exact absurd hcl this
      | cons c cs => simp [isParentOf, hcl]
    simp [Combine.canMap, hp, Axis.axEq]
  · rcases h.2 a ha b hb with h' | h'
    · exact absurd h' hab
    · have h1 : isParentOf a b = false := by
        unfold compatible at h'; rw [Bool.or_eq_false_iff] at h'; exact h'.1
      have h2 : isParentOf b a = false := by
        unfold compatible at h'; rw [Bool.or_eq_false_iff] at h'; exact h'.2
      simp [Combine.canMap, h1, h2, hab]

theorem _root_.PyGeode.Spec.Clean.insertAxis {axs : List Axis} (h : Clean axs) {a : Axis} (ha : a ∈ axs) : ∀ {out : List Axis},
    (∀ b ∈ out, b ∈ axs) → insertAxis a out = some (if a ∈ out then out else out ++ [a])
  | [], _ => by simp [Combine.insertAxis]
  | o :: os, ho => by
    unfold Combine.insertAxis
    rw [h.canMap ha (ho o (by simp))]
    by_cases hao : a = o
    · subst hao; simp
    · rw [if_neg hao]
      simp only
      rw [h.insertAxis ha (fun b hb => ho b (by simp [hb]))]
      by_cases hm : a ∈ os
      · simp [hm]
      · simp [hm, hao]

/-- C34, axes: the combined axes are exactly the axes of the operands, each once; if one operand has them all, in
that operand's order. -/
theorem combineAxes_clean (lists : List (List Axis)) (hcl : Clean lists.flatten) (hnd : ∀ A ∈ lists, A.Nodup) :
    ∃ R, combineAxes lists = some R ∧ R.Nodup ∧ (∀ a, a ∈ R ↔ ∃ A ∈ lists, a ∈ A) ∧
      ((∃ A ∈ lists, ∀ B ∈ lists, ∀ b ∈ B, b ∈ A) → R ∈ lists) := by
  have hfold : ∀ (l out : List Axis), (∀ a ∈ l, a ∈ lists.flatten) → (∀ a ∈ out, a ∈ lists.flatten) → out.Nodup →
      ∃ R, l.foldl (fun (out : Option (List Axis)) (a : Axis) => out.bind (insertAxis a)) (some out) = some R ∧
        R.Nodup ∧ ∀ a, a ∈ R ↔ a ∈ out ∨ a ∈ l := by
    intro l
    induction l with
    | nil => intro out _ _ hn; exact ⟨out, rfl, hn, by simp⟩
    | cons a l ih =>
      intro out hl ho hn
      rw [List.foldl_cons, Option.bind_some, hcl.insertAxis (hl a (by simp)) ho]
      by_cases hm : a ∈ out
      · rw [if_pos hm]
        obtain ⟨R, h1, h2, h3⟩ := ih out (fun b hb => hl b (by simp [hb])) ho hn
        refine ⟨R, h1, h2, fun b => ?_⟩
        rw [h3]
        simp only [List.mem_cons]
        constructor
        · rintro (h | h) <;> simp [h]
        · rintro (h | rfl | h) <;> simp_all
      · rw [if_neg hm]
        obtain ⟨R, h1, h2, h3⟩ := ih (out ++ [a]) (fun b hb => hl b (by simp [hb])) (by
          intro b hb
          rcases List.mem_append.1 hb with hb | hb
          · exact ho b hb
          · rw [List.mem_singleton.1 hb]; exact hl a (by simp)) (by
          refine List.Nodup.append hn (by simp) ?_
          simpa using hm)
        refine ⟨R, h1, h2, fun b => ?_⟩
        rw [h3]
        simp only [List.mem_append, List.mem_cons, List.not_mem_nil, or_false]
        tauto
  unfold combineAxes
  split
  · next A =>
    refine ⟨A, rfl, hnd A (by simp), by simp, fun _ => by simp⟩
  · obtain ⟨out, h1, h2, h3⟩ := hfold lists.flatten [] (fun a ha => ha) (by simp) (by simp)
    have h3' : ∀ a, a ∈ out ↔ ∃ A ∈ lists, a ∈ A := by
      intro a; rw [h3]; simp [List.mem_flatten]
    have hsub : ∀ a, a ∈ out → a ∈ lists.flatten := fun a ha => by
      rw [h3] at ha; simpa using ha
    have helem : ∀ A ∈ lists, ((out.all fun outa => elem outa A) = true ↔ ∀ o ∈ out, o ∈ A) := by
      intro A hA
      rw [List.all_eq_true]
      refine forall₂_congr fun o ho => ?_
      unfold elem
      rw [List.any_eq_true]
      constructor
      · rintro ⟨e, he, h⟩
        rw [hcl.axEq (List.mem_flatten.2 ⟨A, hA, he⟩) (hsub o ho)] at h
        have : e = o := by simpa using h
        rwa [← this]
      · intro h
        exact ⟨o, h, by simp [Axis.axEq]⟩
    have hout : outAxes lists = some out := h1
    rw [hout]
    simp only [Option.map_some]
    cases hf : lists.find? (fun A => out.all fun outa => elem outa A) with
    | none =>
      refine ⟨out, rfl, h2, h3', ?_⟩
      rintro ⟨A, hA, hall⟩
      rw [List.find?_eq_none] at hf
      refine absurd ((helem A hA).2 ?_) (hf A hA)
      intro o ho
      obtain ⟨B, hB, hb⟩ := (h3' o).1 ho
      exact hall B hB o hb
    | some A =>
      have hA := List.mem_of_find?_eq_some hf
      have hp : (out.all fun outa => elem outa A) = true := by
        have := List.find?_some hf
        simpa using this
      rw [helem A hA] at hp
      refine ⟨A, rfl, hnd A hA, fun a => ?_, fun _ => hA⟩
      constructor
      · intro ha; exact ⟨A, hA, ha⟩
      · rintro ⟨B, hB, ha⟩
        exact hp a ((h3' a).2 ⟨B, hB, ha⟩)

/-! ### broadcasting -/

/-- What a list of operands holds: the numbers, and the contents of the variables. -/
inductive _root_.PyGeode.Spec.Holds {α : Type} : Operand α → (List Axis × (List ℕ → α)) → Prop
  | scalar (c : α) : Holds (.scalar c) ([], fun _ => c)
  | var (axes : List Axis) (src : View.Source Axis α) (data : List ℕ → α)
      (h : Serves data axes (axes.map Axis.len) src) : Holds (.var axes src) (axes, data)

/-- Broadcasting arrays that have, along each axis, the full length or length one. -/
theorem broadcast_spec {α β : Type} (op : List α → β) (lens : List ℕ) (args : List (NArr α)) (cov : List (List Bool))
    (hsh : List.Forall₂ (fun (a : NArr α) (c : List Bool) => c.length = lens.length ∧
      a.shape = List.zipWith (fun (n : ℕ) (b : Bool) => if b then n else 1) lens c) args cov)
    (hcov : ∀ i < lens.length, ∃ c ∈ cov, c.getD i false = true) :
    ∃ r, broadcast op lens.length args = some r ∧ r.shape = lens ∧
      ∀ k, r.get k = op (args.map fun a => a.get (bindex a.shape k)) := by
  have hget : ∀ a ∈ args, ∃ c ∈ cov, ∀ i < lens.length,
      a.shape.getD i 1 = if c.getD i false then lens.getD i 0 else 1 := by
    intro a ha
    obtain ⟨i, hi, rfl⟩ := List.getElem_of_mem ha
    have hl := hsh.length_eq
    rw [List.forall₂_iff_get] at hsh
    have := hsh.2 i hi (by omega)
    simp only [List.get_eq_getElem] at this
    refine ⟨cov[i], List.getElem_mem _, fun j hj => ?_⟩
    rw [this.2, List.getD_eq_getElem _ _ (by rw [List.length_zipWith]; omega), List.getElem_zipWith,
      List.getD_eq_getElem _ _ (by omega), List.getD_eq_getElem _ _ hj]
  have hget' : ∀ c ∈ cov, ∃ a ∈ args, ∀ i < lens.length,
      a.shape.getD i 1 = if c.getD i false then lens.getD i 0 else 1 := by
    intro c hc
    obtain ⟨i, hi, rfl⟩ := List.getElem_of_mem hc
    have hl := hsh.length_eq
    rw [List.forall₂_iff_get] at hsh
    have := hsh.2 i (by omega) hi
    simp only [List.get_eq_getElem] at this
    refine ⟨args[i], List.getElem_mem _, fun j hj => ?_⟩
    rw [this.2, List.getD_eq_getElem _ _ (by rw [List.length_zipWith]; omega), List.getElem_zipWith,
      List.getD_eq_getElem _ _ (by omega), List.getD_eq_getElem _ _ hj]
  have hdim : ∀ i < lens.length, bdim (args.map NArr.shape) i = lens.getD i 0 := by
    intro i hi
    obtain ⟨c, hc, hci⟩ := hcov i hi
    obtain ⟨a, ha, hai⟩ := hget' c hc
    have hai' := hai i hi
    rw [hci, if_pos rfl] at hai'
    unfold bdim
    rw [List.map_map]
    by_cases h1 : lens.getD i 0 = 1
    · rw [h1]
      cases hf : (args.map ((fun s : List ℕ => s.getD i 1) ∘ NArr.shape)).find? (fun n => decide (n ≠ 1)) with
      | none => rfl
      | some n =>
        exfalso
        have hm := List.mem_of_find?_eq_some hf
        have hn := List.find?_some hf
        obtain ⟨b, hb, rfl⟩ := List.mem_map.1 hm
        obtain ⟨c', _, hb'⟩ := hget b hb
        have := hb' i hi
        rw [h1] at this
        simp only [ite_self] at this
        simp only [Function.comp_apply, decide_eq_true_eq] at hn
        exact hn this
    · cases hf : (args.map ((fun s : List ℕ => s.getD i 1) ∘ NArr.shape)).find? (fun n => decide (n ≠ 1)) with
      | none =>
        exfalso
        rw [List.find?_eq_none] at hf
        have := hf (a.shape.getD i 1) (List.mem_map.2 ⟨a, ha, rfl⟩)
        rw [hai'] at this
        exact this (by simpa using h1)
      | some n =>
        have hm := List.mem_of_find?_eq_some hf
        have hn := List.find?_some hf
        obtain ⟨b, hb, rfl⟩ := List.mem_map.1 hm
        obtain ⟨c', _, hb'⟩ := hget b hb
        have := hb' i hi
        simp only [Function.comp_apply, decide_eq_true_eq] at hn ⊢
        rw [Option.getD_some]
        rw [this] at hn ⊢
        split_ifs at hn ⊢ with h
        · rfl
        · exact absurd rfl hn
  have hok : ((List.range lens.length).all fun i => (args.map NArr.shape).all fun s =>
      decide (s.getD i 1 = 1) || decide (s.getD i 1 = bdim (args.map NArr.shape) i)) = true := by
    rw [List.all_eq_true]
    intro i hi
    rw [List.mem_range] at hi
    rw [List.all_eq_true]
    intro s hs
    obtain ⟨a, ha, rfl⟩ := List.mem_map.1 hs
    obtain ⟨c, _, hc⟩ := hget a ha
    rw [hc i hi, hdim i hi]
    split_ifs <;> simp
  refine ⟨{ shape := (List.range lens.length).map (bdim (args.map NArr.shape)),
            get := fun k => op (args.map fun a => a.get (bindex a.shape k)) }, ?_, ?_, fun k => rfl⟩
  · unfold broadcast
    exact if_pos hok
  · refine List.ext_getElem (by simp) fun i hi hi' => ?_
    rw [List.getElem_map, List.getElem_range, hdim i hi', List.getD_eq_getElem _ _ hi']

/-- position requested along axis `a` for the cell `k` of a view of the axes `R` -/
def _root_.PyGeode.Spec.posOf (R : List Axis) (I : List (List ℕ)) (k : List ℕ) (a : Axis) : ℕ :=
  (I.getD (R.idxOf a) []).getD (k.getD (R.idxOf a) 0) 0

theorem map_posOf (B : List Axis) (I : List (List ℕ)) (k : List ℕ) (hn : B.Nodup) (hl : B.length = I.length)
    (hk : k.length = I.length) : B.map (posOf B I k) = cell I k := by
  unfold cell
  refine List.ext_getElem (by simp [hl, hk]) fun o ho ho' => ?_
  have hoB : o < B.length := by simpa using ho
  rw [List.getElem_map, List.getElem_zipWith]
  unfold posOf
  rw [hn.idxOf_getElem o hoB, List.getD_eq_getElem I _ (by omega), List.getD_eq_getElem k _ (by omega)]

/-- one operand read on the combined axes -/
theorem operand_read {α : Type} (nr : List ℚ → ℚ) (junk : List ℕ → α) (R : List Axis) (I : List (List ℕ))
    (hR : Clean R) (hnd : R.Nodup) (hI : InRange (R.map Axis.len) I) (hne : ∀ ind ∈ I, ind ≠ [])
    (o : Operand α) (h : List Axis × (List ℕ → α)) (hh : Holds o h) (hsub : ∀ a ∈ h.1, a ∈ R) (hnd' : h.1.Nodup) :
    ∃ arr : NArr α, o.read nr junk ⟨R, I⟩ = some arr ∧
    arr.shape = List.zipWith (fun (n : ℕ) (b : Bool) => if b then n else 1) (I.map List.length) (R.map fun a => decide (a ∈ h.1)) ∧
    ∀ k, InBounds (I.map List.length) k → arr.get (bindex arr.shape k) = h.2 (h.1.map (posOf R I k)) := by
  have hlen : R.length = I.length := by
    have := hI.length_eq
    simpa using this.symm
  cases hh with
  | scalar c =>
    refine ⟨{ shape := R.map fun _ => 1, get := fun _ => c }, rfl, ?_, fun k _ => rfl⟩
    refine List.ext_getElem (by simp [hlen]) fun i hi hi' => ?_
    simp
  | var axes src data hs =>
    obtain ⟨r, h1, h2, h3⟩ := get_shared_axes_eqv Axis.axEq (Axis.viewMapAx nr) Axis.len junk ⟨R, I⟩ axes src data hlen
      hnd hnd' hsub hI (fun a ha b hb => hR.axEq (hsub a ha) hb) hne hs
    have h4 : r.shape = List.zipWith (fun (n : ℕ) (b : Bool) => if b then n else 1) (I.map List.length)
        (R.map fun a => decide (a ∈ axes)) := by
      rw [h2]
      refine List.ext_getElem (by simp [hlen]) fun i hi hi' => ?_
      simp
    refine ⟨r, h1, h4, fun k hk => ?_⟩
    obtain ⟨hkl, hkb⟩ := inBounds_iff.1 hk
    rw [List.length_map] at hkl
    have hrl : r.shape.length = I.length := by rw [h4]; simp [hlen]
    have hb : InBounds r.shape (bindex r.shape k) := by
      rw [inBounds_iff]
      refine ⟨by simp [bindex, hrl, hkl], fun i hi => ?_⟩
      have hiI : i < I.length := by omega
      rw [List.getD_eq_getElem _ _ (by simp only [bindex, List.length_zipWith]; omega), List.getD_eq_getElem _ _ hi]
      simp only [bindex, List.getElem_zipWith]
      split_ifs with e
      · omega
      · have := hkb i (by simpa using hiI)
        rw [List.getD_eq_getElem (I.map List.length) _ (by simpa using hiI), List.getD_eq_getElem k _ (by omega)] at this
        have hx : r.shape[i] = (I.map List.length)[i]'(by simpa using hiI) := by
          have : r.shape[i] = (List.zipWith (fun (n : ℕ) (b : Bool) => if b then n else 1) (I.map List.length)
            (R.map fun a => decide (a ∈ axes)))[i]'(by rw [← h4]; exact hi) := by simp only [h4]
          rw [List.getElem_zipWith] at this
          split_ifs at this
          · exact this
          · exact absurd this e
        omega
    rw [h3 _ hb]
    congr 1
    refine List.map_congr_left fun a ha => ?_
    unfold posOf
    congr 1
    have haR := hsub a ha
    have hidx : R.idxOf a < R.length := List.idxOf_lt_length_of_mem haR
    have hiI : R.idxOf a < I.length := by omega
    rw [List.getD_eq_getElem _ _ (by simp only [bindex, List.length_zipWith]; omega), List.getD_eq_getElem k _ (by omega)]
    simp only [bindex, List.getElem_zipWith]
    split_ifs with e
    · have := hkb (R.idxOf a) (by simpa using hiI)
      rw [List.getD_eq_getElem (I.map List.length) _ (by simpa using hiI), List.getD_eq_getElem k _ (by omega)] at this
      have hx : r.shape[R.idxOf a]'(by omega) = (I.map List.length)[R.idxOf a]'(by simpa using hiI) := by
        have : r.shape[R.idxOf a]'(by omega) = (List.zipWith (fun (n : ℕ) (b : Bool) => if b then n else 1)
          (I.map List.length) (R.map fun a => decide (a ∈ axes)))[R.idxOf a]'(by rw [← h4]; omega) := by simp only [h4]
        rw [List.getElem_zipWith] at this
        rw [this, if_pos]
        simp [ha]
      omega
    · rfl

/-- C34: an element by element operation on numbers and variables (whose axes are pairwise identical or unrelated)
gives, for every request on the combined axes, an array of the requested shape that holds at each cell the operation
applied to the numbers and to each variable's value at that variable's own coordinates, whatever the order in which the
operands list their axes. -/
theorem ufunc_correct {α β : Type} (op : List α → β) (nr : List ℚ → ℚ) (junk : List ℕ → α) (args : List (Operand α))
    (held : List (List Axis × (List ℕ → α))) (hh : List.Forall₂ Holds args held)
    (hcl : Clean (held.map Prod.fst).flatten) (hnd : ∀ h ∈ held, h.1.Nodup)
    (R : List Axis) (hR : ufuncAxes args = some R)
    (I : List (List ℕ)) (hI : InRange (R.map Axis.len) I) (hne : ∀ ind ∈ I, ind ≠ []) :
    ∃ r, ufuncView op nr junk args ⟨R, I⟩ = some r ∧ r.shape = I.map List.length ∧
      ∀ k, InBounds r.shape k → r.get k = op (held.map fun h => h.2 (h.1.map (posOf R I k))) := by
  -- the axes of the operands
  have hax : ∀ A ∈ args.filterMap Operand.axes?, ∃ h ∈ held, h.1 = A := by
    intro A hA
    obtain ⟨o, ho, hoA⟩ := List.mem_filterMap.1 hA
    obtain ⟨i, hi, rfl⟩ := List.getElem_of_mem ho
    have hl := hh.length_eq
    rw [List.forall₂_iff_get] at hh
    have hq := hh.2 i hi (by omega)
    simp only [List.get_eq_getElem] at hq
    refine ⟨held[i], List.getElem_mem _, ?_⟩
    revert hoA
    generalize args[i] = o at hq
    generalize held[i] = h at hq
    intro hoA
    cases hq with
    | scalar c => simp [Operand.axes?] at hoA
    | var axes src data hs => simpa [Operand.axes?] using hoA
  have hax' : ∀ h ∈ held, ∀ a ∈ h.1, ∃ A ∈ args.filterMap Operand.axes?, a ∈ A := by
    intro h hm a ha
    obtain ⟨i, hi, rfl⟩ := List.getElem_of_mem hm
    have hl := hh.length_eq
    rw [List.forall₂_iff_get] at hh
    have hq := hh.2 i (by omega) hi
    simp only [List.get_eq_getElem] at hq
    have hmem : args[i]'(by omega) ∈ args := List.getElem_mem _
    revert ha hmem
    generalize args[i]'(by omega) = o at hq
    generalize held[i] = h at hq
    intro ha hmem
    cases hq with
    | scalar c => simp at ha
    | var axes src data hs => exact ⟨axes, List.mem_filterMap.2 ⟨_, hmem, rfl⟩, ha⟩
  have hflat : ∀ a ∈ (args.filterMap Operand.axes?).flatten, a ∈ (held.map Prod.fst).flatten := by
    intro a ha
    obtain ⟨A, hA, ha⟩ := List.mem_flatten.1 ha
    obtain ⟨h, hm, rfl⟩ := hax A hA
    exact List.mem_flatten.2 ⟨_, List.mem_map_of_mem hm, ha⟩
  have hcl' : Clean (args.filterMap Operand.axes?).flatten :=
    ⟨fun a ha => hcl.1 a (hflat a ha), fun a ha b hb => hcl.2 a (hflat a ha) b (hflat b hb)⟩
  obtain ⟨R', hR', hRn, hRm, hlast⟩ := combineAxes_clean _ hcl' (fun A hA => by
    obtain ⟨h, hm, rfl⟩ := hax A hA
    exact hnd h hm)
  clear hlast
  have hRR : R' = R := by
    have : some R' = some R := hR'.symm.trans hR
    simpa using this
  subst hRR
  have hRflat : ∀ a ∈ R', a ∈ (held.map Prod.fst).flatten := by
    intro a ha
    obtain ⟨A, hA, ha⟩ := (hRm a).1 ha
    exact hflat a (List.mem_flatten.2 ⟨A, hA, ha⟩)
  have hRcl : Clean R' := ⟨fun a ha => hcl.1 a (hRflat a ha), fun a ha b hb => hcl.2 a (hRflat a ha) b (hRflat b hb)⟩
  have hlen : R'.length = I.length := by
    have := hI.length_eq
    simpa using this.symm
  -- the arrays
  have harr : ∃ arrs : List (NArr α), args.mapM (Operand.read nr junk ⟨R', I⟩) = some arrs ∧
      List.Forall₂ (fun (arr : NArr α) (h : List Axis × (List ℕ → α)) =>
        arr.shape = List.zipWith (fun (n : ℕ) (b : Bool) => if b then n else 1) (I.map List.length)
          (R'.map fun a => decide (a ∈ h.1)) ∧
        ∀ k, InBounds (I.map List.length) k → arr.get (bindex arr.shape k) = h.2 (h.1.map (posOf R' I k))) arrs held := by
    have hsub : ∀ h ∈ held, ∀ a ∈ h.1, a ∈ R' := fun h hm a ha => (hRm a).2 (hax' h hm a ha)
    clear hax hax' hflat hcl' hRm hR hR' hcl hRflat
    induction hh with
    | nil => exact ⟨[], rfl, .nil⟩
    | cons hq _ ih =>
      rename_i o h os hs _
      obtain ⟨arr, g1, g2, g3⟩ := operand_read nr junk R' I hRcl hRn hI hne o h hq (hsub h (by simp)) (hnd h (by simp))
      obtain ⟨arrs, e1, e2⟩ := ih (fun h hm => hnd h (by simp [hm])) (fun h hm => hsub h (by simp [hm]))
      refine ⟨arr :: arrs, ?_, .cons ⟨g2, g3⟩ e2⟩
      rw [List.mapM_cons, g1, e1]
      rfl
  obtain ⟨arrs, ha1, ha2⟩ := harr
  have hb := broadcast_spec op (I.map List.length) arrs (held.map fun h => R'.map fun a => decide (a ∈ h.1)) (by
    rw [List.forall₂_map_right_iff]
    exact ha2.imp fun arr h hq => ⟨by simp [hlen], hq.1⟩) (by
    intro i hi
    have hiR : i < R'.length := by simp only [List.length_map] at hi; omega
    obtain ⟨A, hA, ha⟩ := (hRm R'[i]).1 (List.getElem_mem hiR)
    obtain ⟨h, hm, rfl⟩ := hax A hA
    refine ⟨_, List.mem_map_of_mem hm, ?_⟩
    rw [List.getD_eq_getElem _ _ (by simpa using hiR)]
    simpa using ha)
  obtain ⟨r, h1, h2, h3⟩ := hb
  refine ⟨r, ?_, h2, fun k hk => ?_⟩
  · have : R'.length = (I.map List.length).length := by simp [hlen]
    unfold ufuncView
    rw [ha1, Option.bind_some]
    change broadcast op R'.length arrs = some r
    rw [this]
    exact h1
  · rw [h3 k]
    congr 1
    rw [h2] at hk
    have hmap : ∀ {as : List (NArr α)} {hs : List (List Axis × (List ℕ → α))},
        List.Forall₂ (fun (arr : NArr α) (h : List Axis × (List ℕ → α)) =>
          arr.shape = List.zipWith (fun (n : ℕ) (b : Bool) => if b then n else 1) (I.map List.length)
            (R'.map fun a => decide (a ∈ h.1)) ∧
          ∀ k, InBounds (I.map List.length) k → arr.get (bindex arr.shape k) = h.2 (h.1.map (posOf R' I k))) as hs →
        (as.map fun a => a.get (bindex a.shape k)) = hs.map fun h => h.2 (h.1.map (posOf R' I k)) := by
      intro as hs h
      induction h with
      | nil => rfl
      | cons hq _ ih => rw [List.map_cons, List.map_cons, hq.2 k hk, ih]
    exact hmap ha2

/-- C34: swapping the operands of a commutative operation does not change the value at any coordinate: for cells that
ask for the same position along every axis the two results agree. -/
theorem ufunc_comm {α β : Type} (op : List α → β) (hop : ∀ x y, op [x, y] = op [y, x]) (nr : List ℚ → ℚ)
    (junk : List ℕ → α) (o1 o2 : Operand α) (h1 h2 : List Axis × (List ℕ → α)) (hh1 : Holds o1 h1) (hh2 : Holds o2 h2)
    (hcl : Clean (h1.1 ++ h2.1)) (hnd1 : h1.1.Nodup) (hnd2 : h2.1.Nodup)
    (R R' : List Axis) (hR : ufuncAxes [o1, o2] = some R) (hR' : ufuncAxes [o2, o1] = some R')
    (I I' : List (List ℕ)) (hI : InRange (R.map Axis.len) I) (hne : ∀ ind ∈ I, ind ≠ [])
    (hI' : InRange (R'.map Axis.len) I') (hne' : ∀ ind ∈ I', ind ≠ []) :
    ∃ r r', ufuncView op nr junk [o1, o2] ⟨R, I⟩ = some r ∧ ufuncView op nr junk [o2, o1] ⟨R', I'⟩ = some r' ∧
      ∀ k k', InBounds r.shape k → InBounds r'.shape k' →
        (∀ a ∈ h1.1 ++ h2.1, posOf R I k a = posOf R' I' k' a) → r.get k = r'.get k' := by
  obtain ⟨r, e1, _, e3⟩ := ufunc_correct op nr junk [o1, o2] [h1, h2] (.cons hh1 (.cons hh2 .nil)) (by simpa using hcl)
    (by simp [hnd1, hnd2]) R hR I hI hne
  have hcl2 : Clean (h2.1 ++ h1.1) :=
    ⟨fun a ha => hcl.1 a (by simpa [or_comm] using ha),
     fun a ha b hb => hcl.2 a (by simpa [or_comm] using ha) b (by simpa [or_comm] using hb)⟩
  obtain ⟨r', e1', _, e3'⟩ := ufunc_correct op nr junk [o2, o1] [h2, h1] (.cons hh2 (.cons hh1 .nil)) (by simpa using hcl2)
    (by simp [hnd1, hnd2]) R' hR' I' hI' hne'
  refine ⟨r, r', e1, e1', fun k k' hk hk' hpos => ?_⟩
  rw [e3 k hk, e3' k' hk']
  simp only [List.map_cons, List.map_nil]
  rw [hop]
  have p1 : h1.1.map (posOf R I k) = h1.1.map (posOf R' I' k') :=
    List.map_congr_left fun a ha => hpos a (by simp [ha])
  have p2 : h2.1.map (posOf R I k) = h2.1.map (posOf R' I' k') :=
    List.map_congr_left fun a ha => hpos a (by simp [ha])
  rw [p1, p2]

/-! ### a variable and a subset of its grid -/

/-- `can_map` of a slice of an axis and the axis gives the slice. -/
theorem canMap_slice (nr : List ℚ → ℚ) (a : Axis) (s : List ℕ) (hc : a.classes ≠ []) (hs : ∀ i ∈ s, i < a.len)
    (hr : 0 ≤ a.rtol) (hsep : Separated a.values) :
    canMap (sliceAxis nr a s) a = some (some (sliceAxis nr a s)) := by
  have hcl := sliceAxis_classes nr a s
  have hp : isParentOf (sliceAxis nr a s) a = true := by
    cases h : a.classes with
    | nil => exact absurd h hc
    | cons c cs => simp [isParentOf, hcl, h]
  have hatt : (sliceAxis nr a s).auxatts = a.auxatts := by
    unfold sliceAxis
    simp only
    split_ifs <;> rfl
  have hm := axisMapTo_slice a (sliceAxis nr a s) s hc hcl (sliceAxis_values nr a s) hs hr hsep
  have hl : s.length = (sliceAxis nr a s).len := by
    unfold len; rw [sliceAxis_values, List.length_map]
  unfold canMap
  simp only [hp, Bool.not_true, Bool.false_and, Bool.false_eq_true, if_false, if_true]
  split_ifs with h1 h2 h3
  · rfl
  · exfalso
    rw [hatt] at h2
    simp at h2
  · rfl
  all_goals
    exfalso
    rw [hm] at h3
    simp [hl] at h3

theorem insertAxis_skip (a : Axis) : ∀ (pre rest : List Axis), (∀ p ∈ pre, compatible a p = false) →
    insertAxis a (pre ++ rest) = (insertAxis a rest).map (pre ++ ·)
  | [], rest, _ => by simp
  | p :: pre, rest, h => by
    have hp := h p (by simp)
    unfold compatible at hp
    rw [Bool.or_eq_false_iff] at hp
    have : canMap a p = some none := by simp [canMap, hp.1, hp.2]
    have hstep : insertAxis a (p :: (pre ++ rest)) = (insertAxis a (pre ++ rest)).map (p :: ·) := by
      conv_lhs => unfold insertAxis
      rw [this]
    rw [List.cons_append, hstep, insertAxis_skip a pre rest (fun q hq => h q (by simp [hq])), Option.map_map]
    rfl

private theorem compatible_comm (a b : Axis) : compatible a b = compatible b a := by
  simp [compatible, Bool.or_comm]

private theorem compatible_classes {a b c d : Axis} (h1 : a.classes = c.classes) (h2 : b.classes = d.classes) :
    compatible a b = compatible c d := by
  simp [compatible, isParentOf, h1, h2]

/-- The axes of a combination of a variable with a slice of its grid are the axes of the slice. -/
theorem combineAxes_slice (nr : List ℚ → ℚ) (A : List Axis) (S : List (List ℕ)) (hS : InRange (A.map Axis.len) S)
    (hcl : ∀ a ∈ A, a.classes ≠ []) (hrt : ∀ a ∈ A, 0 ≤ a.rtol) (hsep : ∀ a ∈ A, Separated a.values)
    (hinc : A.Pairwise fun a b => compatible a b = false) :
    combineAxes [A, List.zipWith (sliceAxis nr) A S] = some (List.zipWith (sliceAxis nr) A S) := by
  set B := List.zipWith (sliceAxis nr) A S with hB
  have hA : ∀ (pre rest : List Axis), (pre ++ rest).Pairwise (fun a b => compatible a b = false) →
      rest.foldl (fun (out : Option (List Axis)) (a : Axis) => out.bind (insertAxis a)) (some pre) = some (pre ++ rest) := by
    intro pre rest
    induction rest generalizing pre with
    | nil => intro _; simp
    | cons a rest ih =>
      intro hp
      rw [List.foldl_cons, Option.bind_some]
      have : insertAxis a pre = some (pre ++ [a]) := by
        have h0 := insertAxis_skip a pre [] (fun p hm => by
          rw [compatible_comm]
          exact (List.pairwise_append.1 hp).2.2 p hm a (by simp))
        simpa [insertAxis] using h0
      rw [this, ih (pre ++ [a]) (by simpa using hp)]
      simp
  have hfold : ∀ (A : List Axis) (S : List (List ℕ)) (pre : List Axis), InRange (A.map Axis.len) S →
      (∀ a ∈ A, a.classes ≠ []) → (∀ a ∈ A, 0 ≤ a.rtol) → (∀ a ∈ A, Separated a.values) →
      (pre ++ A).Pairwise (fun a b => compatible a b = false) →
      (List.zipWith (sliceAxis nr) A S).foldl (fun (out : Option (List Axis)) (a : Axis) => out.bind (insertAxis a))
        (some (pre ++ A)) = some (pre ++ List.zipWith (sliceAxis nr) A S) := by
    intro A
    induction A with
    | nil => intro S pre _ _ _ _ _; simp
    | cons a A ih =>
      intro S pre hS hcl hrt hsep hp
      cases S with
      | nil => simp [InRange] at hS
      | cons s S =>
        unfold InRange at hS
        rw [List.map_cons, List.forall₂_cons] at hS
        rw [List.zipWith_cons_cons, List.foldl_cons, Option.bind_some]
        have hcomp : ∀ p ∈ pre, compatible (sliceAxis nr a s) p = false := fun p hm => by
          rw [compatible_comm, compatible_classes rfl (sliceAxis_classes nr a s)]
          exact (List.pairwise_append.1 hp).2.2 p hm a (by simp)
        have : insertAxis (sliceAxis nr a s) (pre ++ a :: A) = some (pre ++ sliceAxis nr a s :: A) := by
          rw [insertAxis_skip _ pre _ hcomp]
          unfold insertAxis
          rw [canMap_slice nr a s (hcl a (by simp)) hS.1 (hrt a (by simp)) (hsep a (by simp))]
          rfl
        rw [this]
        have e1 : pre ++ sliceAxis nr a s :: A = (pre ++ [sliceAxis nr a s]) ++ A := by simp
        rw [e1, ih S (pre ++ [sliceAxis nr a s]) hS.2 (fun x hx => hcl x (by simp [hx])) (fun x hx => hrt x (by simp [hx]))
          (fun x hx => hsep x (by simp [hx]))]
        · simp
        · rw [List.pairwise_append] at hp ⊢
          obtain ⟨p1, p2, p3⟩ := hp
          rw [List.pairwise_cons] at p2
          refine ⟨?_, p2.2, ?_⟩
          · rw [List.pairwise_append]
            refine ⟨p1, by simp, ?_⟩
            intro p hm q hq
            rw [List.mem_singleton.1 hq, compatible_comm]
            exact hcomp p hm
          · intro p hm q hq
            rcases List.mem_append.1 hm with hm | hm
            · exact p3 p hm q (by simp [hq])
            · rw [List.mem_singleton.1 hm, compatible_classes (sliceAxis_classes nr a s) rfl]
              exact p2.1 q hq
  have hout : outAxes [A, B] = some B := by
    have h1 := hA [] A (by simpa using hinc)
    have h2 := hfold A S [] hS hcl hrt hsep (by simpa using hinc)
    simp only [List.nil_append] at h1 h2
    unfold outAxes
    rw [show [A, B].flatten = A ++ B by simp, List.foldl_append, h1]
    exact h2
  have hBall : (B.all fun outa => elem outa B) = true := by
    rw [List.all_eq_true]
    intro b hb
    unfold elem
    rw [List.any_eq_true]
    exact ⟨b, hb, by simp [Axis.axEq]⟩
  unfold combineAxes
  simp only [hout, Option.map_some]
  congr 1
  by_cases hAll : (B.all fun outa => elem outa A) = true
  · rw [List.find?_cons, hAll]
    simp only
    -- every slice compares equal to its axis: it takes every position, and is the axis itself
    have hl : S.length = A.length := by have := hS.length_eq; simpa using this
    unfold InRange at hS
    rw [List.forall₂_map_right_iff, List.forall₂_iff_get] at hS
    refine List.ext_getElem (by simp [hB, hl]) fun o ho ho' => ?_
    rw [List.all_eq_true] at hAll
    have := hAll B[o] (List.getElem_mem _)
    unfold elem at this
    rw [List.any_eq_true] at this
    obtain ⟨e, he, hee⟩ := this
    obtain ⟨i, hi, rfl⟩ := List.getElem_of_mem he
    obtain ⟨hc, hll, hv⟩ := axEq_sound hee (hcl _ (List.getElem_mem hi))
    have hBo : B[o] = sliceAxis nr A[o] (S[o]'(by omega)) := by simp [hB]
    have hcomp : compatible A[i] A[o] = true := by
      rw [compatible_classes rfl (by rw [hBo, sliceAxis_classes]) (b := A[o]) (d := B[o]) (c := A[i])]
      simpa [compatible, isParentOf] using hc
    have hio : i = o := by
      rw [List.pairwise_iff_getElem] at hinc
      rcases lt_trichotomy i o with h | h | h
      · rw [hinc i o hi ho h] at hcomp; cases hcomp
      · exact h
      · rw [compatible_comm, hinc o i ho hi h] at hcomp; cases hcomp
    subst hio
    rw [hBo]
    have hSo : S[i]'(by omega) = List.range (A[i]).len := by
      rw [hBo, sliceAxis_values, List.length_map] at hll
      refine List.ext_getElem (by simp [len, hll]) fun k hk hk' => ?_
      rw [List.getElem_range]
      by_contra hne'
      have hsk := hS.2 i (by omega) hi (S[i]'(by omega))[k] (by simp)
      simp only [List.get_eq_getElem] at hsk
      have hka : k < A[i].values.length := by omega
      have h1 := hv k (A[i].values[k]) (A[i].values[(S[i]'(by omega))[k]]'hsk) (List.getElem?_eq_getElem hka) (by
        rw [hBo, sliceAxis_values, List.getElem?_map, List.getElem?_eq_getElem hk, Option.map_some,
          List.getD_eq_getElem _ _ hsk])
      have h2 := hsep _ (List.getElem_mem hi) k (S[i]'(by omega))[k] _ _ (List.getElem?_eq_getElem hka)
        (List.getElem?_eq_getElem hsk) (fun e => hne' e.symm)
      linarith
    have hvals : (S[i]'(by omega)).map (fun j : ℕ => A[i].values.getD j 0) = A[i].values := by
      rw [hSo]
      refine List.ext_getElem (by simp [len]) fun k hk hk' => ?_
      simp [hk']
    unfold sliceAxis
    simp only
    rw [if_pos hvals]
  · rw [List.find?_cons]
    have : (B.all fun outa => elem outa A) = false := by simpa using hAll
    rw [this]
    simp only [List.find?_cons, hBall]

/-- C34: combining a variable with another one on a slice of its grid (any positions, in any order) gives a variable
on that slice, which holds at each cell the operation applied to the first variable at the position sliced and to the
second variable. -/
theorem ufunc_subset {α β : Type} (op : List α → β) (nr : List ℚ → ℚ) (junk : List ℕ → α) (A : List Axis)
    (S I : List (List ℕ)) (src1 src2 : View.Source Axis α) (data1 data2 : List ℕ → α)
    (hS : InRange (A.map Axis.len) S) (hI : InRange (S.map List.length) I) (hne : ∀ ind ∈ I, ind ≠ [])
    (hcl : ∀ a ∈ A, a.classes ≠ []) (hrt : ∀ a ∈ A, 0 ≤ a.rtol) (hsep : ∀ a ∈ A, Separated a.values)
    (hinc : A.Pairwise fun a b => compatible a b = false)
    (h1 : Serves data1 A (A.map Axis.len) src1)
    (h2 : Serves data2 (List.zipWith (sliceAxis nr) A S) ((List.zipWith (sliceAxis nr) A S).map Axis.len) src2) :
    ufuncAxes [.var A src1, .var (List.zipWith (sliceAxis nr) A S) src2] = some (List.zipWith (sliceAxis nr) A S) ∧
    ∃ r, ufuncView op nr junk [.var A src1, .var (List.zipWith (sliceAxis nr) A S) src2]
        ⟨List.zipWith (sliceAxis nr) A S, I⟩ = some r ∧
      r.shape = I.map List.length ∧
      ∀ k, InBounds r.shape k → r.get k = op [data1 (cell S (cell I k)), data2 (cell I k)] := by
  refine ⟨combineAxes_slice nr A S hS hcl hrt hsep hinc, ?_⟩
  obtain ⟨r1, a1, a2, a3⟩ := slicedVar_read nr A S I junk src1 data1 hS hI hne hcl hrt hsep hinc h1
  have lS : S.length = A.length := by have := hS.length_eq; simpa using this
  have lI : I.length = S.length := by have := hI.length_eq; simpa using this
  set B := List.zipWith (sliceAxis nr) A S with hB
  have lB : B.length = I.length := by simp [hB]; omega
  have hBo : ∀ (o : ℕ) (ho : o < B.length), B[o] = sliceAxis nr (A[o]'(by omega)) (S[o]'(by omega)) := by
    intro o ho; simp [hB]
  have hBcl : ∀ (o : ℕ) (ho : o < B.length), B[o].classes = (A[o]'(by omega)).classes := by
    intro o ho; rw [hBo o ho, sliceAxis_classes]
  have hBinc : ∀ i j (hi : i < B.length) (hj : j < B.length), i ≠ j → compatible B[i] B[j] = false := by
    intro i j hi hj hij
    rw [compatible_classes (hBcl i hi) (hBcl j hj)]
    rw [List.pairwise_iff_getElem] at hinc
    rcases lt_or_gt_of_ne hij with h | h
    · exact hinc i j _ _ h
    · rw [compatible_comm]; exact hinc j i _ _ h
  have hBself : ∀ o (ho : o < B.length), compatible B[o] B[o] = true := by
    intro o ho
    have hc := hcl (A[o]'(by omega)) (List.getElem_mem _)
    have := hBcl o ho
    cases hx : (A[o]'(by omega)).classes with
    | nil => exact absurd hx hc
    | cons c cs => simp [compatible, isParentOf, this, hx]
  have hclean : Clean B := by
    refine ⟨?_, ?_⟩
    · intro b hb
      obtain ⟨o, ho, rfl⟩ := List.getElem_of_mem hb
      rw [hBcl o ho]
      exact hcl _ (List.getElem_mem _)
    · intro a ha b hb
      obtain ⟨i, hi, rfl⟩ := List.getElem_of_mem ha
      obtain ⟨j, hj, rfl⟩ := List.getElem_of_mem hb
      by_cases hij : i = j
      · left; subst hij; rfl
      · right; exact hBinc i j hi hj hij
  have hBnd : B.Nodup := by
    rw [List.nodup_iff_injective_getElem]
    intro i j hij
    by_contra hne'
    have h3 := hBinc i j i.2 j.2 (fun e => hne' (Fin.ext e))
    have h4 := hBself i i.2
    simp only at hij
    rw [← hij, h4] at h3
    cases h3
  have hBI : InRange (B.map Axis.len) I := by
    unfold InRange at hI ⊢
    rw [List.forall₂_map_right_iff, List.forall₂_iff_get] at hI ⊢
    refine ⟨by omega, fun o ho ho' => ?_⟩
    intro i hi
    have := hI.2 o ho (by omega) i hi
    simp only [List.get_eq_getElem] at this ⊢
    rw [hBo o ho']
    unfold len
    rw [sliceAxis_values, List.length_map]
    exact this
  obtain ⟨r2, b1, b2, b3⟩ := operand_read nr junk B I hclean hBnd hBI hne (.var B src2) (B, data2) (.var B src2 data2 h2)
    (fun a ha => ha) hBnd
  have hb2 : r2.shape = I.map List.length := by
    rw [b2]
    refine List.ext_getElem (by simp [lB]) fun o ho ho' => ?_
    simp
  obtain ⟨r, c1, c2, c3⟩ := broadcast_spec op (I.map List.length) [r1, r2] [I.map fun _ => true, I.map fun _ => true] (by
    have hx : I.map List.length = List.zipWith (fun (n : ℕ) (b : Bool) => if b then n else 1) (I.map List.length)
        (I.map fun _ => true) := by
      refine List.ext_getElem (by simp) fun o ho ho' => ?_
      simp
    refine .cons ⟨by simp, ?_⟩ (.cons ⟨by simp, ?_⟩ .nil)
    · rw [a2, ← hx]
    · rw [hb2, ← hx]) (by
    intro i hi
    have hi' : i < I.length := by simpa using hi
    exact ⟨_, List.mem_cons_self, by simp [hi']⟩)
  refine ⟨r, ?_, c2, fun k hk => ?_⟩
  · unfold ufuncView
    have e : [Operand.var A src1, Operand.var B src2].mapM (Operand.read nr junk ⟨B, I⟩) = some [r1, r2] := by
      have a1' : (Operand.var A src1).read nr junk ⟨B, I⟩ = some r1 := a1
      rw [List.mapM_cons, List.mapM_cons, a1', b1]
      rfl
    rw [e, Option.bind_some]
    change broadcast op B.length [r1, r2] = some r
    rw [show B.length = (I.map List.length).length by simp [lB]]
    exact c1
  · rw [c3 k]
    rw [c2] at hk
    have hbi : bindex r1.shape k = k := by
      obtain ⟨hkl, hkb⟩ := inBounds_iff.1 hk
      rw [a2]
      refine List.ext_getElem (by simp [bindex, hkl]) fun o ho ho' => ?_
      simp only [bindex, List.getElem_zipWith]
      split_ifs with e
      · have := hkb o (by omega)
        rw [List.getD_eq_getElem (I.map List.length) _ (by omega), List.getD_eq_getElem k _ ho', e] at this
        omega
      · rfl
    simp only [List.map_cons, List.map_nil]
    rw [hbi, a3 k (by rw [a2]; exact hk), b3 k hk]
    congr 3
    refine congrArg data2 ?_
    obtain ⟨hkl, _⟩ := inBounds_iff.1 hk
    rw [List.length_map] at hkl
    exact map_posOf B I k hBnd lB hkl

/-! ### the hypotheses are met -/

/-- a two-dimensional variable (lat, lon), one on lon only and a number: the axes are those of the first, the values are
matched by axis -/
example : (ufuncView (fun l : List ℕ => l.sum) (fun _ => 0) (fun _ => 0)
    [.var [lonEx] (.values ⟨[4], fun k => 1000 * k.getD 0 0⟩), .scalar 7,
     .var [mkEx [10, 20, 30], lonEx] (.values ⟨[3, 4], fun k => 100 * k.getD 0 0 + 10 * k.getD 1 0⟩)]
    ⟨[mkEx [10, 20, 30], lonEx], [[2, 0], [3]]⟩).map (fun r => (r.shape, [r.get [0, 0], r.get [1, 0]])) =
    some ([2, 1], [3237, 3037]) := by decide +kernel

example : ufuncAxes (α := ℕ) [.var [lonEx] (.values ⟨[4], fun k => 1000 * k.getD 0 0⟩), .scalar 7,
     .var [mkEx [10, 20, 30], lonEx] (.values ⟨[3, 4], fun k => 100 * k.getD 0 0 + 10 * k.getD 1 0⟩)] =
    some [mkEx [10, 20, 30], lonEx] := by decide +kernel

example : Clean [lonEx, mkEx [10, 20, 30], lonEx] := by
  refine ⟨?_, ?_⟩ <;> decide +kernel

/-- a variable minus itself reversed: the axis is that of the second operand and the positions are matched by
coordinate -/
example : ufuncAxes (α := ℤ) [.var [mkEx [10, 20, 30]] (.values ⟨[3], fun k => k.getD 0 0⟩),
      .var [mkEx [30, 20, 10]] (.values ⟨[3], fun k => 100 * k.getD 0 0⟩)] = some [mkEx [30, 20, 10]] ∧
    (ufuncView (fun l : List ℤ => l.sum) (fun _ => 0) (fun _ => 0)
      [.var [mkEx [10, 20, 30]] (.values ⟨[3], fun k => k.getD 0 0⟩),
       .var [mkEx [30, 20, 10]] (.values ⟨[3], fun k => 100 * k.getD 0 0⟩)] ⟨[mkEx [30, 20, 10]], [[0, 1, 2]]⟩).map
      (fun r => [r.get [0], r.get [1], r.get [2]]) = some [2, 101, 200] := by decide +kernel

/-- Axes of the same kind of which neither contains the other: an error, not a silent intersection. -/
theorem combineAxes_partial_overlap_error : combineAxes [[mkEx [10, 20]], [mkEx [20, 30]]] = none := by decide +kernel

end Combine
end PyGeode
