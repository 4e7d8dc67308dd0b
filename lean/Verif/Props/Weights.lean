/-
Property C94: weighted sums, means and variances of variables (model: Verif/Model/Weights.lean).
-/
import Verif.Model.Weights
import Verif.Props.StatsLoop

namespace PyGeode
namespace Weights
open Spec NArr Axis Combine VarOps Reduce Loop
variable {α β : Type}

/-! ### Specification -/

/-- the weight that the weights of the axes at the positions `l` give to the cell `q`: their product; axes without weights do
not count -/
def _root_.PyGeode.Spec.axesWeight (axes : List Axis) (l : List ℕ) (q : List ℕ) : ℚ :=
  (l.map fun i => match (axes[i]?).bind axisWeights with
    | some ws => ws.getD (q.getD i 0) 0
    | none => 1).prod

/-- the weight that a variable with axes `W` and contents `w` gives to a cell `q` of a variable with axes `axes` -/
def _root_.PyGeode.Spec.varWeight (axes W : List Axis) (w : List ℕ → ℚ) (q : List ℕ) : ℚ :=
  w (W.map fun a => q.getD (axes.idxOf a) 0)

/-- `wt` is the weight of each cell that the argument `weights` asks for: the same for all (`False`, `None`), the product of
the weights that the reduced axes have (`True`), or those in a variable whose axes are among the reduced ones. -/
inductive _root_.PyGeode.Spec.WeightsAre (axes : List Axis) (l : List ℕ) : WeightArg → (List ℕ → ℚ) → Prop
  | no : WeightsAre axes l .no fun _ => 1
  | default (hlen : ∀ i ∈ l, ∀ a, axes[i]? = some a → ∀ ws, axisWeights a = some ws → ws.length = a.len) :
      WeightsAre axes l .default (axesWeight axes l)
  | given (W : Var ℚ) (w : List ℕ → ℚ) (hw : Contains W w) (hne : W.axes ≠ []) (hnd : W.axes.Nodup)
      (hsub : ∀ a ∈ W.axes, ∃ i ∈ l, axes[i]? = some a) : WeightsAre axes l (.given W) (varWeight axes W.axes w)

/-! ### The loop over data and weights -/

/-- A loop over the chunks of a variable is the loop over the positions. -/
theorem loop_fold {σ : Type} (nr : List ℚ → ℚ) (hnr : ∀ l, 0 ≤ nr l) {limit : ℕ} (hl : 1 ≤ limit) {A : List Axis} {R : List ℕ}
    {I : List (List ℕ)} (h : Loopable A R I) (step : σ → List (List ℕ) × View Axis → Option σ)
    (g : σ → List (List ℕ) → View ℕ → σ) (s : σ)
    (hs : ∀ (c : View ℕ) (pos : List (List ℕ)) (s : σ), InRange (A.map Axis.len) c.inds → (∀ ind ∈ c.inds, ind ≠ []) →
      step s (pos, ⟨A, c.inds⟩) = some (g s pos c)) :
    ((loopover nr limit A [] ⟨dropAxes ax0 R A, I⟩).bind fun L => L.foldlM step s) =
      some (((inView (A.map Axis.len) R I).loopMem limit []).foldl (fun s c => g s (outPos (A.map Axis.len) R I c) c) s) := by
  set lens := A.map Axis.len with hlens
  rw [loopover_spec nr hnr hl h (P := []) (by simp), Option.bind_some, loopMem_eq ⟨A, _⟩, List.map_map, List.foldlM_map]
  have hcs : ∀ c ∈ (⟨[], (inView lens R I).inds⟩ : View ℕ).loopMem limit [], InRange lens c.inds ∧
      ∀ ind ∈ c.inds, ind ≠ [] := by
    intro c hc
    obtain ⟨_, h2⟩ := chunk_sub _ hl (by exact inView_ne h.good) (by simp) c hc
    constructor
    · have hb := inView_inRange h.good
      unfold InRange at hb ⊢
      rw [List.forall₂_iff_get] at hb ⊢
      refine ⟨by rw [h2.length_eq]; exact hb.1, fun i hi hi' p hp => ?_⟩
      exact hb.2 i (by rw [← h2.length_eq]; exact hi) hi' p
        (((List.forall₂_iff_get.1 h2).2 i hi (by rw [← h2.length_eq]; exact hi)).1 p hp)
    · intro ind hind
      obtain ⟨i, hi, rfl⟩ := List.getElem_of_mem hind
      exact ((List.forall₂_iff_get.1 h2).2 i hi (by rw [← h2.length_eq]; exact hi)).2.1
  rw [foldlM_some (g := fun s c => g s (outPos lens R I ⟨(inView lens R I).axes, c.inds⟩) ⟨(inView lens R I).axes, c.inds⟩)]
  · congr 1
    rw [loopMem_eq (inView lens R I), List.foldl_map]
  · intro c hc s
    obtain ⟨h1, h2⟩ := hcs c hc
    rw [outPos_eq _ (by simpa using h1.length_eq)]
    exact hs ⟨(inView lens R I).axes, c.inds⟩ _ s h1 h2

/-- the positions of the axes of the weights -/
def wpos (axes W : List Axis) : List ℕ := W.map fun a => axes.idxOf a

theorem wpos_mem {axes W : List Axis} {a : Axis} (ha : a ∈ W) : axes.idxOf a ∈ wpos axes W :=
  List.mem_map_of_mem (f := fun a => axes.idxOf a) ha

theorem varWeight_on (axes W : List Axis) (hsub : ∀ a ∈ W, a ∈ axes) (w : List ℕ → ℚ) (q : List ℕ) :
    varWeight axes W w (onAxes (wpos axes W) q) = varWeight axes W w q := by
  unfold varWeight
  congr 1
  refine List.map_congr_left fun a ha => ?_
  unfold onAxes
  by_cases hi : axes.idxOf a < q.length
  · rw [List.getD_eq_getElem _ _ (by simpa using hi), List.getD_eq_getElem q _ hi, List.getElem_mapIdx,
      if_pos (wpos_mem ha)]
  · rw [List.getD_eq_default _ _ (by simpa using hi), List.getD_eq_default _ _ (by simpa using hi)]

/-- the weights of one chunk -/
theorem weights_read (nr : List ℚ → ℚ) (junkw : List ℕ → ℚ) (A : List Axis) (hA : Regular A) (W : Var ℚ) (w : List ℕ → ℚ)
    (hw : Contains W w) (hnd : W.axes.Nodup) (hsub : ∀ a ∈ W.axes, a ∈ A) (I : List (List ℕ))
    (hI : InRange (A.map Axis.len) I) (hne : ∀ ind ∈ I, ind ≠ []) :
    ∃ r, W.read nr junkw ⟨A, I⟩ = some r ∧ IsRead (varWeight A W.axes w) (weightInds (wpos A W.axes) I) r := by
  obtain ⟨r, h1, h2⟩ := Stats.read_bread nr junkw W w hw hnd A hA hsub I hI hne
  have hAl : A.length = I.length := by simpa using hI.length_eq.symm
  have hmem : ∀ i (hi : i < A.length), i ∈ wpos A W.axes ↔ A[i] ∈ W.axes := by
    intro i hi
    unfold wpos
    rw [List.mem_map]
    constructor
    · rintro ⟨a, ha, hai⟩
      have hlt := List.idxOf_lt_length_of_mem (hsub a ha)
      have : A[A.idxOf a] = a := List.getElem_idxOf hlt
      simp only [hai] at this
      rw [this]; exact ha
    · intro h
      exact ⟨A[i], h, hA.nodup.idxOf_getElem i hi⟩
  have hshape : r.shape = (weightInds (wpos A W.axes) I).map List.length := by
    rw [h2.shape]
    unfold weightInds
    refine List.ext_getElem (by simp [hAl]) fun i hi hi' => ?_
    simp only [List.getElem_zipWith, List.getElem_map, List.getElem_mapIdx]
    have hiA : i < A.length := by simp at hi; omega
    by_cases hm : A[i] ∈ W.axes
    · rw [if_pos (by simpa using hm), if_pos ((hmem i hiA).2 hm)]
    · rw [if_neg (by simpa using hm), if_neg (fun h => hm ((hmem i hiA).1 h))]; rfl
  refine ⟨r, h1, hshape, fun k hk => ?_⟩
  have hkb : InBounds r.shape k := by rw [hshape]; exact hk
  have hkl : k.length = I.length := by
    have := hk.length_eq; simpa [weightInds] using this
  have hkf : InBounds (I.map List.length) k := by
    unfold InBounds at hk ⊢
    rw [List.forall₂_iff_get] at hk ⊢
    refine ⟨by simpa using hkl, fun i hi hi' => ?_⟩
    have := hk.2 i hi (by simpa [weightInds] using hi')
    simp only [List.get_eq_getElem, List.getElem_map, weightInds, List.getElem_mapIdx] at this ⊢
    have hp : 0 < (I[i]'(by simpa using hi')).length := List.length_pos_iff.2 (hne _ (List.getElem_mem _))
    split_ifs at this
    · exact this
    · simp at this; omega
  rw [← bindex_self hkb, h2.get k hkf, bindex_self hkb]
  unfold relabel varWeight
  congr 1
  refine List.map_congr_left fun a ha => ?_
  have hlt := List.idxOf_lt_length_of_mem (hsub a ha)
  rw [getD_cell I k _ (by omega) hkl, getD_cell _ k _ (by simp [weightInds]; omega) (by simp [weightInds, hkl])]
  congr 1
  unfold weightInds
  rw [List.getD_eq_getElem _ _ (by omega), List.getD_eq_getElem (List.mapIdx _ I) _ (by simp; omega), List.getElem_mapIdx,
    if_pos (wpos_mem ha)]

/-- The loops over data and weights are those over positions. -/
theorem pair_eq (nr : List ℚ → ℚ) (hnr : ∀ l, 0 ≤ nr l) (junk : List ℕ → α) (junkw : List ℕ → ℚ) {limit : ℕ} (hl : 1 ≤ limit)
    (x : Var α) (data : List ℕ → α) (hx : Contains x data) (hreg : Regular x.axes) (W : Var ℚ) (w : List ℕ → ℚ)
    (hw : Contains W w) (hnd : W.axes.Nodup) (hsub : ∀ a ∈ W.axes, a ∈ x.axes) (R : List ℕ) :
    ∃ (chunk : View ℕ → NArr α) (wchunk : View ℕ → NArr ℚ), Reads data (x.axes.map Axis.len) chunk ∧
      ReadsWeights (varWeight x.axes W.axes w) (wpos x.axes W.axes) (x.axes.map Axis.len) wchunk ∧
      ∀ I, Loopable x.axes R I →
        (∀ (β : Type) (op : β → β → β) (e : β) (f : α → ℚ → β),
          pairView op e f nr junk junkw limit x W R ⟨dropAxes ax0 R x.axes, I⟩ =
            some (reduceLoop op e limit (x.axes.map Axis.len) R I fun c => broadcast2 f (chunk c) (wchunk c))) ∧
        ∀ chunk' : View ℕ → NArr ℚ, (∀ c, (chunk' c).shape = (chunk c).shape) →
          weightView nr junk junkw limit x W R ⟨dropAxes ax0 R x.axes, I⟩ =
            some (weightSum limit (x.axes.map Axis.len) R I chunk' wchunk) := by
  classical
  set lens := x.axes.map Axis.len with hlens
  set wt := varWeight x.axes W.axes w with hwt
  set WI := wpos x.axes W.axes with hWI
  set chunk : View ℕ → NArr α := fun c => if (∀ ind ∈ c.inds, ind ≠ []) then (x.read nr junk ⟨x.axes, c.inds⟩).getD ⟨[], junk⟩
    else ⟨c.inds.map List.length, fun k => data (cell c.inds k)⟩ with hchunk
  set wchunk : View ℕ → NArr ℚ := fun c => if (∀ ind ∈ c.inds, ind ≠ []) then (W.read nr junkw ⟨x.axes, c.inds⟩).getD ⟨[], junkw⟩
    else ⟨(weightInds WI c.inds).map List.length, fun k => wt (cell (weightInds WI c.inds) k)⟩ with hwchunk
  have hget : ∀ c : View ℕ, InRange lens c.inds → (∀ ind ∈ c.inds, ind ≠ []) →
      x.read nr junk ⟨x.axes, c.inds⟩ = some (chunk c) ∧ IsRead data c.inds (chunk c) ∧
      W.read nr junkw ⟨x.axes, c.inds⟩ = some (wchunk c) ∧ IsRead wt (weightInds WI c.inds) (wchunk c) := by
    intro c hc hne
    obtain ⟨r, h1, h2⟩ := read_own nr junk x data hx hreg c.inds hc hne
    obtain ⟨s, h3, h4⟩ := weights_read nr junkw x.axes hreg W w hw hnd hsub c.inds hc hne
    simp only [hchunk, hwchunk, if_pos hne, h1, h3, Option.getD_some]
    exact ⟨trivial, h2, trivial, h4⟩
  refine ⟨chunk, wchunk, ?_, ?_, ?_⟩
  · intro c hc
    by_cases hne : ∀ ind ∈ c.inds, ind ≠ []
    · exact (hget c hc hne).2.1
    · simp only [hchunk, if_neg hne]
      exact ⟨rfl, fun _ _ => rfl⟩
  · intro c hc
    by_cases hne : ∀ ind ∈ c.inds, ind ≠ []
    · exact (hget c hc hne).2.2.2
    · simp only [hwchunk, if_neg hne]
      exact ⟨rfl, fun _ _ => rfl⟩
  · intro I hI
    have hsh : (⟨dropAxes ax0 R x.axes, I⟩ : View Axis).shape = I.map List.length := rfl
    constructor
    · intro β op e f
      unfold pairView reduceLoop
      rw [hsh]
      exact loop_fold nr hnr hl hI _ (fun out pos c => updateOuter op out pos (npReduce op e (broadcast2 f (chunk c) (wchunk c)) R)) _
        fun c pos s hc hne => by
          obtain ⟨h1, _, h2, _⟩ := hget c hc hne
          unfold pairStep
          simp only [h1, h2, Option.bind_some, Option.map_some]
    · intro chunk' hch
      unfold weightView weightSum
      rw [hsh]
      refine loop_fold nr hnr hl hI _ (fun W pos c =>
        let f : ℚ := ((chunk' c).shape.prod : ℚ) / (((wchunk c).shape.prod : ℚ) * ((pos.map List.length).prod : ℚ))
        let s := npReduce (· + ·) 0 (wchunk c) R
        updateOuter (· + ·) W pos { shape := pos.map List.length, get := fun _ => s.get (s.shape.map fun _ => 0) * f }) _
        fun c pos s hc hne => by
          obtain ⟨h1, _, h2, _⟩ := hget c hc hne
          unfold weightStep
          simp only [h1, h2, Option.bind_some, Option.map_some, hch]

/-! ### The weights that are used -/

/-- what an operand of `getweights` holds -/
def heldOf (a : Axis) : Option (List Axis × (List ℕ → ℚ)) :=
  (axisWeights a).map fun ws => ([a], fun k => ws.getD (k.getD 0 0) 0)

theorem holds_weights : ∀ L : List Axis, (∀ a ∈ L, ∀ ws, axisWeights a = some ws → ws.length = a.len) →
    List.Forall₂ Holds (L.filterMap weightOperand) (L.filterMap heldOf)
  | [], _ => .nil
  | a :: L, h => by
    have ih := holds_weights L fun b hb => h b (by simp [hb])
    unfold weightOperand heldOf at *
    cases hw : axisWeights a with
    | none =>
      rw [List.filterMap_cons_none (by simp [hw]), List.filterMap_cons_none (by simp [hw])]
      exact ih
    | some ws =>
      rw [List.filterMap_cons_some (by rw [hw]; rfl), List.filterMap_cons_some (by rw [hw]; rfl)]
      refine .cons (Holds.var _ _ _ ⟨?_, fun _ _ => rfl⟩) ih
      simp [h a (by simp) ws hw]

theorem vprod_eq (l : List ℚ) : vprod l = l.prod := by
  cases l with
  | nil => rfl
  | cons a l =>
    show l.foldl (· * ·) a = _
    rw [List.prod_cons]
    induction l generalizing a with
    | nil => simp
    | cons b l ih => rw [List.foldl_cons, ih, List.prod_cons, mul_assoc]

/-- the default weight of a cell, axis by axis -/
theorem axesWeight_eq (axes : List Axis) (hnd : axes.Nodup) (q : List ℕ) : ∀ l : List ℕ, (∀ i ∈ l, i < axes.length) →
    axesWeight axes l q = (((l.filterMap fun i => axes[i]?).filterMap heldOf).map fun h =>
      h.2 (h.1.map fun a => q.getD (axes.idxOf a) 0)).prod
  | [], _ => rfl
  | i :: l, h => by
    have ih := axesWeight_eq axes hnd q l fun j hj => h j (by simp [hj])
    have hi := h i (by simp)
    unfold axesWeight at ih ⊢
    rw [List.map_cons, List.prod_cons, ih, List.filterMap_cons_some (List.getElem?_eq_getElem hi),
      List.getElem?_eq_getElem hi, Option.bind_some]
    cases hw : axisWeights axes[i] with
    | none => rw [List.filterMap_cons_none (a := axes[i]) (by unfold heldOf; rw [hw]; rfl), one_mul]
    | some ws =>
      rw [List.filterMap_cons_some (a := axes[i]) (by unfold heldOf; rw [hw]; rfl), List.map_cons, List.prod_cons]
      simp only [List.map_cons, List.map_nil, hnd.idxOf_getElem i hi]
      rfl

theorem named_axes {axes : List Axis} {ids : List AxisId} {l : List ℕ} (hn : Names axes ids l) :
    (if ids = [] then some axes else (whichAll axes ids).map fun l => l.filterMap fun i => axes[i]?) =
      some (l.filterMap fun i => axes[i]?) := by
  unfold Names at hn
  by_cases h : ids = []
  · rw [if_pos h] at hn ⊢
    rw [hn]
    congr 1
    refine List.ext_getElem? fun i => ?_
    rw [← List.map_id axes]
    clear hn h
    have : (List.range axes.length).filterMap (fun i => axes[i]?) = axes := by
      have e : ((List.range axes.length).filterMap fun i => axes[i]?) = (List.range axes.length).map fun i => axes.getD i ax0 := by
        rw [← List.filterMap_eq_map]
        refine List.filterMap_congr fun i hi => ?_
        have hi' : i < axes.length := by simpa using hi
        rw [List.getElem?_eq_getElem hi', Function.comp_apply, List.getD_eq_getElem _ _ hi']
      rw [e]
      refine List.ext_getElem (by simp) fun j hj hj' => ?_
      simp only [List.getElem_map, List.getElem_range]
      exact List.getD_eq_getElem _ _ hj'
    rw [List.map_id, this]
  · rw [if_neg h] at hn ⊢
    rw [hn.1]; rfl

theorem mem_heldOf {L : List Axis} {h : List Axis × (List ℕ → ℚ)} (hm : h ∈ L.filterMap heldOf) :
    ∃ a ∈ L, ∃ ws, axisWeights a = some ws ∧ h = ([a], fun k => ws.getD (k.getD 0 0) 0) := by
  obtain ⟨a, ha, hh⟩ := List.mem_filterMap.1 hm
  unfold heldOf at hh
  obtain ⟨ws, hws, rfl⟩ := Option.map_eq_some_iff.1 hh
  exact ⟨a, ha, ws, hws, rfl⟩

/-- `getweights`: a variable on axes with weights among those named, whose value is the product of their weights -/
theorem getweights_correct (nr : List ℚ → ℚ) (junk : List ℕ → ℚ) {axes : List Axis} (hreg : Regular axes) {ids : List AxisId} {l : List ℕ}
    (hn : Names axes ids l) (hlt : ∀ i ∈ l, i < axes.length)
    (hlen : ∀ i ∈ l, ∀ a, axes[i]? = some a → ∀ ws, axisWeights a = some ws → ws.length = a.len) :
    ∃ W w, getweights nr junk axes ids = some W ∧ Contains W w ∧ W.axes.Nodup ∧
      (∀ a ∈ W.axes, (∃ i ∈ l, axes[i]? = some a) ∧ (axisWeights a).isSome) ∧ axesWeight axes l = varWeight axes W.axes w ∧
      (W.axes = [] → axesWeight axes l = fun _ => 1) := by
  set L := l.filterMap fun i => axes[i]? with hL
  have hLm : ∀ a ∈ L, ∃ i ∈ l, axes[i]? = some a := fun a ha => List.mem_filterMap.1 ha
  have hLl : ∀ a ∈ L, ∀ ws, axisWeights a = some ws → ws.length = a.len := by
    intro a ha ws hws
    obtain ⟨i, hi, hia⟩ := hLm a ha
    exact hlen i hi a hia ws hws
  have hlenEq : (L.filterMap weightOperand).length = (L.filterMap heldOf).length := (holds_weights L hLl).length_eq
  unfold getweights
  rw [named_axes hn, Option.bind_some, ← hL]
  by_cases h0 : (L.filterMap weightOperand).length = 0
  · have h1 : axesWeight axes l = fun _ => 1 := by
      funext q
      rw [axesWeight_eq axes hreg.nodup q l hlt, ← hL, List.length_eq_zero_iff.1 (hlenEq.symm.trans h0)]
      rfl
    simp only [h0, if_true]
    exact ⟨_, fun _ => 1, rfl, ⟨rfl, fun _ _ => rfl⟩, by simp, by simp, by rw [h1]; rfl, fun _ => h1⟩
  · simp only [if_neg h0]
    have hcl : Clean ((L.filterMap heldOf).map Prod.fst).flatten := by
      have hsub : ∀ a ∈ ((L.filterMap heldOf).map Prod.fst).flatten, a ∈ axes := by
        intro a ha
        obtain ⟨A, hA, haA⟩ := List.mem_flatten.1 ha
        obtain ⟨h, hh, rfl⟩ := List.mem_map.1 hA
        obtain ⟨b, hb, ws, _, rfl⟩ := mem_heldOf hh
        have : a = b := by simpa using haA
        subst this
        obtain ⟨i, _, hi⟩ := hLm a hb
        exact List.mem_of_getElem? hi
      exact ⟨fun a ha => hreg.clean.1 a (hsub a ha), fun a ha b hb => hreg.clean.2 a (hsub a ha) b (hsub b hb)⟩
    have hnd : ∀ h ∈ L.filterMap heldOf, h.1.Nodup := by
      intro h hh
      obtain ⟨b, hb, ws, _, rfl⟩ := mem_heldOf hh
      simp
    have hax : (L.filterMap weightOperand).filterMap Operand.axes? = (L.filterMap heldOf).map Prod.fst := by
      rw [List.filterMap_filterMap, List.map_filterMap]
      refine List.filterMap_congr fun a _ => ?_
      unfold weightOperand heldOf
      cases axisWeights a <;> rfl
    obtain ⟨R, hR, hRn, hRm, _⟩ := combineAxes_clean _ hcl (by
      intro A hA
      obtain ⟨h, hh, rfl⟩ := List.mem_map.1 hA
      exact hnd h hh)
    have hRu : ufuncAxes (L.filterMap weightOperand) = some R := by unfold ufuncAxes; rw [hax]; exact hR
    have hRL : ∀ a, a ∈ R ↔ ∃ h ∈ L.filterMap heldOf, a ∈ h.1 := by
      intro a
      rw [hRm]
      constructor
      · rintro ⟨A, hA, ha⟩
        obtain ⟨h, hh, rfl⟩ := List.mem_map.1 hA
        exact ⟨h, hh, ha⟩
      · rintro ⟨h, hh, ha⟩
        exact ⟨h.1, List.mem_map_of_mem hh, ha⟩
    have hRpos : R.length ≠ 0 := by
      intro hz
      have : (L.filterMap heldOf).length ≠ 0 := by rw [← hlenEq]; exact h0
      obtain ⟨h, hh⟩ := List.exists_mem_of_ne_nil (L.filterMap heldOf) (fun e => this (by rw [e]; rfl))
      obtain ⟨b, hb, ws, _, rfl⟩ := mem_heldOf hh
      have := (hRL b).2 ⟨_, hh, by simp⟩
      rw [List.length_eq_zero_iff.1 hz] at this
      simp at this
    refine ⟨Var.ofView junk R (ufuncView vprod nr junk (L.filterMap weightOperand)),
      fun k => vprod ((L.filterMap heldOf).map fun h => relabel h.1 R h.2 k), ?_, ?_, hRn, ?_, ?_,
      fun h => absurd (congrArg List.length h) hRpos⟩
    · rw [hRu, Option.map_some]
    · refine contains_ofView _ _ _ _ fun I hI hne => ?_
      obtain ⟨r, h1, h2, h3⟩ := ufunc_correct vprod nr junk _ _ (holds_weights L hLl) hcl hnd R hRu I hI hne
      refine ⟨r, h1, h2, fun k hk => ?_⟩
      have hk' : InBounds r.shape k := by rw [h2]; exact hk
      have hIl : R.length = I.length := by simpa using hI.length_eq.symm
      rw [h3 k hk']
      congr 1
      refine List.map_congr_left fun h hh => ?_
      exact relabel_cell h.1 R h.2 I k (fun a ha => (hRL a).2 ⟨h, hh, ha⟩) hIl (by simpa using hk.length_eq)
    · intro a ha
      obtain ⟨h, hh, hah⟩ := (hRL a).1 ha
      obtain ⟨b, hb, ws, hws, rfl⟩ := mem_heldOf hh
      have : a = b := by simpa using hah
      subst this
      exact ⟨hLm a hb, by rw [hws]; rfl⟩
    · funext q
      rw [axesWeight_eq axes hreg.nodup q l hlt]
      show _ = vprod _
      rw [vprod_eq]
      congr 1
      refine List.map_congr_left fun h hh => ?_
      refine congrArg h.2 (List.map_congr_left fun a ha => ?_)
      have hlt := List.idxOf_lt_length_of_mem ((hRL a).2 ⟨h, hh, ha⟩)
      show _ = (R.map fun a => q.getD (axes.idxOf a) 0).getD (R.idxOf a) 0
      rw [List.getD_eq_getElem (R.map _) _ (by simpa using hlt), List.getElem_map, List.getElem_idxOf hlt]

/-- the weights used are those asked for -/
theorem chosen (nr : List ℚ → ℚ) (junk : List ℕ → ℚ) {axes : List Axis} (hreg : Regular axes) {ids : List AxisId} {l : List ℕ}
    (hn : Names axes ids l) (hlt : ∀ i ∈ l, i < axes.length) {arg : WeightArg} {wt : List ℕ → ℚ} (hw : WeightsAre axes l arg wt) :
    (chooseWeights nr junk axes ids arg = some none ∧ wt = fun _ => 1) ∨
    ∃ W w, chooseWeights nr junk axes ids arg = some (some W) ∧ Contains W w ∧ W.axes.Nodup ∧
      (∀ a ∈ W.axes, ∃ i ∈ l, axes[i]? = some a) ∧ wt = varWeight axes W.axes w := by
  cases hw with
  | no => exact Or.inl ⟨rfl, rfl⟩
  | given W w hw hne hnd hsub =>
    refine Or.inr ⟨W, w, ?_, hw, hnd, hsub, rfl⟩
    show some (if W.axes.length = 0 then none else some W) = _
    rw [if_neg (by simpa using hne)]
  | default hlen =>
    obtain ⟨W, w, h1, h2, h3, h4, h5, h6⟩ := getweights_correct nr junk hreg hn hlt hlen
    unfold chooseWeights
    rw [h1, Option.map_some]
    by_cases h0 : W.axes = []
    · exact Or.inl ⟨by simp [h0], h6 h0⟩
    · refine Or.inr ⟨W, w, by rw [if_neg (by simpa using h0)], h2, h3, fun a ha => (h4 a ha).1, h5⟩

theorem weightsMatch_true {axes : List Axis} (hreg : Regular axes) {R l : List ℕ} (hR : ∀ i, i ∈ R ↔ i ∈ l) {waxes : List Axis}
    (h : ∀ a ∈ waxes, ∃ i ∈ l, axes[i]? = some a) : weightsMatch axes R waxes = true := by
  unfold weightsMatch
  rw [List.all_eq_true]
  intro a ha
  obtain ⟨i, hi, hia⟩ := h a ha
  obtain ⟨hil, rfl⟩ := List.getElem?_eq_some_iff.1 hia
  rw [List.any_eq_true]
  refine ⟨axes[i], ?_, by simp [axEq]⟩
  rw [List.mem_filter]
  refine ⟨List.getElem_mem hil, ?_⟩
  rw [Bool.not_eq_true', List.any_eq_false]
  intro b hb
  obtain ⟨j, hj, hjb⟩ := List.mem_filterMap.1 hb
  obtain ⟨hjl, rfl⟩ := List.getElem?_eq_some_iff.1 hjb
  have hjR : j ∉ R := by simpa [keptAxes] using (List.mem_filter.1 hj).2
  have hij : i ≠ j := fun e => hjR ((hR j).2 (e ▸ hi))
  rw [hreg.clean.axEq (List.getElem_mem hil) (List.getElem_mem hjl)]
  simp only [decide_eq_true_eq]
  intro e
  exact hij ((hreg.nodup.getElem_inj_iff).1 e)

/-- A reduction with weights, in general. -/
theorem select_views (nr : List ℚ → ℚ) (junkw : List ℕ → ℚ) (junk : List ℕ → β) (x : Var α) (ids : List AxisId) (l : List ℕ)
    (hn : Names x.axes ids l) (hred : Reducible x.axes l) (arg : WeightArg) (wt : List ℕ → ℚ) (hw : WeightsAre x.axes l arg wt)
    (plain : Option (Var β)) (weighted : Var ℚ → List ℕ → View Axis → Option (NArr β)) (F : List ℕ → β)
    (hplain : (wt = fun _ => 1) → ∃ y, plain = some y ∧ y.axes = dropAxes ax0 l x.axes ∧ Views y F)
    (hweighted : ∀ W w, Contains W w → W.axes.Nodup → (∀ a ∈ W.axes, ∃ i ∈ l, x.axes[i]? = some a) →
      wt = varWeight x.axes W.axes w → ∀ R, (∀ i, i ∈ R ↔ i ∈ l) →
      ∀ I, Loopable x.axes R I → ∃ r, weighted W R ⟨dropAxes ax0 R x.axes, I⟩ = some r ∧ IsRead F I r) :
    ∃ y, select nr junkw junk x ids arg plain weighted = some y ∧ y.axes = dropAxes ax0 l x.axes ∧ Views y F := by
  obtain ⟨hnd, hlt, R, hR, hRn, hRm⟩ := names_facts hn hred.ne hred.pos
  unfold select
  rcases chosen nr junkw hred.reg hn hlt hw with ⟨h1, h2⟩ | ⟨W, w, h1, h2, h3, h4, h5⟩
  · rw [h1]
    exact hplain h2
  · rw [h1, Option.bind_some]
    simp only
    unfold weightedVar
    rw [hR, Option.bind_some, if_pos (weightsMatch_true hred.reg hRm h4)]
    exact reduced_views junk x ids l hn hred _ F (hweighted W w h2 h3 h4 h5)

theorem select_shows (nr : List ℚ → ℚ) (junkw : List ℕ → ℚ) (junk : List ℕ → β) (x : Var α) (ids : List AxisId) (l : List ℕ)
    (hn : Names x.axes ids l) (hred : Reducible x.axes l) (arg : WeightArg) (wt : List ℕ → ℚ) (hw : WeightsAre x.axes l arg wt)
    (plain : Option (Var β)) (weighted : Var ℚ → List ℕ → View Axis → Option (NArr β)) (F : List ℕ → β)
    (hplain : (wt = fun _ => 1) → ∃ y, plain = some y ∧ y.axes = dropAxes ax0 l x.axes ∧ Shows nr y F)
    (hweighted : ∀ W w, Contains W w → W.axes.Nodup → (∀ a ∈ W.axes, ∃ i ∈ l, x.axes[i]? = some a) →
      wt = varWeight x.axes W.axes w → ∀ R, (∀ i, i ∈ R ↔ i ∈ l) →
      ∀ I, Loopable x.axes R I → ∃ r, weighted W R ⟨dropAxes ax0 R x.axes, I⟩ = some r ∧ IsRead F I r) :
    ∃ y, select nr junkw junk x ids arg plain weighted = some y ∧ y.axes = dropAxes ax0 l x.axes ∧ Shows nr y F := by
  obtain ⟨hnd, hlt, R, hR, hRn, hRm⟩ := names_facts hn hred.ne hred.pos
  unfold select
  rcases chosen nr junkw hred.reg hn hlt hw with ⟨h1, h2⟩ | ⟨W, w, h1, h2, h3, h4, h5⟩
  · rw [h1]
    exact hplain h2
  · rw [h1, Option.bind_some]
    simp only
    unfold weightedVar
    rw [hR, Option.bind_some, if_pos (weightsMatch_true hred.reg hRm h4)]
    exact reduced_shows nr junk x ids l hn hred _ F (hweighted W w h2 h3 h4 h5)

/-! ### C94 -/

section
variable (nr : List ℚ → ℚ) (hnr : ∀ l, 0 ≤ nr l) {limit : ℕ} (hl : 1 ≤ limit) (ids : List AxisId) (l : List ℕ)
  (arg : WeightArg) (wt : List ℕ → ℚ)
include hnr hl

omit hnr hl in
theorem given_sub {axes W : List Axis} {l : List ℕ} (h : ∀ a ∈ W, ∃ i ∈ l, axes[i]? = some a) : ∀ a ∈ W, a ∈ axes := by
  intro a ha
  obtain ⟨i, _, hi⟩ := h a ha
  exact List.mem_of_getElem? hi

omit hnr hl in
theorem wpos_sub {axes : List Axis} (hreg : Regular axes) {W : List Axis} {l R : List ℕ} (h : ∀ a ∈ W, ∃ i ∈ l, axes[i]? = some a)
    (hR : ∀ i, i ∈ R ↔ i ∈ l) : ∀ i ∈ wpos axes W, i ∈ R := by
  intro i hi
  obtain ⟨a, ha, rfl⟩ := List.mem_map.1 hi
  obtain ⟨j, hj, hja⟩ := h a ha
  obtain ⟨hjl, rfl⟩ := List.getElem?_eq_some_iff.1 hja
  show axes.idxOf axes[j] ∈ R
  rw [hreg.nodup.idxOf_getElem j hjl]
  exact (hR j).2 hj

/-- C94: `var.sum(axes, weights=...)` shows the sum of the values times their weights. -/
theorem sum_shows_partial (junk : List ℕ → ℚ) (x : Var ℚ) (data : List ℕ → ℚ) (hx : Contains x data)
    (hn : Names x.axes ids l) (hred : Reducible x.axes l) (hw : WeightsAre x.axes l arg wt) :
    ∃ y, sum nr junk limit x ids arg = some y ∧ y.axes = dropAxes ax0 l x.axes ∧
      Shows nr y fun s => ((fibre (x.axes.map Axis.len) l s).map fun q => data q * wt q).sum := by
  refine select_shows nr junk junk x ids l hn hred arg wt hw _ _ _ ?_ ?_
  · rintro rfl
    simpa only [mul_one] using Loop.sum_shows nr hnr hl ids l junk x data hx hn hred
  · intro W w hW hnd hsub hwt R hR I hI
    obtain ⟨chunk, wchunk, h1, h2, h3⟩ := pair_eq nr hnr junk junk hl x data hx hred.reg W w hW hnd (given_sub hsub) R
    refine ⟨_, (h3 I hI).1 ℚ _ _ _, ?_⟩
    have := weightedSum_correct hI.good hl h1 h2
    simp only [fibre_congr hR, varWeight_on _ _ (given_sub hsub), ← hwt] at this
    exact this

theorem mean_views (junk : List ℕ → ℚ) (x : Var ℚ) (data : List ℕ → ℚ) (hx : Contains x data)
    (hn : Names x.axes ids l) (hred : Reducible x.axes l) (hw : WeightsAre x.axes l arg wt) :
    ∃ y, mean nr junk limit x ids arg = some y ∧ y.axes = dropAxes ax0 l x.axes ∧
      Views y fun s => ((fibre (x.axes.map Axis.len) l s).map fun q => data q * wt q).sum /
        ((fibre (x.axes.map Axis.len) l s).map wt).sum := by
  refine select_views nr junk junk x ids l hn hred arg wt hw _ _ _ ?_ ?_
  · rintro rfl
    simpa only [mul_one, List.map_const', List.sum_replicate, nsmul_eq_mul] using
      Loop.mean_views nr hnr hl ids l junk x data hx hn hred
  · intro W w hW hnd hsub hwt R hR I hI
    obtain ⟨chunk, wchunk, h1, h2, h3⟩ := pair_eq nr hnr junk junk hl x data hx hred.reg W w hW hnd (given_sub hsub) R
    refine ⟨_, by rw [(h3 I hI).1 ℚ, (h3 I hI).2 chunk fun _ => rfl]; rfl, ?_⟩
    have := weightedMean_correct hI.good hl (wpos_sub hred.reg hsub hR) h1 h2
    simp only [fibre_congr hR, varWeight_on _ _ (given_sub hsub), ← hwt] at this
    exact this

/-- C94: `var.mean(axes, weights=...)` shows the sum of the values times their weights, divided by the sum of the weights. -/
theorem mean_shows_partial (junk : List ℕ → ℚ) (x : Var ℚ) (data : List ℕ → ℚ) (hx : Contains x data)
    (hn : Names x.axes ids l) (hred : Reducible x.axes l) (hw : WeightsAre x.axes l arg wt) :
    ∃ y, mean nr junk limit x ids arg = some y ∧ y.axes = dropAxes ax0 l x.axes ∧
      Shows nr y fun s => ((fibre (x.axes.map Axis.len) l s).map fun q => data q * wt q).sum /
        ((fibre (x.axes.map Axis.len) l s).map wt).sum := by
  obtain ⟨y, h1, h2, h3⟩ := mean_views nr hnr hl ids l arg wt junk x data hx hn hred hw
  exact ⟨y, h1, h2, h3.shows (by rw [h2]; exact hred.reg.sublist (dropAxes_sublist _ _))⟩

/-- C94: `var.variance(axes, weights=...)` shows the weighted sum of the squared deviations from the weighted mean, divided by the sum of
the weights less one, when the weights do not cancel. -/
theorem variance_shows_partial (junk : List ℕ → ℚ) (x : Var ℚ) (data : List ℕ → ℚ) (hx : Contains x data)
    (hn : Names x.axes ids l) (hred : Reducible x.axes l) (hw : WeightsAre x.axes l arg wt)
    (hne : ∀ s, InBounds (dropAxes 0 l (x.axes.map Axis.len)) s → ((fibre (x.axes.map Axis.len) l s).map wt).sum ≠ 0) :
    ∃ y, variance nr junk limit x ids arg = some y ∧ y.axes = dropAxes ax0 l x.axes ∧
      Shows nr y fun s =>
        let cells := fibre (x.axes.map Axis.len) l s
        let m := (cells.map fun q => data q * wt q).sum / (cells.map wt).sum
        (cells.map fun q => wt q * (data q - m) ^ 2).sum / ((cells.map wt).sum - 1) := by
  refine select_shows nr junk junk x ids l hn hred arg wt hw _ _ _ ?_ ?_
  · rintro rfl
    simpa only [textbookVariance, mul_one, one_mul, List.map_const', List.sum_replicate, nsmul_eq_mul, List.map_map, List.length_map,
      Function.comp_def] using Loop.variance_shows nr hnr hl ids l junk x data hx hn hred
  · intro W w hW hnd hsub hwt R hR I hI
    obtain ⟨chunk, wchunk, h1, h2, h3⟩ := pair_eq nr hnr junk junk hl x data hx hred.reg W w hW hnd (given_sub hsub) R
    refine ⟨weightedVarianceVar limit (x.axes.map Axis.len) R I chunk wchunk,
      by rw [(h3 I hI).1 ℚ, (h3 I hI).1 ℚ, (h3 I hI).2 chunk fun _ => rfl]; rfl, reduceLoop_shape _ _, fun k hk => ?_⟩
    have hb : InBounds (dropAxes 0 l (x.axes.map Axis.len)) (cell I k) := by
      rw [← dropAxes_congr 0 hR]
      exact cell_inBounds hI.good hk
    have := weightedVariance_correct hI.good hl (wpos_sub hred.reg hsub hR) h1 h2 hk (by
      simp only [fibre_congr hR, varWeight_on _ _ (given_sub hsub), ← hwt]
      exact hne _ hb)
    simp only [fibre_congr hR, varWeight_on _ _ (given_sub hsub), ← hwt] at this
    exact this

omit hnr hl in
theorem valid_scale (wt : List ℕ → ℚ) (data : List ℕ → Option ℚ) : ∀ L : List (List ℕ),
    (valid (L.map fun q => nanMul (data q) (wt q))).sum =
      ((L.filter fun q => (data q).isSome).map fun q => (data q).getD 0 * wt q).sum
  | [] => rfl
  | q :: L => by
    have ih := valid_scale wt data L
    unfold valid at *
    cases hd : data q with
    | none =>
      rw [List.map_cons, List.filterMap_cons_none (by simp [hd, nanMul]), ih, List.filter_cons_of_neg (by simp [hd])]
    | some v =>
      rw [List.map_cons, List.filterMap_cons_some (by simp [hd, nanMul]; rfl), List.sum_cons, ih, List.filter_cons_of_pos (by simp [hd]),
        List.map_cons, List.sum_cons, hd]
      rfl

/-- C94: `var.nansum(axes, weights=...)` shows the sum of the values that are numbers times their weights. -/
theorem nansum_shows_partial (junk : List ℕ → Option ℚ) (junkw : List ℕ → ℚ) (x : Var (Option ℚ)) (data : List ℕ → Option ℚ) (hx : Contains x data)
    (hn : Names x.axes ids l) (hred : Reducible x.axes l) (hw : WeightsAre x.axes l arg wt) :
    ∃ y, nansum nr junk junkw limit x ids arg = some y ∧ y.axes = dropAxes ax0 l x.axes ∧
      Shows nr y fun s => some (((fibre (x.axes.map Axis.len) l s).filter fun q => (data q).isSome).map fun q =>
        (data q).getD 0 * wt q).sum := by
  refine select_shows nr junkw junk x ids l hn hred arg wt hw _ _ _ ?_ ?_
  · rintro rfl
    have := Loop.nansum_shows nr hnr hl ids l junk x data hx hn hred
    simp only [← valid_scale]
    have e : (fun q : List ℕ => nanMul (data q) 1) = data := by
      funext q; unfold nanMul; cases data q <;> simp
    simp only [e]
    exact this
  · intro W w hW hnd hsub hwt R hR I hI
    obtain ⟨chunk, wchunk, h1, h2, h3⟩ := pair_eq nr hnr junk junkw hl x data hx hred.reg W w hW hnd (given_sub hsub) R
    refine ⟨_, (h3 I hI).1 (Option ℚ) _ _ _, ?_⟩
    have := nansum_correct hI.good hl (reads_broadcast nanMul h1 h2)
    simp only [fibre_congr hR, varWeight_on _ _ (given_sub hsub), ← hwt, valid_scale] at this
    exact this

/-- C94: `var.nanmean(axes, weights=...)` shows the weighted mean of the values that are numbers, and NaN where their weights do not add
up to something positive. -/
theorem nanmean_shows_partial (junk : List ℕ → Option ℚ) (junkw : List ℕ → ℚ) (x : Var (Option ℚ)) (data : List ℕ → Option ℚ) (hx : Contains x data)
    (hn : Names x.axes ids l) (hred : Reducible x.axes l) (hw : WeightsAre x.axes l arg wt) :
    ∃ y, nanmean nr junk junkw limit x ids arg = some y ∧ y.axes = dropAxes ax0 l x.axes ∧
      Shows nr y fun s =>
        let good := (fibre (x.axes.map Axis.len) l s).filter fun q => (data q).isSome
        let Wt := (good.map wt).sum
        if 0 < Wt then some ((good.map fun q => (data q).getD 0 * wt q).sum / Wt) else none := by
  refine select_shows nr junkw junk x ids l hn hred arg wt hw _ _ _ ?_ ?_
  · rintro rfl
    have := Loop.nanmean_shows nr hnr hl ids l junk x data hx hn hred
    have e : (fun q : List ℕ => nanMul (data q) 1) = data := by
      funext q; unfold nanMul; cases data q <;> simp
    have h1 := fun s => valid_scale (fun _ => 1) data (fibre (x.axes.map Axis.len) l s)
    simp only [e] at h1
    have h2 : ∀ s, (valid ((fibre (x.axes.map Axis.len) l s).map data)).length =
        ((fibre (x.axes.map Axis.len) l s).filter fun q => (data q).isSome).length := by
      intro s
      unfold valid
      induction fibre (x.axes.map Axis.len) l s with
      | nil => rfl
      | cons q L ih =>
        cases hd : data q with
        | none => rw [List.map_cons, List.filterMap_cons_none (by simp [hd]), ih, List.filter_cons_of_neg (by simp [hd])]
        | some v =>
          rw [List.map_cons, List.filterMap_cons_some (by simp [hd]; rfl), List.length_cons, ih, List.filter_cons_of_pos (by simp [hd]),
            List.length_cons]
    convert this using 5 with y
    funext s
    simp only [List.map_const', List.sum_replicate, nsmul_eq_mul, mul_one]
    rw [h1, h2]
    by_cases hv : valid ((fibre (x.axes.map Axis.len) l s).map data) = []
    · have := h2 s
      rw [hv] at this
      rw [if_pos hv, if_neg (by rw [← this]; simp)]
    · have := h2 s
      have hp : 0 < (valid ((fibre (x.axes.map Axis.len) l s).map data)).length := List.length_pos_iff.2 hv
      rw [if_neg hv, if_pos (by rw [← this]; exact_mod_cast hp)]
      simp only [mul_one]
  · intro W w hW hnd hsub hwt R hR I hI
    obtain ⟨chunk, wchunk, h1, h2, h3⟩ := pair_eq nr hnr junk junkw hl x data hx hred.reg W w hW hnd (given_sub hsub) R
    refine ⟨_, by rw [(h3 I hI).1 (Option ℚ), (h3 I hI).1 (Option ℚ)]; rfl, ?_⟩
    have := weightedNanMean_correct hI.good hl h1 h2
    simp only [fibre_congr hR, varWeight_on _ _ (given_sub hsub), ← hwt] at this
    exact this

/-- C43: `var.nanvariance(axes)` shows the variance of the values that are numbers; NaN if there are less than two. -/
theorem nanvariance_shows (junk : List ℕ → Option ℚ) (x : Var (Option ℚ)) (data : List ℕ → Option ℚ) (hx : Contains x data)
    (hn : Names x.axes ids l) (hred : Reducible x.axes l) :
    ∃ y, nanvariance nr junk limit x ids = some y ∧ y.axes = dropAxes ax0 l x.axes ∧
      Shows nr y fun s => let vals := valid ((fibre (x.axes.map Axis.len) l s).map data)
        if vals.length ≤ 1 then none else some (textbookVariance vals) := by
  refine reduced_shows nr junk x ids l hn hred _ _ fun R hR I hI => ?_
  obtain ⟨chunk, h1, h2⟩ := reduceView_eq nr hnr junk hl x data hx R
  refine ⟨_, by rw [h2 I hI (Option ℚ), h2 I hI (Option ℚ), h2 I hI (Option ℚ)]; rfl, ?_⟩
  have := nanvariance_correct hI.good hl h1
  simp only [fibre_congr hR] at this
  exact this

omit hnr hl in
/-- C94: weights given along an axis that is not one of the reduced ones are refused. -/
theorem rejects (junk : List ℕ → ℚ) (x : Var ℚ) (hn : Names x.axes ids l) (hred : Reducible x.axes l) (W : Var ℚ)
    (a : Axis) (ha : a ∈ W.axes) (hno : ∀ i ∈ l, ∀ b, x.axes[i]? = some b → axEq a b = false) :
    mean nr junk limit x ids (.given W) = none ∧ sum nr junk limit x ids (.given W) = none ∧
      variance nr junk limit x ids (.given W) = none := by
  obtain ⟨hnd, hlt, R, hR, hRn, hRm⟩ := names_facts hn hred.ne hred.pos
  have hne : W.axes.length ≠ 0 := fun h => by rw [List.length_eq_zero_iff.1 h] at ha; simp at ha
  have hm : weightsMatch x.axes R W.axes = false := by
    unfold weightsMatch
    rw [List.all_eq_false]
    refine ⟨a, ha, ?_⟩
    rw [Bool.not_eq_true, List.any_eq_false]
    intro b hb
    obtain ⟨hb1, hb2⟩ := List.mem_filter.1 hb
    obtain ⟨i, hi, rfl⟩ := List.getElem_of_mem hb1
    by_cases hil : i ∈ l
    · rw [hno i hil _ (List.getElem?_eq_getElem hi)]; simp
    · exfalso
      rw [Bool.not_eq_true', List.any_eq_false] at hb2
      refine hb2 x.axes[i] ?_ (by simp [axEq])
      rw [List.mem_filterMap]
      refine ⟨i, ?_, List.getElem?_eq_getElem hi⟩
      unfold keptAxes
      rw [List.mem_filter]
      exact ⟨by simpa using hi, by simpa [hRm] using hil⟩
  have key : ∀ (β : Type) (junk' : List ℕ → β) plain (g : Var ℚ → List ℕ → View Axis → Option (NArr β)),
      select nr junk junk' x ids (.given W) plain g = none := by
    intro β junk' plain g
    unfold select
    show (some (if W.axes.length = 0 then none else some W)).bind _ = _
    rw [if_neg hne, Option.bind_some]
    simp only
    unfold weightedVar
    rw [hR, Option.bind_some, hm]
    rfl
  exact ⟨key ℚ _ _ _, key ℚ _ _ _, key ℚ _ _ _⟩

omit hnr hl in
/-- C94, violated for a single weight: weights given as a variable without axes are dropped, also in a sum, where they would count. -/
theorem scalar_weight_violated (junk : List ℕ → ℚ) (x : Var ℚ) (W : Var ℚ) (hW : W.axes = []) :
    sum nr junk limit x ids (.given W) = sum nr junk limit x ids .no := by
  unfold sum select chooseWeights
  simp [hW]

end

/-! ### Examples -/

/-- the weights 1, 2, 3, 4 of the longitudes are used by default -/
example : WeightsAre boxEx.axes [2, 1] .default (axesWeight boxEx.axes [2, 1]) :=
  .default (by
    intro i hi a ha ws hws
    simp only [List.mem_cons, List.not_mem_nil, or_false] at hi
    rcases hi with rfl | rfl
    · have : a = lonEx := by simpa [boxEx] using ha.symm
      subst this
      have : ws = [1, 2, 3, 4] := by
        have h : axisWeights lonEx = some [1, 2, 3, 4] := by decide +kernel
        rw [h] at hws; exact (Option.some.inj hws).symm
      subst this
      decide +kernel
    · have : a = timeEx 2 := by simpa [boxEx] using ha.symm
      subst this
      exact absurd hws (by
        have h : axisWeights (timeEx 2) = none := by decide +kernel
        rw [h]; simp))

example : axesWeight boxEx.axes [2, 1] [1, 1, 3] = 4 := by decide +kernel

/-- the mean over times and longitudes with the default weights, in chunks of at most 3 values: the mean of the longitudes' positions
0, 1, 2, 3 with the weights 1, 2, 3, 4 is 2, not 3/2 -/
example : ((mean (fun _ => 0) (fun _ => 7) 3 boxEx [.int 2, .int 1]).bind fun y =>
    (y.read (fun _ => 0) (fun _ => 7) ⟨y.axes, [[2, 0]]⟩).map fun r => (r.shape, [[0], [1]].map r.get)) =
    some ([2], [207, 7]) := by decide +kernel

example : ((mean (fun _ => 0) (fun _ => 7) 3 boxEx [.int 2, .int 1] .no).bind fun y =>
    (y.read (fun _ => 0) (fun _ => 7) ⟨y.axes, [[2, 0]]⟩).map fun r => (r.shape, [[0], [1]].map r.get)) =
    some ([2], [206 + 1 / 2, 6 + 1 / 2]) := by decide +kernel

/-- weights for the two times -/
def timeWeights : Var ℚ := { axes := [timeEx 2], src := .values ⟨[2], fun k => 1 + 2 * k.getD 0 0⟩ }

example : WeightsAre boxEx.axes [2, 1] (.given timeWeights) (varWeight boxEx.axes timeWeights.axes fun k => 1 + 2 * k.getD 0 0) :=
  .given _ _ ⟨by decide +kernel, fun _ _ => rfl⟩ (by simp [timeWeights]) (by simp [timeWeights])
    fun a ha => ⟨1, by simp, by
      have h : a = timeEx 2 := by simpa [timeWeights] using ha
      rw [h]; rfl⟩

example : ((mean (fun _ => 0) (fun _ => 7) 3 boxEx [.int 2, .int 1] (.given timeWeights)).bind fun y =>
    (y.read (fun _ => 0) (fun _ => 7) ⟨y.axes, [[2, 0]]⟩).map fun r => (r.shape, [[0], [1]].map r.get)) =
    some ([2], [209, 9]) := by decide +kernel

/-- weights along the axis that is kept are refused -/
example : (mean (fun _ => 0) (fun _ => 7) 3 boxEx [.int 2] (.given timeWeights)).isNone = true := by decide +kernel

end Weights
end PyGeode
