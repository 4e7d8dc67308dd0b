/- Cells as flat positions, and the weighting of variables in EOF analysis (for property C100). -/
import Verif.Model.Eof
import Verif.Props.Weights
import Verif.Props.GetItem
import Verif.Props.Pack
import Verif.Props.Stats
import Verif.Props.Rotate

namespace PyGeode
namespace Eof
open Spec NArr Axis Combine VarOps Reduce Loop
variable {α β : Type}

/-! ### Specification -/

/-- the sum over all cells of an array of the given shape -/
def _root_.PyGeode.Spec.cellSum {M : Type} [AddCommMonoid M] (shape : List ℕ) (f : List ℕ → M) : M :=
  ((product (shape.map List.range)).map f).sum

/-- a weight divided by the average of the weights of all cells -/
noncomputable def _root_.PyGeode.Spec.normalised (shape : List ℕ) (wt : List ℕ → ℚ) (s : List ℕ) : ℝ :=
  ((wt s / (cellSum shape wt / (shape.prod : ℚ)) : ℚ) : ℝ)

/-- `wt` is the weight of each cell of the axes `S` that the argument `weight` asks for: the same for all (`False`), the product of the
weights that the axes have (`True`; the other axes `P` of the variable have none), or those in a variable whose axes are among `S`. -/
inductive _root_.PyGeode.Spec.EofWeights (P S : List Axis) : Weight → (List ℕ → ℚ) → Prop
  | false : EofWeights P S .false fun _ => 1
  | true (hP : ∀ a ∈ P, Weights.axisWeights a = none) (hlen : ∀ a ∈ S, ∀ ws, Weights.axisWeights a = some ws → ws.length = a.len) :
      EofWeights P S .true (axesWeight S (List.range S.length))
  | given (W : Var ℚ) (w : List ℕ → ℚ) (hw : Contains W w) (hnd : W.axes.Nodup) (hsub : ∀ a ∈ W.axes, a ∈ S) :
      EofWeights P S (.given W) (varWeight S W.axes w)

/-! ### Cells -/

theorem cellSum_cons {M : Type} [AddCommMonoid M] (n : ℕ) (S : List ℕ) (f : List ℕ → M) :
    cellSum (n :: S) f = ((List.range n).map fun i => cellSum S fun k => f (i :: k)).sum := by
  unfold cellSum
  simp only [List.map_cons, product, List.map_flatMap, List.map_map]
  have : ∀ l : List ℕ, (l.flatMap fun a => (product (S.map List.range)).map (f ∘ fun x => a :: x)).sum =
      (l.map fun i => ((product (S.map List.range)).map fun k => f (i :: k)).sum).sum := by
    intro l
    induction l with
    | nil => rfl
    | cons a l ih => rw [List.flatMap_cons, List.sum_append, ih]; rfl
  exact this _

theorem cellSum_append {M : Type} [AddCommMonoid M] (S1 S2 : List ℕ) (f : List ℕ → M) :
    cellSum (S1 ++ S2) f = cellSum S1 fun k1 => cellSum S2 fun k2 => f (k1 ++ k2) := by
  induction S1 generalizing f with
  | nil => simp [cellSum, product]
  | cons n S1 ih =>
    rw [List.cons_append, cellSum_cons, cellSum_cons]
    simp only [ih]
    rfl

theorem cellSum_congr {M : Type} [AddCommMonoid M] {S : List ℕ} {f g : List ℕ → M} (h : ∀ k, InBounds S k → f k = g k) :
    cellSum S f = cellSum S g := by
  unfold cellSum
  congr 1
  exact List.map_congr_left fun k hk => h k (mem_product_range.1 hk)

theorem list_sum_comm {M : Type} [AddCommMonoid M] {A B : Type} (l : List A) (l' : List B) (f : A → B → M) :
    (l.map fun a => (l'.map fun b => f a b).sum).sum = (l'.map fun b => (l.map fun a => f a b).sum).sum := by
  induction l with
  | nil => simp
  | cons a l ih =>
    simp only [List.map_cons, List.sum_cons, ih]
    exact List.sum_map_add.symm

theorem cellSum_comm {M : Type} [AddCommMonoid M] {A : Type} (S : List ℕ) (l : List A) (f : List ℕ → A → M) :
    (cellSum S fun k => (l.map fun a => f k a).sum) = (l.map fun a => cellSum S fun k => f k a).sum := by
  unfold cellSum
  rw [list_sum_comm]

theorem list_sum_range {M : Type} [AddCommMonoid M] (n : ℕ) (f : ℕ → M) : ((List.range n).map f).sum = ∑ i ∈ Finset.range n, f i := rfl

theorem product_unravel : ∀ S : List ℕ, product (S.map List.range) = (List.range S.prod).map (unravel S)
  | [] => by simp [product, unravel]
  | n :: S => by
    have ih := product_unravel S
    simp only [List.map_cons, product, ih, List.map_map, List.prod_cons]
    induction n with
    | zero => simp
    | succ n ihn =>
      rw [List.range_succ, List.flatMap_append, ihn, Nat.succ_mul, List.range_add, List.map_append]
      congr 1
      simp only [List.flatMap_cons, List.flatMap_nil, List.append_nil, List.map_map]
      refine List.map_congr_left fun j hj => ?_
      have hj := List.mem_range.1 hj
      have hp : 0 < S.prod := by omega
      simp only [Function.comp_apply, unravel]
      rw [Nat.mul_comm n, Nat.mul_add_div hp, Nat.div_eq_of_lt hj, Nat.mul_add_mod, Nat.mod_eq_of_lt hj, Nat.add_zero]

theorem cellSum_unravel {M : Type} [AddCommMonoid M] (S : List ℕ) (f : List ℕ → M) :
    cellSum S f = ∑ j ∈ Finset.range S.prod, f (unravel S j) := by
  unfold cellSum
  rw [product_unravel, List.map_map, ← list_sum_range]
  rfl

theorem unravel_append : ∀ (T S : List ℕ) (i j : ℕ), j < S.prod → i < T.prod →
    unravel (T ++ S) (i * S.prod + j) = unravel T i ++ unravel S j
  | [], S, i, j, hj, hi => by
    have : i = 0 := by simpa using hi
    subst this
    simp [unravel]
  | n :: T, S, i, j, hj, hi => by
    have hS : 0 < S.prod := by omega
    have hT : 0 < T.prod := by
      rcases Nat.eq_zero_or_pos T.prod with h | h
      · simp [h] at hi
      · exact h
    simp only [List.cons_append, unravel, List.prod_append]
    have h1 : (i * S.prod + j) / (T.prod * S.prod) = i / T.prod := by
      rw [Nat.mul_comm T.prod, ← Nat.div_div_eq_div_mul, Nat.mul_comm i, Nat.mul_add_div hS, Nat.div_eq_of_lt hj, Nat.add_zero]
    have h2 : (i * S.prod + j) % (T.prod * S.prod) = i % T.prod * S.prod + j := by
      have hi' := Nat.div_add_mod i T.prod
      have hlt := Nat.mod_lt i hT
      have : i * S.prod + j = (i % T.prod * S.prod + j) + (T.prod * S.prod) * (i / T.prod) := by
        conv_lhs => rw [← hi']
        ring
      rw [this, Nat.add_mul_mod_self_left, Nat.mod_eq_of_lt]
      calc i % T.prod * S.prod + j < i % T.prod * S.prod + S.prod := by omega
        _ = (i % T.prod + 1) * S.prod := by ring
        _ ≤ T.prod * S.prod := Nat.mul_le_mul_right _ hlt
    rw [h1, h2, unravel_append T S (i % T.prod) j hj (Nat.mod_lt _ hT)]

theorem unravel_zero : ∀ S : List ℕ, unravel S 0 = S.map fun _ => 0
  | [] => rfl
  | n :: S => by simp [unravel, unravel_zero S]

/-- The average over all cells of something that depends on some of the coordinates only is the average over those. -/
theorem average_sub (A : List Axis) (hA : A.Nodup) (B : List Axis) (hB : B.Nodup) (hsub : ∀ b ∈ B, b ∈ A) (w : List ℕ → ℚ) :
    ((B.map Axis.len).prod : ℚ) * cellSum (A.map Axis.len) (fun k => w (B.map fun b => k.getD (A.idxOf b) 0)) =
      ((A.map Axis.len).prod : ℚ) * cellSum (B.map Axis.len) w := by
  induction B generalizing A w with
  | nil =>
    simp only [List.map_nil, List.prod_nil, Nat.cast_one, one_mul]
    rw [cellSum_unravel]
    simp [cellSum, product]
  | cons b B ih =>
    obtain ⟨A1, A2, rfl⟩ := List.append_of_mem (hsub b (by simp))
    have hnd : (b :: (A1 ++ A2)).Nodup := (List.perm_middle.nodup_iff).1 hA
    have hbA : b ∉ A1 ++ A2 := (List.nodup_cons.1 hnd).1
    have hA' := (List.nodup_cons.1 hnd).2
    have hb : b ∉ B := (List.nodup_cons.1 hB).1
    have hsub' : ∀ c ∈ B, c ∈ A1 ++ A2 := by
      intro c hc
      have := hsub c (by simp [hc])
      simp only [List.mem_append, List.mem_cons] at this ⊢
      rcases this with h | rfl | h
      · exact Or.inl h
      · exact absurd hc hb
      · exact Or.inr h
    have hkey : cellSum ((A1 ++ b :: A2).map Axis.len)
          (fun k => w ((b :: B).map fun c => k.getD ((A1 ++ b :: A2).idxOf c) 0)) =
        ((List.range b.len).map fun i => cellSum ((A1 ++ A2).map Axis.len)
          fun k => w (i :: B.map fun c => k.getD ((A1 ++ A2).idxOf c) 0)).sum := by
      rw [List.map_append, List.map_cons, cellSum_append]
      simp only [cellSum_cons]
      rw [cellSum_comm]
      congr 1
      refine List.map_congr_left fun i _ => ?_
      rw [List.map_append, cellSum_append]
      refine cellSum_congr fun k1 hk1 => cellSum_congr fun k2 _ => ?_
      have hl : k1.length = A1.length := by simpa using hk1.length_eq
      congr 1
      rw [List.map_cons]
      have hb1 : b ∉ A1 := fun h => hbA (by simp [h])
      congr 1
      · rw [List.idxOf_append_of_notMem hb1, List.idxOf_cons_self, Nat.add_zero, ← hl,
          List.getD_append_right _ _ _ _ (le_refl _)]
        simp
      · refine List.map_congr_left fun c hc => ?_
        have hcb : b ≠ c := fun h => hb (h ▸ hc)
        by_cases hc1 : c ∈ A1
        · have hlt := List.idxOf_lt_length_of_mem hc1
          rw [List.idxOf_append_of_mem hc1, List.idxOf_append_of_mem hc1, List.getD_append _ _ _ _ (by omega),
            List.getD_append _ _ _ _ (by omega)]
        · rw [List.idxOf_append_of_notMem hc1, List.idxOf_append_of_notMem hc1, List.idxOf_cons_ne _ hcb,
            List.getD_append_right _ _ _ _ (by omega), List.getD_append_right _ _ _ _ (by omega)]
          rw [show A1.length + (A2.idxOf c).succ - k1.length = A2.idxOf c + 1 by omega,
            show A1.length + A2.idxOf c - k1.length = A2.idxOf c by omega, List.getD_cons_succ]
    rw [hkey, List.map_cons, cellSum_cons, List.prod_cons]
    have hprod : ((A1 ++ b :: A2).map Axis.len).prod = b.len * ((A1 ++ A2).map Axis.len).prod := by
      simp only [List.map_append, List.map_cons, List.prod_append, List.prod_cons]; ring
    rw [hprod, Nat.cast_mul, Nat.cast_mul]
    have : ∀ i, ((B.map Axis.len).prod : ℚ) * (cellSum ((A1 ++ A2).map Axis.len)
          fun k => w (i :: B.map fun c => k.getD ((A1 ++ A2).idxOf c) 0)) =
        (((A1 ++ A2).map Axis.len).prod : ℚ) * cellSum (B.map Axis.len) fun j => w (i :: j) := fun i =>
      ih (A1 ++ A2) hA' (List.nodup_cons.1 hB).2 hsub' fun j => w (i :: j)
    rw [mul_assoc, mul_assoc]
    refine congrArg (fun z => (b.len : ℚ) * z) ?_
    rw [← List.sum_map_mul_left, ← List.sum_map_mul_left]
    exact congrArg List.sum (List.map_congr_left fun i _ => this i)

/-! ### Element by element operations -/

theorem outAxes_mem {lists : List (List Axis)} (hcl : Clean lists.flatten) :
    ∃ out, outAxes lists = some out ∧ ∀ a ∈ out, a ∈ lists.flatten := by
  have hfold : ∀ (l out : List Axis), (∀ a ∈ l, a ∈ lists.flatten) → (∀ a ∈ out, a ∈ lists.flatten) →
      ∃ R, l.foldl (fun (out : Option (List Axis)) (a : Axis) => out.bind (insertAxis a)) (some out) = some R ∧
        ∀ a ∈ R, a ∈ lists.flatten := by
    intro l
    induction l with
    | nil => intro out _ ho; exact ⟨out, rfl, ho⟩
    | cons a l ih =>
      intro out hl ho
      rw [List.foldl_cons, Option.bind_some, hcl.insertAxis (hl a (by simp)) ho]
      refine ih _ (fun b hb => hl b (by simp [hb])) fun b hb => ?_
      split_ifs at hb
      · exact ho b hb
      · rcases List.mem_append.1 hb with hb | hb
        · exact ho b hb
        · rw [List.mem_singleton.1 hb]; exact hl a (by simp)
  exact hfold _ [] (fun a ha => ha) (by simp)

/-- the axes of a variable and a subset of them combine to the axes of the variable, in its order -/
theorem combine_first {A B : List Axis} (hA : Clean A) (hsub : ∀ b ∈ B, b ∈ A) : combineAxes [A, B] = some A := by
  have hcl : Clean [A, B].flatten := by
    have : ∀ a ∈ [A, B].flatten, a ∈ A := by
      intro a ha
      simp only [List.flatten_cons, List.flatten_nil, List.append_nil, List.mem_append] at ha
      exact ha.elim id (hsub a)
    exact ⟨fun a ha => hA.1 a (this a ha), fun a ha b hb => hA.2 a (this a ha) b (this b hb)⟩
  obtain ⟨out, h1, h2⟩ := outAxes_mem hcl
  unfold combineAxes
  simp only
  rw [h1, Option.map_some, List.find?_cons_of_pos]
  rw [List.all_eq_true]
  intro o ho
  have : o ∈ A := by
    have := h2 o ho
    simp only [List.flatten_cons, List.flatten_nil, List.append_nil, List.mem_append] at this
    exact this.elim id (hsub o)
  unfold elem
  rw [List.any_eq_true]
  exact ⟨o, this, by simp [Axis.axEq]⟩

theorem ufuncVar_correct (op : List α → β) (nr : List ℚ → ℚ) (junk : List ℕ → α) (junk' : List ℕ → β) (args : List (Operand α))
    (held : List (List Axis × (List ℕ → α))) (hh : List.Forall₂ Holds args held) (R : List Axis) (hR : ufuncAxes args = some R)
    (hRc : Clean R) (hsub : ∀ h ∈ held, ∀ a ∈ h.1, a ∈ R) (hnd : ∀ h ∈ held, h.1.Nodup) :
    ∃ y, ufuncVar op nr junk junk' args = some y ∧ y.axes = R ∧
      Contains y fun k => op (held.map fun h => relabel h.1 R h.2 k) := by
  refine ⟨Var.ofView junk' R (ufuncView op nr junk args), by unfold ufuncVar; rw [hR]; rfl, rfl, ?_⟩
  refine contains_ofView _ _ _ _ fun I hI hne => ?_
  have hcl : Clean (held.map Prod.fst).flatten := by
    have : ∀ a ∈ (held.map Prod.fst).flatten, a ∈ R := by
      intro a ha
      obtain ⟨A, hA, haA⟩ := List.mem_flatten.1 ha
      obtain ⟨h, hh, rfl⟩ := List.mem_map.1 hA
      exact hsub h hh a haA
    exact ⟨fun a ha => hRc.1 a (this a ha), fun a ha b hb => hRc.2 a (this a ha) b (this b hb)⟩
  obtain ⟨r, h1, h2, h3⟩ := ufunc_correct op nr junk args held hh hcl hnd R hR I hI hne
  refine ⟨r, h1, h2, fun k hk => ?_⟩
  have hIl : R.length = I.length := by simpa using hI.length_eq.symm
  rw [h3 k (by rw [h2]; exact hk)]
  congr 1
  refine List.map_congr_left fun h hh => ?_
  exact relabel_cell h.1 R h.2 I k (fun a ha => hsub h hh a ha) hIl (by simpa using hk.length_eq)

theorem relabel_self {R : List Axis} (hn : R.Nodup) (data : List ℕ → α) (k : List ℕ) (hk : k.length = R.length) :
    relabel R R data k = data k := by
  unfold relabel
  congr 1
  refine List.ext_getElem (by simp [hk]) fun i h1 h2 => ?_
  have hi : i < R.length := by simpa using h1
  rw [List.getElem_map, hn.idxOf_getElem i hi, List.getD_eq_getElem _ _ h2]

/-! ### Weights -/

section
variable (nr : List ℚ → ℚ) (hnr : ∀ l, 0 ≤ nr l) {limit : ℕ} (hl : 1 ≤ limit)
include hnr hl

theorem total_correct (junk : List ℕ → ℚ) (W : Var ℚ) (w : List ℕ → ℚ) (hw : Contains W w) (hr : Regular W.axes)
    (htol : ∀ a ∈ W.axes, 0 ≤ a.rtol) (hpos : ∀ a ∈ W.axes, 0 < a.len) :
    total nr junk limit W = some (cellSum (W.axes.map Axis.len) w) := by
  unfold total
  by_cases h0 : W.axes = []
  · rw [if_pos (by simp [h0])]
    obtain ⟨r, h1, h2, h3⟩ := GetItem.get_correct nr junk W w hw hr hpos
    rw [h1, Option.map_some, h3 [] (by rw [h0]; exact .nil), h0]
    simp [cellSum, product]
  · rw [if_neg (by simpa using h0)]
    have hred : Reducible W.axes (List.range W.axes.length) :=
      ⟨hr, htol, fun i a hi hil => absurd (List.mem_range.2 (List.getElem?_eq_some_iff.1 hi).1) hil,
        by simpa using h0, fun i hi => by
          have hi := List.mem_range.1 hi
          rw [List.getD_eq_getElem _ _ (by simpa using hi), List.getElem_map]
          exact hpos _ (List.getElem_mem _)⟩
    obtain ⟨y, h1, h2, h3⟩ := Loop.sum_shows nr hnr hl [] (List.range W.axes.length) junk W w hw (by unfold Names; rw [if_pos rfl]) hred
    rw [Pack.dropAxes_all] at h2
    rw [h1, Option.bind_some]
    have hwh : y.whole = ⟨y.axes, []⟩ := by unfold Var.whole; rw [h2]; rfl
    obtain ⟨r, h4, h5⟩ := h3 junk [] (by rw [h2]; exact .nil) (by intro ind hind; simp at hind)
    unfold GetItem.get
    rw [hwh, h4, Option.map_some, h5.2 [] (by simp [InBounds])]
    have := Pack.fibre_all (W.axes.map Axis.len)
    rw [List.length_map] at this
    show some ((fibre (W.axes.map Axis.len) (List.range W.axes.length) []).map w).sum = _
    rw [this]
    rfl

theorem root_correct (junkw : List ℕ → ℚ) (junk : List ℕ → ℝ) (W : Var ℚ) (w : List ℕ → ℚ) (hw : Contains W w) (hr : Regular W.axes)
    (htol : ∀ a ∈ W.axes, 0 ≤ a.rtol) (hpos : ∀ a ∈ W.axes, 0 < a.len) :
    ∃ r, rootWeights nr junkw junk limit W = some r ∧ r.axes = W.axes ∧
      Contains r fun k => Real.sqrt ((w k / (cellSum (W.axes.map Axis.len) w / ((W.axes.map Axis.len).prod : ℚ)) : ℚ) : ℝ) := by
  unfold rootWeights
  rw [total_correct nr hnr hl junkw W w hw hr htol hpos, Option.bind_some]
  set c := cellSum (W.axes.map Axis.len) w / (size W : ℚ) with hc
  obtain ⟨n, h1, h2, h3⟩ := ufuncVar_correct div2 nr junkw junkw [operand W, .scalar c] [(W.axes, w), ([], fun _ => c)]
    (.cons (.var _ _ _ hw) (.cons (.scalar c) .nil)) W.axes rfl hr.clean (by simp) (by simp [hr.nodup])
  rw [h1, Option.bind_some]
  obtain ⟨r, h4, h5, h6⟩ := ufuncVar_correct sqrt1 nr junkw junk [operand n] [(n.axes, _)] (.cons (.var _ _ _ h3) .nil) n.axes rfl
    (by rw [h2]; exact hr.clean) (by simp) (by simp [h2, hr.nodup])
  refine ⟨r, h4, h5.trans h2, Rotate.contains_congr h6 fun k hk => ?_⟩
  rw [h5, h2] at hk
  have hkl : k.length = W.axes.length := by simpa using hk.length_eq
  simp only [List.map_cons, List.map_nil, sqrt1, List.headI_cons]
  rw [h2, relabel_self hr.nodup _ k hkl]
  simp only [div2, List.headI_cons, List.tail_cons]
  rw [relabel_self hr.nodup _ k hkl]
  rfl

/-- a variable combined with the root of the normalised weights -/
noncomputable def weigh (op : List ℝ → ℝ) (nr : List ℚ → ℚ) (junkw : List ℕ → ℚ) (junk : List ℕ → ℝ) (limit : ℕ) (x : Var ℝ)
    (weight : Weight) : Option (Var ℝ) :=
  (weightVar nr junkw x.axes weight).bind fun o => match o with
    | Option.none => some x
    | some W => (rootWeights nr junkw junk limit W).bind fun r => ufuncVar op nr junk junk [operand x, operand r]

omit hnr hl in
theorem apply_eq (junkw : List ℕ → ℚ) (junk : List ℕ → ℝ) (x : Var ℝ) (weight : Weight) :
    applyWeights nr junkw junk limit x weight = weigh mul2 nr junkw junk limit x weight := rfl

omit hnr hl in
theorem remove_eq (junkw : List ℕ → ℚ) (junk : List ℕ → ℝ) (x : Var ℝ) (weight : Weight) :
    removeWeights nr junkw junk limit x weight = weigh div2 nr junkw junk limit x weight := rfl

omit hnr hl in
theorem axesWeight_append (P S : List Axis) (hP : ∀ a ∈ P, Weights.axisWeights a = none) (k : List ℕ) :
    axesWeight (P ++ S) (List.range (P ++ S).length) k = axesWeight S (List.range S.length) (k.drop P.length) := by
  unfold axesWeight
  rw [List.length_append, List.range_add, List.map_append, List.prod_append, List.map_map]
  rw [List.prod_eq_one (l := List.map _ (List.range P.length)), one_mul]
  · congr 1
    refine List.map_congr_left fun i _ => ?_
    simp only [Function.comp_apply]
    rw [List.getElem?_append_right (by omega), Nat.add_sub_cancel_left]
    have : (k.drop P.length).getD i 0 = k.getD (P.length + i) 0 := by simp [List.getD_eq_getElem?_getD]
    rw [this]
  · intro q hq
    obtain ⟨i, hi, rfl⟩ := List.mem_map.1 hq
    have hi := List.mem_range.1 hi
    rw [List.getElem?_append_left hi, List.getElem?_eq_getElem hi, Option.bind_some, hP _ (List.getElem_mem _)]

omit hnr hl in
theorem varWeight_append (P S : List Axis) (hd : (P ++ S).Nodup) (B : List Axis) (hB : ∀ a ∈ B, a ∈ S) (w : List ℕ → α) (k : List ℕ) :
    relabel B (P ++ S) w k = relabel B S w (k.drop P.length) := by
  unfold relabel
  congr 1
  refine List.map_congr_left fun a ha => ?_
  have hP : a ∉ P := fun h => (List.nodup_append.1 hd).2.2 a h a (hB a ha) rfl
  rw [List.idxOf_append_of_notMem hP]
  simp [List.getD_eq_getElem?_getD]

/-- C100: the weighting of a variable. `P` are its leading axes, `S` those that may have weights. -/
theorem weigh_correct (op : List ℝ → ℝ) (hop : ∀ d, op [d, 1] = d) (junkw : List ℕ → ℚ) (junk : List ℕ → ℝ) (x : Var ℝ) (data : List ℕ → ℝ)
    (hx : Contains x data) (P S : List Axis) (hax : x.axes = P ++ S) (hr : Regular x.axes) (htol : ∀ a ∈ S, 0 ≤ a.rtol)
    (hpos : ∀ a ∈ S, 0 < a.len) (weight : Weight) (wt : List ℕ → ℚ) (hw : EofWeights P S weight wt) :
    ∃ y, weigh op nr junkw junk limit x weight = some y ∧ y.axes = x.axes ∧
      Contains y fun k => op [data k, Real.sqrt (normalised (S.map Axis.len) wt (k.drop P.length))] := by
  have hS0 : ((S.map Axis.len).prod : ℚ) ≠ 0 := by
    have : 0 < (S.map Axis.len).prod := List.prod_pos fun n hn => by
      obtain ⟨a, ha, rfl⟩ := List.mem_map.1 hn
      exact hpos a ha
    exact_mod_cast this.ne'
  have hSsub : ∀ a ∈ S, a ∈ x.axes := fun a ha => by rw [hax]; simp [ha]
  have hSnd : S.Nodup := (List.nodup_append.1 (hax ▸ hr.nodup)).2.1
  -- with a variable of weights
  have key : ∀ (W : Var ℚ) (w : List ℕ → ℚ), Contains W w → W.axes.Nodup → (∀ a ∈ W.axes, a ∈ S) →
      weightVar nr junkw x.axes weight = some (some W) → (∀ s, wt s = varWeight S W.axes w s) →
      ∃ y, weigh op nr junkw junk limit x weight = some y ∧ y.axes = x.axes ∧
      Contains y fun k => op [data k, Real.sqrt (normalised (S.map Axis.len) wt (k.drop P.length))] := by
    intro W w hW hnd hsub hwv hwt
    have hWr : Regular W.axes := Stats.regular_of_clean ⟨fun a ha => hr.cls a (hSsub a (hsub a ha)),
      fun a ha b hb => hr.clean.2 a (hSsub a (hsub a ha)) b (hSsub b (hsub b hb))⟩ hnd
    have hWp : ∀ a ∈ W.axes, 0 < a.len := fun a ha => hpos a (hsub a ha)
    obtain ⟨r, h1, h2, h3⟩ := root_correct nr hnr hl junkw junk W w hW hWr (fun a ha => htol a (hsub a ha)) hWp
    have hcomb : ufuncAxes [operand x, operand r] = some x.axes := by
      show combineAxes [x.axes, r.axes] = _
      exact combine_first hr.clean fun b hb => hSsub b (hsub b (h2 ▸ hb))
    obtain ⟨y, h4, h5, h6⟩ := ufuncVar_correct op nr junk junk [operand x, operand r] [(x.axes, data), (r.axes, _)]
      (.cons (.var _ _ _ hx) (.cons (.var _ _ _ h3) .nil)) x.axes hcomb hr.clean
      (by
        intro h hh a ha
        simp only [List.mem_cons, List.not_mem_nil, or_false] at hh
        rcases hh with rfl | rfl
        · exact ha
        · exact hSsub a (hsub a (by rw [h2] at ha; exact ha)))
      (by
        intro h hh
        simp only [List.mem_cons, List.not_mem_nil, or_false] at hh
        rcases hh with rfl | rfl
        · exact hr.nodup
        · rw [h2]; exact hnd)
    refine ⟨y, ?_, h5, Rotate.contains_congr h6 fun k hk => ?_⟩
    · unfold weigh
      rw [hwv, Option.bind_some]
      simp only
      rw [h1, Option.bind_some, h4]
    · rw [h5] at hk
      have hkl : k.length = x.axes.length := by simpa using hk.length_eq
      simp only [List.map_cons, List.map_nil]
      rw [relabel_self hr.nodup _ k hkl, h2, hax, varWeight_append P S (hax ▸ hr.nodup) W.axes hsub]
      refine congrArg (fun z => op [data k, z]) ?_
      unfold normalised relabel
      simp only
      refine congrArg (fun z : ℚ => Real.sqrt (z : ℝ)) ?_
      have hav := average_sub S hSnd W.axes hnd hsub w
      have hWpos : ((W.axes.map Axis.len).prod : ℚ) ≠ 0 := by
        have : 0 < (W.axes.map Axis.len).prod := List.prod_pos fun n hn => by
          obtain ⟨a, ha, rfl⟩ := List.mem_map.1 hn
          exact hWp a ha
        exact_mod_cast this.ne'
      have hcs : cellSum (S.map Axis.len) wt = cellSum (S.map Axis.len) (fun k => w (W.axes.map fun b => k.getD (S.idxOf b) 0)) :=
        cellSum_congr fun k _ => by rw [hwt]; rfl
      rw [hcs, hwt]
      unfold varWeight
      congr 1
      rw [div_eq_div_iff hWpos hS0, mul_comm, ← hav]
      ring
  cases hw with
  | false =>
    refine ⟨x, rfl, rfl, Rotate.contains_congr hx fun k _ => ?_⟩
    have : normalised (S.map Axis.len) (fun _ => 1) (k.drop P.length) = 1 := by
      unfold normalised
      rw [cellSum_unravel]
      simp only [Finset.sum_const, Finset.card_range, nsmul_eq_mul, mul_one]
      rw [div_self hS0]
      norm_num
    rw [this, Real.sqrt_one, hop]
  | given W w hW hnd hsub => exact key W w hW hnd hsub rfl fun _ => rfl
  | true hP hlen =>
    obtain ⟨W, w, h1, h2, h3, h4, h5, -⟩ := Weights.getweights_correct nr junkw hr (ids := []) (l := List.range x.axes.length)
      (by unfold Names; rw [if_pos rfl]) (by simp) (by
        intro i _ a ha ws hws
        have := List.mem_of_getElem? ha
        rw [hax] at this
        rcases List.mem_append.1 this with h | h
        · rw [hP a h] at hws; simp at hws
        · exact hlen a h ws hws)
    have hsub : ∀ a ∈ W.axes, a ∈ S := by
      intro a ha
      obtain ⟨⟨i, -, hi⟩, hsome⟩ := h4 a ha
      have := List.mem_of_getElem? hi
      rw [hax] at this
      rcases List.mem_append.1 this with h | h
      · rw [hP a h] at hsome; simp at hsome
      · exact h
    refine key W w h2 h3 hsub (by unfold weightVar; rw [h1]; rfl) fun s => ?_
    have h6 := congrFun h5 (P.map (fun _ => 0) ++ s)
    rw [hax, axesWeight_append P S hP] at h6
    have hd : (P.map (fun _ => 0) ++ s).drop P.length = s := by
      have : P.length = (P.map fun _ => 0).length := by simp
      rw [this, List.drop_left]
    rw [hd] at h6
    rw [h6]
    have := varWeight_append P S (hax ▸ hr.nodup) W.axes hsub w (P.map (fun _ => 0) ++ s)
    rw [hd] at this
    exact this

end

end Eof
end PyGeode
