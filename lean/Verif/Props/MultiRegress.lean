/-
C104: `multiple_regress` (/repo/pygeode/stats.py:391-594).
-/
import Verif.Props.MultiRegressLoop
import Verif.Props.MultiRegressCell
import Mathlib.Tactic.FinCases
import Mathlib.Tactic.FieldSimp
import Mathlib.LinearAlgebra.Matrix.Determinant.Basic

namespace PyGeode
namespace MultiRegress
open NArr Combine VarOps Reduce Loop Spec Axis Stats

/-! ### products of two arrays -/

theorem bcast_bread {α β γ : Type} (f : α → β → γ) {dx : List ℕ → α} {dy : List ℕ → β} {I : List (List ℕ)} {b c : List Bool}
    {x : NArr α} {y : NArr β} (hx : BRead dx I b x) (hy : BRead dy I c y) :
    BRead (fun p => f (dx p) (dy p)) I (List.zipWith (fun p q => p || q) b c) (bcast f x y) := by
  have hsh : (bcast f x y).shape =
      List.zipWith (fun (n : ℕ) (b : Bool) => if b then n else 1) (I.map List.length) (List.zipWith (fun p q => p || q) b c) := by
    show List.zipWith _ x.shape y.shape = _
    refine List.ext_getElem (by simp [hx.shape, hy.shape, hx.len, hy.len]) fun i hi hi' => ?_
    simp only [List.getElem_zipWith, hx.shape, hy.shape, List.getElem_map]
    generalize List.length _ = m
    cases b[i]'(by simp [hx.len] at hi' ⊢; omega) <;> cases c[i]'(by simp [hy.len] at hi' ⊢; omega) <;> simp
    omega
  have hxl : x.shape.length = I.length := by simp [hx.shape, hx.len]
  have hyl : y.shape.length = I.length := by simp [hy.shape, hy.len]
  have hb : ∀ (s : List ℕ) (k : List ℕ), s.length = I.length → k.length = I.length →
      (∀ (i : ℕ) (hi : i < I.length), s.getD i 0 = 1 ∨ (bcast f x y).shape.getD i 0 ≠ 1) → bindex s (bindex (bcast f x y).shape k) = bindex s k := by
    intro s k hs hk h
    have hbl : (bcast f x y).shape.length = I.length := by rw [hsh]; simp [hx.len, hy.len]
    unfold bindex
    refine List.ext_getElem (by simp [hbl, hk, hs]) fun i hi hi' => ?_
    have hiI : i < I.length := by simp [hs, hk] at hi'; exact hi'
    have := h i hiI
    rw [List.getD_eq_getElem s _ (by omega), List.getD_eq_getElem (bcast f x y).shape _ (by omega)] at this
    simp only [List.getElem_zipWith]
    rcases this with h | h
    · rw [if_pos h, if_pos h]
    · rw [if_neg h]
  refine ⟨by simp [hx.len, hy.len], hsh, fun k hk => ?_⟩
  have hkl : k.length = I.length := by simpa using hk.length_eq
  show f (x.get _) (y.get _) = _
  have hg : ∀ (i : ℕ) (hi : i < I.length), (bcast f x y).shape.getD i 0 = if x.shape.getD i 0 = 1 then y.shape.getD i 0 else x.shape.getD i 0 := by
    intro i hi
    have : i < (bcast f x y).shape.length := by rw [hsh]; simp [hx.len, hy.len, hi]
    rw [List.getD_eq_getElem _ _ this, List.getD_eq_getElem x.shape _ (by omega), List.getD_eq_getElem y.shape _ (by omega)]
    exact List.getElem_zipWith
  rw [hb x.shape k hxl hkl, hb y.shape k hyl hkl, hx.get k hk, hy.get k hk]
  · intro i hi
    by_cases h1 : y.shape.getD i 0 = 1
    · exact Or.inl h1
    refine Or.inr ?_
    rw [hg i hi]
    split_ifs with h2
    · exact h1
    · exact h2
  · intro i hi
    by_cases h1 : x.shape.getD i 0 = 1
    · exact Or.inl h1
    · right; rw [hg i hi, if_neg h1]; exact h1

theorem map_bread {α β : Type} (f : α → β) {d : List ℕ → α} {I : List (List ℕ)} {b : List Bool} {a : NArr α} (ha : BRead d I b a) :
    BRead (fun p => f (d p)) I b (a.map f) :=
  ⟨ha.len, ha.shape, fun k hk => by show f _ = _; exact congrArg f (ha.get k hk)⟩

theorem mapM_each {α β : Type} (f : α → Option β) (Q : ℕ → β → Prop) : ∀ (l : List α) (m : ℕ),
    (∀ (i : ℕ) (hi : i < l.length), ∃ y, f l[i] = some y ∧ Q (m + i) y) →
    ∃ r, l.mapM f = some r ∧ r.length = l.length ∧ ∀ (i : ℕ) (hi : i < r.length), Q (m + i) r[i]
  | [], m, _ => ⟨[], rfl, rfl, by simp⟩
  | a :: l, m, h => by
    obtain ⟨y, h1, h2⟩ := h 0 (by simp)
    obtain ⟨r, h3, h4, h5⟩ := mapM_each f Q l (m + 1) fun i hi => by
      obtain ⟨y, h1, h2⟩ := h (i + 1) (by simpa using hi)
      exact ⟨y, h1, by rw [show m + 1 + i = m + (i + 1) by omega]; exact h2⟩
    have h1' : f a = some y := h1
    refine ⟨y :: r, by rw [List.mapM_cons, h1', h3]; rfl, by simp [h4], fun i hi => ?_⟩
    rcases i with _ | i
    · exact h2
    · have := h5 i (by simpa using hi)
      rw [show m + (i + 1) = m + 1 + i by omega]
      exact this

theorem mapM_rel {α β : Type} (f : α → Option β) (Q : α → β → Prop) : ∀ (l : List α),
    (∀ a ∈ l, ∃ y, f a = some y ∧ Q a y) → ∃ r, l.mapM f = some r ∧ List.Forall₂ Q l r
  | [], _ => ⟨[], rfl, .nil⟩
  | a :: l, h => by
    obtain ⟨y, h1, h2⟩ := h a (by simp)
    obtain ⟨r, h3, h4⟩ := mapM_rel f Q l fun b hb => h b (by simp [hb])
    exact ⟨y :: r, by rw [List.mapM_cons, h1, h3]; rfl, .cons h2 h4⟩

/-! ### the sums -/

theorem sums_correct (nr : List ℚ → ℚ) (hnr : ∀ l, 0 ≤ nr l) (junk : List ℕ → ℚ) {limit : ℕ} (hl : 1 ≤ limit)
    (Xs : List (Var ℚ)) (Y : Var ℚ) (dX : ℕ → List ℕ → ℚ) (dY : List ℕ → ℚ)
    (hX : ∀ (i : ℕ) (hi : i < Xs.length), Contains Xs[i] (dX i)) (hY : Contains Y dY)
    (hXn : ∀ X ∈ Xs, X.axes.Nodup) (hYn : Y.axes.Nodup) (O T : List Axis) (hA : Countable (O ++ T) O)
    (hXm : ∀ X ∈ Xs, ∀ a ∈ X.axes, a ∈ O ++ T) (hYm : ∀ a ∈ Y.axes, a ∈ O ++ T)
    (hXT : ∀ X ∈ Xs, ∀ a ∈ T, a ∈ X.axes) (hYT : ∀ a ∈ T, a ∈ Y.axes) :
    ∃ out, sums nr junk limit Xs Y O T (O ++ T).length = some out ∧ out.shape = (wholeView O).shape ∧
      ∀ pos : Axis → ℕ, (∀ a ∈ O, pos a < a.len) → out.get (O.map pos) =
        sumsOf (regSamples T (fun (i : Fin Xs.length) p => dX i (Xs[i].axes.map p)) (fun p => dY (Y.axes.map p)) pos) := by
  set A := O ++ T with hAdef
  set R := List.range' O.length T.length with hR
  have hRl : List.range' O.length (A.length - O.length) = R := by rw [hAdef, List.length_append, Nat.add_sub_cancel_left]
  have hD : dropAxes ax0 R A = O := dropAxes_append O T
  have hRlt : ∀ i ∈ R, i < A.length := by
    intro i hi
    rw [hR, List.mem_range'_1] at hi
    rw [hAdef, List.length_append]; omega
  have hRT : ∀ i ∈ R, A.getD i ax0 ∈ T := by
    intro i hi
    rw [hR, List.mem_range'_1] at hi
    rw [hAdef, List.getD_eq_getElem _ _ (by rw [List.length_append]; omega), List.getElem_append_right (by omega)]
    exact List.getElem_mem _
  have key := accumulate_cell nr hnr hl A hA.reg hA.tol hA.len R (List.nodup_range' ..) hRlt (by rw [hD]; exact hA.sep)
  simp only [hD] at key
  have flag : ∀ B : List Axis, (∀ a ∈ T, a ∈ B) → ∀ i ∈ R, (A.map fun a => decide (a ∈ B)).getD i false = true := by
    intro B hB i hi
    have := hRT i hi
    rw [List.getD_eq_getElem _ _ (hRlt i hi)] at this
    rw [List.getD_eq_getElem _ _ (by simpa using hRlt i hi), List.getElem_map]
    simpa using hB _ this
  -- a sum of one variable, and of the product of two
  have one : ∀ (V : Var ℚ) (dV : List ℕ → ℚ), Contains V dV → V.axes.Nodup → (∀ a ∈ V.axes, a ∈ A) → (∀ a ∈ T, a ∈ V.axes) →
      ∀ g : ℚ → ℚ, ∃ out, accumulate nr limit A R (fun v => (V.read nr junk v).map fun a => a.map g) (wholeView O) = some out ∧
        ∀ pos : Axis → ℕ, (∀ a ∈ O, pos a < a.len) → out.get (O.map pos) =
          ((positions T).map fun t => g (dV (V.axes.map (over T t pos)))).sum := by
    intro V dV hV hVn hVA hVT g
    obtain ⟨out, h1, h2⟩ := key (fun v => (V.read nr junk v).map fun a => a.map g) (fun p => g (relabel V.axes A dV p))
      (A.map fun a => decide (a ∈ V.axes)) (flag V.axes hVT) (by
        intro I hI hne
        obtain ⟨r, h1, h2⟩ := read_bread nr junk V dV hV hVn A hA.reg hVA I hI hne
        exact ⟨_, by rw [h1]; rfl, map_bread g h2⟩) T (range'_axes O T)
    refine ⟨out, h1, fun pos hpos => (h2 pos hpos).trans ?_⟩
    refine congrArg List.sum (List.map_congr_left fun t _ => ?_)
    rw [relabel_same V.axes A dV hVA]
  have two : ∀ (V W : Var ℚ) (dV dW : List ℕ → ℚ), Contains V dV → V.axes.Nodup → (∀ a ∈ V.axes, a ∈ A) → (∀ a ∈ T, a ∈ V.axes) →
      Contains W dW → W.axes.Nodup → (∀ a ∈ W.axes, a ∈ A) →
      ∃ out, accumulate nr limit A R (readMul nr junk V W) (wholeView O) = some out ∧
        ∀ pos : Axis → ℕ, (∀ a ∈ O, pos a < a.len) → out.get (O.map pos) =
          ((positions T).map fun t => dV (V.axes.map (over T t pos)) * dW (W.axes.map (over T t pos))).sum := by
    intro V W dV dW hV hVn hVA hVT hW hWn hWA
    obtain ⟨out, h1, h2⟩ := key (readMul nr junk V W) (fun p => relabel V.axes A dV p * relabel W.axes A dW p)
      (List.zipWith (fun p q => p || q) (A.map fun a => decide (a ∈ V.axes)) (A.map fun a => decide (a ∈ W.axes)))
      (by
        intro i hi
        have := flag V.axes hVT i hi
        rw [List.getD_eq_getElem _ _ (by simpa using hRlt i hi)] at this
        rw [List.getD_eq_getElem _ _ (by simpa using hRlt i hi), List.getElem_zipWith, this, Bool.true_or]) (by
        intro I hI hne
        obtain ⟨r, h1, h2⟩ := read_bread nr junk V dV hV hVn A hA.reg hVA I hI hne
        obtain ⟨s, h3, h4⟩ := read_bread nr junk W dW hW hWn A hA.reg hWA I hI hne
        exact ⟨_, by unfold readMul; rw [h1, h3]; rfl, bcast_bread (· * ·) h2 h4⟩) T (range'_axes O T)
    refine ⟨out, h1, fun pos hpos => (h2 pos hpos).trans ?_⟩
    refine congrArg List.sum (List.map_congr_left fun t _ => ?_)
    rw [relabel_same V.axes A dV hVA, relabel_same W.axes A dW hWA]
  obtain ⟨y, hy1, hy2⟩ := one Y dY hY hYn hYm hYT id
  have hy1' : accumulate nr limit A R (Y.read nr junk) (wholeView O) = some y := by
    rw [← hy1]
    congr 1
    funext v
    cases Y.read nr junk v <;> rfl
  obtain ⟨yy, hyy1, hyy2⟩ := one Y dY hY hYn hYm hYT fun t => t ^ 2
  obtain ⟨xy, hxy1, hxy2, hxy3⟩ := mapM_each (fun X => accumulate nr limit A R (readMul nr junk X Y) (wholeView O))
    (fun i out => ∀ pos : Axis → ℕ, (∀ a ∈ O, pos a < a.len) → ∀ hi : i < Xs.length, out.get (O.map pos) =
      ((positions T).map fun t => dX i (Xs[i].axes.map (over T t pos)) * dY (Y.axes.map (over T t pos))).sum) Xs 0 (by
    intro i hi
    obtain ⟨out, h1, h2⟩ := two Xs[i] Y (dX i) dY (hX i hi) (hXn _ (List.getElem_mem hi)) (hXm _ (List.getElem_mem hi))
      (hXT _ (List.getElem_mem hi)) hY hYn hYm
    refine ⟨out, h1, ?_⟩
    rw [Nat.zero_add]
    exact fun pos hpos _ => h2 pos hpos)
  obtain ⟨xx, hxx1, hxx2, hxx3⟩ := mapM_each (fun i => (Xs[i]?).bind fun X => (Xs.take (i + 1)).mapM fun Z =>
      accumulate nr limit A R (readMul nr junk X Z) (wholeView O))
    (fun i row => row.length = i + 1 ∧ ∀ (j : ℕ) (hj : j < row.length) (pos : Axis → ℕ), (∀ a ∈ O, pos a < a.len) →
      ∀ (hi : i < Xs.length) (hj' : j < Xs.length), (row[j]).get (O.map pos) =
      ((positions T).map fun t => dX i (Xs[i].axes.map (over T t pos)) * dX j (Xs[j].axes.map (over T t pos))).sum)
    (List.range Xs.length) 0 (by
    intro i hi
    have hi' : i < Xs.length := by simpa using hi
    rw [List.getElem_range, Nat.zero_add]
    obtain ⟨row, h1, h2, h3⟩ := mapM_each (fun Z => accumulate nr limit A R (readMul nr junk Xs[i] Z) (wholeView O))
      (fun j out => ∀ pos : Axis → ℕ, (∀ a ∈ O, pos a < a.len) → ∀ hj : j < Xs.length, out.get (O.map pos) =
        ((positions T).map fun t => dX i (Xs[i].axes.map (over T t pos)) * dX j (Xs[j].axes.map (over T t pos))).sum)
      (Xs.take (i + 1)) 0 (by
        intro j hj
        have hj' : j < Xs.length := by rw [List.length_take] at hj; omega
        rw [List.getElem_take, Nat.zero_add]
        obtain ⟨out, h1, h2⟩ := two Xs[i] Xs[j] (dX i) (dX j) (hX i hi') (hXn _ (List.getElem_mem _)) (hXm _ (List.getElem_mem _))
          (hXT _ (List.getElem_mem _)) (hX j hj') (hXn _ (List.getElem_mem _)) (hXm _ (List.getElem_mem _))
        exact ⟨out, h1, fun pos hpos _ => h2 pos hpos⟩)
    refine ⟨row, ?_, ?_, ?_⟩
    · rw [List.getElem?_eq_getElem hi', Option.bind_some]; exact h1
    · rw [h2, List.length_take]; omega
    · intro j hj pos hpos _ hj'
      have := h3 j hj
      rw [Nat.zero_add] at this
      exact this pos hpos hj')
  refine ⟨{ shape := (wholeView O).shape, get := fun k => ⟨y.get k, yy.get k, fun i => (nthArr xy i).get k,
        fun i j => if j ≤ i then (nthArr (xx.getD i []) j).get k else (nthArr (xx.getD j []) i).get k⟩ }, ?_, rfl, fun pos hpos => ?_⟩
  · unfold sums
    simp only [hRl]
    rw [← hAdef, hy1', Option.bind_some, hyy1, Option.bind_some, hxy1, Option.bind_some, hxx1]
    rfl
  · have hlow : ∀ i j : Fin Xs.length, j ≤ i → (nthArr (xx.getD i []) j).get (O.map pos) =
        ((positions T).map fun t => dX i (Xs[i].axes.map (over T t pos)) * dX j (Xs[j].axes.map (over T t pos))).sum := by
      intro i j hij
      have hxi : (i : ℕ) < xx.length := by rw [hxx2, List.length_range]; exact i.2
      obtain ⟨h1, h2⟩ := hxx3 i hxi
      have hij' : (j : ℕ) ≤ i := hij
      have hjr : (j : ℕ) < (xx[(i : ℕ)]).length := by rw [h1]; omega
      unfold nthArr
      rw [List.getD_eq_getElem xx _ hxi, List.getD_eq_getElem _ _ hjr]
      have h3 := h2 j hjr pos hpos
      rw [Nat.zero_add] at h3
      exact h3 i.2 j.2
    unfold sumsOf
    simp only [Sums.mk.injEq]
    refine ⟨?_, ?_, ?_, ?_⟩
    · rw [hy2 pos hpos]; unfold regSamples; rw [List.map_map]; rfl
    · rw [hyy2 pos hpos]; unfold regSamples; rw [List.map_map]; rfl
    · funext i
      have hi : (i : ℕ) < xy.length := by rw [hxy2]; exact i.2
      unfold nthArr
      rw [List.getD_eq_getElem xy _ hi]
      have h3 := hxy3 i hi
      rw [Nat.zero_add] at h3
      rw [h3 pos hpos i.2]
      unfold regSamples; rw [List.map_map]; rfl
    · funext i j
      unfold gram regSamples
      rw [List.map_map]
      split_ifs with hij
      · rw [hlow i j hij]; rfl
      · rw [hlow j i (le_of_not_ge hij)]
        refine congrArg List.sum (List.map_congr_left fun t _ => ?_)
        exact mul_comm _ _

/-! ### the fits -/

/-- The variables can be used together, and have all the axes `T` that are regressed over. -/
structure _root_.PyGeode.Spec.Regressable (Xs : List (List Axis)) (Y T : List Axis) : Prop where
  clean : Clean (Xs.flatten ++ Y)
  nodup : ∀ A ∈ Xs, A.Nodup
  ynodup : Y.Nodup
  tol : ∀ a ∈ Xs.flatten ++ Y, 0 ≤ a.rtol
  len : ∀ a ∈ Xs.flatten ++ Y, 0 < a.len
  sep : ∀ a ∈ Xs.flatten ++ Y, a ∉ T → Separated a.values
  has : ∀ A ∈ Xs, ∀ a ∈ T, a ∈ A

theorem wholeView_cells (O : List Axis) (k : List ℕ) (hk : k ∈ product (wholeView O).inds) (hn : O.Nodup) :
    ∃ pos : Axis → ℕ, (∀ a ∈ O, pos a < a.len) ∧ k = O.map pos := by
  classical
  have h : InBounds (O.map Axis.len) k := by
    have : (wholeView O).inds = (O.map Axis.len).map List.range := by unfold wholeView; rw [List.map_map]; rfl
    rw [this, mem_product_range] at hk
    exact hk
  have hkl : k.length = O.length := by simpa using h.length_eq
  refine ⟨fun a => k.getD (O.idxOf a) 0, fun a ha => ?_, ?_⟩
  · have hi := List.idxOf_lt_length_of_mem ha
    have := InBounds.lt h (i := O.idxOf a) (by simpa using hi)
    rwa [List.getD_eq_getElem (O.map Axis.len) _ (by simpa using hi), List.getElem_map, List.getElem_idxOf] at this
  · refine List.ext_getElem (by simp [hkl]) fun i hi hi' => ?_
    rw [List.getElem_map, hn.idxOf_getElem, List.getD_eq_getElem _ _ hi]

theorem positions_length (T : List Axis) : (positions T).length = (T.map Axis.len).prod := by
  unfold positions
  rw [product_length, List.map_map]
  congr 1
  exact List.map_congr_left fun a _ => by simp

theorem fits_spec (nr : List ℚ → ℚ) (hnr : ∀ l, 0 ≤ nr l) (junk : List ℕ → ℚ) {limit : ℕ} (hl : 1 ≤ limit)
    (inv : (n : ℕ) → (Fin n → Fin n → ℚ) → Option (Fin n → Fin n → ℚ)) (hinv : IsInverse inv)
    (Xs : List (Var ℚ)) (Y : Var ℚ) (dX : ℕ → List ℕ → ℚ) (dY : List ℕ → ℚ)
    (hX : ∀ (i : ℕ) (hi : i < Xs.length), Contains Xs[i] (dX i)) (hY : Contains Y dY) (ids : Option (List AxisId)) (fac : Option ℕ)
    (Xa S : List Axis) (hXa : combineAxes (Xs.map Var.axes) = some Xa) (hS : combineAxes [Xa, Y.axes] = some S)
    (l : List ℕ) (hc : Chosen S Xa Y.axes ids l) (hne : l ≠ []) (hreg : Regressable (Xs.map Var.axes) Y.axes (at_ S l)) :
    ∃ O, (O ++ at_ S l).Perm S ∧
      let P := regSamples (at_ S l) (fun (i : Fin Xs.length) p => dX i (Xs[i].axes.map p)) (fun p => dY (Y.axes.map p))
      ((∃ pos : Axis → ℕ, (∀ a ∈ O, pos a < a.len) ∧ ¬ IndependentOn (P pos)) → fits nr junk limit inv Xs Y ids fac = none) ∧
      ((∀ pos : Axis → ℕ, (∀ a ∈ O, pos a < a.len) → IndependentOn (P pos)) →
        ∃ out, fits nr junk limit inv Xs Y ids fac = some (O, out) ∧ out.shape = O.map Axis.len ∧
          ∀ pos : Axis → ℕ, (∀ a ∈ O, pos a < a.len) → IsMultiFit (P pos) (points ((at_ S l).map Axis.len).prod fac) (out.get (O.map pos))) := by
  obtain ⟨Xa', g1, g2, g3, -⟩ := combineAxes_clean (Xs.map Var.axes)
    ⟨fun a ha => hreg.clean.1 a (by simp only [List.mem_append]; exact Or.inl ha),
      fun a ha b hb => hreg.clean.2 a (by simp only [List.mem_append]; exact Or.inl ha) b (by simp only [List.mem_append]; exact Or.inl hb)⟩ hreg.nodup
  rw [hXa] at g1
  obtain rfl := Option.some.inj g1
  have hXaf : ∀ a, a ∈ Xa ↔ a ∈ (Xs.map Var.axes).flatten := fun a => by rw [g3, List.mem_flatten]
  have hcl2 : Clean (Xa ++ Y.axes) := by
    have hm : ∀ a ∈ Xa ++ Y.axes, a ∈ (Xs.map Var.axes).flatten ++ Y.axes := by
      intro a ha
      rw [List.mem_append] at ha ⊢
      exact ha.imp (hXaf a).1 id
    exact ⟨fun a ha => hreg.clean.1 a (hm a ha), fun a ha b hb => hreg.clean.2 a (hm a ha) b (hm b hb)⟩
  obtain ⟨S', h1, h2, h3, h4⟩ := split_spec Xa Y.axes hcl2 g2 hreg.ynodup
  rw [hS] at h1
  obtain rfl := Option.some.inj h1
  obtain ⟨oi, h5, h6⟩ := h4 ids l hc
  have hp : (at_ S oi ++ at_ S l).Perm S := by rw [← at_append]; exact filterMap_perm S h6
  have hlen : (at_ S oi ++ at_ S l).length = S.length := hp.length_eq
  have hr := h2.perm hp
  set O := at_ S oi with hO
  set T := at_ S l with hT
  have hin : ∀ a ∈ O ++ T, a ∈ (Xs.map Var.axes).flatten ++ Y.axes := fun a ha => by
    rw [List.mem_append]
    exact ((h3 a).1 (hp.mem_iff.1 ha)).imp (hXaf a).1 id
  have hdis : ∀ a ∈ O, a ∉ T := fun a h1 h2 => (List.nodup_append.1 hr.nodup).2.2 a h1 a h2 rfl
  have hTY : ∀ a ∈ T, a ∈ Y.axes := by
    intro a ha
    obtain ⟨i, hi, hia⟩ := List.mem_filterMap.1 ha
    have : ∃ b, S[i]? = some b ∧ b ∈ Xa ∧ b ∈ Y.axes := by
      cases ids with
      | none => exact (hc.2 i).1 hi
      | some ids => exact hc.2.2 i hi
    obtain ⟨b, hb, -, hb'⟩ := this
    rw [hia] at hb
    exact Option.some.inj hb ▸ hb'
  obtain ⟨s, hs1, hs2, hs3⟩ := sums_correct nr hnr junk hl Xs Y dX dY hX hY (fun X h => hreg.nodup _ (List.mem_map_of_mem h)) hreg.ynodup O T
    ⟨hr, fun a ha => hreg.tol a (hin a ha), fun a ha => hreg.len a (hin a ha), fun a ha => hreg.sep a (hin a (by simp [ha])) (hdis a ha)⟩
    (fun X hX a ha => hp.mem_iff.2 ((h3 a).2 (Or.inl ((g3 a).2 ⟨X.axes, List.mem_map_of_mem hX, ha⟩))))
    (fun a ha => hp.mem_iff.2 ((h3 a).2 (Or.inr ha))) (fun X hX => hreg.has _ (List.mem_map_of_mem hX)) hTY
  rw [hlen] at hs1
  have hON : O.Nodup := (List.nodup_append.1 hr.nodup).1
  have hval : fits nr junk limit inv Xs Y ids fac = if (product (wholeView O).inds).all fun k => (inv _ (s.get k).xx).isSome then
      some (O, { shape := s.shape, get := fun k => fitCell (T.map Axis.len).prod fac (s.get k) ((inv _ (s.get k).xx).getD fun _ _ => 0) })
      else none := by
    unfold fits
    rw [hXa, Option.bind_some, hS, Option.bind_some, h5, Option.bind_some]
    simp only
    rw [if_neg hne]
    show Option.bind (sums nr junk limit Xs Y O T S.length) _ = _
    rw [hs1]
    rfl
  refine ⟨O, hp, ?_, ?_⟩
  · rintro ⟨pos, hpos, hdep⟩
    rw [hval]
    refine if_neg fun h => hdep ?_
    have := List.all_eq_true.1 h (O.map pos) (by
      have e : (wholeView O).inds = (O.map Axis.len).map List.range := by unfold wholeView; rw [List.map_map]; rfl
      rw [e, mem_product_range]
      refine inBounds_iff.2 ⟨by simp, fun i hi => ?_⟩
      have hi' : i < O.length := by simpa using hi
      rw [List.getD_eq_getElem _ _ (by simpa using hi'), List.getD_eq_getElem (O.map Axis.len) _ (by simpa using hi')]
      simpa using hpos _ (List.getElem_mem hi'))
    rw [hs3 pos hpos] at this
    exact (inverse_iff hinv _).1 this
  · intro hind
    refine ⟨_, hval.trans (if_pos ?_), ?_, fun pos hpos => ?_⟩
    · rw [List.all_eq_true]
      intro k hk
      obtain ⟨pos, hpos, rfl⟩ := wholeView_cells O k hk hON
      rw [hs3 pos hpos]
      exact (inverse_iff hinv _).2 (hind pos hpos)
    · show s.shape = _
      rw [hs2]
      show (wholeView O).inds.map List.length = _
      unfold wholeView
      rw [List.map_map]
      exact List.map_congr_left fun a _ => by simp
    · show IsMultiFit _ _ (fitCell _ fac (s.get (O.map pos)) _)
      rw [hs3 pos hpos]
      obtain ⟨N, hN⟩ := Option.isSome_iff_exists.1 ((inverse_iff hinv _).2 (hind pos hpos))
      have hN' := (hinv _ _ _).1 hN
      show IsMultiFit _ _ (fitCell _ fac (sumsOf _) ((inv Xs.length (gram _)).getD _))
      rw [hN]
      have := fitCell_fits _ fac (hind pos hpos) N hN'
      rw [show (regSamples T (fun (i : Fin Xs.length) p => dX i (Xs[i].axes.map p)) (fun p => dY (Y.axes.map p)) pos).length = (T.map Axis.len).prod by
        unfold regSamples; rw [List.length_map, positions_length]] at this
      exact this

/-! ### the variables returned -/

/-- the variable `v` holds, at the positions `pos` of the axes `O`, the results `F` that belong to its name -/
structure _root_.PyGeode.Spec.Reports {n : ℕ} (O : List Axis) (pos : Axis → ℕ) (F : Fit n) (v : Out) : Prop where
  beta : v.name = "beta".toList → v.axes = O ++ [regressorAxis "regressor".toList n] ∧
    ∀ i : Fin n, v.values.get (O.map pos ++ [(i : ℕ)]) = some (F.beta i)
  r2 : v.name = "R2".toList → v.axes = O ∧ v.values.get (O.map pos) = F.r2
  p : v.name = "p".toList → v.axes = O ++ [regressorAxis "regressor".toList n] ∧
    ∀ i : Fin n, v.values.get (O.map pos ++ [(i : ℕ)]) = F.t2 i
  sb : v.name = "sb".toList → v.axes = O ++ [regressorAxis "regressor".toList n] ∧
    ∀ i : Fin n, v.values.get (O.map pos ++ [(i : ℕ)]) = F.sb2 i
  covb : v.name = "covb".toList → v.axes = O ++ [regressorAxis "regressor".toList n, regressorAxis "regressor2".toList n] ∧
    ∀ i j : Fin n, v.values.get (O.map pos ++ [(i : ℕ), (j : ℕ)]) = F.covb i j
  se : v.name = "se".toList → v.axes = O ∧ v.values.get (O.map pos) = F.se2
  shape : v.values.shape = v.axes.map Axis.len

/-- the names of the variables returned for a list of outputs -/
def _root_.PyGeode.Spec.returned (req : List (List Char)) : List (List Char) :=
  (["beta".toList, "r2".toList, "p".toList, "sb".toList, "covb".toList, "se".toList].filter fun o => decide (o ∈ req)).map
    fun o => if o = "r2".toList then "R2".toList else o

theorem regressorAxis_len (name : List Char) (n : ℕ) : (regressorAxis name n).len = n := by
  simp [regressorAxis, Axis.len]

theorem nth_fin {α : Type} {n : ℕ} (d : α) (f : Fin n → α) (i : Fin n) : nth d f i = f i := by
  unfold nth
  rw [dif_pos i.2]

theorem stacked_ok {n : ℕ} (O : List Axis) (hO : O.length ≤ 1) (f : List ℕ → Fin n → Option ℚ) :
    (stacked (O.map Axis.len) f).shape = (O ++ [regressorAxis "regressor".toList n]).map Axis.len ∧
      ∀ (pos : Axis → ℕ) (i : Fin n), (stacked (O.map Axis.len) f).get (O.map pos ++ [(i : ℕ)]) = f (O.map pos) i := by
  rcases O with _ | ⟨a, _ | ⟨b, O⟩⟩
  · refine ⟨by simp [stacked, NArr.transpose, regressorAxis_len], fun pos i => ?_⟩
    show nth none (f []) i = f [] i
    exact nth_fin _ _ i
  · refine ⟨?_, fun pos i => ?_⟩
    · show [a.len, n] = [a.len, (regressorAxis _ n).len]
      rw [regressorAxis_len]
    · show nth none (f [pos a]) i = f [pos a] i
      exact nth_fin _ _ i
  · simp at hO

theorem getD_append_map (O : List Axis) (pos : Axis → ℕ) (t : List ℕ) (j : ℕ) : (O.map pos ++ t).getD (O.length + j) 0 = t.getD j 0 := by
  rw [List.getD_eq_getElem?_getD, List.getElem?_append_right (by simp), List.getD_eq_getElem?_getD]
  simp

theorem output_ok {n : ℕ} (O : List Axis) (F : NArr (Fit n)) (hF : F.shape = O.map Axis.len) (o : List Char) (ho : o ∈ ovars)
    (hlay : O.length ≤ 1 ∨ o ≠ "p".toList ∧ o ≠ "sb".toList) :
    ∃ v, output O F o = some v ∧ v.name = (if o = "r2".toList then "R2".toList else o) ∧
      ∀ pos : Axis → ℕ, Reports O pos (F.get (O.map pos)) v := by
  have h1 : ∀ (pos : Axis → ℕ) (t : List ℕ), (O.map pos ++ t).take O.length = O.map pos := by
    intro pos t
    rw [List.take_append_of_le_length (by simp), List.take_of_length_le (by simp)]
  have h2 : ∀ (pos : Axis → ℕ) (t : List ℕ), (O.map pos ++ t).getD O.length 0 = t.getD 0 0 := fun pos t => getD_append_map O pos t 0
  have h3 : ∀ (pos : Axis → ℕ) (t : List ℕ), (O.map pos ++ t).getD (O.length + 1) 0 = t.getD 1 0 := fun pos t => getD_append_map O pos t 1
  have hs1 : O.map Axis.len ++ [n] = (O ++ [regressorAxis "regressor".toList n]).map Axis.len := by simp [regressorAxis_len]
  have hs2 : O.map Axis.len ++ [n, n] = (O ++ [regressorAxis "regressor".toList n, regressorAxis "regressor2".toList n]).map Axis.len := by
    simp [regressorAxis_len]
  have hcase : o = "beta".toList ∨ o = "r2".toList ∨ o = "p".toList ∨ o = "sb".toList ∨ o = "covb".toList ∨ o = "se".toList := by
    simpa [ovars] using ho
  rcases hcase with rfl | rfl | rfl | rfl | rfl | rfl
  · refine ⟨_, if_pos hs1, rfl, fun pos => ⟨fun _ => ⟨rfl, fun i => ?_⟩, fun h => absurd h (by dsimp only; decide), fun h => absurd h (by dsimp only; decide),
      fun h => absurd h (by dsimp only; decide), fun h => absurd h (by dsimp only; decide), fun h => absurd h (by dsimp only; decide), hs1⟩⟩
    show some (nth 0 (F.get (List.take _ _)).beta (List.getD _ _ _)) = _
    rw [h1, h2]
    exact congrArg some (nth_fin _ _ i)
  · exact ⟨⟨"R2".toList, O, { shape := O.map Axis.len, get := fun k => (F.get k).r2 }⟩, if_pos rfl, rfl,
      fun pos => ⟨fun h => absurd h (by dsimp only; decide), fun _ => ⟨rfl, rfl⟩, fun h => absurd h (by dsimp only; decide),
      fun h => absurd h (by dsimp only; decide), fun h => absurd h (by dsimp only; decide), fun h => absurd h (by dsimp only; decide), rfl⟩⟩
  · obtain ⟨k1, k2⟩ := stacked_ok (n := n) O (hlay.resolve_right fun h => h.1 rfl) fun k => (F.get k).t2
    exact ⟨_, if_pos k1, rfl, fun pos => ⟨fun h => absurd h (by dsimp only; decide), fun h => absurd h (by dsimp only; decide), fun _ => ⟨rfl, k2 pos⟩,
      fun h => absurd h (by dsimp only; decide), fun h => absurd h (by dsimp only; decide), fun h => absurd h (by dsimp only; decide), k1⟩⟩
  · obtain ⟨k1, k2⟩ := stacked_ok (n := n) O (hlay.resolve_right fun h => h.2 rfl) fun k => (F.get k).sb2
    exact ⟨_, if_pos k1, rfl, fun pos => ⟨fun h => absurd h (by dsimp only; decide), fun h => absurd h (by dsimp only; decide), fun h => absurd h (by dsimp only; decide),
      fun _ => ⟨rfl, k2 pos⟩, fun h => absurd h (by dsimp only; decide), fun h => absurd h (by dsimp only; decide), k1⟩⟩
  · refine ⟨_, if_pos hs2, rfl, fun pos => ⟨fun h => absurd h (by dsimp only; decide), fun h => absurd h (by dsimp only; decide), fun h => absurd h (by dsimp only; decide),
      fun h => absurd h (by dsimp only; decide), fun _ => ⟨rfl, fun i j => ?_⟩, fun h => absurd h (by dsimp only; decide), hs2⟩⟩
    show nth none (nth _ (F.get (List.take _ _)).covb (List.getD _ _ _)) (List.getD _ _ _) = _
    rw [h1, h2, h3]
    refine (nth_fin _ _ j).trans ?_
    exact congrFun (nth_fin _ _ i) j
  · exact ⟨_, if_pos rfl, rfl, fun pos => ⟨fun h => absurd h (by dsimp only; decide), fun h => absurd h (by dsimp only; decide), fun h => absurd h (by dsimp only; decide),
      fun h => absurd h (by dsimp only; decide), fun h => absurd h (by dsimp only; decide), fun _ => ⟨rfl, rfl⟩, rfl⟩⟩

/-- C104: `multiple_regress(Xs, Y, axes, N_fac, output)`. If at every position of the axes left the regressors are linearly
independent, the variables returned are those asked for, and hold the unique least-squares coefficients of the values the
variables have there, and the statistics of that fit. -/
theorem multipleRegress_correct_partial (nr : List ℚ → ℚ) (hnr : ∀ l, 0 ≤ nr l) (junk : List ℕ → ℚ) {limit : ℕ} (hl : 1 ≤ limit)
    (inv : (n : ℕ) → (Fin n → Fin n → ℚ) → Option (Fin n → Fin n → ℚ)) (hinv : IsInverse inv)
    (Xs : List (Var ℚ)) (Y : Var ℚ) (dX : ℕ → List ℕ → ℚ) (dY : List ℕ → ℚ)
    (hX : ∀ (i : ℕ) (hi : i < Xs.length), Contains Xs[i] (dX i)) (hY : Contains Y dY) (ids : Option (List AxisId)) (fac : Option ℕ)
    (Xa S : List Axis) (hXa : combineAxes (Xs.map Var.axes) = some Xa) (hS : combineAxes [Xa, Y.axes] = some S)
    (l : List ℕ) (hc : Chosen S Xa Y.axes ids l) (hne : l ≠ []) (hreg : Regressable (Xs.map Var.axes) Y.axes (at_ S l))
    (request : List Char) (hreq : returned (request.splitOn ',') ≠ [])
    (hlay : S.length ≤ (at_ S l).length + 1 ∨ "p".toList ∉ request.splitOn ',' ∧ "sb".toList ∉ request.splitOn ',')
    (hind : ∀ pos : Axis → ℕ, (∀ a ∈ S, a ∉ at_ S l → pos a < a.len) →
      IndependentOn (regSamples (at_ S l) (fun (i : Fin Xs.length) p => dX i (Xs[i].axes.map p)) (fun p => dY (Y.axes.map p)) pos)) :
    ∃ O vs, multipleRegress nr junk limit inv Xs Y ids fac request = some vs ∧ (O ++ at_ S l).Perm S ∧
      vs.map Out.name = returned (request.splitOn ',') ∧ ∀ pos : Axis → ℕ, (∀ a ∈ O, pos a < a.len) →
        ∃ F : Fit Xs.length, IsMultiFit (regSamples (at_ S l) (fun (i : Fin Xs.length) p => dX i (Xs[i].axes.map p))
          (fun p => dY (Y.axes.map p)) pos) (points ((at_ S l).map Axis.len).prod fac) F ∧ ∀ v ∈ vs, Reports O pos F v := by
  obtain ⟨O, h1, -, h2⟩ := fits_spec nr hnr junk hl inv hinv Xs Y dX dY hX hY ids fac Xa S hXa hS l hc hne hreg
  obtain ⟨out, h3, h4, h5⟩ := h2 fun pos hpos => hind pos fun a ha hn => hpos a (by
    have := h1.mem_iff.2 ha
    exact (List.mem_append.1 this).resolve_right hn)
  set req := (request.splitOn ',').filter fun o => decide (o ∈ ovars) with hreqd
  have hmem : ∀ o ∈ ovars, (o ∈ req ↔ o ∈ request.splitOn ',') := by
    intro o ho
    rw [hreqd, List.mem_filter]
    simp [ho]
  have hfil : (ovars.filter fun o => decide (o ∈ req)) = ovars.filter fun o => decide (o ∈ request.splitOn ',') :=
    List.filter_congr fun o ho => by simp [hmem o ho]
  have hne' : req ≠ [] := by
    intro h
    refine hreq ?_
    have : (ovars.filter fun o => decide (o ∈ request.splitOn ',')) = [] := by rw [← hfil, h]; simp
    unfold returned
    exact (List.map_eq_nil_iff).2 this
  have hOl : O.length + (at_ S l).length = S.length := by rw [← List.length_append]; exact h1.length_eq
  have hall : ∀ o ∈ ovars.filter (fun o => decide (o ∈ req)), ∃ v, output O out o = some v ∧
      v.name = (if o = "r2".toList then "R2".toList else o) ∧ ∀ pos : Axis → ℕ, Reports O pos (out.get (O.map pos)) v := by
    intro o ho
    obtain ⟨ho1, ho2⟩ := List.mem_filter.1 ho
    have ho3 : o ∈ request.splitOn ',' := (hmem o ho1).1 (by simpa using ho2)
    refine output_ok O out h4 o ho1 ?_
    rcases hlay with h | ⟨h, h'⟩
    · left; omega
    · right
      exact ⟨fun e => h (e ▸ ho3), fun e => h' (e ▸ ho3)⟩
  obtain ⟨vs, h6, h7⟩ := mapM_rel (output O out) (fun o v => v.name = (if o = "r2".toList then "R2".toList else o) ∧
    ∀ pos : Axis → ℕ, Reports O pos (out.get (O.map pos)) v) _ hall
  refine ⟨O, vs, ?_, h1, ?_, fun pos hpos => ⟨_, h5 pos hpos, fun v hv => ?_⟩⟩
  · unfold multipleRegress
    simp only
    rw [← hreqd, if_neg hne', h3, Option.bind_some]
    exact h6
  · unfold returned
    rw [show ["beta".toList, "r2".toList, "p".toList, "sb".toList, "covb".toList, "se".toList] = ovars from rfl, ← hfil]
    clear h6 hall hfil
    generalize (ovars.filter fun o => decide (o ∈ req)) = L at h7 ⊢
    induction h7 with
    | nil => rfl
    | cons h _ ih => rw [List.map_cons, List.map_cons, h.1, ih]
  · clear h6 hall hfil
    generalize (ovars.filter fun o => decide (o ∈ req)) = L at h7
    induction h7 with
    | nil => simp at hv
    | cons h _ ih =>
      rcases List.mem_cons.1 hv with rfl | hv
      · exact h.2 pos
      · exact ih hv

/-- C104: if the regressors are linearly dependent at one position of the axes left, nothing is returned at all. -/
theorem multipleRegress_refuses (nr : List ℚ → ℚ) (hnr : ∀ l, 0 ≤ nr l) (junk : List ℕ → ℚ) {limit : ℕ} (hl : 1 ≤ limit)
    (inv : (n : ℕ) → (Fin n → Fin n → ℚ) → Option (Fin n → Fin n → ℚ)) (hinv : IsInverse inv)
    (Xs : List (Var ℚ)) (Y : Var ℚ) (dX : ℕ → List ℕ → ℚ) (dY : List ℕ → ℚ)
    (hX : ∀ (i : ℕ) (hi : i < Xs.length), Contains Xs[i] (dX i)) (hY : Contains Y dY) (ids : Option (List AxisId)) (fac : Option ℕ)
    (Xa S : List Axis) (hXa : combineAxes (Xs.map Var.axes) = some Xa) (hS : combineAxes [Xa, Y.axes] = some S)
    (l : List ℕ) (hc : Chosen S Xa Y.axes ids l) (hne : l ≠ []) (hreg : Regressable (Xs.map Var.axes) Y.axes (at_ S l))
    (request : List Char) (pos : Axis → ℕ) (hpos : ∀ a ∈ S, a ∉ at_ S l → pos a < a.len)
    (hdep : ¬ IndependentOn (regSamples (at_ S l) (fun (i : Fin Xs.length) p => dX i (Xs[i].axes.map p)) (fun p => dY (Y.axes.map p)) pos)) :
    multipleRegress nr junk limit inv Xs Y ids fac request = none := by
  classical
  obtain ⟨O, h1, h2, -⟩ := fits_spec nr hnr junk hl inv hinv Xs Y dX dY hX hY ids fac Xa S hXa hS l hc hne hreg
  -- positions of the axes regressed over do not matter
  have hsame : ∀ pos' : Axis → ℕ, (∀ a, a ∉ at_ S l → pos' a = pos a) →
      regSamples (at_ S l) (fun (i : Fin Xs.length) p => dX i (Xs[i].axes.map p)) (fun p => dY (Y.axes.map p)) pos' =
      regSamples (at_ S l) (fun (i : Fin Xs.length) p => dX i (Xs[i].axes.map p)) (fun p => dY (Y.axes.map p)) pos := by
    intro pos' h
    unfold regSamples
    refine List.map_congr_left fun t _ => ?_
    have : over (at_ S l) t pos' = over (at_ S l) t pos := by
      funext a
      unfold over
      split_ifs with ha
      · rfl
      · exact h a ha
    rw [this]
  have hlen : ∀ a ∈ S, 0 < a.len := by
    intro a ha
    obtain ⟨_, k1, k2, k3, _⟩ := combineAxes_clean (Xs.map Var.axes)
      ⟨fun a ha => hreg.clean.1 a (by simp only [List.mem_append]; exact Or.inl ha),
        fun a ha b hb => hreg.clean.2 a (by simp only [List.mem_append]; exact Or.inl ha) b (by simp only [List.mem_append]; exact Or.inl hb)⟩ hreg.nodup
    rw [hXa] at k1
    obtain rfl := Option.some.inj k1
    have hm : ∀ a ∈ Xa ++ Y.axes, a ∈ (Xs.map Var.axes).flatten ++ Y.axes := by
      intro a ha
      rw [List.mem_append] at ha ⊢
      refine ha.imp (fun h => ?_) id
      rw [List.mem_flatten]; exact (k3 a).1 h
    obtain ⟨S', j1, j2, j3, -⟩ := split_spec Xa Y.axes
      ⟨fun a ha => hreg.clean.1 a (hm a ha), fun a ha b hb => hreg.clean.2 a (hm a ha) b (hm b hb)⟩ k2 hreg.ynodup
    rw [hS] at j1
    obtain rfl := Option.some.inj j1
    exact hreg.len a (hm a (by simpa using (j3 a).1 ha))
  have hnone := h2 ⟨fun a => if a ∈ at_ S l then 0 else pos a, fun a ha => by
      have haS := h1.mem_iff.1 (List.mem_append_left _ ha)
      by_cases h : a ∈ at_ S l
      · simp only [if_pos h]; exact hlen a haS
      · simp only [if_neg h]; exact hpos a haS h, by
      rw [hsame _ fun a ha => if_neg ha]
      exact hdep⟩
  unfold multipleRegress
  simp only
  rw [hnone]
  split_ifs <;> rfl

/-! ### what the documentation promises and the code does not do -/

/-- C104, violated: the output that is documented as `'B'` (the coefficients) does not exist; asked for on its own it is an
error, and of the default `'B,p'` only the p-values are returned. -/
theorem output_B_violated (nr : List ℚ → ℚ) (junk : List ℕ → ℚ) (limit : ℕ)
    (inv : (n : ℕ) → (Fin n → Fin n → ℚ) → Option (Fin n → Fin n → ℚ)) (Xs : List (Var ℚ)) (Y : Var ℚ) (ids : Option (List AxisId))
    (fac : Option ℕ) :
    multipleRegress nr junk limit inv Xs Y ids fac "B".toList = none ∧ returned ("B,p".toList.splitOn ',') = ["p".toList] := by
  refine ⟨?_, by decide⟩
  unfold multipleRegress
  exact if_pos (by decide)

/-- C104, violated: with two axes left, `'sb'` (and `'p'`) are an error unless both have as many positions as there are
regressors; then the values are in the wrong places. -/
theorem output_sb_violated {n : ℕ} (a b : Axis) (F : NArr (Fit n)) :
    (¬ (a.len = n ∧ b.len = n) → output [a, b] F "sb".toList = none) ∧
    (a.len = n ∧ b.len = n → ∃ v, output [a, b] F "sb".toList = some v ∧
      ∀ (x y : Fin n) (i : ℕ), v.values.get [(x : ℕ), (y : ℕ), i] = (F.get [i, x]).sb2 y) := by
  have hout : output [a, b] F "sb".toList = mkOut "sb".toList [a, b, regressorAxis "regressor".toList n]
      (stacked [a.len, b.len] fun k => (F.get k).sb2) := rfl
  have hshape : (stacked [a.len, b.len] fun k => (F.get k).sb2).shape = [b.len, n, a.len] := rfl
  constructor
  · intro h
    rw [hout]
    refine if_neg fun e => h ?_
    rw [hshape] at e
    simp only [List.map_cons, List.map_nil, regressorAxis_len, List.cons.injEq, and_true] at e
    omega
  · rintro ⟨h1, h2⟩
    refine ⟨_, by rw [hout]; exact if_pos (by rw [hshape]; simp [regressorAxis_len, h1, h2]), fun x y i => ?_⟩
    show nth none (F.get [i, x]).sb2 y = _
    exact nth_fin _ _ y

/-! ### examples -/

/-- an inverse of matrices, written out for two rows -/
noncomputable def invEx (n : ℕ) (M : Fin n → Fin n → ℚ) : Option (Fin n → Fin n → ℚ) :=
  if h : n = 2 then
    let m := fun (i j : ℕ) (hi : i < 2) (hj : j < 2) => M ⟨i, h ▸ hi⟩ ⟨j, h ▸ hj⟩
    let d := m 0 0 (by decide) (by decide) * m 1 1 (by decide) (by decide) - m 0 1 (by decide) (by decide) * m 1 0 (by decide) (by decide)
    if d = 0 then none else some fun i j =>
      if i.1 = 0 then (if j.1 = 0 then m 1 1 (by decide) (by decide) / d else - m 0 1 (by decide) (by decide) / d)
      else (if j.1 = 0 then - m 1 0 (by decide) (by decide) / d else m 0 0 (by decide) (by decide) / d)
  else if (Matrix.of M).det = 0 then none else some fun i j => (Matrix.of M)⁻¹ i j

theorem invEx_spec : IsInverse invEx := by
  intro n M N
  have hdet : (∃ N : Fin n → Fin n → ℚ, ∀ i k, ∑ j, M i j * N j k = if i = k then 1 else 0) → (Matrix.of M).det ≠ 0 := by
    rintro ⟨N, hN⟩ h
    have h1 : Matrix.of M * Matrix.of N = 1 := by
      ext i k
      rw [Matrix.mul_apply, Matrix.one_apply]
      exact hN i k
    have := congrArg Matrix.det h1
    rw [Matrix.det_mul, h, zero_mul, Matrix.det_one] at this
    exact zero_ne_one this
  have huniq : ∀ N N' : Fin n → Fin n → ℚ, (∀ i k, ∑ j, M i j * N j k = if i = k then 1 else 0) →
      (∀ i k, ∑ j, M i j * N' j k = if i = k then 1 else 0) → N = N' := by
    intro N N' h h'
    have h1 : Matrix.of M * Matrix.of N = 1 := by
      ext i k
      rw [Matrix.mul_apply, Matrix.one_apply]
      exact h i k
    have h2 : Matrix.of M * Matrix.of N' = 1 := by
      ext i k
      rw [Matrix.mul_apply, Matrix.one_apply]
      exact h' i k
    have h3 : Matrix.of N * Matrix.of M = 1 := _root_.mul_eq_one_comm.1 h1
    have : Matrix.of N = Matrix.of N' := by
      calc Matrix.of N = Matrix.of N * (Matrix.of M * Matrix.of N') := by rw [h2, mul_one]
        _ = Matrix.of N' := by rw [← mul_assoc, h3, one_mul]
    exact this
  have key : ∀ (d : Prop) [Decidable d] (N₀ : Fin n → Fin n → ℚ), (d → (Matrix.of M).det = 0) →
      (¬ d → ∀ i k, ∑ j, M i j * N₀ j k = if i = k then 1 else 0) →
      ((if d then none else some N₀) = some N ↔ ∀ i k, ∑ j, M i j * N j k = if i = k then 1 else 0) := by
    intro d _ N₀ h1 h2
    split_ifs with hd
    · refine ⟨fun h => (by simp at h), fun h => absurd (h1 hd) (hdet ⟨N, h⟩)⟩
    · refine ⟨fun h => ?_, fun h => ?_⟩
      · rw [← Option.some.inj h]; exact h2 hd
      · rw [huniq N N₀ h (h2 hd)]
  unfold invEx
  split_ifs with hn h0
  · subst hn
    refine key _ _ (fun h => ?_) (fun h => ?_)
    · rw [Matrix.det_fin_two]; exact h
    · have hd : M 0 0 * M 1 1 - M 0 1 * M 1 0 ≠ 0 := h
      intro i k
      rw [Fin.sum_univ_two]
      fin_cases i <;> fin_cases k
      · show M 0 0 * (M 1 1 / (M 0 0 * M 1 1 - M 0 1 * M 1 0)) + M 0 1 * (- M 1 0 / (M 0 0 * M 1 1 - M 0 1 * M 1 0)) = 1
        field_simp; ring
      · show M 0 0 * (- M 0 1 / (M 0 0 * M 1 1 - M 0 1 * M 1 0)) + M 0 1 * (M 0 0 / (M 0 0 * M 1 1 - M 0 1 * M 1 0)) = 0
        field_simp; ring
      · show M 1 0 * (M 1 1 / (M 0 0 * M 1 1 - M 0 1 * M 1 0)) + M 1 1 * (- M 1 0 / (M 0 0 * M 1 1 - M 0 1 * M 1 0)) = 0
        field_simp; ring
      · show M 1 0 * (- M 0 1 / (M 0 0 * M 1 1 - M 0 1 * M 1 0)) + M 1 1 * (M 0 0 / (M 0 0 * M 1 1 - M 0 1 * M 1 0)) = 1
        rw [show M 1 0 * (- M 0 1 / (M 0 0 * M 1 1 - M 0 1 * M 1 0)) + M 1 1 * (M 0 0 / (M 0 0 * M 1 1 - M 0 1 * M 1 0)) =
          (M 0 0 * M 1 1 - M 0 1 * M 1 0) / (M 0 0 * M 1 1 - M 0 1 * M 1 0) by ring, div_self hd]
  · refine ⟨fun h => (by simp at h), fun h => absurd h0 (hdet ⟨N, h⟩)⟩
  · have := key ((Matrix.of M).det = 0) (fun i j => (Matrix.of M)⁻¹ i j) id (fun h i k => by
      have := congrFun (congrFun (Matrix.mul_nonsing_inv (Matrix.of M) (isUnit_iff_ne_zero.2 h)) i) k
      rw [Matrix.mul_apply, Matrix.one_apply] at this
      exact this)
    rwa [if_neg h0] at this

/-- a constant series and the numbers 0, 1, 2, 3 -/
def constEx : Var ℚ := { axes := [timeEx 4], src := .values ⟨[4], fun _ => 1⟩ }
def lineEx : Var ℚ := { axes := [timeEx 4], src := .values ⟨[4], fun k => (k.getD 0 0 : ℚ)⟩ }

/-- two series: `1, 3, 5, 7` and `0, 0, 1, 5` -/
def fieldEx : Var ℚ :=
  { axes := [timeEx 4, mkEx [10, 20]]
    src := .values ⟨[4, 2], fun k => if k.getD 1 0 = 0 then [1, 3, 5, 7].getD (k.getD 0 0) 0 else [0, 0, 1, 5].getD (k.getD 0 0) 0⟩ }

theorem regressable_ex : Regressable ([constEx, lineEx].map Var.axes) fieldEx.axes [timeEx 4] := by
  refine ⟨?_, by decide +kernel, by decide +kernel, by decide +kernel, by decide +kernel, ?_, by decide +kernel⟩
  · unfold Clean; decide +kernel
  · intro a ha hn
    have : a = mkEx [10, 20] := by
      revert hn; revert a
      decide +kernel
    rw [this]; exact sep_ex

/-- the regression of the field on both series, in chunks of three numbers -/
example : ∃ O vs, multipleRegress (fun _ => 0) (fun _ => 77) 3 invEx [constEx, lineEx] fieldEx none none "beta,sb".toList = some vs ∧
    (O ++ [timeEx 4]).Perm [timeEx 4, mkEx [10, 20]] ∧ vs.map Out.name = ["beta".toList, "sb".toList] := by
  obtain ⟨O, vs, h1, h2, h3, -⟩ := multipleRegress_correct_partial (fun _ => 0) (fun _ => le_refl _) (fun _ => 77) (limit := 3) (by norm_num) invEx invEx_spec
    [constEx, lineEx] fieldEx (fun i k => if i = 0 then 1 else (k.getD 0 0 : ℚ)) _
    (by
      intro i hi
      rcases i with _ | _ | i
      · exact ⟨rfl, fun _ _ => rfl⟩
      · exact ⟨rfl, fun _ _ => rfl⟩
      · simp at hi) ⟨rfl, fun _ _ => rfl⟩ none none [timeEx 4] [timeEx 4, mkEx [10, 20]] (by decide +kernel) (by decide +kernel) [0]
    ⟨by simp, fun i => by
      rcases i with _ | _ | i
      · simpa [fieldEx] using by decide +kernel
      · simpa [fieldEx] using by decide +kernel
      · simp⟩ (by simp) regressable_ex "beta,sb".toList (by decide) (Or.inl (by decide)) (by
      intro pos _ c hc
      have key : ∀ t : ℕ, t < 4 → c 0 + c 1 * t = 0 := by
        intro t ht
        have hm : ([t] : List ℕ) ∈ positions [timeEx 4] := by
          unfold positions
          rw [mem_product]
          exact .cons (by simpa [timeEx, Axis.len] using ht) .nil
        have := hc _ (List.mem_map_of_mem hm)
        have e : over (at_ [timeEx 4, mkEx [10, 20]] [0]) [t] pos (timeEx 4) = t := by
          unfold over
          rw [show at_ [timeEx 4, mkEx [10, 20]] [0] = [timeEx 4] from rfl, if_pos (by simp)]
          simp
        replace this := (Fin.sum_univ_two (M := ℚ) _).symm.trans this
        have g0 : ([constEx, lineEx][(0 : Fin 2)]).axes = [timeEx 4] := rfl
        have g1 : ([constEx, lineEx][(1 : Fin 2)]).axes = [timeEx 4] := rfl
        simp only [g0, g1, List.map_cons, List.map_nil, e] at this
        simpa using this
      have h0 := key 0 (by norm_num)
      have h1 := key 1 (by norm_num)
      have e0 : c 0 = 0 := by simpa using h0
      have e1 : c 1 = 0 := by simpa [e0] using h1
      intro i
      match i with
      | ⟨0, _⟩ => exact e0
      | ⟨1, _⟩ => exact e1)
  exact ⟨O, vs, h1, h2, h3⟩

example : (multipleRegress (fun _ => 0) (fun _ => 77) 3 invEx [constEx, lineEx] fieldEx none none "beta,r2,covb,se".toList).map (fun vs =>
    vs.map fun v => (v.axes.map Axis.len, (product (v.axes.map fun a => List.range a.len)).map v.values.get)) =
    some [([2, 2], [some 1, some 2, some (-9 / 10), some (8 / 5)]), ([2], [some 1, some (64 / 85)]),
      ([2, 2, 2], [some 0, some 0, some 0, some 0, some (147 / 200), some (- 63 / 200), some (- 63 / 200), some (21 / 100)]),
      ([2], [some 0, some (21 / 20)])] := by decide +kernel

/-- a series of ones, without the second axis of the others -/
def shortEx : Var ℚ := { axes := [timeEx 2], src := .values ⟨[2], fun _ => 1⟩ }
def signEx : Var ℚ := { axes := [timeEx 2, mkEx [10, 20]], src := .values ⟨[2, 2], fun k => if k.getD 1 0 = 0 then 1 else -1⟩ }
def onesEx : Var ℚ := { axes := [timeEx 2, mkEx [10, 20]], src := .values ⟨[2, 2], fun _ => 1⟩ }

/-- C104, violated: if a regressor lacks one of the axes regressed over (that another one has), the coefficients are wrong.
Here `Y` is equal to the first regressor, but the coefficients returned are 2 and 0. -/
theorem missing_axis_violated :
    (multipleRegress (fun _ => 0) (fun _ => 77) 100 invEx [shortEx, signEx] onesEx none none "beta".toList).map (fun vs =>
      vs.map fun v => (v.axes.map Axis.len, [[0], [1]].map v.values.get)) = some [([2], [some 2, some 0])] := by decide +kernel

end MultiRegress
end PyGeode
