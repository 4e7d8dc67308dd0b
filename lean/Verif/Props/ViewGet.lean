/-
C08 — reading a view of a variable (`View.get`), including the mapping between the axes of the
view and the axes of the variable and the conformation of the result to the view.
-/
import Verif.Props.View

namespace PyGeode
open NArr View Spec
open scoped List
variable {Ax α : Type}

/-- entries of `l` at the places where the order is not -1 -/
private def keep : List (Option ℕ) → List ℕ → List ℕ
  | some _ :: fl, x :: l => x :: keep fl l
  | none :: fl, _ :: l => keep fl l
  | _, _ => []

private def Compat (g : ℕ → ℕ) (o : Option ℕ) (s : ℕ) : Prop :=
  match o with
  | some j => s = g j
  | none => s = 1

private theorem keep_shape (g : ℕ → ℕ) {fl : List (Option ℕ)} {S : List ℕ}
    (h : List.Forall₂ (Compat g) fl S) : keep fl S = (fl.filterMap id).map g := by
  induction h with
  | nil => rfl
  | @cons o s fl S h1 _ ih =>
    cases o with
    | none => simp [keep, ih]
    | some j => simp only [Compat] at h1; simp [keep, ih, h1]

private theorem keep_prod (g : ℕ → ℕ) {fl : List (Option ℕ)} {S : List ℕ}
    (h : List.Forall₂ (Compat g) fl S) : (keep fl S).prod = S.prod := by
  induction h with
  | nil => rfl
  | @cons o s fl S h1 _ ih =>
    cases o with
    | none => simp only [Compat] at h1; simp [keep, ih, h1]
    | some j => simp [keep, ih]

private theorem keep_ravel (g : ℕ → ℕ) {fl : List (Option ℕ)} {S k : List ℕ}
    (h : List.Forall₂ (Compat g) fl S) (hk : InBounds S k) :
    ravel (keep fl S) (keep fl k) = ravel S k ∧ InBounds (keep fl S) (keep fl k) := by
  unfold InBounds at hk ⊢
  induction h generalizing k with
  | nil => cases hk; exact ⟨rfl, List.Forall₂.nil⟩
  | @cons o s fl S h1 hS ih =>
    cases hk with
    | @cons i _ k _ hi hk =>
      have ih := ih hk
      cases o with
      | none =>
        simp only [Compat] at h1
        have : i = 0 := by omega
        simp only [keep, ravel, this]
        exact ⟨by rw [ih.1]; omega, ih.2⟩
      | some j =>
        simp only [keep, ravel, keep_prod g hS, ih.1]
        exact ⟨trivial, List.Forall₂.cons hi ih.2⟩

private theorem keep_getD (j : ℕ) : ∀ (fl : List (Option ℕ)) (k : List ℕ), k.length = fl.length →
    some j ∈ fl →
    (keep fl k).getD ((fl.filterMap id).idxOf j) 0 = k.getD (fl.idxOf (some j)) 0
  | [], _, _, h => by simp at h
  | _ :: _, [], h, _ => by simp at h
  | none :: fl, x :: k, h, hm => by
    have hm' : some j ∈ fl := by simpa using hm
    have ih := keep_getD j fl k (by simpa using h) hm'
    simp only [keep]
    rw [List.idxOf_cons_ne _ (by simp), List.getD_cons_succ, ← ih]
    simp
  | some a :: fl, x :: k, h, hm => by
    by_cases haj : a = j
    · subst haj
      simp [keep]
    · have hm' : some j ∈ fl := by
        rcases List.mem_cons.1 hm with h | h
        · exact absurd (by simpa using h.symm) haj
        · exact h
      have ih := keep_getD j fl k (by simpa using h) hm'
      simp only [keep]
      rw [List.idxOf_cons_ne _ (by simpa using haj), List.getD_cons_succ, ← ih]
      simp [List.idxOf_cons_ne _ haj]

/-- the mapping found is strict and one-to-one -/
private structure GoodMap (n : ℕ) (m : List (Option ℕ × List ℕ)) (t : ℕ → ℕ) : Prop where
  map : ∀ o, o < m.length → (m.getD o (none, [])).1 = some (t o)
  lt : ∀ o, o < m.length → t o < n
  inj : ∀ o o', o < m.length → o' < m.length → t o = t o' → o = o'

private theorem orderOf_getElem {n : ℕ} {m : List (Option ℕ × List ℕ)} {t : ℕ → ℕ}
    (h : GoodMap n m t) (i : ℕ) (hi : i < n) (o : ℕ) :
    (orderOf n m).getD i none = some o ↔ o < m.length ∧ t o = i := by
  have e : (orderOf n m).getD i none = ((List.range m.length).filter
      fun o => (m.getD o (none, [])).1 == some i).getLast? := by
    rw [List.getD_eq_getElem _ _ (by simpa [orderOf] using hi)]
    simp [orderOf]
  rw [e]
  have hf : ∀ o, o ∈ (List.range m.length).filter (fun o => (m.getD o (none, [])).1 == some i) ↔
      o < m.length ∧ t o = i := by
    intro o
    simp only [List.mem_filter, List.mem_range, beq_iff_eq]
    constructor
    · rintro ⟨h1, h2⟩
      rw [h.map o h1] at h2
      exact ⟨h1, by simpa using h2⟩
    · rintro ⟨h1, h2⟩
      refine ⟨h1, ?_⟩
      rw [h.map o h1, h2]
  constructor
  · intro hl
    exact (hf o).1 (List.mem_of_getLast? hl)
  · intro ho
    have hm := (hf o).2 ho
    set F := (List.range m.length).filter (fun o => (m.getD o (none, [])).1 == some i) with hF
    cases hl : F.getLast? with
    | none => rw [List.getLast?_eq_none_iff] at hl; rw [hl] at hm; simp at hm
    | some o' =>
      have ho' := (hf o').1 (List.mem_of_getLast? hl)
      rw [h.inj o o' ho.1 ho'.1 (by rw [ho.2, ho'.2])]

private theorem orderOf_length (n : ℕ) (m : List (Option ℕ × List ℕ)) : (orderOf n m).length = n := by
  simp [orderOf]

private theorem orderOf_idxOf {n : ℕ} {m : List (Option ℕ × List ℕ)} {t : ℕ → ℕ}
    (h : GoodMap n m t) (o : ℕ) (ho : o < m.length) : (orderOf n m).idxOf (some o) = t o := by
  have hlt := h.lt o ho
  have hlen := orderOf_length n m
  have hget := (orderOf_getElem h (t o) hlt o).2 ⟨ho, rfl⟩
  rw [List.getD_eq_getElem _ _ (by omega)] at hget
  have hm : some o ∈ orderOf n m := hget ▸ List.getElem_mem _
  have hidx := List.idxOf_lt_length_of_mem hm
  have h2 := (orderOf_getElem h _ (by omega : (orderOf n m).idxOf (some o) < n) o).1 (by
    rw [List.getD_eq_getElem _ _ hidx]; exact List.getElem_idxOf hidx)
  exact h2.2.symm

private theorem order_perm {n : ℕ} {m : List (Option ℕ × List ℕ)} {t : ℕ → ℕ}
    (h : GoodMap n m t) : ((orderOf n m).filterMap id).Perm (List.range m.length) := by
  have hlen := orderOf_length n m
  have hmem : ∀ o, o ∈ (orderOf n m).filterMap id ↔ o < m.length := by
    intro o
    simp only [List.mem_filterMap, id_eq, exists_eq_right]
    constructor
    · intro hm
      obtain ⟨i, hi, he⟩ := List.getElem_of_mem hm
      exact ((orderOf_getElem h i (by omega) o).1 (by
        rw [List.getD_eq_getElem _ _ hi]; exact he)).1
    · intro ho
      have := (orderOf_getElem h (t o) (h.lt o ho) o).2 ⟨ho, rfl⟩
      rw [List.getD_eq_getElem _ _ (by have := h.lt o ho; omega)] at this
      exact this ▸ List.getElem_mem _
  refine (List.perm_ext_iff_of_nodup ?_ List.nodup_range).2 (by simpa using hmem)
  · -- no axis of the variable occurs twice
    have hp : (orderOf n m).Pairwise fun a b => ∀ o, a = some o → b ≠ some o := by
      rw [List.pairwise_iff_getElem]
      intro i j hi hj hij o ha hb
      have h1 := (orderOf_getElem h i (by omega) o).1 (by rw [List.getD_eq_getElem _ _ hi]; exact ha)
      have h2 := (orderOf_getElem h j (by omega) o).1 (by rw [List.getD_eq_getElem _ _ hj]; exact hb)
      omega
    unfold List.Nodup
    rw [List.pairwise_filterMap]
    refine hp.imp ?_
    intro a b hab x hx y hy hxy
    simp only [id_eq] at hx hy
    subst hxy
    exact hab x hx hy

private theorem mapM_some_length {β γ : Type} (f : β → Option γ) : ∀ {l : List β} {r : List γ},
    l.mapM f = some r → r.length = l.length := by
  intro l
  induction l with
  | nil => intro r h; simp at h; simp [← h]
  | cons a l ih =>
    intro r h
    rw [List.mapM_cons] at h
    cases hf : f a with
    | none => simp [hf] at h
    | some b =>
      cases hl : l.mapM f with
      | none => simp [hf, hl] at h
      | some bs =>
        simp [hf, hl] at h
        rw [← h, List.length_cons, List.length_cons, ih hl]

/-- **C08** general form. `m` is the mapping found between the axes of the variable and those of the
view: each axis of the variable comes from the view axis `q.1` with the positions `q.2`. If no view
axis is used twice, the positions exist on the variable and are as many as the view asks for along
that axis, and the request is not empty, then `View.get` succeeds, its result has the view's length
along the mapped axes and 1 along the others, and shows at cell `k` the value of the variable at the
position that the mapping gives for `k`. -/
theorem get_correct (eqv : Ax → Ax → Bool) (mapAx : Ax → Ax → List ℕ → Option (List ℕ))
    (len : Ax → ℕ) (junk : List ℕ → α) (v : View Ax) (axes : List Ax) (src : Source Ax α)
    (data : List ℕ → α) (hv : v.axes.length = v.inds.length)
    (hs : Serves data axes (axes.map len) src)
    (m : List (Option ℕ × List ℕ)) (hm : v.mapTo eqv mapAx len true axes = some m)
    (hmapped : ∀ q ∈ m, ∃ i, q.1 = some i ∧ i < v.inds.length ∧ q.2.length = (v.inds.getD i []).length)
    (hinj : (m.map Prod.fst).Nodup)
    (hr : InRange (axes.map len) (m.map Prod.snd)) (hne : ∀ q ∈ m, q.2 ≠ []) :
    ∃ r, View.get eqv mapAx len junk v axes src = some r ∧
      r.shape = (List.range v.inds.length).map (fun i =>
        if some i ∈ m.map Prod.fst then (v.inds.getD i []).length else 1) ∧
      ∀ k, InBounds r.shape k →
        r.get k = data (m.map fun q => q.2.getD (k.getD (q.1.getD 0) 0) 0) := by
  -- the mapping as a function
  let t : ℕ → ℕ := fun o => ((m.getD o (none, [])).1).getD 0
  have hmem : ∀ o, o < m.length → m.getD o (none, []) ∈ m := fun o ho => getD_mem ho
  have ht : ∀ o, o < m.length → (m.getD o (none, [])).1 = some (t o) := by
    intro o ho
    obtain ⟨i, hi, _⟩ := hmapped _ (hmem o ho)
    simp only [t, hi, Option.getD_some]
  have gm : GoodMap v.axes.length m t := by
    refine ⟨ht, ?_, ?_⟩
    · intro o ho
      obtain ⟨i, hi, hlt, _⟩ := hmapped _ (hmem o ho)
      have := ht o ho
      rw [hi] at this
      have : i = t o := by simpa using this
      omega
    · intro o o' ho ho' hto
      have e1 := ht o ho
      have e2 := ht o' ho'
      rw [List.getD_eq_getElem _ _ ho] at e1
      rw [List.getD_eq_getElem _ _ ho'] at e2
      have := hinj.getElem_inj_iff (i := o) (j := o') (hi := by simpa using ho) (hj := by simpa using ho')
      rw [← this]
      simp [e1, e2, hto]
  have hlenq : ∀ o, o < m.length → (m.getD o (none, [])).2.length = (v.inds.getD (t o) []).length := by
    intro o ho
    obtain ⟨i, hi, _, hl⟩ := hmapped _ (hmem o ho)
    have := ht o ho
    rw [hi] at this
    have : i = t o := by simpa using this
    rw [← this, hl]
  have h0 : ¬ (0 ∈ m.map (fun p => p.2.length)) := by
    intro h
    obtain ⟨q, hq, h⟩ := List.mem_map.1 h
    exact hne q hq (List.length_eq_zero_iff.1 h)
  have hval := readUnique_correct data axes (axes.map len) src hs (m.map Prod.snd) hr (by
    intro ind hind
    obtain ⟨q, hq, rfl⟩ := List.mem_map.1 hind
    exact hne q hq)
  set values := readUnique src { axes := axes, inds := m.map Prod.snd } with hvalues
  set order := orderOf v.axes.length m with horder
  set S := (List.range v.axes.length).map fun i =>
        if (order.getD i none).isSome then (v.shape.getD i 0) else 1 with hS
  refine ⟨(values.transpose (order.filterMap id)).reshape S, ?_, ?_, ?_⟩
  · simp only [View.get, hm, Option.map_some]
    rw [if_neg h0]
  · simp only [reshape, hS, hv]
    refine List.map_congr_left fun i hi => ?_
    rw [List.mem_range] at hi
    have hsh : v.shape.getD i 0 = (v.inds.getD i []).length := by
      rw [List.getD_eq_getElem _ _ (by simpa [View.shape] using hi), List.getD_eq_getElem _ _ hi]
      simp [View.shape]
    have : (order.getD i none).isSome = true ↔ some i ∈ m.map Prod.fst := by
      rw [Option.isSome_iff_exists]
      constructor
      · rintro ⟨o, ho⟩
        obtain ⟨h1, h2⟩ := (orderOf_getElem gm i (by omega) o).1 ho
        refine List.mem_map.2 ⟨_, hmem o h1, ?_⟩
        rw [ht o h1, h2]
      · intro h
        obtain ⟨q, hq, hqi⟩ := List.mem_map.1 h
        obtain ⟨o, ho, rfl⟩ := List.getElem_of_mem hq
        refine ⟨o, (orderOf_getElem gm i (by omega) o).2 ⟨ho, ?_⟩⟩
        have := ht o ho
        rw [List.getD_eq_getElem _ _ ho, hqi] at this
        simpa using this.symm
    by_cases hc : some i ∈ m.map Prod.fst
    · rw [if_pos (this.2 hc), if_pos hc, hsh]
    · rw [if_neg (fun h => hc (this.1 h)), if_neg hc]
  · intro k hk
    have hk' : InBounds S k := hk
    simp only [reshape]
    have hvs : ∀ j, j < m.length → values.shape.getD j 0 = (m.getD j (none, [])).2.length := by
      intro j hj
      rw [hval.1, List.getD_eq_getElem _ _ (by simpa using hj), List.getD_eq_getElem _ _ hj]
      simp
    have hcompat : List.Forall₂ (Compat fun j => values.shape.getD j 0) order S := by
      rw [List.forall₂_iff_get]
      refine ⟨by simp [horder, orderOf_length, hS], fun i hi hi' => ?_⟩
      have hin : i < v.axes.length := by simpa [hS] using hi'
      simp only [List.get_eq_getElem, hS, List.getElem_map, List.getElem_range]
      have e : order.getD i none = order[i] := List.getD_eq_getElem _ _ hi
      rw [e]
      cases ho : order[i] with
      | none => simp [Compat]
      | some o =>
        simp only [Option.isSome_some, if_true, Compat]
        obtain ⟨h1, h2⟩ := (orderOf_getElem gm i hin o).1 (by rw [← ho, ← e])
        rw [hvs o h1, hlenq o h1, h2]
        rw [List.getD_eq_getElem _ _ (by simp [View.shape]; omega), List.getD_eq_getElem _ _ (by omega)]
        simp [View.shape]
    have hT : (values.transpose (order.filterMap id)).shape = keep order S := by
      rw [keep_shape _ hcompat]; rfl
    obtain ⟨hrav, hkb⟩ := keep_ravel _ hcompat hk'
    rw [hT, ← hrav, unravel_ravel hkb]
    simp only [NArr.transpose]
    have hplen : (order.filterMap id).length = m.length := by
      have := (order_perm gm).length_eq
      simpa using this
    have hkl : k.length = order.length := by
      have := InBounds.length hk'
      rw [this]; simp [hS, horder, orderOf_length]
    have hidx : (List.range (order.filterMap id).length).map
        (fun j : ℕ => (keep order k).getD ((order.filterMap id).idxOf j) 0) =
        (List.range m.length).map fun j : ℕ => k.getD (t j) 0 := by
      rw [hplen]
      refine List.map_congr_left fun j hj => ?_
      rw [List.mem_range] at hj
      have hin : some j ∈ order := by
        have := (order_perm gm).mem_iff.2 (List.mem_range.2 hj)
        simpa using this
      rw [keep_getD j order k hkl hin, orderOf_idxOf gm j hj]
    rw [hidx]
    have hkt : ∀ o, o < m.length → k.getD (t o) 0 < (m.getD o (none, [])).2.length := by
      intro o ho
      have hlt := gm.lt o ho
      have h1 := InBounds.lt hk' (i := t o) (by simpa [hS] using hlt)
      have h2 : S.getD (t o) 0 = (v.inds.getD (t o) []).length := by
        rw [List.getD_eq_getElem _ _ (by simpa [hS] using hlt)]
        simp only [hS, List.getElem_map, List.getElem_range]
        rw [(orderOf_getElem gm (t o) hlt o).2 ⟨ho, rfl⟩]
        simp only [Option.isSome_some, if_true]
        rw [List.getD_eq_getElem _ _ (by simp [View.shape]; omega), List.getD_eq_getElem _ _ (by omega)]
        simp [View.shape]
      rw [hlenq o ho, ← h2]
      exact h1
    rw [hval.2]
    · congr 1
      unfold cell
      refine List.ext_getElem (by simp) fun o ho ho' => ?_
      have hol : o < m.length := by simpa using ho'
      simp only [List.getElem_zipWith, List.getElem_map, List.getElem_range, t]
      rw [List.getD_eq_getElem m _ hol]
    · rw [inBounds_iff]
      refine ⟨by simp, fun o ho => ?_⟩
      have hol : o < m.length := by simpa using ho
      have := hkt o hol
      rw [List.getD_eq_getElem _ _ hol] at this
      rw [List.getD_eq_getElem _ _ (by simpa using hol), List.getD_eq_getElem _ _ (by simpa using hol)]
      simpa using this


/-- **C08** for a variable all of whose axes are axes of the view (the usual case), when
equality of axes (`eqv`) is equality on the axes at hand: the result has,
along each axis of the view, the requested length if the variable has that axis and 1 otherwise, and
shows at cell `k` the value of the variable at the requested positions, whatever the order in which
the variable lists its axes. -/
theorem get_shared_axes_eqv [DecidableEq Ax] (eqv : Ax → Ax → Bool) (mapAx : Ax → Ax → List ℕ → Option (List ℕ))
    (len : Ax → ℕ) (junk : List ℕ → α) (v : View Ax) (axes : List Ax) (src : Source Ax α)
    (data : List ℕ → α) (hv : v.axes.length = v.inds.length) (hnd : v.axes.Nodup) (hnd' : axes.Nodup)
    (hsub : ∀ a ∈ axes, a ∈ v.axes) (hr : InRange (v.axes.map len) v.inds)
    (heqv : ∀ a ∈ axes, ∀ b ∈ v.axes, eqv a b = decide (a = b))
    (hne : ∀ ind ∈ v.inds, ind ≠ []) (hs : Serves data axes (axes.map len) src) :
    ∃ r, View.get eqv mapAx len junk v axes src = some r ∧
      r.shape = List.zipWith (fun a ind => if a ∈ axes then List.length ind else 1) v.axes v.inds ∧
      ∀ k, InBounds r.shape k →
        r.get k = data (axes.map fun a =>
          (v.inds.getD (v.axes.idxOf a) []).getD (k.getD (v.axes.idxOf a) 0) 0) := by
  let f : Ax → Option ℕ × List ℕ := fun a => (some (v.axes.idxOf a), v.inds.getD (v.axes.idxOf a) [])
  have hidx : ∀ a ∈ axes, v.axes.idxOf a < v.inds.length := fun a ha => by
    rw [← hv]; exact List.idxOf_lt_length_of_mem (hsub a ha)
  have hm : v.mapTo eqv mapAx len true axes = some (axes.map f) := by
    unfold mapTo
    have : ∀ (l : List Ax), (∀ a ∈ l, a ∈ axes) → (l.mapM fun out =>
        match v.mapAxis eqv mapAx out with
        | some (i, l) => some (some i, l)
        | none => if true = true then none else some (none, List.range (len out))) = some (l.map f) := by
      intro l hl
      induction l with
      | nil => rfl
      | cons a l ih =>
        rw [List.mapM_cons, ih (fun b hb => hl b (by simp [hb]))]
        have hf : v.axes.findIdx? (fun b => eqv a b) = some (v.axes.idxOf a) := by
          have hax := hl a (by simp)
          have hma := hsub a hax
          rw [List.findIdx?_eq_some_iff_getElem]
          refine ⟨List.idxOf_lt_length_of_mem hma, by rw [heqv a hax _ (List.getElem_mem _)]; simp, ?_⟩
          intro j hj
          have := List.not_of_lt_findIdx (p := (· == a)) hj
          rw [heqv a hax _ (List.getElem_mem _), decide_eq_true_eq]
          intro h
          simp [← h] at this
        simp only [mapAxis, hf]
        rfl
    exact this axes (fun a ha => ha)
  have g1 : ∀ q ∈ axes.map f, ∃ i, q.1 = some i ∧ i < v.inds.length ∧
      q.2.length = (v.inds.getD i []).length := by
    intro q hq
    obtain ⟨a, ha, rfl⟩ := List.mem_map.1 hq
    exact ⟨_, rfl, hidx a ha, rfl⟩
  have g2 : ((axes.map f).map Prod.fst).Nodup := by
    rw [List.map_map]
    refine hnd'.map_on ?_
    intro a ha b hb hab
    simp only [Function.comp_apply, f, Option.some.injEq] at hab
    exact (List.idxOf_inj (hsub a ha)).1 hab
  have g3 : InRange (axes.map len) ((axes.map f).map Prod.snd) := by
    rw [List.map_map]
    unfold InRange at hr ⊢
    rw [List.forall₂_map_left_iff, List.forall₂_map_right_iff, List.forall₂_same]
    intro a ha i hi
    simp only [Function.comp_apply, f] at hi
    rw [List.forall₂_iff_get] at hr
    have hil := hidx a ha
    have := hr.2 (v.axes.idxOf a) hil (by simpa [hv] using hil)
    simp only [List.get_eq_getElem, List.getElem_map] at this
    rw [List.getD_eq_getElem _ _ hil] at hi
    have h2 := this i hi
    rwa [List.getElem_idxOf] at h2
  have g4 : ∀ q ∈ axes.map f, q.2 ≠ [] := by
    intro q hq
    obtain ⟨a, ha, rfl⟩ := List.mem_map.1 hq
    exact hne _ (getD_mem (hidx a ha))
  obtain ⟨r, h1, h2, h3⟩ := get_correct eqv mapAx len junk v axes src data hv hs
    (axes.map f) hm g1 g2 g3 g4
  refine ⟨r, h1, ?_, fun k hk => ?_⟩
  · rw [h2]
    refine List.ext_getElem (by simp [hv]) fun i hi hi' => ?_
    have hil : i < v.inds.length := by simpa using hi
    simp only [List.getElem_map, List.getElem_range, List.getElem_zipWith]
    rw [List.getD_eq_getElem _ _ hil]
    have : some i ∈ (axes.map f).map Prod.fst ↔ v.axes[i] ∈ axes := by
      simp only [List.map_map, List.mem_map, Function.comp_apply, f, Option.some.injEq]
      constructor
      · rintro ⟨a, ha, hi⟩
        have := List.getElem_idxOf (List.idxOf_lt_length_of_mem (hsub a ha))
        simp only [hi] at this
        rw [this]; exact ha
      · intro h
        exact ⟨_, h, hnd.idxOf_getElem i (by omega)⟩
    by_cases hc : v.axes[i] ∈ axes
    · rw [if_pos (this.2 hc), if_pos hc]
    · rw [if_neg (fun h => hc (this.1 h)), if_neg hc]
  · rw [h3 k hk, List.map_map]
    congr 1

/-- **C08** for a variable all of whose axes are axes of the view (the usual case): the result has,
along each axis of the view, the requested length if the variable has that axis and 1 otherwise, and
shows at cell `k` the value of the variable at the requested positions, whatever the order in which
the variable lists its axes. -/
theorem get_shared_axes [DecidableEq Ax] (mapAx : Ax → Ax → List ℕ → Option (List ℕ))
    (len : Ax → ℕ) (junk : List ℕ → α) (v : View Ax) (axes : List Ax) (src : Source Ax α)
    (data : List ℕ → α) (hv : v.axes.length = v.inds.length) (hnd : v.axes.Nodup) (hnd' : axes.Nodup)
    (hsub : ∀ a ∈ axes, a ∈ v.axes) (hr : InRange (v.axes.map len) v.inds)
    (hne : ∀ ind ∈ v.inds, ind ≠ []) (hs : Serves data axes (axes.map len) src) :
    ∃ r, View.get (fun a b => decide (a = b)) mapAx len junk v axes src = some r ∧
      r.shape = List.zipWith (fun a ind => if a ∈ axes then List.length ind else 1) v.axes v.inds ∧
      ∀ k, InBounds r.shape k →
        r.get k = data (axes.map fun a =>
          (v.inds.getD (v.axes.idxOf a) []).getD (k.getD (v.axes.idxOf a) 0) 0) :=
  get_shared_axes_eqv _ mapAx len junk v axes src data hv hnd hnd' hsub hr (fun _ _ _ _ => rfl) hne hs

/-- A 3-d view `(x,y,z)` of a 2-d variable with axes `(z,x)`: the middle axis has length 1 and the
other two are transposed. -/
example : (View.get (fun a b => decide (a = b)) (fun _ _ _ => none) (fun _ => 10) (fun _ => 0)
      ⟨["x", "y", "z"], [[1, 2], [5], [7, 7, 3]]⟩ ["z", "x"]
      (.values ⟨[10, 10], fun k => 100 * k.getD 0 0 + k.getD 1 0⟩)).map
        (fun r => (r.shape, (product [[0, 1], [0], [0, 1, 2]]).map r.get)) =
    some ([2, 1, 3], [701, 701, 301, 702, 702, 302]) := by decide +kernel

/-- For an empty request the shape of the result is computed by pairing the lengths along the
*variable's* axes with the order of the *view's* axes: here the view is 1-by-0 but the returned
array has one (uninitialised) element. -/
theorem get_empty_violated :
    (View.get (fun a b => decide (a = b)) (fun _ _ _ => none) (fun _ => 10) (fun _ => 99)
      ⟨["x", "y"], [[1], []]⟩ ["y"]
      (.values ⟨[10], fun k => k.getD 0 0⟩)).map (fun r => (r.shape, r.get [0])) =
    some ([1], 99) := by decide +kernel

end PyGeode
