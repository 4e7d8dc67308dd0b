/-
C92: composites.
-/
import Verif.Model.Composite
import Verif.Props.Lag
import Verif.Props.Ensemble

namespace PyGeode
open Spec NArr Axis Combine VarOps

namespace Composite

/-- What a composite shows: for event number `e` and offset number `j`, the data `j - before` steps after the event, if that
offset lies within the event (it begins `off e` steps before its centre and has `len e` steps) and on the axis, and NaN
(`none`) otherwise. `k` has the event number at `d` and the offset number at `d + 1`. -/
def _root_.PyGeode.Spec.composited (events : List ℕ) (len off : ℕ → ℤ) (before : ℤ) (d N : ℕ) (data : List ℕ → Option ℚ)
    (k : List ℕ) : Option ℚ :=
  let e := k.getD d 0
  let o : ℤ := (k.getD (d + 1) 0 : ℤ) - before
  let t : ℤ := (events.getD e 0 : ℤ) + o
  if -off e ≤ o ∧ o < len e - off e ∧ 0 ≤ t ∧ t < (N : ℤ) then data ((k.eraseIdx (d + 1)).set d t.toNat) else none

/-- what is shown for given lengths and offsets of events, whatever their meaning -/
def shown (events : List ℕ) (lens offs : List ℤ) (mevoff : ℤ) (d : ℕ) (data : List ℕ → Option ℚ) (k : List ℕ) : Option ℚ :=
  let e := k.getD d 0
  let o : ℤ := (k.getD (d + 1) 0 : ℤ) - mevoff
  if -offs.getD e 0 ≤ o ∧ o < lens.getD e 0 - offs.getD e 0 then
    data ((k.eraseIdx (d + 1)).set d ((events.getD e 0 : ℤ) + o).toNat) else none

theorem foldl_putRow (d : ℕ) (k : List ℕ) :
    ∀ (L : List ((List ℕ × NArr (Option ℚ)) × ℕ)) (out : NArr (Option ℚ)), (L.map Prod.snd).Nodup →
    (L.foldl (putRow d) out).shape = out.shape ∧
    ∀ r, (r, k.getD d 0) ∈ L → (L.foldl (putRow d) out).get k =
      if k.getD (d + 1) 0 ∈ r.1 then r.2.get ((k.eraseIdx (d + 1)).set d (r.1.idxOf (k.getD (d + 1) 0))) else out.get k
  | [], out, _ => ⟨rfl, fun r h => by simp at h⟩
  | p :: L, out, hnd => by
    simp only [List.map_cons, List.nodup_cons] at hnd
    obtain ⟨h1, h2⟩ := foldl_putRow d k L (putRow d out p) hnd.2
    refine ⟨by rw [List.foldl_cons, h1]; rfl, fun r hr => ?_⟩
    rw [List.foldl_cons]
    have hkeep : ∀ (L : List ((List ℕ × NArr (Option ℚ)) × ℕ)) (o : NArr (Option ℚ)), k.getD d 0 ∉ L.map Prod.snd →
        (L.foldl (putRow d) o).get k = o.get k := by
      intro L
      induction L with
      | nil => intro o _; rfl
      | cons q L ih =>
        intro o hq
        simp only [List.map_cons, List.mem_cons, not_or] at hq
        rw [List.foldl_cons, ih _ hq.2]
        show (if _ then _ else _) = _
        rw [if_neg fun h => hq.1 h.1]
    rcases List.mem_cons.1 hr with rfl | hr
    · rw [hkeep L _ hnd.1]
      show (if _ then _ else _) = _
      simp only [true_and]
    · rw [h2 r hr]
      have hne : k.getD d 0 ≠ p.2 := by
        rintro h
        exact hnd.1 (h ▸ List.mem_map.2 ⟨_, hr, rfl⟩)
      have : (putRow d out p).get k = out.get k := by
        show (if _ then _ else _) = _
        rw [if_neg fun h => hne h.1]
      rw [this]

/-- reading through a composite, whatever the lengths and offsets stored for the events, as long as no event runs past the
axis -/
theorem compositeView_shown (nr : List ℚ → ℚ) (junk : List ℕ → Option ℚ) (x : Var (Option ℚ)) (data : List ℕ → Option ℚ)
    (hx : Contains x data) (hR : Regular x.axes) (d : ℕ) (hd : d < x.axes.length) (events : List ℕ) (lens offs : List ℤ)
    (mevoff : ℤ) (ev off : Axis)
    (I : List (List ℕ))
    (hin : ∀ e ∈ I.getD d [], ∀ j ∈ I.getD (d + 1) [], -offs.getD e 0 ≤ (j : ℤ) - mevoff →
      (j : ℤ) - mevoff < lens.getD e 0 - offs.getD e 0 →
      0 ≤ (events.getD e 0 : ℤ) + ((j : ℤ) - mevoff) ∧ (events.getD e 0 : ℤ) + ((j : ℤ) - mevoff) < (x.axes[d].len : ℤ))
    (hI : InRange ((x.axes.take d ++ ev :: off :: x.axes.drop (d + 1)).map Axis.len) I)
    (hne : ∀ ind ∈ I, ind ≠ []) :
    ∃ r, compositeView nr junk x d x.axes[d].len events lens offs mevoff
        ⟨x.axes.take d ++ ev :: off :: x.axes.drop (d + 1), I⟩ = some r ∧
      IsRead (shown events lens offs mevoff d data) I r := by
  set Y := x.axes.take d ++ ev :: off :: x.axes.drop (d + 1) with hY
  set N := x.axes[d].len with hN
  have htk : (x.axes.take d).length = d := by simp; omega
  have hYl : Y.length = x.axes.length + 1 := by simp [hY]; omega
  have hIl : I.length = x.axes.length + 1 := by rw [hI.length_eq]; simp [hYl]
  have hYe : ((Y.map Axis.len).eraseIdx (d + 1)).set d N = x.axes.map Axis.len := by
    have e1 : (Y.map Axis.len).eraseIdx (d + 1) = (x.axes.take d).map Axis.len ++ ev.len :: (x.axes.drop (d + 1)).map Axis.len := by
      rw [hY, List.map_append, List.eraseIdx_append_of_length_le (by simp), List.length_map, htk]
      simp
    have e2 : x.axes.map Axis.len = (x.axes.take d).map Axis.len ++ N :: (x.axes.drop (d + 1)).map Axis.len := by
      conv_lhs => rw [← List.take_append_drop d x.axes]
      rw [List.map_append, List.drop_eq_getElem_cons hd, List.map_cons]
    rw [e1, e2, List.set_append_right _ _ (by rw [List.length_map, htk]), List.length_map, htk, Nat.sub_self, List.set_cons_zero]
  set eind := I.getD d [] with heind
  set opos := I.getD (d + 1) [] with hopos
  have hem : eind ∈ I := getD_mem (by omega)
  have hom : opos ∈ I := getD_mem (by omega)
  set icm : List ℤ := opos.map fun i : ℕ => (i : ℤ) - mevoff with hicm
  have hicml : icm.length = opos.length := by simp [hicm]
  have hicmg : ∀ j, j < opos.length → icm.getD j 0 = (opos.getD j 0 : ℤ) - mevoff := by
    intro j hj
    rw [List.getD_eq_getElem icm _ (by omega), List.getD_eq_getElem opos _ hj]
    simp [hicm]
  have hJm : ∀ (e j : ℕ), j ∈ inEvent icm (lens.getD e 0) (offs.getD e 0) ↔ j < opos.length ∧
      -offs.getD e 0 ≤ icm.getD j 0 ∧ icm.getD j 0 < lens.getD e 0 - offs.getD e 0 := by
    intro e j
    unfold inEvent
    simp [hicml]
  -- one row
  have hrow : ∀ e ∈ eind, ∃ r, eventRow nr junk x d N events lens offs icm ⟨Y, I⟩ e =
      some (inEvent icm (lens.getD e 0) (offs.getD e 0), r) ∧
      (inEvent icm (lens.getD e 0) (offs.getD e 0) ≠ [] →
        IsRead data ((I.eraseIdx (d + 1)).set d ((inEvent icm (lens.getD e 0) (offs.getD e 0)).map fun j =>
          (icm.getD j 0 + (events.getD e 0 : ℤ)).toNat)) r) := by
    intro e he
    set J := inEvent icm (lens.getD e 0) (offs.getD e 0) with hJ
    have hb : ∀ j ∈ J, 0 ≤ icm.getD j 0 + (events.getD e 0 : ℤ) ∧ icm.getD j 0 + (events.getD e 0 : ℤ) < (N : ℤ) := by
      intro j hj
      obtain ⟨h1, h2, h3⟩ := (hJm e j).1 hj
      rw [hicmg j h1] at h2 h3 ⊢
      have := hin e he _ (getD_mem h1) h2 h3
      omega
    have hany : ((J.map fun j => icm.getD j 0 + (events.getD e 0 : ℤ)).any fun t : ℤ =>
        decide (t < 0) || decide ((N : ℤ) ≤ t)) = false := by
      rw [List.any_eq_false]
      intro t ht
      obtain ⟨j, hj, rfl⟩ := List.mem_map.1 ht
      have := hb j hj
      simp only [Bool.or_eq_true, decide_eq_true_eq, not_or]
      omega
    set insl := J.map fun j => (icm.getD j 0 + (events.getD e 0 : ℤ)).toNat with hinsl
    have hmm : (J.map fun j => icm.getD j 0 + (events.getD e 0 : ℤ)).map Int.toNat = insl := by
      rw [List.map_map]; rfl
    have hsr : ∀ p ∈ insl, p < N := by
      intro p hp
      obtain ⟨j, hj, rfl⟩ := List.mem_map.1 hp
      have := hb j hj
      omega
    set K := (I.eraseIdx (d + 1)).set d insl with hK
    have hKl : K.length = x.axes.length := by simp [hK, List.length_eraseIdx, hIl, hd]
    have hKr : InRange (x.axes.map Axis.len) K := by
      rw [← hYe]
      have h1 := Lag.forall₂_eraseIdx hI (d + 1)
      rw [hK]
      have h2 : ∀ (L : List (List ℕ)) (S : List ℕ), List.Forall₂ (fun (l : List ℕ) (n : ℕ) => ∀ i ∈ l, i < n) L S →
          ∀ q, List.Forall₂ (fun (l : List ℕ) (n : ℕ) => ∀ i ∈ l, i < n) (L.set q insl) (S.set q N) := by
        intro L S h
        induction h with
        | nil => intro q; simp
        | cons a b ih =>
          intro q
          cases q with
          | zero => exact List.Forall₂.cons hsr b
          | succ q => exact List.Forall₂.cons a (ih q)
      exact h2 _ _ h1 d
    have hread : ∃ r, x.read nr junk ⟨x.axes, K⟩ = some r ∧ (J ≠ [] → IsRead data K r) := by
      by_cases h : J = []
      · obtain ⟨m, hm, _⟩ := Loop.mapTo_own nr x.axes hR K hKl true
        unfold Var.read View.get
        rw [hm]
        exact ⟨_, rfl, fun h' => absurd h h'⟩
      · obtain ⟨r, h1, h2⟩ := read_own nr junk x data hx hR K hKr (by
          intro ind hind
          rcases List.mem_or_eq_of_mem_set hind with h' | h'
          · exact hne _ (List.mem_of_mem_eraseIdx h')
          · rw [h', hinsl]; simpa using h)
        exact ⟨r, h1, fun _ => h2⟩
    obtain ⟨r, hr1, hr2⟩ := hread
    refine ⟨r, ?_, hr2⟩
    unfold eventRow
    dsimp only
    rw [← hJ, hany, hmm, ← hK, hr1]
    rfl
  have : Inhabited (NArr (Option ℚ)) := ⟨⟨[], junk⟩⟩
  choose! R hR1 hR2 using hrow
  have hrows : eind.mapM (eventRow nr junk x d N events lens offs icm ⟨Y, I⟩) =
      some (eind.map fun e => (inEvent icm (lens.getD e 0) (offs.getD e 0), R e)) := Ensemble.mapM_of eind _ _ hR1
  refine ⟨((eind.map fun e => (inEvent icm (lens.getD e 0) (offs.getD e 0), R e)).zipIdx).foldl (putRow d)
      { shape := I.map List.length, get := fun _ => none }, ?_, ?_⟩
  · unfold compositeView
    dsimp only
    rw [← heind, ← hopos, ← hicm, hrows]
    rfl
  have hnd : (((eind.map fun e => (inEvent icm (lens.getD e 0) (offs.getD e 0), R e)).zipIdx).map Prod.snd).Nodup := by
    simp [List.nodup_range']
  refine ⟨(foldl_putRow d [] _ _ hnd).1, fun k hk => ?_⟩
  have hkl : k.length = I.length := by simpa using hk.length_eq
  have hke : k.getD d 0 < eind.length := by
    have := InBounds.lt hk (i := d) (by simp; omega)
    rwa [List.getD_eq_getElem (I.map List.length) _ (by simp; omega), List.getElem_map, ← List.getD_eq_getElem I [] (by omega)] at this
  have hko : k.getD (d + 1) 0 < opos.length := by
    have := InBounds.lt hk (i := d + 1) (by simp; omega)
    rwa [List.getD_eq_getElem (I.map List.length) _ (by simp; omega), List.getElem_map, ← List.getD_eq_getElem I [] (by omega)] at this
  have hce : (cell I k).getD d 0 = eind.getD (k.getD d 0) 0 := by
    rw [getD_cell _ _ _ (by omega) (by omega)]
  have hco : (cell I k).getD (d + 1) 0 = opos.getD (k.getD (d + 1) 0) 0 := by
    rw [getD_cell _ _ _ (by omega) (by omega)]
  set e := eind.getD (k.getD d 0) 0 with he
  have hemem : e ∈ eind := getD_mem hke
  set J := inEvent icm (lens.getD e 0) (offs.getD e 0) with hJ
  have hlz : ((J, R e), k.getD d 0) ∈ (eind.map fun e => (inEvent icm (lens.getD e 0) (offs.getD e 0), R e)).zipIdx := by
    rw [List.mem_zipIdx_iff_getElem?]
    simp only
    rw [List.getElem?_map, List.getElem?_eq_getElem hke]
    simp only [Option.map_some, Option.some.injEq]
    rw [← List.getD_eq_getElem eind 0 hke]
  rw [(foldl_putRow d k _ _ hnd).2 _ hlz]
  unfold shown
  dsimp only
  rw [hce, hco]
  by_cases hv : k.getD (d + 1) 0 ∈ J
  swap
  · rw [if_neg hv, if_neg]
    intro h
    refine hv ((hJm e _).2 ⟨hko, ?_⟩)
    rw [hicmg _ hko]
    exact h
  obtain ⟨_, h2, h3⟩ := (hJm e _).1 hv
  rw [hicmg _ hko] at h2 h3
  rw [if_pos hv, if_pos ⟨h2, h3⟩]
  have hr := hR2 e hemem (List.ne_nil_of_mem hv)
  set q := J.idxOf (k.getD (d + 1) 0) with hq
  have hql : q < J.length := List.idxOf_lt_length_iff.2 hv
  set insl := J.map fun j => (icm.getD j 0 + (events.getD e 0 : ℤ)).toNat with hinsl
  have hkb : InBounds (((I.eraseIdx (d + 1)).set d insl).map List.length) ((k.eraseIdx (d + 1)).set d q) := by
    have h5 := Lag.forall₂_eraseIdx hk (d + 1)
    have h6 := Along.inBounds_set h5 d insl.length q (by simpa [hinsl] using hql)
    rw [List.map_set]
    rwa [List.eraseIdx_map] at h6
  have hiq : insl.getD q 0 = ((events.getD e 0 : ℤ) + ((opos.getD (k.getD (d + 1) 0) 0 : ℤ) - mevoff)).toNat := by
    rw [List.getD_eq_getElem insl _ (by simpa [hinsl] using hql)]
    simp only [hinsl, List.getElem_map]
    rw [List.getElem_idxOf hql, hicmg _ hko, Int.add_comm]
  rw [hr.2 _ hkb]
  congr 1
  rw [Along.set_cell _ _ _ _ _ (by simp [List.length_eraseIdx, hIl]; split_ifs <;> omega)
    (by simp [List.length_eraseIdx, hkl]), Lag.cell_eraseIdx, hiq]

/-- the length or the offset of event number `e` -/
def _root_.PyGeode.Spec.evAt : EvArg → ℕ → ℤ
  | .one n, _ => n
  | .each l, e => l.getD e 0

/-- the offset axis begins `before` steps before the centres: the only offset given, or the largest -/
def _root_.PyGeode.Spec.BeginsBefore (evoff : EvArg) (before : ℤ) : Prop :=
  match evoff with
  | .one o => before = o
  | .each l => before ∈ l ∧ ∀ o ∈ l, o ≤ before

/-- the offset axis has `width` steps: the only length given, or up to the last step of any of the `n` events -/
def _root_.PyGeode.Spec.HasWidth (n : ℕ) (evlen evoff : EvArg) (before width : ℤ) : Prop :=
  match evlen with
  | .one m => width = m
  | .each l => (∃ e < n, width = l.getD e 0 - evAt evoff e + before) ∧ ∀ e < n, l.getD e 0 - evAt evoff e + before ≤ width

theorem eventOffs_spec (n : ℕ) (evoff : EvArg) (p : List ℤ × ℤ) (h : eventOffs n evoff = some p) :
    p.1.length = n ∧ (∀ e < n, p.1.getD e 0 = evAt evoff e) ∧ BeginsBefore evoff p.2 := by
  cases evoff with
  | one o =>
    obtain rfl := Option.some.inj h
    refine ⟨by simp, fun e he => ?_, rfl⟩
    rw [List.getD_eq_getElem _ _ (by simpa using he)]
    simp [evAt]
  | each l =>
    cases hm : l.max? with
    | none => simp [eventOffs, hm] at h
    | some m =>
      simp only [eventOffs, hm, Option.bind_some] at h
      split_ifs at h with h1
      obtain rfl := Option.some.inj h
      exact ⟨h1, fun _ _ => rfl, (List.max?_eq_some_iff).1 hm⟩

theorem eventLens_spec (n : ℕ) (evoff evlen : EvArg) (p q : List ℤ × ℤ) (hl : p.1.length = n)
    (hp : ∀ e < n, p.1.getD e 0 = evAt evoff e) (h : eventLens n p evlen = some q) :
    q.1.length = n ∧ (∀ e < n, q.1.getD e 0 = evAt evlen e) ∧ HasWidth n evlen evoff p.2 q.2 := by
  cases evlen with
  | one o =>
    obtain rfl := Option.some.inj h
    refine ⟨by simp, fun e he => ?_, rfl⟩
    rw [List.getD_eq_getElem _ _ (by simpa using he)]
    simp [evAt]
  | each l =>
    cases hm : (List.zipWith (fun a o : ℤ => a - o + p.2) l p.1).max? with
    | none => simp [eventLens, hm] at h
    | some m =>
      simp only [eventLens, hm, Option.bind_some] at h
      split_ifs at h with h1
      obtain rfl := Option.some.inj h
      obtain ⟨h2, h3⟩ := (List.max?_eq_some_iff).1 hm
      have hg : ∀ e (he : e < (List.zipWith (fun a o : ℤ => a - o + p.2) l p.1).length),
          (List.zipWith (fun a o : ℤ => a - o + p.2) l p.1)[e] = l.getD e 0 - evAt evoff e + p.2 := by
        intro e he
        simp only [List.length_zipWith] at he
        rw [List.getElem_zipWith, ← hp e (by omega), List.getD_eq_getElem l _ (by omega), List.getD_eq_getElem p.1 _ (by omega)]
      refine ⟨h1, fun _ _ => rfl, ?_, fun e he => ?_⟩
      · obtain ⟨e, he, h4⟩ := List.mem_iff_getElem.1 h2
        refine ⟨e, by simp at he; omega, ?_⟩
        rw [← h4, hg e he]
      · have he' : e < (List.zipWith (fun a o : ℤ => a - o + p.2) l p.1).length := by simp; omega
        rw [← hg e he']
        exact h3 _ (List.getElem_mem he')

theorem width_unique {n : ℕ} {evlen evoff : EvArg} {b w w' : ℤ} (h : HasWidth n evlen evoff b w) (h' : HasWidth n evlen evoff b w') :
    w = w' := by
  cases evlen with
  | one m => exact h.trans h'.symm
  | each l =>
    obtain ⟨⟨e, he, h1⟩, h2⟩ := h
    obtain ⟨⟨e', he', h1'⟩, h2'⟩ := h'
    have := h2 e' he'
    have := h2' e he
    omega

theorem before_unique {evoff : EvArg} {b b' : ℤ} (h : BeginsBefore evoff b) (h' : BeginsBefore evoff b') : b = b' := by
  cases evoff with
  | one m => exact h.trans h'.symm
  | each l => have := h.2 _ h'.1; have := h'.2 _ h.1; omega

theorem offsetAxis_len (ax : Axis) (b w : ℤ) : (offsetAxis ax b w).len = w.toNat := by
  unfold offsetAxis
  dsimp only
  split_ifs <;> simp [Axis.len]

/-- what the constructor makes -/
theorem compositeVar_eq (nr : List ℚ → ℚ) (junk : List ℕ → Option ℚ) (x y : Var (Option ℚ)) (d : ℕ) (ievents : List ℕ)
    (evlen evoff : EvArg) (ax : Axis) (hax : x.axes[d]? = some ax)
    (hy : compositeVar nr junk x d ievents evlen evoff = some y) (before width : ℤ) (hb : BeginsBefore evoff before)
    (hw : HasWidth ievents.length evlen evoff before width) :
    ∃ lens offs : List ℤ,
      (∀ e < ievents.length, (lens.getD e 0, offs.getD e 0) = clipEvent ax.len (ievents.getD e 0) (evAt evlen e) (evAt evoff e)) ∧
      y = Var.ofView junk (x.axes.take d ++ eventAxis ievents :: offsetAxis ax before width :: x.axes.drop (d + 1))
        (compositeView nr junk x d ax.len ievents lens offs before) := by
  unfold compositeVar at hy
  rw [hax] at hy
  simp only [Option.bind_eq_bind, Option.bind_some] at hy
  cases ho : eventOffs ievents.length evoff with
  | none => rw [ho] at hy; cases hy
  | some p =>
    rw [ho] at hy
    simp only [Option.bind_some] at hy
    cases hl : eventLens ievents.length p evlen with
    | none => rw [hl] at hy; cases hy
    | some q =>
      rw [hl] at hy
      simp only [Option.bind_some] at hy
      obtain ⟨a1, a2, a3⟩ := eventOffs_spec _ _ _ ho
      obtain ⟨b1, b2, b3⟩ := eventLens_spec _ _ _ _ _ a1 a2 hl
      have hpb := before_unique a3 hb
      rw [hpb] at b3
      have hqw := width_unique b3 hw
      rw [hpb, hqw] at hy
      refine ⟨_, _, fun e he => ?_, (Option.some.inj hy).symm⟩
      have hlen : e < (List.zipWith (fun (i : ℕ) (p : ℤ × ℤ) => clipEvent ax.len i p.1 p.2) ievents (q.1.zip p.1)).length := by
        simp; omega
      rw [List.getD_eq_getElem _ _ (by simpa using hlen), List.getD_eq_getElem _ _ (by simpa using hlen), List.getElem_map,
        List.getElem_map, Prod.mk.eta, List.getElem_zipWith, List.getElem_zip, ← a2 e he, ← b2 e he,
        List.getD_eq_getElem ievents _ he, List.getD_eq_getElem q.1 _ (by omega), List.getD_eq_getElem p.1 _ (by omega)]

theorem getD_insert2 {β : Type} (l : List β) (d : ℕ) (hd : d < l.length) (a b z : β) :
    (l.take d ++ a :: b :: l.drop (d + 1)).getD d z = a ∧ (l.take d ++ a :: b :: l.drop (d + 1)).getD (d + 1) z = b := by
  have htk : (l.take d).length = d := by simp; omega
  constructor
  · rw [List.getD_append_right _ _ _ _ (by omega), htk, Nat.sub_self]; rfl
  · rw [List.getD_append_right _ _ _ _ (by omega), htk, Nat.add_sub_cancel_left]; rfl

/-- C92: a composite replaces the axis by an event axis and an offset axis, and shows for every event the data around its
centre: NaN outside the event and past the ends of the axis - for every list of events, every request, one length and offset
for all events or one for each. Required of each event: it does not begin before the axis, or it ends no earlier (relative to
its centre) than any other and ends on the axis (see `composite_overrun` and `composite_raises`). -/
theorem composite_correct_partial (nr : List ℚ → ℚ) (junk : List ℕ → Option ℚ) (x y : Var (Option ℚ)) (d : ℕ) (ievents : List ℕ)
    (evlen evoff : EvArg) (data : List ℕ → Option ℚ) (ax : Axis) (hx : Contains x data) (hR : Regular x.axes)
    (hax : x.axes[d]? = some ax)
    (hy : compositeVar nr junk x d ievents evlen evoff = some y) (before width : ℤ) (hb : BeginsBefore evoff before)
    (hw : HasWidth ievents.length evlen evoff before width)
    (hgood : ∀ e < ievents.length, evAt evoff e ≤ (ievents.getD e 0 : ℤ) ∨
      (width - before ≤ evAt evlen e - evAt evoff e ∧ (ievents.getD e 0 : ℤ) + (width - before) ≤ (ax.len : ℤ))) :
    y.axes = x.axes.take d ++ eventAxis ievents :: offsetAxis ax before width :: x.axes.drop (d + 1) ∧
    Contains y (composited ievents (evAt evlen) (evAt evoff) before d ax.len data) := by
  obtain ⟨lens, offs, hc, rfl⟩ := compositeVar_eq nr junk x y d ievents evlen evoff ax hax hy before width hb hw
  obtain ⟨hdl, rfl⟩ := List.getElem?_eq_some_iff.1 hax
  refine ⟨rfl, contains_ofView_tidy junk _ _ _ fun I hI ht => ?_⟩
  set Y := x.axes.take d ++ eventAxis ievents :: offsetAxis x.axes[d] before width :: x.axes.drop (d + 1) with hY
  have hYl : Y.length = x.axes.length + 1 := by simp [hY]; omega
  have hIl : I.length = x.axes.length + 1 := by rw [hI.length_eq]; simp [hYl]
  have heN : ∀ p ∈ I.getD d [], p < ievents.length := by
    intro p hp
    have := Along.inRange_get hI d (by omega) p hp
    have h2 : (Y.map Axis.len).getD d 0 = (eventAxis ievents).len := by
      rw [show (0 : ℕ) = Axis.len (mkEx []) from rfl, List.getD_map, hY, (getD_insert2 _ _ hdl _ _ _).1]
    rw [h2] at this
    simpa [eventAxis, Axis.len] using this
  have hoN : ∀ p ∈ I.getD (d + 1) [], (p : ℤ) < width := by
    intro p hp
    have := Along.inRange_get hI (d + 1) (by omega) p hp
    have h2 : (Y.map Axis.len).getD (d + 1) 0 = (offsetAxis x.axes[d] before width).len := by
      rw [show (0 : ℕ) = Axis.len (mkEx []) from rfl, List.getD_map, hY, (getD_insert2 _ _ hdl _ _ _).2]
    rw [h2, offsetAxis_len] at this
    omega
  have hmask : ∀ e < ievents.length, ∀ o : ℤ, o < width - before → ((-offs.getD e 0 ≤ o ∧ o < lens.getD e 0 - offs.getD e 0) ↔
      (-evAt evoff e ≤ o ∧ o < evAt evlen e - evAt evoff e ∧ 0 ≤ (ievents.getD e 0 : ℤ) + o ∧
        (ievents.getD e 0 : ℤ) + o < (x.axes[d].len : ℤ))) := by
    intro e he o ho
    have h1 := hc e he
    have h2 := hgood e he
    generalize evAt evoff e = eo at *
    generalize evAt evlen e = el at *
    generalize ievents.getD e 0 = iev at *
    generalize x.axes[d].len = N at *
    unfold clipEvent at h1
    simp only [Prod.ext_iff] at h1
    obtain ⟨h3, h4⟩ := h1
    rw [h3, h4]
    split_ifs <;> simp only <;> omega
  obtain ⟨r, hr1, hr2⟩ := compositeView_shown nr junk x data hx hR d hdl ievents lens offs before (eventAxis ievents)
    (offsetAxis x.axes[d] before width) I (by
      intro e he j hj h1 h2
      have := (hmask e (heN e he) ((j : ℤ) - before) (by have := hoN j hj; omega)).1 ⟨h1, h2⟩
      exact this.2.2) hI (fun ind h => (ht ind h).1)
  refine ⟨r, hr1, hr2.1, fun k hk => ?_⟩
  rw [hr2.2 k hk]
  have hkl : k.length = I.length := by simpa using hk.length_eq
  have hce : (cell I k).getD d 0 ∈ I.getD d [] := by
    rw [getD_cell _ _ _ (by omega) (by omega)]
    refine getD_mem ?_
    have := InBounds.lt hk (i := d) (by simp; omega)
    rwa [List.getD_eq_getElem (I.map List.length) _ (by simp; omega), List.getElem_map, ← List.getD_eq_getElem I [] (by omega)] at this
  have hco : (cell I k).getD (d + 1) 0 ∈ I.getD (d + 1) [] := by
    rw [getD_cell _ _ _ (by omega) (by omega)]
    refine getD_mem ?_
    have := InBounds.lt hk (i := d + 1) (by simp; omega)
    rwa [List.getD_eq_getElem (I.map List.length) _ (by simp; omega), List.getElem_map, ← List.getD_eq_getElem I [] (by omega)] at this
  unfold shown composited
  dsimp only
  have := hmask _ (heN _ hce) (((cell I k).getD (d + 1) 0 : ℤ) - before) (by have := hoN _ hco; omega)
  simp only [this]

/-- C92, one length and one offset for all events: an event may stick out at either end of the axis, but not at both. -/
theorem composite_uniform (nr : List ℚ → ℚ) (junk : List ℕ → Option ℚ) (x y : Var (Option ℚ)) (d : ℕ) (ievents : List ℕ)
    (len off : ℤ) (data : List ℕ → Option ℚ) (ax : Axis) (hx : Contains x data) (hR : Regular x.axes)
    (hax : x.axes[d]? = some ax)
    (hy : compositeVar nr junk x d ievents (.one len) (.one off) = some y)
    (hgood : ∀ i ∈ ievents, off ≤ (i : ℤ) ∨ (i : ℤ) - off + len ≤ (ax.len : ℤ)) :
    y.axes = x.axes.take d ++ eventAxis ievents :: offsetAxis ax off len :: x.axes.drop (d + 1) ∧
    Contains y (composited ievents (fun _ => len) (fun _ => off) off d ax.len data) := by
  refine composite_correct_partial nr junk x y d ievents (.one len) (.one off) data ax hx hR hax hy off len rfl rfl fun e he => ?_
  have := hgood (ievents.getD e 0) (getD_mem he)
  simp only [evAt]
  omega

/-- C92 fails for an event that begins before the axis and is not the longest: it shows the value one step past its end
(where NaN is promised), for every such event. -/
theorem composite_overrun (nr : List ℚ → ℚ) (junk : List ℕ → Option ℚ) (x y : Var (Option ℚ)) (d : ℕ) (ievents : List ℕ)
    (evlen evoff : EvArg) (data : List ℕ → Option ℚ) (ax : Axis) (hx : Contains x data) (hR : Regular x.axes)
    (hax : x.axes[d]? = some ax)
    (hy : compositeVar nr junk x d ievents evlen evoff = some y) (before width : ℤ) (hb : BeginsBefore evoff before)
    (hw : HasWidth ievents.length evlen evoff before width)
    (e : ℕ) (he : e < ievents.length) (h1 : (ievents.getD e 0 : ℤ) < evAt evoff e)
    (h3 : (ievents.getD e 0 : ℤ) + (evAt evlen e - evAt evoff e) < (ax.len : ℤ))
    (h4 : 0 ≤ (ievents.getD e 0 : ℤ) + (evAt evlen e - evAt evoff e))
    (k : List ℕ) (hk : InBounds (y.axes.map Axis.len) k) (hke : k.getD d 0 = e)
    (hko : (k.getD (d + 1) 0 : ℤ) - before = evAt evlen e - evAt evoff e) :
    composited ievents (evAt evlen) (evAt evoff) before d ax.len data k = none ∧
    (View.read y.src ⟨y.axes, k.map fun i => [i]⟩).get (k.map fun _ => 0) =
      data ((k.eraseIdx (d + 1)).set d ((ievents.getD e 0 : ℤ) + (evAt evlen e - evAt evoff e)).toNat) := by
  obtain ⟨lens, offs, hc, rfl⟩ := compositeVar_eq nr junk x y d ievents evlen evoff ax hax hy before width hb hw
  obtain ⟨hdl, rfl⟩ := List.getElem?_eq_some_iff.1 hax
  constructor
  · unfold composited
    dsimp only
    rw [hke, hko, if_neg (by omega)]
  set Y := x.axes.take d ++ eventAxis ievents :: offsetAxis x.axes[d] before width :: x.axes.drop (d + 1) with hY
  have hYl : Y.length = x.axes.length + 1 := by simp [hY]; omega
  have hkl : k.length = x.axes.length + 1 := by rw [hk.length_eq]; simp [Var.ofView, hYl]
  have hgk : ∀ i < k.length, (k.map fun i => [i]).getD i [] = [k.getD i 0] := by
    intro i hi
    rw [List.getD_eq_getElem _ _ (by simpa using hi), List.getElem_map, List.getD_eq_getElem k _ hi]
  have h5 := hc e he
  have hlo : -offs.getD e 0 ≤ evAt evlen e - evAt evoff e ∧ evAt evlen e - evAt evoff e < lens.getD e 0 - offs.getD e 0 := by
    unfold clipEvent at h5
    simp only [Prod.ext_iff] at h5
    obtain ⟨h6, h7⟩ := h5
    rw [h6, h7]
    split_ifs <;> simp only <;> omega
  obtain ⟨r, hr1, hr2⟩ := compositeView_shown nr junk x data hx hR d hdl ievents lens offs before (eventAxis ievents)
    (offsetAxis x.axes[d] before width) (k.map fun i => [i]) (by
      intro e' he' j hj _ _
      rw [hgk d (by omega), List.mem_singleton] at he'
      rw [hgk (d + 1) (by omega), List.mem_singleton] at hj
      rw [hj, he', hke, hko]
      omega) (by
      have : ∀ (k L : List ℕ), InBounds L k → InRange L (k.map fun i => [i]) := by
        intro k L h
        induction h with
        | nil => exact List.Forall₂.nil
        | cons a b ih => exact List.Forall₂.cons (by simpa using a) ih
      exact this k _ hk) (by simp)
  have hcell : cell (k.map fun i => [i]) (k.map fun _ => 0) = k := by
    unfold cell
    clear * -
    induction k with
    | nil => rfl
    | cons a k ih => simp only [List.map_cons, List.zipWith_cons_cons]; rw [ih]; rfl
  have hz : InBounds ((k.map fun i => [i]).map List.length) (k.map fun _ => 0) := by
    clear * -
    induction k with
    | nil => exact List.Forall₂.nil
    | cons a k ih => exact List.Forall₂.cons (by simp) ih
  show ((compositeView nr junk x d x.axes[d].len ievents lens offs before ⟨Y, k.map fun i => [i]⟩).getD _).get _ = _
  rw [hr1, Option.getD_some, hr2.2 _ hz, hcell]
  unfold shown
  dsimp only
  rw [hke, hko, if_pos hlo]

/-- C92: an event that begins before the axis and does not end on it cannot be read at all: whenever a request includes it
and the first step past the end of the axis, an exception is raised instead of NaN being shown. -/
theorem composite_raises (nr : List ℚ → ℚ) (junk : List ℕ → Option ℚ) (x y : Var (Option ℚ)) (d : ℕ) (ievents : List ℕ)
    (evlen evoff : EvArg) (ax : Axis) (hax : x.axes[d]? = some ax)
    (hy : compositeVar nr junk x d ievents evlen evoff = some y) (before width : ℤ) (hb : BeginsBefore evoff before)
    (hw : HasWidth ievents.length evlen evoff before width)
    (e : ℕ) (he : e < ievents.length) (h1 : (ievents.getD e 0 : ℤ) < evAt evoff e)
    (h2 : (ax.len : ℤ) ≤ (ievents.getD e 0 : ℤ) - evAt evoff e + evAt evlen e) :
    ∃ f, y = Var.ofView junk y.axes f ∧ ∀ I : List (List ℕ), e ∈ I.getD d [] →
      (∃ j ∈ I.getD (d + 1) [], (j : ℤ) - before = (ax.len : ℤ) - (ievents.getD e 0 : ℤ)) → f ⟨y.axes, I⟩ = none := by
  obtain ⟨lens, offs, hc, rfl⟩ := compositeVar_eq nr junk x y d ievents evlen evoff ax hax hy before width hb hw
  refine ⟨_, rfl, fun I heI hj => ?_⟩
  obtain ⟨j, hjm, hjo⟩ := hj
  have hlo : -offs.getD e 0 ≤ (j : ℤ) - before ∧ (j : ℤ) - before < lens.getD e 0 - offs.getD e 0 := by
    have h5 := hc e he
    unfold clipEvent at h5
    simp only [Prod.ext_iff] at h5
    obtain ⟨h6, h7⟩ := h5
    rw [h6, h7, hjo]
    split_ifs <;> simp only <;> omega
  obtain ⟨q, hq, hqj⟩ := List.mem_iff_getElem.1 hjm
  have hrow : eventRow nr junk x d ax.len ievents lens offs ((I.getD (d + 1) []).map fun i : ℕ => (i : ℤ) - before)
      ⟨x.axes.take d ++ eventAxis ievents :: offsetAxis ax before width :: x.axes.drop (d + 1), I⟩ e = none := by
    unfold eventRow
    dsimp only
    rw [if_pos]
    rw [List.any_eq_true]
    have hqg : ((I.getD (d + 1) []).map fun i : ℕ => (i : ℤ) - before).getD q 0 = (j : ℤ) - before := by
      rw [List.getD_eq_getElem _ _ (by simpa using hq), List.getElem_map, hqj]
    refine ⟨(j : ℤ) - before + (ievents.getD e 0 : ℤ), List.mem_map.2 ⟨q, ?_, by rw [hqg]⟩, ?_⟩
    · unfold inEvent
      rw [List.mem_filter, List.mem_range, hqg]
      refine ⟨by simpa using hq, ?_⟩
      simp only [Bool.and_eq_true, decide_eq_true_eq]
      exact hlo
    · simp only [Bool.or_eq_true, decide_eq_true_eq]
      omega
  show compositeView nr junk x d ax.len ievents lens offs before
    ⟨x.axes.take d ++ eventAxis ievents :: offsetAxis ax before width :: x.axes.drop (d + 1), I⟩ = none
  unfold compositeView
  dsimp only
  have : ∀ (f : ℕ → Option (List ℕ × NArr (Option ℚ))) (L : List ℕ), e ∈ L → f e = none → L.mapM f = none := by
    intro f L
    induction L with
    | nil => intro h; simp at h
    | cons a L ih =>
      intro h hn
      rw [List.mapM_cons]
      rcases List.mem_cons.1 h with rfl | h
      · rw [hn]; rfl
      · rw [ih h hn]; cases f a <;> rfl
  rw [this _ _ heI hrow]
  rfl

theorem keyMask_strict {ax : Axis} {k : Name} {v : Arg} {o : Option (ℕ → Bool)} (h : keyMask ax false k v = some o) :
    o.isSome = true := by
  unfold keyMask at h
  generalize splitKey ax.hasAlias k = q at h
  obtain ⟨pre, nm⟩ := q
  simp only [Bool.false_eq_true, if_false] at h
  have key : ∀ (w : Option (ℕ → Bool)) (g : (ℕ → Bool) → ℕ → Bool), (w.map fun m => some (g m)) = some o → o.isSome = true := by
    intro w g hw
    obtain ⟨m, _, rfl⟩ := Option.map_eq_some_iff.1 hw
    rfl
  by_cases hi : 'i' ∈ pre
  · rw [if_pos hi] at h
    by_cases ha : ax.hasAlias nm = true
    · rw [if_pos ha] at h; exact key _ _ h
    · rw [if_neg ha] at h; cases h
  · rw [if_neg hi] at h
    by_cases ha : ax.hasAlias nm = true
    · rw [if_pos ha] at h; exact key _ _ h
    · rw [if_neg ha] at h
      cases hl : ax.auxarrays.lookup nm with
      | none => rw [hl] at h; cases h
      | some w => rw [hl] at h; exact key _ _ h

/-- C92: the coordinates of the new axes: the events are counted from 1, their positions are kept beside them; the offsets are the numbers
of steps from the centre of the event - along a time axis that many times the (least) distance between times - the first one being the
largest number of steps before it. -/
theorem composite_coords (ievents : List ℕ) (ax : Axis) (before width : ℤ) :
    (∀ (e : ℕ) (p : ℕ), ievents[e]? = some p → (eventAxis ievents).values[e]? = some (e + 1) ∧
      ((eventAxis ievents).auxarrays.lookup "indices".toList).bind (fun l => l[e]?) = some (p : ℚ)) ∧
    (eventAxis ievents).values.length = ievents.length ∧
    ∀ j : ℕ, (offsetAxis ax before width).values[j]? =
      if (j : ℤ) < width then some ((if "Time".toList ∈ ax.classes then delta ax.values else 1) * ((j : ℚ) - before)) else none := by
  refine ⟨fun e p h => ⟨?_, ?_⟩, by simp [eventAxis], fun j => ?_⟩
  · have he := (List.getElem?_eq_some_iff.1 h).1
    simp [eventAxis, he]
  · have : (eventAxis ievents).auxarrays.lookup "indices".toList = some (ievents.map fun i : ℕ => (i : ℚ)) := by
      simp only [eventAxis, List.lookup_cons, beq_self_eq_true]
    rw [this, Option.bind_some, List.getElem?_map, h]
    rfl
  · have hl : ∀ c : ℚ, (((List.range width.toNat).map fun i : ℕ => -before + (i : ℤ)).map fun i : ℤ => c * (i : ℚ))[j]? =
        if (j : ℤ) < width then some (c * ((j : ℚ) - before)) else none := by
      intro c
      by_cases hj : (j : ℤ) < width
      · have hj' : j < width.toNat := by omega
        rw [if_pos hj, List.getElem?_eq_getElem (by simpa using hj')]
        simp only [List.getElem_map, List.getElem_range]
        push_cast
        congr 1
        ring
      · rw [if_neg hj, List.getElem?_eq_none (by simp; omega)]
    unfold offsetAxis
    by_cases ht : "Time".toList ∈ ax.classes
    · rw [if_pos ht, if_pos ht]
      exact hl _
    · rw [if_neg ht, if_neg ht]
      have := hl 1
      simp only [one_mul] at this ⊢
      exact this

/-- C92: the events are the positions that the keyword asks for along an axis it is about, in the order of the axis and
without repeats, whatever the order in which they are listed (a length or an offset given for each event goes with the
events in that order). No later axis accepts the keyword. -/
theorem composite_events (nr : List ℚ → ℚ) (junk : List ℕ → Option ℚ) (x y : Var (Option ℚ)) (kw : Name × Arg)
    (evlen evoff : EvArg) (hy : composite nr junk x kw evlen evoff = some y) :
    ∃ (d : ℕ) (ax : Axis) (events : List ℕ), x.axes[d]? = some ax ∧ Accepts ax kw.1 ∧ events.Pairwise (· < ·) ∧
      (∀ i, i ∈ events ↔ i < ax.len ∧ Wanted ax kw.1 kw.2 i) ∧
      (∀ d' ax', d < d' → x.axes[d']? = some ax' → getSlice ax' false [kw] = none) ∧
      compositeVar nr junk x d events evlen evoff = some y := by
  unfold composite at hy
  cases hm : matchedAxis x.axes kw with
  | none => rw [hm] at hy; cases hy
  | some p =>
    rw [hm] at hy
    unfold matchedAxis at hm
    set f : Axis × ℕ → Option (ℕ × List ℕ) := fun p => (getSlice p.1 false [kw]).bind fun sl =>
      (expand sl.1 p.1.len).map fun l => (p.2, l.map Int.toNat) with hf
    have hval : ∀ (ax : Axis) (i : ℕ) (q : ℕ × List ℕ), f (ax, i) = some q → q.1 = i ∧ Accepts ax kw.1 ∧ q.2.Pairwise (· < ·) ∧
        ∀ i, i ∈ q.2 ↔ i < ax.len ∧ Wanted ax kw.1 kw.2 i := by
      intro ax i q hq
      cases hg : getSlice ax false [kw] with
      | none => simp [hf, hg] at hq
      | some sl =>
        obtain ⟨ind, left⟩ := sl
        obtain ⟨l, h1, h2, h3, h4, h5⟩ := getSlice_correct hg
        simp only [hf, hg, Option.bind_some, h1, Option.map_some, Option.some.injEq] at hq
        subst hq
        have hl : (l.map fun i : ℕ => (i : ℤ)).map Int.toNat = l := by simp [List.map_map, Function.comp_def]
        have hacc : Accepts ax kw.1 := by
          have hg' := hg
          rw [getSlice_eq] at hg'
          split_ifs at hg' with hall
          simp only [List.all_cons, List.all_nil, Bool.and_true] at hall
          obtain ⟨o, ho⟩ := Option.isSome_iff_exists.1 hall
          obtain ⟨m, rfl⟩ := Option.isSome_iff_exists.1 (keyMask_strict ho)
          exact (keyMask_some ho).1
        refine ⟨rfl, hacc, by simpa [hl] using h2, fun i => ?_⟩
        simp only [hl]
        rw [h3 i]
        simp [hacc]
    have hgl : ∀ (L : List Axis) (s : ℕ) (p : ℕ × List ℕ), ((L.zipIdx s).filterMap f).getLast? = some p →
        ∃ i, ∃ ax : Axis, L[i]? = some ax ∧ f (ax, s + i) = some p ∧ ∀ i' ax', i < i' → L[i']? = some ax' → f (ax', s + i') = none := by
      intro L
      induction L with
      | nil => intro s p h; simp at h
      | cons a L ih =>
        intro s p h
        rw [List.zipIdx_cons, List.filterMap_cons] at h
        by_cases hL : ((L.zipIdx (s + 1)).filterMap f) = []
        · rw [hL] at h
          cases hfa : f (a, s) with
          | none => rw [hfa] at h; simp at h
          | some q =>
            rw [hfa] at h
            simp only [List.getLast?_singleton, Option.some.injEq] at h
            subst h
            refine ⟨0, a, rfl, hfa, fun i' ax' hi' hL' => ?_⟩
            obtain ⟨j, rfl⟩ : ∃ j, i' = j + 1 := ⟨i' - 1, by omega⟩
            rw [List.filterMap_eq_nil_iff] at hL
            rw [List.getElem?_cons_succ] at hL'
            have : s + (j + 1) = s + 1 + j := by omega
            rw [this]
            refine hL (ax', s + 1 + j) ?_
            rw [List.mk_mem_zipIdx_iff_le_and_getElem?_sub]
            exact ⟨by omega, by rw [Nat.add_sub_cancel_left]; exact hL'⟩
        · have h' : ((L.zipIdx (s + 1)).filterMap f).getLast? = some p := by
            cases hfa : f (a, s) with
            | none => rw [hfa] at h; exact h
            | some q => rw [hfa] at h; rwa [List.getLast?_cons_of_ne_nil hL] at h
          obtain ⟨i, ax, h1, h2, h3⟩ := ih (s + 1) p h'
          refine ⟨i + 1, ax, by simpa using h1, by rw [← h2]; congr 2; omega, fun i' ax' hi' hL' => ?_⟩
          obtain ⟨j, rfl⟩ : ∃ j, i' = j + 1 := ⟨i' - 1, by omega⟩
          have := h3 j ax' (by omega) (by simpa using hL')
          rw [← this]
          congr 2
          omega
    obtain ⟨d, ax, h1, h2, h3⟩ := hgl _ 0 _ hm
    obtain ⟨h4, h5, h6, h7⟩ := hval _ _ _ h2
    obtain ⟨p1, p2⟩ := p
    simp only [Nat.zero_add] at h4
    subst h4
    refine ⟨p1, ax, p2, h1, h5, h6, h7, fun d' ax' hd hx' => ?_, hy⟩
    have h8 := h3 d' ax' hd hx'
    cases hg : getSlice ax' false [kw] with
    | none => rfl
    | some sl =>
      obtain ⟨ind, left⟩ := sl
      obtain ⟨l, h9, _⟩ := getSlice_correct hg
      simp [hf, hg, h9] at h8

/-! ### Examples -/

/-- one event sticks out at the beginning, one at the end -/
example : ∃ y, compositeVar (fun _ => 0) (fun _ => some 77) Lag.lagEx 1 [0, 1, 3] (.one 3) (.one 1) = some y ∧
    Contains y (composited [0, 1, 3] (fun _ => 3) (fun _ => 1) 1 1 4 fun k => some (10 * k.getD 0 0 + k.getD 1 0)) := by
  refine ⟨_, rfl, ?_⟩
  exact (composite_uniform (fun _ => 0) (fun _ => some 77) Lag.lagEx _ 1 [0, 1, 3] 3 1 _ (timeEx 4)
    ⟨by decide +kernel, fun _ _ => rfl⟩ ⟨by decide +kernel, by decide +kernel⟩ rfl rfl (by decide +kernel)).2

/-- events of different lengths and offsets -/
example : ∃ y, compositeVar (fun _ => 0) (fun _ => some 77) Lag.lagEx 1 [1, 2, 3] (.each [2, 4, 1]) (.each [1, 2, 0]) = some y ∧
    Contains y (composited [1, 2, 3] (evAt (.each [2, 4, 1])) (evAt (.each [1, 2, 0])) 2 1 4
      fun k => some (10 * k.getD 0 0 + k.getD 1 0)) := by
  refine ⟨_, rfl, ?_⟩
  exact (composite_correct_partial (fun _ => 0) (fun _ => some 77) Lag.lagEx _ 1 [1, 2, 3] (.each [2, 4, 1]) (.each [1, 2, 0]) _ (timeEx 4)
    ⟨by decide +kernel, fun _ _ => rfl⟩ ⟨by decide +kernel, by decide +kernel⟩ rfl rfl 2 4
    (by unfold BeginsBefore; decide) (by unfold HasWidth; decide +kernel) (by decide +kernel)).2

/-- the first event has two steps, one of them before the axis; its last two offsets should be empty -/
example : ((compositeVar (fun _ => 0) (fun _ => some 77) Lag.lagEx 1 [0, 2] (.each [2, 4]) (.one 1)).bind fun y =>
    (y.read (fun _ => 0) (fun _ => some 77) ⟨y.axes, [[2], [0, 1], [0, 1, 2, 3]]⟩).map fun r =>
      (r.shape, (y.axes.map Axis.values).getD 2 [], product [[0], [0, 1], [0, 1, 2, 3]] |>.map r.get)) =
    some ([1, 2, 4], [-1, 0, 1, 2], [none, some 20, some 21, some 22, some 21, some 22, some 23, none]) := by decide +kernel

example : ∃ y, composite (fun _ => 0) (fun _ => some 77) Lag.lagEx ("il_time".toList, .seq [some 3, some 1]) (.one 3) (.one 1) = some y ∧
    y.axes.map Axis.len = [3, 2, 3] := by
  refine ⟨_, rfl, ?_⟩
  decide +kernel

/-- the hypotheses of `composite_overrun` are met by that event -/
example : ∃ y, compositeVar (fun _ => 0) (fun _ => some 77) Lag.lagEx 1 [0, 2] (.each [2, 4]) (.one 1) = some y ∧
    (View.read y.src ⟨y.axes, [[2], [0], [2]]⟩).get [0, 0, 0] = some 21 := by
  refine ⟨_, rfl, ?_⟩
  exact (composite_overrun (fun _ => 0) (fun _ => some 77) Lag.lagEx _ 1 [0, 2] (.each [2, 4]) (.one 1)
    (fun k => some (10 * k.getD 0 0 + k.getD 1 0)) (timeEx 4)
    ⟨by decide +kernel, fun _ _ => rfl⟩ ⟨by decide +kernel, by decide +kernel⟩ rfl rfl 1 4
    rfl (by unfold HasWidth; decide +kernel) 0 (by decide) (by decide) (by decide) (by decide) [2, 0, 2]
    (by refine inBounds_iff.2 ⟨rfl, ?_⟩; decide +kernel) rfl (by decide)).2.trans (by decide +kernel)

/-- an event longer than the axis: it begins before it and ends after it -/
example : ∃ y, compositeVar (fun _ => 0) (fun _ => some 77) Lag.lagEx 1 [1] (.one 7) (.one 2) = some y ∧
    ∃ f, y = Var.ofView (fun _ => some 77) y.axes f ∧ f ⟨y.axes, [[0], [0], [0, 1, 2, 3, 4, 5, 6]]⟩ = none := by
  refine ⟨_, rfl, ?_⟩
  obtain ⟨f, h1, h2⟩ := composite_raises (fun _ => 0) (fun _ => some 77) Lag.lagEx _ 1 [1] (.one 7) (.one 2) (timeEx 4) rfl rfl 2 7
    rfl rfl 0 (by decide) (by decide) (by decide)
  exact ⟨f, h1, h2 _ (by decide) ⟨5, by decide, by decide⟩⟩

end Composite
end PyGeode
