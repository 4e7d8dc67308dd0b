import Verif.Model.Coefs
import Verif.Props.Anomaly
import Verif.Props.Concat
/-!
# C125: tables of coefficients
-/
namespace PyGeode
namespace Coefs
open Spec NArr Axis Combine VarOps TimeMatch
open ClimVar hiding coefAxis
variable {α : Type}

theorem coefAxis_len (nr : List ℚ → ℚ) (n : ℕ) : (coefAxis nr n).len = n := by simp [coefAxis, Axis.len]

theorem coefAxis_two (nr : List ℚ → ℚ) : coefAxis nr 2 = ClimVar.coefAxis nr := by
  have : (List.range 2).map (fun i : ℕ => (i : ℚ)) = [0, 1] := by decide +kernel
  unfold coefAxis ClimVar.coefAxis
  rw [this]

theorem unravel_one {s k : List ℕ} (h : InBounds s k) : unravel (1 :: s) (ravel s k) = 0 :: k := by
  have hlt := ravel_lt h
  rw [unravel, Nat.div_eq_of_lt hlt, Nat.mod_eq_of_lt hlt, unravel_ravel h]

/-- the value at one place of a coefficient whose axes may come in another order -/
def arranged (A B : List Axis) (K : List ℕ) : List ℕ := B.map fun a => K.getD (A.idxOf a) 0

theorem arranged_self {A : List Axis} (hn : A.Nodup) {K : List ℕ} (h : K.length = A.length) : arranged A A K = K := by
  unfold arranged
  refine List.ext_getElem (by simp [h]) fun i h1 h2 => ?_
  rw [List.getElem_map, hn.idxOf_getElem i (by simpa using h1), List.getD_eq_getElem _ _ h2]

theorem arranged_map {A B : List Axis} (hs : ∀ a ∈ B, a ∈ A) (pos : Axis → ℕ) : arranged A B (A.map pos) = B.map pos := by
  unfold arranged
  refine List.map_congr_left fun a ha => ?_
  have hi := List.idxOf_lt_length_of_mem (hs a ha)
  rw [List.getD_eq_getElem _ _ (by simpa using hi), List.getElem_map, List.getElem_idxOf]

theorem forall₂_snoc {β γ : Type} {R : β → γ → Prop} {l : List β} {m : List γ} {b : γ} (h : List.Forall₂ R l (m ++ [b])) :
    ∃ l' a, l = l' ++ [a] ∧ List.Forall₂ R l' m ∧ R a b := by
  induction m generalizing l with
  | nil =>
    cases h with
    | cons h1 h2 => cases h2; exact ⟨[], _, rfl, .nil, h1⟩
  | cons c m ih =>
    cases h with
    | cons h1 h2 =>
      obtain ⟨l', a, e, h3, h4⟩ := ih h2
      exact ⟨_ :: l', a, by rw [e]; rfl, .cons h1 h3, h4⟩

/-- reading one coefficient in a view of the table -/
theorem read_coef {A : List Axis} {ax : Axis} (hR : Regular (A ++ [ax])) (nr : List ℚ → ℚ) (junk : List ℕ → α) (J : List (List ℕ)) (ind : List ℕ)
    (hJ : InRange (A.map Axis.len) J) (hind : ∀ i ∈ ind, i < ax.len) (hne : ∀ l ∈ J, l ≠ []) (hni : ind ≠ []) (c : Var α) (D : List ℕ → α)
    (hp : c.axes.Perm A) (hc : Contains c D) :
    ∃ r, read nr junk c ⟨A ++ [ax], J ++ [ind]⟩ = some r ∧ r.shape = J.map List.length ++ [1] ∧
      ∀ k, InBounds (J.map List.length) k → r.get (k ++ [0]) = D (arranged A c.axes (cell J k)) := by
  have hJl : J.length = A.length := by simpa using hJ.length_eq
  have hnd := hR.nodup
  have hndA : A.Nodup := (List.nodup_append.1 hnd).1
  have hnax : ax ∉ A := fun h => (List.nodup_append.1 hnd).2.2 ax h ax (by simp) rfl
  have hI : InRange ((A ++ [ax]).map Axis.len) (J ++ [ind]) := by
    rw [List.map_append]
    exact List.rel_append (R := fun (l : List ℕ) (n : ℕ) => ∀ i ∈ l, i < n) hJ (.cons hind .nil)
  have hsub : ∀ a ∈ c.axes, a ∈ A ++ [ax] := fun a ha => List.mem_append_left _ (hp.mem_iff.1 ha)
  obtain ⟨r, h1, h2, h3⟩ := get_shared_axes_eqv TimeMatch.axEq (viewMap nr) Axis.len junk ⟨A ++ [ax], J ++ [ind]⟩ c.axes c.src D (by simp [hJl]) hnd
    (hp.nodup_iff.2 hndA) hsub hI (fun a ha b hb => axEq_regular hR (hsub a ha) hb)
    (by
      intro l hl
      rcases List.mem_append.1 hl with hl | hl
      · exact hne l hl
      · rw [List.mem_singleton.1 hl]; exact hni) hc
  have hsh : r.shape = J.map List.length ++ [1] := by
    rw [h2]
    simp only
    rw [List.zipWith_append (by omega)]
    congr 1
    · refine List.ext_getElem (by simp [hJl]) fun i g1 g2 => ?_
      simp only [List.length_map] at g2
      rw [List.getElem_zipWith, if_pos (hp.mem_iff.2 (List.getElem_mem _)), List.getElem_map]
    · simp only [List.zipWith_cons_cons, List.zipWith_nil_right]
      rw [if_neg fun h => hnax (hp.mem_iff.1 h)]
  refine ⟨r, h1, hsh, fun k hk => ?_⟩
  have hkl : k.length = J.length := by simpa using hk.length_eq
  rw [h3 (k ++ [0]) (by
    rw [hsh]
    exact List.rel_append (R := fun (a b : ℕ) => a < b) hk (.cons Nat.zero_lt_one .nil))]
  congr 1
  unfold arranged
  refine List.map_congr_left fun a ha => ?_
  have haA := hp.mem_iff.1 ha
  have hi := List.idxOf_lt_length_of_mem haA
  simp only
  rw [List.idxOf_append_of_mem haA, List.getD_append _ _ _ _ (by omega), List.getD_append _ _ _ _ (by omega)]
  unfold cell
  rw [List.getD_eq_getElem (List.zipWith _ J k) _ (by simp; omega), List.getElem_zipWith, List.getD_eq_getElem J _ (by omega),
    List.getD_eq_getElem k _ (by omega)]

/-- C125: `merge_coefs(c1, ..., cn)` has the axes of `c1` and an axis of length `n` after them; along it lie the values of the coefficients.
The axes of the others may come in another order. -/
theorem merge_correct (nr : List ℚ → ℚ) (junk : List ℕ → α) (t : Var α × (List ℕ → α)) (ps : List (Var α × (List ℕ → α)))
    (hR : Regular (t.1.axes ++ [coefAxis nr (ps.length + 1)])) (hc : ∀ s ∈ t :: ps, Contains s.1 s.2)
    (hp : ∀ s ∈ t :: ps, s.1.axes.Perm t.1.axes) (hs : ∀ s ∈ ps, s.1.axes.map Axis.len = t.1.axes.map Axis.len) :
    ∃ (y : Var α) (data : List ℕ → α), mergeCoefs nr junk ((t :: ps).map Prod.fst) = some y ∧
      y.axes = t.1.axes ++ [coefAxis nr (ps.length + 1)] ∧ Contains y data ∧
      ∀ (p : ℕ) (s : Var α × (List ℕ → α)), (t :: ps)[p]? = some s → SameData s.2 s.1.axes (fun K => data (K ++ [p])) t.1.axes := by
  set qs := t :: ps with hqs
  set A := t.1.axes with hA
  set ax := coefAxis nr (ps.length + 1) with hax
  have haxl : ax.len = qs.length := by rw [hax, coefAxis_len]; simp [hqs]
  let data : List ℕ → α := fun K => (qs.map fun s K => s.2 (arranged A s.1.axes K)).getD (K.getD A.length 0) junk (K.take A.length)
  have hdata : ∀ (p : ℕ) (s : Var α × (List ℕ → α)), qs[p]? = some s → ∀ K : List ℕ, K.length = A.length →
      data (K ++ [p]) = s.2 (arranged A s.1.axes K) := by
    intro p s hp K hK
    have e : (K ++ [p]).getD A.length 0 = p := by simp [← hK]
    have e2 : (K ++ [p]).take A.length = K := by simp [← hK]
    simp only [data]
    rw [e, e2, List.getD_eq_getElem?_getD, List.getElem?_map, hp]
    rfl
  refine ⟨Var.ofView junk (A ++ [ax]) (mergeView nr junk (qs.map Prod.fst)), data, ?_, rfl, ?_, ?_⟩
  · rw [hqs, List.map_cons, mergeCoefs, if_pos (by
      rw [List.all_eq_true]
      intro d hd
      obtain ⟨s, hs1, rfl⟩ := List.mem_map.1 hd
      simpa using hs s hs1)]
    rw [List.length_map]
  swap
  · intro p s hps pos
    show data (A.map pos ++ [p]) = _
    rw [hdata p s hps _ (by simp), arranged_map fun a ha => (hp s (List.mem_of_getElem? hps)).mem_iff.1 ha]
  refine contains_ofView junk _ _ _ fun I hI hne => ?_
  rw [List.map_append] at hI
  obtain ⟨J, ind, rfl, hJ, hind⟩ := forall₂_snoc hI
  have hJl : J.length = A.length := by simpa using hJ.length_eq
  have hneJ : ∀ l ∈ J, l ≠ [] := fun l hl => hne l (List.mem_append_left _ hl)
  have hni : ind ≠ [] := hne ind (by simp)
  obtain ⟨cs, hcs1, hcs2⟩ := Concat.mapM_exists (fun ci => ((qs.map Prod.fst)[ci]?).bind fun c => read nr junk c ⟨A ++ [ax], J ++ [ind]⟩)
    (fun (i : ℕ) (r : NArr α) => r.shape = J.map List.length ++ [1] ∧
      ∀ k, InBounds (J.map List.length) k → r.get (k ++ [0]) = data (cell J k ++ [i])) ind (by
    intro i hi
    have hil : i < qs.length := haxl ▸ hind i hi
    have hmem := List.getElem_mem hil
    obtain ⟨r, g1, g2, g3⟩ := read_coef hR nr junk J ind hJ hind hneJ hni qs[i].1 qs[i].2 (hp _ hmem) (hc _ hmem)
    refine ⟨r, ?_, g2, fun k hk => ?_⟩
    · rw [List.getElem?_map, List.getElem?_eq_getElem hil]
      exact g1
    · rw [g3 k hk, hdata i _ (List.getElem?_eq_getElem hil) _ (by rw [cell_length hk, hJl])])
  have hcsh : ∀ c ∈ cs, c.shape = J.map List.length ++ [1] := by
    intro c hc
    obtain ⟨i, hi, rfl⟩ := List.getElem_of_mem hc
    exact ((List.forall₂_iff_get.1 hcs2).2 i (by rw [hcs2.length_eq]; exact hi) hi).1
  have hone : ∀ c ∈ cs, c.shape.getD A.length 0 = 1 := by
    intro c hc
    rw [hcsh c hc, ← hJl]; simp
  have hconc : ∃ r, Concat.concatenate junk A.length cs = some r ∧ r.shape = J.map List.length ++ [ind.length] ∧
      r.get = Concat.joinGet junk A.length cs := by
    cases hc' : cs with
    | nil =>
      exfalso
      rw [hc'] at hcs2
      exact hni (List.length_eq_zero_iff.1 hcs2.length_eq)
    | cons c0 cs' =>
      refine ⟨_, by
        simp only [Concat.concatenate]
        rw [if_pos (by
          rw [List.all_eq_true]
          intro b hb
          rw [hcsh b (by simp [hc', hb]), hcsh c0 (by simp [hc'])]
          simp)], ?_, rfl⟩
      have hsum : ((c0 :: cs').map fun b => b.shape.getD A.length 0).sum = ind.length := by
        rw [← hc', hcs2.length_eq, List.map_congr_left (g := fun _ => 1) hone]
        simp
      simp only
      rw [hsum, hcsh c0 (by simp [hc']), ← hJl, List.set_append_right _ _ (by simp)]
      simp
  obtain ⟨r, hr1, hr2, hr3⟩ := hconc
  refine ⟨r, ?_, by rw [hr2]; simp, fun k hkb => ?_⟩
  · unfold mergeView
    simp only [List.length_append, List.length_singleton, Nat.add_sub_cancel]
    have e1 : (J ++ [ind]).getLastD [] = ind := by simp
    rw [e1, hcs1]
    exact hr1
  · rw [List.map_append] at hkb
    obtain ⟨k', q, rfl, hk', hq⟩ := forall₂_snoc hkb
    have hkl' : k'.length = A.length := by have := hk'.length_eq; simp at this; omega
    have hqc : q < cs.length := by rw [← hcs2.length_eq]; exact hq
    rw [hr3, Concat.joinGet_ones junk A.length cs hone k' q _ hkl' (List.getElem?_eq_getElem hqc)]
    have := ((List.forall₂_iff_get.1 hcs2).2 q hq hqc).2 k' hk'
    simp only [List.get_eq_getElem] at this
    rw [this]
    congr 1
    unfold cell
    rw [List.zipWith_append (by omega)]
    simp [List.getElem?_eq_getElem hq]

/-- no table is made of coefficients of different shapes, or of none -/
theorem merge_error (nr : List ℚ → ℚ) (junk : List ℕ → α) (cs : List (Var α)) :
    mergeCoefs nr junk cs = none ↔ cs = [] ∨ ∃ c ∈ cs, ∃ d ∈ cs, c.axes.map Axis.len ≠ d.axes.map Axis.len := by
  cases cs with
  | nil => simp [mergeCoefs]
  | cons c cs =>
    rw [mergeCoefs]
    split_ifs with h
    · rw [List.all_eq_true] at h
      have h' : ∀ d ∈ c :: cs, d.axes.map Axis.len = c.axes.map Axis.len := by
        intro d hd
        rcases List.mem_cons.1 hd with rfl | hd
        · rfl
        · simpa using h d hd
      simp only [reduceCtorEq, false_iff, not_or, not_exists, not_and]
      exact ⟨by simp, fun a ha b hb hab => hab (by rw [h' a ha, h' b hb])⟩
    · simp only [true_iff]
      right
      simp only [List.all_eq_true, decide_eq_true_eq, not_forall] at h
      obtain ⟨d, hd, hne⟩ := h
      exact ⟨d, by simp [hd], c, by simp, hne⟩

/-- C125: `split_coefs(x)`: one variable for each coefficient, without the axis of coefficients, that shows the values at this coefficient.
The axis of coefficients may stand anywhere. -/
theorem split_correct (nr : List ℚ → ℚ) (junk : List ℕ → α) (x : Var α) (D : List ℕ → α) (hR : Regular x.axes) (hc : Contains x D)
    (ci : ℕ) (ca : Axis) (hci : x.axes[ci]? = some ca) (hcl : "Coef".toList ∈ ca.classes)
    (honly : ∀ (j : ℕ) a, j < ci → x.axes[j]? = some a → "Coef".toList ∉ a.classes) :
    ∃ ys, splitCoefs nr junk x = some ys ∧ ys.length = ca.len ∧ ∀ (c : ℕ) y, ys[c]? = some y →
      y.axes = x.axes.eraseIdx ci ∧ Contains y fun K => D (K.insertIdx ci c) := by
  have e1 : foundAt (whichaxis x.axes (.cls "Coef".toList)) = some ci := foundAt_at (by simp) hci hcl fun j a hj ha => honly j a hj ha
  refine ⟨_, by rw [splitCoefs, e1, Option.bind_some, hci, Option.map_some], by simp, fun c y hy => ?_⟩
  rw [List.getElem?_map] at hy
  have hcl' : c < ca.len := by
    by_contra h
    rw [List.getElem?_eq_none (by simpa using h)] at hy
    simp at hy
  rw [List.getElem?_range hcl', Option.map_some, Option.some.injEq] at hy
  subst hy
  obtain ⟨hil, hie⟩ := List.getElem?_eq_some_iff.1 hci
  refine ⟨rfl, contains_ofView junk _ _ _ fun I hI hne => ?_⟩
  set A := x.axes.eraseIdx ci with hA
  have hperm : (ca :: A).Perm x.axes := by
    have := List.getElem_cons_eraseIdx_perm hil
    rw [hie] at this
    exact this
  have hR' : Regular (ca :: A) := hR.perm hperm
  have hIl : I.length = A.length := by simpa using hI.length_eq
  have hI2 : InRange ((ca :: A).map Axis.len) ([c] :: I) := .cons (by simpa using hcl') hI
  have hsub : ∀ a ∈ x.axes, a ∈ ca :: A := fun a ha => hperm.mem_iff.2 ha
  obtain ⟨r, h1, h2, h3⟩ := get_shared_axes_eqv TimeMatch.axEq (viewMap nr) Axis.len junk ⟨ca :: A, [c] :: I⟩ x.axes x.src D (by simp [hIl])
    hR'.nodup hR.nodup hsub hI2 (fun a ha b hb => axEq_regular hR' (hsub a ha) hb)
    (by
      intro l hl
      rcases List.mem_cons.1 hl with rfl | hl
      · simp
      · exact hne l hl) hc
  have hsh : r.shape = 1 :: I.map List.length := by
    rw [h2]
    simp only [List.zipWith_cons_cons, List.length_singleton, ite_self]
    congr 1
    refine List.ext_getElem (by simp [hIl]) fun i g1 g2 => ?_
    simp only [List.length_map] at g2
    rw [List.getElem_zipWith, if_pos (hperm.mem_iff.1 (List.mem_cons_of_mem _ (List.getElem_mem _))), List.getElem_map]
  refine ⟨r.reshape (I.map List.length), ?_, rfl, fun k hk => ?_⟩
  · unfold splitView TimeMatch.read
    rw [h1]
    rfl
  · have hkl : k.length = I.length := by simpa using hk.length_eq
    show r.get (unravel r.shape (ravel (I.map List.length) k)) = _
    rw [hsh, unravel_one hk, h3 (0 :: k) (by rw [hsh]; exact .cons Nat.zero_lt_one hk)]
    congr 1
    have hcell : (cell I k).length = A.length := by rw [cell_length hk, hIl]
    have hxl : x.axes.length = A.length + 1 := by rw [hA, List.length_eraseIdx_of_lt hil]; omega
    refine List.ext_getElem (by rw [List.length_map, List.length_insertIdx, if_pos (by omega)]; omega) fun i g1 g2 => ?_
    simp only [List.length_map] at g1
    rw [List.getElem_map, List.getElem_insertIdx]
    have hnd := hR'.nodup
    rcases lt_trichotomy i ci with h | h | h
    · have hxa : x.axes[i] = A[i]'(by omega) := by simp [hA, List.getElem_eraseIdx, h]
      have hnc : ca ≠ A[i]'(by omega) := fun e => (List.nodup_cons.1 hnd).1 (e ▸ List.getElem_mem _)
      rw [dif_pos h, hxa, List.idxOf_cons_ne _ hnc, (List.nodup_cons.1 hnd).2.idxOf_getElem i (by omega)]
      simp only [Nat.succ_eq_add_one, List.getD_cons_succ]
      simp only [cell, List.getElem_zipWith]
      rw [List.getD_eq_getElem I _ (by omega), List.getD_eq_getElem k _ (by omega)]
    · subst h
      rw [dif_neg (by omega), dif_pos rfl, hie, List.idxOf_cons_self]
      rfl
    · have hxa : x.axes[i] = A[i - 1]'(by omega) := by
        simp only [hA]
        rw [List.getElem_eraseIdx, dif_neg (by omega)]
        congr 1
        omega
      have hnc : ca ≠ A[i - 1]'(by omega) := fun e => (List.nodup_cons.1 hnd).1 (e ▸ List.getElem_mem _)
      rw [dif_neg (by omega), dif_neg (by omega), hxa, List.idxOf_cons_ne _ hnc, (List.nodup_cons.1 hnd).2.idxOf_getElem (i - 1) (by omega)]
      simp only [Nat.succ_eq_add_one, List.getD_cons_succ]
      simp only [cell, List.getElem_zipWith]
      rw [List.getD_eq_getElem I _ (by omega), List.getD_eq_getElem k _ (by omega)]

theorem insertIdx_end : ∀ (l : List ℕ) (p : ℕ) {n : ℕ}, n = l.length → l.insertIdx n p = l ++ [p]
  | [], p, _, rfl => rfl
  | a :: l, p, _, rfl => by
    show (a :: l).insertIdx (l.length + 1) p = _
    rw [List.insertIdx_succ_cons, insertIdx_end l p rfl]
    rfl

/-- C125: splitting a table gives back what it was made of. -/
theorem split_merge (nr : List ℚ → ℚ) (junk : List ℕ → α) (t : Var α × (List ℕ → α)) (ps : List (Var α × (List ℕ → α)))
    (hR : Regular (t.1.axes ++ [coefAxis nr (ps.length + 1)])) (hc : ∀ s ∈ t :: ps, Contains s.1 s.2)
    (hp : ∀ s ∈ t :: ps, s.1.axes.Perm t.1.axes) (hs : ∀ s ∈ ps, s.1.axes.map Axis.len = t.1.axes.map Axis.len)
    (hno : ∀ a ∈ t.1.axes, "Coef".toList ∉ a.classes) :
    ∃ ys, (mergeCoefs nr junk ((t :: ps).map Prod.fst)).bind (splitCoefs nr junk) = some ys ∧ ys.length = ps.length + 1 ∧
      ∀ (p : ℕ) y s, ys[p]? = some y → (t :: ps)[p]? = some s →
        y.axes = t.1.axes ∧ ∃ d, Contains y d ∧ SameData s.2 s.1.axes d y.axes := by
  obtain ⟨y, data, h1, h2, h3, h4⟩ := merge_correct nr junk t ps hR hc hp hs
  obtain ⟨ys, g1, g2, g3⟩ := split_correct nr junk y data (h2 ▸ hR) h3 t.1.axes.length (coefAxis nr (ps.length + 1))
    (by rw [h2]; simp) List.mem_cons_self (fun j a hj ha => hno a (by
      rw [h2, List.getElem?_append_left hj] at ha
      exact List.mem_of_getElem? ha))
  refine ⟨ys, by rw [h1, Option.bind_some, g1], by rw [g2, coefAxis_len], fun p z s hz hs' => ?_⟩
  obtain ⟨k1, k2⟩ := g3 p z hz
  have k3 : z.axes = t.1.axes := by
    rw [k1, h2, List.eraseIdx_append_of_length_le (by simp)]
    simp
  refine ⟨k3, _, k2, fun pos => ?_⟩
  rw [k3]
  have := h4 p s hs' pos
  simp only at this ⊢
  rw [← this]
  congr 1
  exact insertIdx_end _ _ (by simp)

/-- C109, C125: `from_trend(taxis, A=A, B=B)` is at each time `A` of its date times the seconds plus `B` of its date. -/
theorem fromTrend_AB {fs : List Name} {t out : Axis} (h : Coarser fs t out) {pos : ℕ → ℕ} (hp : FallsOn fs t out pos) (nr : List ℚ → ℚ)
    (junk : List ℕ → ℚ) (secs : List ℚ) (A B : Var ℚ) (DA DB : List ℕ → ℚ) {R : List Axis} {ti : ℕ} (ht : R[ti]? = some t)
    (hR : Regular (R ++ [ClimVar.coefAxis nr])) (hA : A.axes = R.set ti out) (hB : B.axes = R.set ti out) (hcA : Contains A DA) (hcB : Contains B DB)
    (honly : ∀ j a, j < ti → R[j]? = some a → "Time".toList ∉ a.classes)
    (hname : ∀ a ∈ R, ¬ Answers (.name "coef".toList) a) (hout : ¬ Answers (.name "coef".toList) out) :
    ∃ y, fromTrendAB nr junk t secs A B = some y ∧ y.axes = R ∧ Contains y fun K =>
      DA (K.set ti (pos (K.getD ti 0))) * secs.getD (K.getD ti 0) 0 + DB (K.set ti (pos (K.getD ti 0))) := by
  have hR2 : Regular (R.set ti out ++ [ClimVar.coefAxis nr]) :=
    Along.regular_of_classes (by rw [List.map_append, List.map_append, Along.classes_set R ti t out ht h.cls]) hR
  have hRs : Regular (R.set ti out) := hR2.sublist (List.sublist_append_left _ _)
  obtain ⟨y, data, h1, h2, h3, h4⟩ := merge_correct nr junk (B, DB) [(A, DA)] (by
      simp only [List.length_singleton]
      rw [hB, coefAxis_two]; exact hR2)
    (by simp [hcA, hcB]) (by simp [hA, hB]) (by simp [hA, hB])
  simp only [List.length_singleton] at h2
  rw [hB, coefAxis_two] at h2
  obtain ⟨z, g1, g2, g3⟩ := fromTrend_correct h hp nr junk secs y data ht hR h2 h3 honly hname hout
  refine ⟨z, ?_, g2, ?_⟩
  · unfold fromTrendAB
    simp only [List.map_cons, List.map_nil] at h1
    rw [h1, Option.bind_some, g1]
  have key : ∀ (p : ℕ) (s : Var ℚ × (List ℕ → ℚ)), [(B, DB), (A, DA)][p]? = some s → s.1.axes = R.set ti out → ∀ K : List ℕ,
      K.length = R.length → data (K ++ [p]) = s.2 K := by
    intro p s hs hsa K hK
    have := h4 p s hs fun a => K.getD ((R.set ti out).idxOf a) 0
    simp only at this
    rw [hB, hsa] at this
    have e := arranged_self hRs.nodup (K := K) (by simp [hK])
    unfold arranged at e
    rw [e] at this
    exact this
  refine Rotate.contains_congr g3 fun K hK => ?_
  have hKl : K.length = R.length := by have := hK.length_eq; rw [g2] at this; simpa using this
  rw [key 1 (A, DA) rfl hA _ (by simp [hKl]), key 0 (B, DB) rfl hB _ (by simp [hKl])]

/-! ### examples -/

/-- a slope and an offset along a circle of longitudes -/
def slopeEx : Var ℚ := { axes := [lonEx], src := .values ⟨[lonEx.len], fun k => 10 + (k.getD 0 0 : ℚ)⟩ }
def offsetEx : Var ℚ := { axes := [lonEx], src := .values ⟨[lonEx.len], fun k => 20 + (k.getD 0 0 : ℚ)⟩ }

theorem tableEx_regular (nr : List ℚ → ℚ) : Regular ([lonEx] ++ [coefAxis nr 2]) :=
  ⟨by
    intro a ha
    simp only [List.cons_append, List.nil_append, List.mem_cons, List.not_mem_nil, or_false] at ha
    rcases ha with rfl | rfl
    · decide +kernel
    · exact List.cons_ne_nil _ _,
   by
    refine .cons (fun b hb => ?_) (.cons (by simp) .nil)
    rw [List.mem_singleton.1 hb]
    rfl⟩

example : ∃ ys, (mergeCoefs (fun _ => 0) (fun _ => 0) [offsetEx, slopeEx]).bind (splitCoefs (fun _ => 0) fun _ => 0) = some ys ∧ ys.length = 2 := by
  obtain ⟨ys, h1, h2, -⟩ := split_merge (fun _ => 0) (fun _ => 0) (offsetEx, fun k => 20 + (k.getD 0 0 : ℚ))
    [(slopeEx, fun k => 10 + (k.getD 0 0 : ℚ))] (tableEx_regular _)
    (by
      intro s hs
      simp only [List.mem_cons, List.not_mem_nil, or_false] at hs
      rcases hs with rfl | rfl <;> exact ⟨rfl, fun _ _ => rfl⟩)
    (by
      intro s hs
      simp only [List.mem_cons, List.not_mem_nil, or_false] at hs
      rcases hs with rfl | rfl <;> exact .refl _)
    (by simp [offsetEx, slopeEx]) (by decide +kernel)
  exact ⟨ys, h1, h2⟩

example : ((mergeCoefs (fun _ => 0) (fun _ => 0) [offsetEx, slopeEx]).bind fun y => (TimeMatch.read (fun _ => 0) (fun _ => 0) y
    ⟨y.axes, [[0, 2], [1, 0]]⟩).map fun r => (r.shape, (List.range 4).map fun i => r.get [i / 2, i % 2])) = some ([2, 2], [10, 20, 12, 22]) := by
  decide +kernel

/-- a line for each date of the year, at the four times of `climEx` -/
example : ∃ out A B y, outTime (remake nr0 datesEx) timesEx .clim = some out ∧ A.axes = climEx.axes.set 0 out ∧
    fromTrendAB nr0 (fun _ => 0) timesEx secsEx A B = some y ∧ y.axes = climEx.axes := by
  have hn : Needs timesEx .clim := by unfold Needs; decide +kernel
  obtain ⟨out, h1, g⟩ := outTime_good climEx_input.plain climEx_input.pos
    (remake_correct nr0 _ datesEx (by decide +kernel) (by decide +kernel)) .clim hn
  have hco := coarser_of g climEx_input.plain (dateAxis_time _ _ _) (dateAxis_tag _ _ _) hn (by decide +kernel)
    fun i hi j hj e => timeAxis_same (by decide +kernel) (by decide +kernel) (fun _ hf => kept_mem hf) (kept_sublist _ .clim) i j hi hj e
  choose! pos hp1 hp2 using hco.covers
  let mkV : ℚ → Var ℚ := fun q => ⟨climEx.axes.set 0 out, .values ⟨(climEx.axes.set 0 out).map Axis.len, fun k => q + (k.getD 0 0 : ℚ)⟩⟩
  have hout : ¬ Answers (.name "coef".toList) out := by
    have h1' := h1
    unfold outTime at h1'
    simp only at h1'
    unfold distinct at h1'
    split_ifs at h1' with e
    rw [← Option.some.inj h1']
    exact remake_coef nr0 datesEx _
  obtain ⟨y, y1, y2, -⟩ := fromTrend_AB hco (pos := pos) (fun i hi => ⟨hp1 i hi, hp2 i hi⟩) nr0 (fun _ => 0) secsEx (mkV 1) (mkV 2)
    (fun k => 1 + (k.getD 0 0 : ℚ)) (fun k => 2 + (k.getD 0 0 : ℚ)) (R := climEx.axes) (ti := 0) rfl ⟨by decide +kernel, by decide +kernel⟩ rfl rfl
    ⟨rfl, fun _ _ => rfl⟩ ⟨rfl, fun _ _ => rfl⟩ (fun j a h => absurd h (by omega)) (by unfold Answers; decide +kernel) hout
  exact ⟨out, mkV 1, mkV 2, y, h1, rfl, y1, y2⟩

end Coefs
end PyGeode
