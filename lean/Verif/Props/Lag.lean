/-
C55: lagged copies of a variable.
-/
import Verif.Model.Lag
import Verif.Props.Integrate
import Verif.Props.Loop

namespace PyGeode
open Spec NArr Axis Combine VarOps

namespace Lag

/-- What a lagged variable shows: at time `t` and lag number `l`, the data `lags[l]` steps after `t` if there is such a
time, and NaN (`none`) otherwise. `k` has the time position at `d` and the lag number at `d + 1`. -/
def _root_.PyGeode.Spec.lagged (lags : List ℤ) (d N : ℕ) (data : List ℕ → Option ℚ) (k : List ℕ) : Option ℚ :=
  let t : ℤ := (k.getD d 0 : ℤ) + lags.getD (k.getD (d + 1) 0) 0
  if 0 ≤ t ∧ t < (N : ℤ) then data ((k.eraseIdx (d + 1)).set d t.toNat) else none

theorem foldl_lagStep (src : NArr (Option ℚ)) (d N imin : ℕ) (tind : List ℕ) (k : List ℕ) :
    ∀ (L : List (ℤ × ℕ)) (out : NArr (Option ℚ)), (L.map Prod.snd).Nodup →
    (L.foldl (lagStep src d N imin tind) out).shape = out.shape ∧
    ∀ l : ℤ, (l, k.getD (d + 1) 0) ∈ L → (L.foldl (lagStep src d N imin tind) out).get k =
      if 0 ≤ (tind.getD (k.getD d 0) 0 : ℤ) + l ∧ (tind.getD (k.getD d 0) 0 : ℤ) + l < (N : ℤ) then
        src.get ((k.eraseIdx (d + 1)).set d ((tind.getD (k.getD d 0) 0 : ℤ) + l - (imin : ℤ)).toNat) else none
  | [], out, _ => ⟨rfl, fun l h => by simp at h⟩
  | p :: L, out, hnd => by
    simp only [List.map_cons, List.nodup_cons] at hnd
    obtain ⟨h1, h2⟩ := foldl_lagStep src d N imin tind k L (lagStep src d N imin tind out p) hnd.2
    refine ⟨by rw [List.foldl_cons, h1]; rfl, fun l hl => ?_⟩
    rw [List.foldl_cons]
    rcases List.mem_cons.1 hl with rfl | hl
    · have hkeep : ∀ (L : List (ℤ × ℕ)) (o : NArr (Option ℚ)), k.getD (d + 1) 0 ∉ L.map Prod.snd →
          (L.foldl (lagStep src d N imin tind) o).get k = o.get k := by
        intro L
        induction L with
        | nil => intro o _; rfl
        | cons q L ih =>
          intro o hq
          simp only [List.map_cons, List.mem_cons, not_or] at hq
          rw [List.foldl_cons, ih _ hq.2]
          show (if _ then _ else _) = _
          rw [if_neg hq.1]
      rw [hkeep L _ hnd.1]
      show (if _ then _ else _) = _
      rw [if_pos rfl]
    · exact h2 l hl

theorem expand_range (start N : ℕ) (stop : ℤ) :
    ∃ sl : List ℤ, expand (.slice ⟨some (start : ℤ), some stop, none⟩) N = some sl ∧
      (0 ≤ stop → sl.map Int.toNat = List.range' start (stop.toNat - start)) ∧
      (stop < 0 → ∀ p ∈ sl.map Int.toNat, start ≤ p ∧ (p : ℤ) < stop + N) := by
  have ha : ∀ b : ℤ, (arange start b 1).map Int.toNat = List.range' start (b.toNat - start) := by
    intro b
    unfold arange arangeLen
    rw [if_pos (by decide), List.map_map]
    refine List.ext_getElem (by simp) fun i h1 h2 => ?_
    simp only [List.getElem_map, List.getElem_range, Function.comp_apply, List.getElem_range']
    omega
  refine ⟨_, rfl, ?_, ?_⟩
  · intro h
    dsimp only [Option.getD_some, Option.getD_none, Option.map_some]
    rw [if_neg (by omega : ¬ (start : ℤ) < 0), if_neg (by omega : ¬ stop < 0), ha]
  · intro h
    dsimp only [Option.getD_some, Option.getD_none, Option.map_some]
    rw [if_neg (by omega : ¬ (start : ℤ) < 0), if_pos h, ha]
    intro p hp
    rw [List.mem_range'_1] at hp
    omega

theorem forall₂_eraseIdx {α β : Type} {R : α → β → Prop} {l : List α} {l' : List β} (h : List.Forall₂ R l l') :
    ∀ i : ℕ, List.Forall₂ R (l.eraseIdx i) (l'.eraseIdx i) := by
  induction h with
  | nil => intro i; simp
  | cons hx hs ih =>
    intro i
    cases i with
    | zero => simpa using hs
    | succ i => simpa using ⟨hx, ih i⟩

theorem cell_eraseIdx : ∀ (I : List (List ℕ)) (k : List ℕ) (i : ℕ),
    cell (I.eraseIdx i) (k.eraseIdx i) = (cell I k).eraseIdx i
  | [], k, i => by simp [cell]
  | a :: I, [], i => by simp [cell]
  | a :: I, b :: k, 0 => by simp [cell]
  | a :: I, b :: k, i + 1 => by
    have := cell_eraseIdx I k i
    simp only [cell] at this
    simpa [cell] using this

/-- the request below the lag axis -/
theorem lagView_spec (nr : List ℚ → ℚ) (junk : List ℕ → Option ℚ) (x : Var (Option ℚ)) (data : List ℕ → Option ℚ)
    (hx : Contains x data) (hR : Regular x.axes) (d : ℕ) (hd : d < x.axes.length) (lags : List ℤ) (new : Axis)
    (hnew : new.len = lags.length) (I : List (List ℕ))
    (hI : InRange ((x.axes.take (d + 1) ++ new :: x.axes.drop (d + 1)).map Axis.len) I) (hne : ∀ ind ∈ I, ind ≠ []) :
    ∃ r, lagView nr junk x d x.axes[d].len lags ⟨x.axes.take (d + 1) ++ new :: x.axes.drop (d + 1), I⟩ = some r ∧
      IsRead (lagged lags d x.axes[d].len data) I r := by
  set Y := x.axes.take (d + 1) ++ new :: x.axes.drop (d + 1) with hY
  set N := x.axes[d].len with hN
  have htk : (x.axes.take (d + 1)).length = d + 1 := by simp; omega
  have hYl : Y.length = x.axes.length + 1 := by simp [hY]; omega
  have hIl : I.length = x.axes.length + 1 := by rw [hI.length_eq]; simp [hYl]
  have hYe : (Y.map Axis.len).eraseIdx (d + 1) = x.axes.map Axis.len := by
    rw [hY, List.map_append, List.eraseIdx_append_of_length_le (by simp), List.map_cons]
    rw [List.length_map, htk, Nat.sub_self, List.eraseIdx_cons_zero, ← List.map_append, List.take_append_drop]
  have hYd : (Y.map Axis.len).getD d 0 = N := by
    rw [List.getD_eq_getElem _ _ (by simp; omega), List.getElem_map]
    simp only [hY]
    rw [List.getElem_append_left (by omega), List.getElem_take]
  have hYd1 : (Y.map Axis.len).getD (d + 1) 0 = lags.length := by
    rw [List.getD_eq_getElem _ _ (by simp; omega), List.getElem_map]
    simp only [hY]
    rw [List.getElem_append_right (by omega)]
    simp [htk, hnew]
  set tind := I.getD d [] with htind
  set lpos := I.getD (d + 1) [] with hlpos
  have htm : tind ∈ I := getD_mem (by omega)
  have hlm : lpos ∈ I := getD_mem (by omega)
  have htN : ∀ p ∈ tind, p < N := by
    intro p hp
    have := Along.inRange_get hI d (by omega) p hp
    rwa [hYd] at this
  have hlN : ∀ p ∈ lpos, p < lags.length := by
    intro p hp
    have := Along.inRange_get hI (d + 1) (by omega) p hp
    rwa [hYd1] at this
  set lind := lpos.map fun i => lags.getD i 0 with hlind
  have hlindne : lind ≠ [] := by rw [hlind]; simpa using hne _ hlm
  obtain ⟨loff, hlo⟩ := Option.isSome_iff_exists.1 (List.isSome_min?_of_ne_nil hlindne)
  obtain ⟨roff, hro⟩ := Option.isSome_iff_exists.1 (List.isSome_max?_of_ne_nil hlindne)
  obtain ⟨tmin, hti⟩ := Option.isSome_iff_exists.1 (List.isSome_min?_of_ne_nil (hne _ htm))
  obtain ⟨tmax, hta⟩ := Option.isSome_iff_exists.1 (List.isSome_max?_of_ne_nil (hne _ htm))
  have hlole : ∀ l ∈ lind, loff ≤ l := fun p hp => ((List.min?_eq_some_iff).1 hlo).2 p hp
  have hrole : ∀ l ∈ lind, l ≤ roff := fun p hp => ((List.max?_eq_some_iff).1 hro).2 p hp
  have htile : ∀ l ∈ tind, tmin ≤ l := fun p hp => ((List.min?_eq_some_iff).1 hti).2 p hp
  have htale : ∀ l ∈ tind, l ≤ tmax := fun p hp => ((List.max?_eq_some_iff).1 hta).2 p hp
  set start : ℤ := Max.max ((tmin : ℤ) + loff) 0 with hstart
  set stop : ℤ := Min.min ((tmax : ℤ) + roff + 1) (N : ℤ) with hstop
  have hs0 : ((start.toNat : ℕ) : ℤ) = start := by omega
  obtain ⟨sl, he1, he2, he3⟩ := expand_range start.toNat N stop
  rw [hs0] at he1
  set insl := sl.map Int.toNat with hinsl
  have hsr : ∀ p ∈ insl, p < N := by
    intro p hp
    by_cases h : 0 ≤ stop
    · rw [he2 h, List.mem_range'_1] at hp; omega
    · have := he3 (by omega) p hp; omega
  set J := (I.eraseIdx (d + 1)).set d insl with hJ
  have hJl : J.length = x.axes.length := by simp [hJ, List.length_eraseIdx, hIl, hd]
  have hJr : InRange (x.axes.map Axis.len) J := by
    have h1 : InRange (x.axes.map Axis.len) (I.eraseIdx (d + 1)) := by
      have := forall₂_eraseIdx hI (d + 1)
      rwa [hYe] at this
    refine Along.inRange_set h1 d insl fun p hp => ?_
    rw [List.getD_eq_getElem _ _ (by simpa using hd), List.getElem_map]
    exact hsr p hp
  have hread : ∃ r, x.read nr junk ⟨x.axes, J⟩ = some r ∧ (insl ≠ [] → IsRead data J r) := by
    by_cases h : insl = []
    · obtain ⟨m, hm, _⟩ := Loop.mapTo_own nr x.axes hR J hJl true
      unfold Var.read View.get
      rw [hm]
      exact ⟨_, rfl, fun h' => absurd h h'⟩
    · obtain ⟨r, h1, h2⟩ := read_own nr junk x data hx hR J hJr (by
        intro ind hind
        rcases List.mem_or_eq_of_mem_set hind with h' | h'
        · exact hne _ (List.mem_of_mem_eraseIdx h')
        · rw [h']; exact h)
      exact ⟨r, h1, fun _ => h2⟩
  obtain ⟨src, hsrc, hsrcv⟩ := hread
  refine ⟨lind.zipIdx.foldl (lagStep src d N start.toNat tind) { shape := I.map List.length, get := junk }, ?_, ?_⟩
  · unfold lagView
    dsimp only
    rw [← htind, ← hlpos, ← hlind, hlo, hro, hti, hta]
    simp only [Option.bind_eq_bind, Option.bind_some]
    rw [← hstart, ← hstop, he1]
    simp only [Option.bind_some]
    rw [← hinsl, ← hJ, hsrc]
    rfl
  have hnd : (lind.zipIdx.map Prod.snd).Nodup := by
    simp [List.nodup_range']
  refine ⟨(foldl_lagStep src d N start.toNat tind [] _ _ hnd).1, fun k hk => ?_⟩
  have hkl : k.length = I.length := by simpa using hk.length_eq
  have hkt : k.getD d 0 < tind.length := by
    have := InBounds.lt hk (i := d) (by simp; omega)
    rwa [List.getD_eq_getElem (I.map List.length) _ (by simp; omega), List.getElem_map, ← List.getD_eq_getElem I [] (by omega)] at this
  have hkL : k.getD (d + 1) 0 < lpos.length := by
    have := InBounds.lt hk (i := d + 1) (by simp; omega)
    rwa [List.getD_eq_getElem (I.map List.length) _ (by simp; omega), List.getElem_map, ← List.getD_eq_getElem I [] (by omega)] at this
  have hct : (cell I k).getD d 0 = tind.getD (k.getD d 0) 0 := by
    rw [getD_cell _ _ _ (by omega) (by omega)]
  have hcl : (cell I k).getD (d + 1) 0 = lpos.getD (k.getD (d + 1) 0) 0 := by
    rw [getD_cell _ _ _ (by omega) (by omega)]
  set t := tind.getD (k.getD d 0) 0 with ht
  set l := lags.getD (lpos.getD (k.getD (d + 1) 0) 0) 0 with hl
  have htmem : t ∈ tind := getD_mem hkt
  have hlmem : l ∈ lind := List.mem_map.2 ⟨_, getD_mem hkL, rfl⟩
  have hlz : (l, k.getD (d + 1) 0) ∈ lind.zipIdx := by
    rw [List.mem_zipIdx_iff_getElem?]
    simp only
    rw [List.getElem?_eq_getElem (by simpa [hlind] using hkL)]
    simp only [hlind, List.getElem_map, hl, Option.some.injEq]
    rw [← List.getD_eq_getElem lpos 0 hkL]
  rw [(foldl_lagStep src d N start.toNat tind k _ _ hnd).2 l hlz]
  unfold lagged
  dsimp only
  rw [hct, hcl, ← hl, ← ht]
  by_cases hv : 0 ≤ (t : ℤ) + l ∧ (t : ℤ) + l < (N : ℤ)
  swap
  · rw [if_neg hv, if_neg hv]
  rw [if_pos hv, if_pos hv]
  have h1 := htile t htmem
  have h2 := htale t htmem
  have h3 := hlole l hlmem
  have h4 := hrole l hlmem
  have hsp : 0 ≤ stop := by omega
  have hin := he2 hsp
  set q := ((t : ℤ) + l - (start.toNat : ℤ)).toNat with hq
  have hqlt : q < insl.length := by rw [hin, List.length_range']; omega
  have hq2 : insl.getD q 0 = ((t : ℤ) + l).toNat := by
    rw [List.getD_eq_getElem _ _ hqlt]
    have : insl[q] = (List.range' start.toNat (stop.toNat - start.toNat))[q]'(by rw [← hin]; exact hqlt) := by
      simp only [hin]
    rw [this, List.getElem_range']
    omega
  have hr := hsrcv (by intro h; rw [h] at hqlt; simp at hqlt)
  have hkb : InBounds (J.map List.length) ((k.eraseIdx (d + 1)).set d q) := by
    have h5 := forall₂_eraseIdx hk (d + 1)
    have h6 := Along.inBounds_set h5 d insl.length q hqlt
    rw [hJ, List.map_set]
    rwa [List.eraseIdx_map] at h6
  rw [hr.2 _ hkb]
  congr 1
  rw [hJ, Along.set_cell _ _ _ _ _ (by simp [List.length_eraseIdx, hIl]; split_ifs <;> omega)
    (by simp [List.length_eraseIdx, hkl]), cell_eraseIdx, hq2]

/-- the lags in the order in which they label the new axis: reversed if asked for -/
def _root_.PyGeode.Spec.lagOrder (lags : List ℤ) (reverse : Bool) : List ℤ := if reverse then lags.reverse else lags

/-- C55: a lagged variable has a lag axis after the time axis, labelled by the offsets in time (negated and in reverse
order with `reverse`), and at time `t` and lag number `l` shows the data `lags[l]` steps later if there is such a step, and
NaN otherwise - for every list of lags (also beyond both ends) and every request. -/
theorem lag_correct (nr : List ℚ → ℚ) (junk : List ℕ → Option ℚ) (x y : Var (Option ℚ)) (id : AxisId) (lags : List ℤ)
    (reverse : Bool) (data : List ℕ → Option ℚ) (d : ℕ) (ax : Axis) (hx : Contains x data) (hR : Regular x.axes)
    (hd : foundAt (whichaxis x.axes id) = some d) (hax : x.axes[d]? = some ax)
    (hy : lag nr junk x id lags reverse = some y) :
    y.axes = x.axes.take (d + 1) ++ lagAxis ((lagOrder lags reverse).map fun l : ℤ =>
      (if reverse then -1 else 1) * (ax.values.getD 1 0 - ax.values.getD 0 0) * (l : ℚ)) :: x.axes.drop (d + 1) ∧
    Contains y (lagged (lagOrder lags reverse) d ax.len data) := by
  obtain ⟨hdl, rfl⟩ := List.getElem?_eq_some_iff.1 hax
  unfold lag at hy
  rw [hd] at hy
  simp only [Option.bind_eq_bind, Option.bind_some, hax] at hy
  rw [apply_ite (fun o => o = some y)] at hy
  have h1 : "Time".toList ∈ x.axes[d].classes ∧ 2 ≤ x.axes[d].len := by
    by_contra h; rw [if_neg h] at hy; cases hy
  rw [if_pos h1] at hy
  have hl : (if reverse then lags.reverse else lags) = lagOrder lags reverse := rfl
  rw [hl] at hy
  obtain rfl := Option.some.inj hy
  constructor
  · show _ ++ _ :: _ = _
    congr 3
    refine List.map_congr_left fun l _ => ?_
    cases reverse <;> simp
  · refine contains_ofView_tidy junk _ _ _ fun I hI ht => ?_
    exact lagView_spec nr junk x data hx hR d hdl _ _ (by simp [lagAxis, Axis.len]) I hI fun ind h => (ht ind h).1

/-- C55: only time axes of at least two steps can be lagged. -/
theorem lag_refused (nr : List ℚ → ℚ) (junk : List ℕ → Option ℚ) (x : Var (Option ℚ)) (id : AxisId) (lags : List ℤ)
    (reverse : Bool) (d : ℕ) (ax : Axis) (hd : foundAt (whichaxis x.axes id) = some d) (hax : x.axes[d]? = some ax) :
    lag nr junk x id lags reverse = none ↔ ("Time".toList ∉ ax.classes ∨ ax.len < 2) := by
  unfold lag
  rw [hd]
  simp only [Option.bind_eq_bind, Option.bind_some, hax]
  split_ifs with h1
  · simp only [reduceCtorEq, false_iff, not_or, not_not]
    exact ⟨h1.1, by omega⟩
  · simp only [true_iff]
    by_cases h2 : "Time".toList ∈ ax.classes
    · right; by_contra h3; exact h1 ⟨h2, by omega⟩
    · exact Or.inl h2

/-! ### Example -/

/-- latitude and time -/
def lagEx : Var (Option ℚ) :=
  { axes := [mkEx [30, 10, 20], timeEx 4]
    src := .values ⟨[3, 4], fun k => some (10 * k.getD 0 0 + k.getD 1 0)⟩ }

example : ∃ y, lag (fun _ => 0) (fun _ => some 77) lagEx (.int 1) [-1, 0, 9, 2] false = some y ∧
    Contains y (lagged [-1, 0, 9, 2] 1 4 fun k => some (10 * k.getD 0 0 + k.getD 1 0)) := by
  refine ⟨_, rfl, ?_⟩
  exact (lag_correct (fun _ => 0) (fun _ => some 77) lagEx _ (.int 1) [-1, 0, 9, 2] false _ 1 (timeEx 4)
    ⟨by decide +kernel, fun _ _ => rfl⟩ ⟨by decide +kernel, by decide +kernel⟩ (by decide +kernel) rfl rfl).2

example : ((lag (fun _ => 0) (fun _ => some 77) lagEx (.int 1) [-1, 0, 9, 2] true).bind fun y =>
    (y.read (fun _ => 0) (fun _ => some 77) ⟨y.axes, [[2], [3, 0], [0, 1, 2, 3]]⟩).map fun r =>
      (r.shape, (y.axes.map Axis.values).getD 2 [], product [[0], [0, 1], [0, 1, 2, 3]] |>.map r.get)) =
    some ([1, 2, 4], [-2, -9, 0, 1], [none, none, some 23, some 22, some 22, none, some 20, none]) := by decide +kernel

end Lag
end PyGeode
