/-
Property C99: indexing variables with brackets, and loading them.
-/
import Verif.Model.GetItem
import Verif.Props.VarOps
import Verif.Props.Rotate
import Verif.Props.Index
import Verif.Lemmas.Index

namespace PyGeode

namespace Spec
open GetItem

/-- integer `i` names position `p` of `n`: counted from the beginning, or, if negative, from the end -/
def IsPos (n : ℕ) (i : ℤ) (p : ℕ) : Prop := p < n ∧ ((p : ℤ) = i ∨ (p : ℤ) = i + n)

/-- the positions one index selects on an axis of length `n` -/
def Selected (n : ℕ) : Ind → List ℕ → Prop
  | .int i, l => ∃ p, IsPos n i p ∧ l = [p]
  | .list is, l => List.Forall₂ (IsPos n) is l
  | .slice s, l => s.step ≠ some 0 ∧ l = slicePositions s n

/-- the whole axis, `:` -/
def colon : Ind := .slice ⟨none, none, none⟩

/-- `key` stands for one index for each of `n` axes: `...`, or else the end, is filled up with `:` -/
inductive Writes (n : ℕ) : Key → List Ind → Prop
  | dots (before after : List Ind) (h : before.length + after.length ≤ n) :
      Writes n (.tuple (before.map .ind ++ .dots :: after.map .ind))
        (before ++ List.replicate (n - before.length - after.length) colon ++ after)
  | plain (before : List Ind) (h : before.length ≤ n) :
      Writes n (.tuple (before.map .ind)) (before ++ List.replicate (n - before.length) colon)
  | one (i : Ind) (hi : ∀ l, i ≠ .list l) (h : 0 < n) : Writes n (.one (.ind i)) (i :: List.replicate (n - 1) colon)
  | oneDots : Writes n (.one .dots) (List.replicate n colon)

/-- is the index an integer? -/
def isInteger : Ind → Bool
  | .int _ => true
  | _ => false

/-- the shape of the array: an axis for each index that is not an integer -/
def indexedShape : List Ind → List (List ℕ) → List ℕ
  | .int _ :: is, _ :: S => indexedShape is S
  | _ :: is, l :: S => l.length :: indexedShape is S
  | _, _ => []

/-- the position in the variable behind position `k` of the array -/
def indexedCell : List Ind → List (List ℕ) → List ℕ → List ℕ
  | .int _ :: is, l :: S, k => l.headD 0 :: indexedCell is S k
  | _ :: is, l :: S, i :: k => l.getD i 0 :: indexedCell is S k
  | _, _, _ => []

/-- `r` is what indexing each axis by itself gives: integers take one position and remove the axis -/
def IsIndexed {α : Type} (data : List ℕ → α) (is : List Ind) (S : List (List ℕ)) (r : NArr α) : Prop :=
  r.shape = indexedShape is S ∧ ∀ k, NArr.InBounds (indexedShape is S) k → r.get k = data (indexedCell is S k)

end Spec

namespace GetItem
open Spec VarOps NArr Axis
variable {α : Type}

/-! ### numpy's positions -/

theorem npPos_iff (n : ℕ) (i : ℤ) (p : ℕ) : npPos n i = some p ↔ IsPos n i p := by
  unfold npPos IsPos
  split_ifs <;> simp only [Option.some.injEq, reduceCtorEq, false_iff] <;> omega

theorem adjust_clamp (n : ℕ) (step b : ℤ) (h : step ≠ 0) : adjust n step b = clampBound n (decide (0 < step)) b := by
  unfold adjust clampBound
  rcases lt_or_gt_of_ne h with h | h
  · have : ¬ 0 < step := by omega
    simp only [this, decide_false, Bool.false_eq_true, if_false, h, if_true]
    split_ifs <;> omega
  · have h2 : ¬ step < 0 := by omega
    simp only [h2, h, decide_true, if_true, if_false]
    split_ifs <;> omega

theorem toNat_slice {l : List ℤ} {m : List ℕ} (h : l = m.map fun i : ℕ => (i : ℤ)) : l.map Int.toNat = m := by
  subst h; simp [List.map_map, Function.comp_def]

/-- numpy's slices select what Python's documentation says -/
theorem npTake_slice (n : ℕ) (s : PySlice) (h : s.step ≠ some 0) : npTake n (.slice s) = some (slicePositions s n) := by
  obtain ⟨sa, sb, sc⟩ := s
  have hs0 : sc.getD 1 ≠ 0 := by
    cases sc with
    | none => simp
    | some c => simpa using h
  simp only [npTake, slicePositions]
  rw [if_neg hs0]
  generalize sc.getD 1 = st at *
  congr 1
  have hadj : adjust n st = clampBound n (decide (0 < st)) := funext fun b => adjust_clamp n st b hs0
  rw [hadj]
  have hc : ∀ (u : Bool) (b : ℤ), clampBound n u b ≤ n ∧ (u = true → 0 ≤ clampBound n u b) ∧ (-1 ≤ clampBound n u b) ∧
      (u = false → clampBound n u b ≤ n - 1) := by
    intro u b
    unfold clampBound
    cases u <;> simp only [Bool.false_eq_true, if_false, if_true] <;> refine ⟨?_, ?_, ?_, ?_⟩ <;> intros <;> first | omega | contradiction | skip
    all_goals (split_ifs <;> omega)
  rcases lt_or_gt_of_ne hs0 with hneg | hpos
  · have hnp : ¬ 0 < st := by omega
    simp only [hnp, hneg, if_true, if_false, decide_false]
    refine toNat_slice (eq_filter_range_desc (arange_pairwise_neg hneg) fun x => ?_)
    rw [mem_arange_neg hneg]
    obtain ⟨lo, hlo⟩ : ∃ lo, (sa.map (clampBound n false)).getD ((n : ℤ) - 1) = lo ∧ lo ≤ n - 1 := by
      cases sa with
      | none => exact ⟨_, rfl, by simp⟩
      | some b => exact ⟨_, rfl, by simpa using (hc false b).2.2.2 rfl⟩
    obtain ⟨hi, hhi⟩ : ∃ hi, (sb.map (clampBound n false)).getD (-1) = hi ∧ -1 ≤ hi := by
      cases sb with
      | none => exact ⟨_, rfl, by simp⟩
      | some b => exact ⟨_, rfl, by simpa using (hc false b).2.2.1⟩
    rw [hlo.1, hhi.1]
    constructor
    · rintro ⟨a1, a2, a3⟩
      have : ((x.toNat : ℕ) : ℤ) = x := by omega
      exact ⟨by omega, by omega, by rw [decide_eq_true_eq, this]; exact ⟨a1, a2, a3⟩⟩
    · rintro ⟨a1, a2, a3⟩
      have : ((x.toNat : ℕ) : ℤ) = x := by omega
      rw [decide_eq_true_eq, this] at a3
      exact a3
  · have hnn : ¬ st < 0 := by omega
    simp only [hpos, hnn, if_true, if_false, decide_true]
    refine toNat_slice (eq_filter_range_asc (arange_pairwise_pos hpos) fun x => ?_)
    rw [mem_arange_pos hpos]
    obtain ⟨lo, hlo⟩ : ∃ lo, (sa.map (clampBound n true)).getD 0 = lo ∧ 0 ≤ lo := by
      cases sa with
      | none => exact ⟨_, rfl, by simp⟩
      | some b => exact ⟨_, rfl, by simpa using (hc true b).2.1 rfl⟩
    obtain ⟨hi, hhi⟩ : ∃ hi, (sb.map (clampBound n true)).getD (n : ℤ) = hi ∧ hi ≤ n := by
      cases sb with
      | none => exact ⟨_, rfl, by simp⟩
      | some b => exact ⟨_, rfl, by simpa using (hc true b).1⟩
    rw [hlo.1, hhi.1]
    constructor
    · rintro ⟨a1, a2, a3⟩
      have : ((x.toNat : ℕ) : ℤ) = x := by omega
      exact ⟨by omega, by omega, by rw [decide_eq_true_eq, this]; exact ⟨a1, a2, a3⟩⟩
    · rintro ⟨a1, a2, a3⟩
      have : ((x.toNat : ℕ) : ℤ) = x := by omega
      rw [decide_eq_true_eq, this] at a3
      exact a3

theorem mapM_iff {β γ : Type} (f : β → Option γ) : ∀ (l : List β) (m : List γ),
    l.mapM f = some m ↔ List.Forall₂ (fun b c => f b = some c) l m
  | [], m => by simp [eq_comm]
  | b :: l, m => by
    rw [List.mapM_cons]
    cases hb : f b with
    | none =>
      simp only [Option.bind_eq_bind, Option.bind_none, reduceCtorEq, false_iff]
      rintro h
      cases h with
      | cons h1 _ => rw [hb] at h1; cases h1
    | some c =>
      have ih := mapM_iff f l
      cases hl : l.mapM f with
      | none =>
        simp only [Option.bind_eq_bind, Option.bind_some, Option.bind_none, reduceCtorEq, false_iff]
        rintro h
        cases h with
        | cons h1 h2 => rw [← ih, hl] at h2; cases h2
      | some m' =>
        simp only [Option.bind_eq_bind, Option.bind_some, Option.pure_def, Option.some.injEq]
        constructor
        · rintro rfl
          exact .cons hb ((ih m').1 hl)
        · rintro h
          cases h with
          | cons h1 h2 =>
            rw [hb] at h1; cases h1
            rw [← ih, hl] at h2; cases h2; rfl

theorem npTake_iff (n : ℕ) (i : Ind) (l : List ℕ) : npTake n i = some l ↔ Selected n i l := by
  cases i with
  | list is =>
    rw [npTake, mapM_iff]
    simp only [npPos_iff]
    rfl
  | int i =>
    simp only [npTake, Option.map_eq_some_iff, npPos_iff, Selected]
    exact exists_congr fun p => and_congr_right fun _ => eq_comm
  | slice s =>
    by_cases h : s.step = some 0
    · simp [npTake, Selected, h]
    · rw [npTake_slice n s h]
      simp only [Option.some.injEq, Selected, ne_eq, h, not_false_eq_true, true_and, eq_comm]

theorem selected_lt {n : ℕ} {i : Ind} {l : List ℕ} (h : Selected n i l) : ∀ p ∈ l, p < n := by
  cases i with
  | list is =>
    intro p hp
    obtain ⟨j, hj, rfl⟩ := List.getElem_of_mem hp
    have h' : List.Forall₂ (IsPos n) is l := h
    exact ((List.forall₂_iff_get.1 h').2 j (by rw [h'.length_eq]; exact hj) hj).1
  | int i => obtain ⟨p, hp, rfl⟩ := h; simpa using hp.1
  | slice s =>
    obtain ⟨_, rfl⟩ := h
    intro p hp
    unfold slicePositions at hp
    simp only at hp
    split_ifs at hp <;> simp only [List.mem_reverse, List.mem_filter, List.mem_range] at hp <;> exact hp.1

/-! ### the key -/

theorem ellipsis_full {n : ℕ} {key : Key} {full : List Ind} (h : Writes n key full) :
    ellipsisSlices n (key.items.map Item.asInd) = some full ∧ full.length = n := by
  cases h with
  | dots before after h =>
    have := ellipsisSlices_spec n before after h
    refine ⟨?_, by simp; omega⟩
    rw [← show (before.map some ++ [none] ++ after.map some : List (Option Ind)) =
      ((Key.tuple (before.map .ind ++ .dots :: after.map .ind)).items.map Item.asInd) by
        simp [Key.items, Item.asInd, Function.comp_def]]
    exact this
  | plain before h =>
    have := ellipsisSlices_none n before h
    refine ⟨?_, by simp; omega⟩
    rw [← show (before.map some : List (Option Ind)) = ((Key.tuple (before.map .ind)).items.map Item.asInd) by
        simp [Key.items, Item.asInd, Function.comp_def]]
    exact this
  | one i hi h =>
    have := ellipsisSlices_none n [i] h
    exact ⟨this, by simp; omega⟩
  | oneDots =>
    have := ellipsisSlices_spec n [] [] (by simp)
    refine ⟨Eq.trans this ?_, by simp⟩
    simp [colon]

theorem isInt_ind (i : Ind) : (Item.ind i).isInt = isInteger i := by cases i <;> rfl

theorem takeWhile_ind (l : List Ind) (m : List Item) :
    (l.map Item.ind ++ m).takeWhile (· ≠ .dots) = l.map Item.ind ++ m.takeWhile (· ≠ .dots) ∧
    (l.map Item.ind ++ m).dropWhile (· ≠ .dots) = m.dropWhile (· ≠ .dots) := by
  induction l with
  | nil => simp
  | cons a l ih => simp only [List.map_cons, List.cons_append, List.takeWhile_cons, List.dropWhile_cons]; simp [ih.1, ih.2]

theorem flags_dots (n : ℕ) (before after : List Ind) :
    flags n (before.map .ind ++ .dots :: after.map .ind) =
      (before ++ List.replicate (n - before.length - after.length) colon ++ after).map isInteger := by
  unfold flags
  simp only
  rw [(takeWhile_ind before _).1, (takeWhile_ind before _).2]
  have hc : isInteger colon = false := rfl
  simp [isInt_ind, Function.comp_def, List.map_replicate, hc]

theorem flags_plain (n : ℕ) (before : List Ind) :
    flags n (before.map .ind) = (before ++ List.replicate (n - before.length) colon).map isInteger := by
  have h := takeWhile_ind before []
  simp only [List.append_nil] at h
  unfold flags
  simp only
  rw [h.1, h.2]
  have hc : isInteger colon = false := rfl
  simp [isInt_ind, Function.comp_def, List.map_replicate, hc]

/-! ### the array -/

theorem indexed_zip : ∀ (is : List Ind) (S : List (List ℕ)), is.length = S.length →
    (((is.map isInteger).zip (S.map List.length)).filter fun p => !p.1).map Prod.snd = indexedShape is S
  | [], [], _ => rfl
  | i :: is, l :: S, h => by
    have ih := indexed_zip is S (by simpa using h)
    cases i <;> simp [isInteger, indexedShape, ih]

theorem refill_cell : ∀ (is : List Ind) (S : List (List ℕ)) (k : List ℕ), is.length = S.length → (∀ l ∈ S, l ≠ []) →
    InBounds (indexedShape is S) k →
    InBounds (S.map List.length) (refill (is.map isInteger) k) ∧ cell S (refill (is.map isInteger) k) = indexedCell is S k
  | [], [], k, _, _, h => by
    simp [indexedShape, InBounds] at h
    subst h
    simp [refill, cell, indexedCell, InBounds]
  | i :: is, l :: S, k, h, hne, hk => by
    have hl : 0 < l.length := List.length_pos_iff.2 (hne l (by simp))
    have ih := fun k' => refill_cell is S k' (by simpa using h) (fun l' hl' => hne l' (by simp [hl']))
    have hhead : l.getD 0 0 = l.headD 0 := by cases l <;> rfl
    cases i with
    | int j =>
      have hk' : InBounds (indexedShape is S) k := hk
      obtain ⟨a, b⟩ := ih k hk'
      refine ⟨.cons hl a, ?_⟩
      simp only [List.map_cons, isInteger, refill, cell, List.zipWith_cons_cons, indexedCell, hhead, List.cons.injEq, true_and]
      exact b
    | list js =>
      cases hk with
      | cons h1 h2 =>
        obtain ⟨a, b⟩ := ih _ h2
        exact ⟨.cons h1 a, congrArg _ b⟩
    | slice s =>
      cases hk with
      | cons h1 h2 =>
        obtain ⟨a, b⟩ := ih _ h2
        exact ⟨.cons h1 a, congrArg _ b⟩

theorem dropInts_indexed (data : List ℕ → α) (is : List Ind) (S : List (List ℕ)) (r : NArr α) (h : is.length = S.length)
    (hne : ∀ l ∈ S, l ≠ []) (hr : IsRead data S r) : IsIndexed data is S (dropInts (is.map isInteger) r) := by
  refine ⟨?_, fun k hk => ?_⟩
  · show (((is.map isInteger).zip r.shape).filter fun p => !p.1).map Prod.snd = _
    rw [hr.1]
    exact indexed_zip is S h
  · obtain ⟨a, b⟩ := refill_cell is S k h hne hk
    show r.get _ = _
    rw [hr.2 _ a, b]

theorem noInts : ∀ (is : List Ind) (S : List (List ℕ)), is.length = S.length → (∀ i ∈ is, isInteger i = false) →
    indexedShape is S = S.map List.length ∧ ∀ k, InBounds (S.map List.length) k → indexedCell is S k = cell S k
  | [], [], _, _ => by simp [indexedShape, indexedCell, cell]
  | i :: is, l :: S, h, hi => by
    obtain ⟨a, b⟩ := noInts is S (by simpa using h) fun j hj => hi j (by simp [hj])
    have h0 := hi i (by simp)
    refine ⟨?_, fun k hk => ?_⟩
    · cases i <;> simp_all [indexedShape, isInteger]
    · cases hk with
      | cons h1 h2 =>
        cases i with
        | int j => simp [isInteger] at h0
        | list js => exact congrArg _ (b _ h2)
        | slice s => exact congrArg _ (b _ h2)

theorem read_indexed (data : List ℕ → α) (is : List Ind) (S : List (List ℕ)) (r : NArr α) (h : is.length = S.length)
    (hi : ∀ i ∈ is, isInteger i = false) (hr : IsRead data S r) : IsIndexed data is S r := by
  obtain ⟨a, b⟩ := noInts is S h hi
  refine ⟨by rw [a]; exact hr.1, fun k hk => ?_⟩
  rw [a] at hk
  rw [hr.2 k hk, b k hk]

/-! ### the variable -/

theorem map_getD_range {l : List ℕ} {vals : List ℚ} (hn : vals.Nodup) (hl : ∀ i ∈ l, i < vals.length)
    (h : l.map (fun i : ℕ => vals.getD i 0) = vals) : l = List.range vals.length := by
  have hlen : l.length = vals.length := by rw [← congrArg List.length h]; simp
  refine List.ext_getElem (by simpa using hlen) fun j hj hj' => ?_
  have h1 : (l.map (fun i : ℕ => vals.getD i 0))[j]'(by simpa using hj) = vals[j]'(by omega) := List.getElem_of_eq h _
  have h2 : l[j] < vals.length := hl _ (List.getElem_mem _)
  rw [List.getElem_map, List.getD_eq_getElem vals 0 h2] at h1
  simpa using (List.Nodup.getElem_inj_iff hn).1 h1

theorem sliceAxis_same {nr : List ℚ → ℚ} {a : Axis} {s : List ℕ} (h : sliceAxis nr a s = a) :
    (s.map fun i : ℕ => a.values.getD i 0) = a.values := by
  have := sliceAxis_values nr a s
  rw [h] at this
  exact this.symm

theorem cell_range : ∀ (lens k : List ℕ), InBounds lens k → cell (lens.map List.range) k = k
  | [], _, h => by cases h; rfl
  | n :: lens, _, .cons (a := i) h1 h2 => by
    simp only [List.map_cons, cell, List.zipWith_cons_cons]
    rw [List.getD_eq_getElem _ _ (by simpa using h1), List.getElem_range]
    exact congrArg _ (cell_range lens _ h2)

/-- C99: `var.slice[…]`: the positions selected, in the order given, on the sliced axes. -/
theorem asVar_correct (nr : List ℚ → ℚ) (junk : List ℕ → α) (x : Var α) (data : List ℕ → α) (key : Key) (full : List Ind)
    (S : List (List ℕ)) (hx : Contains x data) (hr : Regular x.axes) (hrt : ∀ a ∈ x.axes, 0 ≤ a.rtol)
    (hsep : ∀ a ∈ x.axes, Separated a.values) (hw : Writes x.axes.length key full)
    (hS : List.Forall₂ (fun (p : Axis × Ind) l => Selected p.1.len p.2 l) (x.axes.zip full) S) :
    ∃ y, asVar nr junk x key.items = some y ∧ Contains y (fun k => data (cell S k)) ∧ Regular y.axes ∧
      y.axes.map Axis.len = S.map List.length := by
  obtain ⟨h1, h2⟩ := ellipsis_full hw
  have h3 : ((x.axes.zip full).mapM fun p : Axis × Ind => npTake p.1.len p.2) = some S := by
    rw [mapM_iff]
    refine hS.imp fun p l h => (npTake_iff _ _ _).2 h
  have hSl : S.length = x.axes.length := by rw [← hS.length_eq]; simp [h2]
  have hin : InRange (x.axes.map Axis.len) S := by
    refine List.forall₂_iff_get.2 ⟨by simp [hSl], fun i hi hi' => ?_⟩
    have h4 := (List.forall₂_iff_get.1 hS).2 i (by rw [hS.length_eq]; exact hi) hi
    have h5 := selected_lt h4
    simpa using h5
  unfold asVar
  rw [h1, Option.bind_some, h3, Option.map_some]
  refine ⟨_, rfl, ?_⟩
  split_ifs with hsame
  · have hrange : S = (x.axes.map Axis.len).map List.range := by
      refine List.ext_getElem (by simp [hSl]) fun i hi hi' => ?_
      have hi2 : i < x.axes.length := by omega
      have h4 : sliceAxis nr x.axes[i] S[i] = x.axes[i] := by
        have : (List.zipWith (sliceAxis nr) x.axes S)[i]'(by simp; omega) = x.axes[i] := by simp [hsame]
        rwa [List.getElem_zipWith] at this
      simp only [List.getElem_map]
      refine map_getD_range (hsep _ (List.getElem_mem _)).nodup ?_ (sliceAxis_same h4)
      have := (List.forall₂_iff_get.1 hin).2 i hi (by simpa using hi2)
      simpa [Axis.len] using this
    refine ⟨?_, hr, by rw [hrange]; simp [Function.comp_def]⟩
    rw [hrange]
    refine Rotate.contains_congr hx fun k hk => ?_
    rw [cell_range _ _ hk]
  · exact slice_correct nr junk x S data hx hr hrt hsep hin

theorem get_correct (nr : List ℚ → ℚ) (junk : List ℕ → α) (x : Var α) (data : List ℕ → α) (hx : Contains x data)
    (hr : Regular x.axes) (hpos : ∀ a ∈ x.axes, 0 < a.len) :
    ∃ r, get nr junk x = some r ∧ r.shape = x.axes.map Axis.len ∧ ∀ k, InBounds (x.axes.map Axis.len) k → r.get k = data k := by
  obtain ⟨r, h1, h2, h3⟩ := read_own nr junk x data hx hr ((x.axes.map Axis.len).map List.range) (by
      rw [InRange, List.forall₂_map_left_iff]
      exact List.forall₂_same.2 fun n _ i hi => by simpa using hi) (by
      intro ind hind
      simp only [List.mem_map] at hind
      obtain ⟨_, ⟨a, ha, rfl⟩, rfl⟩ := hind
      have := hpos a ha
      simp; omega)
  have hl : ((x.axes.map Axis.len).map List.range).map List.length = x.axes.map Axis.len := by simp [Function.comp_def]
  rw [hl] at h2 h3
  refine ⟨r, ?_, h2, fun k hk => ?_⟩
  · rw [← h1]
    unfold get Var.whole
    rw [List.map_map]
    rfl
  · rw [h3 k hk, cell_range _ _ hk]

/-- C99: `var[…]` is what numpy gives for the array of the variable, every axis being indexed by itself: integers (also negative)
take one position and remove the axis, slices follow Python, lists pick positions in their order, and `...`, or the end, stands for
whole axes. -/
theorem getItem_correct_partial (nr : List ℚ → ℚ) (junk : List ℕ → α) (x : Var α) (data : List ℕ → α) (key : Key) (full : List Ind)
    (S : List (List ℕ)) (hx : Contains x data) (hr : Regular x.axes) (hrt : ∀ a ∈ x.axes, 0 ≤ a.rtol)
    (hsep : ∀ a ∈ x.axes, Separated a.values) (hw : Writes x.axes.length key full)
    (hS : List.Forall₂ (fun (p : Axis × Ind) l => Selected p.1.len p.2 l) (x.axes.zip full) S) (hne : ∀ l ∈ S, l ≠ []) :
    ∃ r, getItem nr junk x key = some r ∧ IsIndexed data full S r := by
  obtain ⟨y, h1, h2, h3, h4⟩ := asVar_correct nr junk x data key full S hx hr hrt hsep hw hS
  have hfl : full.length = S.length := by
    have e := hS.length_eq
    have := (ellipsis_full hw).2
    simp [this] at e
    omega
  obtain ⟨r, r1, r2, r3⟩ := get_correct nr junk y _ h2 h3 (by
    intro a ha
    have hm : a.len ∈ S.map List.length := by rw [← h4]; exact List.mem_map_of_mem ha
    obtain ⟨l, hl, e⟩ := List.mem_map.1 hm
    have := hne l hl
    rw [← e]
    exact List.length_pos_iff.2 this)
  rw [h4] at r2 r3
  have hread : IsRead data S r := ⟨r2, r3⟩
  unfold getItem
  rw [h1, Option.bind_some, r1, Option.map_some]
  refine ⟨_, rfl, ?_⟩
  cases hw with
  | dots before after h =>
    simp only
    rw [flags_dots]
    exact dropInts_indexed data _ S r hfl hne hread
  | plain before h =>
    simp only
    rw [flags_plain]
    exact dropInts_indexed data _ S r hfl hne hread
  | one i hi h =>
    have hrest : ∀ j ∈ List.replicate (x.axes.length - 1) colon, isInteger j = false := by
      intro j hj
      rw [List.eq_of_mem_replicate hj]
      rfl
    cases i with
    | int i =>
      simp only
      have := flags_plain x.axes.length [.int i]
      simp only [List.map_cons, List.map_nil, List.length_singleton, List.singleton_append] at this
      rw [this]
      exact dropInts_indexed data _ S r hfl hne hread
    | list l => exact absurd rfl (hi l)
    | slice s =>
      refine read_indexed data _ S r hfl ?_ hread
      intro j hj
      rcases List.mem_cons.1 hj with rfl | hj
      · rfl
      · exact hrest j hj
  | oneDots =>
    refine read_indexed data _ S r hfl ?_ hread
    intro j hj
    rw [List.eq_of_mem_replicate hj]
    rfl

theorem mapM_none_iff {β γ : Type} (f : β → Option γ) (l : List β) : l.mapM f = none ↔ ∃ b ∈ l, f b = none := by
  induction l with
  | nil => simp
  | cons b l ih =>
    rw [List.mapM_cons]
    cases hb : f b with
    | none => simp [hb]
    | some c =>
      cases hl : l.mapM f with
      | none =>
        obtain ⟨b', hb', h'⟩ := ih.1 hl
        simp only [Option.bind_eq_bind, Option.bind_some, Option.bind_none, true_iff]
        exact ⟨b', by simp [hb'], h'⟩
      | some m =>
        simp only [Option.bind_eq_bind, Option.bind_some, Option.pure_def, reduceCtorEq, false_iff]
        rintro ⟨b', hb', h'⟩
        rcases List.mem_cons.1 hb' with rfl | hb'
        · rw [hb] at h'; cases h'
        · rw [ih.2 ⟨b', hb', h'⟩] at hl; cases hl

/-- C99: an index that does not exist, or a step of 0, raises. -/
theorem getItem_refused (nr : List ℚ → ℚ) (junk : List ℕ → α) (x : Var α) (key : Key) (full : List Ind)
    (hw : Writes x.axes.length key full) (j : ℕ) (a : Axis) (i : Ind) (ha : x.axes[j]? = some a) (hi : full[j]? = some i)
    (hbad : ¬ ∃ l, Selected a.len i l) : asVar nr junk x key.items = none ∧ getItem nr junk x key = none := by
  have h : asVar nr junk x key.items = none := by
    unfold asVar
    rw [(ellipsis_full hw).1, Option.bind_some]
    rw [(mapM_none_iff _ _).2 ⟨(a, i), ?_, ?_⟩]
    · rfl
    · exact List.mem_of_getElem? (i := j) (by rw [List.getElem?_zip_eq_some]; exact ⟨ha, hi⟩)
    · cases hn : npTake a.len i with
      | none => rfl
      | some l => exact absurd ⟨l, (npTake_iff _ _ _).1 hn⟩ hbad
  refine ⟨h, ?_⟩
  unfold getItem
  rw [h]
  rfl

/-- C99: so do more indices than axes. -/
theorem getItem_toomany (nr : List ℚ → ℚ) (junk : List ℕ → α) (x : Var α) (before after : List Ind)
    (h : x.axes.length < before.length + after.length) :
    getItem nr junk x (.tuple (before.map .ind ++ .dots :: after.map .ind)) = none := by
  have := ellipsisSlices_refused x.axes.length before after h
  unfold getItem asVar
  rw [← show (before.map some ++ [none] ++ after.map some : List (Option Ind)) =
      ((Key.tuple (before.map .ind ++ .dots :: after.map .ind)).items.map Item.asInd) by
        simp [Key.items, Item.asInd, Function.comp_def]]
  rw [this]
  rfl

/-- C99: a loaded variable holds the same values on the same axes, in memory. -/
theorem load_correct (nr : List ℚ → ℚ) (junk : List ℕ → α) (x : Var α) (data : List ℕ → α) (hx : Contains x data)
    (hr : Regular x.axes) (hpos : ∀ a ∈ x.axes, 0 < a.len) :
    ∃ y, load nr junk x = some y ∧ y.axes = x.axes ∧ Contains y data ∧ ∃ v, y.src = .values v := by
  obtain ⟨r, h1, h2, h3⟩ := get_correct nr junk x data hx hr hpos
  unfold load
  cases hs : x.src with
  | values v => exact ⟨x, by simp, rfl, hx, v, hs⟩
  | getview f => simp only; rw [h1]; exact ⟨_, rfl, rfl, ⟨h2, h3⟩, r, rfl⟩
  | getvalues m f => simp only; rw [h1]; exact ⟨_, rfl, rfl, ⟨h2, h3⟩, r, rfl⟩

/-! ### where it differs from numpy -/

/-- what `var[key]` shows, as a list, for a variable on one axis -/
def shown (r : Option (NArr ℕ)) : Option (List ℕ × List ℕ) :=
  r.map fun a => (a.shape, (product (a.shape.map List.range)).map a.get)

def lineEx (vals : List ℚ) : Var ℕ :=
  { axes := [mkEx vals], src := .values { shape := [vals.length], get := fun k => 10 + k.getD 0 0 } }

/-- C99, violated: an integer taken from an array does not remove its axis, whereas an `int` does, as both do in numpy. -/
theorem npInt_violated :
    shown (getItem (fun _ => 0) (fun _ => 0) (lineEx [30, 10, 20]) (.tuple [.ind (.int 1)])) = some ([], [11]) ∧
    shown (getItem (fun _ => 0) (fun _ => 0) (lineEx [30, 10, 20]) (.tuple [.npInt 1])) = some ([1], [11]) := by
  constructor <;> decide +kernel

/-- C99, violated: a list in the brackets is taken for one index per axis, not for positions along the first axis: `x[[1, 2]]` raises
for a variable with one axis. -/
theorem list_violated : getItem (fun _ => 0) (fun _ => 0) (lineEx [30, 10, 20]) (.list [1, 2]) = none ∧
    shown (getItem (fun _ => 0) (fun _ => 0) varEx (.list [1, 0])) =
      shown (getItem (fun _ => 0) (fun _ => 0) varEx (.tuple [.npInt 1, .npInt 0])) := by
  constructor
  · rw [← Option.not_isSome_iff_eq_none]
    decide +kernel
  · decide +kernel

/-- C99, violated: where an axis has the same value twice, data of one position are shown for the other. -/
theorem duplicate_violated :
    shown (getItem (fun _ => 0) (fun _ => 0) (lineEx [30, 10, 10]) (.tuple [.ind (.int 1)])) = some ([], [12]) ∧
    shown (getItem (fun _ => 0) (fun _ => 0) (lineEx [30, 10, 10]) (.tuple [.ind (.int 2)])) = some ([], [12]) := by
  constructor <;> decide +kernel

/-- `x[-1, ..., 3:0:-2]` of a variable with three axes -/
example : ∃ r, getItem (fun _ => 0) (fun _ => 0) varEx (.tuple [.ind (.int (-1)), .dots, .ind (.slice ⟨some 3, some 0, some (-2)⟩)]) = some r ∧
    IsIndexed (fun k => 100 * k.getD 0 0 + 10 * k.getD 1 0 + k.getD 2 0) [.int (-1), colon, .slice ⟨some 3, some 0, some (-2)⟩]
      [[2], [0], [3, 1]] r := by
  refine getItem_correct_partial _ _ varEx _ _ _ _ varEx_contains varEx_regular (by decide +kernel) (by
      intro a ha
      simp only [varEx, List.mem_cons, List.not_mem_nil, or_false] at ha
      rcases ha with rfl | rfl | rfl <;> exact separated_of (by decide +kernel))
    (Writes.dots [.int (-1)] [.slice ⟨some 3, some 0, some (-2)⟩] (by decide)) ?_ (by decide)
  refine .cons ⟨2, ?_, rfl⟩ (.cons ⟨by decide, by decide +kernel⟩ (.cons ⟨by decide, by decide +kernel⟩ .nil))
  unfold IsPos
  decide +kernel

end GetItem
end PyGeode
