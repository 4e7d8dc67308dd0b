/-
C17, C18 — partial sums along an axis: every value is added to its own bin and to no other cell.
-/
import Verif.Model.PartialSum
import Verif.Lemmas.NArr
import Verif.Lemmas.View
import Mathlib.Algebra.BigOperators.Group.List.Basic
import Mathlib.Algebra.Order.Field.Rat
import Mathlib.Tactic.Ring

namespace PyGeode
namespace PartialSum
open NArr
variable {α : Type} [AddCommMonoid α]

/-- adding a list of values at their places -/
theorem fold_addAt {T : Type} (l : List T) (pos : T → ℕ) (v : T → α) (buf : ℕ → α) (j : ℕ) :
    l.foldl (fun b t => addAt b (pos t) (v t)) buf j =
      buf j + ((l.filter fun t => decide (pos t = j)).map v).sum := by
  induction l generalizing buf with
  | nil => simp
  | cons t l ih =>
    rw [List.foldl_cons, ih, List.filter_cons]
    by_cases h : pos t = j
    · simp [addAt, h, add_assoc]
    · simp [addAt, h, Ne.symm h]

/-- the triples visited by the loops, in order -/
def triples (nx nin ny : ℕ) : List (ℕ × ℕ × ℕ) :=
  (List.range nx).flatMap fun x => (List.range nin).flatMap fun i => (List.range ny).map fun y => (x, i, y)

theorem loops_eq {S : Type} (nx nin ny : ℕ) (step : S → ℕ × ℕ × ℕ → S) (st : S) :
    (List.range nx).foldl (fun st x => (List.range nin).foldl (fun st i =>
      (List.range ny).foldl (fun st y => step st (x, i, y)) st) st) st = (triples nx nin ny).foldl step st := by
  simp only [triples, List.foldl_flatMap, List.foldl_map]

theorem partialSumC_eq (nx nin nout ny : ℕ) (inp out : ℕ → α) (count outmap : ℕ → ℕ) :
    partialSumC nx nin nout ny inp out count outmap =
      ((triples nx nin ny).foldl (fun b t => addAt b (t.1 * nout * ny + outmap t.2.1 * ny + t.2.2)
          (inp (t.1 * nin * ny + t.2.1 * ny + t.2.2))) out,
        (triples nx nin ny).foldl (fun b t => addAt b (t.1 * nout * ny + outmap t.2.1 * ny + t.2.2) 1) count) := by
  unfold partialSumC
  rw [loops_eq nx nin ny (fun (st : (ℕ → α) × (ℕ → ℕ)) t =>
    (addAt st.1 (t.1 * nout * ny + outmap t.2.1 * ny + t.2.2) (inp (t.1 * nin * ny + t.2.1 * ny + t.2.2)),
     addAt st.2 (t.1 * nout * ny + outmap t.2.1 * ny + t.2.2) 1))]
  generalize triples nx nin ny = l
  induction l generalizing out count with
  | nil => rfl
  | cons t l ih => simp only [List.foldl_cons, ih]

theorem partialNanSumC_eq (nx nin nout ny : ℕ) (inp : ℕ → Option α) (out : ℕ → α) (count outmap : ℕ → ℕ) :
    partialNanSumC nx nin nout ny inp out count outmap =
      ((triples nx nin ny).foldl (fun b t => addAt b (t.1 * nout * ny + outmap t.2.1 * ny + t.2.2)
          ((inp (t.1 * nin * ny + t.2.1 * ny + t.2.2)).getD 0)) out,
        (triples nx nin ny).foldl (fun b t => addAt b (t.1 * nout * ny + outmap t.2.1 * ny + t.2.2)
          (if (inp (t.1 * nin * ny + t.2.1 * ny + t.2.2)).isSome then 1 else 0)) count) := by
  unfold partialNanSumC
  refine (loops_eq nx nin ny (fun (st : (ℕ → α) × (ℕ → ℕ)) t =>
    match inp (t.1 * nin * ny + t.2.1 * ny + t.2.2) with
    | none => st
    | some v => (addAt st.1 (t.1 * nout * ny + outmap t.2.1 * ny + t.2.2) v,
        addAt st.2 (t.1 * nout * ny + outmap t.2.1 * ny + t.2.2) 1)) (out, count)).trans ?_
  have h0 : ∀ {β : Type} [AddCommMonoid β] (b : ℕ → β) (j : ℕ), addAt b j 0 = b := by
    intro β _ b j
    funext i
    simp [addAt]
  generalize triples nx nin ny = l
  induction l generalizing out count with
  | nil => rfl
  | cons t l ih =>
    simp only [List.foldl_cons]
    cases h : inp (t.1 * nin * ny + t.2.1 * ny + t.2.2) with
    | none => simp only [ih, Option.getD_none, Option.isSome_none, Bool.false_eq_true, if_false, h0]
    | some v => simp only [ih, Option.getD_some, Option.isSome_some, if_true]

theorem flat_inj {x x' o o' y y' nout ny : ℕ} (ho : o < nout) (ho' : o' < nout) (hy : y < ny) (hy' : y' < ny)
    (h : x * nout * ny + o * ny + y = x' * nout * ny + o' * ny + y') : x = x' ∧ o = o' ∧ y = y' := by
  have e1 : x * nout * ny + o * ny + y = (x * nout + o) * ny + y := by ring
  have e2 : x' * nout * ny + o' * ny + y' = (x' * nout + o') * ny + y' := by ring
  rw [e1, e2] at h
  have hny : 0 < ny := by omega
  have hno : 0 < nout := by omega
  have h1 : y = y' := by
    have := congrArg (· % ny) h
    simpa [Nat.mul_add_mod', Nat.mod_eq_of_lt hy, Nat.mod_eq_of_lt hy'] using this
  have h2 : x * nout + o = x' * nout + o' := by
    have : ((x * nout + o) * ny + y) / ny = ((x' * nout + o') * ny + y') / ny := congrArg (· / ny) h
    rw [Nat.mul_comm _ ny, Nat.mul_add_div hny, Nat.mul_comm _ ny, Nat.mul_add_div hny,
      Nat.div_eq_of_lt hy, Nat.div_eq_of_lt hy'] at this
    simpa using this
  have h3 : o = o' := by
    have := congrArg (· % nout) h2
    simpa [Nat.mul_add_mod', Nat.mod_eq_of_lt ho, Nat.mod_eq_of_lt ho'] using this
  have h4 : x = x' := by
    have : (x * nout + o) / nout = (x' * nout + o') / nout := congrArg (· / nout) h2
    rw [Nat.mul_comm _ nout, Nat.mul_add_div hno, Nat.mul_comm _ nout, Nat.mul_add_div hno,
      Nat.div_eq_of_lt ho, Nat.div_eq_of_lt ho'] at this
    simpa using this
  exact ⟨h4, h3, h1⟩

theorem sum_filter_eq {β : Type} [DecidableEq β] (l : List β) (hl : l.Nodup) (b : β) (hb : b ∈ l) (f : β → α) :
    ((l.map fun x => if x = b then f x else 0)).sum = f b := by
  induction l with
  | nil => simp at hb
  | cons a l ih =>
    have h := List.nodup_cons.1 hl
    rw [List.map_cons, List.sum_cons]
    rcases List.mem_cons.1 hb with rfl | hb
    · have : (l.map fun x => if x = b then f x else 0) = l.map fun _ => 0 :=
        List.map_congr_left fun x hx => if_neg (by rintro rfl; exact h.1 hx)
      rw [this]
      simp
    · rw [if_neg (by rintro rfl; exact h.1 hb), ih h.2 hb, zero_add]

theorem sum_flatMap {β γ : Type} (l : List β) (g : β → List γ) (v : γ → α) :
    ((l.flatMap g).map v).sum = (l.map fun b => ((g b).map v).sum).sum := by
  induction l with
  | nil => rfl
  | cons b l ih => simp [ih]

theorem sum_filter_ite {β : Type} (l : List β) (p : β → Bool) (f : β → α) :
    ((l.filter p).map f).sum = (l.map fun x => if p x then f x else 0).sum := by
  induction l with
  | nil => rfl
  | cons a l ih =>
    rw [List.filter_cons, List.map_cons, List.sum_cons, ← ih]
    cases h : p a <;> simp

/-- the triples that land on a given flat position of the output -/
theorem triples_sum (nx nin nout ny : ℕ) (outmap : ℕ → ℕ) (hmap : ∀ i < nin, outmap i < nout) {x o y : ℕ}
    (hx : x < nx) (ho : o < nout) (hy : y < ny) (v : ℕ × ℕ × ℕ → α) :
    (((triples nx nin ny).filter fun t =>
        decide (t.1 * nout * ny + outmap t.2.1 * ny + t.2.2 = x * nout * ny + o * ny + y)).map v).sum =
      (((List.range nin).filter fun i => decide (outmap i = o)).map fun i => v (x, i, y)).sum := by
  have e : (triples nx nin ny).filter (fun t =>
        decide (t.1 * nout * ny + outmap t.2.1 * ny + t.2.2 = x * nout * ny + o * ny + y)) =
      (triples nx nin ny).filter fun t => decide (t.1 = x) && (decide (outmap t.2.1 = o) && decide (t.2.2 = y)) := by
    refine List.filter_congr fun t ht => ?_
    obtain ⟨a, i, b⟩ := t
    simp only [triples, List.mem_flatMap, List.mem_map, List.mem_range, Prod.mk.injEq] at ht
    obtain ⟨_, _, _, hi, _, hb, rfl, rfl, rfl⟩ := ht
    rw [Bool.eq_iff_iff]
    simp only [decide_eq_true_eq, Bool.and_eq_true]
    constructor
    · intro h; exact flat_inj (hmap _ hi) ho hb hy h
    · rintro ⟨rfl, rfl, rfl⟩; rfl
  rw [e, sum_filter_ite]
  unfold triples
  rw [sum_flatMap]
  simp only [sum_flatMap, List.map_map, Function.comp_def]
  have e2 : ∀ a : ℕ, ((List.range nin).map fun i => ((List.range ny).map fun b =>
      if (decide (a = x) && (decide (outmap i = o) && decide (b = y))) = true then v (a, i, b) else 0).sum).sum =
      if a = x then (((List.range nin).filter fun i => decide (outmap i = o)).map fun i => v (a, i, y)).sum else 0 := by
    intro a
    by_cases ha : a = x
    · rw [if_pos ha, sum_filter_ite]
      congr 1
      refine List.map_congr_left fun i _ => ?_
      by_cases hi : outmap i = o
      · simp only [ha, hi, decide_true, Bool.true_and, decide_eq_true_eq, if_true]
        exact sum_filter_eq (List.range ny) List.nodup_range y (by simpa using hy) (fun b => v (x, i, b))
      · simp [hi]
    · simp [ha]
  simp only [e2]
  exact sum_filter_eq (List.range nx) List.nodup_range x (by simpa using hx)
    (fun a => (((List.range nin).filter fun i => decide (outmap i = o)).map fun i => v (a, i, y)).sum)

/-- C17: the C routine on flat buffers. Each output cell gains the sum of exactly the input values whose bin
it is, and the count gains their number; nothing else is written. -/
theorem partialSumC_correct (nx nin nout ny : ℕ) (inp out : ℕ → α) (count outmap : ℕ → ℕ)
    (hmap : ∀ i < nin, outmap i < nout) {x o y : ℕ} (hx : x < nx) (ho : o < nout) (hy : y < ny) :
    (partialSumC nx nin nout ny inp out count outmap).1 (x * nout * ny + o * ny + y) =
      out (x * nout * ny + o * ny + y) +
        (((List.range nin).filter fun i => decide (outmap i = o)).map fun i => inp (x * nin * ny + i * ny + y)).sum ∧
    (partialSumC nx nin nout ny inp out count outmap).2 (x * nout * ny + o * ny + y) =
      count (x * nout * ny + o * ny + y) + ((List.range nin).filter fun i => decide (outmap i = o)).length := by
  rw [partialSumC_eq]
  refine ⟨?_, ?_⟩
  · simp only
    rw [fold_addAt, triples_sum nx nin nout ny outmap hmap hx ho hy]
  · simp only
    rw [fold_addAt, triples_sum nx nin nout ny outmap hmap hx ho hy]
    simp

/-- the flat positions written lie inside the output buffer, so that no memory outside it is touched -/
theorem partialSumC_frame (nx nin nout ny : ℕ) (inp out : ℕ → α) (count outmap : ℕ → ℕ)
    (hmap : ∀ i < nin, outmap i < nout) (j : ℕ) (hj : nx * nout * ny ≤ j) :
    (partialSumC nx nin nout ny inp out count outmap).1 j = out j ∧
    (partialSumC nx nin nout ny inp out count outmap).2 j = count j := by
  have e : (triples nx nin ny).filter (fun t =>
        decide (t.1 * nout * ny + outmap t.2.1 * ny + t.2.2 = j)) = [] := by
    rw [List.filter_eq_nil_iff]
    intro t ht
    obtain ⟨a, i, b⟩ := t
    simp only [triples, List.mem_flatMap, List.mem_map, List.mem_range, Prod.mk.injEq] at ht
    obtain ⟨_, ha, _, hi, _, hb, rfl, rfl, rfl⟩ := ht
    simp only [decide_eq_true_eq]
    have h1 := hmap _ hi
    have h2 : (outmap _ + 1) * ny ≤ nout * ny := Nat.mul_le_mul_right ny h1
    rename_i a' i' _
    have h3 : (a' + 1) * (nout * ny) ≤ nx * (nout * ny) := Nat.mul_le_mul_right _ ha
    have e1 : a' * nout * ny = a' * (nout * ny) := by ring
    have e2 : nx * nout * ny = nx * (nout * ny) := by ring
    have e3 : (a' + 1) * (nout * ny) = a' * (nout * ny) + nout * ny := by ring
    have e4 : (outmap i' + 1) * ny = outmap i' * ny + ny := by ring
    omega
  rw [partialSumC_eq]
  simp only [fold_addAt, e, List.map_nil, List.sum_nil, add_zero, and_self]

/-- C18: the NaN-aware C routine. -/
theorem partialNanSumC_correct (nx nin nout ny : ℕ) (inp : ℕ → Option α) (out : ℕ → α) (count outmap : ℕ → ℕ)
    (hmap : ∀ i < nin, outmap i < nout) {x o y : ℕ} (hx : x < nx) (ho : o < nout) (hy : y < ny) :
    let vals := ((List.range nin).filter fun i => decide (outmap i = o)).filterMap
      fun i => inp (x * nin * ny + i * ny + y)
    (partialNanSumC nx nin nout ny inp out count outmap).1 (x * nout * ny + o * ny + y) =
      out (x * nout * ny + o * ny + y) + vals.sum ∧
    (partialNanSumC nx nin nout ny inp out count outmap).2 (x * nout * ny + o * ny + y) =
      count (x * nout * ny + o * ny + y) + vals.length := by
  intro vals
  have s1 : ∀ (l : List ℕ) (f : ℕ → Option α), (l.map fun i => (f i).getD 0).sum = (l.filterMap f).sum := by
    intro l f
    induction l with
    | nil => rfl
    | cons a l ih => cases h : f a <;> simp [h, ih]
  have s2 : ∀ (l : List ℕ) (f : ℕ → Option α), (l.map fun i => if (f i).isSome then 1 else 0).sum = (l.filterMap f).length := by
    intro l f
    induction l with
    | nil => rfl
    | cons a l ih => cases h : f a <;> simp [h, ih, Nat.add_comm]
  rw [partialNanSumC_eq]
  refine ⟨?_, ?_⟩
  · simp only
    rw [fold_addAt, triples_sum nx nin nout ny outmap hmap hx ho hy, s1]
  · simp only
    rw [fold_addAt, triples_sum nx nin nout ny outmap hmap hx ho hy, s2 _ (fun i => inp (x * nin * ny + i * ny + y))]

/-! ### On arrays -/

theorem ravel_append : ∀ (p q kp kq : List ℕ), p.length = kp.length →
    ravel (p ++ q) (kp ++ kq) = ravel p kp * q.prod + ravel q kq
  | [], q, [], kq, _ => by simp [ravel]
  | n :: p, q, i :: kp, kq, h => by
    simp only [List.cons_append, ravel]
    rw [ravel_append p q kp kq (by simpa using h), List.prod_append]
    ring

/-- splitting a multi-index at an axis -/
theorem split_index {s k : List ℕ} (hk : InBounds s k) {i : ℕ} (hi : i < s.length) :
    ∃ kp kq, k = kp ++ k.getD i 0 :: kq ∧ s = s.take i ++ s.getD i 0 :: s.drop (i + 1) ∧
      kp.length = i ∧ (s.take i).length = i ∧ InBounds (s.take i) kp ∧ InBounds (s.drop (i + 1)) kq := by
  have hl := InBounds.length hk
  have hsp : s = s.take i ++ s.getD i 0 :: s.drop (i + 1) := by
    rw [List.getD_eq_getElem _ _ hi, List.getElem_cons_drop, List.take_append_drop]
  have hkp : k = k.take i ++ k.getD i 0 :: k.drop (i + 1) := by
    rw [List.getD_eq_getElem _ _ (by omega), List.getElem_cons_drop, List.take_append_drop]
  refine ⟨k.take i, k.drop (i + 1), hkp, hsp, by simp; omega, by simp; omega, ?_, ?_⟩
  · exact List.forall₂_take i hk
  · exact List.forall₂_drop (i + 1) hk

theorem set_split {γ : Type} (kp kq : List γ) (x z : γ) {i : ℕ} (hi : kp.length = i) :
    (kp ++ x :: kq).set i z = kp ++ z :: kq := by
  subst hi
  simp

theorem getD_split {γ : Type} (kp kq : List γ) (x d : γ) {i : ℕ} (hi : kp.length = i) :
    (kp ++ x :: kq).getD i d = x := by
  subst hi
  simp

theorem flat_split {s : List ℕ} {i : ℕ} {kp kq : List ℕ} (hp : kp.length = (s.take i).length) (n j : ℕ) :
    ravel (s.take i ++ n :: s.drop (i + 1)) (kp ++ j :: kq) =
      ravel (s.take i) kp * n * (s.drop (i + 1)).prod + j * (s.drop (i + 1)).prod + ravel (s.drop (i + 1)) kq := by
  rw [ravel_append _ _ _ _ hp.symm]
  simp only [ravel, List.prod_cons]
  ring

theorem inBounds_split {s : List ℕ} {i n j : ℕ} {kp kq : List ℕ} (h1 : InBounds (s.take i) kp) (hj : j < n)
    (h2 : InBounds (s.drop (i + 1)) kq) : InBounds (s.take i ++ n :: s.drop (i + 1)) (kp ++ j :: kq) :=
  List.rel_append h1 (List.Forall₂.cons hj h2)

/-- C17: on arrays of any number of dimensions, for any axis: each cell of the result is the sum of the input
values whose bin it is, and the count is their number. -/
theorem partialSum_correct (arr : NArr α) {iaxis nout : ℕ} {outmap : List ℕ} (hi : iaxis < arr.shape.length)
    (hlen : outmap.length = arr.shape.getD iaxis 0) (hmap : ∀ o ∈ outmap, o < nout) {k : List ℕ}
    (hk : InBounds (arr.shape.set iaxis nout) k) :
    let bin := (List.range outmap.length).filter fun i => decide (outmap.getD i 0 = k.getD iaxis 0)
    (partialSum arr iaxis nout outmap).1.get k = (bin.map fun i : ℕ => arr.get (k.set iaxis i)).sum ∧
    (partialSum arr iaxis nout outmap).2.get k = bin.length := by
  intro bin
  obtain ⟨kp, kq, hkk, hs, hkpl, htl, hb1, hb2⟩ := split_index hk (i := iaxis) (by simpa using hi)
  have hn : (arr.shape.set iaxis nout).getD iaxis 0 = nout := by
    rw [List.getD_eq_getElem _ _ (by simpa using hi)]; simp
  have ht : (arr.shape.set iaxis nout).take iaxis = arr.shape.take iaxis := by
    rw [List.take_set_of_le (le_refl _)]
  have hd : (arr.shape.set iaxis nout).drop (iaxis + 1) = arr.shape.drop (iaxis + 1) := by
    rw [List.drop_set, if_pos (by omega)]
  have ho : k.getD iaxis 0 < nout := by
    have := InBounds.lt hk (i := iaxis) (by simpa using hi)
    rwa [hn] at this
  rw [ht] at hb1 htl
  rw [hd] at hb2
  rw [hn, ht, hd] at hs
  set o := k.getD iaxis 0 with hodef
  have hflat := flat_split (s := arr.shape) (i := iaxis) (kp := kp) (kq := kq) (by omega) nout o
  have hmap' : ∀ i < arr.shape.getD iaxis 0, outmap.getD i 0 < nout := by
    intro i hi'
    exact hmap _ (getD_mem (by omega))
  obtain ⟨c1, c2⟩ := partialSumC_correct (arr.shape.take iaxis).prod (arr.shape.getD iaxis 0) nout
    (arr.shape.drop (iaxis + 1)).prod (fun j => arr.get (NArr.unravel arr.shape j)) (fun _ => 0) (fun _ => 0)
    (fun i => outmap.getD i 0) hmap' (ravel_lt hb1) ho (ravel_lt hb2)
  unfold partialSum
  simp only
  rw [hs, hkk, hflat, c1, c2, zero_add, zero_add, ← hlen]
  refine ⟨?_, rfl⟩
  change (bin.map _).sum = _
  congr 1
  refine List.map_congr_left fun i hib => ?_
  have hil : i < arr.shape.getD iaxis 0 := by
    have := (List.mem_filter.1 hib).1
    rw [List.mem_range] at this
    omega
  rw [set_split kp kq o i hkpl]
  have hsrc : arr.shape = arr.shape.take iaxis ++ arr.shape.getD iaxis 0 :: arr.shape.drop (iaxis + 1) := by
    rw [List.getD_eq_getElem _ _ hi, List.getElem_cons_drop, List.take_append_drop]
  have hfl2 := flat_split (s := arr.shape) (i := iaxis) (kp := kp) (kq := kq) (by omega) (arr.shape.getD iaxis 0) i
  rw [← hsrc] at hfl2
  rw [hlen, ← hfl2]
  congr 1
  refine unravel_ravel ?_
  have := inBounds_split (s := arr.shape) (i := iaxis) hb1 hil hb2
  rwa [← hsrc] at this

/-- C18: the NaN-aware version on arrays: only the values that are numbers are added and counted. -/
theorem partialNanSum_correct (arr : NArr (Option α)) {iaxis nout : ℕ} {outmap : List ℕ} (hi : iaxis < arr.shape.length)
    (hlen : outmap.length = arr.shape.getD iaxis 0) (hmap : ∀ o ∈ outmap, o < nout) {k : List ℕ}
    (hk : InBounds (arr.shape.set iaxis nout) k) :
    let bin := (List.range outmap.length).filter fun i => decide (outmap.getD i 0 = k.getD iaxis 0)
    let vals := bin.filterMap fun i : ℕ => arr.get (k.set iaxis i)
    (partialNanSum arr iaxis nout outmap).1.get k = vals.sum ∧
    (partialNanSum arr iaxis nout outmap).2.get k = vals.length := by
  intro bin vals
  obtain ⟨kp, kq, hkk, hs, hkpl, htl, hb1, hb2⟩ := split_index hk (i := iaxis) (by simpa using hi)
  have hn : (arr.shape.set iaxis nout).getD iaxis 0 = nout := by
    rw [List.getD_eq_getElem _ _ (by simpa using hi)]; simp
  have ht : (arr.shape.set iaxis nout).take iaxis = arr.shape.take iaxis := by
    rw [List.take_set_of_le (le_refl _)]
  have hd : (arr.shape.set iaxis nout).drop (iaxis + 1) = arr.shape.drop (iaxis + 1) := by
    rw [List.drop_set, if_pos (by omega)]
  have ho : k.getD iaxis 0 < nout := by
    have := InBounds.lt hk (i := iaxis) (by simpa using hi)
    rwa [hn] at this
  rw [ht] at hb1 htl
  rw [hd] at hb2
  rw [hn, ht, hd] at hs
  have hvals : vals = bin.filterMap fun i : ℕ => arr.get (k.set iaxis i) := rfl
  set o := k.getD iaxis 0 with hodef
  have hflat := flat_split (s := arr.shape) (i := iaxis) (kp := kp) (kq := kq) (by omega) nout o
  have hmap' : ∀ i < arr.shape.getD iaxis 0, outmap.getD i 0 < nout := by
    intro i hi'
    exact hmap _ (getD_mem (by omega))
  obtain ⟨c1, c2⟩ := partialNanSumC_correct (arr.shape.take iaxis).prod (arr.shape.getD iaxis 0) nout
    (arr.shape.drop (iaxis + 1)).prod (fun j => arr.get (NArr.unravel arr.shape j)) (fun _ => (0 : α)) (fun _ => 0)
    (fun i => outmap.getD i 0) hmap' (ravel_lt hb1) ho (ravel_lt hb2)
  have hsrc : arr.shape = arr.shape.take iaxis ++ arr.shape.getD iaxis 0 :: arr.shape.drop (iaxis + 1) := by
    rw [List.getD_eq_getElem _ _ hi, List.getElem_cons_drop, List.take_append_drop]
  have e : vals = ((List.range (arr.shape.getD iaxis 0)).filter fun i => decide (outmap.getD i 0 = o)).filterMap
      fun i => arr.get (NArr.unravel arr.shape (ravel (arr.shape.take iaxis) kp * arr.shape.getD iaxis 0 *
        (arr.shape.drop (iaxis + 1)).prod + i * (arr.shape.drop (iaxis + 1)).prod + ravel (arr.shape.drop (iaxis + 1)) kq)) := by
    rw [hvals, ← hlen]
    change bin.filterMap _ = bin.filterMap _
    refine List.filterMap_congr fun i hib => ?_
    have hil : i < arr.shape.getD iaxis 0 := by
      have := (List.mem_filter.1 hib).1
      rw [List.mem_range] at this
      omega
    rw [hkk, set_split kp kq o i hkpl]
    have hfl2 := flat_split (s := arr.shape) (i := iaxis) (kp := kp) (kq := kq) (by omega) (arr.shape.getD iaxis 0) i
    rw [← hsrc] at hfl2
    rw [hlen, ← hfl2]
    congr 1
    refine (unravel_ravel ?_).symm
    have := inBounds_split (s := arr.shape) (i := iaxis) hb1 hil hb2
    rwa [← hsrc] at this
  unfold partialNanSum
  simp only
  rw [hs, hkk, hflat, c1, c2, zero_add, zero_add, e]
  exact ⟨rfl, rfl⟩

/-- two bins over the middle axis of a 2x3x2 array -/
example : (partialSum (α := ℚ) { shape := [2, 3, 2], get := fun k => 100 * k.getD 0 0 + 10 * k.getD 1 0 + k.getD 2 0 }
      1 2 [1, 0, 1]).1.get [1, 1, 1] = 101 + 121 ∧
    (partialSum (α := ℚ) { shape := [2, 3, 2], get := fun k => 100 * k.getD 0 0 + 10 * k.getD 1 0 + k.getD 2 0 }
      1 2 [1, 0, 1]).2.get [1, 1, 1] = 2 := by decide +kernel

end PartialSum
end PyGeode
