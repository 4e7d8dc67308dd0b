/- Helper lemmas on n-dimensional arrays and cartesian products. -/
import Verif.Model.NArr
import Mathlib.Data.List.Perm.Basic
import Mathlib.Data.List.Forall2
import Mathlib.Algebra.BigOperators.Group.List.Basic
import Mathlib.Algebra.Order.BigOperators.Group.List
import Mathlib.Tactic.Ring
import Mathlib.Tactic.Linarith
import Mathlib.Tactic.Positivity

namespace PyGeode
open NArr

open scoped List
variable {α β : Type}

theorem inBounds_iff {s k : List ℕ} :
    InBounds s k ↔ k.length = s.length ∧ ∀ i, i < s.length → k.getD i 0 < s.getD i 0 := by
  unfold InBounds
  rw [List.forall₂_iff_get]
  constructor
  · rintro ⟨h1, h2⟩
    refine ⟨h1, fun i hi => ?_⟩
    rw [List.getD_eq_getElem _ _ (by omega), List.getD_eq_getElem _ _ hi]
    exact h2 i (by omega) hi
  · rintro ⟨h1, h2⟩
    refine ⟨h1, fun i hi hi' => ?_⟩
    have := h2 i hi'
    rwa [List.getD_eq_getElem _ _ (by omega), List.getD_eq_getElem _ _ hi'] at this

theorem InBounds.length {s k : List ℕ} (h : InBounds s k) : k.length = s.length :=
  (inBounds_iff.1 h).1

theorem InBounds.lt {s k : List ℕ} (h : InBounds s k) {i : ℕ} (hi : i < s.length) :
    k.getD i 0 < s.getD i 0 := (inBounds_iff.1 h).2 i hi

theorem ravel_lt {s k : List ℕ} (h : InBounds s k) : ravel s k < s.prod := by
  unfold InBounds at h
  induction h with
  | nil => simp [ravel]
  | @cons i n is ns hin _ ih =>
    simp only [ravel, List.prod_cons]
    calc i * ns.prod + ravel ns is < i * ns.prod + ns.prod := by omega
      _ = (i + 1) * ns.prod := by ring
      _ ≤ n * ns.prod := Nat.mul_le_mul_right _ hin

theorem unravel_ravel {s k : List ℕ} (h : InBounds s k) : unravel s (ravel s k) = k := by
  have h0 := h
  unfold InBounds at h
  induction h with
  | nil => simp [ravel, unravel]
  | @cons i n is ns hin htl ih =>
    have hlt := ravel_lt (s := ns) (k := is) htl
    have hpos : 0 < ns.prod := by omega
    simp only [ravel, unravel]
    rw [Nat.mul_comm, Nat.mul_add_div hpos, Nat.div_eq_of_lt hlt, Nat.mul_add_mod,
      Nat.mod_eq_of_lt hlt, ih htl]
    simp

theorem prod_pos_of_inBounds {s k : List ℕ} (h : InBounds s k) : 0 < s.prod := by
  have := ravel_lt h; omega

theorem unravel_inBounds {s : List ℕ} {f : ℕ} (h : f < s.prod) : InBounds s (unravel s f) := by
  induction s generalizing f with
  | nil => exact List.Forall₂.nil
  | cons n ns ih =>
    simp only [List.prod_cons] at h
    have hpos : 0 < ns.prod := by
      rcases Nat.eq_zero_or_pos ns.prod with h0 | h0
      · rw [h0] at h; omega
      · exact h0
    refine List.Forall₂.cons ?_ (ih (Nat.mod_lt _ hpos))
    exact Nat.div_lt_of_lt_mul (by rwa [Nat.mul_comm])

theorem ravel_unravel {s : List ℕ} {f : ℕ} (h : f < s.prod) : ravel s (unravel s f) = f := by
  induction s generalizing f with
  | nil => simp at h; simp [unravel, ravel, h]
  | cons n ns ih =>
    simp only [List.prod_cons] at h
    have hpos : 0 < ns.prod := by
      rcases Nat.eq_zero_or_pos ns.prod with h0 | h0
      · rw [h0] at h; omega
      · exact h0
    simp only [unravel, ravel]
    rw [ih (Nat.mod_lt _ hpos), Nat.mul_comm]
    exact Nat.div_add_mod f ns.prod

/-! ### products -/

theorem mem_product {L : List (List α)} {k : List α} :
    k ∈ product L ↔ List.Forall₂ (· ∈ ·) k L := by
  induction L generalizing k with
  | nil => simp [product]
  | cons l ls ih =>
    simp only [product, List.mem_flatMap, List.mem_map]
    constructor
    · rintro ⟨a, ha, t, ht, rfl⟩
      exact List.Forall₂.cons ha (ih.1 ht)
    · intro h
      cases h with
      | cons h1 h2 => exact ⟨_, h1, _, ih.2 h2, rfl⟩

theorem product_length {L : List (List α)} : (product L).length = (L.map List.length).prod := by
  induction L with
  | nil => simp [product]
  | cons l ls ih =>
    simp [product, List.length_flatMap, ih]

theorem product_map {L : List (List α)} (f : α → β) :
    product (L.map (List.map f)) = (product L).map (List.map f) := by
  induction L with
  | nil => simp [product]
  | cons l ls ih =>
    simp [product, ih, List.flatMap_map, List.map_flatMap, Function.comp_def]

theorem product_nodup {L : List (List α)} (h : ∀ l ∈ L, l.Nodup) : (product L).Nodup := by
  induction L with
  | nil => simp [product]
  | cons l ls ih =>
    simp only [product]
    rw [List.nodup_flatMap]
    refine ⟨fun a _ => (ih (fun l hl => h l (by simp [hl]))).map (fun _ _ h => by simpa using h), ?_⟩
    refine (h l (by simp)).imp ?_
    intro a b hab
    simp only [Function.onFun, List.disjoint_left, List.mem_map]
    rintro _ ⟨x, _, rfl⟩ ⟨y, _, hy⟩
    simp at hy
    exact hab hy.1.symm

theorem flatMap_swap_perm (l : List α) {γ : Type} (m : List β) (f : α → β → List γ) :
    (l.flatMap fun a => m.flatMap fun b => f a b).Perm (m.flatMap fun b => l.flatMap fun a => f a b) := by
  induction l with
  | nil => simp
  | cons a l ih =>
    simp only [List.flatMap_cons]
    refine (List.Perm.append_left _ ih).trans ?_
    clear ih
    induction m with
    | nil => simp
    | cons b m ihm =>
      simp only [List.flatMap_cons]
      have e : (f a b ++ m.flatMap (fun b => f a b)) ++
          ((l.flatMap fun a => f a b) ++ m.flatMap fun b => l.flatMap fun a => f a b) ~
          (f a b ++ l.flatMap fun a => f a b) ++
          (m.flatMap (fun b => f a b) ++ m.flatMap fun b => l.flatMap fun a => f a b) := by
        simp only [List.append_assoc]
        refine List.Perm.append_left _ ?_
        rw [← List.append_assoc, ← List.append_assoc]
        exact List.Perm.append_right _ List.perm_append_comm
      exact e.trans (List.Perm.append_left _ ihm)

/-- The cells of the blocks of a product decomposition are the cells of the whole. -/
theorem product_flatten_perm (L : List (List (List α))) :
    ((product L).flatMap product).Perm (product (L.map List.flatten)) := by
  induction L with
  | nil => simp [product]
  | cons l ls ih =>
    simp only [product, List.map_cons]
    rw [List.flatMap_assoc]
    have h1 : (l.flatMap fun a => ((product ls).map (a :: ·)).flatMap product) =
        l.flatMap fun a => (product ls).flatMap fun b => a.flatMap fun x => (product b).map (x :: ·) := by
      simp only [List.flatMap_map, product]
    rw [h1]
    have h2 : (l.flatMap fun a => (product ls).flatMap fun b => a.flatMap fun x => (product b).map (x :: ·)).Perm
        (l.flatMap fun a => a.flatMap fun x => (product ls).flatMap fun b => (product b).map (x :: ·)) :=
      List.Perm.flatMap_left _ fun a _ => flatMap_swap_perm _ _ _
    refine h2.trans ?_
    have h3 : (l.flatten.flatMap fun a => (product (ls.map List.flatten)).map (a :: ·)) =
        l.flatMap fun a => a.flatMap fun x => (product (ls.map List.flatten)).map (x :: ·) := by
      rw [← List.flatMap_id, List.flatMap_assoc]
      rfl
    rw [h3]
    refine List.Perm.flatMap_left _ fun a _ => List.Perm.flatMap_left _ fun x _ => ?_
    rw [← List.map_flatMap]
    exact ih.map _

theorem zip_flatMap {γ δ : Type} : ∀ (l : List α) (m : List β) (f : α → List γ) (g : β → List δ),
    (∀ a ∈ l, ∀ b ∈ m, (f a).length = (g b).length) →
    (l.flatMap f).zip (m.flatMap g) = (l.zip m).flatMap fun p => (f p.1).zip (g p.2)
  | [], _, _, _, _ => by simp
  | _ :: _, [], _, _, _ => by simp
  | a :: l, b :: m, f, g, h => by
    simp only [List.flatMap_cons, List.zip_cons_cons]
    rw [List.zip_append (h a (by simp) b (by simp)), zip_flatMap l m f g]
    intro a ha b hb
    exact h a (by simp [ha]) b (by simp [hb])

/-- pairing two products of the same shape is the product of the paired lists -/
theorem zip_product {A : List (List α)} {B : List (List β)}
    (h : List.Forall₂ (fun a b => a.length = b.length) A B) :
    (product A).zip (product B) =
      (product (List.zipWith List.zip A B)).map fun l => (l.map Prod.fst, l.map Prod.snd) := by
  induction h with
  | nil => simp [product]
  | @cons a b A B hab htl ih =>
    simp only [product, List.zipWith_cons_cons]
    rw [zip_flatMap]
    · rw [List.map_flatMap]
      congr 1
      funext p
      rw [List.zip_map, ih, List.map_map, List.map_map]
      rfl
    · intro x _ y _
      simp only [List.length_map, product_length]
      congr 1
      clear ih hab
      induction htl with
      | nil => rfl
      | cons h1 _ ih => simp [h1, ih]

end PyGeode
