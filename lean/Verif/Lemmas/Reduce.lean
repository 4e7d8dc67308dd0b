/- Helper lemmas for the reductions. -/
import Verif.Model.Reduce
import Verif.Spec.Reduce
import Verif.Props.View

namespace PyGeode
namespace Reduce
open NArr View Spec
open scoped List
variable {A M γ : Type}

/-- a commutative monoid, unbundled -/
structure CM (mop : M → M → M) (me : M) : Prop where
  comm : ∀ a b, mop a b = mop b a
  assoc : ∀ a b c, mop (mop a b) c = mop a (mop b c)
  id : ∀ a, mop me a = a

/-- `h` turns `op, e` into the commutative monoid `mop, me` -/
structure Hom (op : A → A → A) (e : A) (mop : M → M → M) (me : M) (h : A → M) : Prop where
  cm : CM mop me
  map_op : ∀ a b, h (op a b) = mop (h a) (h b)
  map_e : h e = me

section
variable {mop : M → M → M} {me : M}

theorem CM.foldr_append (cm : CM mop me) (l l' : List M) :
    (l ++ l').foldr mop me = mop (l.foldr mop me) (l'.foldr mop me) := by
  induction l with
  | nil => simp [cm.id]
  | cons a l ih => simp [ih, cm.assoc]

theorem CM.foldr_perm (cm : CM mop me) {l l' : List M} (h : l.Perm l') :
    l.foldr mop me = l'.foldr mop me := by
  induction h with
  | nil => rfl
  | cons a _ ih => simp [ih]
  | swap a b l =>
    simp only [List.foldr_cons]
    rw [← cm.assoc, cm.comm b a, cm.assoc]
  | trans _ _ ih1 ih2 => exact ih1.trans ih2

theorem CM.foldr_flatMap (cm : CM mop me) (l : List γ) (f : γ → List M) :
    (l.flatMap f).foldr mop me = (l.map fun a => (f a).foldr mop me).foldr mop me := by
  induction l with
  | nil => rfl
  | cons a l ih => simp only [List.flatMap_cons, cm.foldr_append, ih, List.map_cons, List.foldr_cons]

theorem CM.foldr_single (cm : CM mop me) (x : M) : [x].foldr mop me = x := by
  simp only [List.foldr_cons, List.foldr_nil]
  rw [cm.comm, cm.id]

variable {op : A → A → A} {e : A} {h : A → M}

theorem Hom.foldr (hh : Hom op e mop me h) (l : List A) : h (l.foldr op e) = (l.map h).foldr mop me := by
  induction l with
  | nil => simp [hh.map_e]
  | cons a l ih => simp [hh.map_op, ih]
end

/-! ### Splitting one axis off a product -/

theorem product_insert_perm : ∀ (L : List (List γ)) (i : ℕ) (hi : i < L.length),
    (product L).Perm ((product (L.eraseIdx i)).flatMap fun q => L[i].map fun j => q.insertIdx i j)
  | [], i, hi => by simp at hi
  | l :: L, 0, _ => by
    simp only [product, List.eraseIdx_cons_zero, List.getElem_cons_zero, List.insertIdx_zero]
    have := flatMap_swap_perm l (product L) (fun a q => [a :: q])
    simpa [List.map_eq_flatMap] using this
  | l :: L, i + 1, hi => by
    have ih := product_insert_perm L i (by simpa using hi)
    simp only [product, List.eraseIdx_cons_succ, List.getElem_cons_succ]
    rw [List.flatMap_assoc]
    refine List.Perm.flatMap_left _ fun a _ => ?_
    refine (ih.map (a :: ·)).trans ?_
    rw [List.map_flatMap, List.flatMap_map]
    simp [List.map_map, Function.comp_def]

theorem filter_eq_singleton {L : List (List ℕ)} {k : List ℕ} (hnd : L.Nodup) (hk : k ∈ L) :
    L.filter (fun p => decide (p = k)) = [k] := by
  induction L with
  | nil => simp at hk
  | cons a L ih =>
    have hn := List.nodup_cons.1 hnd
    by_cases hak : a = k
    · subst hak
      rw [List.filter_cons_of_pos (by simp)]
      congr 1
      rw [List.filter_eq_nil_iff]
      intro b hb
      simp only [decide_eq_true_eq]
      rintro rfl
      exact hn.1 hb
    · rw [List.filter_cons_of_neg (by simpa using hak)]
      refine ih hn.2 ?_
      rcases List.mem_cons.1 hk with h | h
      · exact absurd h.symm hak
      · exact h

theorem mem_product_range {s k : List ℕ} : k ∈ product (s.map List.range) ↔ InBounds s k := by
  rw [mem_product, List.forall₂_map_right_iff]
  simp [InBounds]

theorem product_range_nodup (s : List ℕ) : (product (s.map List.range)).Nodup :=
  product_nodup fun l hl => by
    obtain ⟨n, _, rfl⟩ := List.mem_map.1 hl
    exact List.nodup_range

section
variable {mop : M → M → M} {me : M} {op : A → A → A} {e : A} {h : A → M}

theorem reduce_desc (hh : Hom op e mop me h) : ∀ (Rd : List ℕ) (a : NArr A) (k : List ℕ),
    Rd.Pairwise (· > ·) → (∀ i ∈ Rd, i < a.shape.length) →
    InBounds (Rd.foldl List.eraseIdx a.shape) k →
    h ((Rd.foldl (reduceAxis op e) a).get k) =
      (((product (a.shape.map List.range)).filter
        fun p => decide (Rd.foldl List.eraseIdx p = k)).map (fun p => h (a.get p))).foldr mop me
  | [], a, k, _, _, hk => by
    have hk : InBounds a.shape k := hk
    change h (a.get k) = (((product (a.shape.map List.range)).filter
        fun p => decide (p = k)).map (fun p => h (a.get p))).foldr mop me
    rw [filter_eq_singleton (product_range_nodup _) (mem_product_range.2 hk), List.map_singleton,
      hh.cm.foldr_single]
  | i :: Rd, a, k, hp, hlt, hk => by
    have hi : i < a.shape.length := hlt i (by simp)
    have hp' := List.pairwise_cons.1 hp
    have hshape : (reduceAxis op e a i).shape = a.shape.eraseIdx i := rfl
    have ih := reduce_desc hh Rd (reduceAxis op e a i) k hp'.2 (by
      intro j hj
      have := hp'.1 j hj
      rw [hshape, List.length_eraseIdx, if_pos hi]; omega) (by rw [hshape]; exact hk)
    change h ((Rd.foldl (reduceAxis op e) (reduceAxis op e a i)).get k) =
      (((product (a.shape.map List.range)).filter
        fun p => decide (Rd.foldl List.eraseIdx (p.eraseIdx i) = k)).map (fun p => h (a.get p))).foldr mop me
    rw [ih, hshape]
    have hperm := product_insert_perm (a.shape.map List.range) i (by simpa using hi)
    have hperm2 := (hperm.filter fun p => decide (Rd.foldl List.eraseIdx (p.eraseIdx i) = k)).map
      (fun p => h (a.get p))
    rw [hh.cm.foldr_perm hperm2]
    rw [List.filter_flatMap, List.map_flatMap, hh.cm.foldr_flatMap]
    rw [← List.eraseIdx_map]
    -- push the filter
    have key : ∀ (Q : List (List ℕ)), (∀ q ∈ Q, i ≤ q.length) →
        ((Q.filter fun p => decide (Rd.foldl List.eraseIdx p = k)).map
          (fun p => h ((reduceAxis op e a i).get p))).foldr mop me =
        (Q.map fun q => (((((a.shape.map List.range)[i]'(by simpa using hi)).map fun j => q.insertIdx i j).filter
          fun p => decide (Rd.foldl List.eraseIdx (p.eraseIdx i) = k)).map fun p => h (a.get p)).foldr
          mop me).foldr mop me := by
      intro Q hQ
      induction Q with
      | nil => rfl
      | cons q Q ihQ =>
        have ihQ := ihQ (fun q hq => hQ q (by simp [hq]))
        have hq : i ≤ q.length := hQ q (by simp)
        have hcong : ((((a.shape.map List.range)[i]'(by simpa using hi)).map fun j => q.insertIdx i j).filter
            fun p => decide (Rd.foldl List.eraseIdx (p.eraseIdx i) = k)) =
            if Rd.foldl List.eraseIdx q = k then
              (((a.shape.map List.range)[i]'(by simpa using hi)).map fun j => q.insertIdx i j) else [] := by
          split
          · next hc =>
            rw [List.filter_eq_self]
            intro p hp
            obtain ⟨j, _, rfl⟩ := List.mem_map.1 hp
            rw [List.eraseIdx_insertIdx_self, hc]
            simp
          · next hc =>
            rw [List.filter_eq_nil_iff]
            intro p hp
            obtain ⟨j, _, rfl⟩ := List.mem_map.1 hp
            rw [List.eraseIdx_insertIdx_self]
            simpa using hc
        simp only [List.map_cons, List.foldr_cons]
        rw [← ihQ, hcong]
        by_cases hc : Rd.foldl List.eraseIdx q = k
        · rw [List.filter_cons_of_pos (by simpa using hc), if_pos hc]
          simp only [List.map_cons, List.foldr_cons]
          congr 1
          simp only [reduceAxis]
          rw [hh.foldr, List.map_map]
          simp only [List.getElem_map, List.map_map]
          rw [List.getD_eq_getElem _ _ hi]
          rfl
        · rw [List.filter_cons_of_neg (by simpa using hc), if_neg hc]
          simp [hh.cm.id]
    apply key
    intro q hq
    have := (mem_product.1 hq).length_eq
    rw [this, List.length_eraseIdx, if_pos (by simpa using hi), List.length_map]
    omega
end

/-! ### dropping axes -/

theorem eraseIdx_getD (d : γ) (p : List γ) (i j : ℕ) :
    (p.eraseIdx i).getD j d = if j < i then p.getD j d else p.getD (j + 1) d := by
  simp only [List.getD_eq_getElem?_getD, List.getElem?_eraseIdx]
  split <;> rfl

theorem range_split (n i : ℕ) (hi : i < n) :
    List.range n = List.range i ++ i :: (List.range (n - 1 - i)).map (fun x : ℕ => i + 1 + x) := by
  have h1 : n = i + (1 + (n - 1 - i)) := by omega
  conv_lhs => rw [h1, List.range_add, List.range_add]
  simp [Function.comp_def, Nat.add_assoc]

theorem range_split' (n i : ℕ) (hi : i ≤ n) :
    List.range n = List.range i ++ (List.range (n - i)).map (fun x : ℕ => i + x) := by
  have h1 : n = i + (n - i) := by omega
  conv_lhs => rw [h1, List.range_add]

theorem dropAxes_cons (d : γ) (i : ℕ) (R : List ℕ) (p : List γ) (hi : i < p.length)
    (hR : ∀ j ∈ R, j < i) : dropAxes d (i :: R) p = dropAxes d R (p.eraseIdx i) := by
  unfold dropAxes
  have hlen : (p.eraseIdx i).length = p.length - 1 := by rw [List.length_eraseIdx, if_pos hi]
  rw [hlen, range_split p.length i hi, range_split' (p.length - 1) i (by omega)]
  rw [List.filter_append, List.filter_append, List.map_append, List.map_append,
    List.filter_cons_of_neg (by simp)]
  congr 1
  · have e : (List.range i).filter (fun x => decide (x ∉ i :: R)) =
        (List.range i).filter (fun x => decide (x ∉ R)) := by
      refine List.filter_congr fun x hx => ?_
      rw [List.mem_range] at hx
      simp only [List.mem_cons, decide_eq_decide]
      have : x ≠ i := by omega
      tauto
    rw [e]
    refine List.map_congr_left fun x hx => ?_
    have : x < i := by simpa using (List.mem_filter.1 hx).1
    rw [eraseIdx_getD, if_pos this]
  · have e1 : ((List.range (p.length - 1 - i)).map (fun x : ℕ => i + 1 + x)).filter
        (fun x => decide (x ∉ i :: R)) = (List.range (p.length - 1 - i)).map (fun x : ℕ => i + 1 + x) := by
      rw [List.filter_eq_self]
      intro x hx
      obtain ⟨y, _, rfl⟩ := List.mem_map.1 hx
      simp only [List.mem_cons, decide_eq_true_eq, not_or]
      exact ⟨by omega, fun h => by have := hR _ h; omega⟩
    have e2 : ((List.range (p.length - 1 - i)).map (fun x : ℕ => i + x)).filter
        (fun x => decide (x ∉ R)) = (List.range (p.length - 1 - i)).map (fun x : ℕ => i + x) := by
      rw [List.filter_eq_self]
      intro x hx
      obtain ⟨y, _, rfl⟩ := List.mem_map.1 hx
      simp only [decide_eq_true_eq]
      exact fun h => by have := hR _ h; omega
    rw [e1, e2, List.map_map, List.map_map]
    refine List.map_congr_left fun x hx => ?_
    simp only [Function.comp_apply]
    rw [eraseIdx_getD, if_neg (by omega)]
    congr 1
    omega

theorem eraseIdx_desc (d : γ) : ∀ (Rd : List ℕ) (p : List γ), Rd.Pairwise (· > ·) →
    (∀ i ∈ Rd, i < p.length) → Rd.foldl List.eraseIdx p = dropAxes d Rd p
  | [], p, _, _ => by
    simp only [List.foldl_nil, dropAxes]
    refine List.ext_getElem (by simp) fun i h1 h2 => ?_
    simp [h1]
  | i :: Rd, p, hp, hlt => by
    have hp' := List.pairwise_cons.1 hp
    have hi := hlt i (by simp)
    rw [List.foldl_cons, eraseIdx_desc d Rd (p.eraseIdx i) hp'.2 (by
      intro j hj
      have := hp'.1 j hj
      rw [List.length_eraseIdx, if_pos hi]; omega), dropAxes_cons d i Rd p hi (fun j hj => hp'.1 j hj)]

theorem dropAxes_congr (d : γ) {R R' : List ℕ} (h : ∀ i, i ∈ R ↔ i ∈ R') (p : List γ) :
    dropAxes d R p = dropAxes d R' p := by
  unfold dropAxes
  congr 1
  refine List.filter_congr fun x _ => ?_
  simp [h]

theorem sort_desc (R : List ℕ) (hR : R.Nodup) :
    (R.insertionSort (· ≥ ·)).Pairwise (· > ·) ∧ ∀ i, i ∈ R.insertionSort (· ≥ ·) ↔ i ∈ R := by
  have hperm := List.perm_insertionSort (· ≥ ·) R
  refine ⟨?_, fun i => hperm.mem_iff⟩
  have h1 : (R.insertionSort (· ≥ ·)).Pairwise (· ≥ ·) := List.pairwise_insertionSort _ _
  have h2 : (R.insertionSort (· ≥ ·)).Nodup := hperm.nodup_iff.2 hR
  exact (h1.and h2).imp fun {a b} h => lt_of_le_of_ne h.1 (Ne.symm h.2)

/-- `npReduce` combines, for each remaining cell, all the cells over it. -/
theorem npReduce_spec {mop : M → M → M} {me : M} {op : A → A → A} {e : A} {h : A → M}
    (hh : Hom op e mop me h) (a : NArr A) (R : List ℕ) (hR : R.Nodup)
    (hlt : ∀ i ∈ R, i < a.shape.length) (k : List ℕ) (hk : InBounds (dropAxes 0 R a.shape) k) :
    h ((npReduce op e a R).get k) =
      ((fibre a.shape R k).map (fun p => h (a.get p))).foldr mop me := by
  obtain ⟨hs1, hs2⟩ := sort_desc R hR
  unfold npReduce fibre
  have hlt' : ∀ i ∈ R.insertionSort (· ≥ ·), i < a.shape.length := fun i hi => hlt i ((hs2 i).1 hi)
  rw [reduce_desc hh _ a k hs1 hlt']
  · congr 2
    refine List.filter_congr fun p hp => ?_
    have hlen : p.length = a.shape.length := by
      have := (mem_product.1 hp).length_eq
      simpa using this
    rw [eraseIdx_desc 0 _ p hs1 (by rw [hlen]; exact hlt'), dropAxes_congr 0 hs2]
  · rw [eraseIdx_desc 0 _ a.shape hs1 hlt', dropAxes_congr 0 hs2]
    exact hk

theorem npReduce_shape {op : A → A → A} {e : A} (a : NArr A) (R : List ℕ) (hR : R.Nodup)
    (hlt : ∀ i ∈ R, i < a.shape.length) : (npReduce op e a R).shape = dropAxes 0 R a.shape := by
  obtain ⟨hs1, hs2⟩ := sort_desc R hR
  have : ∀ (Rd : List ℕ) (a : NArr A), (Rd.foldl (reduceAxis op e) a).shape = Rd.foldl List.eraseIdx a.shape := by
    intro Rd
    induction Rd with
    | nil => intro a; rfl
    | cons i Rd ih => intro a; simp only [List.foldl_cons, ih]; rfl
  unfold npReduce
  rw [this, eraseIdx_desc 0 _ a.shape hs1 (fun i hi => hlt i ((hs2 i).1 hi)), dropAxes_congr 0 hs2]

end Reduce
end PyGeode
