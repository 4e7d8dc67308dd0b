/- Counting lemmas for the reductions. -/
import Verif.Lemmas.ReduceLoop
import Mathlib.Algebra.BigOperators.Group.List.Basic
import Mathlib.Algebra.BigOperators.Ring.List
import Mathlib.Tactic.Ring
import Mathlib.Tactic.FieldSimp

namespace PyGeode
namespace Reduce
open NArr View Spec
variable {A M γ : Type} {lens R : List ℕ} {outInds : List (List ℕ)}

theorem const_sum (n v : ℕ) (l : List ℕ) (hl : l.length = n) :
    (l.map fun _ => v).foldr (· + ·) 0 = n * v := by
  induction l generalizing n with
  | nil => simp at hl; subst hl; simp
  | cons a l ih =>
    subst hl
    simp only [List.map_cons, List.foldr_cons, List.length_cons]
    rw [ih _ rfl]; ring

theorem const_reduce : ∀ (Rd : List ℕ) (a : NArr ℕ) (v : ℕ), (∀ k, a.get k = v) → Rd.Pairwise (· > ·) →
    ∀ k, (Rd.foldl (reduceAxis (· + ·) 0) a).get k = (Rd.map fun i => a.shape.getD i 0).prod * v
  | [], a, v, h, _, k => by simp [h]
  | i :: Rd, a, v, h, hp, k => by
    have hp' := List.pairwise_cons.1 hp
    rw [List.foldl_cons, const_reduce Rd (reduceAxis (· + ·) 0 a i) (a.shape.getD i 0 * v) ?_ hp'.2]
    · have e : (Rd.map fun j => (reduceAxis (· + ·) 0 a i).shape.getD j 0) = Rd.map fun j => a.shape.getD j 0 := by
        refine List.map_congr_left fun j hj => ?_
        change (a.shape.eraseIdx i).getD j 0 = _
        rw [eraseIdx_getD, if_pos (hp'.1 j hj)]
      rw [e, List.map_cons, List.prod_cons]
      ring
    · intro k
      simp only [reduceAxis, h]
      rw [const_sum _ _ _ List.length_range]

/-- a commutative additive monoid -/
theorem natHom : Hom (· + ·) (0 : ℕ) (· + ·) 0 id :=
  ⟨⟨Nat.add_comm, Nat.add_assoc, Nat.zero_add⟩, fun _ _ => rfl, rfl⟩

theorem ones_foldr (l : List γ) : (l.map fun _ => 1).foldr (· + ·) 0 = l.length := by
  induction l with
  | nil => rfl
  | cons a l ih => simp only [List.map_cons, List.foldr_cons, ih, List.length_cons]; omega

/-- number of cells that contribute to an output cell -/
theorem fibre_length (hR : R.Nodup) (hlt : ∀ i ∈ R, i < lens.length) {s : List ℕ}
    (hs : InBounds (dropAxes 0 R lens) s) : (fibre lens R s).length = count lens R := by
  have h1 := npReduce_spec natHom { shape := lens, get := fun _ => 1 } R hR hlt s hs
  simp only [id_eq] at h1
  rw [ones_foldr] at h1
  rw [← h1]
  obtain ⟨hs1, _⟩ := sort_desc R hR
  unfold npReduce
  rw [const_reduce _ _ 1 (fun _ => rfl) hs1, Nat.mul_one]
  unfold count
  exact ((List.perm_insertionSort (· ≥ ·) R).map _).prod_eq

theorem cell_inBounds (g : GoodReq lens R outInds) {k : List ℕ} (hk : InBounds (outInds.map List.length) k) :
    InBounds (dropAxes 0 R lens) (cell outInds k) := by
  have h1 := cell_mem hk
  have h2 := g.range
  unfold InRange at h2
  unfold InBounds
  rw [List.forall₂_iff_get] at h1 h2 ⊢
  exact ⟨h1.1.trans h2.1, fun i a b => h2.2 i (by rw [← h1.1]; exact a) b _ (h1.2 i a (by rw [← h1.1]; exact a))⟩

theorem count_pos (g : GoodReq lens R outInds) : 0 < count lens R := by
  unfold count
  refine Nat.pos_of_ne_zero fun h => ?_
  rw [List.prod_eq_zero_iff] at h
  obtain ⟨i, hi, h0⟩ := List.mem_map.1 h
  exact absurd h0 (g.rpos i hi).ne'

theorem fibre_ne (g : GoodReq lens R outInds) {k : List ℕ} (hk : InBounds (outInds.map List.length) k) :
    fibre lens R (cell outInds k) ≠ [] := by
  intro h
  have h1 := fibre_length g.rnd g.rlt (cell_inBounds g hk)
  rw [h] at h1
  have := count_pos g
  simp at h1
  omega

/-- every output cell is reached by some chunk -/
theorem exists_chunk (g : GoodReq lens R outInds) {limit : ℕ} (hl : 1 ≤ limit) {k : List ℕ}
    (hk : InBounds (outInds.map List.length) k) :
    ∃ c ∈ (inView lens R outInds).loopMem limit [],
      List.Forall₂ (· ∈ ·) (cell outInds k) (dropAxes [] R c.inds) := by
  obtain ⟨q, hq⟩ := List.exists_mem_of_ne_nil _ (fibre_ne g hk)
  have hq1 := (fibre_perm g k hk).mem_iff.2 hq
  obtain ⟨hq2, hq3⟩ := List.mem_filter.1 hq1
  have hq4 := (loopMem_partition (inView lens R outInds) limit [] hl (inView_ne g) (by simp)).mem_iff.2 hq2
  obtain ⟨c, hc, hqc⟩ := List.mem_flatMap.1 hq4
  refine ⟨c, hc, ?_⟩
  rw [← of_decide_eq_true hq3]
  exact forall₂_dropAxes 0 [] R (mem_product.1 hqc)

theorem fold_touch {C : Type} (P : A → Prop) (step : NArr A → C → NArr A) (k : List ℕ) (cs : List C)
    (keep : ∀ out, ∀ c ∈ cs, P (out.get k) → P ((step out c).get k)) (c : C) (hc : c ∈ cs)
    (touch : ∀ out, P ((step out c).get k)) (init : NArr A) : P ((cs.foldl step init).get k) := by
  induction cs generalizing init with
  | nil => simp at hc
  | cons d cs ih =>
    rw [List.foldl_cons]
    have keep' : ∀ (cs' : List C), (∀ x ∈ cs', x ∈ d :: cs) → ∀ init, P (init.get k) →
        P ((cs'.foldl step init).get k) := by
      intro cs'
      induction cs' with
      | nil => intro _ init h; exact h
      | cons x cs' ih => intro hx init h; rw [List.foldl_cons]
                         exact ih (fun y hy => hx y (by simp [hy])) _ (keep _ _ (hx x (by simp)) h)
    rcases List.mem_cons.1 hc with rfl | hc
    · exact keep' cs (fun x hx => by simp [hx]) _ (touch _)
    · exact ih (fun out x hx => keep out x (by simp [hx])) hc _

theorem reduceLoop_touch {op : A → A → A} {e : A} (P : A → Prop) (hP : ∀ a b, P (op a b))
    (g : GoodReq lens R outInds) {limit : ℕ} (hl : 1 ≤ limit) (chunk : View ℕ → NArr A) {k : List ℕ}
    (hk : InBounds (outInds.map List.length) k) :
    P ((reduceLoop op e limit lens R outInds chunk).get k) := by
  obtain ⟨c, hc, hin⟩ := exists_chunk g hl hk
  unfold reduceLoop
  refine fold_touch P _ k _ ?_ c hc ?_ _
  · intro out d _ h
    simp only [updateOuter]
    split
    · exact hP _ _
    · exact h
  · intro out
    obtain ⟨f1, f2, f3, f4⟩ := chunk_facts g hl c hc
    have hd := forall₂_dropAxes [] [] R f3
    rw [inView_drop g] at hd
    obtain ⟨p1, p2⟩ := place_chunk hd k hk
    rw [outPos_eq c f1]
    simp only [updateOuter]
    rw [if_pos (p1.2 hin)]
    exact hP _ _

/-! ### weights -/

theorem onAxes_cons (W : List ℕ) (x : ℕ) (p : List ℕ) : onAxes W (x :: p) =
    (if 0 ∈ W then x else 0) :: p.mapIdx fun i y => if i + 1 ∈ W then y else 0 := by
  simp [onAxes, List.mapIdx_cons]

theorem broadcast2_read {B D : Type} (f : A → B → D) (data : List ℕ → A) (w : List ℕ → B) (W : List ℕ)
    (C : List (List ℕ)) (a : NArr A) (b : NArr B) (ha : IsRead data C a)
    (hb : IsRead w (weightInds W C) b) :
    IsRead (fun q => f (data q) (w (onAxes W q))) C (broadcast2 f a b) := by
  refine ⟨ha.1, fun k hk => ?_⟩
  simp only [broadcast2]
  rw [ha.2 k hk, hb.1]
  congr 1
  have key : ∀ (C : List (List ℕ)) (k : List ℕ) (p : ℕ → Bool), InBounds (C.map List.length) k →
      InBounds ((C.mapIdx fun i l => if p i then l else [0]).map List.length)
        (List.zipWith (fun (n i : ℕ) => if n = 1 then 0 else i)
          ((C.mapIdx fun i l => if p i then l else [0]).map List.length) k) ∧
      cell (C.mapIdx fun i l => if p i then l else [0]) (List.zipWith (fun (n i : ℕ) => if n = 1 then 0 else i)
          ((C.mapIdx fun i l => if p i then l else [0]).map List.length) k) =
        (cell C k).mapIdx fun i x => if p i then x else 0 := by
    intro C
    induction C with
    | nil => intro k p hk; cases hk; exact ⟨List.Forall₂.nil, rfl⟩
    | cons l C ih =>
      intro k p hk
      cases hk with
      | @cons i _ k _ hi hk =>
        obtain ⟨h1, h2⟩ := ih k (fun i => p (i + 1)) hk
        simp only [List.mapIdx_cons, List.map_cons, List.zipWith_cons_cons, cell] at h1 h2 ⊢
        refine ⟨List.Forall₂.cons ?_ h1, ?_⟩
        · by_cases hp : p 0 <;> simp only [hp, if_true, if_false, Bool.false_eq_true] <;> split <;> simp at * <;> omega
        · rw [h2]
          congr 1
          by_cases hp : p 0
          · simp only [hp, if_true]
            split
            · next h => have : i = 0 := by omega
                        rw [this]
            · rfl
          · simp [hp]
  obtain ⟨h1, h2⟩ := key C k (fun i => decide (i ∈ W)) hk
  simp only [decide_eq_true_eq] at h1 h2
  have h3 : weightInds W C = C.mapIdx fun i l => if i ∈ W then l else [0] := rfl
  rw [h3, hb.2 _ h1, h3, h2]
  rfl

/-- `dropAxes`, recursively -/
def dropP (r : ℕ → Bool) : List γ → List γ
  | [] => []
  | x :: p => if r 0 then dropP (fun i => r (i + 1)) p else x :: dropP (fun i => r (i + 1)) p

theorem dropAxes_eq_dropP (d : γ) (R : List ℕ) (p : List γ) :
    dropAxes d R p = dropP (fun i => decide (i ∈ R)) p := by
  have : ∀ (p : List γ) (r : ℕ → Bool),
      ((List.range p.length).filter fun i => !r i).map (fun i => p.getD i d) = dropP r p := by
    intro p
    induction p with
    | nil => intro r; rfl
    | cons x p ih =>
      intro r
      rw [dropP, ← ih]
      rw [List.length_cons, List.range_succ_eq_map, List.filter_cons, List.filter_map]
      cases h : r 0 <;> simp [Function.comp_def]
  rw [← this]
  unfold dropAxes
  congr 1
  refine List.filter_congr fun i _ => ?_
  simp

/-- number of values along the axes that are reduced but carry no weights -/
def freeCount (r v : ℕ → Bool) : List (List ℕ) → ℕ
  | [] => 1
  | l :: C => (if r 0 && !v 0 then l.length else 1) * freeCount (fun i => r (i + 1)) (fun i => v (i + 1)) C

theorem sum_flatMap' {δ : Type} (l : List δ) (f : δ → List ℚ) :
    (l.flatMap f).sum = (l.map fun x => (f x).sum).sum := by
  induction l with
  | nil => rfl
  | cons a l ih => simp [ih]

theorem weight_factor : ∀ (C : List (List ℕ)) (r v : ℕ → Bool) (_ : ∀ i, v i → r i)
    (_ : ∀ l ∈ C, l.Nodup) (s : List ℕ) (_ : List.Forall₂ (· ∈ ·) s (dropP r C)) (w : List ℕ → ℚ),
    (((product C).filter fun q => decide (dropP r q = s)).map
        fun q => w (q.mapIdx fun i x => if v i then x else 0)).sum =
      (freeCount r v C : ℚ) * ((product (C.mapIdx fun i l => if v i then l else [0])).map w).sum
  | [], r, v, _, _, s, hs, w => by
    cases hs
    simp [product, dropP, freeCount]
  | l :: C, r, v, hv, hnd, s, hs, w => by
    have ih := fun s hs w => weight_factor C (fun i => r (i + 1)) (fun i => v (i + 1)) (fun i => hv (i + 1))
      (fun m hm => hnd m (by simp [hm])) s hs w
    simp only [product, List.mapIdx_cons]
    rw [List.filter_flatMap, List.map_flatMap, sum_flatMap', List.map_flatMap, sum_flatMap']
    simp only [List.filter_map, List.map_map, Function.comp_def, List.mapIdx_cons, dropP, freeCount]
    simp only [dropP] at hs
    by_cases hr : r 0 = true
    · rw [if_pos hr] at hs
      simp only [hr, if_true, Bool.true_and]
      have e : ∀ x : ℕ, (((product C).filter fun q => decide (dropP (fun i => r (i + 1)) q = s)).map
            fun q => w ((if v 0 = true then x else 0) :: q.mapIdx fun i y => if v (i + 1) = true then y else 0)).sum =
          (freeCount (fun i => r (i + 1)) (fun i => v (i + 1)) C : ℚ) *
            ((product (C.mapIdx fun i l => if v (i + 1) then l else [0])).map
              fun q => w ((if v 0 = true then x else 0) :: q)).sum :=
        fun x => ih s hs fun q => w ((if v 0 = true then x else 0) :: q)
      simp only [e]
      by_cases hv0 : v 0 = true
      · simp only [hv0, if_true, Bool.not_true, Bool.false_eq_true, if_false, one_mul]
        rw [List.sum_map_mul_left]
      · simp only [hv0, if_false, Bool.not_false, Bool.false_eq_true, if_true]
        simp
        ring
    · rw [if_neg hr] at hs
      have hv0 : v 0 = false := by
        cases h : v 0
        · rfl
        · exact absurd (hv 0 h) hr
      have hr0 : r 0 = false := by simpa using hr
      simp only [hr0, hv0, Bool.false_eq_true, if_false, Bool.false_and, one_mul]
      cases hs with
      | @cons s0 _ s' _ hs0 hs' =>
        have e : ∀ x : ℕ, (((product C).filter fun q => decide (x :: dropP (fun i => r (i + 1)) q = s0 :: s')).map
            fun q => w (0 :: q.mapIdx fun i y => if v (i + 1) = true then y else 0)).sum =
          if x = s0 then (freeCount (fun i => r (i + 1)) (fun i => v (i + 1)) C : ℚ) *
            ((product (C.mapIdx fun i l => if v (i + 1) then l else [0])).map
              fun q => w (0 :: q)).sum else 0 := by
          intro x
          split
          · next h =>
            rw [← ih s' hs' fun q => w (0 :: q), h]
            simp
          · next h =>
            have : (product C).filter (fun q => decide (x :: dropP (fun i => r (i + 1)) q = s0 :: s')) = [] := by
              rw [List.filter_eq_nil_iff]
              intro q _
              simp [h]
            rw [this]
            rfl
        simp only [e]
        have hl := hnd l (by simp)
        have e2 : ∀ (l : List ℕ) (F : ℚ), l.Nodup → s0 ∈ l → (l.map fun x => if x = s0 then F else 0).sum = F := by
          intro l F
          induction l with
          | nil => simp
          | cons a l ih =>
            intro hn hm
            have hn' := List.nodup_cons.1 hn
            rw [List.map_cons, List.sum_cons]
            rcases List.mem_cons.1 hm with rfl | hm
            · have : (l.map fun x => if x = s0 then F else 0) = l.map fun _ => 0 :=
                List.map_congr_left fun x hx => if_neg (by intro h; subst h; exact hn'.1 hx)
              rw [this]
              simp
            · rw [if_neg (by intro h; subst h; exact hn'.1 hm), ih hn'.2 hm, zero_add]
        rw [e2 l _ hl hs0]
        simp

theorem size_factor : ∀ (C : List (List ℕ)) (r v : ℕ → Bool) (_ : ∀ i, v i → r i),
    (C.map List.length).prod = freeCount r v C *
      (((C.mapIdx fun i l => if v i then l else [0]).map List.length).prod * ((dropP r C).map List.length).prod)
  | [], r, v, _ => by simp [freeCount, dropP]
  | l :: C, r, v, hv => by
    have ih := size_factor C (fun i => r (i + 1)) (fun i => v (i + 1)) (fun i => hv (i + 1))
    have h0 := hv 0
    simp only [List.map_cons, List.prod_cons, freeCount, List.mapIdx_cons, dropP]
    rw [ih]
    cases hr : r 0 <;> cases hv0 : v 0 <;> simp [hr, hv0] at h0 ⊢ <;> ring

theorem ratHom : Hom (· + ·) (0 : ℚ) (· + ·) 0 id :=
  ⟨⟨add_comm, add_assoc, zero_add⟩, fun _ _ => rfl, rfl⟩

theorem foldr_add (l : List ℚ) : l.foldr (· + ·) 0 = l.sum := rfl

/-- the total of the weights of a chunk -/
theorem weight_chunk (w : List ℕ → ℚ) (W : List ℕ) (hR : R.Nodup) (hW : ∀ i ∈ W, i ∈ R)
    (C : List (List ℕ)) (hlt : ∀ i ∈ R, i < C.length) (b : NArr ℚ) (hb : IsRead w (weightInds W C) b) :
    let s := npReduce (· + ·) 0 b R
    s.get (s.shape.map fun _ => 0) = ((product (weightInds W C)).map w).sum := by
  have hlen : b.shape.length = C.length := by rw [hb.1]; simp [weightInds]
  have hlt' : ∀ i ∈ R, i < b.shape.length := by rw [hlen]; exact hlt
  have hsh := npReduce_shape (op := (· + ·)) (e := (0 : ℚ)) b R hR hlt'
  have hone : ∀ n ∈ dropAxes 0 R b.shape, n = 1 := by
    intro n hn
    simp only [dropAxes, List.mem_map, List.mem_filter, List.mem_range, decide_eq_true_eq] at hn
    obtain ⟨i, ⟨h1, h2⟩, rfl⟩ := hn
    have h3 : i ∉ W := fun h => h2 (hW i h)
    rw [List.getD_eq_getElem _ _ h1]
    have : ∀ (S : List ℕ) (h : i < S.length), S = (weightInds W C).map List.length → S[i] = 1 := by
      rintro S h rfl
      simp [weightInds, h3]
    exact this _ h1 hb.1
  intro s
  have e1 : (s.shape.map fun _ => 0) = (dropAxes 0 R b.shape).map fun _ => 0 := by
    change ((npReduce (· + ·) 0 b R).shape.map fun _ => 0) = _
    rw [hsh]
  have hin : InBounds (dropAxes 0 R b.shape) ((dropAxes 0 R b.shape).map fun _ => 0) := by
    unfold InBounds
    rw [List.forall₂_map_left_iff]
    refine List.forall₂_same.2 fun n hn => ?_
    rw [hone n hn]; exact Nat.one_pos
  rw [e1]
  have h1 := npReduce_spec ratHom b R hR hlt' _ hin
  simp only [id_eq, foldr_add] at h1
  change (npReduce (· + ·) 0 b R).get _ = _
  rw [h1]
  have e2 : fibre b.shape R ((dropAxes 0 R b.shape).map fun _ => 0) = product (b.shape.map List.range) := by
    unfold fibre
    rw [List.filter_eq_self]
    intro p hp
    rw [decide_eq_true_eq]
    have hb' := forall₂_dropAxes 0 0 R (mem_product_range.1 hp)
    revert hb' hone
    generalize dropAxes 0 R p = u
    generalize dropAxes 0 R b.shape = v
    intro hone hb'
    induction hb' with
    | nil => rfl
    | cons h _ ih =>
      rw [List.map_cons, ← ih (fun n hn => hone n (by simp [hn]))]
      have := hone _ (List.mem_cons_self)
      congr 1
      omega
  rw [e2, ← product_cell (weightInds W C), List.map_map, hb.1, List.map_map]
  congr 1
  refine List.map_congr_left fun p hp => ?_
  rw [Function.comp_apply, hb.2 p]
  rw [← mem_product_range, List.map_map]
  exact hp

theorem weightSum_spec (g : GoodReq lens R outInds) {limit : ℕ} (hl : 1 ≤ limit) (W : List ℕ)
    (hW : ∀ i ∈ W, i ∈ R) (w : List ℕ → ℚ) (chunk wchunk : View ℕ → NArr ℚ)
    (hchunk : ∀ c ∈ (inView lens R outInds).loopMem limit [], (chunk c).shape = c.inds.map List.length)
    (hw : ∀ c ∈ (inView lens R outInds).loopMem limit [], IsRead w (weightInds W c.inds) (wchunk c))
    (k : List ℕ) (hk : InBounds (outInds.map List.length) k) :
    (weightSum limit lens R outInds chunk wchunk).get k =
      ((fibre lens R (cell outInds k)).map fun q => w (onAxes W q)).sum := by
  unfold weightSum
  have := accumulate ratHom.cm id (fun (Wt : NArr ℚ) (c : View ℕ) =>
      let pos := outPos lens R outInds c
      let f : ℚ := ((chunk c).shape.prod : ℚ) / (((wchunk c).shape.prod : ℚ) * ((pos.map List.length).prod : ℚ))
      let s := npReduce (· + ·) 0 (wchunk c) R
      updateOuter (· + ·) Wt pos
        { shape := pos.map List.length, get := fun _ => s.get (s.shape.map fun _ => 0) * f })
    (fun c : View ℕ => product c.inds) (dropAxes 0 R) (fun q => w (onAxes W q)) k
    (cell outInds k) ((inView lens R outInds).loopMem limit []) ?_ { shape := outInds.map List.length, get := fun _ => 0 }
  · refine this.trans ?_
    simp only [id_eq, zero_add]
    rw [foldr_add]
    refine (List.Perm.map _ ?_).sum_eq
    exact ((loopMem_partition (inView lens R outInds) limit [] hl (inView_ne g) (by simp)).filter _).trans
      (fibre_perm g k hk)
  · intro out c hc
    obtain ⟨f1, f2, f3, f4⟩ := chunk_facts g hl c hc
    have hd := forall₂_dropAxes [] [] R f3
    rw [inView_drop g] at hd
    obtain ⟨p1, p2⟩ := place_chunk hd k hk
    simp only [id_eq, foldr_add]
    have hposl : (outPos lens R outInds c).map List.length = (dropAxes [] R c.inds).map List.length := by
      rw [outPos_eq c f1]
      have hlen := hd.length_eq
      refine List.ext_getElem (by simp [hlen]) fun i h1 h2 => ?_
      simp
    rw [hposl, outPos_eq c f1]
    simp only [updateOuter]
    by_cases hin : List.Forall₂ (· ∈ ·) (cell outInds k) (dropAxes [] R c.inds)
    · rw [if_pos (p1.2 hin)]
      congr 1
      rw [weight_chunk w W g.rnd hW c.inds (by rw [f1]; exact g.rlt) (wchunk c) (hw c hc), hchunk c hc, (hw c hc).1]
      rw [dropAxes_eq_dropP] at hin ⊢
      have hnd : ∀ l ∈ c.inds, l.Nodup := by
        intro l hl'
        obtain ⟨i, hi, rfl⟩ := List.getElem_of_mem hl'
        rw [List.forall₂_iff_get] at f3
        exact (f3.2 i hi (by rw [← f3.1]; exact hi)).2.1
      have k1 := weight_factor c.inds (fun i => decide (i ∈ R)) (fun i => decide (i ∈ W))
        (fun i hi => by simpa using hW i (by simpa using hi)) hnd _ hin w
      have k2 := size_factor c.inds (fun i => decide (i ∈ R)) (fun i => decide (i ∈ W))
        (fun i hi => by simpa using hW i (by simpa using hi))
      have e : ((product c.inds).filter fun p => decide (dropAxes 0 R p = cell outInds k)) =
          (product c.inds).filter fun q => decide (dropP (fun i => decide (i ∈ R)) q = cell outInds k) :=
        List.filter_congr fun q _ => by rw [dropAxes_eq_dropP]
      rw [e]
      simp only [decide_eq_true_eq] at k1 k2
      change _ = (((product c.inds).filter fun q => decide (dropP (fun i => decide (i ∈ R)) q = cell outInds k)).map
        fun q => w (q.mapIdx fun i x => if i ∈ W then x else 0)).sum
      rw [k1]
      have k3 : weightInds W c.inds = c.inds.mapIdx fun i l => if i ∈ W then l else [0] := rfl
      rw [k3, k2]
      have n1 : (((c.inds.mapIdx fun i l => if i ∈ W then l else [0]).map List.length).prod : ℚ) ≠ 0 := by
        rw [Nat.cast_ne_zero]
        intro h
        rw [List.prod_eq_zero_iff] at h
        obtain ⟨l, hl', h0⟩ := List.mem_map.1 h
        rw [List.mem_mapIdx] at hl'
        obtain ⟨i, hi, rfl⟩ := hl'
        split at h0
        · exact f4 _ (List.getElem_mem hi) (List.length_eq_zero_iff.1 h0)
        · simp at h0
      have n2 : (((dropP (fun i => decide (i ∈ R)) c.inds).map List.length).prod : ℚ) ≠ 0 := by
        rw [Nat.cast_ne_zero]
        intro h
        rw [List.prod_eq_zero_iff] at h
        obtain ⟨l, hl', h0⟩ := List.mem_map.1 h
        rw [List.length_eq_zero_iff] at h0
        subst h0
        obtain ⟨i, hi, h0⟩ := List.getElem_of_mem hl'
        rw [List.forall₂_iff_get] at hin
        have := hin.2 i (by rw [hin.1]; exact hi) hi
        simp only [List.get_eq_getElem, h0] at this
        simp at this
      push_cast
      field_simp
    · rw [if_neg (fun hc => hin (p1.1 hc))]
      have : (product c.inds).filter (fun p => decide (dropAxes 0 R p = cell outInds k)) = [] := by
        rw [List.filter_eq_nil_iff]
        intro q hq
        simp only [decide_eq_true_eq]
        intro heq
        refine hin ?_
        rw [← heq]
        exact forall₂_dropAxes 0 [] R (mem_product.1 hq)
      rw [this]
      simp

end Reduce
end PyGeode
