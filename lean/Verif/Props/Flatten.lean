/-
C93: flattening two axes into one.
-/
import Verif.Model.Flatten
import Verif.Props.Lag
import Verif.Props.Ensemble

namespace PyGeode
open Spec NArr Axis Combine VarOps

namespace Flatten

variable {α : Type}

/-- What a flattened variable shows: position `p` of the flattened axis (at `d`) is position `p / stride` of the outer axis
and `p % stride` of the inner axis. -/
def _root_.PyGeode.Spec.flattened (d stride : ℕ) (data : List ℕ → α) (k : List ℕ) : α :=
  data (k.take d ++ k.getD d 0 / stride :: k.getD d 0 % stride :: k.drop (d + 1))

/-! ### reshaping -/

theorem ravel_merge (m s : ℕ) (post : List ℕ) (i : ℕ) (kq : List ℕ) :
    ∀ (pre kp : List ℕ), kp.length = pre.length →
    ravel (pre ++ (m * s) :: post) (kp ++ i :: kq) = ravel (pre ++ m :: s :: post) (kp ++ i / s :: i % s :: kq)
  | [], [], _ => by
    simp only [List.nil_append, ravel, List.prod_cons]
    rw [← Nat.add_assoc]
    congr 1
    conv_lhs => rw [← Nat.div_add_mod i s]
    ring
  | p :: pre, a :: kp, h => by
    have ih := ravel_merge m s post i kq pre kp (by simpa using h)
    simp only [List.cons_append, ravel, List.prod_append, List.prod_cons] at ih ⊢
    rw [ih, Nat.mul_assoc]

theorem inBounds_split (pre post : List ℕ) (m s i : ℕ) (kp kq : List ℕ) (h1 : InBounds pre kp) (h2 : InBounds post kq)
    (h3 : i < m * s) : InBounds (pre ++ m :: s :: post) (kp ++ i / s :: i % s :: kq) := by
  have hs : 0 < s := Nat.pos_of_ne_zero (by rintro rfl; simp at h3)
  refine List.rel_append h1 (List.Forall₂.cons ?_ (List.Forall₂.cons ?_ h2))
  · exact Nat.div_lt_of_lt_mul (by rwa [Nat.mul_comm])
  · exact Nat.mod_lt _ hs

theorem reshape_merge (r : NArr α) (pre post : List ℕ) (m s i : ℕ) (kp kq : List ℕ) (hr : r.shape = pre ++ m :: s :: post)
    (h1 : InBounds pre kp) (h2 : InBounds post kq) (h3 : i < m * s) :
    (r.reshape (pre ++ (m * s) :: post)).get (kp ++ i :: kq) = r.get (kp ++ i / s :: i % s :: kq) := by
  simp only [reshape]
  rw [hr, ravel_merge m s post i kq pre kp h1.length_eq, unravel_ravel (inBounds_split pre post m s i kp kq h1 h2 h3)]

/-! ### reading nothing -/

theorem read_empty (nr : List ℚ → ℚ) (junk : List ℕ → α) (x : Var α) (hR : Regular x.axes) (I : List (List ℕ))
    (hl : I.length = x.axes.length) (he : [] ∈ I) : ∃ r, x.read nr junk ⟨x.axes, I⟩ = some r ∧ r.shape.prod = 0 := by
  have hm : View.mapTo axEq (viewMapAx nr) Axis.len true ⟨x.axes, I⟩ x.axes =
      some ((List.range x.axes.length).map fun i => (some i, I.getD i [])) := by
    unfold View.mapTo
    apply mapM_forall₂
    rw [List.forall₂_iff_get]
    refine ⟨by simp, fun i hi hi' => ?_⟩
    simp only [List.get_eq_getElem, List.getElem_map, List.getElem_range]
    rw [Loop.mapAxis_at nr _ _ (hR.cls _ (List.getElem_mem hi)) hl i hi _ (I.getD i [])]
    · have : axEq x.axes[i] x.axes[i] = true := by simp [axEq]
      simp only
      rw [if_pos this]
      trivial
    · intro j hj hne
      exact hR.incompatible hi hj (Ne.symm hne)
  set m : List (Option ℕ × List ℕ) := (List.range x.axes.length).map fun i => (some i, I.getD i []) with hmd
  have hm2 : m.map (fun p => p.2.length) = I.map List.length := by
    rw [hmd, List.map_map]
    refine List.ext_getElem (by simp [hl]) fun i hi hi' => ?_
    simp only [List.getElem_map, List.getElem_range, Function.comp_apply]
    rw [List.getD_eq_getElem I _ (by simpa using hi')]
  have h0 : 0 ∈ m.map (fun p => p.2.length) := by
    rw [hm2]
    exact List.mem_map.2 ⟨[], he, rfl⟩
  have hml : m.length = x.axes.length := by simp [hmd]
  have ho : ∀ i < x.axes.length, ((View.orderOf x.axes.length m).getD i none).isSome = true := by
    intro i hi
    unfold View.orderOf
    rw [List.getD_eq_getElem _ _ (by simpa using hi)]
    simp only [List.getElem_map, List.getElem_range]
    rw [List.getLast?_isSome, ne_eq, List.filter_eq_nil_iff]
    intro h
    refine h i (by simpa [hml] using hi) ?_
    rw [List.getD_eq_getElem _ _ (by omega)]
    simp [hmd]
  refine ⟨{ shape := I.map List.length, get := junk }, ?_, ?_⟩
  · unfold Var.read View.get
    rw [hm]
    simp only [Option.map_some]
    rw [if_pos h0]
    congr 2
    rw [hm2]
    refine List.ext_getElem (by simp [View.orderOf, hl]) fun i hi hi' => ?_
    have hi2 : i < x.axes.length := by simpa [hl] using hi'
    rw [List.getElem_zipWith]
    have h3 := ho i hi2
    rw [List.getD_eq_getElem _ _ (by simpa [View.orderOf] using hi2)] at h3
    rw [if_pos h3]
  · exact List.prod_eq_zero (List.mem_map.2 ⟨[], he, rfl⟩)

/-! ### one piece -/

theorem cell_append (A B : List (List ℕ)) (k l : List ℕ) (h : A.length = k.length) :
    cell (A ++ B) (k ++ l) = cell A k ++ cell B l := by
  unfold cell
  rw [List.zipWith_append h]

theorem piece_spec (nr : List ℚ → ℚ) (junk : List ℕ → α) (x : Var α) (data : List ℕ → α) (hx : Contains x data)
    (hR : Regular x.axes) (d : ℕ) (hd : d + 1 < x.axes.length) (Y : List Axis) (I : List (List ℕ))
    (hIl : I.length + 1 = x.axes.length)
    (h1 : InRange ((x.axes.take d).map Axis.len) (I.take d)) (h2 : InRange ((x.axes.drop (d + 2)).map Axis.len) (I.drop (d + 1)))
    (hne : ∀ ind ∈ I, ind ≠ []) (u w p q : ℕ) (hu : u ≤ w) (hw : w ≤ x.axes[d].len) (hp : p ≤ q)
    (hq : q ≤ (x.axes[d + 1]'(by omega)).len) (n : ℕ) (hn : n = (w - u) * (q - p)) :
    ∃ r, piece nr junk x d x.axes[d].len (x.axes[d + 1]'(by omega)).len ⟨Y, I⟩ ((u : ℤ), (w : ℤ)) ((p : ℤ), (q : ℤ)) n = some r ∧
      r.shape = (I.map List.length).set d n ∧
      ∀ (kp kq : List ℕ) (i : ℕ), InBounds ((I.take d).map List.length) kp → InBounds ((I.drop (d + 1)).map List.length) kq → i < n →
        r.get (kp ++ i :: kq) = data (cell (I.take d) kp ++ (u + i / (q - p)) :: (p + i % (q - p)) :: cell (I.drop (d + 1)) kq) := by
  have hd' : d < I.length := by omega
  obtain ⟨po, ho1, ho2, -⟩ := Lag.expand_range u x.axes[d].len (w : ℤ)
  obtain ⟨pi, hi1, hi2, -⟩ := Lag.expand_range p (x.axes[d + 1]'(by omega)).len (q : ℤ)
  have ho3 := ho2 (by omega)
  have hi3 := hi2 (by omega)
  simp only [Int.toNat_natCast] at ho3 hi3
  have hany : ∀ (l : List ℤ) (a b N : ℕ), a ≤ b → b ≤ N → l.map Int.toNat = List.range' a (b - a) →
      l.any (fun p => decide ((N : ℤ) ≤ p)) = false := by
    intro l a b N hab hbN hl
    rw [List.any_eq_false]
    intro t ht
    have : t.toNat ∈ List.range' a (b - a) := hl ▸ List.mem_map_of_mem ht
    rw [List.mem_range'_1] at this
    simp only [decide_eq_true_eq]
    omega
  set K := I.take d ++ List.range' u (w - u) :: List.range' p (q - p) :: I.drop (d + 1) with hK
  have hKl : K.length = x.axes.length := by simp [hK]; omega
  have hax : x.axes.map Axis.len = (x.axes.take d).map Axis.len ++ x.axes[d].len :: (x.axes[d + 1]'(by omega)).len ::
      (x.axes.drop (d + 2)).map Axis.len := by
    conv_lhs => rw [← List.take_append_drop d x.axes]
    rw [List.map_append, List.drop_eq_getElem_cons (by omega : d < x.axes.length), List.map_cons,
      List.drop_eq_getElem_cons (by omega : d + 1 < x.axes.length), List.map_cons]
  have hKr : InRange (x.axes.map Axis.len) K := by
    rw [hax]
    refine List.rel_append h1 (List.Forall₂.cons ?_ (List.Forall₂.cons ?_ h2))
    · intro i hi; rw [List.mem_range'_1] at hi; omega
    · intro i hi; rw [List.mem_range'_1] at hi; omega
  have hshape : (I.map List.length).set d n = (I.take d).map List.length ++ n :: (I.drop (d + 1)).map List.length := by
    rw [List.set_eq_take_append_cons_drop, if_pos (by simpa using hd'), List.map_take, List.map_drop]
  have hread : ∃ r, x.read nr junk ⟨x.axes, K⟩ = some r ∧ r.shape.prod = ((I.map List.length).set d n).prod ∧
      (0 < n → IsRead data K r) := by
    rcases Nat.eq_zero_or_pos n with h0 | hpos
    · have : [] ∈ K := by
        rw [h0] at hn
        rcases Nat.mul_eq_zero.1 hn.symm with h | h
        · simp [hK, h]
        · simp [hK, h]
      obtain ⟨r, hr1, hr2⟩ := read_empty nr junk x hR K hKl this
      refine ⟨r, hr1, ?_, fun h => by omega⟩
      rw [hr2, hshape, h0]
      simp
    · have hpos' : 0 < (w - u) ∧ 0 < (q - p) := by
        rw [hn] at hpos
        exact ⟨Nat.pos_of_mul_pos_right hpos, Nat.pos_of_mul_pos_left hpos⟩
      obtain ⟨r, hr1, hr2⟩ := read_own nr junk x data hx hR K hKr (by
        intro ind hind
        rw [hK, List.mem_append, List.mem_cons, List.mem_cons] at hind
        rcases hind with h | h | h | h
        · exact hne _ (List.mem_of_mem_take h)
        · rw [h]; intro h; have := congrArg List.length h; simp at this; omega
        · rw [h]; intro h; have := congrArg List.length h; simp at this; omega
        · exact hne _ (List.mem_of_mem_drop h))
      refine ⟨r, hr1, ?_, fun _ => hr2⟩
      rw [hr2.1, hshape, hK, hn]
      simp [Nat.mul_assoc]
  obtain ⟨r, hr1, hr2, hr3⟩ := hread
  refine ⟨r.reshape ((I.map List.length).set d n), ?_, rfl, fun kp kq i hkp hkq hi => ?_⟩
  · unfold piece
    rw [ho1, Option.bind_some, hi1, Option.bind_some, hany po u w _ hu hw ho3, hany pi p q _ hp hq hi3, ho3, hi3]
    simp only [Bool.or_self, Bool.false_eq_true, if_false]
    rw [← hK, hr1, Option.bind_some]
    have : (View.shape ⟨Y, I⟩) = I.map List.length := rfl
    rw [this, if_pos hr2]
  · have hr := hr3 (by omega)
    have hsh : r.shape = (I.take d).map List.length ++ (w - u) :: (q - p) :: (I.drop (d + 1)).map List.length := by
      rw [hr.1, hK]; simp
    rw [hshape, hn, reshape_merge r _ _ (w - u) (q - p) i kp kq hsh hkp hkq (by omega)]
    have hb := inBounds_split _ _ (w - u) (q - p) i kp kq hkp hkq (by omega)
    have hs : 0 < q - p := Nat.pos_of_ne_zero (by intro h; rw [h] at hn; omega)
    rw [hr.2 _ (by rw [← hr.1, hsh]; exact hb), hK, cell_append _ _ _ _ (by simpa using hkp.length_eq.symm)]
    congr 2
    unfold cell
    simp only [List.zipWith_cons_cons]
    have g1 : i / (q - p) < w - u := Nat.div_lt_of_lt_mul (by rw [Nat.mul_comm]; omega)
    have g2 : i % (q - p) < q - p := Nat.mod_lt _ hs
    rw [List.getD_eq_getElem _ _ (by simpa using g1), List.getD_eq_getElem _ _ (by simpa using g2), List.getElem_range', List.getElem_range']
    simp

/-! ### contiguous requests -/

theorem simplify_range (a n : ℕ) (hn : 0 < n) :
    simplify ((List.range' a n).map fun i : ℕ => (i : ℤ)) = .slice ⟨some (a : ℤ), some ((a + n : ℕ) : ℤ), some 1⟩ := by
  obtain ⟨m, rfl⟩ : ∃ m, n = m + 1 := ⟨n - 1, by omega⟩
  have hh : ((List.range' a (m + 1)).map fun i : ℕ => (i : ℤ)).headD 0 = (a : ℤ) := by
    rw [List.range'_succ]; rfl
  rw [simplify_consecutive _ (by simp) (by rw [hh]; omega) ?_, hh]
  · simp
  · intro k hk
    simp only [List.length_map, List.length_range'] at hk
    rw [List.getD_eq_getElem _ _ (by simpa using hk), List.getD_eq_getElem _ _ (by simp; omega)]
    simp only [List.getElem_map, List.getElem_range']
    push_cast
    ring

theorem concat3_shape (d : ℕ) (S : List ℕ) (a b c : NArr α) (n m : ℕ) (h0 : a.shape.getD d 0 = n) (h1 : b.shape.getD d 0 = m)
    (hS : n + m + c.shape.getD d 0 = S.getD d 0) (hd : d < S.length) : (concat3 d S a b c).shape = S := by
  unfold concat3
  simp only [h0, h1, hS]
  rw [List.getD_eq_getElem _ _ hd, List.set_getElem_self]

theorem set_mid (kp kq : List ℕ) (i j : ℕ) : (kp ++ i :: kq).set kp.length j = kp ++ j :: kq := by
  rw [List.set_append_right _ _ (le_refl _), Nat.sub_self, List.set_cons_zero]

theorem getD_mid (kp kq : List ℕ) (i : ℕ) : (kp ++ i :: kq).getD kp.length 0 = i := by
  rw [List.getD_append_right _ _ _ _ (le_refl _), Nat.sub_self]; rfl

/-- the block of positions `a, a+1, ..., a+n-1` of the flattened axis as three pieces or one -/
theorem flattenView_spec (nr : List ℚ → ℚ) (junk : List ℕ → α) (x : Var α) (data : List ℕ → α) (hx : Contains x data)
    (hR : Regular x.axes) (d : ℕ) (hd : d + 1 < x.axes.length) (Y : List Axis) (I : List (List ℕ))
    (hIl : I.length + 1 = x.axes.length)
    (h1 : InRange ((x.axes.take d).map Axis.len) (I.take d)) (h2 : InRange ((x.axes.drop (d + 2)).map Axis.len) (I.drop (d + 1)))
    (hne : ∀ ind ∈ I, ind ≠ []) (a b : ℕ) (st : Option ℤ)
    (hsim : simplify ((I.getD d []).map fun i : ℕ => (i : ℤ)) = .slice ⟨some (a : ℤ), some (b : ℤ), st⟩) (hab : a < b)
    (hb : b ≤ x.axes[d].len * (x.axes[d + 1]'(by omega)).len)
    (hone : b ≤ (a / (x.axes[d + 1]'(by omega)).len + 1) * (x.axes[d + 1]'(by omega)).len → (I.getD d []).length = b - a) :
    ∃ r, flattenView nr junk x d x.axes[d].len (x.axes[d + 1]'(by omega)).len ⟨Y, I⟩ = some r ∧
      r.shape = (I.map List.length).set d (b - a) ∧
      ∀ (kp kq : List ℕ) (i : ℕ), InBounds ((I.take d).map List.length) kp → InBounds ((I.drop (d + 1)).map List.length) kq → i < b - a →
        r.get (kp ++ i :: kq) = data (cell (I.take d) kp ++ (a + i) / (x.axes[d + 1]'(by omega)).len ::
          (a + i) % (x.axes[d + 1]'(by omega)).len :: cell (I.drop (d + 1)) kq) := by
  have hd' : d < I.length := by omega
  have hpiece := piece_spec nr junk x data hx hR d hd Y I hIl h1 h2 hne
  set lo := x.axes[d].len with hlo
  set s := (x.axes[d + 1]'(by omega)).len with hs
  have hs0 : 0 < s := Nat.pos_of_ne_zero (by intro h; rw [h] at hb; omega)
  set u := a / s with hu
  have hdm := Nat.div_add_mod a s
  have hml := Nat.mod_lt a hs0
  rw [← hu] at hdm
  -- the number of rows touched
  obtain ⟨w, hw1, hw2⟩ : ∃ w, (w - 1) * s < b ∧ b ≤ w * s ∧ 0 < w := by
    refine ⟨(b + s - 1) / s, ?_, ?_, ?_⟩
    · have := Nat.div_mul_le_self (b + s - 1) s
      rw [Nat.sub_mul]
      have h0 : 0 < (b + s - 1) / s * s := Nat.mul_pos (Nat.div_pos (by omega) hs0) hs0
      omega
    · have := Nat.lt_div_mul_add (a := b + s - 1) hs0
      omega
    · exact Nat.div_pos (by omega) hs0
  obtain ⟨hw2, hw0⟩ := hw2
  obtain ⟨t, rfl⟩ : ∃ t, w = t + 1 := ⟨w - 1, by omega⟩
  rw [Nat.add_sub_cancel] at hw1
  rw [Nat.add_mul, Nat.one_mul] at hw2
  have hut : u ≤ t := by
    by_contra h
    have : (t + 1) * s ≤ u * s := Nat.mul_le_mul_right _ (by omega)
    rw [Nat.add_mul, Nat.one_mul] at this
    rw [Nat.mul_comm s u] at hdm
    omega
  have htlo : t + 1 ≤ lo := by
    by_contra h
    have : lo * s ≤ t * s := Nat.mul_le_mul_right _ (by omega)
    omega
  rw [Nat.mul_comm s u] at hdm
  have hz0 : (a : ℤ) / (s : ℤ) = (u : ℤ) := by rw [hu]; norm_cast
  have hz1 : -(-(b : ℤ) / (s : ℤ)) = ((t + 1 : ℕ) : ℤ) := by
    have : -(b : ℤ) / (s : ℤ) = -((t : ℤ) + 1) := by
      rw [Int.ediv_eq_iff_of_pos (by omega)]
      have e1 : ((t * s : ℕ) : ℤ) < (b : ℤ) := by omega
      have e2 : (b : ℤ) ≤ ((t * s + s : ℕ) : ℤ) := by omega
      push_cast at e1 e2
      constructor <;> nlinarith
    rw [this]; push_cast; ring
  clear_value u
  by_cases hone' : u = t
  · -- one row
    subst hone'
    have hlen := hone (by rw [Nat.add_mul, Nat.one_mul]; omega)
    obtain ⟨r, hr1, hr2, hr3⟩ := hpiece u (u + 1) (a - u * s) (b - u * s) (by omega) htlo (by omega) (by omega) (b - a)
      (by rw [Nat.add_sub_cancel_left, Nat.one_mul]; omega)
    refine ⟨r, ?_, hr2, fun kp kq i hkp hkq hi => ?_⟩
    · unfold flattenView
      dsimp only
      rw [hsim]
      simp only
      rw [hz0, hz1, if_pos (by push_cast; omega)]
      have e1 : (a : ℤ) - (u : ℤ) * (s : ℤ) = ((a - u * s : ℕ) : ℤ) := by push_cast [show u * s ≤ a by omega]; ring
      have e2 : (b : ℤ) - (u : ℤ) * (s : ℤ) = ((b - u * s : ℕ) : ℤ) := by push_cast [show u * s ≤ b by omega]; ring
      rw [e1, e2]
      have e3 : (View.shape ⟨Y, I⟩).getD d 0 = b - a := by
        rw [← hlen]
        show (I.map List.length).getD d 0 = _
        rw [List.getD_eq_getElem (I.map List.length) _ (by simpa using hd'), List.getElem_map, List.getD_eq_getElem I _ hd']
      rw [e3]
      exact hr1
    · rw [hr3 kp kq i hkp hkq hi]
      have e1 : b - u * s - (a - u * s) = b - a := by omega
      rw [e1, Nat.div_eq_of_lt hi, Nat.mod_eq_of_lt hi]
      have e2 : a + i = u * s + (a - u * s + i) := by omega
      have e3 : (a + i) / s = u := by
        rw [e2, Nat.mul_comm u s, Nat.mul_add_div hs0, Nat.div_eq_of_lt (by rw [Nat.mul_comm s u]; omega)]; rfl
      have e4 : (a + i) % s = a - u * s + i := by
        rw [e2, Nat.mul_comm u s, Nat.mul_add_mod, Nat.mod_eq_of_lt (by rw [Nat.mul_comm s u]; omega), Nat.mul_comm s u]
      rw [e3, e4]; rfl
  · -- first, interior and last rows
    have hut' : u + 1 ≤ t := by omega
    have hmul : (u + 1) * s + (t - (u + 1)) * s = t * s := by rw [← Nat.add_mul]; congr 1; omega
    rw [Nat.add_mul, Nat.one_mul] at hmul
    obtain ⟨r0, hr1, hr2, hr3⟩ := hpiece u (u + 1) (a - u * s) s (by omega) (by omega) (by omega) (le_refl _) (s - (a - u * s))
      (by rw [Nat.add_sub_cancel_left, Nat.one_mul])
    obtain ⟨m0, hm1, hm2, hm3⟩ := hpiece (u + 1) t 0 s (by omega) (by omega) (by omega) (le_refl _) ((t - (u + 1)) * s) (by simp)
    obtain ⟨l0, hl1, hl2, hl3⟩ := hpiece t (t + 1) 0 (b - t * s) (by omega) (by omega) (by omega) (by omega) (b - t * s)
      (by rw [Nat.add_sub_cancel_left, Nat.one_mul, Nat.sub_zero])
    generalize hM : (t - (u + 1)) * s = M at *
    have hgd : ∀ n : ℕ, ((I.map List.length).set d n).getD d 0 = n := by
      intro n
      rw [List.getD_eq_getElem _ _ (by simpa using hd'), List.getElem_set_self]
    have hsum : s - (a - u * s) + M + (b - t * s) = b - a := by omega
    refine ⟨concat3 d (I.map List.length) r0 m0 l0, ?_, ?_, fun kp kq i hkp hkq hi => ?_⟩
    · unfold flattenView
      dsimp only
      rw [hsim]
      simp only
      rw [hz0, hz1, if_neg (by push_cast; omega)]
      have e1 : (a : ℤ) - (u : ℤ) * (s : ℤ) = ((a - u * s : ℕ) : ℤ) := by push_cast [show u * s ≤ a by omega]; ring
      have e2 : (b : ℤ) - (((t + 1 : ℕ) : ℤ) - 1) * (s : ℤ) = ((b - t * s : ℕ) : ℤ) := by
        push_cast [show t * s ≤ b by omega]; ring
      have e3 : ((t + 1 : ℕ) : ℤ) - 1 = (t : ℤ) := by push_cast; ring
      have e4 : (u : ℤ) + 1 = ((u + 1 : ℕ) : ℤ) := by push_cast; ring
      rw [e2, e1, e3, e4]
      have e5 : ((s : ℤ) - ((a - u * s : ℕ) : ℤ)).toNat = s - (a - u * s) := by omega
      have e6 : (((t : ℤ) - ((u + 1 : ℕ) : ℤ)) * (s : ℤ)).toNat = M := by
        rw [← hM]
        have : ((t : ℤ) - ((u + 1 : ℕ) : ℤ)) = ((t - (u + 1) : ℕ) : ℤ) := by omega
        rw [this]
        norm_cast
      have e7 : (((b - t * s : ℕ) : ℤ)).toNat = b - t * s := by omega
      have e8 : (0 : ℤ) = ((0 : ℕ) : ℤ) := rfl
      rw [e5, e6, e7, e8, hr1, Option.bind_some, hm1, Option.bind_some, hl1, Option.bind_some]
      rfl
    · unfold concat3
      simp only
      rw [hr2, hm2, hl2, hgd, hgd, hgd, hsum]
    · have hkpl : kp.length = d := by rw [hkp.length_eq]; simp; omega
      unfold concat3
      simp only
      rw [hr2, hm2, hgd, hgd, ← hkpl, getD_mid]
      simp only [set_mid]
      rw [hkpl]
      split_ifs with c1 c2
      · rw [hr3 kp kq i hkp hkq c1, Nat.div_eq_of_lt c1, Nat.mod_eq_of_lt c1]
        have e2 : a + i = u * s + (a - u * s + i) := by omega
        have e3 : (a + i) / s = u := by
          rw [e2, Nat.mul_comm u s, Nat.mul_add_div hs0, Nat.div_eq_of_lt (by rw [Nat.mul_comm s u]; omega)]; rfl
        have e4 : (a + i) % s = a - u * s + i := by
          rw [e2, Nat.mul_comm u s, Nat.mul_add_mod, Nat.mod_eq_of_lt (by rw [Nat.mul_comm s u]; omega), Nat.mul_comm s u]
        rw [e3, e4]; rfl
      · rw [hm3 kp kq _ hkp hkq (by omega)]
        simp only [Nat.sub_zero, Nat.zero_add]
        have e2 : a + i = (u + 1) * s + (i - (s - (a - u * s))) := by rw [Nat.add_mul, Nat.one_mul]; omega
        rw [e2, Nat.mul_comm (u + 1) s, Nat.mul_add_div hs0, Nat.mul_add_mod]
      · rw [hl3 kp kq _ hkp hkq (by omega)]
        simp only [Nat.sub_zero, Nat.zero_add]
        set j := i - (s - (a - u * s)) - M with hj
        have hj' : j < b - t * s := by omega
        rw [Nat.div_eq_of_lt hj', Nat.mod_eq_of_lt hj']
        have e2 : a + i = t * s + j := by omega
        rw [e2, Nat.mul_comm t s, Nat.mul_add_div hs0, Nat.mul_add_mod, Nat.div_eq_of_lt (by omega), Nat.mod_eq_of_lt (by omega)]

/-! ### requests to the flattened variable -/

/-- a request only looks at the answer to the sorted request without repeats; if that differs from the request itself, only
at the elements of the answer, not at its shape -/
theorem read_congr (nr : List ℚ → ℚ) (junk : List ℕ → α) (axes : List Axis) (hR : Regular axes) (s s' : View.Source Axis α)
    (I : List (List ℕ)) (hl : I.length = axes.length)
    (h1 : (I.all fun ind => decide (uniq ind = ind) || decide ((uniq ind).length = 1)) = true →
      View.read s ⟨axes, I⟩ = View.read s' ⟨axes, I⟩)
    (h2 : (I.all fun ind => decide (uniq ind = ind) || decide ((uniq ind).length = 1)) = false →
      (View.read s ⟨axes, I.map uniq⟩).get = (View.read s' ⟨axes, I.map uniq⟩).get) :
    Var.read nr junk ⟨axes, s⟩ ⟨axes, I⟩ = Var.read nr junk ⟨axes, s'⟩ ⟨axes, I⟩ := by
  obtain ⟨m, hm, hmI⟩ := Loop.mapTo_own nr axes hR I hl true
  unfold Var.read View.get
  rw [hm]
  simp only [Option.map_some]
  have : View.readUnique s ⟨axes, m.map Prod.snd⟩ = View.readUnique s' ⟨axes, m.map Prod.snd⟩ := by
    rw [hmI]
    unfold View.readUnique
    dsimp only
    split_ifs with h
    · exact h1 h
    · unfold outer
      rw [h2 (by simpa using h)]
  rw [this]

theorem uniq_range' (a n : ℕ) : uniq (List.range' a n) = List.range' a n := by
  unfold uniq
  rw [List.Nodup.dedup List.nodup_range']
  refine List.Pairwise.insertionSort_eq ?_
  exact (List.pairwise_lt_range' (s := a) (n := n)).imp fun h => le_of_lt h

theorem uniq_ne_nil {l : List ℕ} (h : l ≠ []) : uniq l ≠ [] := by
  unfold uniq
  intro h'
  have := congrArg List.length h'
  rw [List.length_insertionSort] at this
  simp at this
  exact h this

theorem mem_uniq {l : List ℕ} {a : ℕ} : a ∈ uniq l ↔ a ∈ l := by
  unfold uniq
  rw [List.mem_insertionSort, List.mem_dedup]

theorem inRange_uniq {L : List ℕ} {I : List (List ℕ)} (h : InRange L I) : InRange L (I.map uniq) := by
  unfold InRange at *
  induction h with
  | nil => exact List.Forall₂.nil
  | cons a b ih => exact List.Forall₂.cons (fun i hi => a i (mem_uniq.1 hi)) ih

theorem inRange_parts {A B : List ℕ} {n : ℕ} {I : List (List ℕ)} (h : InRange (A ++ n :: B) I) :
    InRange A (I.take A.length) ∧ InRange B (I.drop (A.length + 1)) := by
  unfold InRange at *
  refine ⟨?_, ?_⟩
  · have := List.forall₂_take A.length h
    rwa [List.take_left] at this
  · have := List.forall₂_drop (A.length + 1) h
    have e : (A ++ n :: B).drop (A.length + 1) = B := by
      rw [List.drop_append, List.drop_of_length_le (by omega), Nat.add_sub_cancel_left, List.nil_append]; rfl
    rwa [e] at this

/-- the answer to a request that is contiguous along the flattened axis -/
theorem flattenView_read (nr : List ℚ → ℚ) (junk : List ℕ → α) (x : Var α) (data : List ℕ → α) (hx : Contains x data)
    (hR : Regular x.axes) (d : ℕ) (hd : d + 1 < x.axes.length) (f : Axis)
    (hf : f.len = x.axes[d].len * (x.axes[d + 1]'hd).len) (I : List (List ℕ))
    (hI : InRange ((x.axes.take d ++ f :: x.axes.drop (d + 2)).map Axis.len) I) (hne : ∀ ind ∈ I, ind ≠ [])
    (a n : ℕ) (hc : I.getD d [] = List.range' a n) :
    ∃ r, flattenView nr junk x d x.axes[d].len (x.axes[d + 1]'hd).len ⟨x.axes.take d ++ f :: x.axes.drop (d + 2), I⟩ = some r ∧
      IsRead (flattened d (x.axes[d + 1]'hd).len data) I r := by
  have hIl : I.length + 1 = x.axes.length := by rw [hI.length_eq]; simp; omega
  have hdI : d < I.length := by omega
  have hparts := inRange_parts (A := (x.axes.take d).map Axis.len) (B := (x.axes.drop (d + 2)).map Axis.len) (n := f.len) (I := I)
    (by simpa using hI)
  have htk : ((x.axes.take d).map Axis.len).length = d := by simp; omega
  rw [htk] at hparts
  have hn0 : 0 < n := by
    rcases Nat.eq_zero_or_pos n with h | h
    · exact absurd (by rw [hc, h]; rfl) (hne _ (getD_mem hdI))
    · exact h
  have hab : a + n ≤ f.len := by
    have h := Along.inRange_get hI d hdI (a + n - 1) (by rw [hc, List.mem_range'_1]; omega)
    rw [List.map_append, List.map_cons, List.getD_append_right _ _ _ _ (by rw [htk]), htk, Nat.sub_self, List.getD_cons_zero] at h
    omega
  rw [hf] at hab
  obtain ⟨r, h1, h2, h3⟩ := flattenView_spec nr junk x data hx hR d hd (x.axes.take d ++ f :: x.axes.drop (d + 2)) I hIl hparts.1
    hparts.2 hne a (a + n) (some 1) (by rw [hc]; exact simplify_range a n hn0) (by omega) hab (by rw [hc]; simp)
  rw [Nat.add_sub_cancel_left] at h2 h3
  have hset : (I.map List.length).set d n = I.map List.length := by
    have : n = (I.map List.length)[d]'(by simpa using hdI) := by
      rw [List.getElem_map, ← List.getD_eq_getElem I [] hdI, hc, List.length_range']
    conv_lhs => rw [this]
    exact List.set_getElem_self _
  rw [hset] at h2
  refine ⟨r, h1, h2, fun k hk => ?_⟩
  have hkl : k.length = I.length := by simpa using hk.length_eq
  have hkd : k = k.take d ++ k.getD d 0 :: k.drop (d + 1) := by
    conv_lhs => rw [← List.take_append_drop d k]
    rw [List.drop_eq_getElem_cons (by omega), List.getD_eq_getElem k _ (by omega)]
  have hkp : InBounds ((I.take d).map List.length) (k.take d) := by
    rw [List.map_take]; exact List.forall₂_take d hk
  have hkq : InBounds ((I.drop (d + 1)).map List.length) (k.drop (d + 1)) := by
    rw [List.map_drop]; exact List.forall₂_drop (d + 1) hk
  have hkn : k.getD d 0 < n := by
    have := InBounds.lt hk (i := d) (by simpa using hdI)
    rwa [List.getD_eq_getElem (I.map List.length) _ (by simpa using hdI), List.getElem_map, ← List.getD_eq_getElem I [] hdI, hc,
      List.length_range'] at this
  conv_lhs => rw [hkd]
  rw [h3 _ _ _ hkp hkq hkn]
  unfold flattened
  have hcd : (cell I k).getD d 0 = a + k.getD d 0 := by
    rw [getD_cell _ _ _ (by omega) (by omega), hc, List.getD_eq_getElem _ _ (by simpa using hkn), List.getElem_range', Nat.one_mul]
  have hct : (cell I k).take d = cell (I.take d) (k.take d) := by unfold cell; rw [List.take_zipWith]
  have hcdr : (cell I k).drop (d + 1) = cell (I.drop (d + 1)) (k.drop (d + 1)) := by unfold cell; rw [List.drop_zipWith]
  rw [hcd, hct, hcdr]

/-- C93: flattening joins an axis and the axis before it into one whose position `p` is position `p / stride` of the outer
and `p % stride` of the inner axis: a request for consecutive positions of the flattened axis (and any request along the
other axes) shows those data, within one row, across a row boundary or over many rows. Other requests are not all answered
correctly, see `flatten_scrambled`. -/
theorem flatten_correct (nr : List ℚ → ℚ) (junk : List ℕ → α) (mk : List ℚ → Axis) (x y : Var α) (d : ℕ)
    (data : List ℕ → α) (ao ai : Axis) (hx : Contains x data) (hR : Regular x.axes) (hao : x.axes[d]? = some ao)
    (hai : x.axes[d + 1]? = some ai) (hmk : ∀ l, (mk l).values = l) (hy : flatten nr junk mk x (d + 1) = some y)
    (hRy : Regular y.axes) :
    y.axes = x.axes.take d ++ mk (flatValues ao.values ai.values) :: x.axes.drop (d + 2) ∧
    ∀ I : List (List ℕ), InRange (y.axes.map Axis.len) I → (∀ ind ∈ I, ind ≠ []) → (∃ a n, I.getD d [] = List.range' a n) →
      ∃ r, y.read nr junk ⟨y.axes, I⟩ = some r ∧ IsRead (flattened d ai.len data) I r := by
  classical
  obtain ⟨hd0, rfl⟩ := List.getElem?_eq_some_iff.1 hao
  obtain ⟨hd, rfl⟩ := List.getElem?_eq_some_iff.1 hai
  unfold flatten at hy
  rw [if_neg (by omega), Nat.add_sub_cancel, hao, Option.bind_some, hai, Option.map_some] at hy
  set f := mk (flatValues x.axes[d].values (x.axes[d + 1]).values) with hf
  have hflen : f.len = x.axes[d].len * x.axes[d + 1].len := by
    show f.values.length = _
    rw [hf, hmk]
    unfold flatValues
    simp [Axis.len]
  obtain rfl := Option.some.inj hy
  refine ⟨rfl, fun I hI hne hc => ?_⟩
  set Y := x.axes.take d ++ f :: x.axes.drop (d + 2) with hY
  set fv : View Axis → NArr α := fun v => (flattenView nr junk x d x.axes[d].len x.axes[d + 1].len v).getD { shape := [], get := junk }
    with hfv
  set g : View Axis → NArr α := fun v => if IsRead (flattened d x.axes[d + 1].len data) v.inds (fv v) then fv v
    else { shape := v.inds.map List.length, get := fun k => flattened d x.axes[d + 1].len data (cell v.inds k) } with hg
  have hgood : ∀ J, InRange (Y.map Axis.len) J → (∀ ind ∈ J, ind ≠ []) → (∃ a n, J.getD d [] = List.range' a n) →
      fv ⟨Y, J⟩ = g ⟨Y, J⟩ := by
    rintro J hJ hJne ⟨a, n, hJc⟩
    obtain ⟨r, h1, h2⟩ := flattenView_read nr junk x data hx hR d hd f hflen J hJ hJne a n hJc
    have : fv ⟨Y, J⟩ = r := by rw [hfv]; dsimp only; rw [h1]; rfl
    rw [hg]
    dsimp only
    rw [this, if_pos h2]
  have hyc : Contains (⟨Y, .getview g⟩ : Var α) (flattened d x.axes[d + 1].len data) := by
    intro J _ _
    show IsRead _ J (g ⟨Y, J⟩)
    rw [hg]
    dsimp only
    split_ifs with h
    · exact h
    · exact ⟨rfl, fun k _ => rfl⟩
  have hIl : I.length = Y.length := by rw [hI.length_eq, List.length_map]; rfl
  obtain ⟨r, h1, h2⟩ := read_own nr junk (⟨Y, .getview g⟩ : Var α) _ hyc hRy I hI hne
  refine ⟨r, ?_, h2⟩
  rw [← h1]
  refine read_congr nr junk Y hRy _ _ I hIl (fun _ => hgood I hI hne hc) (fun _ => ?_)
  have : fv ⟨Y, I.map uniq⟩ = g ⟨Y, I.map uniq⟩ := by
    refine hgood _ (inRange_uniq hI) ?_ ?_
    · intro ind hind
      obtain ⟨l, hl, rfl⟩ := List.mem_map.1 hind
      exact uniq_ne_nil (hne l hl)
    · obtain ⟨a, n, h⟩ := hc
      refine ⟨a, n, ?_⟩
      have : ([] : List ℕ) = uniq [] := by decide
      conv_lhs => rw [this]
      rw [List.getD_map, h, uniq_range']
  exact congrArg NArr.get this

theorem uniq_pair {c : ℕ} (h : 0 < c) : uniq [c, 0] = [0, c] := by
  have h1 : ([c, 0] : List ℕ).dedup = [c, 0] := List.Nodup.dedup (by simp; omega)
  unfold uniq
  rw [h1]
  simp only [List.insertionSort, List.foldr, List.orderedInsert]
  rw [if_neg (by omega)]

/-- C93 fails for requests with gaps that are out of order or repeat: asking a flattened variable for position `c` (two
rows or more below the end) and then position 0 shows the data of position 1 in place of position `c` - for every flattened
variable, without an error. -/
theorem flatten_scrambled (nr : List ℚ → ℚ) (junk : List ℕ → α) (mk : List ℚ → Axis) (x y : Var α) (d : ℕ)
    (data : List ℕ → α) (ao ai : Axis) (hx : Contains x data) (hR : Regular x.axes) (hao : x.axes[d]? = some ao)
    (hai : x.axes[d + 1]? = some ai) (hmk : ∀ l, (mk l).values = l) (hy : flatten nr junk mk x (d + 1) = some y)
    (hRy : Regular y.axes) (c : ℕ) (hc1 : ai.len ≤ c) (hc2 : 2 ≤ c) (hc3 : 2 * c ≤ ao.len * ai.len)
    (I : List (List ℕ)) (hI : InRange (y.axes.map Axis.len) I) (hne : ∀ ind ∈ I, ind ≠ []) (hId : I.getD d [] = [c, 0]) :
    ∃ r, y.read nr junk ⟨y.axes, I⟩ = some r ∧ r.shape = I.map List.length ∧
      ∀ k, InBounds (I.map List.length) k → k.getD d 0 = 0 →
        (cell I k).getD d 0 = c ∧ r.get k = flattened d ai.len data ((cell I k).set d 1) := by
  classical
  obtain ⟨hd0, rfl⟩ := List.getElem?_eq_some_iff.1 hao
  obtain ⟨hd, rfl⟩ := List.getElem?_eq_some_iff.1 hai
  unfold flatten at hy
  rw [if_neg (by omega), Nat.add_sub_cancel, hao, Option.bind_some, hai, Option.map_some] at hy
  set f := mk (flatValues x.axes[d].values (x.axes[d + 1]).values) with hf
  have hflen : f.len = x.axes[d].len * x.axes[d + 1].len := by
    show f.values.length = _
    rw [hf, hmk]
    unfold flatValues
    simp [Axis.len]
  obtain rfl := Option.some.inj hy
  set Y := x.axes.take d ++ f :: x.axes.drop (d + 2) with hY
  have hIl : I.length = Y.length := by rw [hI.length_eq, List.length_map]; rfl
  have hYl : Y.length + 1 = x.axes.length := by simp [hY]; omega
  have hdI : d < I.length := by omega
  set fv : View Axis → NArr α := fun v => (flattenView nr junk x d x.axes[d].len x.axes[d + 1].len v).getD { shape := [], get := junk }
    with hfv
  set data' : List ℕ → α := fun k => if k.getD d 0 = c then flattened d x.axes[d + 1].len data (k.set d 1)
    else flattened d x.axes[d + 1].len data k with hdata'
  set g : View Axis → NArr α := fun v => if v = ⟨Y, I.map uniq⟩ then { shape := v.inds.map List.length, get := (fv v).get }
    else { shape := v.inds.map List.length, get := fun k => data' (cell v.inds k) } with hg
  have hJ : InRange (Y.map Axis.len) (I.map uniq) := inRange_uniq hI
  have hJd : (I.map uniq).getD d [] = [0, c] := by
    have : ([] : List ℕ) = uniq [] := by decide
    conv_lhs => rw [this]
    rw [List.getD_map, hId, uniq_pair (by omega)]
  have hJne : ∀ ind ∈ I.map uniq, ind ≠ [] := by
    intro ind hind
    obtain ⟨l, hl, rfl⟩ := List.mem_map.1 hind
    exact uniq_ne_nil (hne l hl)
  set J := I.map uniq with hJe
  have hJl : J.length = I.length := by simp [hJe]
  have hparts := inRange_parts (A := (x.axes.take d).map Axis.len) (B := (x.axes.drop (d + 2)).map Axis.len) (n := f.len) (I := J)
    (by simpa [hY] using hJ)
  have htk : ((x.axes.take d).map Axis.len).length = d := by simp; omega
  rw [htk] at hparts
  obtain ⟨r, h1, -, h3⟩ := flattenView_spec nr junk x data hx hR d hd Y J (by omega) hparts.1
    hparts.2 hJne 0 (2 * c) (some (c : ℤ)) (by
      rw [hJd]
      have h2 : ¬ ((c : ℤ) = 0) := by omega
      simp [simplify, diffs, npUnique, h2]
      rw [if_neg (by omega), if_neg (by omega)]
      congr 3
      omega) (by omega) hc3 (by
      intro h
      rw [Nat.zero_div, Nat.zero_add, Nat.one_mul] at h
      omega)
  have hfr : fv ⟨Y, J⟩ = r := by rw [hfv]; dsimp only; rw [h1]; rfl
  have hyc : Contains (⟨Y, .getview g⟩ : Var α) data' := by
    intro J' _ _
    show IsRead _ J' (g ⟨Y, J'⟩)
    rw [hg]
    dsimp only
    split_ifs with h
    · have h' : J' = J := congrArg View.inds h
      rw [h']
      refine ⟨rfl, fun k hk => ?_⟩
      show (fv ⟨Y, J⟩).get k = _
      rw [hfr]
      have hkl : k.length = J.length := by simpa using hk.length_eq
      have hkd : k = k.take d ++ k.getD d 0 :: k.drop (d + 1) := by
        conv_lhs => rw [← List.take_append_drop d k]
        rw [List.drop_eq_getElem_cons (by omega), List.getD_eq_getElem k _ (by omega)]
      have hkp : InBounds ((J.take d).map List.length) (k.take d) := by
        rw [List.map_take]; exact List.forall₂_take d hk
      have hkq : InBounds ((J.drop (d + 1)).map List.length) (k.drop (d + 1)) := by
        rw [List.map_drop]; exact List.forall₂_drop (d + 1) hk
      have hkn : k.getD d 0 < 2 := by
        have := InBounds.lt hk (i := d) (by simp; omega)
        rwa [List.getD_eq_getElem (J.map List.length) _ (by simp; omega), List.getElem_map, ← List.getD_eq_getElem J [] (by omega), hJd] at this
      conv_lhs => rw [hkd]
      rw [h3 _ _ _ hkp hkq (by omega), Nat.zero_add]
      have hcd : (cell J k).getD d 0 = [0, c].getD (k.getD d 0) 0 := by
        rw [getD_cell _ _ _ (by omega) (by omega), hJd]
      have hct : (cell J k).take d = cell (J.take d) (k.take d) := by unfold cell; rw [List.take_zipWith]
      have hcdr : (cell J k).drop (d + 1) = cell (J.drop (d + 1)) (k.drop (d + 1)) := by unfold cell; rw [List.drop_zipWith]
      have hcl : d < (cell J k).length := by simp [cell]; omega
      simp only [hdata']
      rw [hcd]
      rcases (by omega : k.getD d 0 = 0 ∨ k.getD d 0 = 1) with h0 | h0
      · rw [h0]
        rw [if_neg (by simp; omega)]
        unfold flattened
        rw [hcd, hct, hcdr, h0]
        rfl
      · rw [h0]
        rw [if_pos (by simp)]
        unfold flattened
        rw [List.take_set_of_le (le_refl _), List.drop_set_of_lt (by omega), hct, hcdr, List.getD_eq_getElem _ _ (by simpa using hcl),
          List.getElem_set_self]
    · exact ⟨rfl, fun k _ => rfl⟩
  obtain ⟨r', h1', h2'⟩ := read_own nr junk (⟨Y, .getview g⟩ : Var α) _ hyc hRy I hI hne
  refine ⟨r', ?_, h2'.1, fun k hk hk0 => ?_⟩
  · rw [← h1']
    refine read_congr nr junk Y hRy _ _ I hIl (fun h => ?_) (fun _ => ?_)
    · exfalso
      rw [List.all_eq_true] at h
      have := h [c, 0] (by rw [← hId]; exact getD_mem hdI)
      rw [uniq_pair (by omega)] at this
      simp at this
      omega
    · show (fv ⟨Y, J⟩).get = (g ⟨Y, J⟩).get
      rw [hg]
      dsimp only
      rw [if_pos rfl]
  · have hkl : k.length = I.length := by simpa using hk.length_eq
    have hcd : (cell I k).getD d 0 = c := by
      rw [getD_cell _ _ _ (by omega) (by omega), hId, hk0]; rfl
    refine ⟨hcd, ?_⟩
    rw [h2'.2 k hk]
    simp only [hdata']
    rw [if_pos hcd]

/-- C93: the values of the flattened axis: those of the inner axis, moved on by `stride` for every row. -/
theorem flatValues_getD (out inner : List ℚ) (i j : ℕ) (hi : i < out.length) (hj : j < inner.length) :
    (flatValues out inner).getD (i * inner.length + j) 0 = (i : ℚ) * (inner.length : ℚ) + inner.getD j 0 := by
  unfold flatValues
  have key : ∀ (n s : ℕ), i < n → ((List.range' s n).flatMap fun i : ℕ => inner.map fun v => (i : ℚ) * (inner.length : ℚ) + v).getD
      (i * inner.length + j) 0 = ((s + i : ℕ) : ℚ) * (inner.length : ℚ) + inner.getD j 0 := by
    intro n
    induction n generalizing i with
    | zero => intro s h; omega
    | succ n ih =>
      intro s h
      rw [List.range'_succ, List.flatMap_cons]
      cases i with
      | zero =>
        rw [Nat.zero_mul, Nat.zero_add, List.getD_append _ _ _ _ (by simpa using hj), List.getD_eq_getElem _ _ (by simpa using hj),
          List.getElem_map, List.getD_eq_getElem inner _ hj]
        simp
      | succ i =>
        rw [List.getD_append_right _ _ _ _ (by simp [Nat.add_mul]; omega), List.length_map]
        have e : (i + 1) * inner.length + j - inner.length = i * inner.length + j := by rw [Nat.add_mul]; omega
        rw [e, ih i (by omega) (s + 1) (by omega)]
        congr 2
        push_cast
        ring
  rw [List.range_eq_range', key out.length 0 hi, Nat.zero_add]

/-! ### Examples -/

/-- three rows of four along the two last axes -/
def flatEx : Var (Option ℚ) :=
  { axes := [mkEx [30, 10, 20], timeEx 4]
    src := .values ⟨[3, 4], fun k => some (10 * k.getD 0 0 + k.getD 1 0)⟩ }

/-- a request across three rows, and the scrambled one -/
example : ((flatten (fun _ => 0) (fun _ => some 77) mkEx flatEx 1).bind fun y =>
    (y.read (fun _ => 0) (fun _ => some 77) ⟨y.axes, [[3, 4, 5, 6, 7, 8]]⟩).map fun r =>
      (r.shape, (y.axes.map Axis.values).getD 0 [], product [[0, 1, 2, 3, 4, 5]] |>.map r.get)) =
    some ([6], [0, 1, 2, 3, 4, 5, 6, 7, 8, 9, 10, 11], [some 3, some 10, some 11, some 12, some 13, some 20]) := by decide +kernel

example : ∃ y, flatten (fun _ => 0) (fun _ => some 77) mkEx flatEx 1 = some y ∧
    ∃ r, y.read (fun _ => 0) (fun _ => some 77) ⟨y.axes, [[5, 0]]⟩ = some r ∧ r.get [0] = some 1 := by
  refine ⟨_, rfl, ?_⟩
  obtain ⟨r, h1, -, h3⟩ := flatten_scrambled (fun _ => 0) (fun _ => some 77) mkEx flatEx _ 0 (fun k => some (10 * k.getD 0 0 + k.getD 1 0))
    (mkEx [30, 10, 20]) (timeEx 4) ⟨by decide +kernel, fun _ _ => rfl⟩ ⟨by decide +kernel, by decide +kernel⟩ rfl rfl (fun _ => rfl) rfl
    ⟨by decide +kernel, by decide +kernel⟩ 5 (by decide +kernel) (by decide) (by decide +kernel) [[5, 0]]
    (by exact List.Forall₂.cons (by decide +kernel) List.Forall₂.nil) (by decide) rfl
  refine ⟨r, h1, ?_⟩
  rw [(h3 [0] (List.Forall₂.cons (by decide) List.Forall₂.nil) rfl).2]
  decide +kernel

example : ∃ y, flatten (fun _ => 0) (fun _ => some 77) mkEx flatEx 1 = some y ∧
    ∃ r, y.read (fun _ => 0) (fun _ => some 77) ⟨y.axes, [[3, 4, 5, 6, 7, 8]]⟩ = some r ∧
      IsRead (flattened 0 4 fun k => (some (10 * k.getD 0 0 + k.getD 1 0) : Option ℚ)) [[3, 4, 5, 6, 7, 8]] r := by
  refine ⟨_, rfl, ?_⟩
  exact (flatten_correct (fun _ => 0) (fun _ => some 77) mkEx flatEx _ 0 (fun k => some (10 * k.getD 0 0 + k.getD 1 0))
    (mkEx [30, 10, 20]) (timeEx 4) ⟨by decide +kernel, fun _ _ => rfl⟩ ⟨by decide +kernel, by decide +kernel⟩ rfl rfl (fun _ => rfl) rfl
    ⟨by decide +kernel, by decide +kernel⟩).2 [[3, 4, 5, 6, 7, 8]]
    (by exact List.Forall₂.cons (by decide +kernel) List.Forall₂.nil) (by decide) ⟨3, 6, by decide⟩

end Flatten
end PyGeode
