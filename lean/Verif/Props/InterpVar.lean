/-
C71: interpolated variables.
-/
import Verif.Props.Interp
import Verif.Props.Dataset

namespace PyGeode
namespace Interp
open NArr Combine VarOps Spec Axis

theorem ravel_append : ∀ (s k : List ℕ) (N i : ℕ), k.length = s.length → ravel (s ++ [N]) (k ++ [i]) = ravel s k * N + i
  | [], [], N, i, _ => by simp [ravel]
  | n :: s, a :: k, N, i, h => by
    have ih := ravel_append s k N i (by simpa using h)
    simp only [List.cons_append, ravel, ih, List.prod_append, List.prod_singleton]
    ring

theorem inBounds_append {s k : List ℕ} {N i : ℕ} (hk : InBounds s k) (hi : i < N) : InBounds (s ++ [N]) (k ++ [i]) :=
  List.rel_append hk (List.Forall₂.cons hi List.Forall₂.nil)

theorem flat_append {α : Type} (a : NArr α) {s k : List ℕ} {N i : ℕ} (hs : a.shape = s ++ [N]) (hk : InBounds s k) (hi : i < N) :
    flat a (ravel s k * N + i) = a.get (k ++ [i]) := by
  unfold flat
  rw [hs, ← ravel_append s k N i (by simpa using hk.length_eq), unravel_ravel (inBounds_append hk hi)]

theorem cell_append (Im : List (List ℕ)) (b : List ℕ) (k : List ℕ) (i : ℕ) (h : k.length = Im.length) :
    cell (Im ++ [b]) (k ++ [i]) = cell Im k ++ [b.getD i 0] := by
  unfold cell
  rw [List.zipWith_append h.symm]
  rfl

theorem unravel_ones (n N i : ℕ) (hi : i < N) : unravel (List.replicate n 1 ++ [N]) i = List.replicate n 0 ++ [i] := by
  induction n with
  | zero => simp [unravel]
  | succ n ih =>
    have hp : (List.replicate n 1 ++ [N]).prod = N := by simp
    simp only [List.replicate_succ, List.cons_append, unravel]
    rw [hp, Nat.div_eq_of_lt hi, Nat.mod_eq_of_lt hi, ih]

theorem bindex_ones (n N i : ℕ) (k : List ℕ) (hk : k.length = n) (hi : i < N) :
    bindex (List.replicate n 1 ++ [N]) (k ++ [i]) = List.replicate n 0 ++ [i] := by
  induction n generalizing k with
  | zero =>
    have : k = [] := List.length_eq_zero_iff.1 hk
    subst this
    simp [bindex]
    omega
  | succ n ih =>
    obtain ⟨a, k, rfl⟩ := List.exists_cons_of_length_eq_add_one hk
    have := ih k (by simpa using hk)
    simp only [bindex] at this ⊢
    simp only [List.replicate_succ, List.cons_append, List.zipWith_cons_cons, if_true, this]

/-- the coordinates as the C code finds them in its buffer -/
theorem coord_flat (nr : List ℚ → ℚ) (junk : List ℕ → ℚ) (z : Var ℚ) (f : List ℕ → ℚ) (hz : Contains z f) (hnd : z.axes.Nodup)
    (A : List Axis) (b : Axis) (hR : Regular (A ++ [b])) (hsub : ∀ a ∈ z.axes, a ∈ A ++ [b]) (hb : b ∈ z.axes)
    (Im : List (List ℕ)) (ib : List ℕ) (hI : InRange ((A ++ [b]).map Axis.len) (Im ++ [ib]))
    (hne : ∀ ind ∈ Im ++ [ib], ind ≠ []) :
    ∃ r, z.read nr junk ⟨A ++ [b], Im ++ [ib]⟩ = some r ∧
      ∀ rr : NArr ℚ, rr = (if z.axes.length = 1 then r else repeatTo r ((Im ++ [ib]).map List.length)) →
      rr.shape.getD Im.length 0 = ib.length ∧
      ∀ k, InBounds (Im.map List.length) k → ∀ i, i < ib.length →
        flat rr ((if z.axes.length ≠ 1 then ravel (Im.map List.length) k * ib.length else 0) + i) =
          relabel z.axes (A ++ [b]) f (cell Im k ++ [ib.getD i 0]) := by
  obtain ⟨r, h1, h2, h3⟩ := read_on nr junk z f hz hnd (A ++ [b]) hR hsub (Im ++ [ib]) hI hne
  have hAl : Im.length = A.length := by have := hI.length_eq; simp at this; exact this
  refine ⟨r, h1, fun rr hrr => ?_⟩
  by_cases hone : z.axes.length = 1
  · -- only the axis itself
    have hz1 : z.axes = [b] := by
      obtain ⟨c, hc⟩ := List.length_eq_one_iff.1 hone
      rw [hc] at hb ⊢
      simp at hb
      rw [hb]
    have hshape : r.shape = List.replicate Im.length 1 ++ [ib.length] := by
      rw [h2, List.map_append, List.map_append, List.zipWith_append (by simp [hAl])]
      congr 1
      · refine List.ext_getElem (by simp [hAl]) fun i hi hi' => ?_
        rw [List.getElem_zipWith, List.getElem_replicate, List.getElem_map, List.getElem_map]
        have hi2 : i < A.length := by simpa [hAl] using hi'
        have hm : A[i] ∉ z.axes := by
          rw [hz1]
          simp only [List.mem_singleton]
          intro e
          have := (List.nodup_append.1 hR.nodup).2.2 A[i] (List.getElem_mem _) b (by simp)
          exact this e
        simp [hm]
      · simp [hb]
    rw [if_pos hone] at hrr
    subst hrr
    refine ⟨by rw [hshape]; simp, fun k hk i hi => ?_⟩
    have hkl : k.length = Im.length := by simpa using hk.length_eq
    rw [if_neg (by simpa using hone), Nat.zero_add, flat, hshape, unravel_ones _ _ _ hi, ← bindex_ones Im.length ib.length i k hkl hi,
      ← hshape, h3 (k ++ [i]) (by rw [List.map_append]; exact inBounds_append hk (by simpa using hi)), cell_append _ _ _ _ hkl]
  · rw [if_neg hone] at hrr
    subst hrr
    have hS : (repeatTo r ((Im ++ [ib]).map List.length)).shape = Im.map List.length ++ [ib.length] := by simp [repeatTo]
    refine ⟨by rw [hS]; simp, fun k hk i hi => ?_⟩
    have hkl : k.length = Im.length := by simpa using hk.length_eq
    rw [if_pos hone, flat_append _ hS hk hi]
    change r.get (bindex r.shape (k ++ [i])) = _
    rw [h3 (k ++ [i]) (by rw [List.map_append]; exact inBounds_append hk (by simpa using hi)), cell_append _ _ _ _ hkl]

theorem validPoints_congr {N : ℕ} {x y x' y' : ℕ → Option ℚ} (h : ∀ i, i < N → x i = x' i ∧ y i = y' i) :
    validPoints N x y = validPoints N x' y' := by
  unfold validPoints
  refine List.filterMap_congr fun i hi => ?_
  obtain ⟨h1, h2⟩ := h i (by simpa using hi)
  rw [h1, h2]

/-- the data of the interpolated variable with axes `A ++ [o]`: `data` and the input coordinate `c1` are given on `A ++ [ax]`
(`ax` of length `N`), the output coordinate `c2` on `A ++ [o]` -/
def interpData (M : Method) (below above : Option ℚ) (up : Bool) (N : ℕ) (data : List ℕ → Option ℚ) (c1 c2 : List ℕ → ℚ) (k : List ℕ) :
    Option ℚ :=
  let V := validPoints N (fun i => some (c1 (k.dropLast ++ [i]))) (fun i => data (k.dropLast ++ [i]))
  interpAt M below above (if up then V else V.reverse) (c2 k)

theorem interpView_correct (M : Method) (hM : Through M) (below above : Option ℚ) (nr : List ℚ → ℚ) (junk : List ℕ → Option ℚ)
    (junk' : List ℕ → ℚ) (y : Var (Option ℚ)) (data : List ℕ → Option ℚ) (hy : Contains y data) (A : List Axis) (ax o : Axis)
    (hya : y.axes = A ++ [ax]) (hR : Regular (A ++ [ax])) (hRo : Regular (A ++ [o])) (hN : 1 ≤ ax.len)
    (inx outx : Var ℚ) (f g : List ℕ → ℚ) (hf : Contains inx f) (hg : Contains outx g) (hfn : inx.axes.Nodup) (hgn : outx.axes.Nodup)
    (hfs : ∀ a ∈ inx.axes, a ∈ A ++ [ax]) (hgs : ∀ a ∈ outx.axes, a ∈ A ++ [o]) (hfa : ax ∈ inx.axes) (hga : o ∈ outx.axes)
    (up : Bool)
    (hmono : ∀ m, InBounds (A.map Axis.len) m → Monotonic up ax.len fun i => some (relabel inx.axes (A ++ [ax]) f (m ++ [i]))) :
    Contains (Var.ofView junk (A ++ [o]) (interpView M false below above nr junk junk' y inx outx))
      (interpData M below above up ax.len data (relabel inx.axes (A ++ [ax]) f) (relabel outx.axes (A ++ [o]) g)) := by
  refine contains_ofView junk _ _ _ fun I hI hne => ?_
  -- split the request
  have hIl : I.length = A.length + 1 := by have := hI.length_eq; simpa using this
  obtain ⟨Im, io, rfl⟩ : ∃ Im io, I = Im ++ [io] := by
    rcases List.eq_nil_or_concat I with h | ⟨l, b, h⟩
    · rw [h] at hIl; simp at hIl
    · exact ⟨l, b, by simpa using h⟩
  have hAl : Im.length = A.length := by simpa using hIl
  have hImr : InRange (A.map Axis.len) Im := by
    have := hI
    unfold InRange at this ⊢
    rw [List.map_append] at this
    have h1 := List.forall₂_take A.length this
    rwa [List.take_left' hAl, List.take_left' (by simp)] at h1
  have hior : ∀ p ∈ io, p < o.len := by
    have := hI
    unfold InRange at this
    rw [List.map_append] at this
    have h1 := List.forall₂_drop A.length this
    rw [List.drop_left' hAl, List.drop_left' (by simp)] at h1
    simpa using h1
  set N := ax.len with hNd
  set s := Im.map List.length with hs
  -- the view with the input axis
  have hI' : InRange ((A ++ [ax]).map Axis.len) (Im ++ [List.range N]) := by
    unfold InRange at hImr ⊢
    rw [List.map_append]
    refine List.rel_append hImr (List.Forall₂.cons (fun p hp => by simpa using hp) List.Forall₂.nil)
  have hne' : ∀ ind ∈ Im ++ [List.range N], ind ≠ [] := by
    intro ind hind
    rcases List.mem_append.1 hind with h | h
    · exact hne ind (by simp [h])
    · simp at h; rw [h]; simp; omega
  have hview : Concat.replaceAxis ⟨A ++ [o], Im ++ [io]⟩ A.length ax (List.range N) = ⟨A ++ [ax], Im ++ [List.range N]⟩ := by
    unfold Concat.replaceAxis
    congr 1
    · simp
    · simp only
      rw [List.set_append_right _ _ hAl.le]
      simp [hAl]
  obtain ⟨rd, hrd, hrds, hrdv⟩ := read_own nr junk y data hy (by rw [hya]; exact hR) (Im ++ [List.range N])
    (by rw [hya]; exact hI') hne'
  rw [hya] at hrd
  obtain ⟨ri, hri, hriv⟩ := coord_flat nr junk' inx f hf hfn A ax hR hfs hfa Im (List.range N) hI' hne'
  obtain ⟨ro, hro, hrov⟩ := coord_flat nr junk' outx g hg hgn A o hRo hgs hga Im io hI hne
  have hrds' : rd.shape = s ++ [N] := by rw [hrds]; simp [hs]
  obtain ⟨hi1, hi2⟩ := hriv _ rfl
  obtain ⟨ho1, ho2⟩ := hrov _ rfl
  rw [List.length_range] at hi1 hi2
  have hS' : (Im ++ [List.range N]).map List.length = rd.shape := hrds.symm
  rw [hS'] at hi1 hi2
  have hvs : (⟨A ++ [o], Im ++ [io]⟩ : View Axis).shape = s ++ [io.length] := by simp [View.shape, hs]
  have hSo : (Im ++ [io]).map List.length = s ++ [io.length] := by simp [hs]
  rw [hSo] at ho1 ho2
  set xr := (if inx.axes.length = 1 then ri else repeatTo ri rd.shape) with hxr
  set xo := (if outx.axes.length = 1 then ro else repeatTo ro (s ++ [io.length])) with hxo
  have hspos : 0 < s.prod := by
    refine List.prod_pos ?_
    intro n hn
    obtain ⟨ind, hind, rfl⟩ := List.mem_map.1 hn
    exact List.length_pos_of_ne_nil (hne ind (by simp [hind]))
  have hnarr : rd.shape.prod / rd.shape.getD Im.length 0 = s.prod := by
    rw [hrds']
    simp [hs]
    exact Nat.mul_div_cancel _ hN
  -- rows of the buffers
  have hrow : ∀ n, n < s.prod → ∃ k, InBounds s k ∧ ravel s k = n := fun n hn => ⟨unravel s n, unravel_inBounds hn, ravel_unravel hn⟩
  have hcellb : ∀ k, InBounds s k → InBounds (A.map Axis.len) (cell Im k) := by
    intro k hk
    rw [inBounds_iff]
    have hkl : k.length = Im.length := by simpa [hs] using hk.length_eq
    refine ⟨by simp [cell, hkl, hAl], fun i hi => ?_⟩
    have hi' : i < Im.length := by simp at hi; omega
    rw [getD_cell Im k i hi' hkl]
    refine Along.inRange_get hImr i hi' _ ?_
    have hlt : k.getD i 0 < s.getD i 0 := InBounds.lt hk (by simpa [hs] using hi')
    have hl : s.getD i 0 = (Im.getD i []).length := by
      simp only [hs]
      rw [List.getD_eq_getElem _ _ (by simpa using hi'), List.getElem_map, List.getD_eq_getElem _ _ hi']
    rw [hl] at hlt
    rw [List.getD_eq_getElem _ _ hlt]
    exact List.getElem_mem _
  have hxin : ∀ k, InBounds s k → ∀ i, i < N →
      (some (flat xr ((if (decide (inx.axes.length ≠ 1) : Bool) then ravel s k * N else 0) + i)) : Option ℚ) =
        some (relabel inx.axes (A ++ [ax]) f (cell Im k ++ [i])) := by
    intro k hk i hi
    have := hi2 k hk i hi
    simp only [decide_eq_true_eq]
    rw [this]
    congr 3
    rw [List.getD_eq_getElem _ _ (by simpa using hi)]
    simp
  have hyin : ∀ k, InBounds s k → ∀ i, i < N → flat rd (ravel s k * N + i) = data (cell Im k ++ [i]) := by
    intro k hk i hi
    rw [flat_append rd hrds' hk hi, hrdv (k ++ [i]) (by rw [← hrds, hrds']; exact inBounds_append hk hi), cell_append]
    · congr 2
      rw [List.getD_eq_getElem _ _ (by simpa using hi)]
      simp
    · simpa [hs] using hk.length_eq
  obtain ⟨out, hout, houtl, houtv⟩ := interp_rows M hM below above s.prod N io.length (fun j => some (flat xr j)) (flat rd)
    (fun j => some (flat xo j)) (decide (inx.axes.length ≠ 1)) (decide (outx.axes.length ≠ 1)) up
    (by
      rcases Nat.lt_or_ge 1 N with h | h
      · exact Or.inr ⟨0, _, _, by omega, rfl, rfl⟩
      · exact Or.inl (by omega))
    (by
      intro n hn i j a b hij hj ha hb
      have hn' : n < s.prod := by rcases hn with rfl | h; exacts [hspos, h]
      obtain ⟨k, hk, rfl⟩ := hrow n hn'
      beta_reduce at ha hb
      rw [hxin k hk i (by omega)] at ha
      rw [hxin k hk j hj] at hb
      exact hmono (cell Im k) (hcellb k hk) i j a b hij hj ha hb)
  refine ⟨{ shape := s ++ [io.length], get := fun k => out.getD (ravel (s ++ [io.length]) k) none }, ?_, ?_⟩
  · unfold interpView
    have e1 : (⟨A ++ [o], Im ++ [io]⟩ : View Axis).axes.length - 1 = A.length := by simp
    have e2 : y.axes[A.length]? = some ax := by rw [hya]; simp
    dsimp only
    simp only [e1, e2, Option.bind_eq_bind, Option.bind_some]
    rw [hview, hrd]
    simp only [Option.bind_some]
    rw [hri]
    simp only [Option.bind_some]
    rw [hro]
    simp only [Option.bind_some]
    rw [hvs, ← hxr, ← hxo, ← hAl, hnarr, hi1, ho1, hout]
    rfl
  · refine ⟨hSo.symm, fun k hk => ?_⟩
    rw [hSo] at hk
    have hkl : k.length = Im.length + 1 := by have := hk.length_eq; simpa [hs] using this
    obtain ⟨kk, j, rfl⟩ : ∃ kk j, k = kk ++ [j] := by
      rcases List.eq_nil_or_concat k with h | ⟨l, b, h⟩
      · rw [h] at hkl; simp at hkl
      · exact ⟨l, b, by simpa using h⟩
    have hkkl : kk.length = Im.length := by simpa using hkl
    have hkk : InBounds s kk := by
      have h1 := List.forall₂_take Im.length hk
      rw [List.take_left' hkkl, List.take_left' (by simp [hs])] at h1
      exact h1
    have hj : j < io.length := by
      have h1 := List.forall₂_drop Im.length hk
      rw [List.drop_left' hkkl, List.drop_left' (by simp [hs])] at h1
      simpa using h1
    simp only
    rw [ravel_append s kk _ j (by simp [hs, hkkl])]
    set V := validPoints N (fun i => some (relabel inx.axes (A ++ [ax]) f (cell Im kk ++ [i]))) (fun i => data (cell Im kk ++ [i])) with hV
    have hm := hmono (cell Im kk) (hcellb kk hkk)
    have hsort : (if up then V else V.reverse).Pairwise fun p q => p.1 < q.1 := by
      cases up
      · exact validPoints_decreasing fun i j a b h2 h3 h4 h5 => by simpa using hm i j a b h2 h3 h4 h5
      · exact validPoints_increasing fun i j a b h2 h3 h4 h5 => by simpa using hm i j a b h2 h3 h4 h5
    have hval := houtv (ravel s kk) j (ravel_lt hkk) hj (if up then V else V.reverse) hsort (by
      have e : validPoints N (fun i => some (flat xr ((if (decide (inx.axes.length ≠ 1) : Bool) then ravel s kk * N else 0) + i)))
          (fun i => flat rd (ravel s kk * N + i)) = V :=
        validPoints_congr fun i hi => ⟨hxin kk hkk i hi, hyin kk hkk i hi⟩
      rw [e]
      cases up
      · exact List.reverse_perm _
      · exact List.Perm.refl _)
    rw [List.getD_eq_getElem?_getD, hval]
    simp only [Option.bind_some, Option.getD_some]
    have hc := ho2 kk hkk j hj
    simp only [decide_eq_true_eq]
    rw [hc]
    unfold interpData
    rw [cell_append _ _ _ _ hkkl]
    simp only [List.dropLast_concat]
    rfl

theorem coordOn_var {axes : List Axis} {ax : Axis} {arg : Option (Var ℚ)} {c : (Axis → ℕ) → ℚ} (h : CoordOn axes ax arg c)
    (hax : ax ∈ axes) : ∃ f, Contains (arg.getD (Along.axisVar ax)) f ∧ (arg.getD (Along.axisVar ax)).axes.Nodup ∧
      (∀ a ∈ (arg.getD (Along.axisVar ax)).axes, a ∈ axes) ∧ ax ∈ (arg.getD (Along.axisVar ax)).axes ∧
      ∀ pos, c pos = f ((arg.getD (Along.axisVar ax)).axes.map pos) := by
  cases h with
  | own => exact ⟨_, Along.axisVar_contains ax, by simp [Along.axisVar], by simpa [Along.axisVar] using hax, by simp [Along.axisVar],
      fun pos => by simp [Along.axisVar]⟩
  | field z f hsub hnd hax h => exact ⟨f, h, hnd, hsub, hax, fun pos => rfl⟩

theorem transpose_last (nr : List ℚ → ℚ) (junk : List ℕ → Option ℚ) (x : Var (Option ℚ)) (data : List ℕ → Option ℚ)
    (hx : Contains x data) (hr : Regular x.axes) (d : ℕ) (ax : Axis) (hax : x.axes[d]? = some ax) :
    ∃ y data', VarOps.transpose nr junk x (((List.range d ++ List.range' (d + 1) (x.axes.length - (d + 1))) ++ [d]).map fun i : ℕ => AxisId.int i) =
      some y ∧ y.axes = x.axes.eraseIdx d ++ [ax] ∧ y.axes.Perm x.axes ∧ Regular y.axes ∧ Contains y data' ∧ SameData data x.axes data' y.axes := by
  obtain ⟨hd, hxd⟩ := List.getElem?_eq_some_iff.1 hax
  set order := (List.range d ++ List.range' (d + 1) (x.axes.length - (d + 1))) ++ [d] with ho
  have hlt : ∀ i ∈ order, i < x.axes.length := by
    intro i hi
    simp [ho, List.mem_range'_1] at hi
    omega
  have hwa : whichAll x.axes (order.map fun i : ℕ => AxisId.int i) = some order := by
    have : ∀ l : List ℕ, (∀ i ∈ l, i < x.axes.length) → whichAll x.axes (l.map fun i : ℕ => AxisId.int i) = some l := by
      intro l
      induction l with
      | nil => intro _; rfl
      | cons a l ih =>
        intro h
        have ha := h a (by simp)
        have := ih fun i hi => h i (by simp [hi])
        unfold whichAll at this ⊢
        rw [List.map_cons, List.mapM_cons, this]
        have e : foundAt (whichaxis x.axes (AxisId.int a)) = some a := by
          simp only [whichaxis]
          rw [if_pos ⟨by omega, by exact_mod_cast ha⟩]
          rfl
        rw [e]
        rfl
    exact this order hlt
  have hnd : order.Nodup := by
    rw [ho, List.nodup_append, List.nodup_append]
    refine ⟨⟨List.nodup_range, List.nodup_range', ?_⟩, by simp, ?_⟩
    · intro a ha b hb
      simp [List.mem_range'_1] at ha hb
      omega
    · intro a ha b hb
      simp [List.mem_range'_1] at ha hb
      omega
  have hsome : ∃ y, VarOps.transpose nr junk x (order.map fun i : ℕ => AxisId.int i) = some y := by
    unfold VarOps.transpose
    rw [if_neg (by simp [ho]), transposeOrder, hwa]
    exact ⟨_, rfl⟩
  obtain ⟨y, hy⟩ := hsome
  obtain ⟨h1, h2, h3, data', h4, h5⟩ := transpose_correct nr junk x y _ order data hx hr hwa hnd hy
  refine ⟨y, data', hy, ?_, h1, h2, h4, h5⟩
  have hfm : (order.filterMap fun i => x.axes[i]?) = x.axes.eraseIdx d ++ [ax] := by
    rw [ho, List.filterMap_append, List.filterMap_append, List.eraseIdx_eq_take_drop_succ]
    congr 1
    · congr 1
      · have := filterMap_getElem?_range (x.axes.take d)
        rw [List.length_take, Nat.min_eq_left hd.le] at this
        rw [← this]
        refine List.filterMap_congr fun i hi => ?_
        rw [List.getElem?_take, if_pos (by simpa using hi)]
      · have := filterMap_getElem?_range (x.axes.drop (d + 1))
        rw [List.length_drop] at this
        rw [← this, List.range'_eq_map_range, List.filterMap_map]
        refine List.filterMap_congr fun i hi => ?_
        simp
    · simp [hax]
  rw [hfm] at h3
  refine (h3.eq_of_length ?_).symm
  rw [h1.length_eq, List.length_append, List.length_eraseIdx_of_lt hd]
  simp
  omega

/-- C71: interpolating a variable along one of its axes. The coordinates before (`inx`) and after (`outx`) are the values of
the axis that is left and of the new axis, or variables with this axis and any of the others. If the coordinates before
increase strictly along the axis at all positions of the other axes, or decrease at all, the result has the other axes in
their order and the new axis at the end, and at every position it holds what the finite values along the axis at that
position give (`P`: these values and their coordinates, put in increasing order). -/
theorem interp_correct_partial (M : Method) (hM : Through M) (below above : Option ℚ) (nr : List ℚ → ℚ) (junk : List ℕ → Option ℚ)
    (junk' : List ℕ → ℚ) (x : Var (Option ℚ)) (data : List ℕ → Option ℚ) (hx : Contains x data) (hr : Regular x.axes)
    (id : AxisId) (d : ℕ) (ax o : Axis) (hd : foundAt (whichaxis x.axes id) = some d) (hax : x.axes[d]? = some ax) (hN : 1 ≤ ax.len)
    (hro : Regular (x.axes.eraseIdx d ++ [o]))
    (inx outx : Option (Var ℚ)) (cin cout : (Axis → ℕ) → ℚ) (hin : CoordOn x.axes ax inx cin)
    (hout : CoordOn (x.axes.eraseIdx d ++ [o]) o outx cout)
    (up : Bool) (hmono : ∀ pos : Axis → ℕ, (∀ a ∈ x.axes.eraseIdx d, pos a < a.len) →
      Monotonic up ax.len fun i => some (cin (Function.update pos ax i))) :
    ∃ y, interp M false below above nr junk junk' x id o inx outx = some y ∧ y.axes = x.axes.eraseIdx d ++ [o] ∧
      ∃ dat, Contains y dat ∧ ∀ pos : Axis → ℕ, (∀ a ∈ y.axes, pos a < a.len) →
        ∀ P : List (ℚ × ℚ), P.Pairwise (fun p q => p.1 < q.1) →
          P.Perm (validPoints ax.len (fun i => some (cin (Function.update pos ax i)))
            (fun i => data (x.axes.map (Function.update pos ax i)))) →
          dat (y.axes.map pos) = interpAt M below above P (cout pos) := by
  obtain ⟨hdl, hxd⟩ := List.getElem?_eq_some_iff.1 hax
  obtain ⟨y, data', hy, hya, hyp, hyr, hyc, hsame⟩ := transpose_last nr junk x data hx hr d ax hax
  set A := x.axes.eraseIdx d with hA
  rw [hya] at hyr hyp hsame
  have hmemx : ∀ a, a ∈ x.axes ↔ a ∈ A ++ [ax] := fun a => hyp.symm.mem_iff
  have haxA : ax ∉ A := by
    intro h
    exact (List.nodup_append.1 hyr.nodup).2.2 ax h ax (by simp) rfl
  obtain ⟨f, hf, hfn, hfs, hfa, hfc⟩ := coordOn_var hin ((hmemx ax).2 (by simp))
  obtain ⟨g, hg, hgn, hgs, hga, hgc⟩ := coordOn_var hout (show o ∈ A ++ [o] by simp)
  set zi := inx.getD (Along.axisVar ax) with hzi
  set zo := outx.getD (Along.axisVar o) with hzo
  have hfs' : ∀ a ∈ zi.axes, a ∈ A ++ [ax] := fun a ha => (hmemx a).1 (hfs a ha)
  -- positions
  have hupd : ∀ (pos : Axis → ℕ) (i : ℕ), (A ++ [ax]).map (Function.update pos ax i) = A.map pos ++ [i] := by
    intro pos i
    rw [List.map_append]
    congr 1
    · refine List.map_congr_left fun a ha => ?_
      have hne : a ≠ ax := fun e => haxA (e ▸ ha)
      rw [Function.update_of_ne hne]
    · simp
  have hci : ∀ pos i, relabel zi.axes (A ++ [ax]) f (A.map pos ++ [i]) = cin (Function.update pos ax i) := by
    intro pos i
    rw [hfc, ← hupd pos i]
    exact relabel_same _ _ _ hfs' _
  refine ⟨Var.ofView junk (A ++ [o]) (interpView M false below above nr junk junk' y zi zo), ?_, rfl, _,
    interpView_correct M hM below above nr junk junk' y data' hyc A ax o hya hyr hro hN zi zo f g hf hg hfn hgn hfs' hgs hfa hga up ?_, ?_⟩
  · unfold interp
    rw [hd]
    simp only [Option.bind_eq_bind, Option.bind_some]
    rw [hax]
    simp only [Option.bind_some]
    rw [hy]
    simp only [Option.bind_some]
    rw [← hzi, ← hzo]
    have e1 : elem ax zi.axes = true := by
      unfold elem
      exact List.any_eq_true.2 ⟨ax, hfa, Dataset.axEq_self ax⟩
    have e2 : elem o zo.axes = true := List.any_eq_true.2 ⟨o, hga, Dataset.axEq_self o⟩
    have e3 : zi.axes.all (fun a => elem a y.axes) = true := by
      rw [List.all_eq_true]
      intro a ha
      rw [hya]
      exact List.any_eq_true.2 ⟨a, hfs' a ha, Dataset.axEq_self a⟩
    have e4 : zo.axes.all (fun a => decide (a = o) || elem a y.axes) = true := by
      rw [List.all_eq_true]
      intro a ha
      rcases List.mem_append.1 (hgs a ha) with h | h
      · rw [Bool.or_eq_true]
        right
        rw [hya]
        exact List.any_eq_true.2 ⟨a, by simp [h], Dataset.axEq_self a⟩
      · simp at h
        simp [h]
    rw [e1, e2, e3, e4]
    simp only [Bool.and_true, if_true, Option.some.injEq]
    congr 1
    rw [hya]
    simp
  · intro m hm
    -- the position with these indices
    have hex : ∃ pos : Axis → ℕ, A.map pos = m := by
      refine ⟨fun a => m.getD (A.idxOf a) 0, ?_⟩
      have hl : m.length = A.length := by simpa using hm.length_eq
      refine List.ext_getElem (by simp [hl]) fun i hi hi' => ?_
      have hi2 : i < A.length := by omega
      have hndA : A.Nodup := (List.nodup_append.1 hyr.nodup).1
      rw [List.getElem_map, List.Nodup.idxOf_getElem hndA i hi2, List.getD_eq_getElem _ _ hi']
    obtain ⟨pos, rfl⟩ := hex
    have := hmono pos (by
      intro a ha
      obtain ⟨i, hi, rfl⟩ := List.getElem_of_mem ha
      have := InBounds.lt hm (i := i) (by simpa using hi)
      rw [List.getD_eq_getElem _ _ (by simpa using hi), List.getD_eq_getElem _ _ (by simpa using hi)] at this
      simpa using this)
    simp only [hci]
    exact this
  · intro pos hpos P hP hperm
    change interpData M below above up ax.len data' _ _ ((A ++ [o]).map pos) = _
    unfold interpData
    have hdl : ((A ++ [o]).map pos).dropLast = A.map pos := by simp
    rw [hdl]
    simp only [hci]
    have hco : relabel zo.axes (A ++ [o]) g ((A ++ [o]).map pos) = cout pos := by
      rw [hgc]
      exact relabel_same _ _ _ hgs _
    rw [hco]
    have hdat : ∀ i, data' (A.map pos ++ [i]) = data (x.axes.map (Function.update pos ax i)) := by
      intro i
      rw [← hupd pos i]
      exact hsame _
    simp only [hdat]
    congr 1
    have hm := hmono pos fun a ha => hpos a (List.mem_append.2 (Or.inl ha))
    set V := validPoints ax.len (fun i => some (cin (Function.update pos ax i))) (fun i => data (x.axes.map (Function.update pos ax i)))
    cases up
    · refine sorted_perm_unique ((List.reverse_perm _).trans hperm.symm) ?_ hP
      exact validPoints_decreasing fun i j a b h2 h3 h4 h5 => by simpa using hm i j a b h2 h3 h4 h5
    · refine sorted_perm_unique hperm.symm ?_ hP
      exact validPoints_increasing fun i j a b h2 h3 h4 h5 => by simpa using hm i j a b h2 h3 h4 h5

theorem whichAll_types {Y : List Axis} (hY : Regular Y) : ∀ L : List Axis, (∀ a ∈ L, a ∈ Y) →
    whichAll Y (L.map fun a => AxisId.cls (a.classes.headD [])) = some (L.map fun a => Y.idxOf a)
  | [], _ => rfl
  | a :: L, h => by
    have ih := whichAll_types hY L fun b hb => h b (by simp [hb])
    have ha := h a (by simp)
    have hi := List.idxOf_lt_length_of_mem ha
    unfold whichAll at ih ⊢
    rw [List.map_cons, List.mapM_cons, ih]
    have e : Y.findIdx? (fun b => decide (a.classes.headD [] ∈ b.classes)) = some (Y.idxOf a) := by
      rw [List.findIdx?_eq_some_iff_getElem]
      refine ⟨hi, ?_, fun j hj => ?_⟩
      · rw [List.getElem_idxOf hi]
        have := hY.cls a ha
        cases hc : a.classes with
        | nil => exact absurd hc this
        | cons c l => simp
      · have := hY.incompatible hi (show j < Y.length by omega) (by omega)
        rw [List.getElem_idxOf hi] at this
        unfold Axis.compatible Axis.isParentOf at this
        rw [Bool.or_eq_false_iff] at this
        simpa using this.1
    have e' : foundAt (whichaxis Y (AxisId.cls (a.classes.headD []))) = some (Y.idxOf a) := by
      simp only [whichaxis]
      rw [e]
      rfl
    rw [e']
    rfl

/-- C71: with `transpose=False` the new axis takes the place of the axis that was interpolated, and the data are the same. -/
theorem interpolate_in_place (M : Method) (hM : Through M) (below above : Option ℚ) (nr : List ℚ → ℚ) (junk : List ℕ → Option ℚ)
    (junk' : List ℕ → ℚ) (x : Var (Option ℚ)) (data : List ℕ → Option ℚ) (hx : Contains x data) (hr : Regular x.axes)
    (id : AxisId) (d : ℕ) (ax o : Axis) (hd : foundAt (whichaxis x.axes id) = some d) (hax : x.axes[d]? = some ax) (hN : 1 ≤ ax.len)
    (hro : Regular (x.axes.eraseIdx d ++ [o]))
    (inx outx : Option (Var ℚ)) (cin cout : (Axis → ℕ) → ℚ) (hin : CoordOn x.axes ax inx cin)
    (hout : CoordOn (x.axes.eraseIdx d ++ [o]) o outx cout)
    (up : Bool) (hmono : ∀ pos : Axis → ℕ, (∀ a ∈ x.axes.eraseIdx d, pos a < a.len) →
      Monotonic up ax.len fun i => some (cin (Function.update pos ax i))) :
    ∃ y, interpolate M false below above nr junk junk' x id o inx outx false = some y ∧ y.axes = x.axes.set d o ∧
      ∃ dat, Contains y dat ∧ ∀ pos : Axis → ℕ, (∀ a ∈ y.axes, pos a < a.len) →
        ∀ P : List (ℚ × ℚ), P.Pairwise (fun p q => p.1 < q.1) →
          P.Perm (validPoints ax.len (fun i => some (cin (Function.update pos ax i)))
            (fun i => data (x.axes.map (Function.update pos ax i)))) →
          dat (y.axes.map pos) = interpAt M below above P (cout pos) := by
  obtain ⟨hdl, hxd⟩ := List.getElem?_eq_some_iff.1 hax
  obtain ⟨y, hy, hya, dat, hc, hv⟩ := interp_correct_partial M hM below above nr junk junk' x data hx hr id d ax o hd hax hN hro inx outx
    cin cout hin hout up hmono
  have hset : x.axes.set d o = x.axes.take d ++ o :: x.axes.drop (d + 1) := by rw [List.set_eq_take_append_cons_drop, if_pos hdl]
  have hperm : (x.axes.set d o).Perm y.axes := by
    rw [hya, hset, List.eraseIdx_eq_take_drop_succ]
    refine List.perm_middle.trans ?_
    exact (List.perm_append_singleton o _).symm
  have hyr : Regular y.axes := by rw [hya]; exact hro
  have hids : ((x.axes.map fun a => AxisId.cls (a.classes.headD [])).set d (.cls (o.classes.headD []))) =
      (x.axes.set d o).map fun a => AxisId.cls (a.classes.headD []) := by
    rw [List.map_set]
  have hwa := whichAll_types hyr (x.axes.set d o) fun a ha => hperm.mem_iff.1 ha
  have hndL : (x.axes.set d o).Nodup := hperm.nodup_iff.2 hyr.nodup
  have hnd : ((x.axes.set d o).map fun a => y.axes.idxOf a).Nodup := by
    refine List.Nodup.map_on ?_ hndL
    intro a ha b hb hab
    exact (List.idxOf_inj (hperm.mem_iff.1 ha)).1 hab
  have hsome : ∃ z, VarOps.transpose nr junk y ((x.axes.set d o).map fun a => AxisId.cls (a.classes.headD [])) = some z := by
    unfold VarOps.transpose
    rw [if_neg ?_, transposeOrder, hwa]
    · exact ⟨_, rfl⟩
    · rw [hset]; simp
  obtain ⟨z, hz⟩ := hsome
  obtain ⟨h1, h2, h3, dat', h4, h5⟩ := transpose_correct nr junk y z _ _ dat hc hyr hwa hnd hz
  have hza : z.axes = x.axes.set d o := by
    have hfm : (((x.axes.set d o).map fun a => y.axes.idxOf a).filterMap fun i => y.axes[i]?) = x.axes.set d o := by
      rw [List.filterMap_map]
      refine (List.filterMap_congr (g := some) fun a ha => ?_).trans (List.filterMap_some ..)
      have hi := List.idxOf_lt_length_of_mem (hperm.mem_iff.1 ha)
      simp only [Function.comp]
      rw [List.getElem?_eq_getElem hi, List.getElem_idxOf hi]
    rw [hfm] at h3
    refine (h3.eq_of_length ?_).symm
    rw [hperm.length_eq, h1.length_eq]
  refine ⟨z, ?_, hza, dat', h4, fun pos hpos P hP hPp => ?_⟩
  · unfold interpolate
    rw [hy]
    simp only [Option.bind_eq_bind, Option.bind_some]
    rw [hd]
    simp only [Option.bind_some]
    rw [hids, hz]
    rfl
  · rw [h5 pos]
    exact hv pos (fun a ha => hpos a (h1.mem_iff.2 ha)) P hP hPp

/-- two latitudes (the second row of heights decreases like the first), four levels -/
def levEx : Axis := ⟨["Pres".toList, "ZAxis".toList, "Axis".toList], [], "pres".toList, [1000, 500, 200, 100], true, 0, [], []⟩

def heightEx : Axis := ⟨["Height".toList, "Axis".toList], [], "height".toList, [2, 5, 40], true, 0, [], []⟩

def tempEx : Var (Option ℚ) :=
  { axes := [levEx, mkEx [10, 20]], src := .values ⟨[4, 2], fun k =>
      [some 10, some 20, none, some 21, some 12, some 22, some 14, some 30].getD (k.getD 0 0 * 2 + k.getD 1 0) none⟩ }

/-- heights that depend on the latitude -/
def heightsEx : Var ℚ :=
  { axes := [levEx, mkEx [10, 20]], src := .values ⟨[4, 2], fun k =>
      [0, 1, 3, 4, 6, 7, 9, 11].getD (k.getD 0 0 * 2 + k.getD 1 0) 0⟩ }

example : Regular tempEx.axes ∧ Regular (tempEx.axes.eraseIdx 0 ++ [heightEx]) ∧ foundAt (whichaxis tempEx.axes (.name "pres".toList)) = some 0 := by
  refine ⟨⟨by decide +kernel, by decide +kernel⟩, ⟨by decide +kernel, by decide +kernel⟩, by decide +kernel⟩

example : ∃ y, interpolate linear false none (some 1) (fun _ => 0) (fun _ => some 77) (fun _ => 0) tempEx (.name "pres".toList) heightEx
    (some heightsEx) none false = some y ∧ y.axes = [heightEx, mkEx [10, 20]] := by
  obtain ⟨y, h1, h2, -⟩ := interpolate_in_place linear linear_through none (some 1) (fun _ => 0) (fun _ => some 77) (fun _ => 0) tempEx _
    ⟨rfl, fun _ _ => rfl⟩ ⟨by decide +kernel, by decide +kernel⟩ (.name "pres".toList) 0 levEx heightEx (by decide +kernel) rfl (by decide)
    ⟨by decide +kernel, by decide +kernel⟩ (some heightsEx) none _ _
    (.field heightsEx _ (fun a ha => ha) (by decide +kernel) (by decide +kernel) ⟨rfl, fun _ _ => rfl⟩) .own true (by
      intro pos hpos
      have hm : (mkEx [10, 20]).len = 2 := rfl
      have h := hpos (mkEx [10, 20]) (by simp [tempEx])
      have hne : mkEx [10, 20] ≠ levEx := by decide +kernel
      intro i j a b hij hj ha hb
      simp only [heightsEx, List.map_cons, List.map_nil, Function.update_self, Function.update_of_ne hne, Option.some.injEq] at ha hb
      rw [hm] at h
      have hj' : j < 4 := hj
      subst ha hb
      generalize pos (mkEx [10, 20]) = q at h
      have : ∀ q < 2, ∀ j < 4, ∀ i < j, ([0, 1, 3, 4, 6, 7, 9, 11] : List ℚ).getD (i * 2 + q) 0 < ([0, 1, 3, 4, 6, 7, 9, 11] : List ℚ).getD (j * 2 + q) 0 := by
        decide +kernel
      simpa using this q h j hj' i hij)
  exact ⟨y, h1, h2⟩

example : ((interpolate linear false none (some 1) (fun _ => 0) (fun _ => some 77) (fun _ => 0) tempEx (.name "pres".toList) heightEx
    (some heightsEx) none false).bind fun y =>
      (y.read (fun _ => 0) (fun _ => some 77) ⟨y.axes, [[0, 1, 2], [0, 1]]⟩).map fun r =>
        (List.range 3).flatMap fun i => (List.range 2).map fun j => r.get [i, j]) =
    some [some (10 + 2 / 3), some (20 + 1 / 3), some (11 + 2 / 3), some (21 + 1 / 3), some (14 + 31), some (30 + 29)] := by decide +kernel

/-- C71 is false for the default `transpose=True`: the documentation promises that the new axis replaces the old one in the
order of the axes, but it becomes the last one (and with False it takes the old one's place). -/
theorem interpolate_transpose_violated :
    (interpolate linear false none none (fun _ => 0) (fun _ => some 77) (fun _ => 0) tempEx (.name "pres".toList) heightEx
      (some heightsEx) none true).map (fun y => y.axes) = some [mkEx [10, 20], heightEx] ∧
    (interpolate linear false none none (fun _ => 0) (fun _ => some 77) (fun _ => 0) tempEx (.name "pres".toList) heightEx
      (some heightsEx) none false).map (fun y => y.axes) = some [heightEx, mkEx [10, 20]] := by
  constructor <;> decide +kernel

/-- C69 is false if the rows' coordinates do not all go the same way: rows that increase alone and decrease alone, together
are refused. -/
theorem interp_mixed_violated :
    interpgsl linear false none none 2 2 1 (fun j => some ([1, 2, 2, 1].getD j 0)) (fun j => some ([5, 6, 7, 8].getD j 0)) (fun _ => some 1)
      true false = none ∧
    interpgsl linear false none none 1 2 1 (fun j => some ([2, 1].getD j 0)) (fun j => some ([7, 8].getD j 0)) (fun _ => some 1)
      true false = some [some 8] := by
  constructor <;> decide +kernel

/-- rows with a missing coordinate and a missing value, and a row with too few points -/
example : interpgsl linear false (some 2) none 2 4 3
    (fun j => [some 8, none, some 4, some 2].getD j none) (fun j => [some 1, some 50, some 3, some 7, none, some 1, none, some 2].getD j none)
    (fun j => [some 1, some 3, some 9].getD j none) false false = some [some 5, some 5, none, none, none, none] := by decide +kernel

end Interp
end PyGeode
