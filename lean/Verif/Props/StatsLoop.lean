/-
The sums made by the loops of stats.py.
-/
import Verif.Model.Stats
import Verif.Spec.Stats
import Verif.Props.Loop

namespace PyGeode
namespace Stats
open NArr Combine VarOps Reduce Loop Spec Axis

/-- The sums of a loop over chunks are the sums over the positions, if every chunk is read right. -/
theorem accumulate_eq {β : Type} (op : β → β → β) (e : β) (nr : List ℚ → ℚ) (hnr : ∀ l, 0 ≤ nr l) {limit : ℕ} (hl : 1 ≤ limit)
    (A : List Axis) (rd : View Axis → Option (NArr β)) (data : List ℕ → β)
    (hrd : ∀ I, InRange (A.map Axis.len) I → (∀ ind ∈ I, ind ≠ []) → ∃ r, rd ⟨A, I⟩ = some r ∧ IsRead data I r)
    (R : List ℕ) (I : List (List ℕ)) (h : Loopable A R I) : ∃ chunk : View ℕ → NArr β,
    Reads data (A.map Axis.len) chunk ∧
      accumulate op e nr limit A R rd ⟨dropAxes ax0 R A, I⟩ = some (reduceLoop op e limit (A.map Axis.len) R I chunk) := by
  classical
  set lens := A.map Axis.len with hlens
  refine ⟨fun c => if (∀ ind ∈ c.inds, ind ≠ []) then (rd ⟨A, c.inds⟩).getD ⟨[], fun _ => e⟩
    else ⟨c.inds.map List.length, fun k => data (cell c.inds k)⟩, ?_, ?_⟩
  · intro c hc
    by_cases hne : ∀ ind ∈ c.inds, ind ≠ []
    · obtain ⟨r, h1, h2⟩ := hrd c.inds hc hne
      simp only [if_pos hne, h1, Option.getD_some]
      exact h2
    · simp only [if_neg hne]
      exact ⟨rfl, fun _ _ => rfl⟩
  · unfold accumulate
    rw [loopover_spec nr hnr hl h (P := []) (by simp)]
    show List.foldlM _ _ _ = _
    rw [foldlM_some (g := fun out p => updateOuter op out p.1 (npReduce op e ((rd p.2).getD ⟨[], fun _ => e⟩) R))]
    · congr 1
      unfold reduceLoop
      rw [loopMem_eq ⟨A, _⟩, loopMem_eq (inView lens R I), List.map_map, List.foldl_map, List.foldl_map]
      have hcs : ∀ c ∈ (⟨[], (inView lens R I).inds⟩ : View ℕ).loopMem limit [], c.inds.length = lens.length ∧
          ∀ ind ∈ c.inds, ind ≠ [] := by
        intro c hc
        obtain ⟨_, h2⟩ := chunk_sub _ hl (by exact inView_ne h.good) (by simp) c hc
        refine ⟨by rw [h2.length_eq]; exact inView_length, fun ind hind => ?_⟩
        obtain ⟨i, hi, rfl⟩ := List.getElem_of_mem hind
        exact ((List.forall₂_iff_get.1 h2).2 i hi (by rw [← h2.length_eq]; exact hi)).2.1
      refine List.foldl_ext _ _ _ fun out c hc => ?_
      obtain ⟨hc1, hc2⟩ := hcs c hc
      simp only [Function.comp_apply, if_pos hc2]
      rw [outPos_eq _ (by exact hc1)]
    · rintro ⟨pos, c⟩ hp out
      obtain ⟨c', hc', heq⟩ := List.mem_map.1 hp
      obtain ⟨h1, h2⟩ := Prod.mk.injEq _ _ _ _ ▸ heq
      subst h2
      obtain ⟨h3, h4⟩ := chunk_sub ⟨A, (inView lens R I).inds⟩ hl (by exact inView_ne h.good) (by simp) c' hc'
      have hr : InRange lens c'.inds := by
        have hb := inView_inRange h.good
        unfold InRange at hb ⊢
        rw [List.forall₂_iff_get] at hb ⊢
        refine ⟨by rw [h4.length_eq]; exact hb.1, fun i hi hi' p hp => ?_⟩
        exact hb.2 i (by rw [← h4.length_eq]; exact hi) hi' p
          (((List.forall₂_iff_get.1 h4).2 i hi (by rw [← h4.length_eq]; exact hi)).1 p hp)
      have hne : ∀ ind ∈ c'.inds, ind ≠ [] := by
        intro ind hind
        obtain ⟨i, hi, rfl⟩ := List.getElem_of_mem hind
        exact ((List.forall₂_iff_get.1 h4).2 i hi (by rw [← h4.length_eq]; exact hi)).2.1
      obtain ⟨r, h5, _⟩ := hrd c'.inds hr hne
      have : c' = ⟨A, c'.inds⟩ := by cases c'; simp only at h3; subst h3; rfl
      rw [this, h5]
      rfl

/-- the cells above an output cell, as positions of the reduced axes -/
theorem fibre_over (A : List Axis) (hA : A.Nodup) (R : List ℕ) (hRn : R.Nodup) (hR : ∀ i ∈ R, i < A.length) (raxes : List Axis)
    (hra : raxes = R.map fun i => A.getD i ax0) (pos : Axis → ℕ) (hpos : ∀ a ∈ dropAxes ax0 R A, pos a < a.len) :
    (fibre (A.map Axis.len) R ((dropAxes ax0 R A).map pos)).Perm ((positions raxes).map fun t => A.map (over raxes t pos)) := by
  have hrl : raxes.length = R.length := by simp [hra]
  have hrg : ∀ j (hj : j < R.length), raxes[j]'(by rw [hrl]; exact hj) = A[R[j]]'(hR _ (List.getElem_mem _)) := by
    intro j hj
    simp only [hra, List.getElem_map]
    exact List.getD_eq_getElem _ _ (hR _ (List.getElem_mem _))
  have hrn : raxes.Nodup := by
    rw [hra]
    refine List.Nodup.map_on (fun i hi j hj e => ?_) hRn
    rw [List.getD_eq_getElem _ _ (hR i hi), List.getD_eq_getElem _ _ (hR j hj)] at e
    exact (hA.getElem_inj_iff).1 e
  have hmem : ∀ i (hi : i < A.length), A[i] ∈ raxes ↔ i ∈ R := by
    intro i hi
    rw [hra, List.mem_map]
    constructor
    · rintro ⟨j, hj, e⟩
      rw [List.getD_eq_getElem _ _ (hR j hj)] at e
      rwa [← (hA.getElem_inj_iff).1 e]
    · intro h
      exact ⟨i, h, List.getD_eq_getElem _ _ hi⟩
  -- values at the reduced axes
  have hover : ∀ (t : List ℕ) (j : ℕ) (hj : j < R.length), over raxes t pos (A[R[j]]'(hR _ (List.getElem_mem _))) = t.getD j 0 := by
    intro t j hj
    unfold over
    rw [if_pos ((hmem _ _).2 (List.getElem_mem _)), ← hrg j hj, hrn.idxOf_getElem]
  have hover' : ∀ (t : List ℕ) (i : ℕ) (hi : i < A.length), i ∉ R → over raxes t pos A[i] = pos A[i] := by
    intro t i hi h
    unfold over
    rw [if_neg (fun hm => h ((hmem i hi).1 hm))]
  have hdrop : ∀ i, i < A.length → i ∉ R → A.getD i ax0 ∈ dropAxes ax0 R A := by
    intro i hi h
    exact List.mem_map.2 ⟨i, by simp [hi, h], rfl⟩
  have hpm : ∀ t, t ∈ positions raxes ↔ t.length = raxes.length ∧ ∀ (j : ℕ) (hj : j < raxes.length), t.getD j 0 < raxes[j].len := by
    intro t
    have : positions raxes = product ((raxes.map Axis.len).map List.range) := by
      unfold positions; rw [List.map_map]; rfl
    rw [this, mem_product_range, inBounds_iff]
    simp only [List.length_map]
    refine and_congr_right fun _ => ⟨fun h j hj => ?_, fun h j hj => ?_⟩
    · have := h j (by simpa using hj)
      rwa [List.getD_eq_getElem (raxes.map Axis.len) _ (by simpa using hj), List.getElem_map] at this
    · have hj' : j < raxes.length := by simpa using hj
      rw [List.getD_eq_getElem (raxes.map Axis.len) _ (by simpa using hj'), List.getElem_map]
      exact h j hj'
  refine (List.perm_ext_iff_of_nodup ((product_range_nodup _).filter _) ?_).2 fun p => ?_
  · refine List.Nodup.map_on (fun t ht u hu e => ?_) ?_
    · obtain ⟨ht1, -⟩ := (hpm t).1 ht
      obtain ⟨hu1, -⟩ := (hpm u).1 hu
      refine List.ext_getElem (by omega) fun j hj hj' => ?_
      have hjR : j < R.length := by omega
      have := List.map_inj_left.1 e (A[R[j]]'(hR _ (List.getElem_mem _))) (List.getElem_mem _)
      rw [hover t j hjR, hover u j hjR, List.getD_eq_getElem _ _ hj, List.getD_eq_getElem _ _ hj'] at this
      exact this
    · refine product_nodup fun l hl => ?_
      obtain ⟨a, -, rfl⟩ := List.mem_map.1 hl
      exact List.nodup_range
  · rw [List.mem_filter, mem_product_range, List.mem_map, decide_eq_true_eq]
    constructor
    · rintro ⟨hb, hd⟩
      have hpl : p.length = A.length := by simpa using hb.length_eq
      refine ⟨R.map fun i => p.getD i 0, (hpm _).2 ⟨by simp [hrl], fun j hj => ?_⟩, ?_⟩
      · have hjR : j < R.length := by omega
        rw [List.getD_eq_getElem _ _ (by simpa using hjR), List.getElem_map, hrg j hjR]
        have hi := hR _ (List.getElem_mem hjR)
        have := InBounds.lt hb (i := R[j]) (by simpa using hi)
        rwa [List.getD_eq_getElem (A.map Axis.len) _ (by simpa using hi), List.getElem_map] at this
      · refine List.ext_getElem (by simp [hpl]) fun i hi hi' => ?_
        have hiA : i < A.length := by omega
        rw [List.getElem_map]
        by_cases hiR : i ∈ R
        · obtain ⟨j, hj, rfl⟩ := List.getElem_of_mem hiR
          rw [hover _ j hj, List.getD_eq_getElem _ _ (by simpa using hj), List.getElem_map, List.getD_eq_getElem _ _ hi']
        · rw [hover' _ i hiA hiR]
          rw [dropAxes_eq, dropAxes_eq, hpl, List.map_map] at hd
          have := List.map_inj_left.1 hd i (by simp [keptAxes, hiA, hiR])
          rw [Function.comp_apply, List.getD_eq_getElem _ _ hi', List.getD_eq_getElem _ _ hiA] at this
          exact this.symm
    · rintro ⟨t, ht, rfl⟩
      obtain ⟨ht1, ht2⟩ := (hpm t).1 ht
      refine ⟨inBounds_iff.2 ⟨by simp, fun i hi => ?_⟩, ?_⟩
      · have hiA : i < A.length := by simpa using hi
        rw [List.getD_eq_getElem _ _ (by simpa using hiA), List.getElem_map,
          List.getD_eq_getElem (A.map Axis.len) _ (by simpa using hiA), List.getElem_map]
        by_cases hiR : i ∈ R
        · obtain ⟨j, hj, rfl⟩ := List.getElem_of_mem hiR
          rw [hover _ j hj]
          have := ht2 j (by omega)
          rwa [hrg j hj] at this
        · rw [hover' _ i hiA hiR]
          have := hpos _ (hdrop i hiA hiR)
          rwa [List.getD_eq_getElem _ _ hiA] at this
      · rw [dropAxes_eq, dropAxes_eq, List.length_map, List.map_map]
        refine List.map_congr_left fun i hi => ?_
        obtain ⟨hiA, hiR⟩ : i < A.length ∧ i ∉ R := by simpa [keptAxes] using hi
        rw [List.getD_eq_getElem _ _ (by simpa using hiA), List.getElem_map, hover' _ i hiA hiR, Function.comp_apply,
          List.getD_eq_getElem _ _ hiA]

/-- One sum, for one output cell. -/
theorem accumulate_cell (nr : List ℚ → ℚ) (hnr : ∀ l, 0 ≤ nr l) {limit : ℕ} (hl : 1 ≤ limit)
    (A : List Axis) (hA : Regular A) (htol : ∀ a ∈ A, 0 ≤ a.rtol) (hlen : ∀ a ∈ A, 0 < a.len)
    (R : List ℕ) (hRn : R.Nodup) (hR : ∀ i ∈ R, i < A.length) (hsep : ∀ a ∈ dropAxes ax0 R A, Separated a.values)
    (rd : View Axis → Option (NArr (Option ℚ))) (data : List ℕ → Option ℚ)
    (hrd : ∀ I, InRange (A.map Axis.len) I → (∀ ind ∈ I, ind ≠ []) → ∃ r, rd ⟨A, I⟩ = some r ∧ IsRead data I r)
    (raxes : List Axis) (hra : raxes = R.map fun i => A.getD i ax0) :
    ∃ out, accumulate nanAdd none nr limit A R rd (wholeView (dropAxes ax0 R A)) = some out ∧
      ∀ pos : Axis → ℕ, (∀ a ∈ dropAxes ax0 R A, pos a < a.len) → out.get ((dropAxes ax0 R A).map pos) =
        some (valid ((positions raxes).map fun t => data (A.map (over raxes t pos)))).sum := by
  set O := dropAxes ax0 R A with hO
  have hOm : ∀ a ∈ O, a ∈ A := fun a ha => (dropAxes_sublist R A).subset ha
  have hgood : GoodReq (A.map Axis.len) R (O.map fun a => List.range a.len) := by
    refine ⟨hRn, by simpa using hR, fun i hi => ?_, ?_, ?_, ?_⟩
    · rw [List.getD_eq_getElem (A.map Axis.len) _ (by simpa using hR i hi), List.getElem_map]
      exact hlen _ (List.getElem_mem _)
    · rw [← dropAxes_lens, ← hO]
      unfold InRange
      rw [List.forall₂_iff_get]
      refine ⟨by simp, fun i hi hi' => ?_⟩
      simp
    · intro l hl; obtain ⟨a, -, rfl⟩ := List.mem_map.1 hl; exact List.nodup_range
    · intro l hl; obtain ⟨a, ha, rfl⟩ := List.mem_map.1 hl
      have := hlen a (hOm a ha)
      intro h
      have := congrArg List.length h
      simp at this; omega
  obtain ⟨chunk, h1, h2⟩ := accumulate_eq nanAdd none nr hnr hl A rd data hrd R _ ⟨hA, hgood, htol, hsep⟩
  refine ⟨_, h2, fun pos hpos => ?_⟩
  have h3 := nansum_correct hgood hl h1
  have hin : InBounds ((O.map fun a => List.range a.len).map List.length) (O.map pos) := by
    refine inBounds_iff.2 ⟨by simp, fun i hi => ?_⟩
    have hi' : i < O.length := by simpa using hi
    rw [List.getD_eq_getElem _ _ (by simpa using hi'), List.getD_eq_getElem _ _ (by simpa using hi')]
    simpa using hpos _ (List.getElem_mem hi')
  have hcell : cell (O.map fun a => List.range a.len) (O.map pos) = O.map pos := by
    refine List.ext_getElem (by simp [cell]) fun i hi hi' => ?_
    have hi2 : i < O.length := by simpa using hi'
    have := hpos _ (List.getElem_mem hi2)
    simp only [cell, List.getElem_zipWith, List.getElem_map]
    rw [List.getD_eq_getElem _ _ (by simpa using this), List.getElem_range]
  have h4 := h3.2 _ hin
  rw [hcell] at h4
  refine h4.trans ?_
  have hp := (fibre_over A hA.nodup R hRn hR raxes hra pos hpos).map data
  have := (hp.filterMap id).sum_eq
  rw [List.map_map] at this
  exact congrArg some this

/-! ### chunks of two variables -/

/-- an array that holds `data` with the axes not in it (`b` false) of length one -/
structure BRead {α : Type} (data : List ℕ → α) (I : List (List ℕ)) (b : List Bool) (r : NArr α) : Prop where
  len : b.length = I.length
  shape : r.shape = List.zipWith (fun (n : ℕ) (b : Bool) => if b then n else 1) (I.map List.length) b
  get : ∀ k, InBounds (I.map List.length) k → r.get (bindex r.shape k) = data (cell I k)

theorem bcast_read {α β γ : Type} (f : α → β → γ) {dx : List ℕ → α} {dy : List ℕ → β} {I : List (List ℕ)} {b c : List Bool}
    {x : NArr α} {y : NArr β} (hx : BRead dx I b x) (hy : BRead dy I c y) (hne : ∀ ind ∈ I, ind ≠ [])
    (hbc : ∀ i, i < I.length → b.getD i false = true ∨ c.getD i false = true) :
    IsRead (fun p => f (dx p) (dy p)) I (bcast f x y) := by
  refine ⟨?_, fun k hk => by show f _ _ = _; rw [hx.get k hk, hy.get k hk]⟩
  show List.zipWith _ x.shape y.shape = _
  refine List.ext_getElem (by simp [hx.shape, hy.shape, hx.len, hy.len]) fun i hi hi' => ?_
  have hiI : i < I.length := by simpa using hi'
  have h := hbc i hiI
  rw [List.getD_eq_getElem b _ (by rw [hx.len]; exact hiI), List.getD_eq_getElem c _ (by rw [hy.len]; exact hiI)] at h
  simp only [List.getElem_zipWith, hx.shape, hy.shape, List.getElem_map]
  rcases h with h | h
  · rw [h]
    simp only [if_true]
    split_ifs with h1 h2 <;> first | rfl | exact h1.symm
  · rw [h]
    simp only [if_true]
    split_ifs with h1 h2 <;> first | rfl | omega

theorem tile_read {α : Type} {dx : List ℕ → α} {I : List (List ℕ)} {b : List Bool} {x : NArr α} (hx : BRead dx I b x)
    (hne : ∀ ind ∈ I, ind ≠ []) : IsRead dx I (tileTo x (I.map List.length)) := by
  have hpos : ∀ i (hi : i < I.length), 0 < I[i].length := fun i hi => List.length_pos_iff.2 (hne _ (List.getElem_mem hi))
  have hsh : ∀ i (hi : i < I.length) (hi' : i < x.shape.length), x.shape[i] = I[i].length ∨ x.shape[i] = 1 := by
    intro i hi hi'
    simp only [hx.shape, List.getElem_zipWith, List.getElem_map]
    split_ifs
    · exact Or.inl rfl
    · exact Or.inr rfl
  have hxl : x.shape.length = I.length := by simp [hx.shape, hx.len]
  constructor
  · show List.zipWith _ _ _ = _
    refine List.ext_getElem (by simp [hxl]) fun i hi hi' => ?_
    have hiI : i < I.length := by simpa using hi'
    simp only [List.getElem_zipWith, List.getElem_map]
    rcases hsh i hiI (by omega) with h | h <;> rw [h]
    · rw [Nat.div_self (hpos i hiI), Nat.one_mul]
    · rw [Nat.div_one, Nat.mul_one]
  · intro k hk
    rw [← hx.get k hk]
    show x.get _ = _
    congr 1
    unfold bindex
    refine List.ext_getElem (by simp) fun i hi hi' => ?_
    have hi2 : i < x.shape.length ∧ i < k.length := by simpa using hi
    have hiI : i < I.length := by omega
    have hlt := InBounds.lt hk (i := i) (by simpa using hiI)
    rw [List.getD_eq_getElem k _ hi2.2, List.getD_eq_getElem (I.map List.length) _ (by simpa using hiI), List.getElem_map] at hlt
    simp only [List.getElem_zipWith]
    rcases hsh i hiI hi2.1 with h | h <;> rw [h]
    · rw [Nat.mod_eq_of_lt hlt]
      split_ifs with h1
      · omega
      · rfl
    · rw [Nat.mod_one, if_pos rfl]

theorem mask_read {d m : List ℕ → Option ℚ} {I : List (List ℕ)} {a b : NArr (Option ℚ)} (ha : IsRead d I a) (hb : IsRead m I b) :
    IsRead (fun p => (m p).bind fun _ => d p) I (maskBy a b) :=
  ⟨ha.1, fun k hk => by show (b.get k).bind _ = _; rw [ha.2 k hk, hb.2 k hk]⟩

theorem map_read {α β : Type} (f : α → β) {d : List ℕ → α} {I : List (List ℕ)} {a : NArr α} (ha : IsRead d I a) :
    IsRead (fun p => f (d p)) I (a.map f) :=
  ⟨ha.1, fun k hk => by show f _ = _; rw [ha.2 k hk]⟩

theorem read_bread (nr : List ℚ → ℚ) {α : Type} (junk : List ℕ → α) (x : Var α) (data : List ℕ → α) (hx : Contains x data)
    (hnd : x.axes.Nodup) (A : List Axis) (hA : Regular A) (hsub : ∀ a ∈ x.axes, a ∈ A)
    (I : List (List ℕ)) (hI : InRange (A.map Axis.len) I) (hne : ∀ ind ∈ I, ind ≠ []) :
    ∃ r, x.read nr junk ⟨A, I⟩ = some r ∧ BRead (relabel x.axes A data) I (A.map fun a => decide (a ∈ x.axes)) r := by
  obtain ⟨r, h1, h2, h3⟩ := read_on nr junk x data hx hnd A hA hsub I hI hne
  have hl : A.length = I.length := by simpa using hI.length_eq.symm
  exact ⟨r, h1, by simp [hl], h2, h3⟩

/-- the value of `x * y` and the values of `x` and `y` where both are not NaN -/
theorem pairChunk_read (nr : List ℚ → ℚ) (junk : List ℕ → Option ℚ) (X Y : Var (Option ℚ)) (dX dY : List ℕ → Option ℚ)
    (hX : Contains X dX) (hY : Contains Y dY) (hXn : X.axes.Nodup) (hYn : Y.axes.Nodup) (A : List Axis) (hA : Regular A)
    (hmem : ∀ a, a ∈ A ↔ a ∈ X.axes ∨ a ∈ Y.axes)
    (I : List (List ℕ)) (hI : InRange (A.map Axis.len) I) (hne : ∀ ind ∈ I, ind ≠ []) :
    ∃ x y xy, pairChunk nr junk X Y ⟨A, I⟩ = some (x, y, xy) ∧
      IsRead (fun p => (mulNan (relabel X.axes A dX p) (relabel Y.axes A dY p)).bind fun _ => relabel X.axes A dX p) I x ∧
      IsRead (fun p => (mulNan (relabel X.axes A dX p) (relabel Y.axes A dY p)).bind fun _ => relabel Y.axes A dY p) I y ∧
      IsRead (fun p => mulNan (relabel X.axes A dX p) (relabel Y.axes A dY p)) I xy := by
  obtain ⟨x, hx1, hx2⟩ := read_bread nr junk X dX hX hXn A hA (fun a h => (hmem a).2 (Or.inl h)) I hI hne
  obtain ⟨y, hy1, hy2⟩ := read_bread nr junk Y dY hY hYn A hA (fun a h => (hmem a).2 (Or.inr h)) I hI hne
  have hl : A.length = I.length := by simpa using hI.length_eq.symm
  have hxy := bcast_read mulNan hx2 hy2 hne (by
    intro i hi
    rw [List.getD_eq_getElem _ _ (by simpa [hl] using hi), List.getD_eq_getElem _ _ (by simpa [hl] using hi)]
    simpa using (hmem (A[i]'(by omega))).1 (List.getElem_mem _))
  refine ⟨_, _, _, by unfold pairChunk; rw [hx1, hy1]; rfl, ?_, ?_, hxy⟩
  · exact mask_read (by rw [hxy.1]; exact tile_read hx2 hne) hxy
  · exact mask_read (by rw [hxy.1]; exact tile_read hy2 hne) hxy

/-! ### the sums of two variables -/

theorem dropAxes_append (O T : List Axis) : dropAxes ax0 (List.range' O.length T.length) (O ++ T) = O := by
  have : keptAxes (O ++ T).length (List.range' O.length T.length) = List.range O.length := by
    unfold keptAxes
    rw [List.length_append, List.range_add, List.filter_append, List.filter_eq_self.2 (by
      intro i hi; have : i < O.length := by simpa using hi
      simp only [List.mem_range'_1, decide_eq_true_eq]; omega), List.filter_eq_nil_iff.2 (by
      intro i hi
      obtain ⟨j, hj, rfl⟩ := List.mem_map.1 hi
      have : j < T.length := by simpa using hj
      simp only [List.mem_range'_1, decide_eq_true_eq]; omega), List.append_nil]
  rw [dropAxes_eq, this]
  refine List.ext_getElem (by simp) fun i hi hi' => ?_
  rw [List.getElem_map, List.getElem_range, List.getD_eq_getElem _ _ (by simp; omega), List.getElem_append_left hi']

theorem range'_axes (O T : List Axis) : T = (List.range' O.length T.length).map fun i => (O ++ T).getD i ax0 := by
  refine List.ext_getElem (by simp) fun i hi hi' => ?_
  rw [List.getElem_map, List.getElem_range', List.getD_eq_getElem _ _ (by simp; omega), List.getElem_append_right (by omega)]
  congr 1; omega

/-- The pairs belonging to a cell, as numbers. -/
theorem valid_joint {ι : Type} (l : List ι) (f g : ι → Option ℚ) (h : ℚ → ℚ → ℚ) :
    valid (l.map fun t => (f t).bind fun a => (g t).map fun b => h a b) =
      (l.filterMap fun t => (f t).bind fun a => (g t).map fun b => (a, b)).map fun p => h p.1 p.2 := by
  unfold valid
  rw [List.filterMap_map, List.map_filterMap]
  refine List.filterMap_congr fun t _ => ?_
  simp only [Function.comp_apply, id]
  cases f t <;> cases g t <;> rfl

/-- the conditions on the axes -/
structure _root_.PyGeode.Spec.Countable (A O : List Axis) : Prop where
  reg : Regular A
  tol : ∀ a ∈ A, 0 ≤ a.rtol
  len : ∀ a ∈ A, 0 < a.len
  sep : ∀ a ∈ O, Separated a.values

theorem pairSums_correct (nr : List ℚ → ℚ) (hnr : ∀ l, 0 ≤ nr l) (junk : List ℕ → Option ℚ) {limit : ℕ} (hl : 1 ≤ limit)
    (X Y : Var (Option ℚ)) (dX dY : List ℕ → Option ℚ)
    (hX : Contains X dX) (hY : Contains Y dY) (hXn : X.axes.Nodup) (hYn : Y.axes.Nodup) (O T : List Axis)
    (hA : Countable (O ++ T) O) (hmem : ∀ a, a ∈ O ++ T ↔ a ∈ X.axes ∨ a ∈ Y.axes) :
    ∃ out, pairSums nr junk limit X Y O T (O ++ T).length = some out ∧ ∀ pos : Axis → ℕ, (∀ a ∈ O, pos a < a.len) →
      out.get (O.map pos) =
        let P := jointSamples T (fun p => dX (X.axes.map p)) (fun p => dY (Y.axes.map p)) pos
        ⟨(P.map fun p => p.1).sum, (P.map fun p => p.2).sum, (P.map fun p => p.1 ^ 2).sum, (P.map fun p => p.2 ^ 2).sum,
          (P.map fun p => p.1 * p.2).sum, P.length⟩ := by
  set A := O ++ T with hAdef
  set R := List.range' O.length T.length with hR
  have hRl : List.range' O.length (A.length - O.length) = R := by rw [hAdef, List.length_append, Nat.add_sub_cancel_left]
  have hD : dropAxes ax0 R A = O := dropAxes_append O T
  have hRlt : ∀ i ∈ R, i < A.length := by
    intro i hi
    rw [hR, List.mem_range'_1] at hi
    rw [hAdef, List.length_append]; omega
  have key := accumulate_cell nr hnr hl A hA.reg hA.tol hA.len R (List.nodup_range' ..) hRlt (by rw [hD]; exact hA.sep)
  simp only [hD] at key
  have hrelX : ∀ pos, relabel X.axes A dX (A.map pos) = dX (X.axes.map pos) :=
    fun pos => relabel_same X.axes A dX (fun a h => (hmem a).2 (Or.inl h)) pos
  have hrelY : ∀ pos, relabel Y.axes A dY (A.map pos) = dY (Y.axes.map pos) :=
    fun pos => relabel_same Y.axes A dY (fun a h => (hmem a).2 (Or.inr h)) pos
  -- one of the sums
  have one : ∀ (f : NArr (Option ℚ) × NArr (Option ℚ) × NArr (Option ℚ) → NArr (Option ℚ)) (h : ℚ → ℚ → ℚ) (u : Option ℚ → Option ℚ → Option ℚ),
      (∀ a b, ((u a b).getD 0) = ((a.bind fun a => b.map fun b => h a b).getD 0)) →
      (∀ I x y xy, IsRead (fun p => (mulNan (relabel X.axes A dX p) (relabel Y.axes A dY p)).bind fun _ => relabel X.axes A dX p) I x →
        IsRead (fun p => (mulNan (relabel X.axes A dX p) (relabel Y.axes A dY p)).bind fun _ => relabel Y.axes A dY p) I y →
        IsRead (fun p => mulNan (relabel X.axes A dX p) (relabel Y.axes A dY p)) I xy →
        IsRead (fun p => u (relabel X.axes A dX p) (relabel Y.axes A dY p)) I (f (x, y, xy))) →
      ∃ out, accumulate nanAdd none nr limit A R (fun v => (pairChunk nr junk X Y v).map f) (wholeView O) = some out ∧
        ∀ pos : Axis → ℕ, (∀ a ∈ O, pos a < a.len) → (out.get (O.map pos)).getD 0 =
          ((jointSamples T (fun p => dX (X.axes.map p)) (fun p => dY (Y.axes.map p)) pos).map fun p => h p.1 p.2).sum := by
    intro f h u hu hf
    obtain ⟨out, h1, h2⟩ := key (fun v => (pairChunk nr junk X Y v).map f)
      (fun p => u (relabel X.axes A dX p) (relabel Y.axes A dY p)) (by
        intro I hI hne
        obtain ⟨x, y, xy, h1, h2, h3, h4⟩ := pairChunk_read nr junk X Y dX dY hX hY hXn hYn A hA.reg hmem I hI hne
        exact ⟨_, by rw [h1]; rfl, hf I x y xy h2 h3 h4⟩) T (range'_axes O T)
    refine ⟨out, h1, fun pos hpos => ?_⟩
    rw [h2 pos hpos, Option.getD_some]
    simp only [hrelX, hrelY]
    unfold jointSamples
    rw [← valid_joint, ← sum_getD, ← sum_getD, List.map_map, List.map_map]
    simp only [Function.comp_def, hu]
  obtain ⟨x, hx1, hx2⟩ := one (fun p => p.1) (fun a _ => a) (fun a b => (mulNan a b).bind fun _ => a)
    (by rintro (_ | a) (_ | b) <;> rfl) (fun I x y xy h1 _ _ => h1)
  obtain ⟨y, hy1, hy2⟩ := one (fun p => p.2.1) (fun _ b => b) (fun a b => (mulNan a b).bind fun _ => b)
    (by rintro (_ | a) (_ | b) <;> rfl) (fun I x y xy _ h1 _ => h1)
  obtain ⟨xx, hxx1, hxx2⟩ := one (fun p => p.1.map fun o => o.map fun t => t ^ 2) (fun a _ => a ^ 2)
    (fun a b => ((mulNan a b).bind fun _ => a).map fun t => t ^ 2)
    (by rintro (_ | a) (_ | b) <;> rfl) (fun I x y xy h1 _ _ => map_read _ h1)
  obtain ⟨yy, hyy1, hyy2⟩ := one (fun p => p.2.1.map fun o => o.map fun t => t ^ 2) (fun _ b => b ^ 2)
    (fun a b => ((mulNan a b).bind fun _ => b).map fun t => t ^ 2)
    (by rintro (_ | a) (_ | b) <;> rfl) (fun I x y xy _ h1 _ => map_read _ h1)
  obtain ⟨xy, hxy1, hxy2⟩ := one (fun p => p.2.2) (fun a b => a * b) (fun a b => mulNan a b)
    (by rintro (_ | a) (_ | b) <;> rfl) (fun I x y xy _ _ h1 => h1)
  obtain ⟨n, hn1, hn2⟩ := one (fun p => p.2.2.map notNan) (fun _ _ => 1) (fun a b => notNan (mulNan a b))
    (by rintro (_ | a) (_ | b) <;> rfl) (fun I x y xy _ _ h1 => map_read _ h1)
  refine ⟨⟨(wholeView O).shape, fun k => ⟨(x.get k).getD 0, (y.get k).getD 0, (xx.get k).getD 0, (yy.get k).getD 0,
    (xy.get k).getD 0, (n.get k).getD 0⟩⟩, ?_, fun pos hpos => ?_⟩
  · unfold pairSums
    dsimp only
    rw [hRl, ← hAdef, hx1, hy1, hxx1, hyy1, hxy1, hn1]
    rfl
  · show Sums.mk _ _ _ _ _ _ = _
    rw [hx2 pos hpos, hy2 pos hpos, hxx2 pos hpos, hyy2 pos hpos, hxy2 pos hpos, hn2 pos hpos]
    simp

end Stats
end PyGeode
