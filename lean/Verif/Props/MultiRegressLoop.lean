/-
The sums made by the loop of `multiple_regress`.
-/
import Verif.Model.MultiRegress
import Verif.Props.Stats

namespace PyGeode
namespace MultiRegress
open NArr Combine VarOps Reduce Loop Spec Axis Stats

theorem bindex_insert (j : ℕ) : ∀ (i : ℕ) (s k : List ℕ), i < s.length → k.length + 1 = s.length → j < s.getD i 0 →
    bindex s (k.insertIdx i j) = (bindex (s.eraseIdx i) k).insertIdx i j
  | 0, n :: s, k, _, _, hj => by
    have hj' : j < n := by simpa using hj
    simp only [bindex, List.insertIdx_zero, List.zipWith_cons_cons, List.eraseIdx_zero, List.tail_cons]
    congr 1
    split_ifs with h
    · omega
    · rfl
  | i + 1, n :: s, m :: k, hi, hk, hj => by
    have := bindex_insert j i s k (by simpa using hi) (by simpa using hk) (by simpa using hj)
    simp only [bindex, List.insertIdx_succ_cons, List.zipWith_cons_cons, List.eraseIdx_cons_succ] at this ⊢
    rw [this]
  | i + 1, n :: s, [], hi, hk, _ => by
    simp only [List.length_nil, List.length_cons] at hi hk; omega
  | i, [], k, hi, _, _ => by simp at hi

/-- Reducing axes that are not repeated and then repeating the others is the same as repeating first. -/
theorem reduce_stretch (Rd : List ℕ) (hd : Rd.Pairwise (· > ·)) : ∀ (a b : NArr ℚ), a.shape.length = b.shape.length →
    (∀ i ∈ Rd, i < b.shape.length ∧ a.shape.getD i 0 = b.shape.getD i 0) →
    (∀ k, k.length = b.shape.length → b.get k = a.get (bindex a.shape k)) →
    ∀ k, k.length + Rd.length = b.shape.length →
      (Rd.foldl (reduceAxis (· + ·) 0) b).get k =
        (Rd.foldl (reduceAxis (· + ·) 0) a).get (bindex (Rd.foldl (reduceAxis (· + ·) 0) a).shape k) := by
  induction Rd with
  | nil => intro a b hl _ h k hk; exact h k (by simpa using hk)
  | cons i Rd ih =>
    intro a b hl hR h k hk
    obtain ⟨hi, hd'⟩ := List.pairwise_cons.1 hd
    obtain ⟨hib, hab⟩ := hR i (by simp)
    simp only [List.foldl_cons]
    refine ih hd' _ _ ?_ ?_ ?_ k ?_
    · show (a.shape.eraseIdx i).length = (b.shape.eraseIdx i).length
      rw [List.length_eraseIdx, List.length_eraseIdx, hl]
    · intro j hj
      have hji : j < i := hi j hj
      obtain ⟨h1, h2⟩ := hR j (by simp [hj])
      show j < (b.shape.eraseIdx i).length ∧ (a.shape.eraseIdx i).getD j 0 = (b.shape.eraseIdx i).getD j 0
      refine ⟨by rw [List.length_eraseIdx_of_lt hib]; omega, ?_⟩
      simp only [List.getD_eq_getElem?_getD] at h2 ⊢
      rw [List.getElem?_eraseIdx_of_lt hji, List.getElem?_eraseIdx_of_lt hji]
      exact h2
    · intro k hk
      have hk' : k.length + 1 = b.shape.length := by
        have : k.length = (b.shape.eraseIdx i).length := hk
        rw [List.length_eraseIdx_of_lt hib] at this; omega
      show List.foldr _ _ _ = List.foldr _ _ _
      rw [hab]
      refine congrArg (List.foldr _ _) (List.map_congr_left fun j hj => ?_)
      have hj' : j < b.shape.getD i 0 := by simpa using hj
      rw [h _ (by rw [List.length_insertIdx_of_le_length (by omega)]; exact hk'),
        bindex_insert j i a.shape k (by omega) (by omega) (by rw [hab]; exact hj')]
      rfl
    · show k.length + Rd.length = (b.shape.eraseIdx i).length
      rw [List.length_eraseIdx_of_lt hib]
      simp only [List.length_cons] at hk; omega

theorem npReduce_stretch (d : NArr ℚ) (s : List ℕ) (hl : d.shape.length = s.length) (R : List ℕ) (hR : R.Nodup)
    (hs : ∀ i ∈ R, i < s.length ∧ d.shape.getD i 0 = s.getD i 0) (k : List ℕ) (hk : k.length + R.length = s.length) :
    (npReduce (· + ·) 0 (stretch s d) R).get k =
      (npReduce (· + ·) 0 d R).get (bindex (npReduce (· + ·) 0 d R).shape k) := by
  obtain ⟨hs1, hs2⟩ := sort_desc R hR
  refine reduce_stretch (R.insertionSort (· ≥ ·)) hs1 d (stretch s d) hl ?_ (fun _ _ => rfl) k ?_
  · intro i hi; exact hs i ((hs2 i).1 hi)
  · rw [List.length_insertionSort]; exact hk

/-- the same values at the positions of rank `n` -/
def Agree (n : ℕ) (a b : NArr ℚ) : Prop := ∀ k : List ℕ, k.length = n → a.get k = b.get k

theorem foldlM_agree {γ : Type} (n : ℕ) (f g : NArr ℚ → γ → Option (NArr ℚ)) : ∀ (L : List γ) (a b : NArr ℚ),
    (∀ p ∈ L, ∀ a b, Agree n a b → ∃ a' b', f a p = some a' ∧ g b p = some b' ∧ Agree n a' b') → Agree n a b →
    ∃ a' b', L.foldlM f a = some a' ∧ L.foldlM g b = some b' ∧ Agree n a' b'
  | [], a, b, _, h => ⟨a, b, rfl, rfl, h⟩
  | p :: L, a, b, hL, h => by
    obtain ⟨a', b', h1, h2, h3⟩ := hL p (by simp) a b h
    obtain ⟨a'', b'', h4, h5, h6⟩ := foldlM_agree n f g L a' b' (fun p hp => hL p (by simp [hp])) h3
    exact ⟨a'', b'', by rw [List.foldlM_cons, h1]; exact h4, by rw [List.foldlM_cons, h2]; exact h5, h6⟩

theorem keptAxes_perm (n : ℕ) (R : List ℕ) (hn : R.Nodup) (hR : ∀ i ∈ R, i < n) : (keptAxes n R ++ R).Perm (List.range n) := by
  refine (List.perm_ext_iff_of_nodup ?_ List.nodup_range).2 fun i => ?_
  · refine List.nodup_append.2 ⟨keptAxes_nodup n R, hn, ?_⟩
    rintro a ha b hb rfl
    simp [keptAxes] at ha
    exact ha.2 hb
  · simp only [List.mem_append, keptAxes, List.mem_filter, List.mem_range, decide_eq_true_eq]
    constructor
    · rintro (h | h)
      · exact h.1
      · exact hR i h
    · intro h
      by_cases h' : i ∈ R
      · exact Or.inr h'
      · exact Or.inl ⟨h, h'⟩

/-- The positions of all the axes left. -/
theorem whole_loopable (A : List Axis) (hA : Regular A) (htol : ∀ a ∈ A, 0 ≤ a.rtol) (hlen : ∀ a ∈ A, 0 < a.len)
    (R : List ℕ) (hRn : R.Nodup) (hR : ∀ i ∈ R, i < A.length) (hsep : ∀ a ∈ dropAxes ax0 R A, Separated a.values) :
    Loopable A R ((dropAxes ax0 R A).map fun a => List.range a.len) := by
  refine ⟨hA, ⟨hRn, by simpa using hR, fun i hi => ?_, ?_, ?_, ?_⟩, htol, hsep⟩
  · rw [List.getD_eq_getElem (A.map Axis.len) _ (by simpa using hR i hi), List.getElem_map]
    exact hlen _ (List.getElem_mem _)
  · rw [← dropAxes_lens]
    unfold InRange
    rw [List.forall₂_iff_get]
    refine ⟨by simp, fun i hi hi' => ?_⟩
    simp
  · intro l hl; obtain ⟨a, -, rfl⟩ := List.mem_map.1 hl; exact List.nodup_range
  · intro l hl; obtain ⟨a, ha, rfl⟩ := List.mem_map.1 hl
    have := hlen a ((dropAxes_sublist R A).subset ha)
    intro h
    have := congrArg List.length h
    simp at this; omega

/-- One sum, for one output cell: all arrays read have the reduced axes. -/
theorem accumulate_cell (nr : List ℚ → ℚ) (hnr : ∀ l, 0 ≤ nr l) {limit : ℕ} (hl : 1 ≤ limit)
    (A : List Axis) (hA : Regular A) (htol : ∀ a ∈ A, 0 ≤ a.rtol) (hlen : ∀ a ∈ A, 0 < a.len)
    (R : List ℕ) (hRn : R.Nodup) (hR : ∀ i ∈ R, i < A.length) (hsep : ∀ a ∈ dropAxes ax0 R A, Separated a.values)
    (rd : View Axis → Option (NArr ℚ)) (data : List ℕ → ℚ) (b : List Bool) (hb : ∀ i ∈ R, b.getD i false = true)
    (hrd : ∀ I, InRange (A.map Axis.len) I → (∀ ind ∈ I, ind ≠ []) → ∃ r, rd ⟨A, I⟩ = some r ∧ BRead data I b r)
    (raxes : List Axis) (hra : raxes = R.map fun i => A.getD i ax0) :
    ∃ out, accumulate nr limit A R rd (wholeView (dropAxes ax0 R A)) = some out ∧
      ∀ pos : Axis → ℕ, (∀ a ∈ dropAxes ax0 R A, pos a < a.len) → out.get ((dropAxes ax0 R A).map pos) =
        ((positions raxes).map fun t => data (A.map (over raxes t pos))).sum := by
  have hloop := whole_loopable A hA htol hlen R hRn hR hsep
  set O := dropAxes ax0 R A with hO
  set I := O.map fun a => List.range a.len with hI
  set rd' : View Axis → Option (NArr ℚ) := fun v => (rd v).map (stretch (v.inds.map List.length)) with hrd'
  obtain ⟨chunk, h1, h2⟩ := accumulate_eq (· + ·) 0 nr hnr hl A rd' data (by
    intro J hJ hne
    obtain ⟨r, h1, h2⟩ := hrd J hJ hne
    refine ⟨_, by rw [hrd']; simp only [h1]; rfl, rfl, fun k hk => h2.get k hk⟩) R I hloop
  have hOl : O.length + R.length = A.length := by
    rw [hO, dropAxes_eq, List.length_map]
    have hp := keptAxes_perm A.length R hRn hR
    have := hp.length_eq
    simpa using this
  -- the two loops
  have key : ∃ a' b', accumulate nr limit A R rd ⟨O, I⟩ = some a' ∧ Stats.accumulate (· + ·) 0 nr limit A R rd' ⟨O, I⟩ = some b' ∧
      Agree O.length a' b' := by
    unfold accumulate Stats.accumulate
    rw [loopover_spec nr hnr hl hloop (P := []) (by simp)]
    simp only [Option.bind_eq_bind, Option.bind_some]
    refine foldlM_agree O.length _ _ _ _ _ ?_ (fun _ _ => rfl)
    rintro ⟨pos, c⟩ hp u w huw
    obtain ⟨c', hc', heq⟩ := List.mem_map.1 hp
    obtain ⟨e1, e2⟩ := Prod.mk.injEq _ _ _ _ ▸ heq
    subst e2
    obtain ⟨h3, h4⟩ := chunk_sub ⟨A, (inView (A.map Axis.len) R I).inds⟩ hl (by exact inView_ne hloop.good) (by simp) c' hc'
    have hcl : c'.inds.length = A.length := by rw [h4.length_eq]; simpa using inView_length (lens := A.map Axis.len) (R := R) (outInds := I)
    have hr : InRange (A.map Axis.len) c'.inds := by
      have hb := inView_inRange hloop.good
      unfold InRange at hb ⊢
      rw [List.forall₂_iff_get] at hb ⊢
      refine ⟨by rw [h4.length_eq]; exact hb.1, fun i hi hi' p hp => ?_⟩
      exact hb.2 i (by rw [← h4.length_eq]; exact hi) hi' p
        (((List.forall₂_iff_get.1 h4).2 i hi (by rw [← h4.length_eq]; exact hi)).1 p hp)
    have hne : ∀ ind ∈ c'.inds, ind ≠ [] := by
      intro ind hind
      obtain ⟨i, hi, rfl⟩ := List.getElem_of_mem hind
      exact ((List.forall₂_iff_get.1 h4).2 i hi (by rw [← h4.length_eq]; exact hi)).2.1
    obtain ⟨r, h5, h6⟩ := hrd c'.inds hr hne
    have hc : c' = ⟨A, c'.inds⟩ := by cases c'; simp only at h3; subst h3; rfl
    have hrc : rd c' = some r := by rw [hc]; exact h5
    have hposl : pos.length = O.length := by
      rw [← e1, List.length_zipWith, hI, List.length_map, dropAxes_eq, List.length_map, hcl]
      have : (keptAxes A.length R).length = O.length := by rw [hO, dropAxes_eq, List.length_map]
      rw [this]; exact Nat.min_self _
    refine ⟨_, _, by simp only [hrc]; rfl, by simp only [hrd', hrc]; rfl, fun k hk => ?_⟩
    show (if _ then _ else _) = (if _ then _ else _)
    rw [huw k hk]
    refine if_congr Iff.rfl ?_ rfl
    congr 1
    refine (npReduce_stretch r (c'.inds.map List.length) (by rw [h6.shape]; simp [h6.len]) R hRn ?_ _ ?_).symm
    · intro i hi
      have hiA := hR i hi
      have hbi := hb i hi
      have hib : i < b.length := by rw [h6.len, hcl]; exact hiA
      rw [List.getD_eq_getElem _ _ hib] at hbi
      refine ⟨by simp [hcl, hiA], ?_⟩
      rw [List.getD_eq_getElem r.shape _ (by rw [h6.shape]; simp [hcl, hiA, hib]), List.getD_eq_getElem _ _ (by simp [hcl, hiA])]
      simp only [h6.shape, List.getElem_zipWith, hbi, if_true]
    · rw [List.length_zipWith, hposl, hk, Nat.min_self, List.length_map, hcl, hOl]
  obtain ⟨a', b', hk1, hk2, hk3⟩ := key
  refine ⟨a', hk1, fun pos hpos => ?_⟩
  rw [hk3 _ (by simp)]
  rw [h2] at hk2
  obtain rfl := Option.some.inj hk2
  have h3 := sum_correct hloop.good hl h1
  have hin : InBounds ((O.map fun a => List.range a.len).map List.length) (O.map pos) := by
    refine inBounds_iff.2 ⟨by simp, fun i hi => ?_⟩
    have hi' : i < O.length := by simpa using hi
    rw [List.getD_eq_getElem _ _ (by simpa using hi'), List.getD_eq_getElem _ _ (by simpa using hi')]
    simpa using hpos _ (List.getElem_mem hi')
  have hcell : cell (O.map fun a => List.range a.len) (O.map pos) = O.map pos := by
    refine List.ext_getElem (by simp [cell]) fun i hi hi' => ?_
    have hi2 : i < O.length := by simpa using hi'
    have := hpos _ (List.getElem_mem hi2)
    simp only [cell, List.getElem_zipWith, List.getElem_map]
    rw [List.getD_eq_getElem _ _ (by simpa using this), List.getElem_range]
  have h4 := h3.2 _ hin
  rw [hcell] at h4
  refine h4.trans ?_
  have hp := (fibre_over A hA.nodup R hRn hR raxes hra pos hpos).map data
  have := hp.sum_eq
  rwa [List.map_map] at this

end MultiRegress
end PyGeode
