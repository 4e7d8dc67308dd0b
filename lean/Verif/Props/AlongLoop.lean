/-
Loops that keep one axis whole and overwrite the output chunk by chunk.
-/
import Verif.Props.Loop
import Verif.Props.Deriv

namespace PyGeode
open Spec NArr Axis Combine VarOps Reduce

namespace Loop
variable {β γ : Type}

theorem foldlM_overwrite (f : NArr β → γ → Option (NArr β)) (s : List ℕ) (F : List ℕ → β) (covers : γ → List ℕ → Prop) :
    ∀ (L : List γ) (init : NArr β), init.shape = s →
    (∀ p ∈ L, ∀ out : NArr β, out.shape = s → ∃ out', f out p = some out' ∧ out'.shape = s ∧
      ∀ k, InBounds s k → (covers p k → out'.get k = F k) ∧ (¬ covers p k → out'.get k = out.get k)) →
    ∃ r, L.foldlM f init = some r ∧ r.shape = s ∧
      ∀ k, InBounds s k → (init.get k = F k ∨ ∃ p ∈ L, covers p k) → r.get k = F k
  | [], init, hs, _ => ⟨init, rfl, hs, fun k _ h => by simpa using h⟩
  | p :: L, init, hs, h => by
    obtain ⟨o, h1, h2, h3⟩ := h p (by simp) init hs
    obtain ⟨r, h4, h5, h6⟩ := foldlM_overwrite f s F covers L o h2 fun q hq => h q (by simp [hq])
    refine ⟨r, by rw [List.foldlM_cons, h1]; exact h4, h5, fun k hk hc => h6 k hk ?_⟩
    by_cases hp : covers p k
    · exact Or.inl ((h3 k hk).1 hp)
    · rcases hc with hc | ⟨q, hq, hqk⟩
      · exact Or.inl (by rw [(h3 k hk).2 hp, hc])
      · rcases List.mem_cons.1 hq with rfl | hq
        · exact absurd hqk hp
        · exact Or.inr ⟨q, hq, hqk⟩

theorem dropAxes_nil {δ : Type} (x : δ) (p : List δ) : dropAxes x [] p = p := by
  unfold dropAxes
  refine List.ext_getElem (by simp) fun i h1 h2 => ?_
  simp [h2]

theorem inView_nil (lens : List ℕ) (J : List (List ℕ)) (h : J.length = lens.length) : (inView lens [] J).inds = J := by
  have hk : keptAxes lens.length [] = List.range lens.length := by simp [keptAxes]
  refine List.ext_getElem (by rw [inView_length, h]) fun i h1 h2 => ?_
  rw [← List.getD_eq_getElem _ [] h1, inView_getD i (by omega), if_neg (by simp), hk]
  have h3 : i < (List.range lens.length).length := by simp; omega
  have := (List.nodup_range (n := lens.length)).idxOf_getElem i h3
  rw [List.getElem_range] at this
  rw [this, List.getD_eq_getElem _ _ h2]

theorem map_idxOf_self {l : List ℕ} (h : l.Nodup) : l.map (fun p : ℕ => l.idxOf p) = List.range l.length := by
  refine List.ext_getElem (by simp) fun i h1 h2 => ?_
  rw [List.getElem_map, List.getElem_range]
  exact h.idxOf_getElem i _

/-- A loop over the chunks of a request that is widened to the positions `insl` along axis `d`, kept whole along `d`, in which
every chunk is turned into the wanted values `F` of its cells (back on the requested positions along `d`) and stored:
the result shows `F`. -/
theorem along_loop (nr : List ℚ → ℚ) (hnr : ∀ l, 0 ≤ nr l) {limit : ℕ} (hl : 1 ≤ limit) {A : List Axis} (hreg : Regular A)
    (htol : ∀ a ∈ A, 0 ≤ a.rtol) (hsep : ∀ a ∈ A, Separated a.values) (I : List (List ℕ))
    (hI : InRange (A.map Axis.len) I) (hIp : ∀ ind ∈ I, ind ≠ [] ∧ ind.Pairwise (· < ·)) (d : ℕ) (hd : d < A.length)
    (insl : List ℕ) (hin : ∀ p ∈ insl, p < A[d].len) (hne : insl ≠ []) (hnd : insl.Nodup)
    (hcov : ∀ p ∈ I.getD d [], p ∈ insl) (F : List ℕ → β)
    (step : NArr β → List (List ℕ) × View Axis → Option (NArr β)) (init : NArr β) (hinit : init.shape = I.map List.length)
    (hstep : ∀ c : List (List ℕ), InRange (A.map Axis.len) c → (∀ ind ∈ c, ind ≠ []) → c.getD d [] = insl →
      ∀ (out : NArr β) (pos : List (List ℕ)), out.shape = I.map List.length → pos.getD d [] = List.range insl.length →
      pos.length = A.length → ∃ piece, IsRead F (c.set d (I.getD d [])) piece ∧
        step out (pos, ⟨A, c⟩) =
          some (updateOuter (fun _ b => b) out (pos.set d (List.range (I.getD d []).length)) piece)) :
    ∃ r, (do let L ← loopover nr limit A [d] ⟨A, I.set d insl⟩; L.foldlM step init) = some r ∧ IsRead F I r := by
  set lens := A.map Axis.len with hlens
  set J := I.set d insl with hJ
  have hIl : I.length = A.length := by rw [hI.length_eq]; simp [hlens]
  have hJl : J.length = A.length := by simp [hJ, hIl]
  have hdl : d < lens.length := by simpa [hlens] using hd
  have hJr : InRange lens J := by
    have h1 := Along.inRange_set hI d insl (by
      intro p hp; rw [List.getD_eq_getElem _ _ hdl]; simpa [hlens] using hin p hp)
    exact h1
  have hJm : ∀ ind ∈ J, ind ≠ [] ∧ ind.Nodup := by
    intro ind hind
    rcases List.mem_or_eq_of_mem_set hind with h | h
    · exact ⟨(hIp _ h).1, (hIp _ h).2.imp fun h => Nat.ne_of_lt h⟩
    · subst h; exact ⟨hne, hnd⟩
  have hL : Loopable A [] J := by
    refine ⟨hreg, ⟨List.nodup_nil, by simp, by simp, ?_, fun l h => (hJm l h).2, fun l h => (hJm l h).1⟩, htol, ?_⟩
    · rw [dropAxes_nil]; exact hJr
    · rw [dropAxes_nil]; exact hsep
  have hspec := loopover_spec nr hnr hl hL (P := [d]) (by simpa using hd)
  rw [dropAxes_nil, ← hlens, inView_nil lens J (by simp [hJl, hlens])] at hspec
  rw [hspec]
  show ∃ r, List.foldlM _ _ _ = some r ∧ _
  have hJd : J.getD d [] = insl := by simp [hJ, List.getD_eq_getElem?_getD, hIl, hd]
  have hId : d < I.length := by omega
  have hInd : ∀ ind ∈ I, ind.Nodup := fun ind h => (hIp _ h).2.imp fun h => Nat.ne_of_lt h
  have hchunk : ∀ c ∈ (⟨A, J⟩ : View Axis).loopMem limit [d], c = ⟨A, c.inds⟩ ∧ c.inds.length = A.length ∧
      InRange lens c.inds ∧ (∀ ind ∈ c.inds, ind ≠ []) ∧ c.inds.getD d [] = insl ∧
      List.Forall₂ (fun (c o : List ℕ) => (∀ x ∈ c, x ∈ o) ∧ c.Nodup ∧ o.Nodup) (c.inds.set d (I.getD d [])) I := by
    intro c hc
    obtain ⟨h1, h2⟩ := chunk_sub ⟨A, J⟩ hl (by exact fun l h => (hJm l h).1) (by simpa [hJl] using hd) c hc
    have h2g := List.forall₂_iff_get.1 h2
    simp only [List.get_eq_getElem] at h2g
    refine ⟨by cases c; simp only at h1; rw [h1], by rw [h2g.1, hJl], ?_, ?_, ?_, ?_⟩
    · unfold InRange at hJr ⊢
      rw [List.forall₂_iff_get] at hJr ⊢
      refine ⟨h2g.1.trans hJr.1, fun i hi hi' p hp => ?_⟩
      exact hJr.2 i (by rw [← h2g.1]; exact hi) hi' p ((h2g.2 i hi (by rw [← h2g.1]; exact hi)).1 p hp)
    · intro ind hind
      obtain ⟨i, hi, rfl⟩ := List.getElem_of_mem hind
      exact (h2g.2 i hi (by rw [← h2g.1]; exact hi)).2.1
    · obtain ⟨parts, p1, p2, p3, p4, p5⟩ := loopMem_splits (⟨A, J⟩ : View Axis) limit [d] hl
        (by exact fun l h => (hJm l h).1) (by simpa [hJl] using hd)
      have hm : c.inds ∈ product parts := by rw [← p4]; exact List.mem_map_of_mem hc
      rw [mem_product, List.forall₂_iff_get] at hm
      have p3 := p3 d (by simp)
      have hdc : d < c.inds.length := by rw [h2g.1, hJl]; exact hd
      have hdp : d < parts.length := by rw [← hm.1]; exact hdc
      have := hm.2 d hdc hdp
      simp only [List.get_eq_getElem] at this
      rw [← List.getD_eq_getElem parts [] hdp, p3] at this
      rw [List.getD_eq_getElem _ _ hdc, List.mem_singleton.1 this]
      exact hJd
    · rw [List.forall₂_iff_get]
      refine ⟨by simp [h2g.1, hJ], fun i hi hi' => ?_⟩
      simp only [List.get_eq_getElem, List.getElem_set]
      split_ifs with hdi
      · subst hdi
        rw [List.getD_eq_getElem _ _ hi']
        exact ⟨fun _ h => h, hInd _ (List.getElem_mem _), hInd _ (List.getElem_mem _)⟩
      · have hic : i < c.inds.length := by simpa using hi
        have := h2g.2 i hic (by rw [← h2g.1]; exact hic)
        simp only [hJ, List.getElem_set, if_neg hdi] at this
        exact ⟨this.1, this.2.2.nodup (hInd _ (List.getElem_mem _)), hInd _ (List.getElem_mem _)⟩
  obtain ⟨r, h1, h2, h3⟩ := foldlM_overwrite step (I.map List.length) (fun k => F (cell I k))
    (fun p k => List.Forall₂ (· ∈ ·) (cell I k) (p.2.inds.set d (I.getD d [])))
    (((⟨A, J⟩ : View Axis).loopMem limit [d]).map fun c =>
        (List.zipWith (fun (c o : List ℕ) => c.map fun p : ℕ => o.idxOf p) (dropAxes [] [] c.inds) J, c)) init hinit (by
    intro p hp out hout
    obtain ⟨c, hc, rfl⟩ := List.mem_map.1 hp
    rw [dropAxes_nil]
    obtain ⟨c1, c2, c3, c4, c5, c6⟩ := hchunk c hc
    set pos := List.zipWith (fun (c o : List ℕ) => c.map fun p : ℕ => o.idxOf p) c.inds J with hpos
    have hpl : pos.length = A.length := by simp [hpos, c2, hJl]
    have hpd : pos.getD d [] = List.range insl.length := by
      rw [List.getD_eq_getElem _ _ (by omega)]
      simp only [hpos, List.getElem_zipWith]
      rw [← List.getD_eq_getElem c.inds [] (by omega), c5, ← List.getD_eq_getElem J [] (by omega), hJd]
      exact map_idxOf_self hnd
    obtain ⟨piece, q1, q2⟩ := hstep c.inds c3 c4 c5 out pos hout hpd hpl
    rw [← c1] at q2
    refine ⟨_, q2, hout, fun k hk => ?_⟩
    have hposeq : pos.set d (List.range (I.getD d []).length) =
        List.zipWith (fun (c o : List ℕ) => c.map fun p : ℕ => o.idxOf p) (c.inds.set d (I.getD d [])) I := by
      refine List.ext_getElem (by simp [hpos, c2, hIl, hJl]) fun i h1 h2 => ?_
      simp only [List.getElem_set, List.getElem_zipWith]
      split_ifs with hdi
      · subst hdi
        have e : I.getD d [] = I[d] := List.getD_eq_getElem _ _ hId
        have := map_idxOf_self (hInd _ (List.getElem_mem hId))
        rw [← e] at this ⊢
        exact this.symm
      · simp only [hpos, List.getElem_zipWith, hJ, List.getElem_set, if_neg hdi]
    obtain ⟨g1, g2⟩ := place_chunk c6 k hk
    simp only [updateOuter]
    rw [hposeq]
    refine ⟨fun hcv => ?_, fun hcv => ?_⟩
    · rw [if_pos (g1.2 hcv), q1.2 _ (g2 hcv).1, (g2 hcv).2]
    · exact if_neg fun h => hcv (g1.1 h))
  refine ⟨r, h1, h2, fun k hk => h3 k hk (Or.inr ?_)⟩
  have hcell := cell_mem hk
  have hcJ : cell I k ∈ product J := by
    rw [mem_product, List.forall₂_iff_get]
    rw [List.forall₂_iff_get] at hcell
    refine ⟨by rw [hcell.1]; simp [hJ], fun i hi hi' => ?_⟩
    have hiI : i < I.length := by rw [← hcell.1]; exact hi
    have := hcell.2 i hi hiI
    simp only [List.get_eq_getElem] at this ⊢
    simp only [hJ, List.getElem_set]
    split_ifs with hdi
    · subst hdi
      refine hcov _ ?_
      rw [List.getD_eq_getElem _ _ hiI]
      exact this
    · exact this
  have hmem := (loopMem_partition (⟨A, J⟩ : View Axis) limit [d] hl (by exact fun l h => (hJm l h).1)
    (by simpa [hJl] using hd)).mem_iff.2 hcJ
  obtain ⟨c, hc, hqc⟩ := List.mem_flatMap.1 hmem
  refine ⟨_, List.mem_map.2 ⟨c, hc, rfl⟩, ?_⟩
  rw [mem_product, List.forall₂_iff_get] at hqc
  rw [List.forall₂_iff_get] at hcell ⊢
  refine ⟨by simpa using hqc.1, fun i hi hi' => ?_⟩
  simp only [List.get_eq_getElem, List.getElem_set]
  split_ifs with hdi
  · subst hdi
    rw [List.getD_eq_getElem _ _ hId]
    exact hcell.2 d hi hId
  · exact hqc.2 i hi (by simpa using hi')

end Loop
end PyGeode
