/-
Property C05, the order of the chunks of `loop_mem`: one after the other they hold the requested cells in row-major order.
-/
import Verif.Props.View

namespace PyGeode
open NArr View Spec
variable {Ax : Type}

theorem chunks_one (l : List ℕ) : chunks l 1 = l.map fun a => [a] := by
  unfold chunks
  refine List.ext_getElem (by simp) fun i h1 h2 => ?_
  simp only [List.getElem_map, List.getElem_range]
  have hi : i < l.length := by simpa using h2
  rw [Nat.mul_one, List.drop_eq_getElem_cons hi]
  rfl

theorem chunks_all (l : List ℕ) (h : l ≠ []) : chunks l l.length = [l] := by
  unfold chunks
  have hp := List.length_pos_of_ne_nil h
  have : (l.length + l.length - 1) / l.length = 1 := by
    rw [Nat.div_eq_of_lt_le] <;> omega
  rw [this]
  simp

theorem product_cons_flatMap {α : Type} (L : List (List α)) (rest : List (List α)) :
    L.flatMap (fun c => product (c :: rest)) = product (L.flatten :: rest) := by
  induction L with
  | nil => rfl
  | cons a L ih => rw [List.flatMap_cons, ih]; simp [product, List.flatMap_append]

/-- the number of cells of the request from axis `i` on -/
def tailSize (inds : List (List ℕ)) (i : ℕ) : ℕ := ((inds.drop i).map List.length).prod

theorem tailSize_pos {inds : List (List ℕ)} (hpos : ∀ ind ∈ inds, ind ≠ []) (i : ℕ) : 0 < tailSize inds i := by
  unfold tailSize
  have : ∀ L : List (List ℕ), (∀ l ∈ L, l ≠ []) → 0 < (L.map List.length).prod := by
    intro L
    induction L with
    | nil => simp
    | cons a L ih =>
      intro h
      simp only [List.map_cons, List.prod_cons]
      exact Nat.mul_pos (List.length_pos_of_ne_nil (h a (by simp))) (ih fun l hl => h l (by simp [hl]))
  exact this _ fun l hl => hpos l (List.mem_of_mem_drop hl)

theorem tailSize_step {inds : List (List ℕ)} {i : ℕ} (hi : i < inds.length) :
    tailSize inds i = inds[i].length * tailSize inds (i + 1) := by
  rw [tailSize, List.drop_eq_getElem_cons hi]
  rfl

theorem tailSize_dvd (inds : List (List ℕ)) {i j : ℕ} (h : i ≤ j) : tailSize inds j ∣ tailSize inds i := by
  obtain ⟨d, rfl⟩ := Nat.exists_eq_add_of_le h
  induction d with
  | zero => exact dvd_rfl
  | succ d ih =>
    refine dvd_trans ?_ (ih (by omega))
    by_cases hi : i + d < inds.length
    · rw [tailSize_step hi]
      exact dvd_mul_left _ _
    · have : tailSize inds (i + (d + 1)) = 1 := by
        rw [tailSize, List.drop_eq_nil_of_le (by omega)]; rfl
      rw [this]; exact one_dvd _

theorem mem_fold (inds : List (List ℕ)) (hpos : ∀ ind ∈ inds, ind ≠ []) (limit : ℕ) (hl : 1 ≤ limit) :
    ∀ (k i : ℕ), i + k = inds.length →
    let r := (List.range' i k).foldr (fun j st => otherStep inds st j) (limit, inds.map fun _ => [])
    r.2.length = inds.length ∧ 1 ≤ r.1 ∧
      (product (r.2.drop i)).flatMap product = product (inds.drop i) ∧
      (r.1 = 1 ∨ product (r.2.drop i) = [inds.drop i]) ∧
      (∀ ind ∈ product (r.2.drop i), (ind.map List.length).prod ≤ tailSize inds i ∧
        ∀ j, i ≤ j → tailSize inds j ≤ (ind.map List.length).prod → tailSize inds j ∣ (ind.map List.length).prod)
  | 0, i, h => by
    have hi : inds.length ≤ i := by omega
    have hs : ∀ j, i ≤ j → tailSize inds j = 1 := by
      intro j hj
      rw [tailSize, List.drop_eq_nil_of_le (by omega)]; rfl
    simp only [List.range'_zero, List.foldr_nil, List.length_map, true_and]
    rw [List.drop_eq_nil_of_le (by simpa using hi), List.drop_eq_nil_of_le hi]
    refine ⟨hl, rfl, Or.inr rfl, fun ind hind => ?_⟩
    have : ind = [] := by simpa [product] using hind
    subst this
    refine ⟨by rw [hs i le_rfl]; simp, fun j hj _ => by rw [hs j hj]; simp⟩
  | k + 1, i, h => by
    have ih := mem_fold inds hpos limit hl k (i + 1) (by omega)
    simp only [List.range'_succ, List.foldr_cons]
    revert ih
    simp only
    generalize (List.range' (i + 1) k).foldr (fun j st => otherStep inds st j) (limit, inds.map fun _ => []) = r
    obtain ⟨m, P⟩ := r
    rintro ⟨h1, h2, h3, h4, h5⟩
    simp only at h1 h2 h3 h4 h5
    have hi : i < inds.length := by omega
    have hne : inds[i] ≠ [] := hpos _ (List.getElem_mem _)
    have hN : 0 < inds[i].length := List.length_pos_of_ne_nil hne
    have hstep : otherStep inds (m, P) i = (m / min m inds[i].length, P.set i (chunks inds[i] (min m inds[i].length))) := by
      simp only [otherStep]
      rw [List.getD_eq_getElem inds [] hi]
    rw [hstep]
    have hdrop : (P.set i (chunks inds[i] (min m inds[i].length))).drop i =
        chunks inds[i] (min m inds[i].length) :: P.drop (i + 1) := by
      rw [List.drop_eq_getElem_cons (by simp; omega)]
      simp [List.drop_set]
    have hn : 0 < min m inds[i].length := by omega
    have hflat := chunks_flatten inds[i] hn
    have hdi : inds.drop i = inds[i] :: inds.drop (i + 1) := List.drop_eq_getElem_cons hi
    simp only [hdrop]
    refine ⟨by simp [h1], Nat.div_pos (by omega) hn, ?_, ?_, ?_⟩
    · rcases h4 with rfl | h4
      · rw [Nat.min_eq_left (by omega), chunks_one, hdi]
        simp only [product, List.flatMap_assoc, List.flatMap_map, List.map_flatMap]
        refine List.flatMap_congr fun a _ => ?_
        simp only [product, List.flatMap_cons, List.flatMap_nil, List.append_nil]
        rw [← h3, List.map_flatMap]
      · have := product_cons_flatMap (chunks inds[i] (min m inds[i].length)) (inds.drop (i + 1))
        rw [hflat] at this
        rw [hdi, ← this]
        simp only [product, h4, List.flatMap_assoc, List.flatMap_cons, List.flatMap_nil, List.append_nil, List.map_cons, List.map_nil]
    · rcases h4 with rfl | h4
      · left; rw [Nat.min_eq_left (by omega)]
      · by_cases hm : m ≤ inds[i].length
        · left; rw [Nat.min_eq_left hm, Nat.div_self (by omega)]
        · right
          rw [Nat.min_eq_right (by omega), chunks_all _ hne, hdi]
          simp [product, h4]
    · intro ind hind
      simp only [product, List.mem_flatMap, List.mem_map] at hind
      obtain ⟨c, hc, ind', hind', rfl⟩ := hind
      have hcl := chunks_mem_length hc
      obtain ⟨h51, h52⟩ := h5 ind' hind'
      simp only [List.map_cons, List.prod_cons]
      have hts := tailSize_step hi
      have hle : c.length * (ind'.map List.length).prod ≤ tailSize inds i := by
        rw [hts]; exact Nat.mul_le_mul (by omega) h51
      refine ⟨hle, fun j hj hs => ?_⟩
      rcases h4 with hm | h4
      · have hc1 : c.length = 1 := by
          subst hm
          rw [Nat.min_eq_left (by omega), chunks_one, List.mem_map] at hc
          obtain ⟨a, _, rfl⟩ := hc; rfl
        rw [hc1, Nat.one_mul] at hs hle ⊢
        rcases Nat.eq_or_lt_of_le hj with rfl | hj'
        · have := le_antisymm hs hle
          rw [this]
        · exact h52 j hj' hs
      · have : ind' = inds.drop (i + 1) := by simpa [h4] using hind'
        subst this
        rcases Nat.eq_or_lt_of_le hj with rfl | hj'
        · rw [le_antisymm hs hle]
        · exact dvd_mul_of_dvd_right (tailSize_dvd inds hj') _

theorem memIndices_foldr (v : View Ax) (limit : ℕ) :
    v.memIndices limit [] = ((List.range' 0 v.inds.length).foldr (fun j st => otherStep v.inds st j)
      (limit, v.inds.map fun _ => [])).2 := by
  unfold memIndices
  simp [List.range_eq_range']

/-- C05: one after the other, the chunks hold the requested cells in row-major order (last axis fastest). -/
theorem loopMem_order (v : View Ax) (limit : ℕ) (hl : 1 ≤ limit) (hpos : ∀ ind ∈ v.inds, ind ≠ []) :
    ((v.loopMem limit []).flatMap fun c => product c.inds) = product v.inds := by
  have := (mem_fold v.inds hpos limit hl v.inds.length 0 (by simp)).2.2.1
  simp only [List.drop_zero] at this
  unfold loopMem
  rw [List.flatMap_map, memIndices_foldr]
  exact this

/-- A chunk that is at least as large as the trailing axes together consists of whole pieces of them. -/
theorem loopMem_whole (v : View Ax) (limit : ℕ) (hl : 1 ≤ limit) (hpos : ∀ ind ∈ v.inds, ind ≠ []) (c : View Ax)
    (hc : c ∈ v.loopMem limit []) (j : ℕ) (hj : ((v.inds.drop j).map List.length).prod ≤ c.size) :
    ((v.inds.drop j).map List.length).prod ∣ c.size := by
  have := (mem_fold v.inds hpos limit hl v.inds.length 0 (by simp)).2.2.2.2
  simp only [List.drop_zero] at this
  unfold loopMem at hc
  rw [memIndices_foldr] at hc
  obtain ⟨ind, hind, rfl⟩ := List.mem_map.1 hc
  exact (this ind hind).2 j (Nat.zero_le _) hj

example : ((View.mk [(), ()] [[4, 2, 2], [0, 1, 2, 3, 4]]).loopMem 4 []).flatMap (fun c => product c.inds) =
    [[4, 0], [4, 1], [4, 2], [4, 3], [4, 4], [2, 0], [2, 1], [2, 2], [2, 3], [2, 4], [2, 0], [2, 1], [2, 2], [2, 3], [2, 4]] := by
  decide

end PyGeode
