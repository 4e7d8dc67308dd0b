/-
Property C41 for argmin: argmin of the values is argmax of the values with the other sign.
-/
import Verif.Model.ArgMin
import Verif.Props.Reduce

namespace PyGeode
namespace Reduce
open NArr Spec

/-- the values with the other sign -/
def negChunk (chunk : View ℕ → NArr ℚ) (c : View ℕ) : NArr ℚ := { shape := (chunk c).shape, get := fun k => -(chunk c).get k }

theorem argminList_neg (l : List ℚ) : argminList l = argmaxList (l.map fun x => -x) := by
  unfold argminList argmaxList
  rw [List.findIdx_map]
  congr 1
  funext x
  simp [List.all_map, Function.comp_def]

theorem npArgmin_neg (chunk : View ℕ → NArr ℚ) (c : View ℕ) (i : ℕ) : npArgmin (chunk c) i = npArgmax (negChunk chunk c) i := by
  unfold npArgmin npArgmax negChunk
  simp only [argminList_neg, List.map_map, Function.comp_def]

theorem argMinVar_neg (limit : ℕ) (lens : List ℕ) (index : ℕ) (outInds : List (List ℕ)) (junk : List ℕ → ℕ) (chunk : View ℕ → NArr ℚ) :
    argMinVar limit lens index outInds junk chunk = argMaxVar limit lens index outInds junk (negChunk chunk) := by
  unfold argMinVar argMaxVar
  simp only [npArgmin_neg]

/-- `argminList` is the first position of the smallest value -/
theorem argminList_spec (l : List ℚ) (hl : l ≠ []) :
    argminList l < l.length ∧ (∀ y ∈ l, l.getD (argminList l) 0 ≤ y) ∧
    ∀ i < argminList l, l.getD (argminList l) 0 < l.getD i 0 := by
  obtain ⟨h1, h2, h3⟩ := argmaxList_spec (l.map fun x => -x) (by simpa using hl)
  rw [← argminList_neg] at h1 h2 h3
  have e : ∀ i, (l.map fun x => -x).getD i 0 = -(l.getD i 0) := fun i => by
    simp only [List.getD_eq_getElem?_getD, List.getElem?_map]
    cases l[i]? <;> simp
  refine ⟨by simpa using h1, fun y hy => ?_, fun i hi => ?_⟩
  · have := h2 (-y) (List.mem_map.mpr ⟨y, hy, rfl⟩)
    rw [e] at this
    linarith
  · have := h3 i hi
    rw [e, e] at this
    linarith

/-- C41, part that holds: as long as no chunk splits the reduced axis, `argmin` gives the first position of the smallest value -/
theorem argmin_correct_partial {lens : List ℕ} {limit : ℕ} {outInds : List (List ℕ)} {index : ℕ} {data : List ℕ → ℚ} {chunk : View ℕ → NArr ℚ}
    (junk : List ℕ → ℕ) (g : GoodReq lens [index] outInds) (hl : 1 ≤ limit) (hr : Reads data lens chunk)
    (hwhole : ∀ c ∈ (inView lens [index] outInds).loopMem limit [], c.inds.getD index [] = List.range (lens.getD index 0))
    {k : List ℕ} (hk : InBounds (outInds.map List.length) k) :
    (argMinVar limit lens index outInds junk chunk).get k =
      argminList ((List.range (lens.getD index 0)).map fun j : ℕ => data ((cell outInds k).insertIdx index j)) := by
  have hr' : Reads (fun q => -data q) lens (negChunk chunk) := by
    intro c hc
    obtain ⟨h1, h2⟩ := hr c hc
    exact ⟨h1, fun q hq => by simp only [negChunk]; rw [h2 q hq]⟩
  rw [argMinVar_neg, argmax_correct_partial junk g hl hr' hwhole hk, argminList_neg, List.map_map]
  rfl

/-- C41: what is written for a chunk has the shape of the place it is written to -/
theorem argmax_fits {lens : List ℕ} {limit : ℕ} {outInds : List (List ℕ)} {index : ℕ} {data : List ℕ → ℚ} {chunk : View ℕ → NArr ℚ}
    (g : GoodReq lens [index] outInds) (hl : 1 ≤ limit) (hr : Reads data lens chunk) (c : View ℕ)
    (hc : c ∈ (inView lens [index] outInds).loopMem limit []) :
    (npArgmax (chunk c) index).shape = (outPos lens [index] outInds c).map List.length := by
  have hidx : index < lens.length := g.rlt index (by simp)
  obtain ⟨f1, f2, f3, f4⟩ := chunk_facts g hl c hc
  have hd := forall₂_dropAxes [] [] [index] f3
  rw [inView_drop g] at hd
  have hlen := hd.length_eq
  have hdrop : dropAxes [] [index] c.inds = c.inds.eraseIdx index := by
    rw [← eraseIdx_desc [] [index] c.inds (by simp) (by simp [f1, hidx])]
    rfl
  have hz : ∀ (A B : List (List ℕ)), A.length = B.length →
      (List.zipWith (fun (c o : List ℕ) => c.map fun p : ℕ => o.idxOf p) A B).map List.length = A.map List.length := by
    intro A
    induction A with
    | nil => intro B _; simp
    | cons a A ih =>
      intro B hB
      cases B with
      | nil => simp at hB
      | cons b B => simp [ih B (by simpa using hB)]
  rw [outPos_eq c f1, hz _ _ hlen, hdrop]
  change (chunk c).shape.eraseIdx index = _
  rw [(hr c f2).1, List.eraseIdx_map]

theorem argmin_fits {lens : List ℕ} {limit : ℕ} {outInds : List (List ℕ)} {index : ℕ} {data : List ℕ → ℚ} {chunk : View ℕ → NArr ℚ}
    (g : GoodReq lens [index] outInds) (hl : 1 ≤ limit) (hr : Reads data lens chunk) (c : View ℕ)
    (hc : c ∈ (inView lens [index] outInds).loopMem limit []) :
    (npArgmin (chunk c) index).shape = (outPos lens [index] outInds c).map List.length :=
  argmax_fits g hl hr c hc

/-- three values read in one piece: the first of the two smallest -/
example : (argMinVar 10 [4] 0 [] (fun _ => 7) (lineVar [5, 1, 1, 2])).get [] = 1 := by
  have hone : ∀ c ∈ (inView [4] [0] []).loopMem 10 [], c.inds.getD 0 [] = List.range 4 := by decide +kernel
  rw [argmin_correct_partial (lens := [4]) (outInds := []) (index := 0) (limit := 10) (fun _ => 7)
    (by constructor <;> simp [dropAxes, InRange]) (by decide) (lineVar_reads [5, 1, 1, 2] 4) hone (k := []) (by simp [InBounds])]
  decide +kernel

/-- C41 is violated for argmin too: the smallest of 1, 5, 5, 2 is at position 0, but with pieces of two values the answer is 1 -/
theorem argmin_chunked_violated : ∃ (vals : List ℚ) (junk : List ℕ → ℕ) (limit : ℕ),
    1 ≤ limit ∧ GoodReq [vals.length] [0] [] ∧ argminList vals = 0 ∧
    (argMinVar limit [vals.length] 0 [] junk (lineVar vals)).get [] ≠ argminList vals := by
  refine ⟨[1, 5, 5, 2], fun _ => 0, 2, by decide, ?_, by decide +kernel, by decide +kernel⟩
  constructor <;> simp [dropAxes, InRange]

end Reduce
end PyGeode
