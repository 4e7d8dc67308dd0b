/-
Property C128: numbers sent by the OPeNDAP server are the numbers the client reads.
-/
import Verif.Spec.OpenDap
import Verif.Props.LoopOrder
import Verif.Lemmas.Reduce

namespace PyGeode
namespace OpenDap
open NArr Cf Spec Reduce

theorem be32_length (x : ℕ) : (be32 x).length = 4 := rfl
theorem be64_length (x : ℕ) : (be64 x).length = 8 := rfl

theorem flatMap_length_const {α β : Type} (f : α → List β) (n : ℕ) (h : ∀ a, (f a).length = n) (l : List α) :
    (l.flatMap f).length = n * l.length := by
  induction l with
  | nil => simp
  | cons a l ih => simp only [List.flatMap_cons, List.length_append, h, ih, List.length_cons]; ring

theorem getD_flatMap_const {α β : Type} (f : α → List β) (n : ℕ) (h : ∀ a, (f a).length = n) (d : β) (l : List α) (r : List β)
    (i j : ℕ) (hj : j < n) (hi : i < l.length) : (l.flatMap f ++ r).getD (n * i + j) d = (f (l[i])).getD j d := by
  induction l generalizing i with
  | nil => simp at hi
  | cons a l ih =>
    rw [List.flatMap_cons, List.append_assoc]
    cases i with
    | zero =>
      rw [List.getD_append _ _ _ _ (by rw [h]; omega)]
      simp
    | succ i =>
      rw [List.getD_append_right _ _ _ _ (by rw [h, Nat.mul_add]; omega), h, Nat.mul_add]
      rw [show n * i + n * 1 + j - n = n * i + j by omega]
      exact ih i (by simpa using hi)

theorem str2int32_sent (l : List ℕ) (r : List ℕ) (h : ∀ x ∈ l, x < 2 ^ 32) :
    (str2int32 (l.flatMap be32 ++ r)).take l.length = l ∧ l.length ≤ (str2int32 (l.flatMap be32 ++ r)).length := by
  have hlen : l.length ≤ (l.flatMap be32 ++ r).length / 4 := by
    rw [List.length_append, flatMap_length_const be32 4 be32_length]; omega
  refine ⟨?_, by simpa [str2int32] using hlen⟩
  apply List.ext_getElem
  · rw [List.length_take]; simp only [str2int32, List.length_map, List.length_range]; omega
  · intro i h1 h2
    rw [List.getElem_take]
    simp only [str2int32, List.getElem_map, List.getElem_range]
    have e0 := getD_flatMap_const be32 4 be32_length 0 l r i 0 (by omega) h2
    rw [Nat.add_zero] at e0
    rw [e0, getD_flatMap_const be32 4 be32_length 0 l r i 1 (by omega) h2, getD_flatMap_const be32 4 be32_length 0 l r i 2 (by omega) h2,
      getD_flatMap_const be32 4 be32_length 0 l r i 3 (by omega) h2]
    have hx := h l[i] (List.getElem_mem h2)
    generalize l[i] = x at hx
    simp only [be32, List.getD_cons_zero, List.getD_cons_succ]
    omega

theorem str2float64_sent (l : List ℕ) (r : List ℕ) (h : ∀ x ∈ l, x < 2 ^ 64) :
    (str2float64 (l.flatMap be64 ++ r)).take l.length = l ∧ l.length ≤ (str2float64 (l.flatMap be64 ++ r)).length := by
  have hlen : l.length ≤ (l.flatMap be64 ++ r).length / 8 := by
    rw [List.length_append, flatMap_length_const be64 8 be64_length]; omega
  refine ⟨?_, by simpa [str2float64] using hlen⟩
  apply List.ext_getElem
  · rw [List.length_take]; simp only [str2float64, List.length_map, List.length_range]; omega
  · intro i h1 h2
    rw [List.getElem_take]
    simp only [str2float64, List.getElem_map, List.getElem_range]
    have e0 := getD_flatMap_const be64 8 be64_length 0 l r i 0 (by omega) h2
    rw [Nat.add_zero] at e0
    rw [e0, getD_flatMap_const be64 8 be64_length 0 l r i 1 (by omega) h2, getD_flatMap_const be64 8 be64_length 0 l r i 2 (by omega) h2,
      getD_flatMap_const be64 8 be64_length 0 l r i 3 (by omega) h2, getD_flatMap_const be64 8 be64_length 0 l r i 4 (by omega) h2,
      getD_flatMap_const be64 8 be64_length 0 l r i 5 (by omega) h2, getD_flatMap_const be64 8 be64_length 0 l r i 6 (by omega) h2,
      getD_flatMap_const be64 8 be64_length 0 l r i 7 (by omega) h2]
    have hx := h l[i] (List.getElem_mem h2)
    generalize l[i] = x at hx
    simp only [be64, List.getD_cons_zero, List.getD_cons_succ]
    omega

theorem bits_lt (n : ℕ) (z : ℤ) : bits n z < 2 ^ n := by
  unfold bits
  have h0 := Int.emod_lt_of_pos z (show (0 : ℤ) < 2 ^ n by positivity)
  have h1 := Int.emod_nonneg z (show (2 : ℤ) ^ n ≠ 0 by positivity)
  zify
  rw [Int.toNat_of_nonneg h1]
  exact h0

theorem bits_of_nonneg (n : ℕ) (z : ℤ) (h0 : 0 ≤ z) (h1 : z < 2 ^ n) : (bits n z : ℤ) = z := by
  unfold bits
  rw [Int.emod_eq_of_lt h0 h1, Int.toNat_of_nonneg h0]

theorem signed32_bits (z : ℤ) (h0 : -2 ^ 31 ≤ z) (h1 : z < 2 ^ 31) : signed32 (bits 32 z) = z := by
  unfold signed32 bits
  split_ifs <;> omega

/-- the pieces of a variable together are the variable, in the order of its array -/
theorem pieces_order (limit : ℕ) (x : VarD) (hl : 1 ≤ limit) (hv : ∀ a ∈ x.axes, a.values ≠ []) :
    (pieces limit x).flatMap product = product (x.shape.map List.range) := by
  have hpos : ∀ ind ∈ x.shape.map List.range, ind ≠ [] := by
    intro ind hi
    simp only [VarD.shape, List.map_map, List.mem_map, Function.comp] at hi
    obtain ⟨a, ha, rfl⟩ := hi
    simpa using hv a ha
  have ho := loopMem_order (⟨x.axes, x.shape.map List.range⟩ : View AxisD) limit hl hpos
  unfold pieces
  split_ifs with h1 h2
  · simp
  · rw [← ho, List.flatMap_assoc, List.flatMap_map]
    apply List.flatMap_congr
    intro c hc
    cases hi : c.inds with
    | nil =>
      exfalso
      have : [] ∈ product (x.shape.map List.range) := by
        rw [← ho]
        exact List.mem_flatMap.mpr ⟨c, hc, by rw [hi]; simp [product]⟩
      have := (mem_product_range.mp this).length_eq
      simp [VarD.shape] at this
      omega
    | cons l rest =>
      simp only [List.headD_cons, List.set_cons_zero, List.flatMap_map]
      have := product_cons_flatMap (l.map fun s => [s]) rest
      rw [List.flatMap_map] at this
      rw [this]
      congr 2
      clear this hi
      induction l with
      | nil => rfl
      | cons a l ih => simpa using ih
  · rw [List.flatMap_map]
    exact ho

theorem writeValues_append (toDouble : ℤ → ℕ) (t : Np) (a b : List ℤ) :
    writeValues toDouble t (a ++ b) = writeValues toDouble t a ++ writeValues toDouble t b := by
  unfold writeValues
  split <;> simp

/-- bytes of pieces are the bytes of all values -/
theorem writeValues_pieces (toDouble : ℤ → ℕ) (t : Np) (f : List ℕ → ℤ) (l : List (List (List ℕ))) :
    (l.flatMap fun v => writeValues toDouble t ((product v).map f)) = writeValues toDouble t ((l.flatMap product).map f) := by
  induction l with
  | nil => simp [writeValues]; split <;> rfl
  | cons v l ih => rw [List.flatMap_cons, ih, List.flatMap_cons, List.map_append, writeValues_append]

/-- the bytes of an array are its length, twice, and its values in order -/
theorem writeXdr_eq (toDouble : ℤ → ℕ) (limit : ℕ) (x : VarD) (hl : 1 ≤ limit) (hx : Sendable x) :
    writeXdr toDouble limit x = some (be32 x.shape.prod ++ be32 x.shape.prod ++ writeValues toDouble x.type (inOrder x)) := by
  unfold writeXdr packLength
  rw [if_pos hx.size, Option.map_some, writeValues_pieces, pieces_order limit x hl hx.axes]
  rfl

/-- what is read from the bytes of values that fit, whatever follows them -/
theorem decode_sent_partial (toDouble : ℤ → ℕ) (hd : ∀ z, toDouble z < 2 ^ 64) (t : Np) (ht : Carried t) (l : List ℤ) (hl : ∀ z ∈ l, Carries t z) (r : List ℕ) :
    ∃ arr, decode (np2dap t) (writeValues toDouble t l ++ r) = some arr ∧ l.length ≤ arr.length ∧
      arr.take l.length = l.map (arrives toDouble t) := by
  have h32 := str2int32_sent (l.map (bits 32)) r (by
    intro x hx; obtain ⟨z, -, rfl⟩ := List.mem_map.mp hx; exact bits_lt 32 z)
  rw [List.flatMap_map, List.length_map] at h32
  have h64 := str2float64_sent (l.map fun z => if t = .float64 then bits 64 z else toDouble z) r (by
    intro x hx
    obtain ⟨z, -, rfl⟩ := List.mem_map.mp hx
    split_ifs
    · exact bits_lt 64 z
    · exact hd z)
  rw [List.flatMap_map, List.length_map] at h64
  have hint : (∀ z ∈ l, -2 ^ 31 ≤ z ∧ z < 2 ^ 31) → (((str2int32 (l.flatMap (fun z => be32 (bits 32 z)) ++ r)).map signed32).take l.length) = l := by
    intro hz
    rw [← List.map_take, h32.1, List.map_map]
    conv_rhs => rw [← List.map_id l]
    exact List.map_congr_left fun z h => signed32_bits z (hz z h).1 (hz z h).2
  cases t with
  | uint8 => exact absurd rfl ht.1
  | string8 => exact absurd rfl ht.2
  | float32 =>
    refine ⟨_, rfl, by rw [List.length_map]; exact h32.2, ?_⟩
    change List.take l.length ((str2int32 (l.flatMap (fun z => be32 (bits 32 z)) ++ r)).map Int.ofNat) = _
    rw [← List.map_take, h32.1, List.map_map]
    exact List.map_congr_left fun z h => bits_of_nonneg 32 z (hl z h).1 (hl z h).2
  | float64 =>
    refine ⟨_, rfl, by rw [List.length_map]; exact h64.2, ?_⟩
    change List.take l.length ((str2float64 (l.flatMap (fun z => be64 (if Np.float64 = Np.float64 then bits 64 z else toDouble z)) ++ r)).map Int.ofNat) = _
    rw [← List.map_take, h64.1, List.map_map]
    exact List.map_congr_left fun z h => bits_of_nonneg 64 z (hl z h).1 (hl z h).2
  | uint64 =>
    refine ⟨_, rfl, by rw [List.length_map]; exact h64.2, ?_⟩
    change List.take l.length ((str2float64 (l.flatMap (fun z => be64 (if Np.uint64 = Np.float64 then bits 64 z else toDouble z)) ++ r)).map Int.ofNat) = _
    rw [← List.map_take, h64.1, List.map_map]
    exact List.map_congr_left fun z h => by simp [arrives]
  | int64 =>
    refine ⟨_, rfl, by rw [List.length_map]; exact h64.2, ?_⟩
    change List.take l.length ((str2float64 (l.flatMap (fun z => be64 (if Np.int64 = Np.float64 then bits 64 z else toDouble z)) ++ r)).map Int.ofNat) = _
    rw [← List.map_take, h64.1, List.map_map]
    exact List.map_congr_left fun z h => by simp [arrives]
  | _ =>
    refine ⟨_, rfl, by rw [List.length_map]; exact h32.2, ?_⟩
    refine (hint fun z h => ?_).trans ?_
    · have := hl z h
      simp only [Carries] at this
      omega
    · conv_lhs => rw [← List.map_id l]
      exact List.map_congr_left fun z h => by simp [arrives]

end OpenDap
end PyGeode
