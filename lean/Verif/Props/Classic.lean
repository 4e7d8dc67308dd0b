/-
C137: numbers and attributes written to a classic netCDF file.
-/
import Verif.Spec.Classic
import Mathlib.Tactic.Linarith
import Mathlib.Tactic.NormNum
import Mathlib.Data.List.Forall2

namespace PyGeode
namespace Classic
open Spec

theorem wrap_eq (z h m : ℤ) (h1 : -h ≤ z) (h2 : z < h) (hm : m = 2 * h) : (z + h) % m - h = z := by
  rw [Int.emod_eq_of_lt (by omega) (by omega)]; omega

theorem cast_exact {rnd : ℚ → ℚ} (hr : ExactRounding rnd) {v : Version} {d t : DType} {q : ℚ} (hk : Keeps v d q) (ht : stored v d = some t) :
    cast rnd t d q = q := by
  cases v <;> cases d <;> simp only [stored, Option.some.injEq, reduceCtorEq] at ht <;> subst ht <;>
    first
    | (exact if_pos rfl)
    | (obtain ⟨z, rfl, h1, h2⟩ := hk
       first
       | (rw [cast, if_neg (by decide)]
          simp only [Rat.num_intCast]
          norm_cast
          exact wrap_eq _ _ _ (by omega) (by omega) (by norm_num))
       | (rw [cast, if_neg (by decide)]
          exact hr z (by omega) (by omega)))

theorem stored_ne {v : Version} {d : DType} (h : d ≠ .other) : ∃ t, stored v d = some t := by
  cases v <;> cases d <;> first | exact absurd rfl h | exact ⟨_, rfl⟩

theorem keeps_ne {v : Version} {d : DType} {q : ℚ} (h : Keeps v d q) : d ≠ .other := by
  rintro rfl; cases v <;> exact h

theorem getOne_nums (t : DType) (l : List ℚ) : content (getOne (.nums t l)) = .inr l ∧ (IsArray (getOne (.nums t l)) ↔ l.length ≠ 1) := by
  match l with
  | [] => exact ⟨rfl, Iff.rfl⟩
  | [q] => exact ⟨rfl, by simp [getOne, IsArray]⟩
  | q :: r :: l => exact ⟨rfl, Iff.rfl⟩

theorem put_nums {rnd : ℚ → ℚ} (hr : ExactRounding rnd) {v : Version} {d : DType} {l : List ℚ} (hd : d ≠ .other) (hl : ∀ q ∈ l, Keeps v d q) :
    ∃ t, ((stored v d).map fun t => Stored.nums t (l.map (cast rnd t d))) = some (.nums t l) := by
  obtain ⟨t, ht⟩ := stored_ne (v := v) hd
  refine ⟨t, ?_⟩
  rw [ht, Option.map_some]
  congr 2
  conv_rhs => rw [← List.map_id l]
  exact List.map_congr_left fun q hq => cast_exact hr (hl q hq) ht

theorem int_nums {v : Version} {z : ℤ} (h : KeepsAtt v (.int z)) :
    (asArray (.int z)).1 ≠ .other ∧ ∀ q ∈ (asArray (.int z)).2, Keeps v (asArray (.int z)).1 q := by
  simp only [asArray, List.mem_singleton, forall_eq]
  cases v
  · obtain ⟨h1, h2⟩ := h
    split_ifs with a b c
    · exact ⟨by decide, trivial⟩
    · exact ⟨by decide, z, rfl, h1, h2⟩
    · omega
    · omega
  · obtain ⟨h1, h2⟩ := h
    split_ifs with a b c
    · exact ⟨by decide, trivial⟩
    · exact ⟨by decide, trivial⟩
    · exact ⟨by decide, trivial⟩
    · omega

theorem putOne_same {rnd : ℚ → ℚ} (hr : ExactRounding rnd) {v : Version} {a : Att} (h : KeepsAtt v a) :
    ∃ s, putOne rnd v a = some s ∧ SameAtt a (getOne s) := by
  match a, h with
  | .text t, h =>
    refine ⟨_, rfl, ?_, Iff.rfl⟩
    have : t.takeWhile (fun c => decide (c ≠ '\x00')) = t := by
      conv_lhs => rw [← List.append_nil t]
      rw [List.takeWhile_append_of_pos]
      · simp
      · intro c hc
        exact decide_eq_true fun e => h (e ▸ hc)
    rw [getOne, this]
  | .int z, h =>
    obtain ⟨t, ht⟩ := put_nums hr (int_nums h).1 (int_nums h).2
    refine ⟨_, ht, ?_, ?_⟩
    · rw [(getOne_nums _ _).1]; rfl
    · rw [(getOne_nums _ _).2]; simp [IsArray, asArray]
  | .scalar d q, h =>
    obtain ⟨t, ht⟩ := put_nums (l := [q]) hr (keeps_ne h) (fun r hr' => by rw [List.mem_singleton.mp hr']; exact h)
    refine ⟨_, ht, ?_, ?_⟩
    · rw [(getOne_nums _ _).1]; rfl
    · rw [(getOne_nums _ _).2]; simp [IsArray]
  | .array d l, h =>
    obtain ⟨t, ht⟩ := put_nums hr h.1 h.2
    refine ⟨_, ht, ?_, ?_⟩
    · rw [(getOne_nums _ _).1]; rfl
    · rw [(getOne_nums _ _).2]; exact Iff.rfl

/-- C137. Attributes that the format keeps are read back: the same names, in the same order, with the same texts and numbers. -/
theorem attributes_partial {rnd : ℚ → ℚ} (hr : ExactRounding rnd) (v : Version) (atts : List (Name × Att)) (h : ∀ p ∈ atts, KeepsAtt v p.2) :
    List.Forall₂ (fun p r => p.1 = r.1 ∧ SameAtt p.2 r.2) atts (get (put rnd v atts)) := by
  induction atts with
  | nil => exact .nil
  | cons p atts ih =>
    obtain ⟨n, a⟩ := p
    obtain ⟨s, hs, he⟩ := putOne_same hr (h (n, a) (by simp))
    rw [put, hs]
    exact .cons ⟨rfl, he⟩ (ih fun p hp => h p (by simp [hp]))

/-- C137. The numbers of a variable that the format keeps are read back exactly. -/
theorem numbers_partial {rnd : ℚ → ℚ} (hr : ExactRounding rnd) (v : Version) (d : DType) (hd : d ≠ .other) (l : List ℚ) (h : ∀ q ∈ l, Keeps v d q) :
    ∃ t, saved rnd v d l = some (t, l) := by
  obtain ⟨t, ht⟩ := stored_ne (v := v) hd
  refine ⟨t, ?_⟩
  rw [saved, ht, Option.map_some]
  congr 2
  conv_rhs => rw [← List.map_id l]
  exact List.map_congr_left fun q hq => cast_exact hr (h q hq) ht

/-- C137. In the format of version 4, numbers also keep their type. -/
theorem types_partial (rnd : ℚ → ℚ) (d : DType) (hd : d ≠ .other) (l : List ℚ) : saved rnd .v4 d l = some (d, l) := by
  have : stored .v4 d = some d := by cases d <;> first | rfl | exact absurd rfl hd
  rw [saved, this, Option.map_some]
  congr 2
  conv_rhs => rw [← List.map_id l]
  exact List.map_congr_left fun q _ => if_pos rfl

/-- C137. Numbers of other types are refused, not changed. -/
theorem refused (rnd : ℚ → ℚ) (v : Version) (l : List ℚ) : saved rnd v .other l = none := by cases v <;> rfl

/-- C137. One attribute that cannot be written loses all those that follow it. -/
theorem attributes_violated (rnd : ℚ → ℚ) (v : Version) (n : Name) (l : List ℚ) (pre post : List (Name × Att)) :
    get (put rnd v (pre ++ (n, .array .other l) :: post)) = get (put rnd v pre) := by
  congr 1
  induction pre with
  | nil => cases v <;> rfl
  | cons p pre ih =>
    obtain ⟨m, a⟩ := p
    rw [List.cons_append, put, put, ih]

/-- C137. In the classic format, unsigned numbers of 2³¹ and more become negative, without a warning. -/
theorem unsigned_violated (rnd : ℚ → ℚ) (z : ℤ) (h1 : 2147483648 ≤ z) (h2 : z ≤ 4294967295) :
    saved rnd .v3 .u32 [(z : ℚ)] = some (.i32, [((z - 4294967296 : ℤ) : ℚ)]) := by
  rw [saved]
  simp only [stored, Option.map_some, List.map_cons, List.map_nil]
  rw [cast, if_neg (by decide)]
  simp only [Rat.num_intCast]
  have : (z + 2 ^ 31) % 2 ^ 32 - 2 ^ 31 = z - 4294967296 := by
    norm_num
    omega
  rw [this]

/-- C137. In the classic format, integers of 64 bits are rounded to doubles. -/
theorem rounded_violated (rnd : ℚ → ℚ) (q : ℚ) : saved rnd .v3 .i64 [q] = some (.f64, [rnd q]) := rfl

/-- C137. A text is cut at its first null character. -/
theorem null_violated (rnd : ℚ → ℚ) (v : Version) (n t u : Name) (h : '\x00' ∉ t) :
    get (put rnd v [(n, .text (t ++ '\x00' :: u))]) = [(n, .text t)] := by
  have : (t ++ '\x00' :: u).takeWhile (fun c => decide (c ≠ '\x00')) = t := by
    rw [List.takeWhile_append_of_pos]
    · simp
    · intro c hc
      exact decide_eq_true fun e => h (e ▸ hc)
  simp only [put, putOne, get, List.map_cons, List.map_nil, getOne, this]

/-- attributes of all kinds that the classic format keeps -/
example : ExactRounding (fun q => q) ∧ ∀ p ∈ ([(['u'], .text ['K']), (['n'], .int 4294967296), (['r'], .array .u16 [1, 65535]), (['s'], .scalar .f32 (1/2))] : List (Name × Att)),
    KeepsAtt .v3 p.2 := by
  refine ⟨fun _ _ _ => rfl, ?_⟩
  simp only [List.mem_cons, List.not_mem_nil, or_false, forall_eq_or_imp, forall_eq]
  refine ⟨(by decide : '\x00' ∉ ['K']), ⟨by decide, by decide⟩, ⟨by decide, ?_⟩, trivial⟩
  intro q hq
  simp only [List.mem_cons, List.not_mem_nil, or_false] at hq
  rcases hq with rfl | rfl
  · exact ⟨1, by norm_num, by decide, by decide⟩
  · exact ⟨65535, by norm_num, by decide, by decide⟩

/-- an attribute that is lost -/
example : get (put (fun q => q) .v4 [(['a'], .int 1), (['b'], .array .other []), (['c'], .text ['x'])]) = [(['a'], .scalar .i32 1)] := by decide +kernel

end Classic
end PyGeode
