/-
Property C132: texts of coordinates.
-/
import Verif.Model.FormatValue
import Mathlib.Tactic.Linarith
import Mathlib.Tactic.Ring
import Mathlib.Tactic.FieldSimp
import Mathlib.Tactic.NormNum

namespace PyGeode
namespace Spec

/-- the same longitude: a whole number of turns apart -/
def SamePlace (x y : ℚ) : Prop := ∃ k : ℤ, x = y + 360 * k

/-- a way to write numbers that tells non-negative numbers apart -/
structure Telling (write : ℚ → Option Name) : Prop where
  total : ∀ x, 0 ≤ x → (write x).isSome = true
  apart : ∀ x y, 0 ≤ x → 0 ≤ y → write x = write y → x = y

/-- what follows the text of a coordinate -/
def unitsAfter (q : FormatValue.Ask) : Name := if q.units then ' ' :: q.ownUnits else []

end Spec

namespace FormatValue
open Spec

theorem split_two (c : Char) (p r : Name) (hp : c ∉ p) (hr : c ∉ r) : split c (p ++ c :: r) = [p, r] := by
  unfold split List.splitOn
  rw [List.splitOnP_append_cons_of_forall_mem (by intro x hx; simp; rintro rfl; exact hp hx) c (by simp),
    List.splitOnP_eq_singleton (by intro x hx; simp; rintro rfl; exact hr hx)]

theorem withUnits_eq (q : Ask) (s : Name) : withUnits q s = s ++ unitsAfter q := by
  unfold withUnits unitsAfter
  split_ifs <;> simp

theorem mod360_spec (x : ℚ) : 0 ≤ mod360 x ∧ mod360 x < 360 ∧ ∃ k : ℤ, x = mod360 x + 360 * k := by
  unfold mod360
  have h1 := Int.floor_le (x / 360)
  have h2 := Int.lt_floor_add_one (x / 360)
  have e : x / 360 * 360 = x := by ring
  refine ⟨by linarith, by linarith, ⌊x / 360⌋, by ring⟩

/-- **C132**: a longitude, with a format `p E rest`: the number shown is a longitude `v` of the same place, east of Greenwich with E and west
with W, where `v` is the one between `b - 360` and `b`; `b` is the number after the `<` that follows the E, or else 180. -/
theorem lon_correct (num : Name → ℚ → Option Name) (toFloat : Name → Option ℚ) (q : Ask) (p rest : Name) (hq : q.format = p ++ 'E' :: rest)
    (hp : 'E' ∉ p) (hr : 'E' ∉ rest) (x : ℚ) :
    ∃ v, SamePlace x v ∧ (toFloat (rest.drop 1)).getD 180 - 360 ≤ v ∧ v < (toFloat (rest.drop 1)).getD 180 ∧
      (0 ≤ v → lon num toFloat q x = (num p v).map fun s => s ++ 'E' :: unitsAfter q) ∧
      (v < 0 → lon num toFloat q x = (num p (-v)).map fun s => s ++ 'W' :: unitsAfter q) := by
  have h : lon num toFloat q x = (
      let o : ℚ := 360 - (toFloat (rest.drop 1)).getD 180
      let v := mod360 (x + o) - o
      if 0 ≤ v then (num p v).map fun s => withUnits q (s ++ ['E']) else (num p (-v)).map fun s => withUnits q (s ++ ['W'])) := by
    unfold lon
    rw [if_pos (by rw [hq]; simp), hq, split_two 'E' p rest hp hr]
    have e : origOf toFloat rest = 360 - (toFloat (rest.drop 1)).getD 180 := by
      unfold origOf
      cases toFloat (rest.drop 1) with
      | none => norm_num [Option.getD]
      | some b => rfl
    simp only [e]
  generalize hb : (toFloat (rest.drop 1)).getD 180 = b at h ⊢
  obtain ⟨m1, m2, k, m3⟩ := mod360_spec (x + (360 - b))
  refine ⟨mod360 (x + (360 - b)) - (360 - b), ⟨k, by linarith⟩, by linarith, by linarith, ?_, ?_⟩
  · intro hv
    rw [h]
    simp only
    rw [if_pos hv]
    simp only [withUnits_eq, List.append_assoc, List.singleton_append]
  · intro hv
    rw [h]
    simp only
    rw [if_neg (not_le.mpr hv)]
    simp only [withUnits_eq, List.append_assoc, List.singleton_append]

theorem int_small {k : ℤ} (h1 : (-1 : ℚ) < k) (h2 : (k : ℚ) < 1) : k = 0 := by
  have a : -1 < k := by exact_mod_cast h1
  have b : k < 1 := by exact_mod_cast h2
  omega

/-- **C132**: two longitudes get the same text exactly if they are the same place, provided the format tells numbers apart -/
theorem lon_same (num : Name → ℚ → Option Name) (toFloat : Name → Option ℚ) (q : Ask) (p rest : Name) (hq : q.format = p ++ 'E' :: rest)
    (hp : 'E' ∉ p) (hr : 'E' ∉ rest) (hn : Telling (num p)) (x y : ℚ) :
    lon num toFloat q x = lon num toFloat q y ↔ SamePlace x y := by
  obtain ⟨v, ⟨k, hk⟩, a1, a2, a3, a4⟩ := lon_correct num toFloat q p rest hq hp hr x
  obtain ⟨w, ⟨l, hl⟩, b1, b2, b3, b4⟩ := lon_correct num toFloat q p rest hq hp hr y
  have hvw : SamePlace x y ↔ v = w := by
    constructor
    · rintro ⟨m, hm⟩
      have e : v - w = 360 * ((m + l - k : ℤ) : ℚ) := by push_cast; linarith
      have h0 : m + l - k = 0 := int_small (by linarith) (by linarith)
      rw [h0] at e
      push_cast at e
      linarith
    · rintro rfl
      exact ⟨k - l, by push_cast; linarith⟩
  have hend : ∀ (s t u : Name) (c d : Char), s ++ c :: u = t ++ d :: u → s = t ∧ c = d := by
    intro s t u c d h
    have h1 : (s ++ [c]) ++ u = (t ++ [d]) ++ u := by simpa using h
    have h2 := List.append_cancel_right h1
    have h3 := List.append_inj' h2 rfl
    exact ⟨h3.1, by simpa using h3.2⟩
  rw [hvw]
  constructor
  · intro he
    rcases le_or_gt 0 v with hv | hv <;> rcases le_or_gt 0 w with hw | hw
    · rw [a3 hv, b3 hw] at he
      obtain ⟨s, hs⟩ := Option.isSome_iff_exists.1 (hn.total v hv)
      obtain ⟨t, ht⟩ := Option.isSome_iff_exists.1 (hn.total w hw)
      rw [hs, ht] at he
      have := (hend _ _ _ _ _ (Option.some.inj he)).1
      exact hn.apart v w hv hw (by rw [hs, ht, this])
    · rw [a3 hv, b4 hw] at he
      obtain ⟨s, hs⟩ := Option.isSome_iff_exists.1 (hn.total v hv)
      obtain ⟨t, ht⟩ := Option.isSome_iff_exists.1 (hn.total (-w) (by linarith))
      rw [hs, ht] at he
      exact absurd (hend _ _ _ _ _ (Option.some.inj he)).2 (by decide)
    · rw [a4 hv, b3 hw] at he
      obtain ⟨s, hs⟩ := Option.isSome_iff_exists.1 (hn.total (-v) (by linarith))
      obtain ⟨t, ht⟩ := Option.isSome_iff_exists.1 (hn.total w hw)
      rw [hs, ht] at he
      exact absurd (hend _ _ _ _ _ (Option.some.inj he)).2 (by decide)
    · rw [a4 hv, b4 hw] at he
      obtain ⟨s, hs⟩ := Option.isSome_iff_exists.1 (hn.total (-v) (by linarith))
      obtain ⟨t, ht⟩ := Option.isSome_iff_exists.1 (hn.total (-w) (by linarith))
      rw [hs, ht] at he
      have := (hend _ _ _ _ _ (Option.some.inj he)).1
      have := hn.apart (-v) (-w) (by linarith) (by linarith) (by rw [hs, ht, this])
      linarith
  · rintro rfl
    rcases le_or_gt 0 v with hv | hv
    · rw [a3 hv, b3 hv]
    · rw [a4 hv, b4 hv]

/-- **C132**: a latitude, with a format that ends with N: the number of degrees and the hemisphere; the equator is EQ -/
theorem lat_correct (num : Name → ℚ → Option Name) (q : Ask) (p : Name) (hq : q.format = p ++ ['N']) (x : ℚ) :
    lat num q x = if x = 0 then some (['E', 'Q'] ++ unitsAfter q)
      else (num p |x|).map fun s => s ++ (if 0 < x then 'N' else 'S') :: unitsAfter q := by
  unfold lat
  have hl : (p ++ ['N']).getLast? = some 'N' := by simp
  rw [hq, hl]
  simp only [if_true, List.dropLast_concat]
  rcases lt_trichotomy 0 x with h | h | h
  · rw [if_pos h, if_neg (ne_of_gt h), abs_of_pos h, if_pos h]
    simp only [withUnits_eq, List.append_assoc, List.singleton_append]
  · subst h
    rw [if_neg (lt_irrefl _), if_neg (lt_irrefl _), if_pos rfl, withUnits_eq]
  · rw [if_neg (not_lt.mpr h.le), if_pos h, if_neg (ne_of_lt h), abs_of_neg h, if_neg (not_lt.mpr h.le)]
    simp only [withUnits_eq, List.append_assoc, List.singleton_append]

/-- **C132**: two latitudes get the same text only if they are equal, provided the format tells numbers apart -/
theorem lat_same (num : Name → ℚ → Option Name) (q : Ask) (p : Name) (hq : q.format = p ++ ['N']) (hn : Telling (num p)) (x y : ℚ) :
    lat num q x = lat num q y ↔ x = y := by
  refine ⟨fun h => ?_, fun h => by rw [h]⟩
  rw [lat_correct num q p hq, lat_correct num q p hq] at h
  have hend : ∀ (s t u : Name) (c d : Char), s ++ c :: u = t ++ d :: u → s = t ∧ c = d := by
    intro s t u c d h
    have h1 : (s ++ [c]) ++ u = (t ++ [d]) ++ u := by simpa using h
    have h2 := List.append_cancel_right h1
    have h3 := List.append_inj' h2 rfl
    exact ⟨h3.1, by simpa using h3.2⟩
  obtain ⟨s, hs⟩ := Option.isSome_iff_exists.1 (hn.total |x| (abs_nonneg x))
  obtain ⟨t, ht⟩ := Option.isSome_iff_exists.1 (hn.total |y| (abs_nonneg y))
  rw [hs, ht, Option.map_some, Option.map_some] at h
  split_ifs at h with h1 h2 h3 h4 h5 h6
  · rw [h1, h2]
  · exact absurd (hend ['E'] _ _ 'Q' _ (Option.some.inj h)).2 (by decide)
  · exact absurd (hend ['E'] _ _ 'Q' _ (Option.some.inj h)).2 (by decide)
  · exact absurd (hend _ ['E'] _ _ 'Q' (Option.some.inj h)).2 (by decide)
  · have := (hend _ _ _ _ _ (Option.some.inj h)).1
    have := hn.apart _ _ (abs_nonneg x) (abs_nonneg y) (by rw [hs, ht, this])
    rwa [abs_of_pos (by assumption), abs_of_pos (by assumption)] at this
  · exact absurd (hend _ _ _ _ _ (Option.some.inj h)).2 (by decide)
  · exact absurd (hend _ ['E'] _ _ 'Q' (Option.some.inj h)).2 (by decide)
  · exact absurd (hend _ _ _ _ _ (Option.some.inj h)).2 (by decide)
  · have := (hend _ _ _ _ _ (Option.some.inj h)).1
    have := hn.apart _ _ (abs_nonneg x) (abs_nonneg y) (by rw [hs, ht, this])
    rw [abs_of_nonpos (by linarith), abs_of_nonpos (by linarith)] at this
    linarith

/-- **C132**: a pressure, with a format `p < b`: from `b` on an integer -/
theorem pres_correct (num : Name → ℚ → Option Name) (toFloat : Name → Option ℚ) (q : Ask) (p brk : Name) (hq : q.format = p ++ '<' :: brk)
    (hp : '<' ∉ p) (hr : '<' ∉ brk) (b : ℚ) (hb : toFloat brk = some b) (x : ℚ) :
    pres num toFloat q x = (num (if b ≤ x then "%d".toList else p) x).map (· ++ unitsAfter q) := by
  unfold pres
  rw [if_pos (by rw [hq]; simp), hq, split_two '<' p brk hp hr]
  simp only [hb, Option.bind_some]
  have : withUnits q = (· ++ unitsAfter q) := funext (withUnits_eq q)
  rw [this]
  split_ifs <;> rfl

/-- **C132**: other formats are used as they are -/
theorem other_formats_partial (num : Name → ℚ → Option Name) (toFloat : Name → Option ℚ) (q : Ask) (x : ℚ) :
    ('E' ∉ q.format → lon num toFloat q x = (num q.format x).map (· ++ unitsAfter q)) ∧
    (q.format ≠ [] → q.format.getLast? ≠ some 'N' → lat num q x = (num q.format x).map (· ++ unitsAfter q)) ∧
    ('<' ∉ q.format → pres num toFloat q x = (num q.format x).map (· ++ unitsAfter q)) ∧
    plain num q x = (num q.format x).map fun s => if q.units then s ++ " ".toList ++ q.unitstr.getD q.ownUnits else s := by
  have e : withUnits q = (· ++ unitsAfter q) := funext (withUnits_eq q)
  refine ⟨fun h => ?_, fun h0 h => ?_, fun h => ?_, ?_⟩
  · unfold lon; rw [if_neg h, e]
  · unfold lat
    cases hl : q.format.getLast? with
    | none => exact absurd (List.getLast?_eq_none_iff.1 hl) h0
    | some c =>
      simp only
      rw [if_neg (by rintro rfl; exact h hl), e]
  · unfold pres; rw [if_neg h, e]
  · unfold plain
    congr 1
    funext s
    split_ifs
    · simp
    · rfl

/-- **C132**, violated: the units asked for are used by variables and other axes, and ignored by longitudes, latitudes and pressures; so is the
plot attribute `plotunits`. -/
theorem unitstr_violated : ∃ num : Name → ℚ → Option Name, ∃ toFloat : Name → Option ℚ, ∃ q : Ask,
    q = tick none (some "deg".toList) "%g".toList "degrees".toList none none true ∧ q.unitstr = some "deg".toList ∧
    plain num q 30 = some "30 deg".toList ∧ lat num q 30 = some "30 degrees".toList ∧ lon num toFloat q 30 = some "30 degrees".toList ∧
    pres num toFloat q 30 = some "30 degrees".toList :=
  ⟨fun _ _ => some "30".toList, fun _ => none, _, rfl, rfl, by decide +kernel, by decide +kernel, by decide +kernel, by decide +kernel⟩

/-- **C132**, violated: no longitude can be written with two E, as in a scientific format -/
theorem lon_scientific_violated (num : Name → ℚ → Option Name) (toFloat : Name → Option ℚ) (q : Ask) (hq : q.format = "%.2E E".toList) (x : ℚ) :
    lon num toFloat q x = none := by
  unfold lon
  rw [hq, if_pos (by decide)]
  have : split 'E' "%.2E E".toList = ["%.2".toList, " ".toList, []] := by decide +kernel
  rw [this]

/-! ### examples -/

/-- an exact way to write numbers: as many strokes as the numerator, as many dots as the denominator -/
def strokes (_ : Name) (x : ℚ) : Option Name := some (List.replicate x.num.toNat '|' ++ List.replicate x.den '.')

theorem strokes_telling (fmt : Name) : Telling (strokes fmt) where
  total _ _ := rfl
  apart x y hx hy h := by
    have h' := Option.some.inj h
    have h1 := congrArg (List.count '|') h'
    have h2 := congrArg (List.count '.') h'
    simp [List.count_replicate] at h1 h2
    have := Rat.num_nonneg.2 hx
    have := Rat.num_nonneg.2 hy
    exact Rat.ext (by omega) h2

def lonAsk : Ask := ⟨none, false, none, "%g E".toList, []⟩

example (x y : ℚ) := lon_same strokes (fun _ => none) lonAsk "%g ".toList [] (by decide) (by decide) (by decide) (strokes_telling _) x y
example (x y : ℚ) := lat_same strokes ⟨some "%gN".toList, true, none, [], []⟩ "%g".toList (by decide) (strokes_telling _) x y
example : lon (fun _ x => some (toString x.num).toList) (fun _ => none) lonAsk 190 = some "170W".toList := by decide +kernel
example : lon (fun _ x => some (toString x.num).toList) (fun _ => none) lonAsk (-20) = some "20W".toList := by decide +kernel
example : lon (fun _ x => some (toString x.num).toList) (fun t => if t = "360".toList then some 360 else none)
    ⟨some "%gE<360".toList, true, none, [], "deg".toList⟩ 270 = some "270E deg".toList := by decide +kernel
example : lat (fun _ x => some (toString x.num).toList) ⟨some "%gN".toList, false, none, [], []⟩ (-43) = some "43S".toList := by decide +kernel

end FormatValue
end PyGeode
