/-
C82: packed variables.
-/
import Verif.Model.Pack
import Verif.Props.Loop
import Verif.Props.Cf
import Mathlib.Tactic.Linarith
import Mathlib.Tactic.FieldSimp

namespace PyGeode
open Spec NArr Axis Combine VarOps Reduce Loop

namespace Pack

/-- all the values of a variable that are not NaN -/
def _root_.PyGeode.Spec.allValues (lens : List ℕ) (data : List ℕ → Option ℚ) : List ℚ :=
  valid ((product (lens.map List.range)).map data)

theorem fibre_all (lens : List ℕ) : fibre lens (List.range lens.length) [] = product (lens.map List.range) := by
  unfold fibre
  rw [List.filter_eq_self]
  intro p hp
  have hl := (inBounds_iff.1 (mem_product_range.1 hp)).1
  rw [decide_eq_true_eq]
  unfold dropAxes
  rw [List.map_eq_nil_iff, List.filter_eq_nil_iff]
  intro i hi
  rw [hl] at hi
  simpa using hi

theorem dropAxes_all (A : List Axis) : dropAxes ax0 (List.range A.length) A = [] := by
  unfold dropAxes
  rw [List.map_eq_nil_iff, List.filter_eq_nil_iff]
  intro i hi
  simpa using hi

/-- a variable whose least and greatest values can be taken: axes of unrelated classes, none of them empty -/
structure _root_.PyGeode.Spec.Packable (A : List Axis) : Prop where
  reg : Regular A
  tol : ∀ a ∈ A, 0 ≤ a.rtol
  pos : ∀ a ∈ A, 0 < a.len

theorem packable_reducible {A : List Axis} (h : Packable A) (hA : A ≠ []) : Reducible A (List.range A.length) where
  reg := h.reg
  tol := h.tol
  sep := by
    intro i a ha hi
    have := (List.getElem?_eq_some_iff.1 ha).1
    exact absurd (List.mem_range.2 this) hi
  ne := by
    intro h'
    rw [List.range_eq_nil] at h'
    exact hA (List.length_eq_zero_iff.1 h')
  pos := by
    intro i hi
    have hi := List.mem_range.1 hi
    rw [List.getD_eq_getElem _ _ (by simpa using hi), List.getElem_map]
    exact h.pos _ (List.getElem_mem _)

theorem scalar_shows (nr : List ℚ → ℚ) (junk : List ℕ → Option ℚ) (x y : Var (Option ℚ)) (hA : x.axes ≠ []) (hy : y.axes = [])
    (F : List ℕ → Option ℚ) (hs : Shows nr y F) : scalar nr junk x (some y) = some (F []) := by
  have hw : y.whole = ⟨y.axes, []⟩ := by unfold Var.whole; rw [hy]; rfl
  obtain ⟨r, h1, h2⟩ := hs junk [] (by rw [hy]; exact .nil) (by intro ind hind; simp at hind)
  unfold scalar
  rw [if_neg hA]
  simp only [Option.bind_eq_bind, Option.bind_some]
  rw [hw, h1, Option.bind_some]
  have := h2.2 [] (by simp [InBounds])
  rw [this]
  rfl

variable (nr : List ℚ → ℚ) (hnr : ∀ l, 0 ≤ nr l) {limit : ℕ} (hl : 1 ≤ limit)

include hnr hl in
theorem scalar_min (junk : List ℕ → Option ℚ) (x : Var (Option ℚ)) (data : List ℕ → Option ℚ) (hx : Contains x data) (hp : Packable x.axes) :
    scalar nr junk x (nanmin nr junk limit x []) = some (allValues (x.axes.map Axis.len) data).min? := by
  by_cases hA : x.axes = []
  · obtain ⟨r, h1, h2⟩ := read_own nr junk x data hx hp.reg [] (by rw [hA]; exact .nil) (by simp)
    have hw : x.whole = ⟨x.axes, []⟩ := by unfold Var.whole; rw [hA]; rfl
    unfold scalar
    rw [if_pos hA]
    simp only [Option.bind_eq_bind, Option.bind_some]
    rw [hw, h1, Option.bind_some]
    have := h2.2 [] (by simp [InBounds])
    rw [this, hA]
    show some (data []) = some (valid [data []]).min?
    cases h : data [] <;> simp [valid]
  · obtain ⟨y, h1, h2, h3⟩ := nanmin_shows nr hnr hl [] (List.range x.axes.length) junk x data hx (by unfold Names; rw [if_pos rfl])
      (packable_reducible hp hA)
    rw [dropAxes_all] at h2
    rw [h1, scalar_shows nr junk x y hA h2 _ h3]
    have := fibre_all (x.axes.map Axis.len)
    rw [List.length_map] at this
    rw [this]
    rfl

include hnr hl in
theorem scalar_max (junk : List ℕ → Option ℚ) (x : Var (Option ℚ)) (data : List ℕ → Option ℚ) (hx : Contains x data) (hp : Packable x.axes) :
    scalar nr junk x (nanmax nr junk limit x []) = some (allValues (x.axes.map Axis.len) data).max? := by
  by_cases hA : x.axes = []
  · obtain ⟨r, h1, h2⟩ := read_own nr junk x data hx hp.reg [] (by rw [hA]; exact .nil) (by simp)
    have hw : x.whole = ⟨x.axes, []⟩ := by unfold Var.whole; rw [hA]; rfl
    unfold scalar
    rw [if_pos hA]
    simp only [Option.bind_eq_bind, Option.bind_some]
    rw [hw, h1, Option.bind_some]
    have := h2.2 [] (by simp [InBounds])
    rw [this, hA]
    show some (data []) = some (valid [data []]).max?
    cases h : data [] <;> simp [valid]
  · obtain ⟨y, h1, h2, h3⟩ := nanmax_shows nr hnr hl [] (List.range x.axes.length) junk x data hx (by unfold Names; rw [if_pos rfl])
      (packable_reducible hp hA)
    rw [dropAxes_all] at h2
    rw [h1, scalar_shows nr junk x y hA h2 _ h3]
    have := fibre_all (x.axes.map Axis.len)
    rw [List.length_map] at this
    rw [this]
    rfl

/-! ### One cell -/

theorem wrap16_id {n : ℤ} (h1 : -32768 ≤ n) (h2 : n ≤ 32767) : wrap16 n = n := by
  unfold wrap16; omega

theorem truncToInt_err (q : ℚ) : |(ToolsC.truncToInt q : ℚ) - q| < 1 := by
  unfold ToolsC.truncToInt
  split
  · have h1 := Int.floor_le q
    have h2 := Int.lt_floor_add_one q
    rw [abs_lt]; constructor <;> linarith
  · have h1 := Int.le_ceil q
    have h2 := Int.ceil_lt_add_one q
    rw [abs_lt]; constructor <;> linarith

theorem truncToInt_int (n : ℤ) : ToolsC.truncToInt (n : ℚ) = n := by
  unfold ToolsC.truncToInt; split <;> simp

theorem truncToInt_mono {p q : ℚ} (h : p ≤ q) : ToolsC.truncToInt p ≤ ToolsC.truncToInt q := by
  unfold ToolsC.truncToInt
  split <;> split
  · exact Int.floor_le_floor h
  · rename_i h1 h2; exact absurd (h1.trans h) h2
  · rename_i h1 h2
    have h1 : p < 0 := not_le.1 h1
    have h3 : ⌈p⌉ ≤ 0 := by rw [Int.ceil_le]; exact_mod_cast h1.le
    exact h3.trans (Int.floor_nonneg.2 h2)
  · exact Int.ceil_le_ceil h

theorem trunc_bounds {q : ℚ} (h1 : -32767 ≤ q) (h2 : q ≤ 32767) : -32767 ≤ ToolsC.truncToInt q ∧ ToolsC.truncToInt q ≤ 32767 := by
  have a := truncToInt_mono (p := ((-32767 : ℤ) : ℚ)) (q := q) (by simpa using h1)
  have b := truncToInt_mono (p := q) (q := ((32767 : ℤ) : ℚ)) (by simpa using h2)
  rw [truncToInt_int] at a b
  exact ⟨a, b⟩

/-- the number stored for `v` when the values run from `lo` to `hi` -/
theorem packCell_eq (bad : ℤ) {lo hi v : ℚ} (h : lo < hi) (h1 : lo ≤ v) (h2 : v ≤ hi) :
    -32767 ≤ (v - 1 / 2 * (lo + hi)) / ((hi - lo) / (2 ^ 16 - 2)) ∧ (v - 1 / 2 * (lo + hi)) / ((hi - lo) / (2 ^ 16 - 2)) ≤ 32767 ∧
    packCell bad (some ((hi - lo) / (2 ^ 16 - 2))) (some (1 / 2 * (lo + hi))) (some v) =
      ToolsC.truncToInt ((v - 1 / 2 * (lo + hi)) / ((hi - lo) / (2 ^ 16 - 2))) := by
  have hs : 0 < (hi - lo) / (2 ^ 16 - 2) := div_pos (by linarith) (by norm_num)
  have a : -32767 ≤ (v - 1 / 2 * (lo + hi)) / ((hi - lo) / (2 ^ 16 - 2)) := by
    rw [le_div_iff₀ hs]; linarith
  have b : (v - 1 / 2 * (lo + hi)) / ((hi - lo) / (2 ^ 16 - 2)) ≤ 32767 := by
    rw [div_le_iff₀ hs]; linarith
  refine ⟨a, b, ?_⟩
  unfold packCell
  simp only
  rw [if_neg hs.ne']
  have := trunc_bounds a b
  exact wrap16_id (by omega) (by omega)

/-! ### The variable -/

/-- What a cell shows after it was packed and unpacked, given the values run from `lo` to `hi`: `back` is a reading of the cells of
which the original values are `data`. -/
structure _root_.PyGeode.Spec.PackedWithin (lens : List ℕ) (lo hi : ℚ) (data back : List ℕ → Option ℚ) : Prop where
  /-- every number comes back as a number off by less than one part in 65534 of the range, -/
  near : ∀ k v, InBounds lens k → data k = some v → ∃ w, back k = some w ∧ lo ≤ w ∧ w ≤ hi ∧ (lo < hi → |w - v| < (hi - lo) / 65534)
  /-- the least and the greatest exactly, -/
  ends : ∀ k v, InBounds lens k → data k = some v → v = lo ∨ v = hi → back k = some v
  /-- and the order is kept. -/
  mono : ∀ k k' v v' w w', InBounds lens k → InBounds lens k' → data k = some v → data k' = some v' → back k = some w → back k' = some w' →
    v ≤ v' → w ≤ w'

theorem mem_allValues {lens : List ℕ} {data : List ℕ → Option ℚ} {v : ℚ} :
    v ∈ allValues lens data ↔ ∃ k, InBounds lens k ∧ data k = some v := by
  unfold allValues valid
  simp only [List.mem_filterMap, List.mem_map, id, exists_eq_right, mem_product_range]

include hnr hl in
/-- C82: a variable with a value that is not NaN can be packed: on the same axes, every cell holds an integer; where the values are
not all equal, those of the numbers are in -32767, ..., 32767; and reading the file with the stored scale and offset and no fill value
gives back every number up to the packing error. -/
theorem pack_unpack_partial (junk : List ℕ → Option ℚ) (bad : ℤ) (x : Var (Option ℚ)) (data : List ℕ → Option ℚ) (hx : Contains x data)
    (hp : Packable x.axes) (lo hi : ℚ) (hlo : (allValues (x.axes.map Axis.len) data).min? = some lo)
    (hhi : (allValues (x.axes.map Axis.len) data).max? = some hi) :
    ∃ (y : Var (Option ℚ)) (s o : ℚ) (code : List ℕ → ℤ), packVar nr junk limit bad x = some (y, some s, some o) ∧ y.axes = x.axes ∧ Contains y (fun k => some ((code k : ℤ) : ℚ)) ∧
      (lo < hi → ∀ k v, InBounds (x.axes.map Axis.len) k → data k = some v → -32767 ≤ code k ∧ code k ≤ 32767) ∧
      ∀ new : List Axis, x.axes.map Axis.len = new.map Axis.len →
        ∃ z back, Cf.varNewaxes nr junk y new none (some s) (some o) = some z ∧ z.axes = new ∧ Contains z back ∧
          PackedWithin (x.axes.map Axis.len) lo hi data back := by
  set s : ℚ := (hi - lo) / (2 ^ 16 - 2) with hs
  set o : ℚ := 1 / 2 * (lo + hi) with ho
  have hlo' := List.min?_eq_some_iff.1 hlo
  have hhi' := List.max?_eq_some_iff.1 hhi
  have hle : lo ≤ hi := hhi'.2 _ hlo'.1
  have hbd : ∀ k v, InBounds (x.axes.map Axis.len) k → data k = some v → lo ≤ v ∧ v ≤ hi := fun k v hk hv =>
    ⟨hlo'.2 v (mem_allValues.2 ⟨k, hk, hv⟩), hhi'.2 v (mem_allValues.2 ⟨k, hk, hv⟩)⟩
  have hC : Contains (Var.ofView junk x.axes fun v => (x.read nr junk v).map fun r =>
      r.map fun c => some (packCell bad (some s) (some o) c : ℚ)) (fun k => some ((packCell bad (some s) (some o) (data k) : ℤ) : ℚ)) := by
    refine contains_ofView junk _ _ _ fun I hI hne => ?_
    obtain ⟨r, h1, h2⟩ := read_own nr junk x data hx hp.reg I hI hne
    refine ⟨r.map fun c => some (packCell bad (some s) (some o) c : ℚ), by rw [h1]; rfl, h2.1, fun k hk => ?_⟩
    simp only [NArr.map]
    rw [h2.2 k hk]
  refine ⟨_, s, o, fun k => packCell bad (some s) (some o) (data k), ?_, ?_, hC, ?_, ?_⟩
  · unfold packVar
    rw [scalar_min nr hnr hl junk x data hx hp, scalar_max nr hnr hl junk x data hx hp, hlo, hhi]
    rfl
  · rfl
  · intro hlt k v hk hv
    obtain ⟨b1, b2⟩ := hbd k v hk hv
    obtain ⟨a1, a2, a3⟩ := packCell_eq bad hlt b1 b2
    rw [← hs, ← ho] at a1 a2 a3
    simp only [hv, a3]
    exact trunc_bounds a1 a2
  · intro new hnew
    obtain ⟨z, h1, h2, h3⟩ := Cf.unpack_correct nr junk (Var.ofView junk x.axes fun v => (x.read nr junk v).map fun r =>
      r.map fun c => some (packCell bad (some s) (some o) c : ℚ)) new none (some s) (some o) _ hC hp.reg hnew
    refine ⟨z, _, h1, h2, h3, ?_⟩
    have hback : ∀ k, unpacked none ((some s).getD 1) ((some o).getD 0) (some ((packCell bad (some s) (some o) (data k) : ℤ) : ℚ)) =
        some ((packCell bad (some s) (some o) (data k) : ℚ) * s + o) := by
      intro k; simp [unpacked]
    simp only [hback]
    rcases hle.lt_or_eq with hlt | heq
    · have hspos : 0 < s := by rw [hs]; exact div_pos (by linarith) (by norm_num)
      have hsv : (hi - lo) / 65534 = s := by rw [hs]; norm_num
      have hs2 : 65534 * s = hi - lo := by rw [← hsv]; ring
      have hcode : ∀ v, lo ≤ v → v ≤ hi → packCell bad (some s) (some o) (some v) = ToolsC.truncToInt ((v - o) / s) := fun v h1 h2 =>
        (packCell_eq bad hlt h1 h2).2.2
      have hq : ∀ v, lo ≤ v → v ≤ hi → -32767 ≤ (v - o) / s ∧ (v - o) / s ≤ 32767 := fun v h1 h2 =>
        ⟨(packCell_eq bad hlt h1 h2).1, (packCell_eq bad hlt h1 h2).2.1⟩
      refine ⟨?_, ?_, ?_⟩
      · intro k v hk hv
        obtain ⟨b1, b2⟩ := hbd k v hk hv
        obtain ⟨a1, a2⟩ := hq v b1 b2
        obtain ⟨c1, c2⟩ := trunc_bounds a1 a2
        refine ⟨_, rfl, ?_, ?_, fun _ => ?_⟩
        · rw [hv, hcode v b1 b2]
          have : (-32767 : ℚ) ≤ (ToolsC.truncToInt ((v - o) / s) : ℚ) := by exact_mod_cast c1
          nlinarith
        · rw [hv, hcode v b1 b2]
          have : (ToolsC.truncToInt ((v - o) / s) : ℚ) ≤ 32767 := by exact_mod_cast c2
          nlinarith
        · rw [hv, hcode v b1 b2, hsv]
          have e := truncToInt_err ((v - o) / s)
          have : (ToolsC.truncToInt ((v - o) / s) : ℚ) * s + o - v = ((ToolsC.truncToInt ((v - o) / s) : ℚ) - (v - o) / s) * s := by
            field_simp; ring
          rw [this, abs_mul, abs_of_pos hspos]
          nlinarith
      · intro k v hk hv hends
        obtain ⟨b1, b2⟩ := hbd k v hk hv
        rw [hv, hcode v b1 b2]
        rcases hends with rfl | rfl
        · have : (v - o) / s = ((-32767 : ℤ) : ℚ) := by
            rw [div_eq_iff hspos.ne', ho]; push_cast; linarith
          rw [this, truncToInt_int, ho]
          congr 1; push_cast; linarith
        · have : (v - o) / s = ((32767 : ℤ) : ℚ) := by
            rw [div_eq_iff hspos.ne', ho]; push_cast; linarith
          rw [this, truncToInt_int, ho]
          congr 1; push_cast; linarith
      · intro k k' v v' w w' hk hk' hv hv' hw hw' hvv
        obtain ⟨b1, b2⟩ := hbd k v hk hv
        obtain ⟨b1', b2'⟩ := hbd k' v' hk' hv'
        rw [hv, hcode v b1 b2, Option.some.injEq] at hw
        rw [hv', hcode v' b1' b2', Option.some.injEq] at hw'
        have : ToolsC.truncToInt ((v - o) / s) ≤ ToolsC.truncToInt ((v' - o) / s) :=
          truncToInt_mono (div_le_div_of_nonneg_right (by linarith) hspos.le)
        have : (ToolsC.truncToInt ((v - o) / s) : ℚ) ≤ (ToolsC.truncToInt ((v' - o) / s) : ℚ) := by exact_mod_cast this
        rw [← hw, ← hw']
        nlinarith
    · have hs0 : s = 0 := by rw [hs, heq]; simp
      have ho0 : o = lo := by rw [ho, ← heq]; ring
      simp only [hs0, mul_zero, zero_add, ho0]
      have hv0 : ∀ k v, InBounds (x.axes.map Axis.len) k → data k = some v → v = lo := fun k v hk hv =>
        le_antisymm (heq ▸ (hbd k v hk hv).2) (hbd k v hk hv).1
      refine ⟨?_, ?_, ?_⟩
      · intro k v hk hv
        refine ⟨lo, rfl, le_refl _, hle, fun h => absurd heq h.ne⟩
      · intro k v hk hv _
        rw [hv0 k v hk hv]
      · intro k k' v v' w w' _ _ _ _ hw hw' _
        rw [Option.some.injEq] at hw hw'
        rw [← hw, ← hw']

/-- the packed numbers of a variable with the values 1, 2, 4 and NaN along one axis; `bad` is what NaN is converted to -/
def packEx : Var (Option ℚ) :=
  { axes := [mkEx [10, 20, 30, 40]], src := .values ⟨[4], fun k => [some 1, some 2, some 4, none].getD (k.getD 0 0) none⟩ }

theorem packEx_contains : Contains packEx fun k => [some 1, some 2, some 4, none].getD (k.getD 0 0) none :=
  ⟨by decide +kernel, fun _ _ => rfl⟩

theorem packEx_packable : Packable packEx.axes := ⟨⟨by decide +kernel, by decide +kernel⟩, by decide +kernel, by decide +kernel⟩

/-- The hypotheses of `pack_unpack_partial` are met. -/
theorem pack_ex (bad : ℤ) : ∃ (y : Var (Option ℚ)) (s o : ℚ) (code : List ℕ → ℤ),
    packVar (fun _ => 0) (fun _ => none) 2 bad packEx = some (y, some s, some o) ∧ Contains y (fun k => some ((code k : ℤ) : ℚ)) := by
  obtain ⟨y, s, o, code, h1, -, h2, -⟩ := pack_unpack_partial (fun _ => 0) (fun _ => le_refl _) (limit := 2) (by norm_num) (fun _ => none) bad packEx _ packEx_contains
    packEx_packable 1 4 (by decide +kernel) (by decide +kernel)
  exact ⟨y, s, o, code, h1, h2⟩

/-- the cells of the packed example, and what is read back from them -/
def showEx (bad : ℤ) (fill : Option (Option ℚ)) : Option (List (Option ℚ) × List (Option ℚ)) := do
  let (y, s, o) ← packVar (fun _ => 0) (fun _ => none) 2 bad packEx
  let z ← Cf.varNewaxes (fun _ => 0) (fun _ => none) y y.axes fill s o
  let a ← y.read (fun _ => 0) (fun _ => none) y.whole
  let b ← z.read (fun _ => 0) (fun _ => none) z.whole
  some ((List.range 4).map fun i => a.get [i], (List.range 4).map fun i => b.get [i])

example : showEx 0 none = some ([some (-32767), some (-10922), some 32767, some 0],
    [some 1, some (1 + 21845 * 3 / 65534), some 4, some (5 / 2)]) := by decide +kernel

/-- Missing values are lost: NaN comes back as a number, whatever the conversion makes of it, -/
theorem pack_nan_violated : (showEx 0 none).map (fun p => p.2.getD 3 none) = some (some (5 / 2)) ∧
    (showEx (-32768) none).map (fun p => p.2.getD 3 none) ≠ some none := by decide +kernel

/-- and a fill value among the attributes of the variable, which are kept, may be one of the packed numbers: the greatest value
of the example is then read as missing. -/
theorem pack_fill_violated : (showEx 0 (some (some 32767))).map (fun p => p.2.getD 2 none) = some none := by decide +kernel

include hnr hl in
/-- C82: with a scale and an offset, NaN comes back as a number. -/
theorem pack_nan_number (junk : List ℕ → Option ℚ) (bad : ℤ) (x : Var (Option ℚ)) (data : List ℕ → Option ℚ) (hx : Contains x data)
    (hp : Packable x.axes) (hv : allValues (x.axes.map Axis.len) data ≠ []) :
    ∃ (y : Var (Option ℚ)) (s o : ℚ) (z : Var (Option ℚ)) (back : List ℕ → ℚ), packVar nr junk limit bad x = some (y, some s, some o) ∧
      Cf.varNewaxes nr junk y x.axes none (some s) (some o) = some z ∧ Contains z fun k => some (back k) := by
  obtain ⟨lo, hlo⟩ : ∃ lo, (allValues (x.axes.map Axis.len) data).min? = some lo := by
    cases h : (allValues (x.axes.map Axis.len) data).min? with
    | none => exact absurd (List.min?_eq_none_iff.1 h) hv
    | some lo => exact ⟨lo, rfl⟩
  obtain ⟨hi, hhi⟩ : ∃ hi, (allValues (x.axes.map Axis.len) data).max? = some hi := by
    cases h : (allValues (x.axes.map Axis.len) data).max? with
    | none => exact absurd (List.max?_eq_none_iff.1 h) hv
    | some hi => exact ⟨hi, rfl⟩
  obtain ⟨y, s, o, code, h1, h2, h3, -, -⟩ := pack_unpack_partial nr hnr hl junk bad x data hx hp lo hi hlo hhi
  obtain ⟨z, h4, h5, h6⟩ := Cf.unpack_correct nr junk y x.axes none (some s) (some o) _ h3 (h2 ▸ hp.reg) (by rw [h2])
  refine ⟨y, s, o, z, fun k => code k * s + o, h1, h4, ?_⟩
  simpa [unpacked] using h6

end Pack
end PyGeode
