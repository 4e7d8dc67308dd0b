/-
Reductions (C40-C44): for every variable, every set of reduced axes, every request and every size of
the chunks, the answer is the reduction of exactly the right cells.
-/
import Verif.Lemmas.ReduceCount
import Mathlib.Tactic.Linarith
import Mathlib.Algebra.Order.Field.Rat
import Mathlib.Algebra.Order.BigOperators.Group.List

namespace PyGeode
namespace Reduce
open NArr View Spec
variable {lens R : List ℕ} {outInds : List (List ℕ)} {limit : ℕ}

theorem reads_chunks {A : Type} {data : List ℕ → A} {chunk : View ℕ → NArr A} (g : GoodReq lens R outInds)
    (hl : 1 ≤ limit) (h : Reads data lens chunk) :
    ∀ c ∈ (inView lens R outInds).loopMem limit [], IsRead data c.inds (chunk c) :=
  fun c hc => h c (chunk_facts g hl c hc).2.1

/-! ## C40: sum, mean, min, max -/

/-- C40: `sum` over axes `R` is, at each output cell, the sum over exactly the cells above it, whatever
the size limit of the chunks. -/
theorem sum_correct {data : List ℕ → ℚ} {chunk : View ℕ → NArr ℚ} (g : GoodReq lens R outInds)
    (hl : 1 ≤ limit) (hr : Reads data lens chunk) :
    IsRead (fun s => ((fibre lens R s).map data).sum) outInds (sumVar limit lens R outInds chunk) := by
  refine ⟨reduceLoop_shape _ _, fun k hk => ?_⟩
  have := reduceLoop_spec ratHom g hl data chunk (reads_chunks g hl hr) k hk
  exact this

/-- C40: `mean` is the sum over the cells divided by their number. -/
theorem mean_correct {data : List ℕ → ℚ} {chunk : View ℕ → NArr ℚ} (g : GoodReq lens R outInds)
    (hl : 1 ≤ limit) (hr : Reads data lens chunk) :
    IsRead (fun s => ((fibre lens R s).map data).sum / (fibre lens R s).length) outInds
      (meanVar limit lens R outInds chunk) := by
  obtain ⟨h1, h2⟩ := sum_correct g hl hr
  refine ⟨h1, fun k hk => ?_⟩
  simp only [meanVar, NArr.map]
  rw [h2 k hk, fibre_length g.rnd g.rlt (cell_inBounds g hk)]

/-- the number of cells averaged over is never zero -/
theorem mean_count_pos (g : GoodReq lens R outInds) {k : List ℕ} (hk : InBounds (outInds.map List.length) k) :
    0 < (fibre lens R (cell outInds k)).length :=
  List.length_pos_iff.2 (fibre_ne g hk)

theorem minInf_cm : CM minInf none where
  comm := by rintro (_ | a) (_ | b) <;> simp [minInf, min_comm]
  assoc := by rintro (_ | a) (_ | b) (_ | c) <;> simp [minInf, min_assoc]
  id := by rintro (_ | a) <;> simp [minInf]

theorem maxInf_cm : CM maxInf none where
  comm := by rintro (_ | a) (_ | b) <;> simp [maxInf, max_comm]
  assoc := by rintro (_ | a) (_ | b) (_ | c) <;> simp [maxInf, max_assoc]
  id := by rintro (_ | a) <;> simp [maxInf]

theorem minInf_fold (l : List (Option ℚ)) :
    (l.foldr minInf none = none ↔ valid l = []) ∧
    ∀ m, l.foldr minInf none = some m → m ∈ valid l ∧ ∀ x ∈ valid l, m ≤ x := by
  induction l with
  | nil => simp [valid]
  | cons a l ih =>
    obtain ⟨ih1, ih2⟩ := ih
    rw [List.foldr_cons]
    cases a with
    | none =>
      have hv : valid (none :: l) = valid l := by simp [valid]
      rw [hv]
      exact ⟨ih1, ih2⟩
    | some a =>
      have hv : valid (some a :: l) = a :: valid l := by simp [valid]
      rw [hv]
      cases hm : l.foldr minInf none with
      | none =>
        have := ih1.1 hm
        simp [minInf, this]
      | some m =>
        obtain ⟨h1, h2⟩ := ih2 m hm
        simp only [minInf, reduceCtorEq, Option.some.injEq, List.mem_cons, true_and, forall_eq_or_imp]
        rintro _ rfl
        refine ⟨?_, min_le_left _ _, fun x hx => (min_le_right _ _).trans (h2 x hx)⟩
        rcases min_choice a m with h | h <;> rw [h]
        · left; rfl
        · right; exact h1

theorem maxInf_fold (l : List (Option ℚ)) :
    (l.foldr maxInf none = none ↔ valid l = []) ∧
    ∀ m, l.foldr maxInf none = some m → m ∈ valid l ∧ ∀ x ∈ valid l, x ≤ m := by
  induction l with
  | nil => simp [valid]
  | cons a l ih =>
    obtain ⟨ih1, ih2⟩ := ih
    rw [List.foldr_cons]
    cases a with
    | none =>
      have hv : valid (none :: l) = valid l := by simp [valid]
      rw [hv]
      exact ⟨ih1, ih2⟩
    | some a =>
      have hv : valid (some a :: l) = a :: valid l := by simp [valid]
      rw [hv]
      cases hm : l.foldr maxInf none with
      | none =>
        have := ih1.1 hm
        simp [maxInf, this]
      | some m =>
        obtain ⟨h1, h2⟩ := ih2 m hm
        simp only [maxInf, reduceCtorEq, Option.some.injEq, List.mem_cons, true_and, forall_eq_or_imp]
        rintro _ rfl
        refine ⟨?_, le_max_left _ _, fun x hx => (h2 x hx).trans (le_max_right _ _)⟩
        rcases max_choice a m with h | h <;> rw [h]
        · left; rfl
        · right; exact h1

/-- C42: `nanmin` is NaN exactly when all the values are, and otherwise the least of the values that
are numbers. -/
theorem nanmin_correct {data : List ℕ → Option ℚ} {chunk : View ℕ → NArr (Option ℚ)}
    (g : GoodReq lens R outInds) (hl : 1 ≤ limit) (hr : Reads data lens chunk) :
    (minVar limit lens R outInds chunk).shape = outInds.map List.length ∧
    ∀ k, InBounds (outInds.map List.length) k →
      let vals := valid ((fibre lens R (cell outInds k)).map data)
      ((minVar limit lens R outInds chunk).get k = none ↔ vals = []) ∧
      ∀ m, (minVar limit lens R outInds chunk).get k = some m → m ∈ vals ∧ ∀ x ∈ vals, m ≤ x := by
  refine ⟨reduceLoop_shape _ _, fun k hk => ?_⟩
  have := reduceLoop_spec (op := minInf) (e := none) (h := id) ⟨minInf_cm, fun _ _ => rfl, rfl⟩ g hl data chunk
    (reads_chunks g hl hr) k hk
  simp only [id_eq] at this
  simp only [minVar]
  rw [this]
  exact minInf_fold _

/-- C42: `nanmax`, likewise. -/
theorem nanmax_correct {data : List ℕ → Option ℚ} {chunk : View ℕ → NArr (Option ℚ)}
    (g : GoodReq lens R outInds) (hl : 1 ≤ limit) (hr : Reads data lens chunk) :
    (maxVar limit lens R outInds chunk).shape = outInds.map List.length ∧
    ∀ k, InBounds (outInds.map List.length) k →
      let vals := valid ((fibre lens R (cell outInds k)).map data)
      ((maxVar limit lens R outInds chunk).get k = none ↔ vals = []) ∧
      ∀ m, (maxVar limit lens R outInds chunk).get k = some m → m ∈ vals ∧ ∀ x ∈ vals, x ≤ m := by
  refine ⟨reduceLoop_shape _ _, fun k hk => ?_⟩
  have := reduceLoop_spec (op := maxInf) (e := none) (h := id) ⟨maxInf_cm, fun _ _ => rfl, rfl⟩ g hl data chunk
    (reads_chunks g hl hr) k hk
  simp only [id_eq] at this
  simp only [maxVar]
  rw [this]
  exact maxInf_fold _

theorem valid_some {β : Type} (f : β → ℚ) (l : List β) : valid (l.map fun q => some (f q)) = l.map f := by
  simp [valid, List.filterMap_map, Function.comp_def]

/-- C40: on data without NaN, `min` is a number: the least of the values of the cells. -/
theorem min_correct {data : List ℕ → ℚ} {chunk : View ℕ → NArr (Option ℚ)}
    (g : GoodReq lens R outInds) (hl : 1 ≤ limit) (hr : Reads (fun q => some (data q)) lens chunk)
    {k : List ℕ} (hk : InBounds (outInds.map List.length) k) :
    ∃ m, (minVar limit lens R outInds chunk).get k = some m ∧
      (∃ q ∈ fibre lens R (cell outInds k), data q = m) ∧
      ∀ q ∈ fibre lens R (cell outInds k), m ≤ data q := by
  obtain ⟨h1, h2⟩ := (nanmin_correct g hl hr).2 k hk
  rw [valid_some] at h1 h2
  cases hm : (minVar limit lens R outInds chunk).get k with
  | none =>
    have := h1.1 hm
    rw [List.map_eq_nil_iff] at this
    exact absurd this (fibre_ne g hk)
  | some m =>
    obtain ⟨h3, h4⟩ := h2 m hm
    refine ⟨m, rfl, ?_, fun q hq => h4 _ (List.mem_map_of_mem hq)⟩
    simpa using h3

/-- C40: on data without NaN, `max` is the greatest of the values of the cells. -/
theorem max_correct {data : List ℕ → ℚ} {chunk : View ℕ → NArr (Option ℚ)}
    (g : GoodReq lens R outInds) (hl : 1 ≤ limit) (hr : Reads (fun q => some (data q)) lens chunk)
    {k : List ℕ} (hk : InBounds (outInds.map List.length) k) :
    ∃ m, (maxVar limit lens R outInds chunk).get k = some m ∧
      (∃ q ∈ fibre lens R (cell outInds k), data q = m) ∧
      ∀ q ∈ fibre lens R (cell outInds k), data q ≤ m := by
  obtain ⟨h1, h2⟩ := (nanmax_correct g hl hr).2 k hk
  rw [valid_some] at h1 h2
  cases hm : (maxVar limit lens R outInds chunk).get k with
  | none =>
    have := h1.1 hm
    rw [List.map_eq_nil_iff] at this
    exact absurd this (fibre_ne g hk)
  | some m =>
    obtain ⟨h3, h4⟩ := h2 m hm
    refine ⟨m, rfl, ?_, fun q hq => h4 _ (List.mem_map_of_mem hq)⟩
    simpa using h3

/-- C40: the answer does not depend on the size of the chunks. -/
theorem sum_chunk_independent {data : List ℕ → ℚ} {chunk : View ℕ → NArr ℚ} (g : GoodReq lens R outInds)
    {limit' : ℕ} (hl : 1 ≤ limit) (hl' : 1 ≤ limit') (hr : Reads data lens chunk) {k : List ℕ}
    (hk : InBounds (outInds.map List.length) k) :
    (sumVar limit lens R outInds chunk).get k = (sumVar limit' lens R outInds chunk).get k := by
  rw [(sum_correct g hl hr).2 k hk, (sum_correct g hl' hr).2 k hk]

/-! ## C42: reductions that ignore NaN -/

theorem nanHom : Hom nanAdd none (· + ·) (0 : ℚ) (fun a => a.getD 0) :=
  ⟨ratHom.cm, fun a b => by simp [nanAdd], rfl⟩

theorem sum_getD (l : List (Option ℚ)) : (l.map fun a => a.getD 0).sum = (valid l).sum := by
  induction l with
  | nil => rfl
  | cons a l ih => cases a <;> simp [valid] at ih ⊢ <;> rw [ih]

theorem nanSum_get {data : List ℕ → Option ℚ} {chunk : View ℕ → NArr (Option ℚ)}
    (g : GoodReq lens R outInds) (hl : 1 ≤ limit) (hr : Reads data lens chunk) {k : List ℕ}
    (hk : InBounds (outInds.map List.length) k) :
    ((nanSumVar limit lens R outInds chunk).get k).getD 0 =
      ((fibre lens R (cell outInds k)).map fun q => (data q).getD 0).sum := by
  have := reduceLoop_spec nanHom g hl data chunk (reads_chunks g hl hr) k hk
  exact this

/-- C42: `nansum` is always a number: the sum of the values that are not NaN (0 when there are none). -/
theorem nansum_correct {data : List ℕ → Option ℚ} {chunk : View ℕ → NArr (Option ℚ)}
    (g : GoodReq lens R outInds) (hl : 1 ≤ limit) (hr : Reads data lens chunk) :
    IsRead (fun s => some (valid ((fibre lens R s).map data)).sum) outInds
      (nanSumVar limit lens R outInds chunk) := by
  refine ⟨reduceLoop_shape _ _, fun k hk => ?_⟩
  have h1 := nanSum_get g hl hr hk
  have h2 : ((nanSumVar limit lens R outInds chunk).get k).isSome = true :=
    reduceLoop_touch (fun a => a.isSome = true) (fun a b => rfl) g hl chunk hk
  obtain ⟨x, hx⟩ := Option.isSome_iff_exists.1 h2
  rw [hx] at h1 ⊢
  have h3 := sum_getD ((fibre lens R (cell outInds k)).map data)
  rw [List.map_map, Function.comp_def] at h3
  simp only [Option.getD_some] at h1
  rw [h1, h3]

theorem reads_map {A B : Type} {data : List ℕ → A} {chunk : View ℕ → NArr A} (f : A → B)
    (hr : Reads data lens chunk) : Reads (fun q => f (data q)) lens fun c => (chunk c).map f := by
  intro c hc
  obtain ⟨h1, h2⟩ := hr c hc
  exact ⟨h1, fun k hk => by simp only [NArr.map]; rw [h2 k hk]⟩

theorem count_valid {β : Type} (f : β → Option ℚ) (l : List β) :
    (l.map fun q => (notNan (f q)).getD 0).sum = ((valid (l.map f)).length : ℚ) := by
  induction l with
  | nil => simp [valid]
  | cons a l ih =>
    rw [List.map_cons, List.sum_cons, ih, List.map_cons]
    cases h : f a <;> simp [notNan, valid]
    ring

/-- C42: `nanmean` is NaN exactly when no value is a number, and otherwise the mean of those that are. -/
theorem nanmean_correct {data : List ℕ → Option ℚ} {chunk : View ℕ → NArr (Option ℚ)}
    (g : GoodReq lens R outInds) (hl : 1 ≤ limit) (hr : Reads data lens chunk) :
    IsRead (fun s => let vals := valid ((fibre lens R s).map data)
        if vals = [] then none else some (vals.sum / vals.length)) outInds
      (nanMeanVar limit lens R outInds chunk) := by
  refine ⟨reduceLoop_shape _ _, fun k hk => ?_⟩
  have h1 := (nansum_correct g hl hr).2 k hk
  have h2 := nanSum_get g hl (reads_map notNan hr) hk
  rw [count_valid] at h2
  simp only [nanMeanVar, zip2, maskedDiv, h1, h2, Option.getD_some]
  by_cases hv : valid ((fibre lens R (cell outInds k)).map data) = []
  · rw [if_pos hv, if_neg (by simp [hv])]
  · rw [if_neg hv, if_pos (by simpa using List.length_pos_iff.2 hv)]

/-! ## C43: variance -/

/-- the textbook (unbiased) variance: the sum of squared deviations from the mean over `n - 1` -/
def textbookVariance (l : List ℚ) : ℚ :=
  (l.map fun x => (x - l.sum / l.length) ^ 2).sum / (l.length - 1)

theorem sum_sq_dev (l : List ℚ) (m : ℚ) :
    (l.map fun x => (x - m) ^ 2).sum = (l.map fun x => x ^ 2).sum - 2 * m * l.sum + l.length * m ^ 2 := by
  induction l with
  | nil => simp
  | cons a l ih =>
    simp only [List.map_cons, List.sum_cons, ih, List.length_cons]
    push_cast
    ring

theorem onepass_variance (l : List ℚ) (hl : l ≠ []) :
    ((l.map fun x => x ^ 2).sum - l.sum ^ 2 / l.length) / (l.length - 1) = textbookVariance l := by
  unfold textbookVariance
  rw [sum_sq_dev]
  have : (l.length : ℚ) ≠ 0 := by simpa using hl
  congr 1
  field_simp
  ring

/-- C43: the one-pass variance is the textbook variance of the cells. -/
theorem variance_correct {data : List ℕ → ℚ} {chunk : View ℕ → NArr ℚ} (g : GoodReq lens R outInds)
    (hl : 1 ≤ limit) (hr : Reads data lens chunk) :
    IsRead (fun s => textbookVariance ((fibre lens R s).map data)) outInds
      (varianceVar limit lens R outInds chunk) := by
  refine ⟨reduceLoop_shape _ _, fun k hk => ?_⟩
  have h1 := (sum_correct g hl hr).2 k hk
  have h2 := (sum_correct g hl (reads_map (· ^ 2) hr)).2 k hk
  simp only [varianceVar, zip2, h1, h2]
  rw [← fibre_length g.rnd g.rlt (cell_inBounds g hk), ← onepass_variance _ (by
    rw [Ne, List.map_eq_nil_iff]; exact fibre_ne g hk)]
  have : ((fibre lens R (cell outInds k)).length : ℚ) ≠ 0 := by
    simpa using fibre_ne g hk
  rw [List.length_map, List.map_map, Function.comp_def]
  congr 1
  field_simp

/-- C43: the variance is never negative, so that the clipping in `stdev` (reduce.py:433-438) changes
nothing. -/
theorem variance_nonneg {data : List ℕ → ℚ} {chunk : View ℕ → NArr ℚ} (g : GoodReq lens R outInds)
    (hl : 1 ≤ limit) (hr : Reads data lens chunk) {k : List ℕ} (hk : InBounds (outInds.map List.length) k) :
    0 ≤ (varianceVar limit lens R outInds chunk).get k := by
  rw [(variance_correct g hl hr).2 k hk]
  unfold textbookVariance
  refine div_nonneg (List.sum_nonneg ?_) ?_
  · intro x hx
    obtain ⟨y, _, rfl⟩ := List.mem_map.1 hx
    positivity
  · have h : fibre lens R (cell outInds k) ≠ [] := fibre_ne g hk
    have : 1 ≤ (fibre lens R (cell outInds k)).length := List.length_pos_iff.2 h
    rw [List.length_map]
    have h1 : (1 : ℚ) ≤ (fibre lens R (cell outInds k)).length := by exact_mod_cast this
    linarith

theorem valid_map_sq {β : Type} (f : β → Option ℚ) (l : List β) :
    (l.map fun q => ((f q).map (· ^ 2)).getD 0).sum = ((valid (l.map f)).map fun x => x ^ 2).sum := by
  induction l with
  | nil => simp [valid]
  | cons a l ih =>
    rw [List.map_cons, List.sum_cons, ih, List.map_cons]
    cases h : f a <;> simp [valid]

/-- C43: `nanvariance` is NaN when fewer than two values are numbers, and otherwise the textbook variance
of those that are. -/
theorem nanvariance_correct {data : List ℕ → Option ℚ} {chunk : View ℕ → NArr (Option ℚ)}
    (g : GoodReq lens R outInds) (hl : 1 ≤ limit) (hr : Reads data lens chunk) :
    IsRead (fun s => let vals := valid ((fibre lens R s).map data)
        if vals.length ≤ 1 then none else some (textbookVariance vals)) outInds
      (nanVarianceVar limit lens R outInds chunk) := by
  refine ⟨reduceLoop_shape _ _, fun k hk => ?_⟩
  have h1 := (nansum_correct g hl hr).2 k hk
  have h2 := nanSum_get g hl (reads_map notNan hr) hk
  rw [count_valid] at h2
  have h3 := nanSum_get g hl (reads_map (Option.map (· ^ 2)) hr) hk
  rw [valid_map_sq] at h3
  simp only [nanVarianceVar, h1, h2, h3, Option.getD_some]
  set vals := valid ((fibre lens R (cell outInds k)).map data) with hvals
  by_cases hv : vals.length ≤ 1
  · rw [if_pos hv, if_neg]
    rw [not_lt]
    exact_mod_cast hv
  · rw [if_neg hv, if_pos (by exact_mod_cast not_le.1 hv), onepass_variance _ (by
      intro h; rw [h] at hv; simp at hv)]

/-! ## C44: weights -/

/-- the weights as read for a chunk: positions along the axes `W` that carry weights, length 1 elsewhere -/
def ReadsWeights (w : List ℕ → ℚ) (W lens : List ℕ) (wchunk : View ℕ → NArr ℚ) : Prop :=
  ∀ c : View ℕ, InRange lens c.inds → IsRead w (weightInds W c.inds) (wchunk c)

theorem reads_broadcast {A D : Type} {data : List ℕ → A} {chunk : View ℕ → NArr A} {w : List ℕ → ℚ} {W : List ℕ}
    {wchunk : View ℕ → NArr ℚ} (f : A → ℚ → D) (hr : Reads data lens chunk) (hw : ReadsWeights w W lens wchunk) :
    Reads (fun q => f (data q) (w (onAxes W q))) lens fun c => broadcast2 f (chunk c) (wchunk c) :=
  fun c hc => broadcast2_read f data w W c.inds _ _ (hr c hc) (hw c hc)

theorem weights_correct {data : List ℕ → ℚ} {chunk : View ℕ → NArr ℚ} {w : List ℕ → ℚ} {W : List ℕ}
    {wchunk : View ℕ → NArr ℚ} (g : GoodReq lens R outInds) (hl : 1 ≤ limit) (hW : ∀ i ∈ W, i ∈ R)
    (hr : Reads data lens chunk) (hw : ReadsWeights w W lens wchunk) {k : List ℕ}
    (hk : InBounds (outInds.map List.length) k) :
    (weightSum limit lens R outInds chunk wchunk).get k =
      ((fibre lens R (cell outInds k)).map fun q => w (onAxes W q)).sum :=
  weightSum_spec g hl W hW w chunk wchunk
    (fun c hc => (hr c (chunk_facts g hl c hc).2.1).1) (fun c hc => hw c (chunk_facts g hl c hc).2.1) k hk

/-- C44: the weighted sum. -/
theorem weightedSum_correct {data : List ℕ → ℚ} {chunk : View ℕ → NArr ℚ} {w : List ℕ → ℚ} {W : List ℕ}
    {wchunk : View ℕ → NArr ℚ} (g : GoodReq lens R outInds) (hl : 1 ≤ limit)
    (hr : Reads data lens chunk) (hw : ReadsWeights w W lens wchunk) :
    IsRead (fun s => ((fibre lens R s).map fun q => data q * w (onAxes W q)).sum) outInds
      (weightedSumVar limit lens R outInds chunk wchunk) :=
  sum_correct g hl (reads_broadcast (· * ·) hr hw)

/-- C44: the weighted mean is `Σ w x / Σ w` over the cells, also when some of the reduced axes carry no
weights. -/
theorem weightedMean_correct {data : List ℕ → ℚ} {chunk : View ℕ → NArr ℚ} {w : List ℕ → ℚ} {W : List ℕ}
    {wchunk : View ℕ → NArr ℚ} (g : GoodReq lens R outInds) (hl : 1 ≤ limit) (hW : ∀ i ∈ W, i ∈ R)
    (hr : Reads data lens chunk) (hw : ReadsWeights w W lens wchunk) :
    IsRead (fun s => ((fibre lens R s).map fun q => data q * w (onAxes W q)).sum /
        ((fibre lens R s).map fun q => w (onAxes W q)).sum) outInds
      (weightedMeanVar limit lens R outInds chunk wchunk) := by
  obtain ⟨h1, h2⟩ := weightedSum_correct g hl hr hw
  refine ⟨h1, fun k hk => ?_⟩
  simp only [weightedMeanVar, zip2]
  rw [h2 k hk, weights_correct g hl hW hr hw hk]

/-- C44: weights that are all equal (and not zero) change nothing. -/
theorem weightedMean_const {data : List ℕ → ℚ} {chunk : View ℕ → NArr ℚ} {W : List ℕ}
    {wchunk : View ℕ → NArr ℚ} (a : ℚ) (ha : a ≠ 0) (g : GoodReq lens R outInds) (hl : 1 ≤ limit) (hW : ∀ i ∈ W, i ∈ R)
    (hr : Reads data lens chunk) (hw : ReadsWeights (fun _ => a) W lens wchunk) {k : List ℕ}
    (hk : InBounds (outInds.map List.length) k) :
    (weightedMeanVar limit lens R outInds chunk wchunk).get k = (meanVar limit lens R outInds chunk).get k := by
  rw [(weightedMean_correct g hl hW hr hw).2 k hk, (mean_correct g hl hr).2 k hk]
  have : ((fibre lens R (cell outInds k)).length : ℚ) ≠ 0 := by
    simpa using fibre_ne g hk
  simp only
  rw [List.sum_map_mul_right]
  simp only [List.map_const', List.sum_replicate, nsmul_eq_mul]
  field_simp

/-- C44: the weighted variance: `Σ w (x - m)²` over `Σ w - 1`, `m` being the weighted mean. -/
theorem weightedVariance_correct {data : List ℕ → ℚ} {chunk : View ℕ → NArr ℚ} {w : List ℕ → ℚ} {W : List ℕ}
    {wchunk : View ℕ → NArr ℚ} (g : GoodReq lens R outInds) (hl : 1 ≤ limit) (hW : ∀ i ∈ W, i ∈ R)
    (hr : Reads data lens chunk) (hw : ReadsWeights w W lens wchunk) {k : List ℕ}
    (hk : InBounds (outInds.map List.length) k)
    (hne : ((fibre lens R (cell outInds k)).map fun q => w (onAxes W q)).sum ≠ 0) :
    let cells := fibre lens R (cell outInds k)
    let Wt := (cells.map fun q => w (onAxes W q)).sum
    let m := (cells.map fun q => data q * w (onAxes W q)).sum / Wt
    (weightedVarianceVar limit lens R outInds chunk wchunk).get k =
      (cells.map fun q => w (onAxes W q) * (data q - m) ^ 2).sum / (Wt - 1) := by
  intro cells Wt m
  have h1 := (weightedSum_correct g hl hr hw).2 k hk
  have h2 := (sum_correct g hl (reads_broadcast (fun d w => d ^ 2 * w) hr hw)).2 k hk
  simp only [weightedVarianceVar]
  rw [h1, h2, weights_correct g hl hW hr hw hk]
  have key : ∀ (l : List (List ℕ)) (m : ℚ), (l.map fun q => w (onAxes W q) * (data q - m) ^ 2).sum =
      (l.map fun q => data q ^ 2 * w (onAxes W q)).sum - 2 * m * (l.map fun q => data q * w (onAxes W q)).sum +
        m ^ 2 * (l.map fun q => w (onAxes W q)).sum := by
    intro l m
    induction l with
    | nil => simp
    | cons a l ih => simp only [List.map_cons, List.sum_cons, ih]; ring
  rw [key]
  congr 1
  change _ = _ - 2 * ((cells.map fun q => data q * w (onAxes W q)).sum / Wt) * _ +
    ((cells.map fun q => data q * w (onAxes W q)).sum / Wt) ^ 2 * Wt
  have : Wt ≠ 0 := hne
  field_simp
  ring

/-- C44: the weighted mean ignoring NaN: the values that are numbers are averaged with their weights; the
answer is NaN when their weights do not add up to something positive. -/
theorem weightedNanMean_correct {data : List ℕ → Option ℚ} {chunk : View ℕ → NArr (Option ℚ)} {w : List ℕ → ℚ}
    {W : List ℕ} {wchunk : View ℕ → NArr ℚ} (g : GoodReq lens R outInds) (hl : 1 ≤ limit)
    (hr : Reads data lens chunk) (hw : ReadsWeights w W lens wchunk) :
    IsRead (fun s =>
        let good := (fibre lens R s).filter fun q => (data q).isSome
        let Wt := (good.map fun q => w (onAxes W q)).sum
        if 0 < Wt then some ((good.map fun q => (data q).getD 0 * w (onAxes W q)).sum / Wt) else none) outInds
      (weightedNanMeanVar limit lens R outInds chunk wchunk) := by
  refine ⟨reduceLoop_shape _ _, fun k hk => ?_⟩
  have h1 := nanSum_get g hl (reads_broadcast nanMul hr hw) hk
  have h2 := nanSum_get g hl (reads_broadcast (fun d w => some ((if d.isSome then (1 : ℚ) else 0) * w)) hr hw) hk
  simp only [weightedNanMeanVar, weightedNanSumVar, zip2, maskedDiv]
  rw [h1, h2]
  have e1 : ∀ l : List (List ℕ), (l.map fun q => (nanMul (data q) (w (onAxes W q))).getD 0).sum =
      ((l.filter fun q => (data q).isSome).map fun q => (data q).getD 0 * w (onAxes W q)).sum := by
    intro l
    induction l with
    | nil => rfl
    | cons a l ih =>
      rw [List.map_cons, List.sum_cons, ih, List.filter_cons]
      cases h : data a <;> simp [nanMul, h]
  have e2 : ∀ l : List (List ℕ), (l.map fun q => (some ((if (data q).isSome then (1 : ℚ) else 0) * w (onAxes W q))).getD 0).sum =
      ((l.filter fun q => (data q).isSome).map fun q => w (onAxes W q)).sum := by
    intro l
    induction l with
    | nil => rfl
    | cons a l ih =>
      rw [List.map_cons, List.sum_cons, ih, List.filter_cons]
      cases h : data a <;> simp [h]
  rw [e1, e2]

/-! ## C41: argmax and argmin -/

/-- a request that fits in memory is read as one chunk -/
theorem loopMem_single {Ax : Type} (v : View Ax) (hne : ∀ ind ∈ v.inds, ind ≠ [])
    (hfit : v.size ≤ limit) : v.loopMem limit [] = [v] := by
  have hchunk : ∀ l : List ℕ, l ≠ [] → chunks l l.length = [l] := by
    intro l hl
    have h0 : 0 < l.length := List.length_pos_iff.2 hl
    have : (l.length + l.length - 1) / l.length = 1 := by
      rw [Nat.div_eq_iff h0]; omega
    simp [chunks, this]
  have key : ∀ (is : List ℕ) (st : ℕ × List (List (List ℕ))), (∀ i ∈ is, i < v.inds.length) →
      (is.map fun i => (v.inds.getD i []).length).prod ≤ st.1 →
      (is.foldl (otherStep v.inds) st).2 = is.foldl (fun acc i => acc.set i [v.inds.getD i []]) st.2 := by
    intro is
    induction is with
    | nil => intro st _ _; rfl
    | cons i is ih =>
      intro st hlt hle
      rw [List.map_cons, List.prod_cons] at hle
      have hi : v.inds.getD i [] ≠ [] := hne _ (getD_mem (hlt i (by simp)))
      have h0 : 0 < (v.inds.getD i []).length := List.length_pos_iff.2 hi
      have hp : 0 < (is.map fun i => (v.inds.getD i []).length).prod := by
        refine Nat.pos_of_ne_zero fun h => ?_
        rw [List.prod_eq_zero_iff] at h
        obtain ⟨j, hj, hj0⟩ := List.mem_map.1 h
        exact hne _ (getD_mem (hlt j (by simp [hj]))) (List.length_eq_zero_iff.1 hj0)
      have hN : (v.inds.getD i []).length ≤ st.1 :=
        le_trans (Nat.le_mul_of_pos_right _ hp) hle
      have hstep : otherStep v.inds st i =
          (st.1 / (v.inds.getD i []).length, st.2.set i [v.inds.getD i []]) := by
        unfold otherStep
        simp only [Nat.min_eq_right hN, hchunk _ hi]
      rw [List.foldl_cons, List.foldl_cons, hstep, ih _ (fun j hj => hlt j (by simp [hj]))]
      rw [Nat.le_div_iff_mul_le h0, Nat.mul_comm]
      exact hle
  have hset : ∀ (is : List ℕ) (acc : List (List (List ℕ))) (j : ℕ), acc.length = v.inds.length →
      (∀ i ∈ is, i < v.inds.length) →
      (is.foldl (fun acc i => acc.set i [v.inds.getD i []]) acc).length = v.inds.length ∧
      (is.foldl (fun acc i => acc.set i [v.inds.getD i []]) acc).getD j [] =
        if j ∈ is then [v.inds.getD j []] else acc.getD j [] := by
    intro is
    induction is with
    | nil => intro acc j h _; exact ⟨h, by simp⟩
    | cons i is ih =>
      intro acc j h hlt
      obtain ⟨h1, h2⟩ := ih (acc.set i [v.inds.getD i []]) j (by simpa using h) (fun j hj => hlt j (by simp [hj]))
      rw [List.foldl_cons]
      refine ⟨h1, ?_⟩
      rw [h2]
      by_cases hj : j ∈ is
      · rw [if_pos hj, if_pos (by simp [hj])]
      · rw [if_neg hj]
        by_cases hji : j = i
        · subst hji
          rw [if_pos (by simp), List.getD_eq_getElem _ _ (by rw [List.length_set, h]; exact hlt j (by simp))]
          simp
        · rw [if_neg (by simp [hj, hji]), List.getD_eq_getElem?_getD, List.getElem?_set_ne (Ne.symm hji),
            ← List.getD_eq_getElem?_getD]
  have hmem : v.memIndices limit [] = v.inds.map fun l => [l] := by
    unfold memIndices
    simp only [List.foldl_nil]
    have hf : (List.range v.inds.length).filter (fun i => decide (i ∉ ([] : List ℕ))) = List.range v.inds.length := by
      simp
    rw [hf, key _ _ (by intro i hi; simpa using hi)]
    · obtain ⟨h1, _⟩ := hset (List.range v.inds.length).reverse (v.inds.map fun _ => []) 0 (by simp)
        (by intro i hi; simpa using hi)
      refine List.ext_getElem (by rw [h1]; simp) fun j a b => ?_
      obtain ⟨_, h2⟩ := hset (List.range v.inds.length).reverse (v.inds.map fun _ => []) j (by simp)
        (by intro i hi; simpa using hi)
      have hj : j < v.inds.length := by simpa using b
      rw [List.getD_eq_getElem _ _ a, if_pos (by simpa using hj), List.getD_eq_getElem _ _ hj] at h2
      rw [h2]
      simp
    · simp only
      rw [List.map_reverse, List.prod_reverse]
      refine le_trans (le_of_eq ?_) hfit
      unfold View.size View.shape
      congr 1
      refine List.ext_getElem (by simp) fun j a b => ?_
      have hj : j < v.inds.length := by simpa using a
      simp [hj]
  unfold loopMem
  rw [hmem]
  have : ∀ L : List (List ℕ), product (L.map fun l => [l]) = [L] := by
    intro L
    induction L with
    | nil => rfl
    | cons l L ih => simp [product, ih]
  rw [this]
  rfl

theorem cell_insert : ∀ (i : ℕ) (L : List (List ℕ)) (k : List ℕ) (j : ℕ), i < L.length →
    k.length = L.length - 1 →
    cell L (k.insertIdx i j) = (cell (L.eraseIdx i) k).insertIdx i ((L.getD i []).getD j 0)
  | 0, l :: L, k, j, _, _ => by simp [cell]
  | i + 1, l :: L, [], j, hi, hk => by simp at hi hk; omega
  | i + 1, l :: L, x :: k, j, hi, hk => by
    have := cell_insert i L k j (by simpa using hi) (by simp at hk; omega)
    simp only [List.insertIdx_succ_cons, List.eraseIdx_cons_succ, List.getD_cons_succ, cell,
      List.zipWith_cons_cons] at this ⊢
    rw [this]

theorem inBounds_insert : ∀ (i : ℕ) (s k : List ℕ) (j : ℕ), i < s.length → InBounds (s.eraseIdx i) k →
    j < s.getD i 0 → InBounds s (k.insertIdx i j)
  | 0, n :: s, k, j, _, hk, hj => by
    simp only [List.insertIdx_zero]
    exact List.Forall₂.cons hj hk
  | i + 1, n :: s, k, j, hi, hk, hj => by
    simp only [List.eraseIdx_cons_succ] at hk
    cases hk with
    | @cons x _ k _ hx hk =>
      simp only [List.insertIdx_succ_cons]
      exact List.Forall₂.cons hx (inBounds_insert i s k j (by simpa using hi) hk (by simpa using hj))

/-- C41, part that holds: as long as no chunk splits the reduced axis (in particular when the whole request
fits in memory, `loopMem_single`), `argmax` gives the first position of the largest value. -/
theorem argmax_correct_partial {index : ℕ} {data : List ℕ → ℚ} {chunk : View ℕ → NArr ℚ} (junk : List ℕ → ℕ)
    (g : GoodReq lens [index] outInds) (hl : 1 ≤ limit) (hr : Reads data lens chunk)
    (hwhole : ∀ c ∈ (inView lens [index] outInds).loopMem limit [],
      c.inds.getD index [] = List.range (lens.getD index 0)) {k : List ℕ}
    (hk : InBounds (outInds.map List.length) k) :
    (argMaxVar limit lens index outInds junk chunk).get k =
      argmaxList ((List.range (lens.getD index 0)).map fun j : ℕ => data ((cell outInds k).insertIdx index j)) := by
  have hidx : index < lens.length := g.rlt index (by simp)
  have hwrite : ∀ c ∈ (inView lens [index] outInds).loopMem limit [], ∀ out : NArr ℕ,
      (List.Forall₂ (· ∈ ·) (cell outInds k) (dropAxes [] [index] c.inds) →
        (updateOuter (fun _ x => x) out (outPos lens [index] outInds c) (npArgmax (chunk c) index)).get k =
        argmaxList ((List.range (lens.getD index 0)).map fun j : ℕ => data ((cell outInds k).insertIdx index j))) ∧
      (¬ List.Forall₂ (· ∈ ·) (cell outInds k) (dropAxes [] [index] c.inds) →
        (updateOuter (fun _ x => x) out (outPos lens [index] outInds c) (npArgmax (chunk c) index)).get k =
        out.get k) := by
    intro c hc out
    obtain ⟨f1, f2, f3, f4⟩ := chunk_facts g hl c hc
    have hd := forall₂_dropAxes [] [] [index] f3
    rw [inView_drop g] at hd
    obtain ⟨p1, p2⟩ := place_chunk hd k hk
    rw [outPos_eq c f1]
    simp only [updateOuter]
    refine ⟨fun hin => ?_, fun hin => if_neg fun h => hin (p1.1 h)⟩
    rw [if_pos (p1.2 hin)]
    obtain ⟨q1, q2⟩ := p2 hin
    have hread := hr c f2
    have hdrop : dropAxes [] [index] c.inds = c.inds.eraseIdx index := by
      rw [← eraseIdx_desc [] [index] c.inds (by simp) (by simp [f1, hidx])]
      rfl
    rw [hdrop] at q1 q2 ⊢
    generalize List.zipWith (fun (l : List ℕ) (i : ℕ) => l.idxOf i) _ k = k' at q1 q2 ⊢
    have hlen' : k'.length = c.inds.length - 1 := by
      have := InBounds.length q1
      rw [List.length_map, List.length_eraseIdx, if_pos (by omega)] at this
      exact this
    have hshape : (chunk c).shape.getD index 0 = lens.getD index 0 := by
      rw [hread.1, List.getD_eq_getElem _ _ (by simp [f1, hidx]), List.getElem_map,
        ← List.getD_eq_getElem c.inds [] (by omega), hwhole c hc, List.length_range]
    simp only [npArgmax, hshape]
    congr 1
    refine List.map_congr_left fun j hj => ?_
    rw [List.mem_range] at hj
    rw [hread.2, cell_insert index c.inds k' j (by omega) hlen', q2, hwhole c hc,
      List.getD_eq_getElem _ _ (by simpa using hj), List.getElem_range]
    refine inBounds_insert index _ k' j (by simp [f1, hidx]) ?_ ?_
    · rw [List.eraseIdx_map]; exact q1
    · rw [← hread.1, hshape]; exact hj
  obtain ⟨c, hc, hin⟩ := exists_chunk g hl hk
  unfold argMaxVar
  refine fold_touch (fun x => x = argmaxList ((List.range (lens.getD index 0)).map
    fun j : ℕ => data ((cell outInds k).insertIdx index j))) _ k _ ?_ c hc ?_ _
  · intro out d hd h
    by_cases hin' : List.Forall₂ (· ∈ ·) (cell outInds k) (dropAxes [] [index] d.inds)
    · exact (hwrite d hd out).1 hin'
    · exact ((hwrite d hd out).2 hin').trans h
  · intro out
    exact (hwrite c hc out).1 hin

/-- `argmaxList` is the first position of the largest value -/
theorem argmaxList_spec (l : List ℚ) (hl : l ≠ []) :
    argmaxList l < l.length ∧ (∀ y ∈ l, y ≤ l.getD (argmaxList l) 0) ∧
    ∀ i < argmaxList l, l.getD i 0 < l.getD (argmaxList l) 0 := by
  have hex : ∃ x ∈ l, (l.all fun y => decide (y ≤ x)) = true := by
    have : ∀ l : List ℚ, l ≠ [] → ∃ x ∈ l, ∀ y ∈ l, y ≤ x := by
      intro l
      induction l with
      | nil => intro h; exact absurd rfl h
      | cons a l ih =>
        intro _
        by_cases h : l = []
        · subst h; exact ⟨a, by simp, by simp⟩
        · obtain ⟨x, hx, hm⟩ := ih h
          rcases le_total a x with h | h
          · exact ⟨x, by simp [hx], by simpa using ⟨h, hm⟩⟩
          · exact ⟨a, by simp, by simpa using fun y hy => (hm y hy).trans h⟩
    obtain ⟨x, hx, hm⟩ := this l hl
    exact ⟨x, hx, by simpa using hm⟩
  have hlt : argmaxList l < l.length := List.findIdx_lt_length_of_exists hex
  have hmax : ∀ y ∈ l, y ≤ l.getD (argmaxList l) 0 := by
    have h := List.findIdx_getElem (w := hlt)
    rw [List.getD_eq_getElem _ _ hlt]
    simp only [List.all_eq_true, decide_eq_true_eq] at h
    exact h
  refine ⟨hlt, hmax, fun i hi => ?_⟩
  have h1 := List.not_of_lt_findIdx (p := fun x => l.all fun y => decide (y ≤ x)) hi
  have hil : i < l.length := by omega
  rw [List.getD_eq_getElem _ _ hil]
  refine lt_of_le_of_ne (by rw [← List.getD_eq_getElem _ 0 hil]; exact hmax _ (getD_mem hil)) fun heq => ?_
  have h2 : (l.all fun y => decide (y ≤ l[i])) = true := by
    rw [heq]
    simpa using hmax
  exact absurd h2 (by simpa using h1)

/-- a one-dimensional variable with the given values, read by chunks -/
def lineVar (vals : List ℚ) (c : View ℕ) : NArr ℚ :=
  { shape := c.inds.map List.length, get := fun k => vals.getD ((cell c.inds k).headD 0) 0 }

theorem lineVar_reads (vals : List ℚ) (n : ℕ) : Reads (fun q => vals.getD (q.headD 0) 0) [n] (lineVar vals) :=
  fun _ _ => ⟨rfl, fun _ _ => rfl⟩

/-- C41 is violated: when the reduced axis does not fit in one chunk, each chunk overwrites the answer of
the previous ones with a position relative to itself. Here the largest of 5, 1, 1, 2 is at position 0, and
with chunks of two values the answer is 1. -/
theorem argmax_chunked_violated : ∃ (vals : List ℚ) (junk : List ℕ → ℕ) (limit : ℕ),
    1 ≤ limit ∧ GoodReq [vals.length] [0] [] ∧
    argmaxList vals = 0 ∧
    (argMaxVar limit [vals.length] 0 [] junk (lineVar vals)).get [] ≠ argmaxList vals := by
  refine ⟨[5, 1, 1, 2], fun _ => 0, 2, by decide, ?_, by decide +kernel, by decide +kernel⟩
  constructor <;> simp [dropAxes, InRange]

/-- C40, integer-typed variables: the mean of an integer variable is truncated (the reduced variable keeps
the integer type, and `View.get` casts). The mean of 1, 2 is answered as 1. -/
theorem mean_integer_violated : ∃ vals : List ℚ, GoodReq [vals.length] [0] [] ∧
    castInt ((meanVar 10 [vals.length] [0] [] (lineVar vals)).get []) ≠
      (vals.sum / vals.length) := by
  refine ⟨[1, 2], ?_, by decide +kernel⟩
  constructor <;> simp [dropAxes, InRange]

/-! ### Non-trivial cases of the hypotheses -/

/-- a request for two of the three positions of the middle axis of a 2x3x2 variable reduced over the
first and last axes -/
theorem goodReq_example : GoodReq [2, 3, 2] [0, 2] [[2, 0]] where
  rnd := by decide
  rlt := by decide
  rpos := by decide
  range := by
    have : dropAxes 0 [0, 2] [2, 3, 2] = [3] := by decide
    rw [this]
    exact List.Forall₂.cons (by decide) List.Forall₂.nil
  nd := by decide
  ne := by decide

/-- the variable whose value at cell (i, j, k) is 100 i + 10 j + k -/
def cubeVar (c : View ℕ) : NArr ℚ :=
  { shape := c.inds.map List.length
    get := fun k => let q := cell c.inds k; 100 * q.getD 0 0 + 10 * q.getD 1 0 + q.getD 2 0 }

theorem cubeVar_reads : Reads (fun q => (100 * q.getD 0 0 + 10 * q.getD 1 0 + q.getD 2 0 : ℚ)) [2, 3, 2] cubeVar :=
  fun _ _ => ⟨rfl, fun _ _ => rfl⟩

/-- with chunks of at most 3 values, the sums at j = 2 and j = 0 -/
example : (sumVar 3 [2, 3, 2] [0, 2] [[2, 0]] cubeVar).get [0] = 282 ∧
    (sumVar 3 [2, 3, 2] [0, 2] [[2, 0]] cubeVar).get [1] = 202 ∧
    fibre [2, 3, 2] [0, 2] (cell [[2, 0]] [0]) = [[0, 2, 0], [0, 2, 1], [1, 2, 0], [1, 2, 1]] := by
  decide +kernel

example : (varianceVar 3 [2, 3, 2] [0, 2] [[2, 0]] cubeVar).get [0] = 10001 / 3 := by decide +kernel

/-- weights 1, 3 along axis 2 only -/
def cubeWeights (c : View ℕ) : NArr ℚ :=
  { shape := (weightInds [2] c.inds).map List.length
    get := fun k => if (cell (weightInds [2] c.inds) k).getD 2 0 = 0 then 1 else 3 }

theorem cubeWeights_reads : ReadsWeights (fun q => if q.getD 2 0 = 0 then 1 else 3) [2] [2, 3, 2] cubeWeights :=
  fun _ _ => ⟨rfl, fun _ _ => rfl⟩

/-- weighted mean over both axes although only one carries weights -/
example : (weightedMeanVar 3 [2, 3, 2] [0, 2] [[2, 0]] cubeVar cubeWeights).get [0] = 70 + 3 / 4 := by
  decide +kernel

/-- NaN at some cells -/
def holeVar (c : View ℕ) : NArr (Option ℚ) :=
  { shape := c.inds.map List.length
    get := fun k => let q := cell c.inds k
                    if q.getD 1 0 = 0 ∨ q.getD 0 0 = 1 then none else some (10 * q.getD 1 0 + q.getD 2 0) }

example : (nanMeanVar 3 [2, 3, 2] [0, 2] [[2, 0]] holeVar).get [0] = some (20 + 1 / 2) ∧
    (nanMeanVar 3 [2, 3, 2] [0, 2] [[2, 0]] holeVar).get [1] = none ∧
    (minVar 3 [2, 3, 2] [0, 2] [[2, 0]] holeVar).get [0] = some 20 := by
  decide +kernel

end Reduce
end PyGeode
