/-
Property C100: the choice of the method, what the results have in common, and where the analysis goes wrong.
-/
import Verif.Props.EofCov

namespace PyGeode
namespace Eof
open Spec NArr Axis Combine VarOps Reduce Finset

/-! ### What holds of any EOFs -/

section
variable {T S : List ℕ} {data : List ℕ → ℝ} {W : List ℕ → ℝ} {c : ℝ} {num : ℕ} {E : ℕ → List ℕ → ℝ} {e : ℕ → ℝ} {P : ℕ → List ℕ → ℝ}

/-- EOFs as a decomposition of the matrix of weighted data. -/
theorem toMat (hW : ∀ s, InBounds S s → 0 < W s) (h : IsEofs T S data W c num E e P) :
    MatEofs T.prod S.prod (fun i j => data (unravel T i ++ unravel S j) * Real.sqrt (W (unravel S j))) c num
      (fun k j => E k (unravel S j) * Real.sqrt (W (unravel S j))) e (fun k i => P k (unravel T i)) := by
  have hroot : ∀ j < S.prod, Real.sqrt (W (unravel S j)) * Real.sqrt (W (unravel S j)) = W (unravel S j) := fun j hj =>
    Real.mul_self_sqrt (hW _ (unravel_inBounds hj)).le
  have hroot0 : ∀ j < S.prod, Real.sqrt (W (unravel S j)) ≠ 0 := fun j hj =>
    (Real.sqrt_pos.2 (hW _ (unravel_inBounds hj))).ne'
  have hp : ∀ k i, ∑ j ∈ range S.prod, data (unravel T i ++ unravel S j) * Real.sqrt (W (unravel S j)) *
      (E k (unravel S j) * Real.sqrt (W (unravel S j))) = cellSum S fun s => W s * (data (unravel T i ++ s) * E k s) := by
    intro k i
    rw [cellSum_unravel]
    refine sum_congr rfl fun j hj => ?_
    nth_rewrite 3 [← hroot j (mem_range.1 hj)]
    ring
  refine ⟨?_, h.nonneg, h.anti, ?_, ?_, ?_, ?_, ?_⟩
  · intro k hk l hl
    rw [← h.orth k hk l hl, cellSum_unravel]
    refine sum_congr rfl fun j hj => ?_
    simp only
    nth_rewrite 3 [← hroot j (mem_range.1 hj)]
    ring
  · intro k hk
    rw [← h.energy k hk, cellSum_unravel]
    exact sum_congr rfl fun i _ => by rw [hp]
  · intro k hk h0 t ht
    rw [hp, h.project k hk h0 _ (unravel_inBounds ht)]
  · intro k hk h0 j hj
    have := h.regress k hk h0 _ (unravel_inBounds hj)
    rw [cellSum_unravel] at this
    rw [← mul_assoc, ← this, sum_mul]
    exact sum_congr rfl fun i _ => by ring
  · intro k hk h0 l hl h0'
    rw [← h.series k hk h0 l hl h0', cellSum_unravel]
  · intro k hk q hq
    set q' : List ℕ → ℝ := fun s => q (ravel S s) / Real.sqrt (W s) with hq'
    have h1 : ∀ j < S.prod, q j = Real.sqrt (W (unravel S j)) * q' (unravel S j) := fun j hj => by
      rw [hq']; simp only
      rw [ravel_unravel hj, mul_div_cancel₀ _ (hroot0 j hj)]
    have h2 := h.leading k hk q' fun l hl => by
      rw [← hq l hl, cellSum_unravel]
      refine sum_congr rfl fun j hj => ?_
      rw [h1 j (mem_range.1 hj)]
      nth_rewrite 1 [← hroot j (mem_range.1 hj)]
      ring
    rw [cellSum_unravel, cellSum_unravel] at h2
    have h3 : ∑ j ∈ range S.prod, W (unravel S j) * q' (unravel S j) ^ 2 = ∑ j ∈ range S.prod, q j ^ 2 :=
      sum_congr rfl fun j hj => by
        rw [h1 j (mem_range.1 hj), mul_pow, sq (Real.sqrt _), hroot j (mem_range.1 hj)]
    rw [h3] at h2
    refine le_trans (le_of_eq (sum_congr rfl fun i _ => ?_)) h2
    rw [cellSum_unravel]
    congr 1
    refine sum_congr rfl fun j hj => ?_
    rw [h1 j (mem_range.1 hj)]
    nth_rewrite 3 [← hroot j (mem_range.1 hj)]
    ring

/-- The eigenvalues are determined by the data (up to the convention for the size of the principal components). -/
theorem eofs_unique (hW : ∀ s, InBounds S s → 0 < W s) (h : IsEofs T S data W c num E e P) (hc : 0 ≤ c) {num' : ℕ} {c' : ℝ}
    {E' : ℕ → List ℕ → ℝ} {e' : ℕ → ℝ} {P' : ℕ → List ℕ → ℝ} (h' : IsEofs T S data W c' num' E' e' P') (hc' : 0 ≤ c')
    {k : ℕ} (hk : k < num) (hk' : k < num') : c * e k ^ 2 = c' * e' k ^ 2 :=
  le_antisymm ((toMat hW h').le (toMat hW h) hc hk' hk) ((toMat hW h).le (toMat hW h') hc' hk hk')

/-- What the EOFs leave of the data. -/
theorem eofs_residual (hW : ∀ s, InBounds S s → 0 < W s) (h : IsEofs T S data W c num E e P) :
    cellSum T (fun t => cellSum S fun s => W s * (data (t ++ s) - ∑ k ∈ range num, if 0 < e k then e k * P k t * E k s else 0) ^ 2) =
      cellSum T (fun t => cellSum S fun s => W s * data (t ++ s) ^ 2) - c * ∑ k ∈ range num, e k ^ 2 := by
  have h1 := (toMat hW h).residual
  have hroot : ∀ j < S.prod, Real.sqrt (W (unravel S j)) ^ 2 = W (unravel S j) := fun j hj =>
    Real.sq_sqrt (hW _ (unravel_inBounds hj)).le
  rw [cellSum_unravel, cellSum_unravel]
  refine Eq.trans (sum_congr rfl fun i hi => ?_) (h1.trans (congrArg₂ _ (sum_congr rfl fun i hi => ?_) rfl))
  · rw [cellSum_unravel]
    refine sum_congr rfl fun j hj => ?_
    nth_rewrite 1 [← hroot j (mem_range.1 hj)]
    rw [← mul_pow, mul_sub, mul_sum]
    congr 2
    · ring
    · refine sum_congr rfl fun k _ => ?_
      split_ifs <;> ring
  · rw [cellSum_unravel]
    refine sum_congr rfl fun j hj => ?_
    rw [mul_pow, hroot j (mem_range.1 hj), mul_comm]

/-- Where the eigenvalues account for all the variance the EOFs rebuild the data. -/
theorem eofs_rebuild (hW : ∀ s, InBounds S s → 0 < W s) (h : IsEofs T S data W c num E e P)
    (hall : cellSum T (fun t => cellSum S fun s => W s * data (t ++ s) ^ 2) = c * ∑ k ∈ range num, e k ^ 2)
    {t s : List ℕ} (ht : InBounds T t) (hs : InBounds S s) :
    data (t ++ s) = ∑ k ∈ range num, if 0 < e k then e k * P k t * E k s else 0 := by
  have h1 := eofs_residual hW h
  rw [hall, sub_self, cellSum_unravel, sum_eq_zero_iff_of_nonneg] at h1
  rotate_left
  · intro i _
    rw [cellSum_unravel]
    exact sum_nonneg fun j hj => mul_nonneg (hW _ (unravel_inBounds (mem_range.1 hj))).le (sq_nonneg _)
  have h2 := h1 (ravel T t) (mem_range.2 (ravel_lt ht))
  rw [unravel_ravel ht, cellSum_unravel, sum_eq_zero_iff_of_nonneg] at h2
  rotate_left
  · intro j hj
    exact mul_nonneg (hW _ (unravel_inBounds (mem_range.1 hj))).le (sq_nonneg _)
  have h3 := h2 (ravel S s) (mem_range.2 (ravel_lt hs))
  rw [unravel_ravel hs] at h3
  rcases mul_eq_zero.1 h3 with h4 | h4
  · exact absurd h4 (hW s hs).ne'
  · exact sub_eq_zero.1 (pow_eq_zero_iff two_ne_zero |>.1 h4)

end

/-! ### The two methods -/

section
variable (nr : List ℚ → ℚ) (hnr : ∀ l, 0 ≤ nr l) {limit : ℕ} (hl : 1 ≤ limit) (junkw : List ℕ → ℚ) (junk : List ℕ → ℝ)
  {x : Var ℝ} {data : List ℕ → ℝ} {iaxis : Iaxis} {weight : Weight} {T S : List Axis} {wt : List ℕ → ℚ}
  (h : EofInput x data iaxis weight T S wt)
  {svd : ℕ → ℕ → (ℕ → ℕ → ℝ) → Svd} (hsvd : ∀ m n D, IsSvd m n D (svd m n D))
  {eigh : ℕ → (ℕ → ℕ → ℝ) → Eigh} (heigh : ∀ n C, (∀ a < n, ∀ b < n, C a b = C b a) → IsEigh n C (eigh n C))
  (iter : Var ℝ → ℕ → Iaxis → Weight → Option Result)
include hnr hl h

include hsvd in
/-- C100: `EOF` of a variable small enough for the decomposition of the data. -/
theorem eof_small {num : ℕ} (hnum : 1 ≤ num) (hsize : axesSize x.axes ^ 2 ≤ limit) :
    ∃ R E e P, eof svd eigh iter nr junkw junk limit x num iaxis weight = some R ∧
      IsEofResult nr T S data (normalised (S.map Axis.len) wt) 1 (min num (min (axesSize T) (axesSize S))) R E e P ∧
      (min (axesSize T) (axesSize S) ≤ num → R.var = ∑ k ∈ range (min (axesSize T) (axesSize S)), e k ^ 2) := by
  obtain ⟨R, E, e, P, h1, h2⟩ := eofSvd_correct_partial nr hnr hl junkw junk h hsvd hnum
  obtain ⟨y, h3, -⟩ := prep_correct nr hnr hl junkw junk h
  refine ⟨R, E, e, P, ?_, h2⟩
  unfold eof
  rw [h3, Option.bind_some, if_pos (show size x ≤ _ from Nat.le_sqrt'.2 hsize), h1]

include heigh in
/-- C100: `EOF` of a larger variable whose patterns are small enough for the covariance matrix. -/
theorem eof_narrow {num : ℕ} (hnum : 1 ≤ num) (hnum' : num ≤ axesSize S) (hm : 2 ≤ axesSize T) (hsize : limit < axesSize x.axes ^ 2)
    (hspace : axesSize S ^ 4 ≤ limit) :
    ∃ R E e P, eof svd eigh iter nr junkw junk limit x num iaxis weight = some R ∧
      IsEofResult nr T S data (normalised (S.map Axis.len) wt) ((axesSize T : ℝ) - 1) num R E e P ∧
      (num = axesSize S → R.var = ∑ k ∈ range num, e k ^ 2) := by
  have hle : axesSize S ≤ limit := le_trans (Nat.le_self_pow (by norm_num) _) hspace
  obtain ⟨R, E, e, P, h1, h2⟩ := eofCov_correct_partial nr hnr hl junkw junk h heigh hm hnum hnum' hle
  obtain ⟨y, h3, -⟩ := prep_correct nr hnr hl junkw junk h
  refine ⟨R, E, e, P, ?_, h2⟩
  unfold eof
  rw [h3, Option.bind_some, if_neg (show ¬ size x ≤ _ by rw [not_le]; exact Nat.sqrt_lt'.2 hsize),
    if_pos (show axesSize (y, T, S).2.2 ^ 2 ≤ _ from Nat.le_sqrt'.2 (by rw [← pow_mul]; exact hspace)), h1]

include hsvd heigh in
/-- C100 is violated: the two methods give eigenvalues that differ by the factor √(records − 1), so those `EOF` returns depend on
the size of the data. -/
theorem methods_differ {num : ℕ} (hnum : 1 ≤ num) (hnum' : num ≤ axesSize S) (hm : 2 ≤ axesSize T) (hlim : axesSize S ≤ limit) :
    ∃ (R R' : Result) (e e' : ℕ → ℝ), eofSvd svd nr junkw junk limit x num iaxis weight = some R ∧
      eofCov eigh nr junkw junk limit x num iaxis weight = some R' ∧
      Contains R.eig (fun k => e (k.headD 0)) ∧ Contains R'.eig (fun k => e' (k.headD 0)) ∧
      ∀ k, k < num → k < axesSize T → e k = Real.sqrt ((axesSize T : ℝ) - 1) * e' k := by
  obtain ⟨R, E, e, P, h1, h2, -⟩ := eofSvd_correct_partial nr hnr hl junkw junk h hsvd hnum
  obtain ⟨R', E', e', P', h1', h2', -⟩ := eofCov_correct_partial nr hnr hl junkw junk h heigh hm hnum hnum' hlim
  refine ⟨R, R', e, e', h1, h1', h2.eig, h2'.eig, fun k hk hk' => ?_⟩
  have hc : (0 : ℝ) ≤ (axesSize T : ℝ) - 1 := by
    have : (2 : ℝ) ≤ (axesSize T : ℝ) := by exact_mod_cast hm
    linarith
  have hk2 : k < min num (min (axesSize T) (axesSize S)) := by omega
  have h3 := eofs_unique (fun s hs => norm_pos h hs) h2.eofs zero_le_one h2'.eofs hc hk2 hk
  rw [one_mul] at h3
  have h4 := h2.eofs.nonneg k hk2
  have h5 := h2'.eofs.nonneg k hk
  rw [← Real.sqrt_sq h4, h3, Real.sqrt_mul hc, Real.sqrt_sq h5]

end

/-! ### The outputs -/

/-- the output a keyword stands for -/
inductive _root_.PyGeode.Spec.EofOutput (R : Result) : Name → Value → Prop
  | eof : EofOutput R "eof".toList (.var R.eof)
  | eig : EofOutput R "eig".toList (.var R.eig)
  | eig2 : EofOutput R "eig2".toList (.var R.eig2)
  | pc : EofOutput R "pc".toList (.var R.pc)
  | var : EofOutput R "var".toList (.number R.var)
  | frac : EofOutput R "frac".toList (.var R.frac)

theorem output_known {R : Result} {o : Name} {v : Value} (h : EofOutput R o v) : o ∈ outNames ∧ lookupOut R o = some v := by
  cases h <;> exact ⟨by decide +kernel, rfl⟩

/-- C100: the outputs come in the order in which they are asked for, whatever the case of the keywords. -/
theorem answer_names {R : Result} {l : List Name} {vs : List Value} (h : List.Forall₂ (fun o v => EofOutput R (lower o) v) l vs) :
    answer (.names l) (some R) = some vs := by
  have h1 : whichout (.names l) = some (l.map lower) := by
    unfold whichout
    simp only
    rw [if_pos]
    rw [List.all_eq_true]
    intro o ho
    obtain ⟨o', ho', rfl⟩ := List.mem_map.1 ho
    obtain ⟨i, hi, rfl⟩ := List.getElem_of_mem ho'
    exact decide_eq_true (output_known ((List.forall₂_iff_get.1 h).2 i hi (by rw [← h.length_eq]; exact hi))).1
  unfold answer
  rw [h1, Option.bind_some, Option.bind_some]
  refine mapM_forall₂ _ ?_
  rw [List.forall₂_map_left_iff]
  exact h.imp fun o v hv => (output_known hv).2

theorem splitComma_word : ∀ (w : Name), ',' ∉ w → splitComma w = [w]
  | [], _ => rfl
  | c :: w, h => by
    rw [splitComma, if_neg (fun hc => h (by simp [hc])), splitComma_word w fun hw => h (by simp [hw])]

theorem splitComma_cons : ∀ (w rest : Name), ',' ∉ w → splitComma (w ++ ',' :: rest) = w :: splitComma rest
  | [], rest, _ => by rw [List.nil_append, splitComma, if_pos rfl]
  | c :: w, rest, h => by
    rw [List.cons_append, splitComma, if_neg (fun hc => h (by simp [hc])), splitComma_cons w rest fun hw => h (by simp [hw])]

/-- a text of words separated by commas is taken apart into the words -/
theorem splitComma_join : ∀ (l : List Name), l ≠ [] → (∀ w ∈ l, ',' ∉ w) → splitComma (List.intercalate [','] l) = l
  | [], h, _ => absurd rfl h
  | [w], _, h => by
    rw [List.intercalate_singleton]
    exact splitComma_word w (h w (by simp))
  | w :: w' :: l, _, h => by
    have h1 : List.intercalate [','] (w :: w' :: l) = w ++ ',' :: List.intercalate [','] (w' :: l) := by
      simp [List.intercalate, List.intersperse]
    rw [h1, splitComma_cons w _ (h w (by simp)), splitComma_join (w' :: l) (by simp) fun v hv => h v (by simp [hv])]

/-- C100: the same for a text of keywords separated by commas. -/
theorem answer_text {R : Result} {l : List Name} {vs : List Value} (hl : l ≠ []) (hc : ∀ w ∈ l, ',' ∉ w)
    (h : List.Forall₂ (fun o v => EofOutput R (lower o) v) l vs) :
    answer (.text (List.intercalate [','] l)) (some R) = some vs := by
  have h1 : whichout (.text (List.intercalate [','] l)) = whichout (.names l) := by
    unfold whichout
    simp only
    rw [splitComma_join l hl hc]
  have h2 := answer_names h
  unfold answer at h2 ⊢
  rw [h1]
  exact h2

/-- C100: by default the patterns, the eigenvalues and the principal components. -/
theorem answer_default (R : Result) : answer .default (some R) = some [.var R.eof, .var R.eig, .var R.pc] :=
  answer_names (l := ["eof".toList, "eig".toList, "pc".toList]) (.cons .eof (.cons .eig (.cons .pc .nil)))

example (R : Result) : answer (.text "VAR,Eof".toList) (some R) = some [.number R.var, .var R.eof] :=
  answer_text (l := ["VAR".toList, "Eof".toList]) (by simp) (by decide) (.cons .var (.cons .eof .nil))

/-- C100 is violated: the longer keywords are accepted, but not answered. -/
theorem long_names_violated (R : Result) : ∀ o ∈ (["eofs", "eigenvalue", "eigenvalues", "timeseries", "variance", "varfrac"].map String.toList : List Name),
    whichout (.names [o]) = some [o] ∧ answer (.names [o]) (some R) = none := by
  have h : ∀ o ∈ (["eofs", "eigenvalue", "eigenvalues", "timeseries", "variance", "varfrac"].map String.toList : List Name),
      whichout (.names [o]) = some [o] ∧ lookupOut R o = none := by
    intro o ho
    simp only [List.map_cons, List.map_nil, List.mem_cons, List.not_mem_nil, or_false] at ho
    rcases ho with rfl | rfl | rfl | rfl | rfl | rfl <;> exact ⟨by decide +kernel, rfl⟩
  intro o ho
  obtain ⟨h1, h2⟩ := h o ho
  refine ⟨h1, ?_⟩
  unfold answer
  rw [h1, Option.bind_some, Option.bind_some, List.mapM_cons, h2]
  rfl

/-! ### Arguments that are refused although they are documented -/

section
variable (svd : ℕ → ℕ → (ℕ → ℕ → ℝ) → Svd) (eigh : ℕ → (ℕ → ℕ → ℝ) → Eigh) (iter : Var ℝ → ℕ → Iaxis → Weight → Option Result)
  (nr : List ℚ → ℚ) (junkw : List ℕ → ℚ) (junk : List ℕ → ℝ) (limit : ℕ) (x : Var ℝ) (num : ℕ)

theorem refused {iaxis : Iaxis} {weight : Weight} (h : prep nr junkw junk limit x iaxis weight = none) :
    eofSvd svd nr junkw junk limit x num iaxis weight = none ∧ eofCov eigh nr junkw junk limit x num iaxis weight = none ∧
      eof svd eigh iter nr junkw junk limit x num iaxis weight = none := by
  refine ⟨?_, ?_, ?_⟩
  · unfold eofSvd; rw [h]; rfl
  · unfold eofCov; rw [h]; rfl
  · unfold eof; rw [h]; rfl

/-- C100 is violated: `weight=None` is documented to use no weights, but fails. -/
theorem weight_none_violated (iaxis : Iaxis) :
    eofSvd svd nr junkw junk limit x num iaxis .none = none ∧ eofCov eigh nr junkw junk limit x num iaxis .none = none ∧
      eof svd eigh iter nr junkw junk limit x num iaxis .none = none := by
  refine refused svd eigh iter nr junkw junk limit x num ?_
  unfold prep applyWeights weightVar
  split_ifs <;> rfl

/-- C100 is violated: a single record axis given by its name or as an axis object fails. -/
theorem record_name_violated (weight : Weight) (a : AxisId) (ha : (∃ s, a = .name s) ∨ ∃ b, a = .axis b) :
    eofSvd svd nr junkw junk limit x num (.one a) weight = none ∧ eofCov eigh nr junkw junk limit x num (.one a) weight = none ∧
      eof svd eigh iter nr junkw junk limit x num (.one a) weight = none := by
  refine refused svd eigh iter nr junkw junk limit x num ?_
  unfold prep
  split_ifs
  · rfl
  · rw [Option.bind_eq_none_iff]
    intro y _
    have : recordIds y.axes (.one a) = none := by
      rcases ha with ⟨s, rfl⟩ | ⟨b, rfl⟩ <;> rfl
    rw [this]
    rfl

end

/-! ### A record axis that is not the first -/

/-- two places, two times -/
def placeEx : Axis := mkEx [30, 10]

/-- one value, at the first place and the second time; nothing at the second place -/
noncomputable def pointEx (axes : List Axis) : Var ℝ :=
  { axes := axes, src := .values ⟨[2, 2], fun k => if k = [0, 1] then 1 else 0⟩ }

theorem pointEx_contains {axes : List Axis} (h : axes.map Axis.len = [2, 2]) : Contains (pointEx axes) fun k => if k = [0, 1] then 1 else 0 :=
  ⟨h.symm, fun _ _ => rfl⟩

/-- with the time axis first all hypotheses are met -/
theorem pointEx_input : EofInput (pointEx [timeEx 2, placeEx]) (fun k => if k = [0, 1] then 1 else 0) .default .false [timeEx 2] [placeEx] fun _ => 1 where
  contains := pointEx_contains (by decide +kernel)
  axes := rfl
  reg := ⟨by show ∀ a ∈ [timeEx 2, placeEx], _; decide +kernel, by show List.Pairwise _ [timeEx 2, placeEx]; decide +kernel⟩
  pos := by show ∀ a ∈ [timeEx 2, placeEx], _; decide +kernel
  tol := by decide +kernel
  record := .time (timeEx 2) [placeEx] rfl (by decide +kernel)
  space := by simp
  order := by decide +kernel
  weights := .false
  wpos := fun _ _ => zero_lt_one

/-- C100 is violated where the record axis is not the first: the leading pattern of data that vanish at the second place for all times is
found to lie at the second place. (The array is taken as if the records came first.) -/
theorem record_axis_violated (nr : List ℚ → ℚ) (hnr : ∀ l, 0 ≤ nr l) {limit : ℕ} (hl : 4 ≤ limit) (junkw : List ℕ → ℚ) (junk : List ℕ → ℝ)
    {svd : ℕ → ℕ → (ℕ → ℕ → ℝ) → Svd} (hsvd : ∀ m n D, IsSvd m n D (svd m n D)) :
    ∃ (R : Result) (E : ℕ → List ℕ → ℝ), eofSvd svd nr junkw junk limit (pointEx [placeEx, timeEx 2]) 1 .default .false = some R ∧
      R.eof.axes = [orderAxis nr 1, placeEx] ∧ Contains R.eof (fun k => E (k.headD 0) k.tail) ∧ E 0 [0] = 0 ∧ E 0 [1] ^ 2 = 1 := by
  have hreg : Regular [placeEx, timeEx 2] := ⟨by decide +kernel, by decide +kernel⟩
  have hpos : ∀ a ∈ [placeEx, timeEx 2], 0 < a.len := by decide +kernel
  obtain ⟨y, h1, h2, h3, -⟩ := GetItem.load_correct nr junk (pointEx [placeEx, timeEx 2]) _ (pointEx_contains (by decide +kernel)) hreg hpos
  obtain ⟨r, h4, h5, h6⟩ := GetItem.get_correct nr junk y _ h3 (by rw [h2]; exact hreg) (by rw [h2]; exact hpos)
  have hlens : y.axes.map Axis.len = [2, 2] := by rw [h2]; decide +kernel
  rw [hlens] at h5 h6
  have hprep : prep nr junkw junk limit (pointEx [placeEx, timeEx 2]) .default .false = some (y, [timeEx 2], [placeEx]) := by
    unfold prep applyWeights weightVar
    rw [if_neg (by decide), Option.bind_some, Option.bind_some]
    have h7 : recordIds (pointEx [placeEx, timeEx 2]).axes .default = some [.cls "Time".toList] := by
      show recordIds [placeEx, timeEx 2] .default = _
      unfold recordIds
      rw [if_pos (by decide +kernel)]
    have h8 : whichAll (pointEx [placeEx, timeEx 2]).axes [.cls "Time".toList] = some [1] := by
      show whichAll [placeEx, timeEx 2] _ = _
      decide +kernel
    have h9 : size (pointEx [placeEx, timeEx 2]) = 4 := by
      show ([placeEx, timeEx 2].map Axis.len).prod = 4
      decide +kernel
    rw [h7, Option.bind_some, h8, Option.bind_some]
    simp only
    rw [if_pos (by rw [h9]; exact hl), h1]
    rfl
  set D : ℕ → ℕ → ℝ := fun i j => r.get (unravel r.shape (i * 2 + j)) with hD
  have hDv : ∀ i < 2, ∀ j < 2, D i j = if i = 0 ∧ j = 1 then 1 else 0 := by
    intro i hi j hj
    rw [hD]
    simp only
    rw [h5, h6 _ (unravel_inBounds (by simp; omega))]
    have : unravel [2, 2] (i * 2 + j) = [i, j] := by
      have h7 := unravel_append [2] [2] i j (by simpa using hj) (by simpa using hi)
      simp only [List.prod_cons, List.prod_nil, List.singleton_append] at h7
      rw [show i * 2 + j = i * (2 * 1) + j by ring, h7]
      simp [unravel, Nat.mod_eq_of_lt, hi, hj]
    rw [this]
    simp
  have hW : ∀ s, normalised ([placeEx].map Axis.len) (fun _ => 1) s = 1 := by
    intro s
    have : cellSum ([placeEx].map Axis.len) (fun _ : List ℕ => (1 : ℚ)) = 2 := by decide +kernel
    have h7 : (([placeEx].map Axis.len).prod : ℚ) = 2 := by decide +kernel
    unfold normalised
    rw [this, h7]
    norm_num
  have hTl : ([timeEx 2].map Axis.len) = [2] := by decide +kernel
  have hSl : ([placeEx].map Axis.len) = [2] := by decide +kernel
  have hM := svd_eofs (hsvd 2 2 D) (num := 1) (by norm_num)
  obtain ⟨R, E, P, h7, -, h8⟩ := finalize_correct nr hnr (limit := limit) (by omega) junkw junk pointEx_input (D := D) (by
      intro i hi j hj
      rw [hTl] at hi ⊢
      rw [hSl] at hj ⊢
      have hi2 : i < 2 := by simpa using hi
      have hj2 : j < 2 := by simpa using hj
      have h9 : normalised [2] (fun _ => 1) (unravel [2] j) = 1 := by have := hW (unravel [2] j); rwa [hSl] at this
      rw [hDv i hi2 j hj2, h9, Real.sqrt_one, mul_one]
      simp [unravel, Nat.mod_eq_of_lt, hi2, hj2])
    (c := 1) (num := 1) le_rfl (v := (svd 2 2 D).v) (e := (svd 2 2 D).s) (u := fun k t => (svd 2 2 D).u t k)
    (by rw [hTl, hSl]; exact hM) (variance := ∑ i ∈ range 2, ∑ j ∈ range 2, D i j ^ 2) (by rw [hTl, hSl, one_mul]; rfl)
  refine ⟨R, E, ?_, h8.eofAxes, h8.eof, ?_⟩
  · unfold eofSvd
    rw [hprep, Option.bind_some]
    have h9 : axesSize [timeEx 2] = 2 := by decide +kernel
    have h10 : axesSize [placeEx] = 2 := by decide +kernel
    simp only [h9, h10]
    have h11 : dataMatrix nr junk y 2 2 = some D := by
      unfold dataMatrix
      rw [h4, Option.bind_some, if_pos (by rw [h5]; rfl)]
    rw [h11, Option.bind_some]
    exact h7
  · have ho := h8.eofs.orth 0 (by norm_num) 0 (by norm_num)
    have hen := h8.eofs.energy 0 (by norm_num)
    have hle := h8.eofs.leading 0 (by norm_num) (fun s => if s = [1] then 1 else 0) (fun l hl => absurd hl (by omega))
    have hW' : ∀ s, normalised [2] (fun _ => 1) s = 1 := fun s => by have := hW s; rwa [hSl] at this
    simp only [hTl, hSl, hW', one_mul, if_true] at ho hen hle
    have hs : ∀ f : List ℕ → ℝ, cellSum [2] f = f [0] + f [1] := by
      intro f
      simp [cellSum, product, List.range_succ]
    simp only [hs] at ho hen hle
    simp only [List.singleton_append, List.cons.injEq, List.cons_ne_self, and_true, true_and, zero_ne_one, one_ne_zero, and_false, false_and, if_true,
      if_false, zero_mul, one_mul, mul_zero, mul_one, zero_add, add_zero, ne_eq, OfNat.ofNat_ne_zero, not_false_eq_true, zero_pow, one_pow] at ho hen hle
    have h9 : E 0 [1] ^ 2 = 1 := le_antisymm (by nlinarith [mul_self_nonneg (E 0 [0])]) (by rw [hen]; exact hle)
    exact ⟨mul_self_eq_zero.1 (by nlinarith), h9⟩

/-! ### Examples -/

/-- decompositions as assumed exist for all matrices -/
theorem decompositions : (∃ svd : ℕ → ℕ → (ℕ → ℕ → ℝ) → Svd, ∀ m n D, IsSvd m n D (svd m n D)) ∧
    ∃ eigh : ℕ → (ℕ → ℕ → ℝ) → Eigh, ∀ n C, (∀ a < n, ∀ b < n, C a b = C b a) → IsEigh n C (eigh n C) := by
  constructor
  · choose svd h using exists_svd
    exact ⟨svd, h⟩
  · classical
    refine ⟨fun n C => if h : ∀ a < n, ∀ b < n, C a b = C b a then (exists_eigh n C h).choose else ⟨fun _ => 0, fun _ _ => 0⟩, fun n C h => ?_⟩
    simp only [dif_pos h]
    exact (exists_eigh n C h).choose_spec

/-- times and places as records, longitudes with weights 1, 2, 3, 4 as patterns -/
noncomputable def fieldEx : Var ℝ :=
  { axes := [timeEx 2, placeEx, lonEx], src := .values ⟨[2, 2, lonEx.len], fun k => 100 * k.getD 0 0 + 10 * k.getD 1 0 + k.getD 2 0⟩ }

theorem fieldEx_input : EofInput fieldEx (fun k => 100 * k.getD 0 0 + 10 * k.getD 1 0 + k.getD 2 0) (.many [.int 0, .cls "Lat".toList]) .true
    [timeEx 2, placeEx] [lonEx] (axesWeight [lonEx] [0]) where
  contains := ⟨by show [2, 2, lonEx.len] = [timeEx 2, placeEx, lonEx].map Axis.len; decide +kernel, fun _ _ => rfl⟩
  axes := rfl
  reg := ⟨by show ∀ a ∈ [timeEx 2, placeEx, lonEx], _; decide +kernel, by show List.Pairwise _ [timeEx 2, placeEx, lonEx]; decide +kernel⟩
  pos := by show ∀ a ∈ [timeEx 2, placeEx, lonEx], _; decide +kernel
  tol := by decide +kernel
  record := .many _ 2 (by norm_num) (by show whichAll [timeEx 2, placeEx, lonEx] _ = _; decide +kernel)
  space := by simp
  order := by decide +kernel
  weights := .true (by decide +kernel) (by
    intro a ha ws hws
    obtain rfl : a = lonEx := by simpa using ha
    have h : Weights.axisWeights lonEx = some [1, 2, 3, 4] := by decide +kernel
    rw [h] at hws
    rw [← Option.some.inj hws]
    decide +kernel)
  wpos := by
    intro s hs
    have h1 : ([lonEx].map Axis.len) = [4] := by decide +kernel
    rw [h1] at hs
    have h2 : s ∈ product [List.range 4] := mem_product_range.2 hs
    have h3 : ∀ s ∈ product [List.range 4], 0 < axesWeight [lonEx] [0] s := by decide +kernel
    exact h3 s h2

/-- the analysis of this field with the first two patterns, in memory for at most seven values -/
example (junkw : List ℕ → ℚ) (junk : List ℕ → ℝ) {svd : ℕ → ℕ → (ℕ → ℕ → ℝ) → Svd} (hsvd : ∀ m n D, IsSvd m n D (svd m n D)) :
    ∃ R E e P, eofSvd svd (fun _ => 0) junkw junk 7 fieldEx 2 (.many [.int 0, .cls "Lat".toList]) .true = some R ∧
      IsEofResult (fun _ => 0) [timeEx 2, placeEx] [lonEx] (fun k => 100 * k.getD 0 0 + 10 * k.getD 1 0 + k.getD 2 0)
        (normalised ([lonEx].map Axis.len) (axesWeight [lonEx] [0])) 1 2 R E e P := by
  obtain ⟨R, E, e, P, h1, h2, -⟩ := eofSvd_correct_partial (fun _ => 0) (fun _ => le_rfl) (limit := 7) (by norm_num) junkw junk fieldEx_input hsvd
    (num := 2) (by norm_num)
  exact ⟨R, E, e, P, h1, by have h3 : min 2 (min (axesSize [timeEx 2, placeEx]) (axesSize [lonEx])) = 2 := by decide +kernel
                            rw [h3] at h2; exact h2⟩

example (junkw : List ℕ → ℚ) (junk : List ℕ → ℝ) {eigh : ℕ → (ℕ → ℕ → ℝ) → Eigh}
    (heigh : ∀ n C, (∀ a < n, ∀ b < n, C a b = C b a) → IsEigh n C (eigh n C)) :
    ∃ R E e P, eofCov eigh (fun _ => 0) junkw junk 7 fieldEx 2 (.many [.int 0, .cls "Lat".toList]) .true = some R ∧
      IsEofResult (fun _ => 0) [timeEx 2, placeEx] [lonEx] (fun k => 100 * k.getD 0 0 + 10 * k.getD 1 0 + k.getD 2 0)
        (normalised ([lonEx].map Axis.len) (axesWeight [lonEx] [0])) 3 2 R E e P := by
  obtain ⟨R, E, e, P, h1, h2, -⟩ := eofCov_correct_partial (fun _ => 0) (fun _ => le_rfl) (limit := 7) (by norm_num) junkw junk fieldEx_input heigh
    (by decide +kernel) (num := 2) (by norm_num) (by decide +kernel) (by decide +kernel)
  refine ⟨R, E, e, P, h1, ?_⟩
  have h3 : axesSize [timeEx 2, placeEx] = 4 := by decide +kernel
  rw [h3] at h2
  norm_num at h2
  exact h2

example : normalised ([lonEx].map Axis.len) (axesWeight [lonEx] [0]) [3] = 8 / 5 := by
  unfold normalised
  have : axesWeight [lonEx] [0] [3] / (cellSum ([lonEx].map Axis.len) (axesWeight [lonEx] [0]) / (([lonEx].map Axis.len).prod : ℚ)) = 8 / 5 := by
    decide +kernel
  rw [this]
  norm_num

end Eof
end PyGeode
