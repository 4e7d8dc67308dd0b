/-
Property C100: EOF analysis (model: Verif/Model/Eof.lean). The singular value and eigenvalue decompositions are those numpy documents
(`IsSvd`, `IsEigh` in Verif/Props/EofMat.lean; every matrix has them, Verif/Props/EofExists.lean).
-/
import Verif.Props.EofMat
import Verif.Props.EofExists
import Verif.Props.EofWeights
import Verif.Props.LoopOrder

namespace PyGeode
namespace Eof
open Spec NArr Axis Combine VarOps Reduce Finset

/-! ### Specification -/

/-- `iaxis` names the first `r` axes, in their order -/
inductive _root_.PyGeode.Spec.LeadingRecords (axes : List Axis) : Iaxis → ℕ → Prop
  | time (a : Axis) (rest : List Axis) (h : axes = a :: rest) (ha : "Time".toList ∈ a.classes) : LeadingRecords axes .default 1
  | first (h : axes ≠ []) (ha : ∀ a ∈ axes, "Time".toList ∉ a.classes) : LeadingRecords axes .default 1
  | zero (h : axes ≠ []) : LeadingRecords axes (.one (.int 0)) 1
  | cls (c : Name) (a : Axis) (rest : List Axis) (h : axes = a :: rest) (ha : c ∈ a.classes) : LeadingRecords axes (.one (.cls c)) 1
  | many (ids : List AxisId) (r : ℕ) (hr : 1 ≤ r) (h : whichAll axes ids = some (List.range r)) : LeadingRecords axes (.many ids) r

/-- What the theorems assume of a call: a variable with contents `data`, record axes `T` followed by axes `S` of the patterns (no two axes
could be taken for each other, nor an axis of the patterns for the axis of the EOFs), and positive weights `wt`. -/
structure _root_.PyGeode.Spec.EofInput (x : Var ℝ) (data : List ℕ → ℝ) (iaxis : Iaxis) (weight : Weight) (T S : List Axis) (wt : List ℕ → ℚ) : Prop where
  contains : Contains x data
  axes : x.axes = T ++ S
  reg : Regular x.axes
  pos : ∀ a ∈ x.axes, 0 < a.len
  tol : ∀ a ∈ S, 0 ≤ a.rtol
  record : LeadingRecords x.axes iaxis T.length
  space : S ≠ []
  order : ∀ a ∈ S, compatible (orderAxis (fun _ => 0) 0) a = false
  weights : EofWeights T S weight wt
  wpos : ∀ s, InBounds (S.map Axis.len) s → 0 < wt s

/-- `E`, `e`, `P` are `num` leading EOFs, eigenvalues and principal components of `data` over records of shape `T` and patterns of shape `S`
with weights `W`: the patterns are orthonormal, each has the largest energy of all patterns orthogonal to those before, the eigenvalues fall,
the principal components are the projections of the data on the patterns divided by the eigenvalues, orthogonal with sum of squares
`c`, and the patterns are the projections of the data on them; the first element of each pattern is not negative. (Where an eigenvalue is zero nothing is said about the
principal component.) -/
structure _root_.PyGeode.Spec.IsEofs (T S : List ℕ) (data : List ℕ → ℝ) (W : List ℕ → ℝ) (c : ℝ) (num : ℕ) (E : ℕ → List ℕ → ℝ) (e : ℕ → ℝ)
    (P : ℕ → List ℕ → ℝ) : Prop where
  orth : ∀ k < num, ∀ l < num, cellSum S (fun s => W s * (E k s * E l s)) = if k = l then 1 else 0
  nonneg : ∀ k < num, 0 ≤ e k
  anti : ∀ k l, k ≤ l → l < num → e l ≤ e k
  energy : ∀ k < num, cellSum T (fun t => cellSum S (fun s => W s * (data (t ++ s) * E k s)) ^ 2) = c * e k ^ 2
  project : ∀ k < num, 0 < e k → ∀ t, InBounds T t → cellSum S (fun s => W s * (data (t ++ s) * E k s)) = e k * P k t
  regress : ∀ k < num, 0 < e k → ∀ s, InBounds S s → cellSum T (fun t => data (t ++ s) * P k t) = c * e k * E k s
  series : ∀ k < num, 0 < e k → ∀ l < num, 0 < e l → cellSum T (fun t => P k t * P l t) = if k = l then c else 0
  leading : ∀ k < num, ∀ q : List ℕ → ℝ, (∀ l < k, cellSum S (fun s => W s * (E l s * q s)) = 0) →
    cellSum T (fun t => cellSum S (fun s => W s * (data (t ++ s) * q s)) ^ 2) ≤ c * e k ^ 2 * cellSum S (fun s => W s * q s ^ 2)
  first : ∀ k < num, 0 ≤ E k (S.map fun _ => 0)

/-- The results: variables on a new axis of `num` orders, before the axes of the patterns and of the records respectively; the variance is the weighted sum
of squares of the data divided by `c`. -/
structure _root_.PyGeode.Spec.IsEofResult (nr : List ℚ → ℚ) (T S : List Axis) (data : List ℕ → ℝ) (W : List ℕ → ℝ) (c : ℝ) (num : ℕ) (R : Result)
    (E : ℕ → List ℕ → ℝ) (e : ℕ → ℝ) (P : ℕ → List ℕ → ℝ) : Prop where
  eofs : IsEofs (T.map Axis.len) (S.map Axis.len) data W c num E e P
  eofAxes : R.eof.axes = orderAxis nr num :: S
  eof : Contains R.eof fun k => E (k.headD 0) k.tail
  eigAxes : R.eig.axes = [orderAxis nr num]
  eig : Contains R.eig fun k => e (k.headD 0)
  pcAxes : R.pc.axes = orderAxis nr num :: T
  pc : Contains R.pc fun k => P (k.headD 0) k.tail
  var : c * R.var = cellSum (T.map Axis.len) fun t => cellSum (S.map Axis.len) fun s => W s * data (t ++ s) ^ 2
  eig2Axes : R.eig2.axes = [orderAxis nr num]
  eig2 : Contains R.eig2 fun k => e (k.headD 0) ^ 2
  fracAxes : R.frac.axes = [orderAxis nr num]
  frac : Contains R.frac fun k => e (k.headD 0) ^ 2 / R.var

/-! ### Preparation -/

theorem record_ids {axes : List Axis} {iaxis : Iaxis} {r : ℕ} (h : LeadingRecords axes iaxis r) :
    ∃ ids, recordIds axes iaxis = some ids ∧ whichAll axes ids = some (List.range r) ∧ 1 ≤ r := by
  have h0 : axes ≠ [] → whichAll axes [.int 0] = some [0] := by
    intro hne
    have hp := List.length_pos_of_ne_nil hne
    have h1 : whichaxis axes (.int 0) = .at 0 := by
      simp [whichaxis, hp]
    simp [whichAll, h1, foundAt]
  have hc : ∀ (c : Name) (a : Axis) (rest : List Axis), axes = a :: rest → c ∈ a.classes → whichAll axes [.cls c] = some [0] := by
    intro c a rest hA ha
    have h1 : whichaxis axes (.cls c) = .at 0 := by
      rw [hA]; simp [whichaxis, List.findIdx?_cons, ha]
    simp [whichAll, h1, foundAt]
  cases h with
  | time a rest h ha =>
    refine ⟨[.cls "Time".toList], ?_, hc _ a rest h ha, le_rfl⟩
    unfold recordIds
    rw [if_pos (by rw [h]; exact List.any_eq_true.2 ⟨a, List.mem_cons_self, decide_eq_true ha⟩)]
  | first h ha =>
    refine ⟨[.int 0], ?_, h0 h, le_rfl⟩
    unfold recordIds
    rw [if_neg (by rw [List.any_eq_true]; rintro ⟨a, ha', h'⟩; exact ha a ha' (by simpa using h'))]
  | zero h => exact ⟨[.int 0], rfl, h0 h, le_rfl⟩
  | cls c a rest h ha => exact ⟨[.cls c], rfl, hc c a rest h ha, le_rfl⟩
  | many ids r hr h => exact ⟨ids, rfl, h, hr⟩

theorem split_axes (T S : List Axis) : ((List.range T.length).filterMap fun i => (T ++ S)[i]?) = T ∧
    (((List.range (T ++ S).length).filter fun i => i ∉ List.range T.length).filterMap fun i => (T ++ S)[i]?) = S := by
  constructor
  · refine List.ext_getElem? fun i => ?_
    have : ((List.range T.length).filterMap fun i => (T ++ S)[i]?) = (List.range T.length).filterMap fun i => T[i]? :=
      List.filterMap_congr fun i hi => List.getElem?_append_left (List.mem_range.1 hi)
    rw [this]
    congr 1
    clear this
    induction T with
    | nil => rfl
    | cons a T ih => rw [List.length_cons, List.range_succ_eq_map, List.filterMap_cons]; simp [List.filterMap_map, Function.comp_def, ih]
  · have h1 : ((List.range (T ++ S).length).filter fun i => i ∉ List.range T.length) = (List.range S.length).map (T.length + ·) := by
      rw [List.length_append, List.range_add, List.filter_append, List.filter_eq_nil_iff.2, List.nil_append, List.filter_eq_self.2]
      · intro i hi
        obtain ⟨j, _, rfl⟩ := List.mem_map.1 hi
        simp
      · intro i hi
        simpa using hi
    rw [h1, List.filterMap_map]
    have : (List.range S.length).filterMap ((fun i => (T ++ S)[i]?) ∘ (T.length + ·)) = (List.range S.length).filterMap fun i => S[i]? :=
      List.filterMap_congr fun i _ => by simp [List.getElem?_append_right]
    rw [this]
    induction S with
    | nil => rfl
    | cons a S ih =>
      rw [List.length_cons, List.range_succ_eq_map, List.filterMap_cons]
      have h2 : List.filterMap (fun i => (a :: S)[i]?) ((List.range S.length).map Nat.succ) = (List.range S.length).filterMap fun i => S[i]? := by
        rw [List.filterMap_map]; rfl
      simp only [List.getElem?_cons_zero]
      rw [h2]
      congr 1
      clear ih this h1 h2
      induction S with
      | nil => rfl
      | cons a S ih => rw [List.length_cons, List.range_succ_eq_map, List.filterMap_cons]; simp [List.filterMap_map, Function.comp_def, ih]

section
variable (nr : List ℚ → ℚ) (hnr : ∀ l, 0 ≤ nr l) {limit : ℕ} (hl : 1 ≤ limit) (junkw : List ℕ → ℚ) (junk : List ℕ → ℝ)
  {x : Var ℝ} {data : List ℕ → ℝ} {iaxis : Iaxis} {weight : Weight} {T S : List Axis} {wt : List ℕ → ℚ}
  (h : EofInput x data iaxis weight T S wt)
include hnr hl h

theorem prep_correct : ∃ y, prep nr junkw junk limit x iaxis weight = some (y, T, S) ∧ y.axes = T ++ S ∧
    Contains y fun k => data k * Real.sqrt (normalised (S.map Axis.len) wt (k.drop T.length)) := by
  obtain ⟨ids, h1, h2, h3⟩ := record_ids h.record
  obtain ⟨y, h4, h5, h6⟩ := weigh_correct nr hnr hl mul2 (by intro d; simp [mul2]) junkw junk x data h.contains T S h.axes h.reg h.tol
    (fun a ha => h.pos a (by rw [h.axes]; simp [ha])) weight wt h.weights
  have hS := List.length_pos_of_ne_nil h.space
  obtain ⟨y', h7, h8, h9, -⟩ := GetItem.load_correct nr junk y _ h6 (by rw [h5]; exact h.reg) (by rw [h5]; exact h.pos)
  obtain ⟨hsT, hsS⟩ := split_axes T S
  unfold prep
  rw [if_neg (by rw [h.axes, List.length_append]; omega), apply_eq, h4, Option.bind_some, h5, h1, Option.bind_some, h2, Option.bind_some]
  simp only
  rw [h.axes, hsT, hsS]
  by_cases hs : size y ≤ limit
  · rw [if_pos hs, h7]
    exact ⟨y', rfl, by rw [h8, h5, h.axes], by simpa only [mul2, List.headI_cons, List.tail_cons] using h9⟩
  · rw [if_neg hs]
    exact ⟨y, rfl, by rw [h5, h.axes], by simpa only [mul2, List.headI_cons, List.tail_cons] using h6⟩

omit hnr hl in
theorem spos : 0 < (S.map Axis.len).prod := List.prod_pos fun n hn => by
  obtain ⟨a, ha, rfl⟩ := List.mem_map.1 hn
  exact h.pos a (by rw [h.axes]; simp [ha])

omit hnr hl in
theorem norm_pos {s : List ℕ} (hs : InBounds (S.map Axis.len) s) : 0 < normalised (S.map Axis.len) wt s := by
  unfold normalised
  have hS := spos h
  have hsum : 0 < cellSum (S.map Axis.len) wt := by
    rw [cellSum_unravel]
    exact sum_pos (fun j hj => h.wpos _ (unravel_inBounds (mem_range.1 hj))) ⟨0, by simpa using hS⟩
  have : (0 : ℚ) < (S.map Axis.len).prod := by exact_mod_cast hS
  have h2 := h.wpos s hs
  exact_mod_cast div_pos h2 (div_pos hsum this)

/-- The outputs from a decomposition of the matrix of weighted data. -/
theorem finalize_correct {D : ℕ → ℕ → ℝ} (hD : ∀ i < (T.map Axis.len).prod, ∀ j < (S.map Axis.len).prod, D i j =
      data (unravel (T.map Axis.len) i ++ unravel (S.map Axis.len) j) *
        Real.sqrt (normalised (S.map Axis.len) wt (unravel (S.map Axis.len) j)))
    {c : ℝ} {num : ℕ} (hnum : 1 ≤ num) {v : ℕ → ℕ → ℝ} {e : ℕ → ℝ} {u : ℕ → ℕ → ℝ} {variance : ℝ}
    (hM : MatEofs (T.map Axis.len).prod (S.map Axis.len).prod D c num v e u)
    (hvar : c * variance = ∑ i ∈ range (T.map Axis.len).prod, ∑ j ∈ range (S.map Axis.len).prod, D i j ^ 2) :
    ∃ R E P, finalize nr junkw junk limit T S num v e u variance weight = some R ∧ R.var = variance ∧
      IsEofResult nr T S data (normalised (S.map Axis.len) wt) c num R E e P := by
  set Tl := T.map Axis.len with hTl
  set Sl := S.map Axis.len with hSl
  set W := normalised Sl wt with hW
  have hpos := spos h
  set g : ℕ → ℝ := signOf v with hg
  have hgg : ∀ k, g k * g k = 1 := by intro k; simp only [hg, signOf]; split_ifs <;> norm_num
  have hroot : ∀ j ∈ range Sl.prod, Real.sqrt (W (unravel Sl j)) * Real.sqrt (W (unravel Sl j)) = W (unravel Sl j) := fun j hj =>
    Real.mul_self_sqrt (norm_pos h (unravel_inBounds (mem_range.1 hj))).le
  have hroot0 : ∀ j ∈ range Sl.prod, Real.sqrt (W (unravel Sl j)) ≠ 0 := fun j hj =>
    (Real.sqrt_pos.2 (norm_pos h (unravel_inBounds (mem_range.1 hj)))).ne'
  -- the variable of patterns, weights removed
  set eofv : Var ℝ :=
    { axes := orderAxis nr num :: S
      src := .values { shape := num :: Sl, get := fun k => v (k.headD 0) (ravel Sl k.tail) * g (k.headD 0) } } with heofv
  have hcom : ∀ a ∈ S, compatible (orderAxis nr num) a = false := fun a ha => h.order a ha
  have hSreg : Regular S := h.reg.sublist (by rw [h.axes]; exact List.sublist_append_right _ _)
  have hreg : Regular (orderAxis nr num :: S) :=
    ⟨by
      intro a ha
      rcases List.mem_cons.1 ha with rfl | ha
      · simp [orderAxis]
      · exact hSreg.cls a ha,
     List.pairwise_cons.2 ⟨hcom, hSreg.inc⟩⟩
  have hlen : (orderAxis nr num).len = num := by simp [orderAxis, Axis.len]
  have hposS : ∀ a ∈ S, 0 < a.len := fun a ha => h.pos a (by rw [h.axes]; simp [ha])
  have hcont : Contains eofv fun k => v (k.headD 0) (ravel Sl k.tail) * g (k.headD 0) := by
    refine ⟨?_, fun _ _ => rfl⟩
    show num :: Sl = (orderAxis nr num :: S).map Axis.len
    rw [List.map_cons, hlen]
  have hweights : EofWeights [orderAxis nr num] S weight wt := by
    cases h.weights with
    | false => exact .false
    | true hP hlen => exact .true (by simp [Weights.axisWeights, orderAxis]) hlen
    | given W' w' hw hnd hsub => exact .given _ _ hw hnd hsub
  obtain ⟨e1, h1, h2, h3⟩ := weigh_correct nr hnr hl div2 (by intro d; simp [div2]) junkw junk eofv _ hcont [orderAxis nr num] S rfl hreg
    h.tol hposS weight wt hweights
  obtain ⟨e2, h4, h5, h6, -⟩ := GetItem.load_correct nr junk e1 _ h3 (by rw [h2]; exact hreg) (by
    rw [h2]
    intro a ha
    rcases List.mem_cons.1 ha with rfl | ha
    · rw [hlen]; omega
    · exact hposS a ha)
  have hR : finalize nr junkw junk limit T S num v e u variance weight = some
      { eof := e2
        eig := { axes := [orderAxis nr num], src := .values { shape := [num], get := fun k => e (k.getD 0 0) } }
        pc := { axes := orderAxis nr num :: T, src := .values { shape := num :: Tl, get := fun k => u (k.headD 0) (ravel Tl k.tail) * g (k.headD 0) } }
        frac := { axes := [orderAxis nr num], src := .values { shape := [num], get := fun k => e (k.getD 0 0) ^ 2 / variance } }
        eig2 := { axes := [orderAxis nr num], src := .values { shape := [num], get := fun k => e (k.getD 0 0) ^ 2 } }
        var := variance } := by
    unfold finalize
    simp only
    rw [remove_eq, show weigh div2 nr junkw junk limit _ weight = some e1 from h1, Option.bind_some, h4, Option.map_some]
  refine ⟨_, fun k s => v k (ravel Sl s) * g k / Real.sqrt (W s), fun k t => u k (ravel Tl t) * g k, hR, rfl, ?_⟩
  -- sums over cells as sums over flat positions
  have hsumS : ∀ (f : List ℕ → ℝ) (f' : ℕ → ℝ), (∀ j < Sl.prod, f (unravel Sl j) = f' j) → cellSum Sl f = ∑ j ∈ range Sl.prod, f' j := by
    intro f f' hf
    rw [cellSum_unravel]
    exact sum_congr rfl fun j hj => hf j (mem_range.1 hj)
  have hsumT : ∀ (f : List ℕ → ℝ) (f' : ℕ → ℝ), (∀ j < Tl.prod, f (unravel Tl j) = f' j) → cellSum Tl f = ∑ j ∈ range Tl.prod, f' j := by
    intro f f' hf
    rw [cellSum_unravel]
    exact sum_congr rfl fun j hj => hf j (mem_range.1 hj)
  -- the weighted projection of a record on a pattern
  have hproj : ∀ (i : ℕ), i < Tl.prod → ∀ q : List ℕ → ℝ,
      cellSum Sl (fun s => W s * (data (unravel Tl i ++ s) * q s)) =
        ∑ j ∈ range Sl.prod, D i j * (Real.sqrt (W (unravel Sl j)) * q (unravel Sl j)) := by
    intro i hi q
    refine hsumS _ _ fun j hj => ?_
    rw [hD i hi j hj]
    nth_rewrite 1 [← hroot j (mem_range.2 hj)]
    ring
  have hprojE : ∀ (i : ℕ), i < Tl.prod → ∀ k,
      cellSum Sl (fun s => W s * (data (unravel Tl i ++ s) * (v k (ravel Sl s) * g k / Real.sqrt (W s)))) =
        (∑ j ∈ range Sl.prod, D i j * v k j) * g k := by
    intro i hi k
    rw [hproj i hi fun s => v k (ravel Sl s) * g k / Real.sqrt (W s), sum_mul]
    refine sum_congr rfl fun j hj => ?_
    rw [mul_div_cancel₀ _ (hroot0 j hj), ravel_unravel (mem_range.1 hj)]
    ring
  refine ⟨⟨?_, hM.nonneg, hM.anti, ?_, ?_, ?_, ?_, ?_, ?_⟩, ?_, ?_, rfl, ⟨?_, ?_⟩, rfl, ⟨?_, ?_⟩, ?_, rfl, ⟨?_, ?_⟩, rfl, ⟨?_, ?_⟩⟩
  · -- orth
    intro k hk l hl
    rw [hsumS _ (fun j => v k j * v l j * (g k * g l)) fun j hj => by
      rw [ravel_unravel hj]
      have h0 := hroot0 j (mem_range.2 hj)
      nth_rewrite 1 [← hroot j (mem_range.2 hj)]
      field_simp, ← sum_mul, hM.orth k hk l hl]
    split_ifs with hkl
    · rw [hkl, hgg, one_mul]
    · rw [zero_mul]
  · -- energy
    intro k hk
    rw [hsumT _ (fun i => (∑ j ∈ range Sl.prod, D i j * v k j) ^ 2) fun i hi => by
      rw [hprojE i hi k, mul_pow, sq (g k), hgg, mul_one], hM.energy k hk]
  · -- project
    intro k hk h0 t ht
    have hi := ravel_lt ht
    have := hprojE (ravel Tl t) hi k
    rw [unravel_ravel ht] at this
    rw [this, hM.project k hk h0 _ hi]
    ring
  · -- regress
    intro k hk h0 s hs
    have hj := ravel_lt hs
    have hr0 := hroot0 _ (mem_range.2 hj)
    rw [unravel_ravel hs] at hr0
    rw [hsumT _ (fun i => D i (ravel Sl s) * u k i * (g k / Real.sqrt (W s))) fun i hi => by
      rw [hD i hi _ hj, unravel_ravel hs, ravel_unravel hi]
      field_simp, ← sum_mul, hM.regress k hk h0 _ hj]
    ring
  · -- series
    intro k hk h0 l hl h0'
    rw [hsumT _ (fun i => u k i * u l i * (g k * g l)) fun i hi => by
      rw [ravel_unravel hi]; ring, ← sum_mul, hM.series k hk h0 l hl h0']
    split_ifs with hkl
    · rw [hkl, hgg, mul_one]
    · rw [zero_mul]
  · -- leading
    intro k hk q hq
    set q' : ℕ → ℝ := fun j => Real.sqrt (W (unravel Sl j)) * q (unravel Sl j) with hq'
    rw [hsumT _ (fun i => (∑ j ∈ range Sl.prod, D i j * q' j) ^ 2) fun i hi => by rw [hproj i hi q],
      hsumS (fun s => W s * q s ^ 2) (fun j => q' j ^ 2) fun j hj => by
        rw [hq']; simp only
        rw [mul_pow, sq (Real.sqrt _), hroot j (mem_range.2 hj)]]
    refine hM.leading k hk q' fun l hl => ?_
    have h7 := hq l hl
    rw [hsumS _ (fun j => v l j * q' j * g l) fun j hj => by
      rw [ravel_unravel hj, hq']; simp only
      have h0 := hroot0 j (mem_range.2 hj)
      nth_rewrite 1 [← hroot j (mem_range.2 hj)]
      field_simp, ← sum_mul] at h7
    rcases mul_eq_zero.1 h7 with h8 | h8
    · exact h8
    · have := hgg l
      rw [h8] at this
      norm_num at this
  · -- first
    intro k hk
    have h7 : ravel Sl (Sl.map fun _ => 0) = 0 := by rw [← unravel_zero, ravel_unravel hpos]
    rw [h7]
    refine div_nonneg ?_ (Real.sqrt_nonneg _)
    simp only [hg, signOf]
    split_ifs with h8 <;> linarith
  · rw [h5, h2]
  · refine Rotate.contains_congr h6 fun k hk => ?_
    rw [h5, h2] at hk
    cases k with
    | nil => cases hk
    | cons a k => simp only [div2, List.headI_cons, List.tail_cons, List.headD_cons, List.length_singleton, List.drop_succ_cons, List.drop_zero]; rfl
  · simp [hlen]
  · intro k hk; cases k <;> rfl
  · show num :: Tl = (orderAxis nr num :: T).map Axis.len
    rw [List.map_cons, hlen]
  · intro k hk; rfl
  · -- variance
    show c * variance = _
    rw [hvar]
    refine (hsumT _ _ fun i hi => ?_).symm
    refine hsumS _ _ fun j hj => ?_
    rw [hD i hi j hj, mul_pow, sq (Real.sqrt _), hroot j (mem_range.2 hj)]
    ring
  · simp [hlen]
  · intro k hk; cases k <;> rfl
  · simp [hlen]
  · intro k hk; cases k <;> rfl

omit hnr hl h in
theorem flat_lt {a b i j : ℕ} (hi : i < a) (hj : j < b) : i * b + j < a * b := by
  have : (i + 1) * b ≤ a * b := Nat.mul_le_mul_right _ hi
  rw [Nat.add_mul] at this
  omega

/-- The matrix of weighted data. -/
theorem matrix_correct {y : Var ℝ} (hy : y.axes = T ++ S)
    (hc : Contains y fun k => data k * Real.sqrt (normalised (S.map Axis.len) wt (k.drop T.length))) :
    ∃ D, dataMatrix nr junk y (axesSize T) (axesSize S) = some D ∧ ∀ i < (T.map Axis.len).prod, ∀ j < (S.map Axis.len).prod, D i j =
      data (unravel (T.map Axis.len) i ++ unravel (S.map Axis.len) j) *
        Real.sqrt (normalised (S.map Axis.len) wt (unravel (S.map Axis.len) j)) := by
  obtain ⟨r, h1, h2, h3⟩ := GetItem.get_correct nr junk y _ hc (by rw [hy, ← h.axes]; exact h.reg) (by rw [hy, ← h.axes]; exact h.pos)
  rw [hy, List.map_append] at h2 h3
  refine ⟨fun i j => r.get (unravel r.shape (i * axesSize S + j)), ?_, fun i hi j hj => ?_⟩
  · unfold dataMatrix
    rw [h1, Option.bind_some, if_pos (by rw [h2, List.prod_append]; rfl)]
  · have h4 := unravel_append (T.map Axis.len) (S.map Axis.len) i j hj hi
    have h5 : unravel r.shape (i * axesSize S + j) = unravel (T.map Axis.len) i ++ unravel (S.map Axis.len) j := by rw [h2]; exact h4
    have h6 : (unravel (T.map Axis.len) i).length = T.length := by
      have := (unravel_inBounds hi).length_eq
      simpa using this
    simp only
    rw [h5, h3 _ (by
      rw [← h4]
      exact unravel_inBounds (by rw [List.prod_append]; exact flat_lt hi hj)), List.drop_left' h6]

/-- C100: what `EOF_svd` returns are the leading EOFs, eigenvalues and principal components. -/
theorem eofSvd_correct_partial {svd : ℕ → ℕ → (ℕ → ℕ → ℝ) → Svd} (hsvd : ∀ m n D, IsSvd m n D (svd m n D)) {num : ℕ} (hnum : 1 ≤ num) :
    ∃ R E e P, eofSvd svd nr junkw junk limit x num iaxis weight = some R ∧
      IsEofResult nr T S data (normalised (S.map Axis.len) wt) 1 (min num (min (axesSize T) (axesSize S))) R E e P ∧
      (min (axesSize T) (axesSize S) ≤ num → R.var = ∑ k ∈ range (min (axesSize T) (axesSize S)), e k ^ 2) := by
  obtain ⟨y, h1, h2, h3⟩ := prep_correct nr hnr hl junkw junk h
  obtain ⟨D, h4, h5⟩ := matrix_correct nr hnr hl junk h h2 h3
  have hm : 0 < axesSize T := List.prod_pos fun n hn => by
    obtain ⟨a, ha, rfl⟩ := List.mem_map.1 hn
    exact h.pos a (by rw [h.axes]; simp [ha])
  have hn : 0 < axesSize S := spos h
  obtain ⟨R, E, P, h6, h8, h7⟩ := finalize_correct nr hnr hl junkw junk h h5 (c := 1) (num := min num (min (axesSize T) (axesSize S)))
    (by omega) (svd_eofs (hsvd (axesSize T) (axesSize S) D) (by omega))
    (variance := ∑ i ∈ range (axesSize T), ∑ j ∈ range (axesSize S), D i j ^ 2) (by rw [one_mul]; rfl)
  refine ⟨R, E, _, P, ?_, h7, fun _ => by rw [h8, svd_total (hsvd (axesSize T) (axesSize S) D)]⟩
  unfold eofSvd
  rw [h1, Option.bind_some]
  show (dataMatrix nr junk y (axesSize T) (axesSize S)).bind _ = _
  rw [h4, Option.bind_some]
  exact h6

end

end Eof
end PyGeode
