import Verif.Model.Functions
import Verif.Props.EofWeights
/-!
# C123: functions of variables
-/
namespace PyGeode
namespace Functions
open Spec NArr Axis Combine VarOps Eof

/-! ## Functions of numbers -/

/-- A chain of functions of one number is their composition, the last applied first. -/
theorem chain_spec (fs : List (ℝ → ℝ)) (h : fs ≠ []) : ∃ g, chain (fs.map unary) = some g ∧
    ∀ x, g [x] = some (fs.foldr (fun f y => f y) x) := by
  induction fs with
  | nil => exact absurd rfl h
  | cons f fs ih =>
    cases fs with
    | nil => exact ⟨unary f, rfl, fun x => rfl⟩
    | cons f' fs =>
      obtain ⟨g, hg, hx⟩ := ih (by simp)
      rw [List.map_cons] at hg
      refine ⟨_, by rw [List.map_cons, List.map_cons, chain, hg, Option.map_some], fun x => ?_⟩
      simp only [hx, Option.bind_some, List.foldr_cons, unary]

/-- **C123.** The functions in degrees are those in radians of the angle in radians, and their
inverses give angles in degrees. -/
theorem degrees_spec : ∃ c s t ac as at' : Fn, cosd = some c ∧ sind = some s ∧ tand = some t ∧
    arccosd = some ac ∧ arcsind = some as ∧ arctand = some at' ∧ ∀ x : ℝ,
      c [x] = some (Real.cos (Real.pi * (x / 180))) ∧
      s [x] = some (Real.sin (Real.pi * (x / 180))) ∧
      t [x] = some (Real.tan (Real.pi * (x / 180))) ∧
      ac [x] = some (Real.arccos x / Real.pi * 180) ∧
      as [x] = some (Real.arcsin x / Real.pi * 180) ∧
      at' [x] = some (Real.arctan x / Real.pi * 180) := by
  refine ⟨_, _, _, _, _, _, rfl, rfl, rfl, rfl, rfl, rfl, fun x => ?_⟩
  have e1 : x * Real.pi / 180 = Real.pi * (x / 180) := by ring
  have e2 : ∀ y : ℝ, y * 180 / Real.pi = y / Real.pi * 180 := fun y => by ring
  simp only [unary, deg2rad, rad2deg, Option.bind_some, e1, e2, and_self]

/-- **C123.** The inverse functions in degrees undo the functions: on the half circle, the right
half of the circle, and between its ends. -/
theorem degrees_inverse {c s t ac as at' : Fn} (h1 : cosd = some c) (h2 : sind = some s)
    (h3 : tand = some t) (h4 : arccosd = some ac) (h5 : arcsind = some as)
    (h6 : arctand = some at') (x : ℝ) :
    (0 ≤ x → x ≤ 180 → (c [x]).bind (fun y => ac [y]) = some x) ∧
    (-90 ≤ x → x ≤ 90 → (s [x]).bind (fun y => as [y]) = some x) ∧
    (-90 < x → x < 90 → (t [x]).bind (fun y => at' [y]) = some x) := by
  obtain ⟨c', s', t', ac', as', at'', e1, e2, e3, e4, e5, e6, H⟩ := degrees_spec
  rw [h1] at e1; rw [h2] at e2; rw [h3] at e3; rw [h4] at e4; rw [h5] at e5; rw [h6] at e6
  cases e1; cases e2; cases e3; cases e4; cases e5; cases e6
  have hp := Real.pi_pos
  have back : Real.pi * (x / 180) / Real.pi * 180 = x := by
    field_simp
  refine ⟨fun a b => ?_, fun a b => ?_, fun a b => ?_⟩
  · rw [(H x).1, Option.bind_some, (H _).2.2.2.1, Real.arccos_cos (by positivity), back]
    nlinarith
  · rw [(H x).2.1, Option.bind_some, (H _).2.2.2.2.1, Real.arcsin_sin (by nlinarith)
      (by nlinarith), back]
  · rw [(H x).2.2.1, Option.bind_some, (H _).2.2.2.2.2, Real.arctan_tan (by nlinarith)
      (by nlinarith), back]

/-- **C123, violated.** `arctand2` cannot be called: it is a chain, which takes one argument, of
a function which takes two. -/
theorem arctand2_violated : ∃ f, arctand2 = some f ∧ ∀ args, f args = none := by
  refine ⟨_, rfl, fun args => ?_⟩
  match args with
  | [] => rfl
  | [x] => rfl
  | x :: y :: l => rfl

/-- Sums and products. -/
theorem vsum_eq (l : List ℝ) : vsum l = some l.sum := by
  cases l with
  | nil => rfl
  | cons a l =>
    have : ∀ (l : List ℝ) (a : ℝ), l.foldl (fun ans arg => ans + arg) a = a + l.sum := by
      intro l
      induction l with
      | nil => simp
      | cons b l ih => intro a; rw [List.foldl_cons, ih, List.sum_cons, add_assoc]
    simp only [vsum, this, List.sum_cons]

theorem vprod_eq (l : List ℝ) : vprod l = some l.prod := by
  cases l with
  | nil => rfl
  | cons a l =>
    have : ∀ (l : List ℝ) (a : ℝ), l.foldl (fun ans arg => ans * arg) a = a * l.prod := by
      intro l
      induction l with
      | nil => simp
      | cons b l ih => intro a; rw [List.foldl_cons, ih, List.prod_cons, mul_assoc]
    simp only [vprod, this, List.prod_cons]

/-- `clip` keeps a number between the limits, and leaves it alone if it is. -/
theorem clip_spec (x lo hi : ℝ) (h : lo ≤ hi) : ∃ y, clip [x, lo, hi] = some y ∧
    lo ≤ y ∧ y ≤ hi ∧ (lo ≤ x → x ≤ hi → y = x) ∧ (x < lo → y = lo) ∧ (hi < x → y = hi) := by
  refine ⟨_, rfl, le_min (le_max_right _ _) h, min_le_right _ _, ?_, ?_, ?_⟩
  · intro h1 h2
    rw [max_eq_left h1, min_eq_left h2]
  · intro h1
    rw [max_eq_right h1.le, min_eq_left h]
  · intro h1
    exact min_eq_right (le_max_of_le_left h1.le)

/-! ## Functions of variables -/

/-- What an argument stands for: a number for itself everywhere, a variable for its data. -/
inductive _root_.PyGeode.Spec.StandsFor : Arg → (List Axis × (List ℕ → ℝ)) → Prop
  | number (c : ℝ) : StandsFor (.number c) ([], fun _ => c)
  | var (x : Var ℝ) (data : List ℕ → ℝ) (h : Contains x data) : StandsFor (.var x) (x.axes, data)

theorem operands {args : List Arg} {held : List (List Axis × (List ℕ → ℝ))}
    (h : List.Forall₂ StandsFor args held) :
    ∃ ops, args.mapM Arg.operand? = some ops ∧ List.Forall₂ Holds ops held := by
  induction h with
  | nil => exact ⟨[], rfl, .nil⟩
  | cons h _ ih =>
    obtain ⟨ops, h1, h2⟩ := ih
    cases h with
    | number c => exact ⟨.scalar c :: ops, by simp [List.mapM_cons, Arg.operand?, h1], .cons (.scalar c) h2⟩
    | var x data h =>
      exact ⟨operand x :: ops, by simp [List.mapM_cons, Arg.operand?, h1], .cons (.var _ _ _ h) h2⟩

/-- **C123, for numbers and variables** (other arguments and keywords are missing: see
`map_keywords_violated`, `map_array_violated`).  A function of variables and numbers, as many as it takes, is a variable on the
combined axes whose value at each point is the function of the values there. -/
theorem func_partial (f : Fn) (nr : List ℚ → ℚ) (junk : List ℕ → ℝ) (args : List Arg)
    (held : List (List Axis × (List ℕ → ℝ))) (hh : List.Forall₂ StandsFor args held)
    (hf : ∀ l : List ℝ, l.length = args.length → ∃ y, f l = some y)
    (R : List Axis) (ops : List (Operand ℝ)) (hops : args.mapM Arg.operand? = some ops)
    (hR : ufuncAxes ops = some R) (hRc : Clean R) (hsub : ∀ h ∈ held, ∀ a ∈ h.1, a ∈ R)
    (hnd : ∀ h ∈ held, h.1.Nodup) :
    ∃ y data, makeUfunc f nr junk args = some (.var y) ∧ y.axes = R ∧ Contains y data ∧
      ∀ k, f (held.map fun h => relabel h.1 R h.2 k) = some (data k) := by
  obtain ⟨ops', h1, h2⟩ := operands hh
  rw [hops] at h1
  cases h1
  obtain ⟨y, e1, e2, e3⟩ := ufuncVar_correct (fun l => (f l).getD 0) nr junk junk ops held h2 R hR
    hRc hsub hnd
  refine ⟨y, _, ?_, e2, e3, fun k => ?_⟩
  · unfold makeUfunc
    rw [hops]
    simp only
    rw [if_pos, e1, Option.map_some]
    obtain ⟨z, hz⟩ := hf (ops.map fun _ => 1) (by
      rw [List.length_map, h2.length_eq, hh.length_eq])
    rw [hz]; rfl
  · obtain ⟨z, hz⟩ := hf (held.map fun h => relabel h.1 R h.2 k) (by
      rw [List.length_map, hh.length_eq])
    simp only [hz, Option.getD_some]

/-- **C123.** `vsum` of any number of variables and numbers (at least one variable) is their
sum, point by point. -/
theorem vsum_correct (nr : List ℚ → ℚ) (junk : List ℕ → ℝ) (args : List Arg)
    (held : List (List Axis × (List ℕ → ℝ))) (hh : List.Forall₂ StandsFor args held)
    (R : List Axis) (ops : List (Operand ℝ)) (hops : args.mapM Arg.operand? = some ops)
    (hR : ufuncAxes ops = some R) (hRc : Clean R) (hsub : ∀ h ∈ held, ∀ a ∈ h.1, a ∈ R)
    (hnd : ∀ h ∈ held, h.1.Nodup) :
    ∃ y, makeUfunc vsum nr junk args = some (.var y) ∧ y.axes = R ∧
      Contains y fun k => (held.map fun h => relabel h.1 R h.2 k).sum := by
  obtain ⟨y, data, h1, h2, h3, h4⟩ := func_partial vsum nr junk args held hh
    (fun l _ => ⟨_, vsum_eq l⟩) R ops hops hR hRc hsub hnd
  refine ⟨y, h1, h2, ?_⟩
  have : data = fun k => (held.map fun h => relabel h.1 R h.2 k).sum := by
    funext k
    have := h4 k
    rw [vsum_eq] at this
    exact (Option.some.inj this).symm
  rwa [← this]

/-- **C123.** `map` applies the user's function to every value of a variable, with the numbers
given after it. -/
theorem map_correct (f : Fn) (nr : List ℚ → ℚ) (junk : List ℕ → ℝ) (x : Var ℝ)
    (data : List ℕ → ℝ) (hx : Contains x data) (hc : Clean x.axes) (hnd : x.axes.Nodup)
    (cs : List ℝ) (hf : ∀ l : List ℝ, l.length = cs.length + 1 → ∃ y, f l = some y) :
    ∃ y data', mapVar f nr junk x (cs.map .number) [] = some (.var y) ∧ y.axes = x.axes ∧
      Contains y data' ∧
      ∀ k, InBounds (x.axes.map Axis.len) k → f (data k :: cs) = some (data' k) := by
  have h0 : ∀ cs : List ℝ, (cs.map Arg.number).mapM Arg.operand? = some (cs.map Operand.scalar) := by
    intro cs
    induction cs with
    | nil => rfl
    | cons c cs ih => simp [List.mapM_cons, Arg.operand?, ih]
  have hops : (Arg.var x :: cs.map Arg.number).mapM Arg.operand? =
      some (operand x :: cs.map Operand.scalar) := by
    simp [List.mapM_cons, Arg.operand?, h0 cs]
  have hheld : ∀ cs : List ℝ, List.Forall₂ StandsFor (cs.map Arg.number)
      (cs.map fun c => (([] : List Axis), fun _ : List ℕ => c)) := by
    intro cs
    induction cs with
    | nil => exact .nil
    | cons c cs ih => exact .cons (.number c) ih
  have hax : ∀ cs : List ℝ, (cs.map (Operand.scalar (α := ℝ))).filterMap Operand.axes? = [] := by
    intro cs
    induction cs with
    | nil => rfl
    | cons c cs ih => simp [Operand.axes?, ih]
  have hR : ufuncAxes (operand x :: cs.map Operand.scalar) = some x.axes := by
    unfold ufuncAxes
    rw [List.filterMap_cons, hax cs]
    rfl
  obtain ⟨y, data', h1, h2, h3, h4⟩ := func_partial f nr junk (.var x :: cs.map .number)
    ((x.axes, data) :: cs.map fun c => ([], fun _ => c)) (.cons (.var x data hx) (hheld cs))
    (by simpa using hf) x.axes _ hops hR hc
    (by
      intro h hh a ha
      rcases List.mem_cons.1 hh with rfl | hh
      · exact ha
      · obtain ⟨c, _, rfl⟩ := List.mem_map.1 hh
        cases ha)
    (by
      intro h hh
      rcases List.mem_cons.1 hh with rfl | hh
      · exact hnd
      · obtain ⟨c, _, rfl⟩ := List.mem_map.1 hh
        exact List.nodup_nil)
  refine ⟨y, data', ?_, h2, h3, fun k hk => ?_⟩
  · unfold mapVar
    rw [if_pos rfl]
    exact h1
  · have := h4 k
    rw [List.map_cons, List.map_map] at this
    have hkl : k.length = x.axes.length := by simpa using hk.length_eq
    have e : cs.map ((fun h : List Axis × (List ℕ → ℝ) => relabel h.1 x.axes h.2 k) ∘
        fun c => (([] : List Axis), fun _ : List ℕ => c)) = cs := by
      conv_rhs => rw [← List.map_id cs]
      rfl
    rw [e] at this
    have e2 : relabel x.axes x.axes data k = data k := relabel_self hnd _ k hkl
    rw [← this]
    exact congrArg (fun v => f (v :: cs)) e2.symm

/-- **C123, violated.** The documentation of `map` says that keywords are passed to the
function; any keyword makes the call fail. -/
theorem map_keywords_violated (f : Fn) (nr : List ℚ → ℚ) (junk : List ℕ → ℝ) (x : Var ℝ)
    (args : List Arg) (kw : List String) (h : kw ≠ []) : mapVar f nr junk x args kw = none := by
  unfold mapVar
  rw [if_neg h]

/-- **C123, violated.** Any argument which is not a number or a variable - an array, say - gives
`NotImplemented` instead of a variable or an error. -/
theorem map_array_violated (f : Fn) (nr : List ℚ → ℚ) (junk : List ℕ → ℝ) (x : Var ℝ)
    (args : List Arg) (h : Arg.other ∈ args) :
    mapVar f nr junk x args [] = some .notImplemented := by
  have : ∀ args : List Arg, Arg.other ∈ args → args.mapM Arg.operand? = none := by
    intro args h
    induction args with
    | nil => cases h
    | cons a args ih =>
      rcases List.mem_cons.1 h with rfl | h
      · simp [List.mapM_cons, Arg.operand?]
      · simp [List.mapM_cons, ih h]
  unfold mapVar makeUfunc
  rw [if_pos rfl, this _ (List.mem_cons_of_mem _ h)]

/-! ## Examples -/

/-- A variable along two axes. -/
noncomputable def tableEx : Var ℝ :=
  { axes := [timeEx 3, lonEx]
    src := .values ⟨[3, lonEx.len], fun k => 10 * (k.getD 0 0 : ℝ) + (k.getD 1 0 : ℝ)⟩ }

theorem tableEx_contains : Contains tableEx fun k => 10 * (k.getD 0 0 : ℝ) + (k.getD 1 0 : ℝ) :=
  ⟨rfl, fun _ _ => rfl⟩

/-- .. and one along one of them. -/
noncomputable def rowEx : Var ℝ :=
  { axes := [lonEx], src := .values ⟨[lonEx.len], fun k => (k.getD 0 0 : ℝ) ^ 2⟩ }

theorem rowEx_contains : Contains rowEx fun k => (k.getD 0 0 : ℝ) ^ 2 := ⟨rfl, fun _ _ => rfl⟩

theorem tableEx_regular : Regular tableEx.axes :=
  ⟨by show ∀ a ∈ [timeEx 3, lonEx], a.classes ≠ []; decide +kernel,
   by show [timeEx 3, lonEx].Pairwise _; decide +kernel⟩

/-- The sum of the two and a number: the hypotheses of `vsum_correct` are met. -/
example (nr : List ℚ → ℚ) (junk : List ℕ → ℝ) :
    ∃ y, makeUfunc vsum nr junk [.var rowEx, .number 7, .var tableEx] = some (.var y) ∧
      y.axes = [timeEx 3, lonEx] ∧ Contains y fun k => (k.getD 1 0 : ℝ) ^ 2 +
        (7 + (10 * (k.getD 0 0 : ℝ) + (k.getD 1 0 : ℝ))) := by
  obtain ⟨y, h1, h2, h3⟩ := vsum_correct nr junk [.var rowEx, .number 7, .var tableEx]
    [([lonEx], _), ([], _), ([timeEx 3, lonEx], _)]
    (.cons (.var rowEx _ rowEx_contains) (.cons (.number 7) (.cons (.var tableEx _ tableEx_contains) .nil)))
    [timeEx 3, lonEx] _ rfl
    (by
      show combineAxes [[lonEx], [timeEx 3, lonEx]] = _
      decide +kernel)
    tableEx_regular.clean (by simp) (by
      have := tableEx_regular.nodup
      intro h hh
      simp only [List.mem_cons, List.not_mem_nil, or_false] at hh
      rcases hh with rfl | rfl | rfl
      · simp
      · simp
      · exact this)
  refine ⟨y, h1, h2, ?_⟩
  have e : ∀ k, (([([lonEx], fun k : List ℕ => (k.getD 0 0 : ℝ) ^ 2), ([], fun _ => 7),
      ([timeEx 3, lonEx], fun k => 10 * (k.getD 0 0 : ℝ) + (k.getD 1 0 : ℝ))] :
      List (List Axis × (List ℕ → ℝ))).map fun h => relabel h.1 [timeEx 3, lonEx] h.2 k).sum =
      (k.getD 1 0 : ℝ) ^ 2 + (7 + (10 * (k.getD 0 0 : ℝ) + (k.getD 1 0 : ℝ))) := by
    intro k
    have i1 : [timeEx 3, lonEx].idxOf lonEx = 1 := by decide +kernel
    have i0 : [timeEx 3, lonEx].idxOf (timeEx 3) = 0 := by decide +kernel
    simp only [List.map_cons, List.map_nil, relabel, i1, i0, List.sum_cons, List.sum_nil,
      List.getD_cons_zero, List.getD_cons_succ, add_zero]
  exact (funext e) ▸ h3

/-- `map` with a user's function of two numbers: the hypotheses of `map_correct` are met. -/
example (nr : List ℚ → ℚ) (junk : List ℕ → ℝ) :
    ∃ y data', mapVar (binary fun v q => v - q) nr junk tableEx [.number 4] [] = some (.var y) ∧
      y.axes = [timeEx 3, lonEx] ∧ Contains y data' ∧ data' [2, 1] = 17 := by
  obtain ⟨y, d, h1, h2, h3, h4⟩ := map_correct (binary fun v q => v - q) nr junk tableEx _
    tableEx_contains tableEx_regular.clean tableEx_regular.nodup [4] (by
      intro l hl
      match l, hl with
      | [a, b], _ => exact ⟨_, rfl⟩)
  refine ⟨y, d, h1, h2, h3, ?_⟩
  have := h4 [2, 1] (by
    show InBounds [3, lonEx.len] [2, 1]
    exact .cons (by decide) (.cons (by decide +kernel) .nil))
  simp only [binary, List.getD_cons_zero, List.getD_cons_succ, Option.some.injEq] at this
  rw [← this]; norm_num

end Functions
end PyGeode
