/-
Property C140: means, standard deviations and counts of variables over seasons.
-/
import Verif.Props.Seasonal

namespace PyGeode
namespace Seasonal
open Spec Calendar NArr Axis Combine VarOps TimeInit ClimVar
variable {α β : Type}

def ysFields : List Name := ["year".toList, "season".toList]

/-! ### the axis -/

theorem getD_cast (l : List (ℤ × ℤ)) (f : ℤ × ℤ → ℤ) (hf : f (0, 0) = 0) (i : ℕ) : ⌊(l.map fun d => ((f d : ℤ) : ℚ)).getD i 0⌋ = f (l.getD i (0, 0)) := by
  rw [List.getD_eq_getElem?_getD, List.getD_eq_getElem?_getD, List.getElem?_map]
  cases l[i]? with
  | none => simp [hf]
  | some d => simp

theorem axis_dateAt (nr : List ℚ → ℚ) (cls : Name) (a : SAx) (i : ℕ) :
    dateAt (axis nr cls a) ysFields i = [(a.dates.getD i (0, 0)).1, (a.dates.getD i (0, 0)).2] := by
  have h1 : (axis nr cls a).auxarrays.lookup "year".toList = some (a.dates.map fun d => (d.1 : ℚ)) := rfl
  have h2 : (axis nr cls a).auxarrays.lookup "season".toList = some (a.dates.map fun d => (d.2 : ℚ)) := rfl
  unfold dateAt ysFields
  rw [List.map_cons, List.map_cons, List.map_nil, h1, h2, Option.getD_some, Option.getD_some, getD_cast a.dates Prod.fst rfl, getD_cast a.dates Prod.snd rfl]

theorem axis_rows (nr : List ℚ → ℚ) (cls : Name) (a : SAx) (hl : a.values.length = a.dates.length) :
    rowsOf (axis nr cls a) ysFields = a.dates.map fun d => [d.1, d.2] := by
  rw [rowsOf_eq]
  have : (axis nr cls a).len = a.dates.length := hl
  rw [this]
  refine List.ext_getElem (by simp) fun i h1 h2 => ?_
  rw [List.getElem_map, List.getElem_map, List.getElem_range, axis_dateAt nr cls a, List.getD_eq_getElem a.dates _ (by simpa using h2)]

theorem uniquify_spec (S : List (ℤ × ℤ)) : (uniquify S).Pairwise SeasonLt ∧ (∀ ys, ys ∈ uniquify S ↔ ys ∈ S) ∧
    ((uniquify S).map fun d => [d.1, d.2]) = Climat.uniquifySorted (S.map fun d => [d.1, d.2]) := by
  have hw : ∀ r ∈ (S.map fun d : ℤ × ℤ => [d.1, d.2]), r.length = 2 := by
    intro r hr; obtain ⟨d, _, rfl⟩ := List.mem_map.1 hr; rfl
  have hp : (S.map fun d : ℤ × ℤ => [d.1, d.2]).map (Climat.project (List.range 2)) = S.map fun d => [d.1, d.2] := by
    conv_rhs => rw [← List.map_id (S.map fun d : ℤ × ℤ => [d.1, d.2])]
    exact List.map_congr_left fun r hr => project_range (hw r hr)
  obtain ⟨h1, h2⟩ := Climat.outTime_correct (List.range 2) (S.map fun d : ℤ × ℤ => [d.1, d.2])
  unfold Climat.outTime at h1 h2
  rw [hp] at h1 h2
  have hmem : ∀ r ∈ Climat.uniquifySorted (S.map fun d : ℤ × ℤ => [d.1, d.2]), ∃ d ∈ S, r = [d.1, d.2] := by
    intro r hr
    obtain ⟨r', h3, h4⟩ := (h2 r).1 hr
    have h5 : keptFields (List.range 2) r' = r' := project_range (hw r' h3)
    rw [h5] at h4
    subst h4
    obtain ⟨d, hd, rfl⟩ := List.mem_map.1 h3
    exact ⟨d, hd, rfl⟩
  unfold uniquify
  set R := Climat.uniquifySorted (S.map fun d : ℤ × ℤ => [d.1, d.2]) with hR
  refine ⟨?_, ?_, ?_⟩
  · rw [List.pairwise_map]
    refine List.Pairwise.imp_of_mem ?_ h1
    intro r r' hr hr' hlt
    obtain ⟨d, _, rfl⟩ := hmem r hr
    obtain ⟨d', _, rfl⟩ := hmem r' hr'
    rw [List.cons_lt_cons_iff, List.cons_lt_cons_iff] at hlt
    rcases hlt with h | ⟨h, h' | ⟨_, h'⟩⟩
    · exact Or.inl h
    · exact Or.inr ⟨h, h'⟩
    · exact absurd h' (lt_irrefl _)
  · intro ys
    rw [List.mem_map]
    constructor
    · rintro ⟨r, hr, rfl⟩
      obtain ⟨d, hd, rfl⟩ := hmem r hr
      exact hd
    · intro hys
      refine ⟨[ys.1, ys.2], (h2 _).2 ⟨[ys.1, ys.2], List.mem_map.2 ⟨ys, hys, rfl⟩, project_range rfl⟩, rfl⟩
  · rw [List.map_map]
    conv_rhs => rw [← List.map_id R]
    refine List.map_congr_left fun r hr => ?_
    obtain ⟨d, _, rfl⟩ := hmem r hr
    rfl

theorem vals_increase {c : Cal} (hc : c = .noleap ∨ c = .standard) (u : Units) (s : Date) {S : List (ℤ × ℤ)} (h : ∀ ys ∈ S, Numbered ys)
    (ho : S.Pairwise SeasonLt) : (S.map (valOf c u s)).Pairwise (· < ·) := by
  rw [List.pairwise_map]
  refine List.Pairwise.imp_of_mem ?_ ho
  intro a b ha hb hlt
  have := ((count_ok c).abs_lt_iff (middle_ok hc (h a ha)).1 (middle_ok hc (h b hb)).1).2 (middle_earlier hlt)
  unfold valOf
  have h1 : (((Calendar.count c).abs (middle a) - (Calendar.count c).abs s : ℤ) : ℚ) < (((Calendar.count c).abs (middle b) - (Calendar.count c).abs s : ℤ) : ℚ) := by
    exact_mod_cast (by omega : (Calendar.count c).abs (middle a) - (Calendar.count c).abs s < (Calendar.count c).abs (middle b) - (Calendar.count c).abs s)
  exact div_lt_div_of_pos_right h1 (ticks_pos u)

/-- the class of the seasonal axes of a calendar -/
theorem class_some {c : Cal} (hc : c = .noleap ∨ c = .standard) : ∃ cls, seasonalClass c = some cls ∧
    (cls = "SeasonalStandardTime".toList ∨ cls = "SeasonalModelTime365".toList) := by
  rcases hc with rfl | rfl
  · exact ⟨_, rfl, Or.inr rfl⟩
  · exact ⟨_, rfl, Or.inl rfl⟩

theorem allowed_seasonal (nr : List ℚ → ℚ) {cls : Name} (h : cls = "SeasonalStandardTime".toList ∨ cls = "SeasonalModelTime365".toList) (a : SAx) :
    allowedFields (axis nr cls a) = ysFields := by
  unfold allowedFields
  refine if_pos ?_
  rcases h with rfl | rfl
  · exact Or.inl (List.mem_cons_self ..)
  · exact Or.inr (List.mem_cons_self ..)

theorem common_seasonal (nr : List ℚ → ℚ) {cls : Name} (h : cls = "SeasonalStandardTime".toList ∨ cls = "SeasonalModelTime365".toList) (a b : SAx) :
    Common nr ysFields (axis nr cls a) (axis nr cls b) := by
  intro sel
  unfold commonFields
  rw [allowed_seasonal nr h]
  unfold hasField
  rw [sliceAxis_keys]
  rfl

theorem good_seasonal (nr : List ℚ → ℚ) (cls : Name) {c : Cal} (hc : c = .noleap ∨ c = .standard) (u : Units) (s : DateDict) (S : List (ℤ × ℤ))
    (h : ∀ ys ∈ S, Numbered ys) :
    GoodOut ysFields (axis nr cls ⟨c, u, s, true, S, S.map (valOf c u (instant s))⟩)
      (axis nr cls ⟨c, u, s, true, uniquify S, (uniquify S).map (valOf c u (instant s))⟩) := by
  obtain ⟨h1, h2, h3⟩ := uniquify_spec S
  have hn : ∀ ys ∈ uniquify S, Numbered ys := fun ys hys => h ys ((h2 ys).1 hys)
  have hi := vals_increase hc u (instant s) hn h1
  refine ⟨rfl, rfl, ?_, hi.imp fun h => ne_of_lt h, hi, ?_⟩
  · intro f arr harr
    have hlen : (axis nr cls ⟨c, u, s, true, uniquify S, (uniquify S).map (valOf c u (instant s))⟩).len = (uniquify S).length := by
      simp [axis, Axis.len]
    rw [hlen]
    have hm : (f, arr) ∈ (axis nr cls ⟨c, u, s, true, uniquify S, (uniquify S).map (valOf c u (instant s))⟩).auxarrays := by
      obtain ⟨l1, l2, e, _⟩ := List.lookup_eq_some_iff.1 harr
      rw [e]; simp
    simp only [axis, List.mem_cons, Prod.mk.injEq, List.not_mem_nil, or_false] at hm
    rcases hm with ⟨_, rfl⟩ | ⟨_, rfl⟩ <;> simp
  · rw [axis_rows _ _ _ (by simp), axis_rows _ _ _ (by simp)]
    exact h3

/-! ### variables -/

/-- replacing the time axis by one of a subclass keeps the axes of different kinds -/
theorem regular_sub {A : List Axis} {ti : ℕ} {t t' : Axis} {cls : Name} (ht : A[ti]? = some t) (hcl : t'.classes = cls :: t.classes)
    (hno : ∀ a ∈ A, cls ∉ a.classes) (hr : Regular A) : Regular (A.set ti t') := by
  obtain ⟨hti, rfl⟩ := List.getElem?_eq_some_iff.1 ht
  have key : ∀ a ∈ A, a.classes ≠ [] → Axis.compatible A[ti] a = false → Axis.compatible t' a = false := by
    intro a ha hne h
    have h0 := hno a ha
    unfold Axis.compatible Axis.isParentOf at h ⊢
    rw [Bool.or_eq_false_iff, decide_eq_false_iff_not, decide_eq_false_iff_not] at h ⊢
    rw [hcl]
    refine ⟨h0, ?_⟩
    rw [List.mem_cons, not_or]
    refine ⟨fun e => h0 ?_, h.2⟩
    rw [← e]
    obtain ⟨b, l, hb⟩ := List.exists_cons_of_ne_nil hne
    rw [hb]; simp
  have symm : ∀ a b : Axis, Axis.compatible a b = Axis.compatible b a := fun a b => Bool.or_comm _ _
  constructor
  · intro a ha
    rcases List.mem_or_eq_of_mem_set ha with h | rfl
    · exact hr.cls a h
    · rw [hcl]; simp
  · have hp := hr.inc
    rw [List.pairwise_iff_getElem] at hp ⊢
    intro i j hi hj hij
    have hi' : i < A.length := by simpa using hi
    have hj' : j < A.length := by simpa using hj
    have := hp i j hi' hj' hij
    rw [List.getElem_set, List.getElem_set]
    split_ifs with e1 e2 e2
    · omega
    · subst e1
      exact key _ (List.getElem_mem _) (hr.cls _ (List.getElem_mem _)) this
    · subst e2
      rw [symm] at this ⊢
      exact key _ (List.getElem_mem _) (hr.cls _ (List.getElem_mem _)) this
    · exact this

theorem seasonal_views {nr : List ℚ → ℚ} (junk : List ℕ → α) (junk' : List ℕ → β) {n : Name} {T : Cf.TimeAx} {x : Var α} {ti : ℕ} {data : List ℕ → α}
    (hx : SeasonInput nr n T x ti) (hc : Contains x data) (getview : Var α → Axis → ℕ → View Axis → Option (NArr β)) (op : List α → β)
    (h : ∀ (x' : Var α) (t out : Axis), TimeAt x' ti t → Contains x' data → GoodOut ysFields t out → Common nr ysFields t out →
      ∀ I, InRange ((x'.axes.set ti out).map Axis.len) I → (∀ ind ∈ I, ind ≠ []) → (I.getD ti []).Nodup →
        ∃ r, getview x' t ti ⟨x'.axes.set ti out, I⟩ = some r ∧ IsRead (fun K => op (together t out ysFields ti data K)) I r) :
    ∃ S out y, seasonalOp nr junk junk' T x getview = some y ∧ IsSeasonal T.cal T.units (instant T.start) S out ∧
      (∀ ys, ys ∈ S ↔ ∃ d ∈ T.dates, seasonAt (instant d) = ys) ∧ y.axes = x.axes.set ti out ∧
      Shows nr y fun K => op (ofSeason T.dates ti data (S.getD (K.getD ti 0) (0, 0)) K) := by
  obtain ⟨cls, hcls, hcls'⟩ := class_some hx.cal
  set t := CfFile.timeAxis nr n T with ht
  set S := T.dates.map (fun d => seasonAt (instant d)) with hS
  have hN : ∀ ys ∈ S, Numbered ys := by
    intro ys hys
    obtain ⟨d, _, rfl⟩ := List.mem_map.1 hys
    exact seasonAt_numbered _
  obtain ⟨hu1, hu2, hu3⟩ := uniquify_spec S
  have hNu : ∀ ys ∈ uniquify S, Numbered ys := fun ys hys => hN ys ((hu2 ys).1 hys)
  have hvals : t.values = T.dates.map fun d =>
      (((Calendar.count T.cal).abs (instant d) - (Calendar.count T.cal).abs (instant T.start) : ℤ) : ℚ) / ticks T.units := by
    rw [ht, timeAxis_values hx.start.month fun d hd => (hx.dates d hd).1, unit_ticks]
    rfl
  have hst : startOf T.start true = instant T.start := by
    obtain ⟨y, hy⟩ := Option.isSome_iff_exists.1 hx.year
    simp only [startOf, if_true, instant, hy, Option.getD_some]
  have hfill : fill T.start = instant T.start := hst
  have hsd : instant (fullDate (instant T.start)) = instant T.start := rfl
  set A : SAx := ⟨T.cal, T.units, fullDate (instant T.start), true, S, S.map (valOf T.cal T.units (instant (fullDate (instant T.start))))⟩ with hA
  set B : SAx := ⟨T.cal, T.units, fullDate (instant T.start), true, uniquify S,
    (uniquify S).map (valOf T.cal T.units (instant (fullDate (instant T.start))))⟩ with hB
  have hin : ofValues T.cal T.units T.start t.values = some A := by
    have := ofValues_eq (c := T.cal) (u := T.units) (s := T.start) (vals := t.values) (dates := T.dates.map instant) (by rw [hst]; exact hx.start) hx.cal (by
      rw [hvals, List.forall₂_map_left_iff, List.forall₂_map_right_iff, List.forall₂_same]
      intro d hd
      refine ⟨hx.dates d hd, _, rfl, ?_⟩
      rw [hst, elapsed_iff hx.start (hx.dates d hd).1])
    rw [this, hst, List.map_map]
    rfl
  have hout : ofFields T.cal T.units (some T.start) true (uniquify S) = some B := by
    have := finish_eq hx.cal (s := fullDate (instant T.start)) (by rw [hsd]; exact hx.start) T.units (years := true) hNu (by simp)
    rw [ofFields]
    simp only [if_true]
    rw [hfill]
    exact this
  have hti : ti < x.axes.length := (List.getElem?_eq_some_iff.1 hx.at_.time).1
  have htm : t ∈ x.axes := List.mem_of_getElem? hx.at_.time
  have hinp : TimeInput x ti t := ⟨hx.at_, hx.fresh t htm⟩
  have hclA : ∀ a : SAx, a.cal = T.cal → (axis nr cls a).classes = cls :: t.classes := by
    rintro a e
    rw [ht]
    simp only [axis, CfFile.timeAxis, e]
  have hno : ∀ a ∈ x.axes, cls ∉ a.classes := by
    intro a ha
    rcases hcls' with rfl | rfl
    · exact (hx.fresh a ha).1
    · exact (hx.fresh a ha).2
  have hlen : (axis nr cls A).len = t.len := by
    rw [Axis.len, Axis.len, hvals]
    simp [axis, hA, hS]
  have hrep : x.axes.map Axis.len = (x.axes.set ti (axis nr cls A)).map Axis.len := by
    refine List.ext_getElem (by simp) fun j h1 h2 => ?_
    rw [List.getElem_map, List.getElem_map, List.getElem_set]
    split_ifs with e
    · subst e
      rw [hlen, (List.getElem?_eq_some_iff.1 hx.at_.time).2]
    · rfl
  obtain ⟨x', hx'⟩ : ∃ x', replaceAxes nr junk x (x.axes.set ti (axis nr cls A)) = some x' := by
    rw [← Option.isSome_iff_exists, Option.isSome_iff_ne_none]
    exact fun h0 => (replaceAxes_refused nr junk x _).1 h0 hrep
  obtain ⟨hax, hcx⟩ := replaceAxes_correct nr junk x x' _ data hc hx.at_.reg hx'
  have hat : TimeAt x' ti (axis nr cls A) := by
    refine ⟨?_, ?_, ?_, ?_, ?_, ?_⟩
    · rw [hax]; exact regular_sub hx.at_.time (hclA A rfl) hno hx.at_.reg
    · rw [hax, List.getElem?_set_self hti]
    · rw [hlen]; exact hx.at_.pos
    · rw [hclA A rfl]; exact List.mem_cons_of_mem _ hx.at_.cal
    · intro j a hj ha
      rw [hax, List.getElem?_set_ne (by omega)] at ha
      exact hx.at_.only j a hj ha
    · intro j a hj ha
      rw [hax, List.getElem?_set_ne (by omega)] at ha
      exact hx.at_.sep j a hj ha
  have hg := good_seasonal nr cls hx.cal T.units (fullDate (instant T.start)) S hN
  have hcom := common_seasonal nr hcls' A B
  have hyax : x'.axes.set ti (axis nr cls B) = x.axes.set ti (axis nr cls B) := by rw [hax, List.set_set]
  refine ⟨uniquify S, axis nr cls B, Var.ofView junk' (x'.axes.set ti (axis nr cls B)) (getview x' (axis nr cls A) ti), ?_, ?_, ?_, hyax, ?_⟩
  · unfold seasonalOp
    rw [found_time hinp, Option.bind_some, hx.at_.time, Option.bind_some]
    unfold outTime inTime
    rw [hcls, Option.bind_some, Option.bind_some, hin, Option.bind_some, hout, Option.map_some, Option.bind_some, Option.map_some, Option.bind_some, hx']
    rfl
  · exact ⟨hu1, rfl, values_elapsed hx.cal hx.start T.units hNu⟩
  · intro ys
    rw [hu2, hS, List.mem_map]
  · have hfun : (fun K => op (ofSeason T.dates ti data ((uniquify S).getD (K.getD ti 0) (0, 0)) K)) =
        fun K => op (together (axis nr cls A) (axis nr cls B) ysFields ti data K) := by
      funext K
      unfold ofSeason together
      rw [axis_dateAt]
      congr 2
      unfold inSeason timesLike
      have : (axis nr cls A).len = T.dates.length := by rw [hlen, Axis.len, hvals, List.length_map]
      rw [this]
      refine List.filter_congr fun i hi => ?_
      have hi : i < T.dates.length := List.mem_range.1 hi
      rw [axis_dateAt]
      have hS' : A.dates.getD i (0, 0) = seasonAt (instant T.dates[i]) := by
        have : A.dates = T.dates.map (fun d => seasonAt (instant d)) := rfl
        rw [this, List.getD_eq_getElem (T.dates.map _) _ (by simpa using hi), List.getElem_map]
      rw [hS', List.getElem?_eq_getElem hi, Option.map_some]
      have hB' : B.dates = uniquify S := rfl
      rw [hB']
      refine decide_eq_decide.2 ?_
      rw [Option.some.injEq, List.cons.injEq, List.cons.injEq, Prod.ext_iff]
      simp
    rw [hfun]
    have hreg : Regular (x.axes.set ti (axis nr cls B)) := regular_sub hx.at_.time (hclA B rfl) hno hx.at_.reg
    refine Views.shows ⟨junk', getview x' (axis nr cls A) ti, rfl, ?_⟩ (by rw [← hyax] at hreg; exact hreg)
    intro I hI hJ
    have hl : I.length = x.axes.length := by simpa [Var.ofView, hax] using hI.length_eq
    refine h x' _ _ hat hcx hg hcom I hI (fun ind hind => (hJ ind hind).1) ?_
    rw [List.getD_eq_getElem _ _ (by omega)]
    exact (hJ _ (List.getElem_mem _)).2.imp fun h => Nat.ne_of_lt h

/-! ### C140: the operations -/

/-- C140: a seasonal mean has one time for each season in which there is a date, in order, at the middle of the season; its value is the mean of the values
at the dates in that season, December being counted with the following January and February. -/
theorem mean_partial (nr : List ℚ → ℚ) (junk : List ℕ → ℚ) (limit : ℕ) (n : Name) (T : Cf.TimeAx) (x : Var ℚ) (ti : ℕ) (data : List ℕ → ℚ)
    (hl : 1 ≤ limit) (hx : SeasonInput nr n T x ti) (hc : Contains x data) :
    ∃ S out y, mean nr junk limit T x = some y ∧ IsSeasonal T.cal T.units (instant T.start) S out ∧
      (∀ ys, ys ∈ S ↔ ∃ d ∈ T.dates, seasonAt (instant d) = ys) ∧ y.axes = x.axes.set ti out ∧
      Shows nr y fun K => avg (ofSeason T.dates ti data (S.getD (K.getD ti 0) (0, 0)) K) :=
  seasonal_views junk junk hx hc _ avg fun _ _ _ hx' hc' g hcom _ hI hne hnd => mean_view junk hl hx' hc' g hcom (by simp [ysFields]) hI hne hnd

/-- C140: the mean of those of the values that are numbers; NaN if there is none. -/
theorem nanmean_partial (nr : List ℚ → ℚ) (junk : List ℕ → Option ℚ) (limit : ℕ) (n : Name) (T : Cf.TimeAx) (x : Var (Option ℚ)) (ti : ℕ)
    (data : List ℕ → Option ℚ) (hl : 1 ≤ limit) (hx : SeasonInput nr n T x ti) (hc : Contains x data) :
    ∃ S out y, nanmean nr junk limit T x = some y ∧ IsSeasonal T.cal T.units (instant T.start) S out ∧
      (∀ ys, ys ∈ S ↔ ∃ d ∈ T.dates, seasonAt (instant d) = ys) ∧ y.axes = x.axes.set ti out ∧
      Shows nr y fun K => if valid (ofSeason T.dates ti data (S.getD (K.getD ti 0) (0, 0)) K) = [] then none
        else some (avg (valid (ofSeason T.dates ti data (S.getD (K.getD ti 0) (0, 0)) K))) :=
  seasonal_views junk junk hx hc _ (fun l => if valid l = [] then none else some (avg (valid l))) fun _ _ _ hx' hc' g hcom _ hI hne hnd =>
    nanMean_view junk hl hx' hc' g hcom (by simp [ysFields]) hI hne hnd

/-- C140: the number of the values that are numbers. -/
theorem count_partial (nr : List ℚ → ℚ) (junk : List ℕ → Option ℚ) (junk' : List ℕ → ℕ) (limit : ℕ) (n : Name) (T : Cf.TimeAx) (x : Var (Option ℚ)) (ti : ℕ)
    (data : List ℕ → Option ℚ) (hl : 1 ≤ limit) (hx : SeasonInput nr n T x ti) (hc : Contains x data) :
    ∃ S out y, count nr junk junk' limit T x = some y ∧ IsSeasonal T.cal T.units (instant T.start) S out ∧
      (∀ ys, ys ∈ S ↔ ∃ d ∈ T.dates, seasonAt (instant d) = ys) ∧ y.axes = x.axes.set ti out ∧
      Shows nr y fun K => (valid (ofSeason T.dates ti data (S.getD (K.getD ti 0) (0, 0)) K)).length :=
  seasonal_views junk junk' hx hc _ (fun l => (valid l).length) fun _ _ _ hx' hc' g hcom _ hI hne hnd =>
    count_view junk hl hx' hc' g hcom (by simp [ysFields]) hI hne hnd

/-- C140: the square of a standard deviation is the sample variance of the values in the season (for at least two; the code gives NaN for one). -/
theorem variance_partial (nr : List ℚ → ℚ) (junk : List ℕ → ℚ) (limit : ℕ) (n : Name) (T : Cf.TimeAx) (x : Var ℚ) (ti : ℕ) (data : List ℕ → ℚ)
    (hl : 1 ≤ limit) (hx : SeasonInput nr n T x ti) (hc : Contains x data) :
    ∃ S out y, variance nr junk limit T x = some y ∧ IsSeasonal T.cal T.units (instant T.start) S out ∧
      (∀ ys, ys ∈ S ↔ ∃ d ∈ T.dates, seasonAt (instant d) = ys) ∧ y.axes = x.axes.set ti out ∧
      Shows nr y fun K => svar (ofSeason T.dates ti data (S.getD (K.getD ti 0) (0, 0)) K) :=
  seasonal_views junk junk hx hc _ svar fun _ _ _ hx' hc' g hcom _ hI hne hnd => variance_view junk hl hx' hc' g hcom (by simp [ysFields]) hI hne hnd

/-- C140: the same of those of the values that are numbers (for at least two of them). -/
theorem nanvariance_partial (nr : List ℚ → ℚ) (junk : List ℕ → Option ℚ) (limit : ℕ) (n : Name) (T : Cf.TimeAx) (x : Var (Option ℚ)) (ti : ℕ)
    (data : List ℕ → Option ℚ) (hl : 1 ≤ limit) (hx : SeasonInput nr n T x ti) (hc : Contains x data) :
    ∃ S out y, nanvariance nr junk limit T x = some y ∧ IsSeasonal T.cal T.units (instant T.start) S out ∧
      (∀ ys, ys ∈ S ↔ ∃ d ∈ T.dates, seasonAt (instant d) = ys) ∧ y.axes = x.axes.set ti out ∧
      Shows nr y fun K => if valid (ofSeason T.dates ti data (S.getD (K.getD ti 0) (0, 0)) K) = [] then none
        else some (svar (valid (ofSeason T.dates ti data (S.getD (K.getD ti 0) (0, 0)) K))) :=
  seasonal_views junk junk hx hc _ (fun l => if valid l = [] then none else some (svar (valid l))) fun _ _ _ hx' hc' g hcom _ hI hne hnd =>
    nanVariance_view junk hl hx' hc' g hcom (by simp [ysFields]) hI hne hnd

/-! ### examples -/

/-- four days of 2000 and one of 2001 on the 365-day calendar -/
def daysEx : Cf.TimeAx := ⟨.noleap, .days, { year := some 2000, month := some 1, day := some 1 },
  [{ year := some 2000, month := some 12, day := some 31 }, { year := some 2000, month := some 4, day := some 2 },
   { year := some 2000, month := some 2, day := some 28 }, { year := some 2000, month := some 5, day := some 31 },
   { year := some 2001, month := some 1, day := some 1 }]⟩

def seasonEx : Var ℚ := ⟨[CfFile.timeAxis nr0 "time".toList daysEx, mkEx [10, 20]], .values ⟨[5, 2], fun k => ((10 * k.getD 0 0 * k.getD 0 0 + k.getD 1 0 : ℕ) : ℚ)⟩⟩

theorem seasonEx_input : SeasonInput nr0 "time".toList daysEx seasonEx 0 := by
  refine ⟨⟨⟨by decide +kernel, by decide +kernel⟩, rfl, by decide +kernel, by decide +kernel, fun j a h => absurd h (by omega), ?_⟩, Or.inl rfl, rfl,
    by decide +kernel, by decide +kernel, by decide +kernel⟩
  intro j a hj h
  have hj1 : j < 2 := (List.getElem?_eq_some_iff.1 h).1
  have : j = 1 := by omega
  subst this
  have : a = mkEx [10, 20] := (Option.some.inj h).symm
  subst this
  exact ⟨by decide +kernel, separated_of (by decide +kernel)⟩

theorem seasonEx_contains : Contains seasonEx fun k => ((10 * k.getD 0 0 * k.getD 0 0 + k.getD 1 0 : ℕ) : ℚ) := by
  refine ⟨?_, fun k _ => rfl⟩
  decide +kernel

example : ∃ S out y, mean nr0 (fun _ => 0) 3 daysEx seasonEx = some y ∧ IsSeasonal .noleap .days (instant daysEx.start) S out ∧
    y.axes = seasonEx.axes.set 0 out := by
  obtain ⟨S, out, y, h1, h2, -, h4, -⟩ := mean_partial nr0 (fun _ => 0) 3 _ daysEx seasonEx 0 _ (by omega) seasonEx_input seasonEx_contains
  exact ⟨S, out, y, h1, h2, h4⟩

/-- winter 2000, spring 2000, winter 2001 -/
example : ((mean nr0 (fun _ => 0) 3 daysEx seasonEx).bind fun y => (y.read nr0 (fun _ => 0) ⟨y.axes, [[0, 1, 2], [0, 1]]⟩).map fun r =>
    (List.range 3).map fun i => (List.range 2).map fun j => r.get [i, j]) = some [[40, 41], [50, 51], [80, 81]] := by decide +kernel
example : ((mean nr0 (fun _ => 0) 3 daysEx seasonEx).map fun y => (y.axes.map Axis.values, (y.axes.map fun a => a.auxarrays.map Prod.snd))) =
    some ([[15, 104, 380], [10, 20]], [[[2000, 2000, 2001], [1, 2, 1]], []]) := by decide +kernel

end Seasonal
end PyGeode
