/-
Properties C108 and C109: anomalies and detrended series.
-/
import Verif.Props.TimeMatch

namespace PyGeode
namespace TimeMatch
open Spec NArr Axis Combine VarOps ClimVar
variable {α β : Type}

theorem isRead_congr {data data' : List ℕ → α} {I : List (List ℕ)} {r : NArr α} (h : IsRead data I r)
    (he : ∀ k, InBounds (I.map List.length) k → data (cell I k) = data' (cell I k)) : IsRead data' I r :=
  ⟨h.1, fun k hk => (h.2 k hk).trans (he k hk)⟩

theorem cell_getD {I : List (List ℕ)} {k : List ℕ} (hk : InBounds (I.map List.length) k) {i : ℕ} (hi : i < I.length) :
    (cell I k).getD i 0 ∈ I.getD i [] := by
  have hkl : k.length = I.length := by simpa using hk.length_eq
  have hb := (inBounds_iff.1 hk).2 i (by simpa using hi)
  rw [List.getD_eq_getElem (I.map List.length) _ (by simpa using hi), List.getElem_map, List.getD_eq_getElem k _ (by omega)] at hb
  unfold cell
  rw [List.getD_eq_getElem (List.zipWith _ I k) _ (by simp [hkl, hi]), List.getElem_zipWith, List.getD_eq_getElem I _ hi,
    List.getD_eq_getElem _ _ hb]
  exact List.getElem_mem _

theorem cell_length {I : List (List ℕ)} {k : List ℕ} (hk : InBounds (I.map List.length) k) : (cell I k).length = I.length := by
  have hkl : k.length = I.length := by simpa using hk.length_eq
  unfold cell; simp [hkl]

/-- the time axis of an average is coarser -/
theorem coarser_of {t out : Axis} {b : Bin} (g : GoodOut (fieldsKept t b) t out)
    (hp : "SeasonalStandardTime".toList ∉ t.classes ∧ "SeasonalModelTime365".toList ∉ t.classes)
    (htime : "Time".toList ∈ t.classes) (htag : t.auxatts.lookup "class".toList = none) (hn : Needs t b)
    (hless : ∃ f ∈ t.auxarrays.map Prod.fst, f ∉ fieldsKept t b)
    (hsame : ∀ i < t.len, ∀ j < t.len, t.values.getD i 0 = t.values.getD j 0 → dateAt t (fieldsKept t b) i = dateAt t (fieldsKept t b) j) :
    Coarser (fieldsKept t b) t out := by
  have hb := good_binned g
  refine ⟨g.cls, htime, hp, g.fields, kept_sublist t b, needs_ne hn, fun f hf => kept_mem hf, htag, hless, g.inc, hb.order, ?_, hsame⟩
  intro i hi
  obtain ⟨o, ho, e⟩ := List.mem_map.1 ((hb.same _).2 ⟨i, hi, rfl⟩)
  exact ⟨o, List.mem_range.1 ho, e⟩

/-- the cell of the date -/
theorem onDates_set {R : List Axis} (hR : Regular R) {ti : ℕ} {t out : Axis} (ht : R[ti]? = some t) (hcls : out.classes = t.classes)
    (hne : out ≠ t) (pos : ℕ → ℕ) {K : List ℕ} (hK : K.length = R.length) :
    onDates out ti pos (R.set ti out) R K = K.set ti (pos (K.getD ti 0)) := by
  obtain ⟨htl, hte⟩ := List.getElem?_eq_some_iff.1 ht
  have hout : out ∉ R := fun h => hne (classes_of_regular hR h (List.mem_of_getElem? ht) hcls)
  unfold onDates
  refine List.ext_getElem (by simp [hK]) fun i h1 h2 => ?_
  have hi : i < R.length := by simpa using h1
  rw [List.getElem_map, List.getElem_set, List.getElem_set]
  by_cases e : ti = i
  · rw [if_pos e, if_pos rfl, if_pos e]
  · rw [if_neg e, if_neg e, if_neg (fun h : R[i] = out => hout (h ▸ List.getElem_mem hi)), hR.nodup.idxOf_getElem i hi,
      List.getD_eq_getElem _ _ (by omega)]

theorem set_axes {R : List Axis} (hR : Regular R) {ti : ℕ} {t out : Axis} (ht : R[ti]? = some t) :
    ∀ a ∈ R.set ti out, a = out ∨ a ∈ R ∧ a ≠ t := by
  obtain ⟨htl, hte⟩ := List.getElem?_eq_some_iff.1 ht
  intro a ha
  obtain ⟨i, hi, rfl⟩ := List.getElem_of_mem ha
  rw [List.getElem_set]
  have hi' : i < R.length := by simpa using hi
  by_cases e : ti = i
  · rw [if_pos e]; exact Or.inl rfl
  · rw [if_neg e]
    refine Or.inr ⟨List.getElem_mem hi', fun h => e ?_⟩
    rw [← hte] at h
    exact ((hR.nodup.getElem_inj_iff).1 h).symm

/-- C108: the anomaly of a variable, `x - climatology(x)`, `x - dailymean(x)`, ...: at every time the value minus the mean of all values at
times of the same date. Requests for several times that all fall on the same date are left out (`same_date_violated`). -/
theorem anomaly_correct (nr : List ℚ → ℚ) (junk junk' : List ℕ → ℚ) (limit : ℕ) (mk : List (Name × List ℚ) → Axis) (b : Bin) (x : Var ℚ)
    (data : List ℕ → ℚ) (ti : ℕ) (t : Axis) (hl : 1 ≤ limit) (hx : TimeInput x ti t) (hc : Contains x data) (hm : Remakes t mk)
    (hn : Needs t b) (htime : "Time".toList ∈ t.classes) (htag : t.auxatts.lookup "class".toList = none)
    (hless : ∃ f ∈ t.auxarrays.map Prod.fst, f ∉ fieldsKept t b)
    (hsame : ∀ i < t.len, ∀ j < t.len, t.values.getD i 0 = t.values.getD j 0 → dateAt t (fieldsKept t b) i = dateAt t (fieldsKept t b) j) :
    ∃ y z, mean nr junk limit mk b x = some y ∧ ufunc minus nr junk junk' [x, y] = some z ∧ z.axes = x.axes ∧
      ∀ (junk'' : List ℕ → ℚ) (I : List (List ℕ)), InRange (x.axes.map Axis.len) I → DistinctReq I → SeveralDates (fieldsKept t b) t ti I →
        ∃ r, read nr junk'' z ⟨x.axes, I⟩ = some r ∧ IsRead (fun K => data K -
          avg ((timesLike t (fieldsKept t b) (dateAt t (fieldsKept t b) (K.getD ti 0))).map fun i : ℕ => data (K.set ti i))) I r := by
  obtain ⟨out, h1, g⟩ := outTime_good hx.plain hx.pos hm b hn
  obtain ⟨htl, hte⟩ := List.getElem?_eq_some_iff.1 hx.time
  have hco := coarser_of g hx.plain htime htag hn hless hsame
  choose! pos hp1 hp2 using hco.covers
  have hp : FallsOn (fieldsKept t b) t out pos := fun i hi => ⟨hp1 i hi, hp2 i hi⟩
  set y : Var ℚ := Var.ofView junk (x.axes.set ti out) (meanView nr limit t ti (x.read nr junk)) with hy
  have hye : mean nr junk limit mk b x = some y := by
    unfold mean timeOp
    rw [found_time hx, Option.bind_some, hx.time, Option.bind_some, h1]
    rfl
  have hyv : Views y fun K => avg (together t out (fieldsKept t b) ti data K) := by
    refine ⟨junk, _, rfl, fun I hI hti => mean_view junk hl hx.toTimeAt hc g (common_kept nr hx.plain g) (needs_ne hn) hI (fun ind hind => (hti ind hind).1) ?_⟩
    have hlen : I.length = x.axes.length := by simpa [hy, Var.ofView] using hI.length_eq
    rw [List.getD_eq_getElem _ _ (by omega)]
    exact (hti _ (List.getElem_mem _)).2.imp fun h => Nat.ne_of_lt h
  have hnd : y.axes.Nodup := (Along.regular_of_classes (Along.classes_set x.axes ti t out hx.time g.cls) hx.reg).nodup
  obtain ⟨z, z', e1, e2, e3, e4, e5⟩ := op_dates hco hp minus nr junk junk' x y data _ hx.time hx.reg hnd (set_axes hx.reg hx.time)
  refine ⟨y, z, hye, e1, e3, fun junk'' I hI hd hs => ?_⟩
  obtain ⟨⟨r, f1, f2⟩, -⟩ := e5 junk'' I hI hd (Or.inl hc) (Or.inr ⟨hyv, hs⟩)
  refine ⟨r, f1, isRead_congr f2 fun k hk => ?_⟩
  have hlen : I.length = x.axes.length := by simpa using hI.length_eq
  set K := cell I k with hK
  have hKl : K.length = x.axes.length := by rw [hK, cell_length hk, hlen]
  have hKt : K.getD ti 0 < t.len := by
    have h := inRange_getD hI (i := ti) (by simpa using htl) _ (cell_getD hk (i := ti) (by omega))
    rw [List.getD_eq_getElem (x.axes.map Axis.len) _ (by simpa using htl), List.getElem_map, hte] at h
    exact h
  have hon : onDates out ti pos y.axes x.axes K = K.set ti (pos (K.getD ti 0)) := onDates_set hx.reg hx.time g.cls (coarser_ne hco) pos hKl
  simp only [minus, List.getD_cons_zero, List.getD_cons_succ]
  rw [hon]
  unfold together
  have hg : (K.set ti (pos (K.getD ti 0))).getD ti 0 = pos (K.getD ti 0) := by
    rw [List.getD_eq_getElem _ _ (by simp; omega), List.getElem_set_self]
  rw [hg, (hp _ hKt).2]
  simp only [List.set_set]

/-! ### C109: detrending -/

/-- reading a variable in memory, some of whose axes the view has -/
theorem read_part {R : List Axis} (hR : Regular R) (nr : List ℚ → ℚ) (junk : List ℕ → α) (I : List (List ℕ)) (hI : InRange (R.map Axis.len) I)
    (hne : ∀ ind ∈ I, ind ≠ []) (y : Var α) (data : List ℕ → α) (hnd : y.axes.Nodup) (hsub : ∀ a ∈ y.axes, a ∈ R) (hc : Contains y data) :
    ∃ r, read nr junk y ⟨R, I⟩ = some r ∧
      ∀ k, InBounds (I.map List.length) k → r.get (bindex r.shape k) = data (y.axes.map fun a => (cell I k).getD (R.idxOf a) 0) := by
  have hlen : I.length = R.length := by simpa using hI.length_eq
  obtain ⟨r, h1, h2, h3⟩ := get_shared_axes_eqv axEq (viewMap nr) Axis.len junk ⟨R, I⟩ y.axes y.src data hlen.symm hR.nodup hnd hsub hI
    (fun a ha b hb => axEq_regular hR (hsub a ha) hb) hne hc
  refine ⟨r, h1, fun k hk => ?_⟩
  have hkl : k.length = I.length := by simpa using hk.length_eq
  have hsl : r.shape.length = I.length := by rw [h2]; simp [hlen]
  have hkb : ∀ i (hi : i < I.length), k.getD i 0 < (I.getD i []).length := by
    intro i hi
    have := (inBounds_iff.1 hk).2 i (by simpa using hi)
    rw [List.getD_eq_getElem (I.map List.length) _ (by simpa using hi), List.getElem_map, ← List.getD_eq_getElem I [] hi] at this
    exact this
  have hsh : ∀ i (hi : i < I.length), r.shape.getD i 0 = if R[i]'(by omega) ∈ y.axes then (I.getD i []).length else 1 := by
    intro i hi
    rw [h2, List.getD_eq_getElem _ _ (by simp [hlen]; omega), List.getElem_zipWith, List.getD_eq_getElem I _ hi]
  have hbi : ∀ i < I.length, (bindex r.shape k).getD i 0 = if r.shape.getD i 0 = 1 then 0 else k.getD i 0 := by
    intro i hi
    unfold bindex
    rw [List.getD_eq_getElem _ _ (by simp [hsl, hkl, hi]), List.getElem_zipWith,
      List.getD_eq_getElem r.shape _ (by omega), List.getD_eq_getElem k _ (by omega)]
  rw [h3 _ (by
    rw [inBounds_iff]
    refine ⟨by simp [bindex, hsl, hkl], fun i hi => ?_⟩
    have hi' : i < I.length := by omega
    rw [hbi i hi', hsh i hi']
    have := hkb i hi'
    split_ifs <;> omega)]
  congr 1
  refine List.map_congr_left fun a ha => ?_
  have hi := List.idxOf_lt_length_of_mem (hsub a ha)
  have hi' : R.idxOf a < I.length := by omega
  have hb := hbi _ hi'
  rw [hsh _ hi', List.getElem_idxOf, if_pos ha] at hb
  have hk1 := hkb _ hi'
  have hb' : (bindex r.shape k).getD (R.idxOf a) 0 = k.getD (R.idxOf a) 0 := by
    rw [hb]
    split_ifs with e
    · omega
    · rfl
  simp only
  rw [hb']
  unfold cell
  rw [List.getD_eq_getElem (List.zipWith _ I k) _ (by simp [hkl, hi']), List.getElem_zipWith, List.getD_eq_getElem I _ hi',
    List.getD_eq_getElem k _ (by omega)]

theorem foundAt_at {axes : List Axis} {id : AxisId} (hid : ∀ n, id ≠ .int n) {i : ℕ} {a : Axis} (ha : axes[i]? = some a)
    (h : Answers id a) (hb : ∀ (j : ℕ) a, j < i → axes[j]? = some a → ¬ Answers id a) : foundAt (whichaxis axes id) = some i := by
  rw [((whichaxis_correct axes id hid).1 i).2 ⟨⟨a, ha, h⟩, hb⟩]
  rfl

/-- combining a variable with one on the same axes -/
theorem combine_self {R : List Axis} (hR : Regular R) : combineAxes [R, R] = some R := by
  have hcan : ∀ a ∈ R, ∀ b ∈ R, canMap a b = some (if a = b then some a else none) := by
    intro a ha b hb
    by_cases hab : a = b
    · subst hab
      rw [if_pos rfl]
      unfold canMap
      rw [isParentOf_self (hR.cls a ha)]
      simp [axEq_refl]
    · rw [if_neg hab]
      exact canMap_incompatible (regular_incompatible hR ha hb hab)
  have hins : ∀ a ∈ R, ∀ L : List Axis, (∀ b ∈ L, b ∈ R) → ∃ L', insertAxis a L = some L' ∧ ∀ b ∈ L', b ∈ R := by
    intro a ha L
    induction L with
    | nil => intro _; exact ⟨[a], rfl, by simpa using ha⟩
    | cons o os ih =>
      intro hL
      obtain ⟨L', h1, h2⟩ := ih fun b hb => hL b (by simp [hb])
      rw [insertAxis, hcan a ha o (hL o (by simp))]
      by_cases e : a = o
      · rw [if_pos e]
        exact ⟨a :: os, rfl, by rw [e]; exact hL⟩
      · rw [if_neg e]
        simp only
        rw [h1]
        exact ⟨o :: L', rfl, by
          intro b hb
          rcases List.mem_cons.1 hb with rfl | hb
          · exact hL b (by simp)
          · exact h2 b hb⟩
  have hfold : ∀ (l L : List Axis), (∀ b ∈ l, b ∈ R) → (∀ b ∈ L, b ∈ R) → ∃ L',
      l.foldl (fun (out : Option (List Axis)) (a : Axis) => out.bind (insertAxis a)) (some L) = some L' ∧ ∀ b ∈ L', b ∈ R := by
    intro l
    induction l with
    | nil => intro L _ hL; exact ⟨L, rfl, hL⟩
    | cons a l ih =>
      intro L hl hL
      obtain ⟨L1, h1, h2⟩ := hins a (hl a (by simp)) L hL
      rw [List.foldl_cons, Option.bind_some, h1]
      exact ih L1 (fun b hb => hl b (by simp [hb])) h2
  obtain ⟨L, h1, h2⟩ := hfold [R, R].flatten [] (by simp) (by simp)
  unfold combineAxes outAxes
  rw [h1, Option.map_some, List.find?_cons_of_pos]
  rw [List.all_eq_true]
  intro o ho
  unfold elem
  rw [List.any_eq_true]
  exact ⟨o, h2 o ho, axEq_refl o⟩

/-- an operation between two variables in memory on the same axes -/
theorem op_self (op : List α → β) (nr : List ℚ → ℚ) (junk : List ℕ → α) (junk' : List ℕ → β) (x y : Var α) (dx dy : List ℕ → α)
    (hR : Regular x.axes) (hxy : y.axes = x.axes) (hx : Contains x dx) (hy : Contains y dy) :
    ∃ z, ufunc op nr junk junk' [x, y] = some z ∧ z.axes = x.axes ∧ Contains z fun K => op [dx K, dy K] := by
  refine ⟨Var.ofView junk' x.axes (ufuncView op nr junk [x, y]), ?_, rfl, ?_⟩
  · unfold ufunc; rw [List.map_cons, List.map_cons, List.map_nil, hxy, combine_self hR]; rfl
  refine contains_ofView_tidy _ _ _ _ fun I hI hti => ?_
  have hlen : I.length = x.axes.length := by simpa using hI.length_eq
  have hne : ∀ ind ∈ I, ind ≠ [] := fun ind hind => (hti ind hind).1
  obtain ⟨r1, a1, a2, a3⟩ := read_self hR nr junk I hI hne x rfl dx (Or.inl hx)
  obtain ⟨r2, b1, b2, b3⟩ := read_self hR nr junk I hI hne y hxy dy (Or.inl hy)
  have hs : ∀ r : NArr α, r.shape = I.map List.length →
      r.shape = List.zipWith (fun (n : ℕ) (b : Bool) => if b then n else 1) (I.map List.length) (I.map fun _ => true) := by
    intro r hr
    rw [hr]
    refine List.ext_getElem (by simp) fun o ho ho' => ?_
    simp
  obtain ⟨r, c1, c2, c3⟩ := broadcast_spec op (I.map List.length) [r1, r2] _
    (.cons ⟨by simp, hs r1 a2⟩ (.cons ⟨by simp, hs r2 b2⟩ .nil)) (by
      intro i hi
      have hi' : i < I.length := by simpa using hi
      exact ⟨_, List.mem_cons_self, by simp [hi']⟩)
  refine ⟨r, ?_, c2, fun k hk => ?_⟩
  · unfold ufuncView
    rw [List.mapM_cons, List.mapM_cons, a1, b1]
    change broadcast op x.axes.length [r1, r2] = some r
    rw [show x.axes.length = (I.map List.length).length by simp [hlen]]
    exact c1
  · rw [c3 k, List.map_cons, List.map_cons, List.map_nil, a2, b2, bindex_self hk, a3 k hk, b3 k hk]

/-- all of a variable that is read as it should be -/
theorem load_shows (nr : List ℚ → ℚ) (junk : List ℕ → α) (axes : List Axis) (f : View Axis → Option (NArr α)) (data : List ℕ → α)
    (hs : Shows nr (Var.ofView junk axes f) data) (hpos : ∀ a ∈ axes, 0 < a.len) :
    ∃ y, GetItem.load nr junk (Var.ofView junk axes f) = some y ∧ y.axes = axes ∧ Contains y data := by
  obtain ⟨r, h1, h2, h3⟩ := hs junk ((axes.map Axis.len).map List.range) (by
      rw [InRange, List.forall₂_map_left_iff]
      exact List.forall₂_same.2 fun n _ i hi => by simpa using hi) (by
      intro ind hind
      simp only [List.mem_map] at hind
      obtain ⟨_, ⟨a, ha, rfl⟩, rfl⟩ := hind
      have := hpos a ha
      by_cases e : a.len = 1
      · exact Or.inl (by simpa using e)
      · exact Or.inr ⟨0, by simpa using this, 1, by rw [List.mem_range]; omega, by omega⟩)
  have hl : ((axes.map Axis.len).map List.range).map List.length = axes.map Axis.len := by simp [Function.comp_def]
  rw [hl] at h2 h3
  refine ⟨{ axes := axes, src := .values r }, ?_, rfl, h2, fun k hk => ?_⟩
  · unfold GetItem.load GetItem.get
    have : (Var.ofView junk axes f).whole = ⟨axes, (axes.map Axis.len).map List.range⟩ := by
      unfold Var.whole Var.ofView
      simp [Function.comp_def]
    rw [this]
    change Option.map _ ((Var.ofView junk axes f).read nr junk ⟨(Var.ofView junk axes f).axes, _⟩) = _
    rw [h1]
    rfl
  · rw [h3 k hk, GetItem.cell_range _ _ hk]

theorem inBounds_cons {n i : ℕ} {s k : List ℕ} (hi : i < n) (hk : InBounds s k) : InBounds (n :: s) (i :: k) := .cons hi hk

/-- the cell of the date, behind the axis of the coefficients -/
theorem onDates_coef {R : List Axis} {c : Axis} (hR : Regular (c :: R)) {ti : ℕ} {t out : Axis} (ht : R[ti]? = some t) (hcls : out.classes = t.classes)
    (hne : out ≠ t) (pos : ℕ → ℕ) {K : List ℕ} (hK : K.length = R.length) (i : ℕ) :
    onDates out (ti + 1) pos (R.set ti out ++ [c]) (c :: R) (i :: K) = K.set ti (pos (K.getD ti 0)) ++ [i] := by
  have hR' : Regular R := hR.sublist (List.sublist_cons_self _ _)
  have hcout : c ≠ out := by
    rintro rfl
    have := classes_of_regular hR List.mem_cons_self (List.mem_cons_of_mem _ (List.mem_of_getElem? ht)) hcls
    exact hne this
  rw [← onDates_set hR' ht hcls hne pos hK]
  unfold onDates
  rw [List.map_append]
  congr 1
  · refine List.map_congr_left fun a ha => ?_
    rw [List.getD_cons_succ]
    by_cases e : a = out
    · rw [if_pos e, if_pos e]
    · rw [if_neg e, if_neg e]
      have haR : a ∈ R := ((set_axes hR' ht a ha).resolve_left e).1
      have hca : c ≠ a := by
        rintro rfl
        exact (List.nodup_cons.1 hR.nodup).1 haR
      rw [List.idxOf_cons_ne _ hca]
      rfl
  · simp [hcout]

/-- the line at the times of a variable, from coefficients in memory -/
theorem fromTrend_correct {fs : List Name} {t out : Axis} (h : Coarser fs t out) {pos : ℕ → ℕ} (hp : FallsOn fs t out pos) (nr : List ℚ → ℚ)
    (junk : List ℕ → ℚ) (secs : List ℚ) (coef : Var ℚ) (D : List ℕ → ℚ) {R : List Axis} {ti : ℕ} (ht : R[ti]? = some t)
    (hR : Regular (R ++ [coefAxis nr])) (hax : coef.axes = R.set ti out ++ [coefAxis nr]) (hc : Contains coef D)
    (honly : ∀ j a, j < ti → R[j]? = some a → "Time".toList ∉ a.classes)
    (hname : ∀ a ∈ R, ¬ Answers (.name "coef".toList) a) (hout : ¬ Answers (.name "coef".toList) out) :
    ∃ y, fromTrend nr junk t secs coef = some y ∧ y.axes = R ∧ Contains y fun K =>
      D (K.set ti (pos (K.getD ti 0)) ++ [1]) * secs.getD (K.getD ti 0) 0 + D (K.set ti (pos (K.getD ti 0)) ++ [0]) := by
  obtain ⟨htl, hte⟩ := List.getElem?_eq_some_iff.1 ht
  have hRc : Regular (coefAxis nr :: R) := hR.perm (List.perm_append_singleton _ _).symm
  have hR' : Regular R := hRc.sublist (List.sublist_cons_self _ _)
  have hct : coef.axes[ti]? = some out := by rw [hax, List.getElem?_append_left (by simpa using htl)]; simp [htl]
  have hcc : coef.axes[R.length]? = some (coefAxis nr) := by
    rw [hax, List.getElem?_append_right (by simp)]
    simp
  have e1 : foundAt (whichaxis coef.axes (.cls "Time".toList)) = some ti := by
    refine foundAt_at (by simp) hct ?_ fun j a hj ha => ?_
    · show "Time".toList ∈ out.classes
      rw [h.cls]; exact h.time
    · rw [hax, List.getElem?_append_left (by simp; omega), List.getElem?_set_ne (by omega)] at ha
      exact honly j a hj ha
  have e2 : foundAt (whichaxis coef.axes (.name "coef".toList)) = some R.length := by
    refine foundAt_at (by simp) hcc (Or.inl rfl) fun j a hj ha => ?_
    rw [hax, List.getElem?_append_left (by simpa using hj)] at ha
    rcases set_axes hR' ht a (List.mem_of_getElem? ha) with rfl | ⟨h1, -⟩
    · exact hout
    · exact hname a h1
  have e3 : (mapTo out t).isSome := by
    have := timeMap_coarser h hp nr (List.range t.len) (by simp)
    rw [slice_all] at this
    unfold mapTo
    rw [coarser_isTime h, if_pos rfl, this]
    rfl
  have e4 : (coef.axes.set ti t).eraseIdx R.length = R := by
    rw [hax, List.set_append_left _ _ (by simpa using htl), List.set_set,
      show R.length = (R.set ti t).length by simp, List.eraseIdx_append_of_length_le (by simp)]
    simp only [Nat.sub_self, List.eraseIdx_cons_zero, List.append_nil]
    rw [← hte, List.set_getElem_self]
  set S : Var ℚ := { axes := [t], src := .values ⟨[t.len], fun k => secs.getD (k.getD 0 0) 0⟩ } with hS
  have hSc : Contains S fun k => secs.getD (k.getD 0 0) 0 := ⟨rfl, fun _ _ => rfl⟩
  refine ⟨Var.ofView junk R (fromTrendView nr junk coef (coefAxis nr) S), ?_, rfl, ?_⟩
  · unfold fromTrend
    rw [e1, Option.bind_some, e2, Option.bind_some, hct, Option.bind_some, hcc, Option.bind_some, if_pos e3, e4]
  refine contains_ofView_tidy _ _ _ _ fun I hI hti => ?_
  have hlen : I.length = R.length := by simpa using hI.length_eq
  have hne : ∀ ind ∈ I, ind ≠ [] := fun ind hind => (hti ind hind).1
  have hcl : (coefAxis nr).len = 2 := rfl
  have hI2 : InRange ((coefAxis nr :: R).map Axis.len) (List.range 2 :: I) := by
    rw [List.map_cons, hcl]
    exact .cons (by simp) hI
  obtain ⟨rc, c1, -, c3⟩ := read_out h hp hRc (ti := ti + 1) (by simpa using ht) nr junk (List.range 2 :: I) hI2
    (by
      intro ind hind
      rcases List.mem_cons.1 hind with rfl | hind
      · simp
      · exact hne ind hind)
    coef D (by
      rw [hax]
      exact (Along.regular_of_classes (by
        rw [List.map_append, List.map_append, Along.classes_set R ti t out ht h.cls]) hR).nodup)
    (by
      rw [hax]
      intro a ha
      rcases List.mem_append.1 ha with ha | ha
      · exact (set_axes hR' ht a ha).imp id fun q => ⟨List.mem_cons_of_mem _ q.1, q.2⟩
      · rw [List.mem_singleton] at ha
        subst ha
        refine Or.inr ⟨List.mem_cons_self, fun e => (List.nodup_cons.1 hRc.nodup).1 (e ▸ List.mem_of_getElem? ht)⟩)
    (Or.inl hc)
  obtain ⟨rs, s1, s2⟩ := read_part hR' nr junk I hI hne S _ (by simp [hS]) (by
    intro a ha
    rw [hS] at ha
    rw [List.mem_singleton.1 ha]
    exact List.mem_of_getElem? ht) hSc
  refine ⟨{ shape := I.map List.length
            get := fun k => rc.get (bindex rc.shape (1 :: k)) * rs.get (bindex rs.shape k) + rc.get (bindex rc.shape (0 :: k)) }, ?_, rfl, ?_⟩
  · unfold fromTrendView
    rw [hcl, c1, Option.bind_some, s1]
    rfl
  · intro k hk
    have hKl : (cell I k).length = R.length := by rw [cell_length hk, hlen]
    have f1 := c3 (1 :: k) (inBounds_cons (by simp) hk)
    have f0 := c3 (0 :: k) (inBounds_cons (by simp) hk)
    have g1 : cell (List.range 2 :: I) (1 :: k) = 1 :: cell I k := rfl
    have g0 : cell (List.range 2 :: I) (0 :: k) = 0 :: cell I k := rfl
    rw [g1, hax, onDates_coef hRc ht h.cls (coarser_ne h) pos hKl] at f1
    rw [g0, hax, onDates_coef hRc ht h.cls (coarser_ne h) pos hKl] at f0
    have hidx : R.idxOf t = ti := by rw [← hte]; exact hR'.nodup.idxOf_getElem ti htl
    have f2 := s2 k hk
    rw [hS] at f2
    simp only [List.map_cons, List.map_nil, List.getD_cons_zero, hidx] at f2
    simp only
    rw [f1, f0, f2]

/-- C109: the detrended series, `detrend(x)`: at every time the value minus that of the line through the values at all times of the same date.
Wherever these times are not all the same the line is that with the least sum of squared misfits, and the only one with that sum. -/
theorem detrend_correct (nr : List ℚ → ℚ) (junk : List ℕ → ℚ) (limit : ℕ) (mk : List (Name × List ℚ) → Axis) (secs : List ℚ) (x : Var ℚ)
    (data : List ℕ → ℚ) (ti : ℕ) (t : Axis) (hl : 1 ≤ limit) (hx : TimeInput x ti t) (hreg : Regular (x.axes ++ [coefAxis nr]))
    (hc : Contains x data) (hm : Remakes t mk) (hn : Needs t .clim) (h2 : 1 < t.len) (hpos : ∀ a ∈ x.axes, 0 < a.len)
    (htime : "Time".toList ∈ t.classes) (hfirst : ∀ j a, j < ti → x.axes[j]? = some a → "Time".toList ∉ a.classes)
    (htag : t.auxatts.lookup "class".toList = none)
    (hname : ∀ a ∈ x.axes, ¬ Answers (.name "coef".toList) a) (hmk : ∀ aux, ¬ Answers (.name "coef".toList) (mk aux))
    (hless : ∃ f ∈ t.auxarrays.map Prod.fst, f ∉ fieldsKept t .clim)
    (hsame : ∀ i < t.len, ∀ j < t.len, t.values.getD i 0 = t.values.getD j 0 →
      dateAt t (fieldsKept t .clim) i = dateAt t (fieldsKept t .clim) j) :
    ∃ z, detrend nr junk limit mk secs x = some z ∧ z.axes = x.axes ∧ ∃ A B : List ℕ → ℚ,
      (Contains z fun K => data K - (A K * secs.getD (K.getD ti 0) 0 + B K)) ∧
      ∀ K, InBounds (x.axes.map Axis.len) K →
        let P := (timesLike t (fieldsKept t .clim) (dateAt t (fieldsKept t .clim) (K.getD ti 0))).map fun i : ℕ =>
          (secs.getD i 0, data (K.set ti i))
        (∃ p ∈ P, ∃ q ∈ P, p.1 ≠ q.1) →
          ∀ a b, misfit P (A K) (B K) ≤ misfit P a b ∧ (misfit P a b = misfit P (A K) (B K) → a = A K ∧ b = B K) := by
  obtain ⟨out, h1, g⟩ := outTime_good hx.plain hx.pos hm .clim hn
  obtain ⟨htl, hte⟩ := List.getElem?_eq_some_iff.1 hx.time
  have hco := coarser_of g hx.plain htime htag hn hless hsame
  choose! pos hp1 hp2 using hco.covers
  have hp : FallsOn (fieldsKept t .clim) t out pos := fun i hi => ⟨hp1 i hi, hp2 i hi⟩
  have hout : ¬ Answers (.name "coef".toList) out := by
    have h1' := h1
    unfold outTime at h1'
    simp only at h1'
    unfold distinct at h1'
    split_ifs at h1' with e
    rw [← Option.some.inj h1']
    exact hmk _
  have hreg' : Regular (x.axes.set ti out ++ [coefAxis nr]) := by
    refine Along.regular_of_classes ?_ hreg
    rw [List.map_append, List.map_append, Along.classes_set x.axes ti t out hx.time g.cls]
  have hce : climtrend nr junk limit mk secs x = some (Var.ofView junk (x.axes.set ti out ++ [coefAxis nr]) (trendView nr junk limit x secs t ti)) := by
    unfold climtrend
    rw [found_time hx, Option.bind_some, hx.time, Option.bind_some, if_pos h2, h1]
    rfl
  have hsh : Shows nr (Var.ofView junk (x.axes.set ti out ++ [coefAxis nr]) (trendView nr junk limit x secs t ti)) fun K =>
      if K.getLastD 0 = 1 then slope (pointsAt t out ti secs data K.dropLast) else intercept (pointsAt t out ti secs data K.dropLast) := by
    refine Spec.Views.shows ⟨junk, trendView nr junk limit x secs t ti, rfl, ?_⟩ hreg'
    intro I' hI' ht
    have hI' : InRange ((x.axes.set ti out).map Axis.len ++ [2]) I' := by
      simpa [Var.ofView, coefAxis, Axis.len] using hI'
    obtain ⟨I, cs, rfl, hI, hcs⟩ := forall₂_snoc hI'
    have hlen : I.length = x.axes.length := by simpa using hI.length_eq
    refine trend_view junk secs hl hx hc g (needs_ne hn) cs hI (fun ind hind => (ht ind (by simp [hind])).1) ?_ hcs
    rw [List.getD_eq_getElem _ _ (by omega)]
    exact (ht _ (by simp)).2.imp fun h => Nat.ne_of_lt h
  have hopos : 0 < out.len := by
    obtain ⟨o, ho, -⟩ := hco.covers 0 hx.pos
    omega
  obtain ⟨coef, l1, l2, l3⟩ := load_shows nr junk _ _ _ hsh (by
    intro a ha
    rcases List.mem_append.1 ha with ha | ha
    · rcases set_axes hx.reg hx.time a ha with rfl | ⟨q, -⟩
      · exact hopos
      · exact hpos a q
    · rw [List.mem_singleton.1 ha]; exact Nat.succ_pos 1)
  obtain ⟨cl, c1, c2, c3⟩ := fromTrend_correct hco hp nr junk secs coef _ hx.time hreg l2 l3 hfirst hname hout
  obtain ⟨z, z1, z2, z3⟩ := op_self minus nr junk junk x cl data _ hx.reg c2 hc c3
  have hft : foundAt (whichaxis x.axes (.cls "Time".toList)) = some ti := foundAt_at (by simp) hx.time htime hfirst
  refine ⟨z, ?_, z2, fun K => slope (pointsAt t out ti secs data (K.set ti (pos (K.getD ti 0)))),
    fun K => intercept (pointsAt t out ti secs data (K.set ti (pos (K.getD ti 0)))), ?_, ?_⟩
  · unfold detrend
    rw [hce, Option.bind_some, l1, Option.bind_some, hft, Option.bind_some, hx.time, Option.bind_some, c1, Option.bind_some, z1]
  · refine Rotate.contains_congr z3 fun K hK => ?_
    simp only [minus, List.getD_cons_zero, List.getD_cons_succ, List.dropLast_concat, List.getLastD_concat, if_true]
    rw [if_neg (by omega)]
  · intro K hK P hP a b
    have hKl : K.length = x.axes.length := by simpa using hK.length_eq
    have hKt : K.getD ti 0 < t.len := by
      have h := (inBounds_iff.1 hK).2 ti (by simpa using htl)
      rw [List.getD_eq_getElem (x.axes.map Axis.len) _ (by simpa using htl), List.getElem_map, hte] at h
      exact h
    have hP' : pointsAt t out ti secs data (K.set ti (pos (K.getD ti 0))) = P := by
      unfold pointsAt
      rw [Climat.getD_set_self _ _ _ _ (by omega), (hp _ hKt).2]
      simp only [List.set_set]
      rfl
    simp only
    rw [hP']
    exact line_best P hP a b

/-! ### axes of dates -/

theorem dateAxis_tag (nr : List ℚ → ℚ) (n : Name) (T : Cf.TimeAx) : (CfFile.timeAxis nr n T).auxatts.lookup "class".toList = none := rfl

theorem dateAxis_time (nr : List ℚ → ℚ) (n : Name) (T : Cf.TimeAx) : "Time".toList ∈ (CfFile.timeAxis nr n T).classes := by
  unfold CfFile.timeAxis
  simp

theorem lower_calClass (c : Calendar.Cal) : "coef".toList ≠ lower (CfFile.calClass c) := by cases c <;> decide

/-- no axis made of dates answers to the name of the coefficients, unless it is called so -/
theorem dateAxis_coef (nr : List ℚ → ℚ) (n : Name) (T : Cf.TimeAx) (hn : "coef".toList ≠ lower n) :
    ¬ Answers (.name "coef".toList) (CfFile.timeAxis nr n T) := by
  rintro (h | h)
  · exact hn h
  · have h : "coef".toList ∈ [lower (CfFile.calClass T.cal), "calendartime".toList, "time".toList, "taxis".toList, "axis".toList, []] := h
    simp only [List.mem_cons, List.not_mem_nil, or_false] at h
    rcases h with h | h | h | h | h | h
    · exact lower_calClass _ h
    all_goals exact absurd h (by decide)

theorem remake_coef (nr : List ℚ → ℚ) (T : Cf.TimeAx) (aux : List (Name × List ℚ)) :
    ¬ Answers (.name "coef".toList) (remake nr T aux) := dateAxis_coef nr _ _ (by decide)

/-- C108 for a time axis of valid dates in any of the calendars -/
theorem anomaly_dates (nr : List ℚ → ℚ) (junk junk' : List ℕ → ℚ) (limit : ℕ) (b : Bin) (x : Var ℚ) (data : List ℕ → ℚ) (ti : ℕ) (n : Name)
    (T : Cf.TimeAx) (hl : 1 ≤ limit) (hx : TimeInput x ti (CfFile.timeAxis nr n T)) (hc : Contains x data)
    (hs : 1 ≤ (Calendar.getDates T.start).month ∧ (Calendar.getDates T.start).month ≤ 12) (hv : ∀ d ∈ T.dates, ValidDate T.cal (Calendar.getDates d))
    (hn : Needs (CfFile.timeAxis nr n T) b)
    (hless : ∃ f ∈ (CfFile.timeAxis nr n T).auxarrays.map Prod.fst, f ∉ fieldsKept (CfFile.timeAxis nr n T) b) :
    ∃ y z, mean nr junk limit (remake nr T) b x = some y ∧ ufunc minus nr junk junk' [x, y] = some z ∧ z.axes = x.axes ∧
      ∀ (junk'' : List ℕ → ℚ) (I : List (List ℕ)), InRange (x.axes.map Axis.len) I → DistinctReq I →
        SeveralDates (fieldsKept (CfFile.timeAxis nr n T) b) (CfFile.timeAxis nr n T) ti I →
        ∃ r, read nr junk'' z ⟨x.axes, I⟩ = some r ∧ IsRead (fun K => data K -
          avg ((timesLike (CfFile.timeAxis nr n T) (fieldsKept (CfFile.timeAxis nr n T) b)
            (dateAt (CfFile.timeAxis nr n T) (fieldsKept (CfFile.timeAxis nr n T) b) (K.getD ti 0))).map fun i : ℕ => data (K.set ti i))) I r :=
  anomaly_correct nr junk junk' limit (remake nr T) b x data ti _ hl hx hc (remake_correct nr n T hs hv) hn (dateAxis_time nr n T)
    (dateAxis_tag nr n T) hless fun i hi j hj e => timeAxis_same hs hv (fun _ hf => kept_mem hf) (kept_sublist _ b) i j hi hj e

/-! ### examples -/

example : ∃ y z, mean nr0 (fun _ => 0) 3 (remake nr0 datesEx) .clim climEx = some y ∧
    ufunc minus nr0 (fun _ => 0) (fun _ => 0) [climEx, y] = some z ∧ z.axes = climEx.axes ∧
    ∃ r, read nr0 (fun _ => 0) z ⟨climEx.axes, [[0, 1, 3], [1]]⟩ = some r := by
  obtain ⟨y, z, h1, h2, h3, h4⟩ := anomaly_dates nr0 (fun _ => 0) (fun _ => 0) 3 .clim climEx _ 0 "time".toList datesEx (by omega) climEx_input
    climEx_contains (by decide +kernel) (by decide +kernel) (by unfold Needs; decide +kernel) (by decide +kernel)
  obtain ⟨r, h5, -⟩ := h4 (fun _ => 0) [[0, 1, 3], [1]] (by unfold InRange; decide +kernel) (by unfold DistinctReq; decide +kernel)
    (by unfold SeveralDates; decide +kernel)
  exact ⟨y, z, h1, h2, h3, r, h5⟩

/-- the anomalies of `climEx` from its climatology, read -/
def anomEx (I : List (List ℕ)) : Option (List (List ℚ)) :=
  (mean nr0 (fun _ => 0) 3 (remake nr0 datesEx) .clim climEx).bind fun y =>
  (ufunc minus nr0 (fun _ => 0) (fun _ => 0) [climEx, y]).bind fun z => (read nr0 (fun _ => 0) z ⟨z.axes, I⟩).map fun r =>
    (List.range (I.getD 0 []).length).map fun i => (List.range (I.getD 1 []).length).map fun j => r.get [i, j]

/-- the first and the third time are both 5 January -/
example : anomEx [[0, 1, 2, 3], [0, 1]] = some [[-10, -10], [0, 0], [10, 10], [0, 0]] := by decide +kernel
example : anomEx [[0], [0, 1]] = some [[-10, -10]] := by decide +kernel

/-- C108 fails for a request of the two times of 5 January alone: the second anomaly should be 10, the value 20 minus the mean 10; it is
reported as 0. Both times map to the same date, and since that is a single one numpy finds `[p] == [p, p]` and sees no repetition (view.py:234-238): the climatology is asked for one date
twice (C106, `repeated_time_violated`). -/
theorem same_date_violated : anomEx [[0, 2], [0, 1]] = some [[-10, -10], [0, 0]] := by decide +kernel

example : ∃ z, detrend nr0 (fun _ => 0) 3 (remake nr0 datesEx) secsEx climEx = some z ∧ z.axes = climEx.axes := by
  obtain ⟨z, h1, h2, -⟩ := detrend_correct nr0 (fun _ => 0) 3 (remake nr0 datesEx) secsEx climEx _ 0 timesEx (by omega) climEx_input
    ⟨by decide +kernel, by decide +kernel⟩ climEx_contains (remake_correct nr0 _ datesEx (by decide +kernel) (by decide +kernel))
    (by unfold Needs; decide +kernel) (by decide +kernel) (by decide +kernel) (dateAxis_time _ _ _) (fun j a h => absurd h (by omega))
    (dateAxis_tag _ _ _) (by unfold Answers; decide +kernel) (remake_coef nr0 datesEx) (by decide +kernel)
    fun i hi j hj e => timeAxis_same (by decide +kernel) (by decide +kernel) (fun _ hf => kept_mem hf) (kept_sublist _ .clim) i j hi hj e
  exact ⟨z, h1, h2⟩

/-- on 5 January the line goes through both points -/
example : ((detrend nr0 (fun _ => 0) 3 (remake nr0 datesEx) secsEx climEx).bind fun z =>
    (read nr0 (fun _ => 0) z ⟨z.axes, [[0, 2], [0, 1]]⟩).map fun r => (r.get [0, 0], r.get [0, 1], r.get [1, 0], r.get [1, 1])) =
      some (0, 0, 0, 0) := by decide +kernel

end TimeMatch
end PyGeode
