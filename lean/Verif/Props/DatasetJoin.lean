/-
C96: joining datasets whose variables differ: a variable may be in some of the datasets only, and may have the same axes in all of them.
-/
import Verif.Props.DatasetOps
import Verif.Props.Rotate

namespace PyGeode
namespace DatasetOps
open Spec Axis Combine Dataset Weights Loop

variable {α : Type}

/-- the variables `ps`, with one name, in the order of the datasets, can be joined: there is one only; or they differ along one axis; or they
have equal axes -/
inductive _root_.PyGeode.Spec.Unitable (new : ℕ → Axis) : List (Piece α) → Prop
  | one (t : Piece α) (hc : Contains t.var t.data) (hr : Regular t.var.axes) : Unitable new [t]
  | along (j : ℕ) (t s : Piece α) (ps : List (Piece α)) (h : Joinable j t.var.axes (t :: s :: ps))
      (differ : ∀ q ∈ s :: ps, axEq t.axis q.axis = false)
      (others : ∀ q ∈ s :: ps, ∀ (i : ℕ) (a b : Axis), i ≠ j → t.var.axes[i]? = some a → q.var.axes[i]? = some b → axEq a b = true) :
      Unitable new (t :: s :: ps)
  | same (t s : Piece α) (ps : List (Piece α)) (hr : Regular (t.var.axes ++ [new (ps.length + 2)])) (hc : ∀ q ∈ t :: s :: ps, Contains q.var q.data)
      (hnew : (new (ps.length + 2)).len = ps.length + 2)
      (kinds : ∀ q ∈ t :: s :: ps, q.var.axes.map Axis.classes = t.var.axes.map Axis.classes)
      (equal : ∀ q ∈ t :: s :: ps, ∀ (i : ℕ) (a b : Axis), q.var.axes[i]? = some a → t.var.axes[i]? = some b → axEq a b = true ∧ axEq b a = true) :
      Unitable new (t :: s :: ps)

/-- the variable `y` with the values `data` is the variables `ps` joined: it is the only one; or they follow one another along the axis in which they differ; or
they are side by side along a new axis -/
inductive _root_.PyGeode.Spec.Unites (new : ℕ → Axis) : List (Piece α) → Var α → (List ℕ → α) → Prop
  | one (t : Piece α) : Unites new [t] t.var t.data
  | along (j : ℕ) (t s : Piece α) (ps : List (Piece α)) (y : Var α) (c : Axis) (data : List ℕ → α) (differ : axEq t.axis s.axis = false)
      (here : t.var.axes[j]? = some t.axis) (axes : y.axes = t.var.axes.set j c) (name : c.name = t.axis.name)
      (kind : c.classes = t.axis.classes) (values : c.values = (t :: s :: ps).flatMap fun q => q.axis.values)
      (data_eq : ∀ (p : ℕ) (q : Piece α), (t :: s :: ps)[p]? = some q → ∀ k : List ℕ, k.length = t.var.axes.length →
        k.getD j 0 < q.axis.len → data (k.set j (offset (t :: s :: ps) p + k.getD j 0)) = q.data k) : Unites new (t :: s :: ps) y data
  | same (t s : Piece α) (ps : List (Piece α)) (y : Var α) (data : List ℕ → α) (axes : y.axes = t.var.axes ++ [new (ps.length + 2)])
      (data_eq : ∀ (p : ℕ) (q : Piece α), (t :: s :: ps)[p]? = some q → ∀ k : List ℕ, k.length = t.var.axes.length → data (k ++ [p]) = q.data k) :
      Unites new (t :: s :: ps) y data

theorem unite (nr : List ℚ → ℚ) (junk : List ℕ → α) (new : ℕ → Axis) (ps : List (Piece α)) (h : Unitable new ps) :
    ∃ y data, joinVars nr junk new (ps.map Piece.var) = some y ∧ Contains y data ∧ Regular y.axes ∧ Unites new ps y data := by
  cases h with
  | one t hc hr => exact ⟨t.var, t.data, rfl, hc, hr, .one t⟩
  | along j t s ps h differ others =>
    obtain ⟨y, h1, ⟨t', c, data, ht, a1, a2, a3, a4, a5, a6⟩, -⟩ := joinVars_correct nr junk new j t (s :: ps) (by simp) h differ others
    obtain rfl : t = t' := Option.some.inj ht
    have hax := h.ax t (by simp)
    refine ⟨y, data, h1, a5, ?_, .along j t s ps y c data (differ s (by simp)) hax a1 a2 a3 a4 a6⟩
    rw [a1]
    refine Rotate.regular_set h.regular j h.here c ?_
    rw [a3]
    rw [List.getElem?_eq_getElem h.here, Option.some.injEq] at hax
    rw [hax]
  | same t s ps hr hc hnew kinds equal =>
    obtain ⟨y, data, h1, h2, h3, h4⟩ := join_static nr junk new (t.var, t.data) (s.var, s.data) (ps.map fun q => (q.var, q.data))
      (by
        refine ⟨fun a ha => hr.cls a (by simp [ha]), ?_⟩
        exact (List.pairwise_append.1 hr.inc).1)
      (by simpa using hnew)
      (by
        intro q hq
        have : q ∈ (t :: s :: ps).map fun q => (q.var, q.data) := by simpa using hq
        obtain ⟨q', hq', rfl⟩ := List.mem_map.1 this
        exact hc q' hq')
      (by
        intro q hq
        have : q ∈ (t :: s :: ps).map fun q => (q.var, q.data) := by simpa using hq
        obtain ⟨q', hq', rfl⟩ := List.mem_map.1 this
        exact kinds q' hq')
      (by
        intro q hq
        have : q ∈ (t :: s :: ps).map fun q => (q.var, q.data) := by simpa using hq
        obtain ⟨q', hq', rfl⟩ := List.mem_map.1 this
        exact equal q' hq')
    have e : ((t.var, t.data) :: (s.var, s.data) :: ps.map fun q => (q.var, q.data)) = (t :: s :: ps).map fun q => (q.var, q.data) := rfl
    rw [e] at h1 h4
    rw [List.map_map] at h1
    rw [List.length_map] at h2
    refine ⟨y, data, h1, h3, by rw [h2]; exact hr, .same t s ps y data h2 ?_⟩
    intro p q hq k hk
    exact h4 p (q.var, q.data) (by rw [List.getElem?_map, hq]; rfl) k hk

theorem concat_two (nr : List ℚ → ℚ) (junk : List ℕ → α) (new : ℕ → Axis) (ds : List (Data α)) (h : 2 ≤ ds.length) :
    concat nr junk new ds = ((segments (ds.flatMap fun d => d.vars.map fun x => (x.name, x.var))).mapM fun p =>
      (joinVars nr junk new p.2).map fun y => (⟨p.1, y⟩ : Member α)).bind fun vars =>
      make nr junk vars (commonDict (fun a b => decide (a ≠ b)) (ds.map Data.atts)) := by
  match ds, h with
  | _ :: _ :: _, _ => rfl

/-- the variables with the name `n`, in the order of the datasets -/
def _root_.PyGeode.Spec.named (ds : List (Data α)) (n : Name) : List (Var α) :=
  ds.flatMap fun d => (d.vars.filter fun x => decide (x.name = n)).map Member.var

/-- the names of the variables, in the order in which they are first found -/
def _root_.PyGeode.Spec.firstFound (ds : List (Data α)) : List Name :=
  (ds.flatMap fun d => d.vars.map Member.name).reverse.dedup.reverse

/-- C96, joining datasets whose variables may differ (missing: axes whose name 100 different axes share). `P n` are the variables named `n` of the
datasets. The names of the variables are those found in any of the datasets, in the order in which they are found; the variables with a name
are joined, `ys`; and the result is the dataset of these: with the same names and values, and the names of the axes too if axes with the same name are equal. Only
the attributes that are the same in all datasets are kept. -/
theorem concat_mixed_partial (nr : List ℚ → ℚ) (junk : List ℕ → α) (new : ℕ → Axis) (ds : List (Data α)) (hm : 2 ≤ ds.length) (P : Name → List (Piece α))
    (hP : ∀ n ∈ firstFound ds, (P n).map Piece.var = named ds n) (hU : ∀ n ∈ firstFound ds, Unitable new (P n))
    (hblank : ∀ d ∈ ds, ∀ x ∈ d.vars, x.name ≠ []) (hatts : ∀ d ∈ ds, (d.atts.map Prod.fst).Nodup) :
    ∃ (Y : Name → Var α) (data : Name → List ℕ → α), (∀ n ∈ firstFound ds, Unites new (P n) (Y n) (data n)) ∧
      ((∀ n, familiesOf ((firstFound ds).flatMap fun n => (Y n).axes) n < 100) →
      ∃ d, concat nr junk new ds = some d ∧ IsDataset d.vars ∧ d.vars.map Member.name = firstFound ds ∧
        (∀ x ∈ d.vars, Adopted (data x.name) ⟨x.name, Y x.name⟩ x) ∧
        (∀ k v, d.atts.lookup k = some v ↔ ∀ e ∈ ds, e.atts.lookup k = some v) ∧
        ∀ x ∈ d.vars, (∀ a ∈ (Y x.name).axes, ∀ n ∈ firstFound ds, ∀ b ∈ (Y n).axes, ∀ n' ∈ firstFound ds, ∀ c ∈ (Y n').axes,
            b.name = a.name → c.name = a.name → axEq b c = true) →
          x.var.axes.map Axis.name = (Y x.name).axes.map Axis.name) := by
  classical
  have : Inhabited (Var α) := ⟨⟨[], .values ⟨[], junk⟩⟩⟩
  have : Nonempty (List ℕ → α) := ⟨junk⟩
  have hjoin : ∀ n ∈ firstFound ds, ∃ y data, joinVars nr junk new (named ds n) = some y ∧ Contains y data ∧ Regular y.axes ∧ Unites new (P n) y data := by
    intro n hn
    rw [← hP n hn]
    exact unite nr junk new (P n) (hU n hn)
  choose! Y data hY1 hY2 hY3 hY4 using hjoin
  refine ⟨Y, data, hY4, fun h100' => ?_⟩
  set N := firstFound ds with hNdef
  set L := ds.flatMap fun d => d.vars.map fun x => (x.name, x.var) with hL
  have hLn : L.map Prod.fst = ds.flatMap fun d => d.vars.map Member.name := by
    rw [hL, List.map_flatMap]
    refine List.flatMap_congr fun d _ => ?_
    rw [List.map_map]; rfl
  obtain ⟨s1, s2, s3, s4⟩ := segments_correct L
  have hsN : (segments L).map Prod.fst = N := by rw [s2, hLn]; rfl
  have hN : N.Nodup := by rw [← hsN]; exact s1
  have hfilter : ∀ n, (L.filter fun p => decide (p.1 = n)).map Prod.snd = named ds n := by
    intro n
    rw [hL, List.filter_flatMap, List.map_flatMap]
    refine List.flatMap_congr fun d _ => ?_
    rw [List.filter_map, List.map_map]
    rfl
  have hseg : segments L = N.map fun n => (n, named ds n) := by
    rw [← hsN, List.map_map]
    conv_lhs => rw [← List.map_id (segments L)]
    refine List.map_congr_left fun p hp => ?_
    have := s4 p.1 p.2 hp
    rw [hfilter] at this
    simp only [Function.comp, id, ← this]
  have hmapM : (segments L).mapM (fun p => (joinVars nr junk new p.2).map fun y => (⟨p.1, y⟩ : Member α)) = some (N.map fun n => ⟨n, Y n⟩) := by
    rw [hseg]
    apply mapM_forall₂
    rw [List.forall₂_map_left_iff, List.forall₂_map_right_iff, List.forall₂_same]
    intro n hn
    show (joinVars nr junk new (named ds n)).map _ = _
    rw [hY1 n hn]; rfl
  set ys : List (Member α) := N.map fun n => ⟨n, Y n⟩ with hys
  have hnames : ys.map Member.name = N := by
    rw [hys, List.map_map]; exact List.map_id N
  have hbl : ∀ n ∈ N, n ≠ [] := by
    intro n hn
    have : n ∈ ds.flatMap fun d => d.vars.map Member.name := by
      rw [hNdef, firstFound, List.mem_reverse, List.mem_dedup, List.mem_reverse] at hn; exact hn
    obtain ⟨d, hd, hx⟩ := List.mem_flatMap.1 this
    obtain ⟨x, hx', rfl⟩ := List.mem_map.1 hx
    exact hblank d hd x hx'
  have hfill : (ys.map Member.name).map fillBlank = N := by
    rw [hnames]
    conv_rhs => rw [← List.map_id N]
    refine List.map_congr_left fun n hn => ?_
    simp [fillBlank, hbl n hn]
  have hall : allAxes ys = N.flatMap fun n => (Y n).axes := by
    rw [allAxes, hys, List.flatMap_map]
  obtain ⟨d, d1, d2, d3, d4⟩ := make_correct_partial nr junk ys (commonDict (fun a b => decide (a ≠ b)) (ds.map Data.atts)) (fun x => data x.name)
    (by
      intro x hx
      obtain ⟨n, hn, rfl⟩ := List.mem_map.1 hx
      exact hY2 n hn)
    (by
      intro x hx
      obtain ⟨n, hn, rfl⟩ := List.mem_map.1 hx
      exact hY3 n hn)
    (by
      intro n
      rw [hfill]
      exact lt_of_le_of_lt (List.nodup_iff_count_le_one.1 hN n) (by norm_num))
    (by rw [hall]; exact h100')
  have hnm : List.Forall₂ (fun x y : Member α => y.name = x.name ∧ Adopted (data x.name) x y ∧
      ((∀ a ∈ x.var.axes, ∀ b ∈ allAxes ys, ∀ c ∈ allAxes ys, b.name = a.name → c.name = a.name → axEq b c = true) →
          y.var.axes.map Axis.name = x.var.axes.map Axis.name) ∧ x.var = Y x.name) ys d.vars := by
    rw [List.forall₂_iff_get] at d4 ⊢
    refine ⟨d4.1, fun i h1 h2 => ?_⟩
    obtain ⟨e1, e2, e3⟩ := d4.2 i h1 h2
    have hmem : ys.get ⟨i, h1⟩ ∈ ys := List.get_mem _ _
    obtain ⟨n, hn, hne⟩ := List.mem_map.1 hmem
    rw [hfill] at e2
    refine ⟨e2 ?_ ?_, e1, e3, ?_⟩
    · rw [← hne]; exact hbl n hn
    · rw [← hne]; exact List.count_eq_one_of_mem hN hn
    · rw [← hne]
  have hback : ∀ y ∈ d.vars, ∃ x ∈ ys, y.name = x.name ∧ Adopted (data x.name) x y ∧
      ((∀ a ∈ x.var.axes, ∀ b ∈ allAxes ys, ∀ c ∈ allAxes ys, b.name = a.name → c.name = a.name → axEq b c = true) →
          y.var.axes.map Axis.name = x.var.axes.map Axis.name) ∧ x.var = Y x.name := by
    intro y hy
    obtain ⟨i, hi, rfl⟩ := List.getElem_of_mem hy
    rw [List.forall₂_iff_get] at hnm
    have hi' : i < ys.length := by rw [hnm.1]; exact hi
    exact ⟨ys.get ⟨i, hi'⟩, List.get_mem _ _, hnm.2 i hi' hi⟩
  refine ⟨d, ?_, d2, ?_, ?_, ?_, ?_⟩
  · rw [concat_two nr junk new ds hm, hmapM]
    exact d1
  · rw [← hnames]
    apply List.ext_getElem?
    intro i
    rw [List.getElem?_map, List.getElem?_map]
    have hl := hnm.length_eq
    by_cases hi : i < ys.length
    · rw [List.getElem?_eq_getElem hi, List.getElem?_eq_getElem (by omega)]
      rw [List.forall₂_iff_get] at hnm
      exact congrArg some (hnm.2 i hi (by omega)).1
    · rw [List.getElem?_eq_none (by omega), List.getElem?_eq_none (by omega)]
  · intro y hy
    obtain ⟨x, hx, e1, e2, -, e4⟩ := hback y hy
    rw [e1, ← e4]
    exact e2
  · intro k v
    rw [d3]
    rw [commonDict_correct _ (by
        intro h
        have := congrArg List.length h
        simp only [List.length_map, List.length_nil] at this; omega) (by
      intro e he
      obtain ⟨i, hi, rfl⟩ := List.mem_map.1 he
      exact hatts i hi)]
    simp
  · intro y hy h
    obtain ⟨x, hx, e1, -, e3, e4⟩ := hback y hy
    rw [e1, ← e4]
    refine e3 ?_
    rw [e1, ← e4] at h
    intro a ha b hb c hc
    rw [hall] at hb hc
    obtain ⟨n, hn, hb⟩ := List.mem_flatMap.1 hb
    obtain ⟨n', hn', hc⟩ := List.mem_flatMap.1 hc
    exact h a ha n hn b hb n' hn' c hc

/-! ### example: the precipitation is in the second file only; the axes named time differ and are renamed -/

def mixedEx : List (Data ℕ) :=
  [⟨[⟨"T".toList, (Concat.pieceEx 0 2).var⟩], [("title".toList, "run".toList), ("part".toList, "0".toList)]⟩,
   ⟨[⟨"T".toList, (Concat.pieceEx 2 3).var⟩, ⟨"pr".toList, (Concat.pieceEx 2 3).var⟩], [("title".toList, "run".toList), ("part".toList, "1".toList)]⟩]

example : firstFound mixedEx = ["T".toList, "pr".toList] := by decide +kernel

example : ((concat (fun _ => 1 / 100000) (fun _ => 0) (fun n => VarOps.timeEx n) mixedEx).map fun d =>
    (d.vars.map fun x => (x.name, x.var.axes.map Axis.name))) =
    some [("T".toList, ["time01".toList, "lon".toList]), ("pr".toList, ["time02".toList, "lon".toList])] := by
  decide +kernel

example := concat_mixed_partial (fun _ => 1 / 100000) (fun _ => 0) (fun n => VarOps.timeEx n) mixedEx (by decide)
  (fun n => if n = "T".toList then [Concat.pieceEx 0 2, Concat.pieceEx 2 3] else [Concat.pieceEx 2 3])
  (by
    have e : firstFound mixedEx = ["T".toList, "pr".toList] := by decide +kernel
    intro n hn
    rw [e] at hn
    rcases List.mem_cons.1 hn with rfl | hn
    · rfl
    · rw [List.mem_singleton] at hn
      subst hn
      rfl)
  (by
    have e : firstFound mixedEx = ["T".toList, "pr".toList] := by decide +kernel
    intro n hn
    rw [e] at hn
    rcases List.mem_cons.1 hn with rfl | hn
    · refine .along 0 _ _ [] Concat.pieceEx_joinable (by decide +kernel) ?_
      intro q hq i a b hi ha hb
      rw [List.mem_singleton] at hq
      subst hq
      have h1 : i = 1 := by
        have := (List.getElem?_eq_some_iff.1 ha).1
        have h2 : (Concat.pieceEx 0 2).var.axes.length = 2 := rfl
        omega
      subst h1
      have ha' : lonEx = a := by simpa [Concat.pieceEx] using ha
      have hb' : lonEx = b := by simpa [Concat.pieceEx] using hb
      rw [← ha', ← hb']
      exact axEq_self _
    · rw [List.mem_singleton] at hn
      subst hn
      exact .one _ (Concat.pieceEx_joinable.cont _ (by simp)) ⟨by decide +kernel, by decide +kernel⟩)
  (by decide +kernel) (by decide +kernel)

end DatasetOps
end PyGeode
