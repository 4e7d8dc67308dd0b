/-
Joining years and days into one time axis.
-/
import Verif.Props.SplitTime

namespace PyGeode
namespace SplitTime
open Spec NArr Axis Combine VarOps ClimVar
variable {α : Type}

/-! ### matching axes one to one -/

/-- Axes of the same kinds, in the same order: each axis of the variable is found at its own place. -/
theorem mapTo_places (nr : List ℚ → ℚ) {A R : List Axis} (hR : Regular A) (hcl : R.map Axis.classes = A.map Axis.classes) (J : List (List ℕ))
    (hJ : J.length = A.length) (pos : ℕ → List ℕ)
    (h : ∀ n a r, A[n]? = some a → R[n]? = some r →
      TimeMatch.axEq a r = true ∧ pos n = J.getD n [] ∨
      TimeMatch.axEq a r = false ∧ TimeMatch.mapTo a (sliceAxis nr r (J.getD n [])) = some (pos n)) :
    View.mapTo TimeMatch.axEq (TimeMatch.viewMap nr) Axis.len true ⟨R, J⟩ A = some ((List.range A.length).map fun n => (some n, pos n)) := by
  have hl : R.length = A.length := by simpa using congrArg List.length hcl
  have hcn : ∀ n (h1 : n < R.length) (h2 : n < A.length), R[n].classes = A[n].classes := by
    intro n h1 h2
    have := congrArg (fun l : List (List Name) => l[n]?) hcl
    simpa [h1, h2] using this
  have hne : ∀ n (hn : n < A.length) j (hj : j < R.length), j ≠ n → compatible A[n] R[j] = false := by
    intro n hn j hj e
    rw [Loop.compatible_congr rfl (hcn j hj (by omega))]
    exact hR.incompatible hn (by omega) (Ne.symm e)
  have hcne : ∀ n (hn : n < A.length) j (hj : j < R.length), j ≠ n → A[n].classes ≠ R[j].classes := by
    intro n hn j hj e e'
    have := hne n hn j hj e
    unfold compatible isParentOf at this
    rw [← e'] at this
    obtain ⟨c, cs, hcs⟩ := List.exists_cons_of_ne_nil (hR.cls _ (List.getElem_mem hn))
    rw [hcs] at this
    simp at this
  have heq : ∀ n (hn : n < A.length) j (hj : j < R.length), j ≠ n → TimeMatch.axEq A[n] R[j] = false := by
    intro n hn j hj e
    unfold TimeMatch.axEq
    split_ifs with ht
    · exact TimeMatch.timeEq_classes (hcne n hn j hj e)
    · by_contra h'
      have := Loop.axEq_compatible (by simpa using h') (hR.cls _ (List.getElem_mem hn))
      rw [hne n hn j hj e] at this
      cases this
  have hmap : ∀ n (hn : n < A.length) j (hj : j < R.length), j ≠ n → ∀ s, TimeMatch.mapTo A[n] (sliceAxis nr R[j] s) = none := by
    intro n hn j hj e s
    unfold TimeMatch.mapTo
    split_ifs with ht
    · exact TimeMatch.timeMap_classes (by rw [sliceAxis_classes]; exact hcne n hn j hj e)
    · unfold axisMapTo
      rw [Loop.compatible_congr rfl (sliceAxis_classes nr R[j] s), hne n hn j hj e]
      rfl
  unfold View.mapTo
  apply mapM_forall₂
  rw [List.forall₂_iff_get]
  refine ⟨by simp, fun n hn hn' => ?_⟩
  simp only [List.get_eq_getElem, List.getElem_map, List.getElem_range]
  have hnR : n < R.length := by omega
  unfold View.mapAxis
  rcases h n A[n] R[n] (List.getElem?_eq_getElem hn) (List.getElem?_eq_getElem hnR) with ⟨h1, h2⟩ | ⟨h1, h2⟩
  · have hf : R.findIdx? (fun a => TimeMatch.axEq A[n] a) = some n := by
      rw [List.findIdx?_eq_some_iff_getElem]
      refine ⟨hnR, h1, fun j hj => ?_⟩
      rw [heq n hn j (by omega) (by omega)]
      simp
    simp only [hf, h2]
  · have hf : R.findIdx? (fun a => TimeMatch.axEq A[n] a) = none := by
      rw [List.findIdx?_eq_none_iff]
      intro b hb
      obtain ⟨j, hj, rfl⟩ := List.getElem_of_mem hb
      by_cases e : j = n
      · subst e; exact h1
      · exact heq n hn j hj e
    have hs : ((R.zip J).zipIdx.findSome? fun p => (TimeMatch.viewMap nr A[n] p.1.1 p.1.2).map fun l => (p.2, l)) = some (n, pos n) := by
      rw [List.findSome?_eq_some_iff]
      refine ⟨((R.zip J).zipIdx).take n, ((R[n], J[n]'(by omega)), n), ((R.zip J).zipIdx).drop (n + 1), ?_, ?_, ?_⟩
      · conv_lhs => rw [← List.take_append_drop n ((R.zip J).zipIdx)]
        congr 1
        rw [List.drop_eq_getElem_cons (by simp; omega)]
        simp
      · unfold TimeMatch.viewMap
        rw [List.getD_eq_getElem J _ (by omega)] at h2
        simp only
        rw [h2]
        rfl
      · rintro ⟨⟨b, s⟩, j⟩ hb
        obtain ⟨k, hk, e⟩ := List.getElem_of_mem hb
        have hk' : k < n := by
          have := hk; rw [List.length_take] at this; omega
        rw [List.getElem_take, List.getElem_zipIdx, List.getElem_zip] at e
        simp only [zero_add, Prod.mk.injEq] at e
        obtain ⟨⟨rfl, rfl⟩, rfl⟩ := e
        unfold TimeMatch.viewMap
        simp only
        rw [hmap n hn k (by omega) (by omega)]
        rfl
    simp only [hf, hs]

/-- reading a variable through such a match -/
theorem read_places (nr : List ℚ → ℚ) (junk : List ℕ → α) {x : Var α} {data : List ℕ → α} (hc : Contains x data) {R : List Axis}
    (hR : Regular x.axes) (hcl : R.map Axis.classes = x.axes.map Axis.classes) (J : List (List ℕ)) (hJ : J.length = x.axes.length)
    (hJne : ∀ ind ∈ J, ind ≠ []) (pos : ℕ → List ℕ)
    (h : ∀ n a r, x.axes[n]? = some a → R[n]? = some r →
      TimeMatch.axEq a r = true ∧ pos n = J.getD n [] ∨
      TimeMatch.axEq a r = false ∧ TimeMatch.mapTo a (sliceAxis nr r (J.getD n [])) = some (pos n))
    (hlen : ∀ n < x.axes.length, (pos n).length = (J.getD n []).length)
    (hrange : ∀ n a, x.axes[n]? = some a → ∀ i ∈ pos n, i < a.len) :
    ∃ r, TimeMatch.read nr junk x ⟨R, J⟩ = some r ∧ r.shape = J.map List.length ∧
      ∀ k, InBounds (J.map List.length) k → r.get k = data ((List.range x.axes.length).map fun n => (pos n).getD (k.getD n 0) 0) := by
  have hl : R.length = x.axes.length := by simpa using congrArg List.length hcl
  obtain ⟨r, h1, h2, h3⟩ := PyGeode.get_correct TimeMatch.axEq (TimeMatch.viewMap nr) Axis.len junk ⟨R, J⟩ x.axes x.src data (by simp [hl, hJ]) hc _
    (mapTo_places nr hR hcl J hJ pos h)
    (by
      intro q hq
      obtain ⟨n, hn, rfl⟩ := List.mem_map.1 hq
      have hn : n < x.axes.length := by simpa using hn
      exact ⟨n, rfl, by simp only; omega, hlen n hn⟩)
    (by
      rw [List.map_map]
      refine List.Nodup.map_on ?_ List.nodup_range
      intro a _ b _ e
      simpa using e)
    (by
      unfold InRange
      rw [List.forall₂_iff_get]
      refine ⟨by simp, fun n hn hn' i hi => ?_⟩
      have hn : n < x.axes.length := by simpa using hn
      simp only [List.get_eq_getElem, List.getElem_map, List.getElem_range] at hi ⊢
      exact hrange n _ (List.getElem?_eq_getElem hn) i hi)
    (by
      intro q hq
      obtain ⟨n, hn, rfl⟩ := List.mem_map.1 hq
      have hn : n < x.axes.length := by simpa using hn
      intro e
      have e : pos n = [] := e
      have := hlen n hn
      rw [e, List.getD_eq_getElem J _ (by omega)] at this
      exact hJne _ (List.getElem_mem _) (List.length_eq_zero_iff.1 this.symm))
  have hs : r.shape = J.map List.length := by
    rw [h2]
    refine List.ext_getElem (by simp) fun n g1 g2 => ?_
    have hn : n < J.length := by simpa using g2
    simp only [List.getElem_map, List.getElem_range]
    rw [if_pos, List.getD_eq_getElem J _ hn]
    rw [List.map_map]
    exact List.mem_map.2 ⟨n, by simpa using (by omega : n < x.axes.length), rfl⟩
  refine ⟨r, h1, hs, fun k hk => ?_⟩
  rw [h3 k (by rw [hs]; exact hk), List.map_map]
  rfl

/-! ### matching times -/

theorem timeMap_rows {a b : Axis} {fs : List Name} (hcls : a.classes = b.classes)
    (hsub : ∀ f ∈ a.auxarrays.map Prod.fst, f ∈ b.auxarrays.map Prod.fst) (hcf : commonFields a b = fs) (hne : fs ≠ [])
    (hv : a.values.Pairwise (· < ·)) (hd : ((List.range a.len).map (dateAt a fs)).Pairwise (· < ·)) (pos : ℕ → ℕ)
    (hp : ∀ k < b.len, pos k < a.len ∧ dateAt a fs (pos k) = dateAt b fs k) :
    TimeMatch.timeMap a b = some ((List.range b.len).map pos) := by
  unfold TimeMatch.timeMap
  rw [if_neg (by rw [hcls]; simp), if_neg (fun h' => h' hsub)]
  simp only
  rw [hcf, if_neg hne, TimeMatch.argsort_sorted hv]
  congr 1
  unfold TimeC.timeMapTo TimeC.getIndices
  have e1 : (List.range a.values.length).map (fun i : ℕ => (rowsOf a fs).getD i []) = (List.range a.len).map (dateAt a fs) :=
    List.map_congr_left fun i hi => rowsOf_getD a fs (List.mem_range.1 hi)
  rw [e1, rowsOf_eq, List.map_map, List.filterMap_map]
  have key : ∀ i < b.len, TimeC.getIndex ((List.range a.len).map (dateAt a fs)) (dateAt b fs i) = some (pos i) := by
    intro i hi
    obtain ⟨h1, h2⟩ := hp i hi
    rw [TimeC.get_index_exact (n := fs.length) _ _ (by
      intro r hr
      obtain ⟨o, _, rfl⟩ := List.mem_map.1 hr
      simp [dateAt]) (by simp [dateAt]) hd]
    rw [List.getElem?_map, List.getElem?_range h1, Option.map_some, h2]
  have e2 : (List.range b.len).filterMap (id ∘ TimeC.getIndex ((List.range a.len).map (dateAt a fs)) ∘ dateAt b fs) = (List.range b.len).map pos := by
    refine Eq.trans (List.filterMap_congr (g := some ∘ pos) fun i hi => ?_) (by rw [List.filterMap_eq_map])
    simp only [Function.comp_apply, id_eq]
    exact key i (List.mem_range.1 hi)
  rw [e2, List.map_map]
  refine List.map_congr_left fun i hi => ?_
  have := (hp i (List.mem_range.1 hi)).1
  unfold Axis.len at this
  show (List.range a.values.length).getD (pos i) 0 = pos i
  rw [List.getD_eq_getElem _ _ (by simpa using this), List.getElem_range]

/-! ### years and days in all combinations -/

/-- the axis `j` has the years `ys` and the days `ds` in all combinations -/
structure Grid (fs : List Name) (years days : Axis) (ys ds : List ℕ) (j : Axis) : Prop where
  cls : j.classes = days.classes
  fields : j.auxarrays.map Prod.fst = "year".toList :: fs
  len : j.len = ys.length * ds.length
  year : ∀ a < ys.length, ∀ b < ds.length, ((yearAt j (a * ds.length + b) : ℤ) : ℚ) = years.values.getD (ys.getD a 0) 0
  day : ∀ a < ys.length, ∀ b < ds.length, dateAt j fs (a * ds.length + b) = dateAt days fs (ds.getD b 0)

theorem lookup_map {V : Type} (g : Name → V) : ∀ {fs : List Name} {f : Name}, f ∈ fs → (fs.map fun f => (f, g f)).lookup f = some (g f)
  | p :: fs, f, h => by
    rw [List.map_cons, List.lookup_cons]
    by_cases e : f = p
    · subst e; simp
    · rw [beq_false_of_ne e]
      exact lookup_map g (by simpa [e] using h)

theorem grid_of {fs : List Name} {years days j : Axis} {ys ds : List ℕ} (g1 : j.classes = days.classes)
    (g2 : j.auxarrays = combined fs years days ys ds) (g3 : j.len = ys.length * ds.length)
    (hwhole : ∀ v ∈ years.values, ((⌊v⌋ : ℤ) : ℚ) = v) (hyf : "year".toList ∉ fs) (h5 : ∀ i ∈ ys, i < years.len) :
    Grid fs years days ys ds j := by
  refine ⟨g1, ?_, g3, ?_, ?_⟩
  · rw [g2]
    unfold combined
    rw [List.map_cons, List.map_map]
    exact congrArg _ (List.map_id fs)
  · intro a ha b hb
    rw [show ∀ (j : Axis) (k : ℕ), yearAt j k = ⌊((j.auxarrays.lookup "year".toList).getD []).getD k 0⌋ from fun _ _ => rfl]
    rw [g2]
    unfold combined
    rw [List.lookup_cons]
    simp only [beq_self_eq_true, Option.getD_some]
    rw [flatMap_getD ds.length _ 0 ys a b 0 (by simp) hb ha, List.getD_replicate _ hb]
    refine hwhole _ ?_
    have : ys.getD a 0 < years.values.length := h5 _ (by rw [List.getD_eq_getElem ys _ ha]; exact List.getElem_mem ha)
    rw [List.getD_eq_getElem years.values _ this]
    exact List.getElem_mem _
  · intro a ha b hb
    rw [dateAt_eq, dateAt_eq]
    refine List.map_congr_left fun f hf => ?_
    unfold fieldAt
    rw [g2]
    unfold combined
    rw [List.lookup_cons]
    have hne : f ≠ "year".toList := fun e => hyf (e ▸ hf)
    simp only [beq_false_of_ne hne]
    rw [lookup_map _ hf]
    simp only [Option.getD_some]
    rw [flatMap_getD ds.length _ 0 ys a b 0 (by simp) hb ha, List.getD_eq_getElem (ds.map _) _ (by simpa using hb), List.getElem_map,
      Int.floor_intCast, List.getD_eq_getElem ds _ hb]

theorem joinFields_eq {fs : List Name} {years days Y D : Axis} {ys ds : List ℕ} (hY : Y.values = ys.map fun i : ℕ => years.values.getD i 0)
    (hk : D.auxarrays.map Prod.fst = fs) (hl : D.len = ds.length)
    (hd : ∀ b < ds.length, dateAt D fs b = dateAt days fs (ds.getD b 0)) : joinFields Y D = combined fs years days ys ds := by
  unfold joinFields combined
  have hYl : Y.len = ys.length := by unfold Axis.len; rw [hY, List.length_map]
  rw [hY, List.flatMap_map, hl]
  congr 1
  conv_rhs => rw [← hk, List.map_map]
  refine List.map_congr_left fun p hp => ?_
  have hpf : p.1 ∈ fs := by rw [← hk]; exact List.mem_map_of_mem hp
  show (p.1, _) = (p.1, _)
  congr 1
  rw [hYl]
  have : ((List.range ds.length).map fun d => (fieldAt D p.1 d : ℚ)) =
      ds.map fun i : ℕ => ((⌊((days.auxarrays.lookup p.1).getD []).getD i 0⌋ : ℤ) : ℚ) := by
    refine List.ext_getElem (by simp) fun b hb1 hb2 => ?_
    have hb : b < ds.length := by simpa using hb1
    have e := hd b hb
    rw [dateAt_eq, dateAt_eq] at e
    simp only [List.getElem_map, List.getElem_range]
    rw [List.map_inj_left.1 e _ hpf, List.getD_eq_getElem ds _ hb]
    rfl
  rw [this]
  simp only [List.flatMap_def, List.map_const', List.length_range]

theorem cons_lt {a b : ℤ} {l m : List ℤ} (h : a < b ∨ a = b ∧ l < m) : a :: l < b :: m := List.cons_lt_cons_iff.2 h

theorem div_lt_of {n m k : ℕ} (h : k < n * m) : k / m < n ∧ k % m < m := by
  have hm : 0 < m := Nat.pos_of_ne_zero fun e => by simp [e] at h
  exact ⟨Nat.div_lt_of_lt_mul (by rwa [Nat.mul_comm]), Nat.mod_lt _ hm⟩

theorem Grid.at {fs : List Name} {years days j : Axis} {ys ds : List ℕ} (g : Grid fs years days ys ds j) {i : ℕ} (hi : i < j.len) :
    ((yearAt j i : ℤ) : ℚ) = years.values.getD (ys.getD (i / ds.length) 0) 0 ∧ dateAt j fs i = dateAt days fs (ds.getD (i % ds.length) 0) := by
  rw [g.len] at hi
  obtain ⟨h1, h2⟩ := div_lt_of hi
  have := g.year _ h1 _ h2
  have h' := g.day _ h1 _ h2
  rw [Nat.div_add_mod' i ds.length] at this h'
  exact ⟨this, h'⟩

theorem Grid.dates {fs : List Name} {years days j : Axis} {ys ds : List ℕ} (g : Grid fs years days ys ds j)
    (hyo : years.values.Pairwise (· < ·)) (hdo : ((List.range days.len).map (dateAt days fs)).Pairwise (· < ·))
    (h3 : ys.Pairwise (· < ·)) (h4 : ds.Pairwise (· < ·)) (h5 : ∀ i ∈ ys, i < years.len) (h6 : ∀ i ∈ ds, i < days.len) :
    ((List.range j.len).map (dateAt j ("year".toList :: fs))).Pairwise (· < ·) := by
  rw [List.pairwise_map]
  refine List.Pairwise.imp_of_mem ?_ List.pairwise_lt_range
  intro i i' hi hi' hlt
  have hi : i < j.len := by simpa using hi
  have hi' : i' < j.len := by simpa using hi'
  rw [dateAt_cons, dateAt_cons]
  obtain ⟨a1, a2⟩ := g.at hi
  obtain ⟨b1, b2⟩ := g.at hi'
  rw [g.len] at hi hi'
  obtain ⟨d1, d2⟩ := div_lt_of hi
  obtain ⟨e1, e2⟩ := div_lt_of hi'
  have hle : i / ds.length ≤ i' / ds.length := Nat.div_le_div_right hlt.le
  apply cons_lt
  rcases hle.lt_or_eq with h | h
  · left
    have : (yearAt j i : ℚ) < yearAt j i' := by
      rw [a1, b1]
      rw [List.getD_eq_getElem ys _ d1, List.getD_eq_getElem ys _ e1]
      have := List.pairwise_iff_getElem.1 h3 _ _ d1 e1 h
      rw [List.getD_eq_getElem years.values _ (h5 _ (List.getElem_mem d1)), List.getD_eq_getElem years.values _ (h5 _ (List.getElem_mem e1))]
      exact List.pairwise_iff_getElem.1 hyo _ _ _ _ this
    exact_mod_cast this
  · right
    constructor
    · have : (yearAt j i : ℚ) = yearAt j i' := by rw [a1, b1, h]
      exact_mod_cast this
    · rw [a2, b2]
      have hm : i % ds.length < i' % ds.length := by
        have := Nat.div_add_mod i ds.length
        have h' := Nat.div_add_mod i' ds.length
        rw [h] at this
        omega
      rw [List.getD_eq_getElem ds _ d2, List.getD_eq_getElem ds _ e2]
      have := List.pairwise_iff_getElem.1 h4 _ _ d2 e2 hm
      have h7 := List.pairwise_iff_getElem.1 hdo ds[i % ds.length] ds[i' % ds.length] (by simpa using h6 _ (List.getElem_mem d2))
        (by simpa using h6 _ (List.getElem_mem e2)) this
      simpa using h7

/-! ### slices of the joined axis -/

theorem same_of_inc {t : Axis} (hv : t.values.Pairwise (· < ·)) (fs : List Name) :
    ∀ i < t.len, ∀ j < t.len, t.values.getD i 0 = t.values.getD j 0 → dateAt t fs i = dateAt t fs j := by
  intro i hi j hj h
  unfold Axis.len at hi hj
  have hnd : t.values.Nodup := hv.imp fun h => ne_of_lt h
  rw [List.getD_eq_getElem t.values _ hi, List.getD_eq_getElem t.values _ hj, hnd.getElem_inj_iff] at h
  rw [h]

theorem slice_date {t : Axis} (hv : t.values.Pairwise (· < ·)) (nr : List ℚ → ℚ) {sel : List ℕ} (hs : ∀ i ∈ sel, i < t.len) (fs : List Name)
    {k : ℕ} (hk : k < sel.length) : dateAt (sliceAxis nr t sel) fs k = dateAt t fs (sel.getD k 0) := by
  have h := TimeMatch.rows_slice nr t fs sel hs (same_of_inc hv fs)
  have e := congrArg (fun l : List TimeC.Row => l.getD k []) h
  rw [rowsOf_getD _ _ (by rw [sliceAxis_len]; exact hk), List.getD_eq_getElem (sel.map _) _ (by simpa using hk), List.getElem_map] at e
  rw [e, List.getD_eq_getElem sel _ hk]

theorem slice_year {t : Axis} (hv : t.values.Pairwise (· < ·)) (nr : List ℚ → ℚ) {sel : List ℕ} (hs : ∀ i ∈ sel, i < t.len)
    {k : ℕ} (hk : k < sel.length) : yearAt (sliceAxis nr t sel) k = yearAt t (sel.getD k 0) := by
  have := slice_date hv nr hs ["year".toList] hk
  rw [dateAt_cons, dateAt_cons] at this
  exact (List.cons.inj this).1

/-- axes can be remade from part of the times -/
theorem remakes_slice {t : Axis} {mk : List (Name × List ℚ) → Axis} (h : Remakes t mk) (hv : t.values.Pairwise (· < ·)) (nr : List ℚ → ℚ)
    {sel : List ℕ} (hs : ∀ i ∈ sel, i < t.len) : Remakes (sliceAxis nr t sel) mk := by
  intro fs idx h1 h2 h3 h4 h5 h6 aux
  rw [sliceAxis_keys] at h3
  have hb : ∀ i ∈ idx, i < sel.length := fun i hi => by have := h5 i hi; rwa [sliceAxis_len] at this
  have hin : ∀ i ∈ idx.map (fun i : ℕ => sel.getD i 0), i < t.len := by
    intro i hi
    obtain ⟨k, hk, rfl⟩ := List.mem_map.1 hi
    rw [List.getD_eq_getElem sel _ (hb k hk)]
    exact hs _ (List.getElem_mem _)
  have hd : idx.map (dateAt (sliceAxis nr t sel) fs) = (idx.map (fun i : ℕ => sel.getD i 0)).map (dateAt t fs) := by
    rw [List.map_map]
    exact List.map_congr_left fun i hi => slice_date hv nr hs fs (hb i hi)
  have := h fs (idx.map fun i : ℕ => sel.getD i 0) h1 h2 h3 (by simpa using h4) hin (by rw [← hd]; exact h6)
  have haux : aux = fs.map fun f => (f, (idx.map fun i : ℕ => sel.getD i 0).map fun i : ℕ => ((⌊((t.auxarrays.lookup f).getD []).getD i 0⌋ : ℤ) : ℚ)) := by
    refine List.map_congr_left fun f _ => ?_
    rw [List.map_map]
    congr 1
    refine List.map_congr_left fun i hi => ?_
    have := slice_date hv nr hs [f] (hb i hi)
    have h' := (List.cons.inj this).1
    exact congrArg (fun n : ℤ => (n : ℚ)) h'
  rw [haux, sliceAxis_classes, hd]
  simp only [List.length_map] at this ⊢
  exact this

theorem six_cons : sixFields = "year".toList :: keptBy .clim := rfl

/-- without the year, the other fields are left -/
theorem kept_others {t : Axis} {fs : List Name} (hk : t.auxarrays.map Prod.fst = "year".toList :: fs) (hs : fs.Sublist sixFields)
    (hy : "year".toList ∉ fs) : fieldsKept t .clim = fs := by
  have hsub : fs.Sublist (keptBy .clim) := by
    rw [six_cons] at hs
    rcases List.sublist_cons_iff.1 hs with h | ⟨r, rfl, _⟩
    · exact h
    · exact absurd (List.mem_cons_self) hy
  unfold fieldsKept
  have h6 := TimeMatch.six_filter hs
  rw [six_cons, List.filter_cons_of_neg (by simpa using hy)] at h6
  refine Eq.trans (List.filter_congr fun f hf => ?_) h6
  rw [hk, decide_eq_decide, List.mem_cons]
  have : f ≠ "year".toList := fun e => absurd (show "year".toList ∈ keptBy .clim from e ▸ hf) (by decide)
  exact ⟨fun h => h.resolve_left this, Or.inr⟩

/-! ### reading the joined variable -/

theorem inc_ext {β : Type} [LinearOrder β] {l m : List β} (hl : l.Pairwise (· < ·)) (hm : m.Pairwise (· < ·)) (h : ∀ v, v ∈ l ↔ v ∈ m) : l = m := by
  refine List.Perm.eq_of_pairwise' (r := fun a b : β => a ≤ b) (hl.imp le_of_lt) (hm.imp le_of_lt) ?_
  exact (List.perm_ext_iff_of_nodup (hl.imp ne_of_lt) (hm.imp ne_of_lt)).2 h

/-- the years and days of some of the joined times, as positions on the axes of the years and days -/
theorem split_slice {x : Var α} {yi : ℕ} {years days : Axis} {fs : List Name} (hx : YearsAndDays x yi years days fs)
    {mk : List (Name × List ℚ) → Axis} {t : Axis} (g : Grid fs years days (List.range years.len) (List.range days.len) t) (hinc : t.values.Pairwise (· < ·)) (hm : Remakes t mk)
    (nr : List ℚ → ℚ) {sel : List ℕ} (hne : sel ≠ []) (hs : ∀ i ∈ sel, i < t.len) :
    ∃ (Y D : Axis) (ys ds : List ℕ), splitAxis nr mk (sliceAxis nr t sel) = some (Y, D) ∧ Y.classes = years.classes ∧
      Y.values = (ys.map fun i : ℕ => years.values.getD i 0) ∧ D.classes = days.classes ∧ D.auxarrays.map Prod.fst = fs ∧ D.len = ds.length ∧
      (∀ b < ds.length, dateAt D fs b = dateAt days fs (ds.getD b 0)) ∧ ys.Pairwise (· < ·) ∧ ds.Pairwise (· < ·) ∧
      (∀ i ∈ ys, i < years.len) ∧ (∀ i ∈ ds, i < days.len) ∧ (∀ i ∈ sel, i / days.len ∈ ys ∧ i % days.len ∈ ds) := by
  have htl : t.len = years.len * days.len := by simpa using g.len
  have hkt : (sliceAxis nr t sel).auxarrays.map Prod.fst = "year".toList :: fs := by rw [sliceAxis_keys]; exact g.fields
  have hkept : fieldsKept (sliceAxis nr t sel) .clim = fs := kept_others hkt hx.usual hx.noYear
  have hlen : (sliceAxis nr t sel).len = sel.length := sliceAxis_len nr t sel
  have hcls : (sliceAxis nr t sel).classes = days.classes := by rw [sliceAxis_classes, g.cls]
  obtain ⟨Y, D, h1, h2, -, h4⟩ := splitAxis_spec (t := sliceAxis nr t sel) nr (by rw [hlen]; exact List.length_pos_iff.2 hne)
    (by rw [hcls]; exact hx.plain) (by rw [hkt]; exact List.mem_cons_self) (by rw [hkept]; exact hx.some_) (remakes_slice hm hinc nr hs)
  rw [hkept] at h4
  have hb := good_binned h4
  have hsel : ∀ k < sel.length, sel.getD k 0 < t.len := fun k hk => by
    rw [List.getD_eq_getElem sel _ hk]; exact hs _ (List.getElem_mem _)
  have hat : ∀ i < t.len, i / days.len < years.len ∧ i % days.len < days.len ∧ ((yearAt t i : ℤ) : ℚ) = years.values.getD (i / days.len) 0 ∧
      dateAt t fs i = dateAt days fs (i % days.len) := by
    intro i hi
    obtain ⟨p1, p2⟩ := g.at hi
    rw [htl] at hi
    obtain ⟨q1, q2⟩ := div_lt_of hi
    rw [List.length_range] at p1 p2
    rw [List.getD_eq_getElem (List.range _) _ (by simpa using q1), List.getElem_range] at p1
    rw [List.getD_eq_getElem (List.range _) _ (by simpa using q2), List.getElem_range] at p2
    exact ⟨q1, q2, p1, p2⟩
  -- the positions
  have hyv : ∀ v, v ∈ Y.values ↔ ∃ i ∈ sel, v = years.values.getD (i / days.len) 0 := by
    intro v
    rw [h2.same]
    constructor
    · rintro ⟨k, hk, rfl⟩
      rw [hlen] at hk
      refine ⟨sel.getD k 0, by rw [List.getD_eq_getElem sel _ hk]; exact List.getElem_mem _, ?_⟩
      rw [slice_year hinc nr hs hk]
      exact (hat _ (hsel k hk)).2.2.1
    · rintro ⟨i, hi, rfl⟩
      obtain ⟨k, hk, rfl⟩ := List.getElem_of_mem hi
      refine ⟨k, by rw [hlen]; exact hk, ?_⟩
      rw [slice_year hinc nr hs hk, List.getD_eq_getElem sel _ hk]
      exact (hat _ (hs _ hi)).2.2.1.symm
  have hdv : ∀ v, v ∈ (List.range D.len).map (dateAt D fs) ↔ ∃ i ∈ sel, v = dateAt days fs (i % days.len) := by
    intro v
    rw [hb.same]
    constructor
    · rintro ⟨k, hk, rfl⟩
      rw [hlen] at hk
      refine ⟨sel.getD k 0, by rw [List.getD_eq_getElem sel _ hk]; exact List.getElem_mem _, ?_⟩
      rw [slice_date hinc nr hs fs hk]
      exact (hat _ (hsel k hk)).2.2.2
    · rintro ⟨i, hi, rfl⟩
      obtain ⟨k, hk, rfl⟩ := List.getElem_of_mem hi
      refine ⟨k, by rw [hlen]; exact hk, ?_⟩
      rw [slice_date hinc nr hs fs hk, List.getD_eq_getElem sel _ hk]
      exact (hat _ (hs _ hi)).2.2.2
  set ys := (List.range years.len).filter (fun i => decide (years.values.getD i 0 ∈ Y.values)) with hys
  set ds := (List.range days.len).filter (fun i => decide (dateAt days fs i ∈ (List.range D.len).map (dateAt D fs))) with hds
  have hysp : ys.Pairwise (· < ·) := List.pairwise_lt_range.sublist List.filter_sublist
  have hdsp : ds.Pairwise (· < ·) := List.pairwise_lt_range.sublist List.filter_sublist
  have hysb : ∀ i ∈ ys, i < years.len := fun i hi => by simpa using (List.mem_filter.1 hi).1
  have hdsb : ∀ i ∈ ds, i < days.len := fun i hi => by simpa using (List.mem_filter.1 hi).1
  have hYe : Y.values = ys.map fun i : ℕ => years.values.getD i 0 := by
    refine inc_ext h2.order ?_ fun v => ?_
    · rw [List.pairwise_map]
      refine List.Pairwise.imp_of_mem ?_ hysp
      intro a b ha hb' hab
      have ha := hysb a ha
      have hb' := hysb b hb'
      unfold Axis.len at ha hb'
      rw [List.getD_eq_getElem years.values _ ha, List.getD_eq_getElem years.values _ hb']
      exact List.pairwise_iff_getElem.1 hx.yorder _ _ _ _ hab
    · rw [List.mem_map]
      constructor
      · intro hv
        obtain ⟨i, hi, rfl⟩ := (hyv v).1 hv
        exact ⟨i / days.len, List.mem_filter.2 ⟨by simpa using (hat i (hs i hi)).1, by simpa using hv⟩, rfl⟩
      · rintro ⟨i, hi, rfl⟩
        simpa using (List.mem_filter.1 hi).2
  have hDe : (List.range D.len).map (dateAt D fs) = ds.map (dateAt days fs) := by
    refine inc_ext hb.order ?_ fun v => ?_
    · rw [List.pairwise_map]
      refine List.Pairwise.imp_of_mem ?_ hdsp
      intro a b ha hb' hab
      have := List.pairwise_iff_getElem.1 hx.ddates a b (by simpa using hdsb a ha) (by simpa using hdsb b hb') hab
      simpa using this
    · rw [List.mem_map (l := ds)]
      constructor
      · intro hv
        obtain ⟨i, hi, rfl⟩ := (hdv v).1 hv
        exact ⟨i % days.len, List.mem_filter.2 ⟨by simpa using (hat i (hs i hi)).2.1, by rw [decide_eq_true_eq]; exact hv⟩, rfl⟩
      · rintro ⟨i, hi, rfl⟩
        have := (List.mem_filter.1 hi).2
        rwa [decide_eq_true_eq] at this
  have hDl : D.len = ds.length := by simpa using congrArg List.length hDe
  refine ⟨Y, D, ys, ds, h1, ?_, hYe, h4.cls.trans hcls, h4.fields, hDl, ?_, hysp, hdsp, hysb, hdsb, ?_⟩
  · rw [hx.ykind]
    unfold splitAxis at h1
    rw [if_pos (by unfold hasField; rw [hkt]; simp)] at h1
    obtain ⟨d, _, e⟩ := Option.map_eq_some_iff.1 h1
    have e' : _ = Y := congrArg Prod.fst e
    rw [← e']
    rfl
  · intro b hb'
    have e := congrArg (fun l : List (List ℤ) => l.getD b []) hDe
    rw [List.getD_eq_getElem _ _ (by simpa [hDl] using hb'), List.getD_eq_getElem _ _ (by simpa using hb')] at e
    simp only [List.getElem_map, List.getElem_range] at e
    rw [e, List.getD_eq_getElem ds _ hb']
  · intro i hi
    obtain ⟨a1, a2, -, -⟩ := hat i (hs i hi)
    refine ⟨List.mem_filter.2 ⟨by simpa using a1, ?_⟩, List.mem_filter.2 ⟨by simpa using a2, ?_⟩⟩
    · rw [decide_eq_true_eq, hyv]; exact ⟨i, hi, rfl⟩
    · rw [decide_eq_true_eq, hdv]; exact ⟨i, hi, rfl⟩

theorem insert_at {β : Type} (l : List β) {i : ℕ} (a b : β) (hi : i < l.length) (n : ℕ) :
    ((l.set i a).insertIdx (i + 1) b)[n]? = if n < i then l[n]? else if n = i then some a else if n = i + 1 then some b else l[n - 1]? := by
  rw [List.getElem?_insertIdx]
  split_ifs with h1 h2 h3 h4 h5 h6 h7 h8 <;> try omega
  all_goals first | rw [List.getElem?_set_ne (by omega)] | (subst h3; rw [List.getElem?_set_self hi]) | rfl | (simp at *; omega)

theorem erase_set_at {β : Type} (l : List β) {i : ℕ} (a : β) (hi : i + 1 < l.length) (n : ℕ) :
    ((l.eraseIdx (i + 1)).set i a)[n]? = if n < i then l[n]? else if n = i then some a else l[n + 1]? := by
  have hl : (l.eraseIdx (i + 1)).length = l.length - 1 := List.length_eraseIdx_of_lt hi
  split_ifs with h1 h2
  · rw [List.getElem?_set_ne (by omega), List.getElem?_eraseIdx_of_lt (by omega)]
  · subst h2
    rw [List.getElem?_set_self (by omega)]
  · rw [List.getElem?_set_ne (by omega), List.getElem?_eraseIdx_of_ge (by omega)]

theorem join_view {x : Var α} {data : List ℕ → α} {yi : ℕ} {years days : Axis} {fs : List Name} (hx : YearsAndDays x yi years days fs)
    (hc : Contains x data) {mk mk' : List (Name × List ℚ) → Axis} (hj : Joins fs years days mk') {t : Axis}
    (g : Grid fs years days (List.range years.len) (List.range days.len) t) (hinc : t.values.Pairwise (· < ·)) (hm : Remakes t mk) (nr : List ℚ → ℚ) (junk : List ℕ → α)
    {I : List (List ℕ)} (hI : InRange (((x.axes.eraseIdx (yi + 1)).set yi t).map Axis.len) I) (hne : ∀ ind ∈ I, ind ≠ []) :
    ∃ r, joinView nr junk mk mk' x yi ⟨(x.axes.eraseIdx (yi + 1)).set yi t, I⟩ = some r ∧ IsRead (inOneAxis days.len yi data) I r := by
  have hl : yi + 1 < x.axes.length := (List.getElem?_eq_some_iff.1 hx.day).1
  set A := (x.axes.eraseIdx (yi + 1)).set yi t with hA
  have hAl : A.length = x.axes.length - 1 := by rw [hA, List.length_set, List.length_eraseIdx_of_lt hl]
  have hIl : I.length = A.length := by simpa using hI.length_eq
  have hAn : ∀ n, A[n]? = if n < yi then x.axes[n]? else if n = yi then some t else x.axes[n + 1]? := erase_set_at x.axes t hl
  have hbound : ∀ n (a : Axis), A[n]? = some a → ∀ i ∈ I.getD n [], i < a.len := by
    intro n a ha i hi
    obtain ⟨h1, h2⟩ := List.getElem?_eq_some_iff.1 ha
    have hn : n < I.length := by omega
    have := (List.forall₂_iff_get.1 hI).2 n hn (by simpa using h1) i (by rw [List.getD_eq_getElem _ _ hn] at hi; exact hi)
    simpa [h2] using this
  have hIne : ∀ n < I.length, I.getD n [] ≠ [] := fun n hn => hne _ (by rw [List.getD_eq_getElem I _ hn]; exact List.getElem_mem _)
  set sel := I.getD yi [] with hsel
  have hAy : A[yi]? = some t := by rw [hAn]; simp
  have hsb : ∀ i ∈ sel, i < t.len := hbound yi t hAy
  have hsne : sel ≠ [] := hIne yi (by omega)
  obtain ⟨Y, D, ys, ds, h1, hYc, hYv, hDc, hDf, hDl, hDd, hysp, hdsp, hysb, hdsb, hmem⟩ := split_slice hx g hinc hm nr hsne hsb
  have hYl : Y.len = ys.length := by unfold Axis.len; rw [hYv, List.length_map]
  obtain ⟨i0, hi0⟩ := List.exists_mem_of_ne_nil _ hsne
  have hysne : ys ≠ [] := List.ne_nil_of_mem (hmem i0 hi0).1
  have hdsne : ds ≠ [] := List.ne_nil_of_mem (hmem i0 hi0).2
  -- the request for the input
  set R := (A.set yi Y).insertIdx (yi + 1) D with hR
  set J := (I.set yi (List.range Y.len)).insertIdx (yi + 1) (List.range D.len) with hJ
  have hRn : ∀ n, R[n]? = if n < yi then A[n]? else if n = yi then some Y else if n = yi + 1 then some D else A[n - 1]? :=
    insert_at A Y D (by omega)
  have hJn : ∀ n, J[n]? = if n < yi then I[n]? else if n = yi then some (List.range Y.len) else if n = yi + 1 then some (List.range D.len)
      else I[n - 1]? := insert_at I _ _ (by omega)
  have hRx : ∀ n, n ≠ yi → n ≠ yi + 1 → R[n]? = x.axes[n]? := by
    intro n e1 e2
    rw [hRn]
    split_ifs with h
    · rw [hAn, if_pos h]
    · rw [hAn, if_neg (by omega), if_neg (by omega), show n - 1 + 1 = n by omega]
  have hJl : J.length = x.axes.length := by
    rw [hJ, List.length_insertIdx_of_le_length (by rw [List.length_set]; omega), List.length_set]; omega
  have hcl : R.map Axis.classes = x.axes.map Axis.classes := by
    refine List.ext_getElem? fun n => ?_
    rw [List.getElem?_map, List.getElem?_map]
    by_cases e1 : n = yi
    · rw [e1, hRn, if_neg (by omega), if_pos rfl, hx.year]
      exact congrArg some hYc
    · by_cases e2 : n = yi + 1
      · rw [e2, hRn, if_neg (by omega), if_neg (by omega), if_pos rfl, hx.day]
        exact congrArg some hDc
      · rw [hRx n e1 e2]
  set pos : ℕ → List ℕ := fun n => if n = yi then ys else if n = yi + 1 then ds else J.getD n [] with hpos
  have hJy : J.getD yi [] = List.range Y.len := by
    rw [List.getD_eq_getElem?_getD, hJn, if_neg (by omega), if_pos rfl]; rfl
  have hJd : J.getD (yi + 1) [] = List.range D.len := by
    rw [List.getD_eq_getElem?_getD, hJn, if_neg (by omega), if_neg (by omega), if_pos rfl]; rfl
  have hJo : ∀ n, n ≠ yi → n ≠ yi + 1 → J.getD n [] = I.getD (if n < yi then n else n - 1) [] := by
    intro n e1 e2
    rw [List.getD_eq_getElem?_getD, hJn, List.getD_eq_getElem?_getD]
    split_ifs <;> rfl
  have hJne : ∀ ind ∈ J, ind ≠ [] := by
    intro ind hind
    obtain ⟨n, hn, rfl⟩ := List.getElem_of_mem hind
    rw [← List.getD_eq_getElem J [] hn]
    by_cases e1 : n = yi
    · rw [e1, hJy]
      intro e
      rw [List.range_eq_nil, hYl] at e
      exact hysne (List.length_eq_zero_iff.1 e)
    · by_cases e2 : n = yi + 1
      · rw [e2, hJd]
        intro e
        rw [List.range_eq_nil, hDl] at e
        exact hdsne (List.length_eq_zero_iff.1 e)
      · rw [hJo n e1 e2]
        exact hIne _ (by split_ifs <;> omega)
  have hall : ∀ {l : List ℕ} {m : ℕ}, l.Pairwise (· < ·) → (∀ i ∈ l, i < m) → l.length = m → l = List.range m := by
    intro l m hp hb he
    have hs : l.Subperm (List.range m) := List.subperm_of_subset (hp.imp ne_of_lt) fun i hi => by simpa using hb i hi
    have := hs.perm_of_length_le (by simp [he])
    exact List.Perm.eq_of_pairwise' (r := fun a b : ℕ => a ≤ b) (hp.imp le_of_lt) (List.pairwise_lt_range.imp le_of_lt) this
  have hnt : TimeMatch.isTime years = false := by
    unfold TimeMatch.isTime
    rw [hx.ykind]
    decide
  have htd : TimeMatch.isTime days = true := by
    unfold TimeMatch.isTime
    exact decide_eq_true hx.time
  obtain ⟨r, hr1, hr2, hr3⟩ := read_places nr junk hc hx.reg hcl J hJl hJne pos (by
    intro n a b ha hb
    by_cases e1 : n = yi
    · subst e1
      rw [hx.year] at ha
      rw [hRn, if_neg (by omega), if_pos rfl] at hb
      obtain rfl := Option.some.inj ha
      obtain rfl := Option.some.inj hb
      rw [hJy, TimeMatch.slice_all]
      simp only [hpos, if_pos]
      unfold TimeMatch.axEq TimeMatch.mapTo
      rw [hnt]
      simp only [Bool.false_eq_true, if_false]
      cases hb : Axis.axEq years Y with
      | true =>
        left
        refine ⟨rfl, ?_⟩
        have := (axEq_sound hb (hx.reg.cls _ (List.mem_of_getElem? hx.year))).2.1
        have hYl' := hYl
        unfold Axis.len at hYl' ⊢
        rw [← this]
        exact hall hysp hysb (by omega)
      | false =>
        right
        exact ⟨rfl, axisMapTo_slice years Y ys (hx.reg.cls _ (List.mem_of_getElem? hx.year)) hYc hYv hysb hx.ytol hx.ysep⟩
    · by_cases e2 : n = yi + 1
      · subst e2
        rw [hx.day] at ha
        rw [hRn, if_neg (by omega), if_neg (by omega), if_pos rfl] at hb
        obtain rfl := Option.some.inj ha
        obtain rfl := Option.some.inj hb
        rw [hJd, TimeMatch.slice_all]
        simp only [hpos, if_neg e1, if_pos]
        unfold TimeMatch.axEq TimeMatch.mapTo
        rw [htd]
        simp only [if_true]
        cases hb : TimeMatch.timeEq days D with
        | true =>
          left
          refine ⟨rfl, ?_⟩
          have hlen : days.len = D.len := by
            unfold TimeMatch.timeEq at hb
            rw [Bool.or_eq_true] at hb
            rcases hb with hb | hb
            · rw [decide_eq_true_eq] at hb; rw [← hb]
            · simp only [Bool.and_eq_true, decide_eq_true_eq] at hb
              exact hb.1.2
          rw [← hlen]
          exact hall hdsp hdsb (by omega)
        | false =>
          right
          refine ⟨rfl, ?_⟩
          have hcf : commonFields days D = fs := by
            unfold commonFields
            rw [allowed_plain hx.plain]
            refine Eq.trans (List.filter_congr fun f _ => ?_) (TimeMatch.six_filter hx.usual)
            unfold hasField
            rw [hx.fields, hDf, Bool.and_self]
          rw [timeMap_rows (fs := fs) hDc.symm (by rw [hx.fields, hDf]; exact fun f h => h) hcf hx.some_ hx.dvalues hx.ddates (fun k => ds.getD k 0) ?_]
          · congr 1
            rw [hDl]
            refine List.ext_getElem (by simp) fun k g1 g2 => ?_
            rw [List.getElem_map, List.getElem_range, List.getD_eq_getElem ds _ g2]
          · intro k hk
            rw [hDl] at hk
            refine ⟨hdsb _ (by rw [List.getD_eq_getElem ds _ hk]; exact List.getElem_mem _), (hDd k hk).symm⟩
      · left
        rw [hRx n e1 e2, ha] at hb
        obtain rfl := Option.some.inj hb
        refine ⟨?_, by simp only [hpos]; rw [if_neg e1, if_neg e2]⟩
        rw [TimeMatch.axEq_regular hx.reg (List.mem_of_getElem? ha) (List.mem_of_getElem? ha)]
        simp)
    (by
      intro n hn
      simp only [hpos]
      split_ifs with e1 e2
      · rw [e1, hJy, List.length_range, hYl]
      · rw [e2, hJd, List.length_range, hDl]
      · rfl)
    (by
      intro n a ha i hi
      simp only [hpos] at hi
      split_ifs at hi with e1 e2
      · rw [e1, hx.year] at ha
        obtain rfl := Option.some.inj ha
        exact hysb i hi
      · rw [e2, hx.day] at ha
        obtain rfl := Option.some.inj ha
        exact hdsb i hi
      · rw [hJo n e1 e2] at hi
        refine hbound _ a ?_ i hi
        rw [hAn]
        split_ifs with h1 h2 h3 <;> first | exact ha | omega | (rw [show n - 1 + 1 = n by omega]; exact ha))
  -- where the times are
  have hjf : joinFields Y D = combined fs years days ys ds := joinFields_eq hYv hDf hDl hDd
  obtain ⟨j1, j2, j3, j4⟩ := hj ys ds hysne hdsne hysp hdsp hysb hdsb
  rw [← hjf] at j1 j2 j3 j4
  have gu : Grid fs years days ys ds (joinAxes mk' Y D) := grid_of j1 (j2.trans hjf) j3 hx.whole hx.noYear hysb
  have hwhere : ∀ k, ∃ a b, k < sel.length → a < ys.length ∧ b < ds.length ∧ ys.getD a 0 = sel.getD k 0 / days.len ∧
      ds.getD b 0 = sel.getD k 0 % days.len := by
    intro k
    by_cases hk : k < sel.length
    · have := hmem _ (List.getElem_mem hk)
      obtain ⟨a, ha, ea⟩ := List.getElem_of_mem this.1
      obtain ⟨b, hb, eb⟩ := List.getElem_of_mem this.2
      refine ⟨a, b, fun _ => ⟨ha, hb, ?_, ?_⟩⟩
      · rw [List.getD_eq_getElem ys _ ha, ea, List.getD_eq_getElem sel _ hk]
      · rw [List.getD_eq_getElem ds _ hb, eb, List.getD_eq_getElem sel _ hk]
    · exact ⟨0, 0, fun h => absurd h hk⟩
  choose pa pb hab using hwhere
  have htm : TimeMatch.timeMap (joinAxes mk' Y D) (sliceAxis nr t sel) = some ((List.range sel.length).map fun k => pa k * ds.length + pb k) := by
    have hkt : (sliceAxis nr t sel).auxarrays.map Prod.fst = "year".toList :: fs := by rw [sliceAxis_keys]; exact g.fields
    have hus : ("year".toList :: fs).Sublist sixFields := by
      have := hx.usual
      rw [six_cons] at this ⊢
      rcases List.sublist_cons_iff.1 this with h | ⟨r, h, _⟩
      · exact List.Sublist.cons_cons _ h
      · exact absurd (by rw [h]; exact List.mem_cons_self) hx.noYear
    have hcf : commonFields (joinAxes mk' Y D) (sliceAxis nr t sel) = "year".toList :: fs := by
      unfold commonFields
      rw [allowed_plain (by rw [gu.cls]; exact hx.plain)]
      refine Eq.trans (List.filter_congr fun f _ => ?_) (TimeMatch.six_filter hus)
      unfold hasField
      rw [gu.fields, hkt, Bool.and_self]
    rw [timeMap_rows (fs := "year".toList :: fs) (by rw [gu.cls, sliceAxis_classes, g.cls]) (by rw [gu.fields, hkt]; exact fun f h => h) hcf
      (List.cons_ne_nil _ _) j4 (gu.dates hx.yorder hx.ddates hysp hdsp hysb hdsb) (fun k => pa k * ds.length + pb k) ?_, sliceAxis_len]
    intro k hk
    rw [sliceAxis_len] at hk
    obtain ⟨a1, a2, a3, a4⟩ := hab k hk
    have hlt : pa k * ds.length + pb k < ys.length * ds.length := by
      have : (pa k + 1) * ds.length ≤ ys.length * ds.length := Nat.mul_le_mul_right _ a1
      rw [Nat.add_mul] at this
      omega
    refine ⟨by rw [gu.len]; exact hlt, ?_⟩
    have hst : sel.getD k 0 < t.len := hsb _ (by rw [List.getD_eq_getElem sel _ hk]; exact List.getElem_mem _)
    rw [slice_date hinc nr hsb _ hk, dateAt_cons, dateAt_cons]
    obtain ⟨b1, b2⟩ := g.at hst
    have htl : t.len = years.len * days.len := by simpa using g.len
    rw [htl] at hst
    obtain ⟨q1, q2⟩ := div_lt_of hst
    rw [List.length_range] at b1 b2
    rw [List.getD_eq_getElem (List.range _) _ (by simpa using q1), List.getElem_range] at b1
    rw [List.getD_eq_getElem (List.range _) _ (by simpa using q2), List.getElem_range] at b2
    have c1 := gu.year _ a1 _ a2
    have c2 := gu.day _ a1 _ a2
    rw [a3] at c1
    rw [a4] at c2
    rw [c2, b2]
    congr 1
    rw [← b1] at c1
    exact_mod_cast c1
  have hrs : r.shape.getD (yi + 1) 0 = ds.length := by
    rw [hr2, List.getD_eq_getElem (J.map _) _ (by rw [List.length_map]; omega), List.getElem_map, ← List.getD_eq_getElem J [], hJd,
      List.length_range, hDl]
  refine ⟨_, by
    unfold joinView
    simp only
    rw [hAy, Option.bind_some, ← hsel, h1, Option.bind_some, ← hR, ← hJ, hr1, Option.bind_some, htm, Option.map_some, hrs], ?_, ?_⟩
  · -- the shape
    unfold takeAxis
    simp only [List.set_set]
    rw [hr2, List.length_map, List.length_range]
    refine List.ext_getElem? fun n => ?_
    rw [erase_set_at (J.map List.length) _ (by rw [List.length_map]; omega)]
    rw [List.getElem?_map, List.getElem?_map, List.getElem?_map, hJn, hJn]
    split_ifs with e1 e2 e3 e4 e5 e6 <;> first | rfl | omega | skip
    · rw [e2, hsel, List.getD_eq_getElem I _ (by omega), List.getElem?_eq_getElem (by omega)]; rfl
  · intro k hk
    have hkl : k.length = I.length := by simpa using hk.length_eq
    have hkb : ∀ n, n < I.length → k.getD n 0 < (I.getD n []).length := by
      intro n hn
      have := (inBounds_iff.1 hk).2 n (by simpa using hn)
      rw [List.getD_eq_getElem (I.map _) _ (by simpa using hn), List.getElem_map] at this
      rw [List.getD_eq_getElem I _ hn]; exact this
    have hcell : ∀ n, n < I.length → (cell I k).getD n 0 = (I.getD n []).getD (k.getD n 0) 0 := by
      intro n hn
      unfold cell
      rw [List.getD_eq_getElem (List.zipWith _ _ _) _ (by simp; omega), List.getElem_zipWith, List.getD_eq_getElem I _ hn,
        List.getD_eq_getElem k _ (by omega)]
    have hcl' : (cell I k).length = I.length := by unfold cell; simp; omega
    have hky := hkb yi (by omega)
    rw [← hsel] at hky
    obtain ⟨a1, a2, a3, a4⟩ := hab _ hky
    have hdpos : 0 < ds.length := by omega
    unfold takeAxis
    simp only
    rw [List.getD_eq_getElem ((List.range sel.length).map _) _ (by simpa using hky), List.getElem_map, List.getElem_range]
    set q := pa (k.getD yi 0) * ds.length + pb (k.getD yi 0) with hq
    have hqd : q / ds.length = pa (k.getD yi 0) := by
      rw [hq, Nat.mul_comm, Nat.mul_add_div hdpos, Nat.div_eq_of_lt a2, Nat.add_zero]
    have hqm : q % ds.length = pb (k.getD yi 0) := by
      rw [hq, Nat.mul_comm, Nat.mul_add_mod, Nat.mod_eq_of_lt a2]
    have hset : (k.set yi q).getD yi 0 = q := by
      rw [List.getD_eq_getElem _ _ (by rw [List.length_set]; omega), List.getElem_set_self]
    rw [hset, hqd, hqm, List.set_set]
    set k' := (k.set yi (pa (k.getD yi 0))).insertIdx (yi + 1) (pb (k.getD yi 0)) with hk'
    have hk'n : ∀ n, k'[n]? = if n < yi then k[n]? else if n = yi then some (pa (k.getD yi 0)) else if n = yi + 1 then some (pb (k.getD yi 0))
      else k[n - 1]? := insert_at k _ _ (by omega)
    have hk'l : k'.length = x.axes.length := by
      rw [hk', List.length_insertIdx_of_le_length (by rw [List.length_set]; omega), List.length_set]; omega
    have hk'b : InBounds (J.map List.length) k' := by
      rw [inBounds_iff]
      refine ⟨by simp [hk'l, hJl], fun n hn => ?_⟩
      have hn' : n < J.length := by simpa using hn
      rw [List.getD_eq_getElem (J.map _) _ hn, List.getElem_map, ← List.getD_eq_getElem J [] hn', List.getD_eq_getElem?_getD (l := k'), hk'n]
      by_cases e1 : n = yi
      · rw [e1, hJy, if_neg (by omega), if_pos rfl, List.length_range, hYl]
        exact a1
      · by_cases e2 : n = yi + 1
        · rw [e2, hJd, if_neg (by omega), if_neg (by omega), if_pos rfl, List.length_range, hDl]
          exact a2
        · rw [hJo n e1 e2]
          split_ifs with h
          · have := hkb n (by omega)
            rwa [List.getD_eq_getElem?_getD] at this
          · have := hkb (n - 1) (by omega)
            rwa [List.getD_eq_getElem?_getD] at this
    rw [hr3 _ hk'b]
    unfold inOneAxis
    congr 1
    refine List.ext_getElem? fun n => ?_
    rw [insert_at (cell I k) _ _ (by omega), hcell yi (by omega), ← hsel]
    by_cases hn : n < x.axes.length
    · rw [List.getElem?_map, List.getElem?_range hn, Option.map_some, List.getD_eq_getElem?_getD (l := k'), hk'n]
      by_cases e1 : n = yi
      · rw [if_neg (by omega), if_pos e1, if_neg (by omega), if_pos e1]
        simp only [hpos, if_pos e1, Option.getD_some]
        rw [a3]
      · by_cases e2 : n = yi + 1
        · rw [if_neg (by omega), if_neg e1, if_pos e2, if_neg (by omega), if_neg e1, if_pos e2]
          simp only [hpos, if_neg e1, if_pos e2, Option.getD_some]
          rw [a4]
        · simp only [hpos]
          rw [if_neg e1, if_neg e2, hJo n e1 e2]
          split_ifs with h
          · have := hcell n (by omega)
            rw [List.getElem?_eq_getElem (l := cell I k) (by omega), ← List.getD_eq_getElem (cell I k) 0, this, List.getD_eq_getElem?_getD (l := k)]
          · have := hcell (n - 1) (by omega)
            rw [List.getElem?_eq_getElem (l := cell I k) (by omega), ← List.getD_eq_getElem (cell I k) 0, this, List.getD_eq_getElem?_getD (l := k)]
    · rw [List.getElem?_eq_none (by simpa using hn)]
      rw [if_neg (by omega), if_neg (by omega), if_neg (by omega), List.getElem?_eq_none (by omega)]

/-- C113: `jointimeaxes(x)` puts one time axis in the place of the years and the days: all days of the first year, all days of the second
year, and so on. The cell of a time holds the value of its year and its day. -/
theorem join_correct (nr : List ℚ → ℚ) (junk : List ℕ → α) (mk mk' : List (Name × List ℚ) → Axis) (yaxis daxis : AxisId) (x : Var α)
    (data : List ℕ → α) (yi : ℕ) (years days : Axis) (fs : List Name) (hy : foundAt (whichaxis x.axes yaxis) = some yi)
    (hd : foundAt (whichaxis x.axes daxis) = some (yi + 1)) (hx : YearsAndDays x yi years days fs) (hc : Contains x data)
    (hj : Joins fs years days mk') (hm : Remakes (mk' (combined fs years days (List.range years.len) (List.range days.len))) mk) :
    ∃ t y, join nr junk mk mk' yaxis daxis x = some y ∧ y.axes = (x.axes.eraseIdx (yi + 1)).set yi t ∧
      t.classes = days.classes ∧ t.auxarrays.map Prod.fst = "year".toList :: fs ∧ t.len = years.len * days.len ∧
      (∀ a < years.len, ∀ b < days.len, (yearAt t (a * days.len + b) : ℚ) = years.values.getD a 0 ∧
        dateAt t fs (a * days.len + b) = dateAt days fs b) ∧
      Regular y.axes ∧ Contains y (inOneAxis days.len yi data) := by
  have hl : yi + 1 < x.axes.length := (List.getElem?_eq_some_iff.1 hx.day).1
  have hjf : joinFields years days = combined fs years days (List.range years.len) (List.range days.len) := by
    refine joinFields_eq ?_ hx.fields (by simp) ?_
    · refine List.ext_getElem (by simp [Axis.len]) fun i h1 h2 => ?_
      rw [List.getElem_map, List.getElem_range, List.getD_eq_getElem years.values _ h1]
    · intro b hb
      rw [List.getD_eq_getElem _ _ hb, List.getElem_range]
  obtain ⟨j1, j2, j3, j4⟩ := hj (List.range years.len) (List.range days.len) (by have := hx.ypos; simp; omega) (by have := hx.dpos; simp; omega)
    List.pairwise_lt_range List.pairwise_lt_range (by simp) (by simp)
  have g : Grid fs years days (List.range years.len) (List.range days.len) (joinAxes mk' years days) := by
    unfold joinAxes
    rw [hjf]
    exact grid_of j1 j2 j3 hx.whole hx.noYear (by simp)
  rw [← hjf] at j4 hm
  refine ⟨joinAxes mk' years days, Var.ofView junk ((x.axes.eraseIdx (yi + 1)).set yi (joinAxes mk' years days)) (joinView nr junk mk mk' x yi), ?_,
    rfl, g.cls, g.fields, by simpa using g.len, ?_, ?_, contains_ofView junk _ _ _ fun I hI hne => join_view hx hc hj g j4 hm nr junk hI hne⟩
  · unfold join
    rw [hy, Option.bind_some, hd, Option.bind_some, hx.year, Option.bind_some, hx.day, Option.bind_some, if_pos ⟨rfl, hx.cal⟩]
  · intro a ha b hb
    have h1 := g.year a (by simpa using ha) b (by simpa using hb)
    have h2 := g.day a (by simpa using ha) b (by simpa using hb)
    rw [List.length_range] at h1 h2
    rw [List.getD_eq_getElem (List.range _) _ (by simpa using ha), List.getElem_range] at h1
    rw [List.getD_eq_getElem (List.range _) _ (by simpa using hb), List.getElem_range] at h2
    exact ⟨h1, h2⟩
  · show Regular ((x.axes.eraseIdx (yi + 1)).set yi (joinAxes mk' years days))
    refine Along.regular_of_classes (A := x.axes.eraseIdx yi) ?_ (hx.reg.sublist (List.eraseIdx_sublist _ _))
    refine List.ext_getElem? fun n => ?_
    rw [List.getElem?_map, List.getElem?_map, erase_set_at x.axes _ hl, List.getElem?_eraseIdx]
    split_ifs with h1 h2
    · rfl
    · rw [h2, hx.day, Option.map_some, Option.map_some, g.cls]
    · rfl

/-! ### the time axes of pygeode -/

theorem onFields_twice (fs : List Name) (d : Calendar.DateDict) : onFields fs (onFields fs d) = onFields fs d := by
  unfold onFields
  refine congrArg _ (funext fun f => ?_)
  split_ifs with h
  · have : fieldOf f (dictOf fun f => if f ∈ fs then fieldOf f d else none) = _ := rfl
    by_cases hf : f ∈ sixFields
    · rw [fieldOf_dict hf, if_pos h]
    · have hn : CfFile.dateFields.lookup f = none := by
        rw [List.lookup_eq_none_iff]
        intro p hp
        simp only [bne_iff_ne, ne_eq]
        intro e
        refine hf ?_
        rw [e, ← dateFields_names]
        exact List.mem_map_of_mem hp
      unfold fieldOf
      rw [hn]
      rfl
  · rfl

section
variable {nr : List ℚ → ℚ} {n : Name} {T : Cf.TimeAx} {years : Axis} {fs : List Name} {ys ds : List ℕ}

/-- the combinations of valid years and days -/
theorem combined_good (hs : 1 ≤ (Calendar.getDates T.start).month ∧ (Calendar.getDates T.start).month ≤ 12)
    (hvT : ∀ d ∈ T.dates, ValidDate T.cal (Calendar.getDates d)) (hfs : (CfFile.timeAxis nr n T).auxarrays.map Prod.fst = fs)
    (hsub : fs.Sublist sixFields) (hno : "year".toList ∉ fs) (hwhole : ∀ v ∈ years.values, ((⌊v⌋ : ℤ) : ℚ) = v) (h1 : ys ≠ []) (h2 : ds ≠ [])
    (h5 : ∀ i ∈ ys, i < years.len) (h6 : ∀ i ∈ ds, i < (CfFile.timeAxis nr n T).len) :
    GoodFields (combined fs years (CfFile.timeAxis nr n T) ys ds) (ys.length * ds.length) ∧
    ∀ a < ys.length, ∀ b < ds.length,
      (dictOf fun f => ((combined fs years (CfFile.timeAxis nr n T) ys ds).lookup f).map fun col : List ℚ => ⌊col.getD (a * ds.length + b) 0⌋) =
        onFields ("year".toList :: fs) { T.dates.getD (ds.getD b 0) {} with year := some ⌊years.values.getD (ys.getD a 0) 0⌋ } := by
  set t := CfFile.timeAxis nr n T with ht
  have htl : t.len = T.dates.length := by unfold Axis.len; rw [ht, timeAxis_values hs hvT, List.length_map]
  have hkeys : (combined fs years t ys ds).map Prod.fst = "year".toList :: fs := by
    unfold combined
    rw [List.map_cons, List.map_map]
    exact congrArg _ (List.map_id fs)
  have hfield : ∀ f ∈ fs, ∀ i (hi : i < T.dates.length), fieldOf f T.dates[i] = some (fieldAt t f i) :=
    fun f hf i hi => timeAxis_field (by rw [← ht, hfs]; exact hf) hi
  constructor
  · refine ⟨by unfold combined; exact List.cons_ne_nil _ _, ?_, Nat.mul_pos (List.length_pos_iff.2 h1) (List.length_pos_iff.2 h2), ?_, ?_, ?_⟩
    · rw [hkeys]
      refine List.Sublist.cons_cons _ ?_
      rcases List.sublist_cons_iff.1 hsub with h | ⟨r, rfl, _⟩
      · exact h
      · exact absurd (List.mem_cons_self) hno
    · intro p hp
      rcases List.mem_cons.1 hp with rfl | hp
      · exact length_flatMap_const _ _ _ (by simp)
      · obtain ⟨f, _, rfl⟩ := List.mem_map.1 hp
        exact length_flatMap_const _ _ _ (by simp)
    · intro p hp v hv'
      rcases List.mem_cons.1 hp with rfl | hp
      · obtain ⟨i, hi, h2⟩ := List.mem_flatMap.1 hv'
        rw [(List.mem_replicate.1 h2).2]
        refine hwhole _ ?_
        have := h5 i hi
        unfold Axis.len at this
        rw [List.getD_eq_getElem years.values _ this]
        exact List.getElem_mem _
      · obtain ⟨f, _, rfl⟩ := List.mem_map.1 hp
        obtain ⟨i, _, h2⟩ := List.mem_flatMap.1 hv'
        obtain ⟨j, _, rfl⟩ := List.mem_map.1 h2
        rw [Int.floor_intCast]
    · intro p hp hpm v hv'
      rcases List.mem_cons.1 hp with rfl | hp
      · exact absurd (show "year".toList = "month".toList from hpm) (by decide)
      · obtain ⟨f, hf, rfl⟩ := List.mem_map.1 hp
        simp only at hpm
        subst hpm
        obtain ⟨i, _, h2⟩ := List.mem_flatMap.1 hv'
        obtain ⟨j, hj, rfl⟩ := List.mem_map.1 h2
        rw [Int.floor_intCast]
        have hjl : j < T.dates.length := by rw [← htl]; exact h6 j hj
        have h1 := hfield _ hf j hjl
        have h2 := (hvT _ (List.getElem_mem hjl)).month
        have h3 : (Calendar.getDates T.dates[j]).month = fieldAt t "month".toList j := by
          show T.dates[j].month.getD 1 = _
          have : T.dates[j].month = some (fieldAt t "month".toList j) := h1
          rw [this]
          rfl
        rw [h3] at h2
        exact h2
  · intro a ha b hb
    unfold onFields
    refine congrArg _ (funext fun f => ?_)
    have hbl : ds.getD b 0 < T.dates.length := by
      rw [← htl]; exact h6 _ (by rw [List.getD_eq_getElem ds _ hb]; exact List.getElem_mem _)
    unfold combined
    rw [List.lookup_cons]
    by_cases e : f = "year".toList
    · subst e
      rw [if_pos List.mem_cons_self]
      simp only [beq_self_eq_true, Option.map_some]
      rw [flatMap_getD ds.length _ 0 ys a b 0 (by simp) hb ha, List.getD_replicate _ hb]
      rfl
    · rw [beq_false_of_ne e]
      simp only
      by_cases hf : f ∈ fs
      · rw [if_pos (List.mem_cons_of_mem _ hf), lookup_map _ hf, Option.map_some, flatMap_getD ds.length _ 0 ys a b 0 (by simp) hb ha,
          List.getD_eq_getElem (ds.map _) _ (by simpa using hb), List.getElem_map, Int.floor_intCast]
        have hsix := hsub.subset hf
        have hd := hfield f hf _ hbl
        rw [List.getD_eq_getElem T.dates _ hbl]
        have hsame : ∀ d : Calendar.DateDict, ∀ y, fieldOf f { d with year := y } = fieldOf f d := by
          intro d y
          unfold sixFields at hsix
          simp only [List.mem_cons, List.not_mem_nil, or_false] at hsix
          rcases hsix with rfl | rfl | rfl | rfl | rfl | rfl
          · exact absurd rfl e
          all_goals rfl
        rw [hsame, hd]
        congr 1
        rw [List.getD_eq_getElem ds _ hb]
        rfl
      · rw [if_neg (by rw [List.mem_cons, not_or]; exact ⟨e, hf⟩)]
        have : (fs.map fun f => (f, ys.flatMap fun _ => ds.map fun i : ℕ => ((⌊((t.auxarrays.lookup f).getD []).getD i 0⌋ : ℤ) : ℚ))).lookup f = none := by
          rw [List.lookup_eq_none_iff]
          intro p hp
          obtain ⟨f', hf', rfl⟩ := List.mem_map.1 hp
          simp only [bne_iff_ne, ne_eq]
          exact fun e' => hf (e' ▸ hf')
        rw [this]
        rfl

end

/-- C113: the time axes of pygeode can be joined, if all years and days make valid dates. -/
theorem fromFields_joins (nr : List ℚ → ℚ) (n : Name) (T : Cf.TimeAx) (years : Axis) (fs : List Name)
    (hs : 1 ≤ (Calendar.getDates T.start).month ∧ (Calendar.getDates T.start).month ≤ 12)
    (hvT : ∀ d ∈ T.dates, ValidDate T.cal (Calendar.getDates d)) (hfs : (CfFile.timeAxis nr n T).auxarrays.map Prod.fst = fs)
    (hsub : fs.Sublist sixFields) (hno : "year".toList ∉ fs) (hwhole : ∀ v ∈ years.values, ((⌊v⌋ : ℤ) : ℚ) = v)
    (hyo : years.values.Pairwise (· < ·)) (hdo : ((List.range T.dates.length).map (dateAt (CfFile.timeAxis nr n T) fs)).Pairwise (· < ·))
    (hv : ∀ v ∈ years.values, ∀ d ∈ T.dates, ValidDate T.cal (Calendar.getDates { d with year := some ⌊v⌋ })) :
    Joins fs years (CfFile.timeAxis nr n T) (fromFields nr T.cal T.units) ∧
    (0 < years.len → 0 < T.dates.length → ∃ T' : Cf.TimeAx, T'.cal = T.cal ∧ T'.units = T.units ∧ T'.dates.length = years.len * T.dates.length ∧
      Remakes (fromFields nr T.cal T.units (combined fs years (CfFile.timeAxis nr n T) (List.range years.len)
        (List.range (CfFile.timeAxis nr n T).len))) (remake nr T')) := by
  set t := CfFile.timeAxis nr n T with ht
  have htl : t.len = T.dates.length := by unfold Axis.len; rw [ht, timeAxis_values hs hvT, List.length_map]
  rw [← htl] at hdo
  have hvalid : ∀ (ys ds : List ℕ), ys ≠ [] → ds ≠ [] → (∀ i ∈ ys, i < years.len) → (∀ i ∈ ds, i < t.len) →
      ∀ d ∈ fieldDates (combined fs years t ys ds) (ys.length * ds.length), ValidDate T.cal (Calendar.getDates d) ∧
        onFields ("year".toList :: fs) d = d := by
    intro ys ds h1 h2 h5 h6 d hd
    obtain ⟨hg, hcomb⟩ := combined_good (nr := nr) (n := n) hs hvT hfs hsub hno hwhole h1 h2 h5 h6
    obtain ⟨i, hi, rfl⟩ := List.mem_map.1 hd
    obtain ⟨q1, q2⟩ := div_lt_of (show i < ys.length * ds.length by simpa using hi)
    have := hcomb _ q1 _ q2
    rw [Nat.div_add_mod' i ds.length] at this
    rw [← ht] at this
    rw [this]
    refine ⟨?_, onFields_twice _ _⟩
    have hya : ys.getD (i / ds.length) 0 < years.values.length := h5 _ (by rw [List.getD_eq_getElem ys _ q1]; exact List.getElem_mem _)
    have hbl : ds.getD (i % ds.length) 0 < T.dates.length := by
      rw [← htl]; exact h6 _ (by rw [List.getD_eq_getElem ds _ q2]; exact List.getElem_mem _)
    refine onFields_valid _ _ _ ?_
    rw [List.getD_eq_getElem years.values _ hya, List.getD_eq_getElem T.dates _ hbl]
    exact hv _ (List.getElem_mem _) _ (List.getElem_mem _)
  refine ⟨?_, ?_⟩
  · intro ys ds h1 h2 h3 h4 h5 h6
    obtain ⟨hg, hcomb⟩ := combined_good (nr := nr) (n := n) hs hvT hfs hsub hno hwhole h1 h2 h5 h6
    rw [← ht] at hg hcomb
    have c1 : (fromFields nr T.cal T.units (combined fs years t ys ds)).classes = t.classes := by rw [fromFields_eq hg]; rfl
    have c2 := fromFields_aux hg nr T.cal T.units
    have c3 := fromFields_len hg nr T.cal T.units
    refine ⟨c1, c2, c3, ?_⟩
    have g := grid_of c1 c2 c3 hwhole hno h5
    have hrows := g.dates hyo hdo h3 h4 h5 h6
    have hmk := fromFields_eq hg nr T.cal T.units
    set N := ys.length * ds.length with hN
    set D := fieldDates (combined fs years t ys ds) N with hD
    have hDl : D.length = N := by rw [hD]; simp [fieldDates]
    rw [fromFields_values hg nr T.cal T.units, ← hD]
    rw [c3] at hrows
    rw [List.pairwise_iff_getElem] at hrows ⊢
    intro i j hi hj hij
    have hi : i < D.length := by simpa using hi
    have hj : j < D.length := by simpa using hj
    rw [List.getElem_map, List.getElem_map]
    have hlt := hrows i j (by simpa [← hDl] using hi) (by simpa [← hDl] using hj) hij
    rw [List.getElem_map, List.getElem_map, List.getElem_range, List.getElem_range] at hlt
    have hf : ∀ f ∈ ("year".toList :: fs), ∀ k (hk : k < D.length), fieldOf f D[k] =
        some (fieldAt (fromFields nr T.cal T.units (combined fs years t ys ds)) f k) := by
      intro f hf k hk
      rw [hmk]
      exact timeAxis_field (T := ⟨T.cal, T.units, D.headD {}, D⟩) (by rw [← hmk, g.fields]; exact hf) hk
    have hus : ("year".toList :: fs).Sublist sixFields := by
      have := hg.usual
      rw [← c2, g.fields] at this
      exact this
    have hE := earlier_fields hus (fun f hf' => hf f hf' i hi) (fun f hf' => hf f hf' j hj) (by
      rw [dateAt_eq, dateAt_eq] at hlt; exact hlt)
    obtain ⟨v1, v2⟩ := hvalid ys ds h1 h2 h5 h6 _ (List.getElem_mem hi)
    obtain ⟨w1, w2⟩ := hvalid ys ds h1 h2 h5 h6 _ (List.getElem_mem hj)
    rw [v2, w2] at hE
    have hlt' := (Calendar.count_ok T.cal).abs_lt v1 w1 hE
    refine div_lt_div_of_pos_right ?_ (Calendar.unitfactor_pos T.units)
    exact_mod_cast sub_lt_sub_right hlt' _
  · intro p1 p2
    have h1 : List.range years.len ≠ [] := by simp; omega
    have h2 : List.range t.len ≠ [] := by simp; omega
    obtain ⟨hg, -⟩ := combined_good (nr := nr) (n := n) hs hvT hfs hsub hno hwhole h1 h2 (by simp)
      (fun i hi => by rw [← ht]; simpa using hi)
    rw [← ht] at hg
    refine ⟨⟨T.cal, T.units, (fieldDates (combined fs years t (List.range years.len) (List.range t.len)) ((List.range years.len).length * (List.range t.len).length)).headD {},
      fieldDates (combined fs years t (List.range years.len) (List.range t.len)) ((List.range years.len).length * (List.range t.len).length)⟩,
      rfl, rfl, ?_, ?_⟩
    · simp [fieldDates, htl]
    · rw [fromFields_eq hg]
      refine remake_correct nr _ _ (start_month hg) ?_
      intro d hd
      exact (hvalid _ _ h1 h2 (by simp) (by simp) d hd).1

/-! ### a concrete case -/

def yearsEx : Axis := NetCdf.named nr0 "year".toList false [2000, 2001]

def dayDates : Cf.TimeAx :=
  ⟨.noleap, .days, { month := some 1, day := some 1 }, [{ month := some 1, day := some 5 }, { month := some 1, day := some 7 },
    { month := some 7, day := some 9 }]⟩

def daysEx : Axis := CfFile.timeAxis nr0 "day".toList dayDates

/-- two years, three days of the year, two latitudes -/
def gridEx : Var ℚ := ⟨[yearsEx, daysEx, mkEx [10, 20]], .values ⟨[2, 3, 2], fun k => (100 * k.getD 0 0 + 10 * k.getD 1 0 + k.getD 2 0 : ℕ)⟩⟩

theorem gridEx_contains : Contains gridEx fun k => ((100 * k.getD 0 0 + 10 * k.getD 1 0 + k.getD 2 0 : ℕ) : ℚ) :=
  ⟨by decide +kernel, fun _ _ => rfl⟩

theorem gridEx_input : YearsAndDays gridEx 0 yearsEx daysEx ["month".toList, "day".toList] := by
  refine ⟨⟨by decide +kernel, by decide +kernel⟩, rfl, rfl, rfl, by decide +kernel, by decide +kernel, separated_of (by decide +kernel),
    by decide +kernel, by decide +kernel, by decide +kernel, by decide +kernel, by decide +kernel, by decide +kernel, by decide +kernel,
    by decide +kernel, by decide +kernel, by decide +kernel, by decide +kernel, by decide +kernel⟩

theorem gridEx_joins : Joins ["month".toList, "day".toList] yearsEx daysEx (fromFields nr0 .noleap .days) ∧
    (0 < yearsEx.len → 0 < dayDates.dates.length → ∃ T' : Cf.TimeAx, T'.cal = .noleap ∧ T'.units = .days ∧
      T'.dates.length = yearsEx.len * dayDates.dates.length ∧
      Remakes (fromFields nr0 .noleap .days (combined ["month".toList, "day".toList] yearsEx daysEx (List.range yearsEx.len)
        (List.range daysEx.len))) (remake nr0 T')) :=
  fromFields_joins nr0 "day".toList dayDates yearsEx ["month".toList, "day".toList] (by decide +kernel) (by decide +kernel) (by decide +kernel)
    (by decide +kernel) (by decide +kernel) (by decide +kernel) (by decide +kernel) (by decide +kernel) (by decide +kernel)

example : ∃ mk t y, join nr0 (fun _ => 0) mk (fromFields nr0 .noleap .days) (.name "year".toList) (.name "day".toList) gridEx = some y ∧
    y.axes = [t, mkEx [10, 20]] ∧ Contains y (inOneAxis 3 0 fun k => ((100 * k.getD 0 0 + 10 * k.getD 1 0 + k.getD 2 0 : ℕ) : ℚ)) := by
  obtain ⟨T', -, -, -, hm⟩ := gridEx_joins.2 (by decide +kernel) (by decide +kernel)
  obtain ⟨t, y, h1, h2, -, -, -, -, -, h8⟩ := join_correct nr0 (fun _ => 0) (remake nr0 T') (fromFields nr0 .noleap .days) (.name "year".toList)
    (.name "day".toList) gridEx _ 0 yearsEx daysEx _ (by decide +kernel) (by decide +kernel) gridEx_input gridEx_contains gridEx_joins.1 hm
  exact ⟨_, t, y, h1, h2, h8⟩

/-- joining, for the dates of the joined axis given -/
def joinedEx (I : List (List ℕ)) : Option (List ℚ) :=
  (join nr0 (fun _ => 0) (remake nr0 ⟨.noleap, .days, { year := some 2000, month := some 1, day := some 5 }, []⟩) (fromFields nr0 .noleap .days)
    (.name "year".toList) (.name "day".toList) gridEx).bind fun y => (y.read nr0 (fun _ => 0) ⟨y.axes, I⟩).map fun r =>
      (List.range (I.headD []).length).map fun i => r.get [i, 0]

/-- the last day of the first year, the first two of the second -/
example : joinedEx [[2, 3, 4], [1]] = some [21, 101, 111] := by decide +kernel

end SplitTime
end PyGeode
