/-
C36, C37, C39, C66: rearranging a variable.
-/
import Verif.Props.Ufunc
import Verif.Spec.Var

namespace PyGeode
open Spec NArr Axis Combine

/-! ### regular axes -/

theorem _root_.PyGeode.Axis.compatible_self {a : Axis} (h : a.classes ≠ []) : compatible a a = true := by
  cases hcl : a.classes with
  | nil => exact absurd hcl h
  | cons c cs => simp [compatible, isParentOf, hcl]

theorem _root_.PyGeode.Axis.compatible_symm (a b : Axis) : compatible a b = compatible b a := by
  simp [compatible, Bool.or_comm]

theorem _root_.PyGeode.Spec.Regular.nodup {A : List Axis} (h : Regular A) : A.Nodup := by
  refine (List.Pairwise.imp_of_mem ?_ h.inc)
  intro a b ha _ hab e
  subst e
  rw [compatible_self (h.cls a ha)] at hab
  exact absurd hab (by simp)

theorem _root_.PyGeode.Spec.Regular.clean {A : List Axis} (h : Regular A) : Clean A := by
  refine ⟨h.cls, fun a ha b hb => ?_⟩
  by_cases e : a = b
  · exact Or.inl e
  · refine Or.inr ?_
    obtain ⟨i, hi, rfl⟩ := List.getElem_of_mem ha
    obtain ⟨j, hj, rfl⟩ := List.getElem_of_mem hb
    have hij : i ≠ j := by rintro rfl; exact e rfl
    have hp := List.pairwise_iff_getElem.1 h.inc
    rcases Nat.lt_or_ge i j with h' | h'
    · exact hp i j hi hj h'
    · rw [compatible_symm]
      exact hp j i hj hi (by omega)

theorem _root_.PyGeode.Spec.Regular.perm {A B : List Axis} (h : Regular A) (hp : B.Perm A) : Regular B :=
  ⟨fun a ha => h.cls a (hp.mem_iff.1 ha), (hp.pairwise_iff fun {x y} hxy => by rwa [compatible_symm]).2 h.inc⟩

theorem _root_.PyGeode.Spec.Regular.sublist {A B : List Axis} (h : Regular A) (hp : B.Sublist A) : Regular B :=
  ⟨fun a ha => h.cls a (hp.subset ha), h.inc.sublist hp⟩

namespace VarOps
variable {α β : Type}

/-! ### reading -/

theorem getD_cell (I : List (List ℕ)) (k : List ℕ) (j : ℕ) (hj : j < I.length) (hk : k.length = I.length) :
    (cell I k).getD j 0 = (I.getD j []).getD (k.getD j 0) 0 := by
  unfold cell
  rw [List.getD_eq_getElem (List.zipWith _ I k) _ (by rw [List.length_zipWith]; omega), List.getElem_zipWith,
    List.getD_eq_getElem I _ hj, List.getD_eq_getElem k _ (by omega)]

/-- the data of a variable with axes `A` as a function of positions on the axes `R` -/
def relabel (A R : List Axis) (data : List ℕ → α) (k : List ℕ) : α := data (A.map fun a => k.getD (R.idxOf a) 0)

theorem relabel_same (A R : List Axis) (data : List ℕ → α) (h : ∀ a ∈ A, a ∈ R) :
    SameData data A (relabel A R data) R := by
  intro pos
  unfold relabel
  congr 1
  refine List.map_congr_left fun a ha => ?_
  have hi := List.idxOf_lt_length_of_mem (h a ha)
  rw [List.getD_eq_getElem _ _ (by simpa using hi), List.getElem_map, List.getElem_idxOf]

theorem relabel_cell (A R : List Axis) (data : List ℕ → α) (I : List (List ℕ)) (k : List ℕ) (h : ∀ a ∈ A, a ∈ R)
    (hl : R.length = I.length) (hk : k.length = I.length) :
    data (A.map (posOf R I k)) = relabel A R data (cell I k) := by
  unfold relabel
  congr 1
  refine List.map_congr_left fun a ha => ?_
  have hi := List.idxOf_lt_length_of_mem (h a ha)
  rw [getD_cell I k _ (by omega) hk]
  rfl

/-- Reading a variable through a view of axes that include its own: the value at a cell is the variable's value at the
positions the cell has on the variable's axes. -/
theorem read_on (nr : List ℚ → ℚ) (junk : List ℕ → α) (x : Var α) (data : List ℕ → α) (hx : Contains x data)
    (hnd : x.axes.Nodup) (R : List Axis) (hR : Regular R) (hsub : ∀ a ∈ x.axes, a ∈ R)
    (I : List (List ℕ)) (hI : InRange (R.map Axis.len) I) (hne : ∀ ind ∈ I, ind ≠ []) :
    ∃ r, x.read nr junk ⟨R, I⟩ = some r ∧
      r.shape = List.zipWith (fun (n : ℕ) (b : Bool) => if b then n else 1) (I.map List.length)
        (R.map fun a => decide (a ∈ x.axes)) ∧
      ∀ k, InBounds (I.map List.length) k → r.get (bindex r.shape k) = relabel x.axes R data (cell I k) := by
  obtain ⟨r, h1, h2, h3⟩ := operand_read nr junk R I hR.clean hR.nodup hI hne (.var x.axes x.src) (x.axes, data)
    (Holds.var _ _ _ hx) hsub hnd
  refine ⟨r, h1, h2, fun k hk => ?_⟩
  have hlen : R.length = I.length := by simpa using hI.length_eq.symm
  rw [h3 k hk, ← relabel_cell x.axes R data I k hsub hlen (by simpa using hk.length_eq)]

theorem bindex_self {s k : List ℕ} (h : InBounds s k) : bindex s k = k := by
  unfold InBounds at h
  unfold bindex
  induction h with
  | nil => rfl
  | @cons i n is ns hi _ ih =>
    rw [List.zipWith_cons_cons, ih]
    split_ifs with e
    · congr 1; omega
    · rfl

/-- The same when the view's axes are the variable's axes in any order. -/
theorem read_perm (nr : List ℚ → ℚ) (junk : List ℕ → α) (x : Var α) (data : List ℕ → α) (hx : Contains x data)
    (R : List Axis) (hR : Regular R) (hp : R.Perm x.axes)
    (I : List (List ℕ)) (hI : InRange (R.map Axis.len) I) (hne : ∀ ind ∈ I, ind ≠ []) :
    ∃ r, x.read nr junk ⟨R, I⟩ = some r ∧ IsRead (relabel x.axes R data) I r := by
  obtain ⟨r, h1, h2, h3⟩ := read_on nr junk x data hx (hp.nodup_iff.1 hR.nodup) R hR
    (fun a ha => hp.mem_iff.2 ha) I hI hne
  have hlen : R.length = I.length := by simpa using hI.length_eq.symm
  have hs : r.shape = I.map List.length := by
    rw [h2]
    refine List.ext_getElem (by simp [hlen]) fun i hi hi' => ?_
    rw [List.getElem_zipWith, List.getElem_map, List.getElem_map]
    have : R[i]'(by simpa [hlen] using hi') ∈ x.axes := hp.mem_iff.1 (List.getElem_mem _)
    simp [this]
  refine ⟨r, h1, hs, fun k hk => ?_⟩
  rw [← h3 k hk, hs, bindex_self hk]

/-- A variable read on its own axes shows its data at the requested positions. -/
theorem read_own (nr : List ℚ → ℚ) (junk : List ℕ → α) (x : Var α) (data : List ℕ → α) (hx : Contains x data)
    (hR : Regular x.axes) (I : List (List ℕ)) (hI : InRange (x.axes.map Axis.len) I) (hne : ∀ ind ∈ I, ind ≠ []) :
    ∃ r, x.read nr junk ⟨x.axes, I⟩ = some r ∧ IsRead data I r := by
  obtain ⟨r, h1, h2, h3⟩ := read_perm nr junk x data hx x.axes hR (List.Perm.refl _) I hI hne
  refine ⟨r, h1, h2, fun k hk => ?_⟩
  rw [h3 k hk]
  have hlen : x.axes.length = I.length := by simpa using hI.length_eq.symm
  rw [← relabel_cell x.axes x.axes data I k (fun _ h => h) hlen (by simpa using hk.length_eq),
    map_posOf x.axes I k hR.nodup hlen (by simpa using hk.length_eq)]

/-- a derived variable contains `data` when its `getview` answers every tidy request with it -/
theorem contains_ofView_tidy (junk : List ℕ → α) (axes : List Axis) (f : View Axis → Option (NArr α)) (data : List ℕ → α)
    (h : ∀ I, InRange (axes.map Axis.len) I → (∀ ind ∈ I, Tidy ind) → ∃ r, f ⟨axes, I⟩ = some r ∧ IsRead data I r) :
    Contains (Var.ofView junk axes f) data := by
  intro I hI hne
  obtain ⟨r, h1, h2⟩ := h I hI hne
  have : (f ⟨axes, I⟩).getD { shape := [], get := junk } = r := by rw [h1]; rfl
  change IsRead data I ((f ⟨axes, I⟩).getD { shape := [], get := junk })
  rw [this]
  exact h2

/-- in particular when it answers every request -/
theorem contains_ofView (junk : List ℕ → α) (axes : List Axis) (f : View Axis → Option (NArr α)) (data : List ℕ → α)
    (h : ∀ I, InRange (axes.map Axis.len) I → (∀ ind ∈ I, ind ≠ []) → ∃ r, f ⟨axes, I⟩ = some r ∧ IsRead data I r) :
    Contains (Var.ofView junk axes f) data := contains_ofView_tidy junk axes f data
  fun I hI ht => h I hI fun ind hind => (ht ind hind).1

/-! ### C36: transposition -/

theorem whichAll_lt {axes : List Axis} {ids : List AxisId} {l : List ℕ} (h : whichAll axes ids = some l) :
    ∀ i ∈ l, i < axes.length := by
  unfold whichAll at h
  induction ids generalizing l with
  | nil => simp at h; simp [h]
  | cons a ids ih =>
    rw [List.mapM_cons] at h
    cases hw : whichaxis axes a with
    | keyError => simp [hw, foundAt] at h
    | typeError => simp [hw, foundAt] at h
    | «at» j =>
      have hfa : foundAt (Found.at j) = some j := rfl
      simp only [hw, hfa, Option.pure_def, Option.bind_eq_bind, Option.bind_some] at h
      cases hr : (ids.mapM fun a => foundAt (whichaxis axes a)) with
      | none => rw [hr] at h; simp at h
      | some l' =>
        rw [hr] at h
        simp only [Option.bind_some, Option.some.injEq] at h
        subst h
        intro i hi
        rcases List.mem_cons.1 hi with rfl | hi
        · have key : ∀ (p : Axis → Bool) (i : ℕ), axes.findIdx? p = some i → i < axes.length := by
            intro p i hp
            rw [List.findIdx?_eq_some_iff_findIdx_eq] at hp
            exact hp.1
          unfold whichaxis at hw
          split at hw
          · split at hw
            · rename_i e; cases hw; exact key _ _ e
            · cases hw
          · split at hw
            · cases hw; omega
            · cases hw
          · split at hw
            · rename_i e; cases hw; exact key _ _ e
            · cases hw
          · split at hw
            · rename_i e; cases hw; exact key _ _ e
            · cases hw
        · exact ih hr i hi

/-- C36: the order of the axes after transposing: the requested axes first, in the requested order, then the others in
their original order; every axis occurs exactly once if the request names no axis twice. -/
theorem transposeOrder_spec (axes : List Axis) (ids : List AxisId) (alist req : List ℕ) (h : transposeOrder axes ids = some alist)
    (hreq : whichAll axes ids = some req) :
    ∃ rest, alist = req ++ rest ∧ rest.Pairwise (· < ·) ∧ (∀ i, i ∈ rest ↔ i < axes.length ∧ i ∉ req) ∧
      (req.Nodup → alist.Perm (List.range axes.length)) := by
  unfold transposeOrder at h
  rw [hreq] at h
  simp only [Option.map_some, Option.some.injEq] at h
  refine ⟨_, h.symm, ?_, ?_, ?_⟩
  · exact List.Pairwise.filter _ List.pairwise_lt_range
  · intro i; simp
  · intro hnd
    rw [← h]
    refine (List.perm_ext_iff_of_nodup ?_ List.nodup_range).2 ?_
    · rw [List.nodup_append]
      refine ⟨hnd, List.nodup_range.filter _, ?_⟩
      intro a ha b hb e
      subst e
      simp at hb
      exact hb.2 ha
    · intro i
      have := whichAll_lt hreq i
      simp only [List.mem_append, List.mem_filter, List.mem_range, decide_eq_true_eq]
      constructor
      · rintro (h | h)
        · exact this h
        · exact h.1
      · intro hi
        by_cases h : i ∈ req
        · exact Or.inl h
        · exact Or.inr ⟨hi, h⟩

theorem filterMap_getElem?_range (A : List Axis) : ((List.range A.length).filterMap fun i => A[i]?) = A := by
  have : ((List.range A.length).filterMap fun i => A[i]?) = (List.range A.length).map fun i => A.getD i ⟨[], [], [], [], false, 0, [], []⟩ := by
    rw [← List.filterMap_eq_map]
    refine List.filterMap_congr fun i hi => ?_
    have : i < A.length := by simpa using hi
    simp [List.getElem?_eq_getElem this]
  rw [this]
  refine List.ext_getElem (by simp) fun i h1 h2 => ?_
  rw [List.getElem_map, List.getElem_range, List.getD_eq_getElem _ _ h2]

/-- C36: transposing gives a variable with the same axes in the requested order that holds, for every choice of a
position on each axis, the value the original holds. It is a variable like any other: it can be transposed, sliced,
combined again. -/
theorem transpose_correct (nr : List ℚ → ℚ) (junk : List ℕ → α) (x y : Var α) (ids : List AxisId) (req : List ℕ)
    (data : List ℕ → α) (hx : Contains x data) (hr : Regular x.axes) (hreq : whichAll x.axes ids = some req)
    (hnd : req.Nodup) (hy : transpose nr junk x ids = some y) :
    y.axes.Perm x.axes ∧ Regular y.axes ∧ (req.filterMap fun i => x.axes[i]?) <+: y.axes ∧
    ∃ data', Contains y data' ∧ SameData data x.axes data' y.axes := by
  unfold transpose at hy
  split_ifs at hy with he
  cases hal : transposeOrder x.axes ids with
  | none => simp [hal] at hy
  | some alist =>
    rw [hal] at hy
    simp only [Option.map_some, Option.some.injEq] at hy
    obtain ⟨rest, h1, h2, h3, h4⟩ := transposeOrder_spec x.axes ids alist req hal hreq
    have hperm := h4 hnd
    have hp : (alist.filterMap fun i => x.axes[i]?).Perm x.axes := by
      have := hperm.filterMap fun i => x.axes[i]?
      rwa [filterMap_getElem?_range] at this
    split_ifs at hy with hid
    · subst hy
      refine ⟨List.Perm.refl _, hr, ?_, data, hx, fun pos => rfl⟩
      have := filterMap_getElem?_range x.axes
      rw [← hid, h1, List.filterMap_append] at this
      exact ⟨_, this⟩
    · subst hy
      have hr' := hr.perm hp
      refine ⟨hp, hr', ?_, relabel x.axes _ data, ?_, relabel_same _ _ _ fun a ha => hp.mem_iff.2 ha⟩
      · simp only [Var.ofView]
        rw [h1, List.filterMap_append]
        exact ⟨_, rfl⟩
      · exact contains_ofView junk _ _ _ fun I hI hne => read_perm nr junk x data hx _ hr' hp I hI hne

/-- On the axes of a variable, having the same data determines the data at every position. -/
theorem sameData_unique {data data' data'' : List ℕ → α} {A A' : List Axis} (hnd : A'.Nodup)
    (h1 : SameData data A data' A') (h2 : SameData data A data'' A') (k : List ℕ) (hk : k.length = A'.length) :
    data' k = data'' k := by
  have : A'.map (fun a => k.getD (A'.idxOf a) 0) = k := by
    refine List.ext_getElem (by simp [hk]) fun i hi hi' => ?_
    rw [List.getElem_map, hnd.idxOf_getElem i (by simpa using hi), List.getD_eq_getElem _ _ hi']
  have e1 := h1 fun a => k.getD (A'.idxOf a) 0
  have e2 := h2 fun a => k.getD (A'.idxOf a) 0
  rw [this] at e1 e2
  rw [e1, e2]

/-- C36: transposing and transposing again (by any requests) is transposing once: the result only depends on the final order of the
axes; transposed back to the original order the data are the original data. -/
theorem transpose_twice (nr : List ℚ → ℚ) (junk : List ℕ → α) (x y z : Var α) (ids ids' : List AxisId) (req req' : List ℕ)
    (data : List ℕ → α) (hx : Contains x data) (hr : Regular x.axes) (hreq : whichAll x.axes ids = some req)
    (hnd : req.Nodup) (hy : transpose nr junk x ids = some y) (hreq' : whichAll y.axes ids' = some req')
    (hnd' : req'.Nodup) (hz : transpose nr junk y ids' = some z) :
    ∃ data', Contains z data' ∧ SameData data x.axes data' z.axes ∧
      (z.axes = x.axes → ∀ k, k.length = x.axes.length → data' k = data k) := by
  obtain ⟨hp, hr1, _, d1, hc1, hs1⟩ := transpose_correct nr junk x y ids req data hx hr hreq hnd hy
  obtain ⟨hp2, hr2, _, d2, hc2, hs2⟩ := transpose_correct nr junk y z ids' req' d1 hc1 hr1 hreq' hnd' hz
  have hs : SameData data x.axes d2 z.axes := fun pos => (hs2 pos).trans (hs1 pos)
  refine ⟨d2, hc2, hs, fun e k hk => ?_⟩
  rw [e] at hs
  exact sameData_unique hr.nodup hs (fun _ => rfl) k hk

/-! ### C37: squeeze and extend -/

/-- the entries marked -/
def pick : List Bool → List ℕ → List ℕ
  | true :: fl, x :: l => x :: pick fl l
  | false :: fl, _ :: l => pick fl l
  | _, _ => []

theorem pick_map {γ : Type} (p : γ → Bool) (f : γ → ℕ) : ∀ A : List γ, pick (A.map p) (A.map f) = (A.filter p).map f
  | [] => rfl
  | a :: A => by
    have ih := pick_map p f A
    cases h : p a <;> simp [pick, h, ih]

theorem pick_prod : ∀ {fl : List Bool} {S : List ℕ}, List.Forall₂ (fun (b : Bool) (s : ℕ) => b = false → s = 1) fl S →
    (pick fl S).prod = S.prod
  | _, _, .nil => rfl
  | true :: fl, s :: S, .cons _ h => by simp [pick, pick_prod h]
  | false :: fl, s :: S, .cons h1 h => by simp [pick, pick_prod h, h1 rfl]

theorem pick_ravel : ∀ {fl : List Bool} {S k : List ℕ}, List.Forall₂ (fun (b : Bool) (s : ℕ) => b = false → s = 1) fl S →
    InBounds S k → ravel (pick fl S) (pick fl k) = ravel S k
  | _, _, _, .nil, .nil => rfl
  | true :: fl, s :: S, i :: k, .cons _ h, .cons _ hk => by
    simp only [pick, ravel]
    rw [pick_prod h, pick_ravel h hk]
  | false :: fl, s :: S, i :: k, .cons h1 h, .cons hi hk => by
    have : i = 0 := by have := h1 rfl; omega
    simp only [pick, ravel]
    rw [pick_ravel h hk, this]
    simp

/-- reading without some degenerate axes -/
theorem getRaw_squeezed (nr : List ℚ → ℚ) (junk : List ℕ → α) (x : Var α) (data : List ℕ → α) (hx : Contains x data)
    (hr : Regular x.axes) (R : List Axis) (hsub : R.Sublist x.axes) (h1 : ∀ a ∈ x.axes, a ∉ R → a.len = 1)
    (I : List (List ℕ)) (hI : InRange (R.map Axis.len) I) (hne : ∀ ind ∈ I, ind ≠ []) :
    ∃ r, getRaw false nr junk x ⟨R, I⟩ = some r ∧ IsRead (relabel x.axes R data) I (r.reshape (I.map List.length)) := by
  have hrR := hr.sublist hsub
  have hlen : R.length = I.length := by simpa using hI.length_eq.symm
  have hclean := hr.clean
  let inds : Axis → List ℕ := fun a => if a ∈ R then I.getD (R.idxOf a) [] else [0]
  have hmap : ∀ a ∈ x.axes, View.mapAxis Axis.axEq (Axis.viewMapAx nr) ⟨R, I⟩ a =
      if a ∈ R then some (R.idxOf a, I.getD (R.idxOf a) []) else none := by
    intro a ha
    unfold View.mapAxis
    simp only
    have hfi : R.findIdx? (fun b => Axis.axEq a b) = R.findIdx? (fun b => decide (a = b)) := by
      have : ∀ l : List Axis, (∀ b ∈ l, b ∈ x.axes) → l.findIdx? (fun b => Axis.axEq a b) = l.findIdx? (fun b => decide (a = b)) := by
        intro l
        induction l with
        | nil => intro _; rfl
        | cons b l ih =>
          intro hl
          rw [List.findIdx?_cons, List.findIdx?_cons, hclean.axEq ha (hl b (by simp)), ih fun c hc => hl c (by simp [hc])]
      exact this R fun b hb => hsub.subset hb
    rw [hfi]
    by_cases haR : a ∈ R
    · have : R.findIdx? (fun b => decide (a = b)) = some (R.idxOf a) := by
        rw [List.findIdx?_eq_some_iff_getElem]
        refine ⟨List.idxOf_lt_length_of_mem haR, by simp, fun j hj => ?_⟩
        have := List.not_of_lt_findIdx (p := fun b => b == a) (xs := R) hj
        intro e
        rw [(of_decide_eq_true e).symm] at this
        simp at this
      rw [this]
      simp [haR]
    · have : R.findIdx? (fun b => decide (a = b)) = none := by
        rw [List.findIdx?_eq_none_iff]
        intro b hb
        simp only [decide_eq_false_iff_not]
        rintro rfl
        exact haR hb
      rw [this]
      simp only [haR, if_false]
      rw [List.findSome?_eq_none_iff]
      rintro ⟨⟨b, ind⟩, i⟩ hp
      have hb : b ∈ R := by
        have h2 := List.fst_mem_of_mem_zipIdx hp
        exact (List.of_mem_zip h2).1
      have hcomp : compatible a b = false := by
        rcases hclean.2 a ha b (hsub.subset hb) with e | e
        · subst e; exact absurd hb haR
        · exact e
      simp only [Option.map_eq_none_iff]
      unfold Axis.viewMapAx Axis.axisMapTo
      have : compatible a (sliceAxis nr b ind) = false := by
        rw [← hcomp]
        simp [compatible, isParentOf, sliceAxis_classes]
      rw [this]
      simp
  have hmT : View.mapTo Axis.axEq (Axis.viewMapAx nr) Axis.len false ⟨R, I⟩ x.axes =
      some (x.axes.map fun a => (if a ∈ R then some (R.idxOf a) else none, inds a)) := by
    unfold View.mapTo
    apply mapM_forall₂
    rw [List.forall₂_map_right_iff, List.forall₂_same]
    intro a ha
    rw [hmap a ha]
    by_cases haR : a ∈ R
    · simp [haR, inds]
    · simp [haR, inds, h1 a ha haR]
  have hindne : ∀ a ∈ x.axes, inds a ≠ [] := by
    intro a _
    simp only [inds]
    split_ifs with haR
    · have hi : R.idxOf a < I.length := hlen ▸ List.idxOf_lt_length_of_mem haR
      exact hne _ (by rw [List.getD_eq_getElem _ _ hi]; exact List.getElem_mem hi)
    · simp
  have hr2 : IsRead data (x.axes.map inds) (View.readUnique x.src ⟨x.axes, x.axes.map inds⟩) := by
    refine readUnique_correct data x.axes (x.axes.map Axis.len) x.src hx _ ?_ ?_
    · unfold InRange
      rw [List.forall₂_map_left_iff, List.forall₂_map_right_iff, List.forall₂_same]
      intro a ha i hi
      simp only [inds] at hi
      split_ifs at hi with haR
      · have hidx : R.idxOf a < I.length := hlen ▸ List.idxOf_lt_length_of_mem haR
        have := List.forall₂_iff_get.1 hI
        have h3 := this.2 (R.idxOf a) hidx (by simpa [hlen] using hidx)
        simp only [List.get_eq_getElem, List.getElem_map, List.getElem_idxOf] at h3
        rw [List.getD_eq_getElem _ _ hidx] at hi
        exact h3 i hi
      · have := h1 a ha haR
        simp at hi
        omega
    · intro ind hind
      obtain ⟨a, ha, rfl⟩ := List.mem_map.1 hind
      exact hindne a ha
  refine ⟨View.readUnique x.src ⟨x.axes, x.axes.map inds⟩, ?_, rfl, ?_⟩
  · unfold getRaw
    rw [hmT]
    simp only [Option.map_some, List.map_map]
    rw [if_neg]
    · rfl
    · intro h0
      obtain ⟨a, ha, h⟩ := List.mem_map.1 h0
      exact hindne a ha (List.length_eq_zero_iff.1 h)
  · intro k hk
    have hkl : k.length = I.length := by simpa using hk.length_eq
    obtain ⟨hsh, hget⟩ := hr2
    let K : Axis → ℕ := fun a => if a ∈ R then k.getD (R.idxOf a) 0 else 0
    have hRf : R = x.axes.filter fun a => decide (a ∈ R) := by
      have := hsub.filter fun a => decide (a ∈ R)
      rw [List.filter_eq_self.2 (by simp)] at this
      refine this.eq_of_length_le ?_
      refine List.Subperm.length_le ?_
      exact List.Nodup.subperm (hr.nodup.filter _) fun a ha => by simpa using (List.mem_filter.1 ha).2
    have hfl : List.Forall₂ (fun (b : Bool) (s : ℕ) => b = false → s = 1) (x.axes.map fun a => decide (a ∈ R))
        ((x.axes.map inds).map List.length) := by
      rw [List.map_map, List.forall₂_map_left_iff, List.forall₂_map_right_iff, List.forall₂_same]
      intro a _ hb
      have : a ∉ R := by simpa using hb
      simp [inds, this]
    have hKb : InBounds ((x.axes.map inds).map List.length) (x.axes.map K) := by
      unfold InBounds
      rw [List.map_map, List.forall₂_map_left_iff, List.forall₂_map_right_iff, List.forall₂_same]
      intro a _
      simp only [K, inds, Function.comp]
      split_ifs with haR
      · have hidx : R.idxOf a < I.length := hlen ▸ List.idxOf_lt_length_of_mem haR
        have := (inBounds_iff.1 hk).2 (R.idxOf a) (by simpa using hidx)
        rw [List.getD_eq_getElem (I.map List.length) _ (by simpa using hidx), List.getElem_map] at this
        rwa [List.getD_eq_getElem I _ hidx]
      · simp
    have hpk : pick (x.axes.map fun a => decide (a ∈ R)) (x.axes.map K) = k := by
      rw [pick_map, ← hRf]
      refine List.ext_getElem (by simp [hlen, hkl]) fun i hi hi' => ?_
      have hiR : i < R.length := by simpa using hi
      rw [List.getElem_map]
      simp only [K, List.getElem_mem, if_true]
      rw [hrR.nodup.idxOf_getElem i hiR, List.getD_eq_getElem _ _ hi']
    have hps : pick (x.axes.map fun a => decide (a ∈ R)) ((x.axes.map inds).map List.length) = I.map List.length := by
      rw [List.map_map, pick_map, ← hRf]
      refine List.ext_getElem (by simp [hlen]) fun i hi hi' => ?_
      have hiR : i < R.length := by simpa using hi
      rw [List.getElem_map]
      simp only [Function.comp, inds, List.getElem_mem, if_true]
      rw [hrR.nodup.idxOf_getElem i hiR, List.getD_eq_getElem I _ (by omega), List.getElem_map]
    have hrav := pick_ravel hfl hKb
    rw [hpk, hps] at hrav
    simp only [NArr.reshape]
    rw [hsh, hrav, unravel_ravel hKb, hget _ hKb]
    unfold relabel
    congr 1
    refine List.ext_getElem (by simp [cell]) fun i hi hi' => ?_
    have hiA : i < x.axes.length := by simpa using hi'
    simp only [cell, List.getElem_zipWith, List.getElem_map]
    have haA : x.axes[i] ∈ x.axes := List.getElem_mem hiA
    by_cases haR : x.axes[i] ∈ R
    · have hidx : R.idxOf x.axes[i] < I.length := hlen ▸ List.idxOf_lt_length_of_mem haR
      have := getD_cell I k _ hidx hkl
      simp only [cell] at this
      rw [this]
      simp [inds, K, haR]
    · have hidx : R.idxOf x.axes[i] = R.length := List.idxOf_eq_length haR
      have : (List.zipWith (fun (l : List ℕ) (i : ℕ) => l.getD i 0) I k).getD (R.idxOf x.axes[i]) 0 = 0 := by
        rw [List.getD_eq_default]
        simp [hidx, hlen]
      rw [this]
      simp [inds, K, haR]

theorem range_filterMap_sublist (A : List Axis) (p : ℕ → Bool) :
    (((List.range A.length).filter p).filterMap fun i => A[i]?).Sublist A := by
  have := ((List.filter_sublist (p := p) (l := List.range A.length)).filterMap fun i => A[i]?)
  rwa [filterMap_getElem?_range] at this

/-- Squeezing, for any notion `Q` of what a variable contains that holds of the variable read without the axes. -/
theorem squeeze_core {Q : Var α → (List ℕ → α) → Prop} (nr : List ℚ → ℚ) (junk : List ℕ → α) (x y : Var α) (ids : List AxisId)
    (data : List ℕ → α) (hr : Regular x.axes)
    (hQ : ∀ R, R.Sublist x.axes → (∀ a ∈ x.axes, a ∉ R → a.len = 1) →
      Q (Var.ofView junk R fun v => (getRaw false nr junk x v).map fun r => r.reshape v.shape) (relabel x.axes R data))
    (hy : squeeze nr junk x ids = some y) :
    y.axes.Sublist x.axes ∧ Regular y.axes ∧
    (∀ (i : ℕ) (a : Axis), x.axes[i]? = some a → (a ∉ y.axes ↔ a.len = 1 ∧ (ids = [] ∨
      ∃ req, whichAll x.axes ids = some req ∧ i ∈ req))) ∧
    ∃ data', Q y data' ∧ ∀ pos : Axis → ℕ, (∀ a ∈ x.axes, a ∉ y.axes → pos a = 0) →
      data' (y.axes.map pos) = data (x.axes.map pos) := by
  unfold squeeze at hy
  cases hl : squeezeAxes x.axes ids with
  | none => simp [hl] at hy
  | some l =>
    rw [hl] at hy
    simp only [Option.map_some, Option.some.injEq] at hy
    subst hy
    set R := ((List.range x.axes.length).filter fun i => i ∉ l).filterMap fun i => x.axes[i]? with hR
    have hsub : R.Sublist x.axes := range_filterMap_sublist x.axes _
    have hmem : ∀ (i : ℕ) (a : Axis), x.axes[i]? = some a → (a ∈ R ↔ i ∉ l) := by
      intro i a hi
      obtain ⟨hil, hia⟩ := List.getElem?_eq_some_iff.1 hi
      rw [hR, List.mem_filterMap]
      constructor
      · rintro ⟨j, hj, hja⟩
        rw [List.mem_filter] at hj
        obtain ⟨hjl, hja⟩ := List.getElem?_eq_some_iff.1 hja
        have : i = j := (hr.nodup.getElem_inj_iff).1 (hia.trans hja.symm)
        subst this
        simpa using hj.2
      · intro hl
        exact ⟨i, List.mem_filter.2 ⟨by simpa using hil, by simpa using hl⟩, hi⟩
    have hlmem : ∀ (i : ℕ) (a : Axis), x.axes[i]? = some a → (i ∈ l ↔ a.len = 1 ∧ (ids = [] ∨
        ∃ req, whichAll x.axes ids = some req ∧ i ∈ req)) := by
      intro i a hi
      have hil := (List.getElem?_eq_some_iff.1 hi).1
      unfold squeezeAxes at hl
      split_ifs at hl with he
      · simp only [Option.map_some, Option.some.injEq] at hl
        subst hl
        simp only [List.mem_filter, List.mem_range, decide_eq_true_eq, hi, Option.map_some, Option.some.injEq]
        constructor
        · exact fun h => ⟨h.2, Or.inl he⟩
        · exact fun h => ⟨⟨hil, h.1⟩, h.1⟩
      · cases hw : whichAll x.axes ids with
        | none => simp [hw] at hl
        | some req =>
          rw [hw] at hl
          simp only [Option.map_some, Option.some.injEq] at hl
          subst hl
          simp only [List.mem_filter, decide_eq_true_eq, hi, Option.map_some, Option.some.injEq]
          constructor
          · exact fun h => ⟨h.2, Or.inr ⟨req, rfl, h.1⟩⟩
          · rintro ⟨h1, h2 | ⟨_, rfl, h2⟩⟩
            · exact absurd h2 he
            · exact ⟨h2, h1⟩
    have h1 : ∀ a ∈ x.axes, a ∉ R → a.len = 1 := by
      intro a ha haR
      obtain ⟨i, hi, rfl⟩ := List.getElem_of_mem ha
      have hi' := List.getElem?_eq_getElem hi
      rw [hmem i _ hi', not_not, hlmem i _ hi'] at haR
      exact haR.1
    refine ⟨hsub, hr.sublist hsub, ?_, relabel x.axes R data, ?_, ?_⟩
    · intro i a hi
      rw [show (Var.ofView junk R _).axes = R from rfl, hmem i a hi, not_not]
      exact hlmem i a hi
    · exact hQ R hsub h1
    · intro pos hpos
      change relabel x.axes R data (R.map pos) = _
      unfold relabel
      congr 1
      refine List.map_congr_left fun a ha => ?_
      by_cases haR : a ∈ R
      · have hi := List.idxOf_lt_length_of_mem haR
        rw [List.getD_eq_getElem _ _ (by simpa using hi), List.getElem_map, List.getElem_idxOf]
      · rw [hpos a ha haR, List.getD_eq_default]
        rw [List.length_map, List.idxOf_eq_length haR]

/-- C37: squeezing removes exactly the axes of length one that were asked for (all of them if none is named), keeps
the others in order, and the value at any positions is the value of the original with position 0 on the removed axes. -/
theorem squeeze_correct (nr : List ℚ → ℚ) (junk : List ℕ → α) (x y : Var α) (ids : List AxisId)
    (data : List ℕ → α) (hx : Contains x data) (hr : Regular x.axes) (hy : squeeze nr junk x ids = some y) :
    y.axes.Sublist x.axes ∧ Regular y.axes ∧
    (∀ (i : ℕ) (a : Axis), x.axes[i]? = some a → (a ∉ y.axes ↔ a.len = 1 ∧ (ids = [] ∨
      ∃ req, whichAll x.axes ids = some req ∧ i ∈ req))) ∧
    ∃ data', Contains y data' ∧ ∀ pos : Axis → ℕ, (∀ a ∈ x.axes, a ∉ y.axes → pos a = 0) →
      data' (y.axes.map pos) = data (x.axes.map pos) := by
  refine squeeze_core nr junk x y ids data hr (fun R hsub h1 => ?_) hy
  refine contains_ofView junk _ _ _ fun I hI hne => ?_
  obtain ⟨r, e1, e2⟩ := getRaw_squeezed nr junk x data hx hr R hsub h1 I hI hne
  exact ⟨_, by rw [e1]; rfl, e2⟩

/-- C37: extending a variable inserts the new axes at the given place; the data do not depend on the positions along the
new axes. -/
theorem extend_correct (nr : List ℚ → ℚ) (junk : List ℕ → α) (x : Var α) (pos : ℕ) (new : List Axis)
    (data : List ℕ → α) (hx : Contains x data) (hr : Regular (x.axes.take pos ++ new ++ x.axes.drop pos)) :
    (extend nr junk x pos new).axes = x.axes.take pos ++ new ++ x.axes.drop pos ∧
    ∃ data', Contains (extend nr junk x pos new) data' ∧
      SameData data x.axes data' (x.axes.take pos ++ new ++ x.axes.drop pos) := by
  refine ⟨rfl, ?_⟩
  set R := x.axes.take pos ++ new ++ x.axes.drop pos with hR
  have hsl : x.axes.Sublist R := by
    conv_lhs => rw [← List.take_append_drop pos x.axes]
    exact List.Sublist.append (List.sublist_append_left _ _) (List.Sublist.refl _)
  have hsub : ∀ a ∈ x.axes, a ∈ R := fun a ha => hsl.subset ha
  refine ⟨relabel x.axes R data, ?_, relabel_same _ _ _ hsub⟩
  refine contains_ofView junk _ _ _ fun I hI hne => ?_
  obtain ⟨r, e1, e2, e3⟩ := read_on nr junk x data hx (hr.nodup.sublist hsl) R hr hsub I hI hne
  refine ⟨{ shape := I.map List.length, get := fun k => r.get (bindex r.shape k) }, ?_, rfl, fun k hk => e3 k hk⟩
  rw [e1]
  rfl

/-- C37: squeezing the axes that were added by extending with axes of length one gives the original data back. -/
theorem squeeze_extend (nr : List ℚ → ℚ) (junk : List ℕ → α) (x y : Var α) (pos : ℕ) (new : List Axis) (ids : List AxisId)
    (data : List ℕ → α) (hx : Contains x data) (hr : Regular (x.axes.take pos ++ new ++ x.axes.drop pos))
    (hy : squeeze nr junk (extend nr junk x pos new) ids = some y) (hyx : y.axes = x.axes) :
    ∃ data', Contains y data' ∧ ∀ k, k.length = x.axes.length → data' k = data k := by
  obtain ⟨_, d1, hc1, hs1⟩ := extend_correct nr junk x pos new data hx hr
  obtain ⟨h1, h2, h3, d2, hc2, hs2⟩ := squeeze_correct nr junk _ y ids d1 hc1 hr hy
  refine ⟨d2, hc2, fun k hk => ?_⟩
  have hnd : x.axes.Nodup := hyx ▸ h2.nodup
  have := hs2 (fun a => if a ∈ x.axes then k.getD (x.axes.idxOf a) 0 else 0) (by
    intro a _ ha; rw [hyx] at ha; simp [ha])
  rw [hyx] at this
  have hk2 : (x.axes.map fun a => if a ∈ x.axes then k.getD (x.axes.idxOf a) 0 else 0) = k := by
    refine List.ext_getElem (by simp [hk]) fun i hi hi' => ?_
    rw [List.getElem_map, if_pos (List.getElem_mem _), hnd.idxOf_getElem i (by simpa using hi), List.getD_eq_getElem _ _ hi']
  rw [hk2] at this
  rw [this]
  have e := hs1 (fun a => if a ∈ x.axes then k.getD (x.axes.idxOf a) 0 else 0)
  rw [hk2] at e
  exact e

/-! ### C66: slices, sorting, replaced axes -/

/-- C15, C66: slicing gives a variable that holds the original data at the selected positions, and that can be used like
any other variable. -/
theorem slice_correct (nr : List ℚ → ℚ) (junk : List ℕ → α) (x : Var α) (S : List (List ℕ)) (data : List ℕ → α)
    (hx : Contains x data) (hr : Regular x.axes) (hrt : ∀ a ∈ x.axes, 0 ≤ a.rtol) (hsep : ∀ a ∈ x.axes, Separated a.values)
    (hS : InRange (x.axes.map Axis.len) S) :
    Contains (sliceVar nr junk x S) (fun k => data (cell S k)) ∧ Regular (sliceVar nr junk x S).axes ∧
    (sliceVar nr junk x S).axes.map Axis.len = S.map List.length := by
  have hlen : x.axes.length = S.length := by simpa using hS.length_eq.symm
  have hl : (sliceVar nr junk x S).axes.map Axis.len = S.map List.length := by
    refine List.ext_getElem (by simp [sliceVar, Var.ofView, hlen]) fun i hi hi' => ?_
    simp only [sliceVar, Var.ofView, List.getElem_map, List.getElem_zipWith]
    rw [Axis.len, sliceAxis_values, List.length_map]
  refine ⟨?_, ⟨?_, ?_⟩, hl⟩
  · refine contains_ofView junk _ _ _ fun I hI hne => ?_
    have hI' : InRange (S.map List.length) I := by rw [← hl]; exact hI
    obtain ⟨r, e1, e2, e3⟩ := slicedVar_read nr x.axes S I junk x.src data hS hI' hne hr.cls hrt hsep hr.inc hx
    exact ⟨r, e1, e2, fun k hk => e3 k (e2 ▸ hk)⟩
  · intro a ha
    obtain ⟨i, hi, rfl⟩ := List.getElem_of_mem ha
    simp only [sliceVar, Var.ofView, List.getElem_zipWith]
    rw [sliceAxis_classes]
    exact hr.cls _ (List.getElem_mem _)
  · rw [List.pairwise_iff_getElem]
    intro i j hi hj hij
    simp only [sliceVar, Var.ofView, List.getElem_zipWith]
    have := List.pairwise_iff_getElem.1 hr.inc i j (by simp [sliceVar, Var.ofView] at hi; omega)
      (by simp [sliceVar, Var.ofView] at hj; omega) hij
    rw [← this]
    simp [compatible, isParentOf, sliceAxis_classes]

theorem sliceAxis_separated (nr : List ℚ → ℚ) (a : Axis) (s : List ℕ) (hs : s.Nodup) (hr : ∀ i ∈ s, i < a.len)
    (h : Separated a.values) : Separated (sliceAxis nr a s).values := by
  intro i j x y hi hj hij
  rw [sliceAxis_values, List.getElem?_map] at hi hj
  cases e1 : s[i]? with
  | none => simp [e1] at hi
  | some p =>
    cases e2 : s[j]? with
    | none => simp [e2] at hj
    | some q =>
      rw [e1] at hi; rw [e2] at hj
      obtain ⟨h1, h1'⟩ := List.getElem?_eq_some_iff.1 e1
      obtain ⟨h2, h2'⟩ := List.getElem?_eq_some_iff.1 e2
      have hp : p < a.values.length := hr p (h1' ▸ List.getElem_mem h1)
      have hq : q < a.values.length := hr q (h2' ▸ List.getElem_mem h2)
      refine h p q x y ?_ ?_ ?_
      · rw [List.getElem?_eq_getElem hp]
        simp only [Option.map_some, Option.some.injEq] at hi
        rw [← hi, List.getD_eq_getElem _ _ hp]
      · rw [List.getElem?_eq_getElem hq]
        simp only [Option.map_some, Option.some.injEq] at hj
        rw [← hj, List.getD_eq_getElem _ _ hq]
      · rintro rfl
        exact hij ((List.Nodup.getElem_inj_iff hs).1 (h1'.trans h2'.symm))

/-- C66: `argsort` lists every position once, in the order of increasing values. -/
theorem argsort_spec (vals : List ℚ) : (argsort vals).Perm (List.range vals.length) ∧
    ((argsort vals).map fun i : ℕ => vals.getD i 0).Pairwise (· ≤ ·) := by
  refine ⟨List.perm_insertionSort _ _, ?_⟩
  rw [List.pairwise_map]
  haveI : Std.Total fun i j : ℕ => vals.getD i 0 ≤ vals.getD j 0 := ⟨fun i j => le_total _ _⟩
  haveI : IsTrans ℕ fun i j : ℕ => vals.getD i 0 ≤ vals.getD j 0 := ⟨fun i j k => le_trans⟩
  exact List.pairwise_insertionSort _ _

theorem sliceAxis_range (nr : List ℚ → ℚ) (a : Axis) : sliceAxis nr a (List.range a.len) = a := by
  unfold sliceAxis
  have : ((List.range a.len).map fun i : ℕ => a.values.getD i 0) = a.values := by
    refine List.ext_getElem (by simp [Axis.len]) fun i hi hi' => ?_
    rw [List.getElem_map, List.getElem_range, List.getD_eq_getElem _ _ hi']
  simp only [this, if_true]

/-- positions along the axes of a sorted variable, in the original variable -/
def sortPositions (axes : List Axis) (order : ℕ → Option Bool) : List (List ℕ) :=
  axes.zipIdx.map fun p => match order p.2 with
    | some rev => axisArgsort p.1 rev
    | none => List.range p.1.len

theorem sortedVar_eq (nr : List ℚ → ℚ) (junk : List ℕ → α) (x : Var α) (order : ℕ → Option Bool) :
    sortedVar nr junk x order = sliceVar nr junk x (sortPositions x.axes order) := by
  unfold sortedVar sliceVar
  congr 1
  refine List.ext_getElem (by simp [sortPositions]) fun i hi hi' => ?_
  simp only [List.getElem_map, List.getElem_zipWith, sortPositions, List.getElem_zipIdx]
  cases order (0 + i) with
  | none => simp only; rw [sliceAxis_range]
  | some rev => rfl

theorem axisArgsort_perm (a : Axis) (rev : Bool) : (axisArgsort a rev).Perm (List.range a.len) := by
  unfold axisArgsort
  have := (argsort_spec a.values).1
  split_ifs
  · exact (List.reverse_perm _).trans this
  · exact this

/-- C66: sorting a variable permutes the positions of each sorted axis so that its values increase (decrease, if asked),
leaves the other axes alone, and moves the data along with the axis values. -/
theorem sorted_correct (nr : List ℚ → ℚ) (junk : List ℕ → α) (x : Var α) (order : ℕ → Option Bool) (data : List ℕ → α)
    (hx : Contains x data) (hr : Regular x.axes) (hrt : ∀ a ∈ x.axes, 0 ≤ a.rtol) (hsep : ∀ a ∈ x.axes, Separated a.values) :
    ∃ S : List (List ℕ), S.length = x.axes.length ∧
      (∀ (i : ℕ) (a : Axis), x.axes[i]? = some a → ∃ s b, S[i]? = some s ∧ s.Perm (List.range a.len) ∧
        (sortedVar nr junk x order).axes[i]? = some b ∧ b.values = s.map (fun j : ℕ => a.values.getD j 0) ∧
        (order i = none → b = a) ∧ (order i = some false → b.values.Pairwise (· ≤ ·)) ∧
        (order i = some true → b.values.Pairwise (· ≥ ·))) ∧
      Contains (sortedVar nr junk x order) (fun k => data (cell S k)) := by
  have hperm : ∀ (i : ℕ) (a : Axis), x.axes[i]? = some a →
      ∃ s, (sortPositions x.axes order)[i]? = some s ∧ s.Perm (List.range a.len) ∧
        (order i = none → s = List.range a.len) ∧ (∀ rev, order i = some rev → s = axisArgsort a rev) := by
    intro i a hi
    obtain ⟨hil, rfl⟩ := List.getElem?_eq_some_iff.1 hi
    refine ⟨_, List.getElem?_eq_getElem (by simpa [sortPositions] using hil), ?_⟩
    simp only [sortPositions, List.getElem_map, List.getElem_zipIdx, Nat.zero_add]
    cases ho : order i with
    | none => simp
    | some rev => simp [axisArgsort_perm]
  have hS : InRange (x.axes.map Axis.len) (sortPositions x.axes order) := by
    unfold InRange
    rw [List.forall₂_map_right_iff, List.forall₂_iff_get]
    refine ⟨by simp [sortPositions], fun i hi hi' j hj => ?_⟩
    obtain ⟨s, h1, h2, _⟩ := hperm i _ (List.getElem?_eq_getElem hi')
    obtain ⟨_, h1'⟩ := List.getElem?_eq_some_iff.1 h1
    simp only [List.get_eq_getElem] at hj ⊢
    rw [h1'] at hj
    simpa using h2.mem_iff.1 hj
  refine ⟨sortPositions x.axes order, by simp [sortPositions], ?_, ?_⟩
  · intro i a hi
    obtain ⟨s, h1, h2, h3, h4⟩ := hperm i a hi
    obtain ⟨hil, hia⟩ := List.getElem?_eq_some_iff.1 hi
    obtain ⟨hil', hia'⟩ := List.getElem?_eq_some_iff.1 h1
    have hb : (sortedVar nr junk x order).axes[i]? = some (sliceAxis nr a s) := by
      rw [sortedVar_eq, sliceVar, Var.ofView]
      simp only
      rw [List.getElem?_eq_getElem (by rw [List.length_zipWith]; omega), List.getElem_zipWith, hia, hia']
    refine ⟨s, _, h1, h2, hb, sliceAxis_values nr a s, ?_, ?_, ?_⟩
    · intro ho; rw [h3 ho, sliceAxis_range]
    · intro ho
      rw [sliceAxis_values, h4 _ ho]
      exact (argsort_spec a.values).2
    · intro ho
      rw [sliceAxis_values, h4 _ ho]
      simp only [axisArgsort, if_true, List.map_reverse]
      rw [List.pairwise_reverse]
      exact (argsort_spec a.values).2
  · rw [sortedVar_eq]
    exact (slice_correct nr junk x _ data hx hr hrt hsep hS).1

/-- C66: replacing the axes of a variable (by axes of the same lengths) keeps the data at every position. -/
theorem replaceAxes_correct (nr : List ℚ → ℚ) (junk : List ℕ → α) (x y : Var α) (new : List Axis) (data : List ℕ → α)
    (hx : Contains x data) (hr : Regular x.axes) (hy : replaceAxes nr junk x new = some y) :
    y.axes = new ∧ Contains y data := by
  unfold replaceAxes at hy
  split_ifs at hy with hl
  simp only [Option.some.injEq] at hy
  subst hy
  refine ⟨rfl, contains_ofView junk _ _ _ fun I hI hne => ?_⟩
  exact read_own nr junk x data hx hr I (by rw [hl]; exact hI) hne

/-- C66: replacing is refused when a length differs. -/
theorem replaceAxes_refused (nr : List ℚ → ℚ) (junk : List ℕ → α) (x : Var α) (new : List Axis) :
    replaceAxes nr junk x new = none ↔ x.axes.map Axis.len ≠ new.map Axis.len := by
  unfold replaceAxes
  split_ifs with h <;> simp [h]

/-- C66: renaming keeps axes and data. -/
theorem rename_correct (nr : List ℚ → ℚ) (junk : List ℕ → α) (x : Var α) (data : List ℕ → α)
    (hx : Contains x data) (hr : Regular x.axes) : (rename nr junk x).axes = x.axes ∧ Contains (rename nr junk x) data :=
  ⟨rfl, contains_ofView junk _ _ _ fun I hI hne => read_own nr junk x data hx hr I hI hne⟩

/-- C66: selecting positions by axis and transposing can be done in either order. -/
theorem slice_transpose (nr : List ℚ → ℚ) (junk : List ℕ → α) (x y : Var α) (ids : List AxisId) (req : List ℕ)
    (sel : Axis → List ℕ) (data : List ℕ → α) (hx : Contains x data) (hr : Regular x.axes)
    (hreq : whichAll x.axes ids = some req) (hnd : req.Nodup) (hy : transpose nr junk x ids = some y)
    (hrt : ∀ a ∈ x.axes, 0 ≤ a.rtol) (hsep : ∀ a ∈ x.axes, Separated a.values)
    (hsel : ∀ a ∈ x.axes, ∀ i ∈ sel a, i < a.len) :
    ∃ d1 d2, Contains (sliceVar nr junk x (x.axes.map sel)) d1 ∧ Contains (sliceVar nr junk y (y.axes.map sel)) d2 ∧
      ∀ pos : Axis → ℕ, d1 (x.axes.map pos) = d2 (y.axes.map pos) := by
  obtain ⟨hp, hr', _, d, hc, hs⟩ := transpose_correct nr junk x y ids req data hx hr hreq hnd hy
  have hin : ∀ A : List Axis, (∀ a ∈ A, a ∈ x.axes) → InRange (A.map Axis.len) (A.map sel) := by
    intro A hA
    unfold InRange
    rw [List.forall₂_map_left_iff, List.forall₂_map_right_iff, List.forall₂_same]
    exact fun a ha => hsel a (hA a ha)
  have hcell : ∀ (A : List Axis) (pos : Axis → ℕ), cell (A.map sel) (A.map pos) = A.map fun a => (sel a).getD (pos a) 0 := by
    intro A pos
    unfold cell
    refine List.ext_getElem (by simp) fun i hi hi' => ?_
    simp
  refine ⟨_, _, (slice_correct nr junk x _ data hx hr hrt hsep (hin _ fun _ h => h)).1,
    (slice_correct nr junk y _ d hc hr' (fun a ha => hrt a (hp.mem_iff.1 ha)) (fun a ha => hsep a (hp.mem_iff.1 ha))
      (hin _ fun a ha => hp.mem_iff.1 ha)).1, fun pos => ?_⟩
  simp only [hcell]
  exact (hs fun a => (sel a).getD (pos a) 0).symm

/-- C66: slicing a slice is slicing once, at the positions of the positions. -/
theorem slice_slice (nr : List ℚ → ℚ) (junk : List ℕ → α) (x : Var α) (S T : List (List ℕ)) (data : List ℕ → α)
    (hx : Contains x data) (hr : Regular x.axes) (hrt : ∀ a ∈ x.axes, 0 ≤ a.rtol) (hsep : ∀ a ∈ x.axes, Separated a.values)
    (hnr : ∀ l, 0 ≤ nr l) (hS : InRange (x.axes.map Axis.len) S) (hSn : ∀ s ∈ S, s.Nodup)
    (hT : InRange (S.map List.length) T) :
    Contains (sliceVar nr junk (sliceVar nr junk x S) T) (fun k => data (cell S (cell T k))) := by
  obtain ⟨hc, hr', hl⟩ := slice_correct nr junk x S data hx hr hrt hsep hS
  have hlen : x.axes.length = S.length := by simpa using hS.length_eq.symm
  refine (slice_correct nr junk _ T _ hc hr' ?_ ?_ (hl ▸ hT)).1
  · intro a ha
    obtain ⟨i, hi, rfl⟩ := List.getElem_of_mem ha
    simp only [sliceVar, Var.ofView, List.getElem_zipWith]
    unfold sliceAxis
    simp only
    split_ifs
    · exact hrt _ (List.getElem_mem _)
    · exact hnr _
  · intro a ha
    obtain ⟨i, hi, rfl⟩ := List.getElem_of_mem ha
    have hiS : i < S.length := by simp [sliceVar, Var.ofView] at hi; omega
    simp only [sliceVar, Var.ofView, List.getElem_zipWith]
    refine sliceAxis_separated nr _ _ (hSn _ (List.getElem_mem _)) ?_ (hsep _ (List.getElem_mem _))
    have := (List.forall₂_iff_get.1 hS).2 i hiS (by simpa [hlen] using hiS)
    simpa using this

/-- C15: slices given with an Ellipsis: those before it apply to the first axes, those after it to the last axes, and the
axes between are left whole; every axis gets one. -/
theorem ellipsisSlices_spec (naxes : ℕ) (before after : List Ind) (h : before.length + after.length ≤ naxes) :
    ellipsisSlices naxes (before.map some ++ [none] ++ after.map some) =
      some (before ++ List.replicate (naxes - before.length - after.length) (.slice ⟨none, none, none⟩) ++ after) := by
  have hidx : (before.map some ++ [none] ++ after.map some : List (Option Ind)).idxOf none = before.length := by
    rw [List.append_assoc, List.idxOf_append_of_notMem (by simp)]
    simp
  have hcount : (before.map some ++ [none] ++ after.map some : List (Option Ind)).count none = 1 := by
    rw [List.count_append, List.count_append, List.count_eq_zero_of_not_mem (by simp),
      List.count_eq_zero_of_not_mem (a := (none : Option Ind)) (l := after.map some) (by simp)]
    simp
  have hmem : none ∈ (before.map some ++ [none] ++ after.map some : List (Option Ind)) := by simp
  unfold ellipsisSlices
  simp only [hmem, if_true]
  rw [if_neg (by omega), if_neg (by simp; omega), hidx]
  have e1 : ((before.map some ++ [none] ++ after.map some : List (Option Ind)).take before.length).filterMap id = before := by
    rw [List.append_assoc, List.take_left' (by simp)]
    simp
  have e2 : ((before.map some ++ [none] ++ after.map some : List (Option Ind)).drop (before.length + 1)).filterMap id = after := by
    rw [List.drop_left' (by simp)]
    simp
  rw [e1, e2]
  simp only [List.length_append, List.length_map, List.length_singleton]
  congr 4
  omega

/-- C15: without an Ellipsis the slices apply to the first axes. -/
theorem ellipsisSlices_none (naxes : ℕ) (before : List Ind) (h : before.length ≤ naxes) :
    ellipsisSlices naxes (before.map some) =
      some (before ++ List.replicate (naxes - before.length) (.slice ⟨none, none, none⟩)) := by
  have h2 := ellipsisSlices_spec naxes before [] (by simpa using h)
  simp only [List.map_nil, List.append_nil, List.length_nil, Nat.sub_zero] at h2
  rw [← h2]
  unfold ellipsisSlices
  simp

/-- C15: too many slices are refused. -/
theorem ellipsisSlices_refused (naxes : ℕ) (before after : List Ind) (h : naxes < before.length + after.length) :
    ellipsisSlices naxes (before.map some ++ [none] ++ after.map some) = none := by
  have hmem : none ∈ (before.map some ++ [none] ++ after.map some : List (Option Ind)) := by simp
  unfold ellipsisSlices
  simp only [hmem, if_true]
  split_ifs with h1 h2
  · rfl
  · rfl
  · simp at h2; omega

/-! ### C39: fill, unfill -/

theorem mapVar_correct {γ : Type} (nr : List ℚ → ℚ) (junk : List ℕ → α) (junk' : List ℕ → γ) (f : α → γ) (x : Var α)
    (data : List ℕ → α) (hx : Contains x data) (hr : Regular x.axes) :
    (mapVar nr junk junk' f x).axes = x.axes ∧ Contains (mapVar nr junk junk' f x) (fun k => f (data k)) := by
  refine ⟨rfl, contains_ofView junk' _ _ _ fun I hI hne => ?_⟩
  obtain ⟨r, h1, h2, h3⟩ := read_own nr junk x data hx hr I hI hne
  refine ⟨r.map f, by rw [h1]; rfl, h2, fun k hk => ?_⟩
  simp only [NArr.map]
  rw [h3 k hk]

/-- C39: filling keeps axes and numbers and puts the value at the NaNs. -/
theorem fill_correct (nr : List ℚ → ℚ) (junk : List ℕ → Option ℚ) (v : ℚ) (x : Var (Option ℚ)) (data : List ℕ → Option ℚ)
    (hx : Contains x data) (hr : Regular x.axes) :
    (fill nr junk v x).axes = x.axes ∧ ∃ data', Contains (fill nr junk v x) data' ∧
      ∀ k, (data k = none → data' k = some v) ∧ (∀ y, data k = some y → data' k = some y) := by
  refine ⟨rfl, _, (mapVar_correct nr junk junk (fillValue v) x data hx hr).2, fun k => ⟨?_, ?_⟩⟩
  · intro h; simp [h, fillValue]
  · intro y h; simp [h, fillValue]

/-- C39: unfilling puts NaN exactly where the value is found (or NaN was already) and keeps the rest. -/
theorem unfill_correct (nr : List ℚ → ℚ) (junk : List ℕ → Option ℚ) (v : ℚ) (x : Var (Option ℚ)) (data : List ℕ → Option ℚ)
    (hx : Contains x data) (hr : Regular x.axes) :
    (unfill nr junk v x).axes = x.axes ∧ ∃ data', Contains (unfill nr junk v x) data' ∧
      ∀ k, (data' k = none ↔ data k = none ∨ data k = some v) ∧ (∀ y, y ≠ v → data k = some y → data' k = some y) := by
  refine ⟨rfl, _, (mapVar_correct nr junk junk (unfillValue v) x data hx hr).2, fun k => ⟨?_, ?_⟩⟩
  · cases h : data k with
    | none => simp [unfillValue]
    | some y => simp [unfillValue]
  · intro y hy h; simp [h, unfillValue, hy]

/-- C39: unfilling what was filled with a value that does not occur in the data gives the data back. -/
theorem unfill_fill (nr : List ℚ → ℚ) (junk : List ℕ → Option ℚ) (v : ℚ) (x : Var (Option ℚ)) (data : List ℕ → Option ℚ)
    (hx : Contains x data) (hr : Regular x.axes) (hv : ∀ k, data k ≠ some v) :
    Contains (unfill nr junk v (fill nr junk v x)) data := by
  have h1 := (mapVar_correct nr junk junk (fillValue v) x data hx hr).2
  have h2 := (mapVar_correct nr junk junk (unfillValue v) (fill nr junk v x) _ h1 hr).2
  have : (fun k => unfillValue v (fillValue v (data k))) = data := by
    funext k
    cases h : data k with
    | none => simp [fillValue, unfillValue]
    | some y =>
      have : y ≠ v := fun e => hv k (by rw [h, e])
      simp [fillValue, unfillValue, this]
  rw [this] at h2
  exact h2

/-! ### examples -/

def timeEx (n : ℕ) : Axis := ⟨["Time".toList, "Axis".toList], [], "time".toList, (List.range n).map fun i : ℕ => (i : ℚ), true, 0, [], []⟩

/-- a variable with a latitude, a degenerate time and a longitude axis, holding `100 * lat + 10 * time + lon` -/
def varEx : Var ℕ :=
  { axes := [mkEx [30, 10, 20], timeEx 1, lonEx]
    src := .values ⟨[3, 1, lonEx.len], fun k => 100 * k.getD 0 0 + 10 * k.getD 1 0 + k.getD 2 0⟩ }

theorem varEx_regular : Regular varEx.axes := ⟨by decide +kernel, by decide +kernel⟩

theorem varEx_contains : Contains varEx (fun k => 100 * k.getD 0 0 + 10 * k.getD 1 0 + k.getD 2 0) := by
  refine ⟨by decide +kernel, fun k _ => rfl⟩

example : whichAll varEx.axes [.int 2] = some [2] ∧
    (transpose (fun _ => 0) (fun _ => 0) varEx [.int 2]).map (fun y => y.axes.map Axis.name) =
      some ["lon".toList, "lat".toList, "time".toList] := by decide +kernel

example : (transpose (fun _ => 0) (fun _ => 0) varEx [.int 2]).bind (fun y => (y.read (fun _ => 0) (fun _ => 0)
    ⟨y.axes, [[1], [0, 2], [0]]⟩).map fun r => (r.shape, [r.get [0, 0, 0], r.get [0, 1, 0]])) =
      some ([1, 2, 1], [1, 201]) := by decide +kernel

example : (squeeze (fun _ => 0) (fun _ => 0) varEx []).bind (fun y => (y.read (fun _ => 0) (fun _ => 0)
    ⟨y.axes, [[2, 0], [1]]⟩).map fun r => (y.axes.map Axis.name, r.shape, [r.get [0, 0], r.get [1, 0]])) =
      some (["lat".toList, "lon".toList], [2, 1], [201, 1]) := by decide +kernel

example : ((sortedVar (fun _ => 0) (fun _ => 0) varEx (fun i => if i = 0 then some false else none)).read (fun _ => 0) (fun _ => 0)
    ⟨(sortedVar (fun _ => 0) (fun _ => 0) varEx (fun i => if i = 0 then some false else none)).axes, [[0, 1, 2], [0], [0]]⟩).map
      (fun r => [r.get [0, 0, 0], r.get [1, 0, 0], r.get [2, 0, 0]]) = some [100, 200, 0] := by decide +kernel

/-- Naming an axis twice gives it twice: the hypothesis of `transposeOrder_spec` is needed. -/
theorem transpose_repeated_violated :
    (transpose (fun _ => 0) (fun _ => 0) varEx [.int 2, .int 2]).map (fun y => y.axes.map Axis.name) =
      some ["lon".toList, "lon".toList, "lat".toList, "time".toList] := by decide +kernel

end VarOps
end PyGeode
