/-
Property C131: opening many files.
-/
import Verif.Model.OpenAll
import Verif.Props.DatasetOps

namespace PyGeode
namespace Spec
open DatasetOps

variable {α : Type}

/-- the coordinates of a position -/
def coords (V : List (List ℚ)) (k : List ℕ) : List ℚ := List.zipWith (fun (v : List ℚ) (i : ℕ) => v.getD i 0) V k

/-- the values of the axes -/
def valuesOf (A : List Axis) : List (List ℚ) := A.map Axis.values

/-- `y` is what the pieces `ps` show together: it has the kinds of axes of the pieces, each in its natural order, and a value at some
coordinates exactly if one of the pieces has that value at these coordinates -/
def Gathered (down : List Name → Bool) (j : ℕ) (ps : List (Piece α)) (y : Var α) : Prop :=
  ∃ (t : Piece α) (data : List ℕ → α), ps.head? = some t ∧ Contains y data ∧ y.axes.map Axis.classes = t.var.axes.map Axis.classes ∧
    y.axes.map Axis.name = t.var.axes.map Axis.name ∧
    (∀ b ∈ y.axes, if down b.classes then b.values.Pairwise (· ≥ ·) else b.values.Pairwise (· ≤ ·)) ∧
    ∀ (X : List ℚ) (v : α), (∃ k, NArr.InBounds (y.axes.map Axis.len) k ∧ coords (valuesOf y.axes) k = X ∧ data k = v) ↔
      ∃ s ∈ ps, ∃ k, NArr.InBounds ((t.var.axes.set j s.axis).map Axis.len) k ∧ coords (valuesOf (t.var.axes.set j s.axis)) k = X ∧ s.data k = v

end Spec

namespace OpenAll
open Spec DatasetOps NArr Axis Combine Dataset VarOps

variable {α : Type}

/-! ### files -/

theorem expand_perm (glob glob' : Name → List Name) (exist : Name → Bool) (l l' : List Name) (h : (l.flatMap glob).Perm (l'.flatMap glob')) :
    expandFileList glob exist l true = expandFileList glob' exist l' true := by
  have h1 : l.flatMap glob = [] ↔ l'.flatMap glob' = [] := ⟨fun e => by rw [e] at h; exact h.symm.eq_nil, fun e => by rw [e] at h; exact h.eq_nil⟩
  have h2 : ((l.flatMap glob).any fun f => !exist f) = (l'.flatMap glob').any fun f => !exist f := by
    rw [Bool.eq_iff_iff, List.any_eq_true, List.any_eq_true]
    exact ⟨fun ⟨x, hx, hy⟩ => ⟨x, h.mem_iff.mp hx, hy⟩, fun ⟨x, hx, hy⟩ => ⟨x, h.mem_iff.mpr hx, hy⟩⟩
  have h3 : (l.flatMap glob).insertionSort (· ≤ ·) = (l'.flatMap glob').insertionSort (· ≤ ·) :=
    List.Perm.eq_of_pairwise' (List.pairwise_insertionSort _ _) (List.pairwise_insertionSort _ _)
      (((List.perm_insertionSort _ _).trans h).trans (List.perm_insertionSort _ _).symm)
  unfold expandFileList
  simp only [h2, if_true, h3]
  by_cases he : l.flatMap glob = []
  · rw [if_pos he, if_pos (h1.mp he)]
  · rw [if_neg he, if_neg (fun e => he (h1.mpr e))]

/-- **C131**: the order in which the directory lists the files does not matter -/
theorem openAll_order (nr : List ℚ → ℚ) (junk : List ℕ → α) (new : ℕ → Axis) (down : List Name → Bool) (glob glob' : Name → List Name)
    (exist : Name → Bool) (opener : Name → Option (Option (Data α))) (l l' : List Name) (h : (l.flatMap glob).Perm (l'.flatMap glob')) :
    openAll nr junk new down glob exist opener l true = openAll nr junk new down glob' exist opener l' true := by
  unfold openAll
  rw [expand_perm glob glob' exist l l' h]

theorem expand_sorted (glob : Name → List Name) (exist : Name → Bool) (l F : List Name) (h : (l.flatMap glob).Perm F) (hs : F.Pairwise (· ≤ ·))
    (hF : F ≠ []) (he : ∀ f ∈ F, exist f = true) : expandFileList glob exist l true = some F := by
  unfold expandFileList
  simp only [if_true]
  rw [if_neg (by intro e; rw [e] at h; exact hF h.symm.eq_nil), if_neg (by
    rw [List.any_eq_true]; rintro ⟨x, hx, hy⟩; simp [he x (h.mem_iff.mp hx)] at hy)]
  rw [List.Perm.eq_of_pairwise' (List.pairwise_insertionSort _ _) hs ((List.perm_insertionSort _ _).trans h)]

/-! ### positions after sorting -/

theorem cells_sorted {S : List (List ℕ)} {V : List (List ℚ)} (h : List.Forall₂ (fun (s : List ℕ) (v : List ℚ) => s.Perm (List.range v.length)) S V) :
    (∀ k, InBounds ((List.zipWith (fun (s : List ℕ) (v : List ℚ) => s.map fun i : ℕ => v.getD i 0) S V).map List.length) k →
      InBounds (V.map List.length) (cell S k) ∧
      coords (List.zipWith (fun (s : List ℕ) (v : List ℚ) => s.map fun i : ℕ => v.getD i 0) S V) k = coords V (cell S k)) ∧
    ∀ K, InBounds (V.map List.length) K →
      ∃ k, InBounds ((List.zipWith (fun (s : List ℕ) (v : List ℚ) => s.map fun i : ℕ => v.getD i 0) S V).map List.length) k ∧ cell S k = K := by
  induction h with
  | nil =>
    refine ⟨fun k hk => ?_, fun K hK => ?_⟩
    · cases hk; exact ⟨.nil, rfl⟩
    · cases hK; exact ⟨[], .nil, rfl⟩
  | @cons s v S V hs _ ih =>
    refine ⟨fun k hk => ?_, fun K hK => ?_⟩
    · cases hk with
      | @cons i _ k _ hi hk =>
        obtain ⟨h1, h2⟩ := ih.1 k hk
        have hi' : i < s.length := by simpa using hi
        have hm : s.getD i 0 < v.length := by
          rw [List.getD_eq_getElem _ _ hi']
          exact List.mem_range.mp (hs.mem_iff.mp (List.getElem_mem hi'))
        refine ⟨.cons hm h1, ?_⟩
        unfold coords at h2 ⊢
        simp only [List.zipWith_cons_cons, cell] at h2 ⊢
        rw [h2]
        congr 1
        rw [List.getD_eq_getElem _ _ (by simpa using hi'), List.getElem_map, List.getD_eq_getElem _ _ hi']
    · cases hK with
      | @cons I _ K _ hI hK =>
        obtain ⟨k, h1, h2⟩ := ih.2 K hK
        obtain ⟨i, hi, rfl⟩ := List.getElem_of_mem (hs.mem_iff.mpr (List.mem_range.mpr hI))
        refine ⟨i :: k, .cons (by simpa using hi) h1, ?_⟩
        unfold cell at h2 ⊢
        rw [List.zipWith_cons_cons, h2, List.getD_eq_getElem _ _ hi]

/-! ### positions after joining -/

theorem zipWith_set {β γ δ : Type} (f : β → γ → δ) : ∀ (l : List β) (r : List γ) (j : ℕ) (a : β) (b : γ),
    List.zipWith f (l.set j a) (r.set j b) = (List.zipWith f l r).set j (f a b)
  | [], r, j, a, b => by simp
  | x :: l, [], j, a, b => by simp
  | x :: l, y :: r, 0, a, b => by simp
  | x :: l, y :: r, j + 1, a, b => by simp [zipWith_set f l r j a b]

theorem inBounds_set : ∀ {L k : List ℕ} (_ : InBounds L k) (j n x : ℕ) (_ : x < n), InBounds (L.set j n) (k.set j x)
  | [], _, h, _, _, _, _ => by cases h; exact .nil
  | _ :: _, _, .cons h hs, 0, n, x, hx => .cons hx hs
  | _ :: _, _, .cons h hs, j + 1, n, x, hx => .cons h (inBounds_set hs j n x hx)

theorem inBounds_getD : ∀ {L k : List ℕ} (_ : InBounds L k) (j : ℕ) (_ : j < L.length), k.getD j 0 < L.getD j 0
  | _ :: _, _, .cons h _, 0, _ => by simpa using h
  | _ :: _, _, .cons _ hs, j + 1, hj => by simpa using inBounds_getD hs j (by simpa using hj)

theorem set_getD (k : List ℕ) (j : ℕ) : k.set j (k.getD j 0) = k := by
  apply List.ext_getElem?
  intro i
  rw [List.getElem?_set]
  split_ifs with h1 h2
  · subst h1; rw [List.getD_eq_getElem _ _ h2, List.getElem?_eq_getElem h2]
  · subst h1; exact (List.getElem?_eq_none (by omega)).symm
  · rfl

theorem locate (ps : List (Piece α)) : ∀ i < (ps.flatMap fun s => s.axis.values).length,
    ∃ (p : ℕ) (s : Piece α) (r : ℕ), ps[p]? = some s ∧ r < s.axis.len ∧ i = offset ps p + r := by
  induction ps with
  | nil => intro i hi; simp at hi
  | cons t ps ih =>
    intro i hi
    by_cases h : i < t.axis.len
    · exact ⟨0, t, i, rfl, h, by simp [offset]⟩
    · obtain ⟨p, s, r, h1, h2, h3⟩ := ih (i - t.axis.len) (by
        simp only [List.flatMap_cons, List.length_append] at hi
        unfold Axis.len at h ⊢
        omega)
      refine ⟨p + 1, s, r, h1, h2, ?_⟩
      have : offset (t :: ps) (p + 1) = t.axis.len + offset ps p := by simp [offset]
      omega

theorem len_values (A : List Axis) : A.map Axis.len = (valuesOf A).map List.length := by
  unfold valuesOf; rw [List.map_map]; rfl

theorem valuesOf_set (A : List Axis) (j : ℕ) (a : Axis) : valuesOf (A.set j a) = (valuesOf A).set j a.values := List.map_set

/-- a position on joined axes is a position on the axes of one piece, with the same coordinates -/
theorem joined_positions (j : ℕ) (ps : List (Piece α)) (A : List Axis) (hj : j < A.length) (c : Axis) (hc : c.values = ps.flatMap fun s => s.axis.values)
    (data : List ℕ → α) (hd : ∀ (p : ℕ) (s : Piece α), ps[p]? = some s → ∀ k : List ℕ, k.length = A.length →
      k.getD j 0 < s.axis.len → data (k.set j (offset ps p + k.getD j 0)) = s.data k) (X : List ℚ) (v : α) :
    (∃ k, InBounds ((A.set j c).map Axis.len) k ∧ coords (valuesOf (A.set j c)) k = X ∧ data k = v) ↔
      ∃ s ∈ ps, ∃ k, InBounds ((A.set j s.axis).map Axis.len) k ∧ coords (valuesOf (A.set j s.axis)) k = X ∧ s.data k = v := by
  have hset : ∀ (a : Axis), (A.set j a).map Axis.len = (A.map Axis.len).set j a.len := fun a => List.map_set
  have hco : ∀ (a : Axis) (k : List ℕ) (r : ℕ), coords (valuesOf (A.set j a)) (k.set j r) = (coords (valuesOf A) k).set j (a.values.getD r 0) := by
    intro a k r
    rw [valuesOf_set]; exact zipWith_set _ _ _ _ _ _
  constructor
  · rintro ⟨K, hK, rfl, rfl⟩
    have hKl : K.length = A.length := by have := hK.length_eq; simpa using this
    rw [hset] at hK
    have hKj : K.getD j 0 < c.len := by
      have := inBounds_getD hK j (by simpa using hj)
      rwa [List.getD_eq_getElem ((A.map Axis.len).set j c.len) _ (by simpa using hj), List.getElem_set_self] at this
    obtain ⟨p, s, r, h1, h2, h3⟩ := locate ps (K.getD j 0) (by rw [← hc]; exact hKj)
    have hr : (K.set j r).getD j 0 = r := by
      rw [List.getD_eq_getElem _ _ (by simp; omega), List.getElem_set_self]
    refine ⟨s, List.mem_of_getElem? h1, K.set j r, ?_, ?_, ?_⟩
    · rw [hset]
      have := inBounds_set hK j s.axis.len r h2
      rwa [List.set_set] at this
    · rw [hco]
      conv_rhs => rw [← set_getD K j, hco]
      rw [hc, h3, ← (Concat.flatMap_getD ps p s h1).2 r h2]
    · rw [← hd p s h1 (K.set j r) (by simpa using hKl) (by rw [hr]; exact h2), hr, List.set_set, ← h3, set_getD]
  · rintro ⟨s, hs, k, hk, rfl, rfl⟩
    obtain ⟨p, hp, rfl⟩ := List.getElem_of_mem hs
    have h1 := List.getElem?_eq_getElem hp
    have hkl : k.length = A.length := by have := hk.length_eq; simpa using this
    rw [hset] at hk
    have hkj : k.getD j 0 < ps[p].axis.len := by
      have := inBounds_getD hk j (by simpa using hj)
      rwa [List.getD_eq_getElem ((A.map Axis.len).set j ps[p].axis.len) _ (by simpa using hj), List.getElem_set_self] at this
    obtain ⟨f1, f2⟩ := Concat.flatMap_getD ps p ps[p] h1
    refine ⟨k.set j (offset ps p + k.getD j 0), ?_, ?_, hd p _ h1 k hkl hkj⟩
    · rw [hset]
      have := inBounds_set hk j c.len (offset ps p + k.getD j 0) (by unfold Axis.len at *; rw [hc]; omega)
      rwa [List.set_set] at this
    · rw [hco]
      conv_rhs => rw [← set_getD k j, hco]
      rw [hc, ← f2 _ hkj]

theorem sliceAxis_name (nr : List ℚ → ℚ) (a : Axis) (s : List ℕ) : (sliceAxis nr a s).name = a.name := by
  unfold sliceAxis
  simp only
  split_ifs <;> rfl

/-- the natural order of one axis -/
def sortAxis (nr : List ℚ → ℚ) (down : List Name → Bool) (a : Axis) : Axis := sliceAxis nr a (axisArgsort a (down a.classes))

theorem sorted_axes (nr : List ℚ → ℚ) (junk : List ℕ → α) (down : List Name → Bool) (y : Var α) :
    (sortedVar nr junk y (natural down y.axes)).axes = y.axes.map (sortAxis nr down) := by
  unfold sortedVar Var.ofView
  simp only
  refine List.ext_getElem (by simp) fun i hi hi' => ?_
  simp only [List.getElem_map, List.getElem_zipIdx, Nat.zero_add, natural]
  rw [List.getElem?_eq_getElem (by simpa using hi)]
  rfl

/-- sorting what has been joined -/
theorem gathered_of_joined (nr : List ℚ → ℚ) (junk : List ℕ → α) (down : List Name → Bool) (j : ℕ) (ps : List (Piece α)) (y : Var α)
    (hy : IsJoined j ps y) (hj : ∀ t, ps.head? = some t → t.var.axes[j]? = some t.axis) (hR : Regular y.axes) (hrt : ∀ a ∈ y.axes, 0 ≤ a.rtol)
    (hsep : ∀ a ∈ y.axes, Separated a.values) :
    Gathered down j ps (sortedVar nr junk y (natural down y.axes)) := by
  obtain ⟨t, c, data, h1, h2, h3, h4, h5, h6, h7⟩ := hy
  have hj' := hj t h1
  have hjl : j < t.var.axes.length := (List.getElem?_eq_some_iff.1 hj').1
  obtain ⟨S, s1, s2, s3⟩ := sorted_correct nr junk y (natural down y.axes) data h6 hR hrt hsep
  have hax := sorted_axes nr junk down y
  have hsame : ∀ {β : Type} (f : Axis → β), f c = f t.axis → y.axes.map f = t.var.axes.map f := by
    intro β f hf
    rw [h2, List.map_set, hf]
    apply List.ext_getElem?
    intro i
    rw [List.getElem?_set]
    split_ifs with e1 e2
    · subst e1; rw [List.getElem?_map, hj']; rfl
    · subst e1; simp at e2; omega
    · rfl
  refine ⟨t, fun k => data (cell S k), h1, s3, ?_, ?_, ?_, ?_⟩
  · rw [hax, List.map_map, ← hsame _ h4]
    exact List.map_congr_left fun a _ => sliceAxis_classes nr a _
  · rw [hax, List.map_map, ← hsame _ h3]
    exact List.map_congr_left fun a _ => sliceAxis_name nr a _
  · intro b hb
    obtain ⟨i, hi, rfl⟩ := List.getElem_of_mem hb
    have hi' : i < y.axes.length := by rw [hax] at hi; simpa using hi
    obtain ⟨s, b', b1, b2, b3, b4, b5, b6, b7⟩ := s2 i _ (List.getElem?_eq_getElem hi')
    rw [List.getElem?_eq_getElem hi, Option.some.injEq] at b3
    have hcl : (sortedVar nr junk y (natural down y.axes)).axes[i].classes = y.axes[i].classes := by
      have := List.getElem_of_eq hax hi
      rw [this, List.getElem_map]; exact sliceAxis_classes nr _ _
    have hn : natural down y.axes i = some (down y.axes[i].classes) := by
      unfold natural; rw [List.getElem?_eq_getElem hi']; rfl
    rw [hcl, b3]
    rw [hn] at b6 b7
    cases hd : down y.axes[i].classes
    · rw [if_neg (by simp)]; exact b6 (by rw [hd])
    · rw [if_pos rfl]; exact b7 (by rw [hd])
  · intro X v
    have hF : List.Forall₂ (fun (s : List ℕ) (v : List ℚ) => s.Perm (List.range v.length)) S (valuesOf y.axes) := by
      unfold valuesOf
      rw [List.forall₂_map_right_iff, List.forall₂_iff_get]
      refine ⟨s1, fun i hi hi' => ?_⟩
      obtain ⟨s, b', b1, b2, _⟩ := s2 i _ (List.getElem?_eq_getElem hi')
      rw [List.getElem?_eq_getElem hi, Option.some.injEq] at b1
      simp only [List.get_eq_getElem]
      rw [b1]; exact b2
    have hV : valuesOf (sortedVar nr junk y (natural down y.axes)).axes =
        List.zipWith (fun (s : List ℕ) (v : List ℚ) => s.map fun i : ℕ => v.getD i 0) S (valuesOf y.axes) := by
      refine List.ext_getElem (by rw [hax]; simp [valuesOf, s1]) fun i hi hi' => ?_
      have hiy : i < y.axes.length := by rw [hax] at hi; simpa [valuesOf] using hi
      obtain ⟨s, b', b1, b2, b3, b4, _⟩ := s2 i _ (List.getElem?_eq_getElem hiy)
      rw [List.getElem?_eq_getElem (by rw [hax]; simpa using hiy), Option.some.injEq] at b3
      rw [List.getElem?_eq_getElem (by omega), Option.some.injEq] at b1
      have e : ∀ (A : List Axis) (h : i < (valuesOf A).length), (valuesOf A)[i] = (A[i]'(by simpa [valuesOf] using h)).values := by
        intro A h
        simp [valuesOf]
      rw [List.getElem_zipWith, b1, e, e, b3, b4]
    obtain ⟨q1, q2⟩ := cells_sorted hF
    rw [← hV, ← len_values, ← len_values] at q1 q2
    rw [← joined_positions j ps t.var.axes hjl c h5 data h7 X v, ← h2]
    constructor
    · rintro ⟨k, hk, rfl, rfl⟩
      obtain ⟨r1, r2⟩ := q1 k hk
      exact ⟨cell S k, r1, r2.symm, rfl⟩
    · rintro ⟨K, hK, rfl, rfl⟩
      obtain ⟨k, r1, rfl⟩ := q2 K hK
      exact ⟨k, r1, (q1 k r1).2, rfl⟩

/-- sorting keeps a dataset a dataset -/
theorem sortedData_eq (nr : List ℚ → ℚ) (junk : List ℕ → α) (down : List Name → Bool) (d : Data α) (h : IsDataset d.vars) :
    sortedData nr junk down d = some ⟨d.vars.map fun x => ⟨x.name, sortedVar nr junk x.var (natural down x.var.axes)⟩, d.atts⟩ ∧
      IsDataset (d.vars.map fun x => (⟨x.name, sortedVar nr junk x.var (natural down x.var.axes)⟩ : Member α)) := by
  have hI : IsDataset (d.vars.map fun x => (⟨x.name, sortedVar nr junk x.var (natural down x.var.axes)⟩ : Member α)) := by
    refine ⟨?_, ?_, ?_⟩
    · rw [List.map_map]; exact h.names
    · intro z hz
      obtain ⟨x, hx, rfl⟩ := List.mem_map.1 hz
      exact h.blank x hx
    · have hf : ∀ a ∈ allAxes (d.vars.map fun x => (⟨x.name, sortedVar nr junk x.var (natural down x.var.axes)⟩ : Member α)),
          ∃ b ∈ allAxes d.vars, a = sortAxis nr down b := by
        intro a ha
        obtain ⟨z, hz, haz⟩ := mem_allAxes.1 ha
        obtain ⟨x, hx, rfl⟩ := List.mem_map.1 hz
        simp only at haz
        rw [sorted_axes] at haz
        obtain ⟨b, hb, rfl⟩ := List.mem_map.1 haz
        exact ⟨b, mem_allAxes.2 ⟨x, hx, hb⟩, rfl⟩
      intro a ha b hb hab
      obtain ⟨a', ha', rfl⟩ := hf a ha
      obtain ⟨b', hb', rfl⟩ := hf b hb
      unfold sortAxis at hab
      rw [sliceAxis_name, sliceAxis_name] at hab
      rw [h.same a' ha' b' hb' hab]
  refine ⟨?_, hI⟩
  unfold sortedData
  have e : ∀ l : List (Member α), (l.filterMap fun x => some (⟨x.name, sortedVar nr junk x.var (natural down x.var.axes)⟩ : Member α)) =
      l.map fun x => ⟨x.name, sortedVar nr junk x.var (natural down x.var.axes)⟩ := fun l => by
    rw [List.filterMap_eq_map']
  rw [map_correct nr junk _ d (fun x => some ⟨x.name, sortedVar nr junk x.var (natural down x.var.axes)⟩) (fun _ _ => rfl) (by rw [e]; exact hI), e]

theorem regular_of_kinds {A B : List Axis} (h : B.map Axis.classes = A.map Axis.classes) (hA : Regular A) : Regular B := by
  have hp : ∀ {A B : List Axis}, B.map Axis.classes = A.map Axis.classes → (A.Pairwise fun a b => Axis.compatible a b = false) →
      B.Pairwise fun a b => Axis.compatible a b = false := by
    intro A B h hA
    let R : List Name → List Name → Prop := fun x y =>
      Axis.compatible ⟨x, [], [], [], false, 0, [], []⟩ ⟨y, [], [], [], false, 0, [], []⟩ = false
    have h1 : (A.map Axis.classes).Pairwise R := List.pairwise_map.2 hA
    rw [← h] at h1
    exact List.pairwise_map.1 h1
  refine ⟨fun b hb => ?_, hp h hA.inc⟩
  have := List.mem_map_of_mem (f := Axis.classes) hb
  rw [h] at this
  obtain ⟨a, ha, e⟩ := List.mem_map.1 this
  rw [← e]; exact hA.cls a ha

/-- **C131**: opening many files. The files are those that match, `F` in the order of their names; `P f n` is the variable `n` of the file `f`.
Each variable of the result has exactly the values of the files, at their coordinates, whatever the file they come from, along axes in their
natural order; the global attributes are those that all files share. -/
theorem openAll_correct (nr : List ℚ → ℚ) (hnr : ∀ l, 0 ≤ nr l) (junk : List ℕ → α) (new : ℕ → Axis) (down : List Name → Bool)
    (glob : Name → List Name) (exist : Name → Bool) (opener : Name → Option (Option (Data α))) (patterns : List Name)
    (f0 f1 : Name) (F : List Name) (hF : (patterns.flatMap glob).Perm (f0 :: f1 :: F)) (hs : (f0 :: f1 :: F).Pairwise (· ≤ ·))
    (he : ∀ f ∈ f0 :: f1 :: F, exist f = true)
    (N : List Name) (P : Name → Name → Piece α) (atts : Name → List (Name × Name)) (j : Name → ℕ)
    (hop : ∀ f ∈ f0 :: f1 :: F, opener f = some (some ⟨N.map fun n => ⟨n, (P f n).var⟩, atts f⟩))
    (hds : ∀ f ∈ f0 :: f1 :: F, IsDataset (N.map fun n => (⟨n, (P f n).var⟩ : Member α)))
    (hatts : ∀ f ∈ f0 :: f1 :: F, ((atts f).map Prod.fst).Nodup)
    (hJ : ∀ n ∈ N, Joinable (j n) (P f0 n).var.axes ((f0 :: f1 :: F).map fun f => P f n))
    (hdiff : ∀ n ∈ N, ∀ f ∈ f1 :: F, axEq (P f0 n).axis (P f n).axis = false)
    (hsame : ∀ n ∈ N, ∀ f ∈ f0 :: f1 :: F, ∀ (q : ℕ) (a b : Axis), q ≠ j n → (P f0 n).var.axes[q]? = some a → (P f n).var.axes[q]? = some b →
      axEq a b = true)
    (hname : ∀ n ∈ N, ∀ f ∈ f0 :: f1 :: F, (P f n).axis.name = (P f0 n).axis.name)
    (hpos : ∀ n ∈ N, ∀ n' ∈ N, ∀ q : ℕ, (P f0 n').var.axes[q]? = some (P f0 n).axis → q = j n')
    (hrt : ∀ n ∈ N, ∀ a ∈ (P f0 n).var.axes, 0 ≤ a.rtol)
    (hsep : ∀ n ∈ N, ∀ a ∈ (P f0 n).var.axes, Separated a.values) :
    ∃ d, openAll nr junk new down glob exist opener patterns true = some d ∧ IsDataset d.vars ∧ d.vars.map Member.name = N ∧
      (∀ x ∈ d.vars, Gathered down (j x.name) ((f0 :: f1 :: F).map fun f => P f x.name) x.var) ∧
      ∀ k v, d.atts.lookup k = some v ↔ ∀ f ∈ f0 :: f1 :: F, (atts f).lookup k = some v := by
  generalize hL : f0 :: f1 :: F = L at *
  have h0 : ∀ {β : Type} (g : Name → β), L.map g = (List.range L.length).map fun i => g (L.getD i []) := by
    intro β g
    refine List.ext_getElem (by simp) fun i hi hi' => ?_
    rw [List.getElem_map, List.getElem_map, List.getElem_range, List.getD_eq_getElem _ _ (by simpa using hi)]
  have hL0 : L.getD 0 [] = f0 := by rw [← hL]; rfl
  have hmem : ∀ i < L.length, L.getD i [] ∈ L := fun i hi => by
    rw [List.getD_eq_getElem _ _ hi]; exact List.getElem_mem _
  obtain ⟨d, d1, d2, d3, d4, d5, d6⟩ := concat_correct_partial nr junk new L.length (by rw [← hL]; simp) N (fun i n => P (L.getD i []) n)
    (fun i => atts (L.getD i [])) j (fun i hi => hds _ (hmem i hi)) (fun i hi => hatts _ (hmem i hi))
    (fun n hn => by rw [← h0 fun f => P f n, hL0]; exact hJ n hn)
    (fun n hn i hi h1 => by
      rw [hL0]
      refine hdiff n hn _ ?_
      obtain ⟨i, rfl⟩ : ∃ i', i = i' + 1 := ⟨i - 1, by omega⟩
      rw [← hL] at hi ⊢
      rw [List.getD_cons_succ, List.getD_eq_getElem _ _ (by simpa using hi)]
      exact List.getElem_mem _)
    (fun n hn i hi => by rw [hL0]; exact hsame n hn _ (hmem i hi))
    (fun n hn i hi => by rw [hL0]; exact hname n hn _ (hmem i hi))
    (fun n hn n' hn' => by rw [hL0]; exact hpos n hn n' hn')
  obtain ⟨e1, e2⟩ := sortedData_eq nr junk down d d2
  refine ⟨⟨d.vars.map fun x => ⟨x.name, sortedVar nr junk x.var (natural down x.var.axes)⟩, d.atts⟩, ?_, e2, ?_, ?_, ?_⟩
  rotate_left
  · simp only [List.map_map]; exact d3
  · intro z hz
    obtain ⟨x, hx, rfl⟩ := List.mem_map.1 hz
    have hxN : x.name ∈ N := by rw [← d3]; exact List.mem_map_of_mem hx
    have hJx := hJ _ hxN
    have hj4 := d4 x hx
    rw [← h0 fun f => P f x.name] at hj4
    obtain ⟨c, c1, c2⟩ := d6 x hx
    rw [hL0] at c1
    rw [← h0 fun f => (P f x.name).axis] at c2
    have hc : 0 ≤ c.rtol ∧ c.classes = (P f0 x.name).axis.classes ∧ Separated c.values := by
      rw [← hL] at c2
      have hs := hJx.sep
      rw [List.flatMap_map, ← hL] at hs
      rw [List.map_cons, List.map_cons, Concat.concatAxis] at c2
      · obtain rfl := Option.some.inj c2
        refine ⟨hnr _, rfl, ?_⟩
        have e : ∀ l : List Name, (l.map fun f => (P f x.name).axis).flatMap Axis.values = l.flatMap fun f => (P f x.name).axis.values :=
          fun l => List.flatMap_map ..
        have e' := e (f0 :: f1 :: F)
        rw [List.map_cons, List.map_cons] at e'
        show Separated (((P f0 x.name).axis :: (P f1 x.name).axis :: F.map fun f => (P f x.name).axis).flatMap Axis.values)
        rw [e']
        exact hs
      · simp
    have hax0 : (P f0 x.name).var.axes[j x.name]? = some (P f0 x.name).axis := hJx.ax _ (by rw [← hL]; exact List.mem_map.2 ⟨f0, by simp, rfl⟩)
    have hmemset : ∀ a ∈ x.var.axes, a = c ∨ a ∈ (P f0 x.name).var.axes := by
      intro a ha
      rw [c1] at ha
      exact (List.mem_or_eq_of_mem_set ha).symm
    refine gathered_of_joined nr junk down (j x.name) _ x.var hj4 ?_ ?_ ?_ ?_
    · intro t ht
      exact hJx.ax t (List.mem_of_mem_head? ht)
    · refine regular_of_kinds ?_ hJx.regular
      rw [c1, List.map_set, hc.2.1]
      apply List.ext_getElem?
      intro i
      rw [List.getElem?_set]
      split_ifs with e1 e2
      · subst e1; rw [List.getElem?_map, hax0]; rfl
      · subst e1; have := hJx.here; simp at e2; omega
      · rfl
    · intro a ha
      rcases hmemset a ha with rfl | h
      · exact hc.1
      · exact hrt _ hxN a h
    · intro a ha
      rcases hmemset a ha with rfl | h
      · exact hc.2.2
      · exact hsep _ hxN a h
  · intro k v
    rw [d5]
    constructor
    · intro h f hf
      obtain ⟨i, hi, rfl⟩ := List.getElem_of_mem hf
      have := h i hi
      rwa [List.getD_eq_getElem _ _ hi] at this
    · exact fun h i hi => h _ (hmem i hi)
  · unfold openAll
    rw [expand_sorted glob exist patterns L hF hs (by rw [← hL]; simp) he, Option.bind_some]
    have hm : L.mapM opener = some (L.map fun f => some (⟨N.map fun n => ⟨n, (P f n).var⟩, atts f⟩ : Data α)) := by
      apply mapM_forall₂
      rw [List.forall₂_map_right_iff, List.forall₂_same]
      exact hop
    rw [hm, Option.bind_some, List.filterMap_map]
    have hid : (L.filterMap (id ∘ fun f => some (⟨N.map fun n => ⟨n, (P f n).var⟩, atts f⟩ : Data α))) =
        L.map fun f => (⟨N.map fun n => ⟨n, (P f n).var⟩, atts f⟩ : Data α) :=
      congrFun List.filterMap_eq_map' L
    rw [hid, h0, d1, Option.bind_some, if_pos rfl, e1]

/-- **C131**: a single file is opened and sorted -/
theorem openAll_one (nr : List ℚ → ℚ) (junk : List ℕ → α) (new : ℕ → Axis) (down : List Name → Bool)
    (glob : Name → List Name) (exist : Name → Bool) (opener : Name → Option (Option (Data α))) (patterns : List Name) (f : Name)
    (hf : patterns.flatMap glob = [f]) (he : exist f = true) (d : Data α) (hop : opener f = some (some d)) (hd : IsDataset d.vars) :
    openAll nr junk new down glob exist opener patterns true =
      some ⟨d.vars.map fun x => ⟨x.name, sortedVar nr junk x.var (natural down x.var.axes)⟩, d.atts⟩ := by
  unfold openAll
  rw [expand_sorted glob exist patterns [f] (by rw [hf]) (by simp) (by simp) (by simpa using he), Option.bind_some, List.mapM_cons, hop]
  have : (([some d] : List (Option (Data α))).filterMap id) = [d] := rfl
  show ((DatasetOps.concat nr junk new [d]).bind fun ds => if (true : Bool) = true then sortedData nr junk down ds else some ds) = _
  have h1 : DatasetOps.concat nr junk new [d] = some d := rfl
  rw [h1, Option.bind_some, if_pos rfl, (sortedData_eq nr junk down d hd).1]

/-- **C131**: no file that matches, or one that does not exist, is refused -/
theorem openAll_none (nr : List ℚ → ℚ) (junk : List ℕ → α) (new : ℕ → Axis) (down : List Name → Bool)
    (glob : Name → List Name) (exist : Name → Bool) (opener : Name → Option (Option (Data α))) (patterns : List Name) (sort : Bool)
    (h : patterns.flatMap glob = [] ∨ ∃ f ∈ patterns.flatMap glob, exist f = false) :
    openAll nr junk new down glob exist opener patterns sort = none := by
  unfold openAll expandFileList
  simp only
  rcases h with h | ⟨f, hf, h⟩
  · rw [if_pos h]; rfl
  · by_cases h' : patterns.flatMap glob = []
    · rw [if_pos h']; rfl
    · rw [if_neg h', if_pos]
      · rfl
      · rw [List.any_eq_true]; exact ⟨f, hf, by rw [h]; rfl⟩

/-! ### example: the files `a` and `b`, each with some of the times -/

def pieceOf (f : Name) : Piece ℕ := if f = "a".toList then Concat.pieceEx 0 2 else Concat.pieceEx 2 3

example := openAll_correct (fun _ => 1 / 100000) (by intro l; norm_num) (fun _ => 0) (fun n => VarOps.timeEx n) (fun _ => false)
  (fun p => if p = "*".toList then ["b".toList, "a".toList] else []) (fun _ => true)
  (fun f => some (some ⟨["T".toList, "U".toList].map fun n => ⟨n, (pieceOf f).var⟩, [("part".toList, f)]⟩)) ["*".toList] "a".toList "b".toList []
  (by decide +kernel) (by decide +kernel) (fun _ _ => rfl) ["T".toList, "U".toList] (fun f _ => pieceOf f) (fun f => [("part".toList, f)]) (fun _ => 0)
  (fun _ _ => rfl)
  (by
    intro f _
    unfold pieceOf
    split_ifs
    · exact dataEx_isDataset 0 2
    · exact dataEx_isDataset 2 3)
  (by simp) (fun n _ => Concat.pieceEx_joinable)
  (by
    intro n _ f hf
    obtain rfl : f = "b".toList := by simpa using hf
    decide +kernel)
  (by
    intro n _ f _ q a b hq ha hb
    have h1 : q = 1 := by
      have := (List.getElem?_eq_some_iff.1 ha).1
      have h2 : (pieceOf "a".toList).var.axes.length = 2 := rfl
      omega
    subst h1
    have ha' : lonEx = a := by simpa [pieceOf, Concat.pieceEx] using ha
    have hb' : lonEx = b := by
      unfold pieceOf at hb
      split_ifs at hb
      all_goals simpa [Concat.pieceEx] using hb
    rw [← ha', ← hb']
    exact axEq_self _)
  (by
    intro n _ f _
    unfold pieceOf
    split_ifs
    all_goals rfl)
  (by
    intro n _ n' _ q hq
    have h1 : q < 2 := (List.getElem?_eq_some_iff.1 hq).1
    obtain rfl | rfl : q = 0 ∨ q = 1 := by omega
    · rfl
    · exact absurd hq (by decide +kernel))
  (by
    intro n _ a ha
    have e : (pieceOf "a".toList).var.axes = (Concat.pieceEx 0 2).var.axes := rfl
    rw [e] at ha
    revert a
    decide +kernel)
  (by
    intro n _ a ha
    have e : (pieceOf "a".toList).var.axes = (Concat.pieceEx 0 2).var.axes := rfl
    rw [e] at ha
    have h : a = (Concat.pieceEx 0 2).axis ∨ a = lonEx := by simpa [Concat.pieceEx] using ha
    rcases h with rfl | rfl
    · exact separated_of (by decide +kernel)
    · exact separated_of (by decide +kernel))

end OpenAll
end PyGeode
