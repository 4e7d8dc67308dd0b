/-
C133: what the plots of variables show.
-/
import Verif.Model.Plot
import Verif.Props.VarOps
import Verif.Props.GetItem
import Verif.Props.TimeMatch
import Verif.Props.Call
import Mathlib.Tactic.Linarith

namespace PyGeode
namespace Plot
open Spec NArr Axis Combine VarOps

/-- the axes along which there is more than one position -/
def _root_.PyGeode.Spec.extended (axes : List Axis) : List Axis := axes.filter fun a => decide (a.len ≠ 1)

/-- the number drawn for the value `v` -/
def _root_.PyGeode.Spec.shown (p : PlotAtts) (v : ℚ) : ℚ := v * p.scalefactor.getD 1 + p.offset.getD 0

/-- The coordinates `x` and `y` and the field `z` show the data of a variable along its axes `X` and `Y`: at every position the value is found at the
place of its coordinates. -/
structure _root_.PyGeode.Spec.DrawsField (pa : Axis → PlotAtts) (p : PlotAtts) (axes : List Axis) (data : List ℕ → ℚ) (X Y : Axis)
    (x y : List ℚ) (z : NArr ℚ) : Prop where
  shape : z.shape = [y.length, x.length]
  xs : x.length = X.len
  ys : y.length = Y.len
  point : ∀ pos : Axis → ℕ, (∀ a ∈ axes, pos a < a.len) →
    x.getD (pos X) 0 = shown (pa X) (X.values.getD (pos X) 0) ∧ y.getD (pos Y) 0 = shown (pa Y) (Y.values.getD (pos Y) 0) ∧
    z.get [pos Y, pos X] = shown p (data (axes.map pos))

def _root_.PyGeode.Spec.vertical (a : Axis) : Prop := "ZAxis".toList ∈ a.classes
def _root_.PyGeode.Spec.latitude (a : Axis) : Prop := "Lat".toList ∈ a.classes
def _root_.PyGeode.Spec.longitude (a : Axis) : Prop := "Lon".toList ∈ a.classes

/-- an axis is at most one of vertical, latitude and longitude -/
def _root_.PyGeode.Spec.OneKind (a : Axis) : Prop :=
  (vertical a → ¬ latitude a ∧ ¬ longitude a) ∧ (latitude a → ¬ longitude a)

/-- which of the axes `a` and `b`, in this order on the variable, is drawn along x and which along y -/
structure _root_.PyGeode.Spec.Oriented (tr : Option Bool) (a b X Y : Axis) : Prop where
  yes : tr = some true → X = b ∧ Y = a
  no : tr = some false → X = a ∧ Y = b
  up : tr = none → vertical a → ¬ vertical b → X = b ∧ Y = a
  up' : tr = none → vertical b → ¬ vertical a → X = a ∧ Y = b
  map : tr = none → latitude a → longitude b → X = b ∧ Y = a
  map' : tr = none → longitude a → latitude b → X = a ∧ Y = b
  other : tr = none → ¬ vertical a → ¬ vertical b → ¬ (latitude a ∧ longitude b) → X = a ∧ Y = b
  both : X = a ∧ Y = b ∨ X = b ∧ Y = a

theorem scale_eq (p : PlotAtts) (v : ℚ) : p.scale v = shown p v := by
  unfold PlotAtts.scale shown
  cases p.scalefactor <;> cases p.offset <;> simp

theorem isA_iff (a : Axis) (c : String) : isA a c = true ↔ c.toList ∈ a.classes := by simp [isA]

theorem orient_spec (tr : Option Bool) (a b : Axis) (ha : OneKind a) (hb : OneKind b) : Oriented tr a b (orient tr a b).1 (orient tr a b).2 := by
  have za := isA_iff a "ZAxis"
  have la := isA_iff a "Lat"
  have lb := isA_iff b "Lat"
  have oa := isA_iff a "Lon"
  have ob := isA_iff b "Lon"
  have v1 : vertical a ↔ "ZAxis".toList ∈ a.classes := Iff.rfl
  have v2 : vertical b ↔ "ZAxis".toList ∈ b.classes := Iff.rfl
  have v3 : latitude a ↔ "Lat".toList ∈ a.classes := Iff.rfl
  have v4 : latitude b ↔ "Lat".toList ∈ b.classes := Iff.rfl
  have v5 : longitude a ↔ "Lon".toList ∈ a.classes := Iff.rfl
  have v6 : longitude b ↔ "Lon".toList ∈ b.classes := Iff.rfl
  unfold OneKind at ha hb
  rw [← v1] at za
  rw [← v3] at la
  rw [← v4] at lb
  rw [← v5] at oa
  rw [← v6] at ob
  cases tr with
  | some t =>
    cases t
    · exact ⟨by simp, fun _ => ⟨rfl, rfl⟩, by simp, by simp, by simp, by simp, by simp, .inl ⟨rfl, rfl⟩⟩
    · exact ⟨fun _ => ⟨rfl, rfl⟩, by simp, by simp, by simp, by simp, by simp, by simp, .inr ⟨rfl, rfl⟩⟩
  | none =>
    by_cases hz : vertical a
    · have e1 : isA a "ZAxis" = true := za.2 hz
      have e2 : isA a "Lon" = false := by
        rw [← Bool.not_eq_true, oa]; exact (ha.1 hz).2
      have e : orient none a b = (b, a) := by simp [orient, e1, e2]
      rw [e]
      refine ⟨by simp, by simp, fun _ _ _ => ⟨rfl, rfl⟩, fun _ _ h => absurd hz h, fun _ h => absurd h (ha.1 hz).1, fun _ h => absurd h (ha.1 hz).2,
        fun _ h => absurd hz h, .inr ⟨rfl, rfl⟩⟩
    · have e1 : isA a "ZAxis" = false := by rw [← Bool.not_eq_true, za]; exact hz
      by_cases hm : latitude a ∧ longitude b
      · have e : orient none a b = (b, a) := by simp [orient, e1, la.2 hm.1, ob.2 hm.2]
        rw [e]
        refine ⟨by simp, by simp, fun _ h => absurd h hz, fun _ h _ => absurd hm.2 (hb.1 h).2, fun _ _ _ => ⟨rfl, rfl⟩, fun _ h => absurd h (ha.2 hm.1),
          fun _ _ _ h => absurd hm h, .inr ⟨rfl, rfl⟩⟩
      · have e : orient none a b = (a, b) := by
          have : (isA a "Lat" && isA b "Lon") = false := by
            rw [← Bool.not_eq_true, Bool.and_eq_true, la, ob]; exact hm
          simp [orient, e1, this]
        rw [e]
        refine ⟨by simp, by simp, fun _ h => absurd h hz, fun _ _ _ => ⟨rfl, rfl⟩, fun _ h h' => absurd ⟨h, h'⟩ hm, fun _ _ _ => ⟨rfl, rfl⟩, fun _ _ _ _ => ⟨rfl, rfl⟩,
          .inl ⟨rfl, rfl⟩⟩

theorem sublist_filter {A : Type} {l₁ l : List A} (h : l₁.Sublist l) (hn : l.Nodup) (p : A → Bool) (hp : ∀ a ∈ l, (a ∈ l₁ ↔ p a = true)) :
    l₁ = l.filter p := by
  induction h with
  | slnil => rfl
  | cons a h ih =>
    obtain ⟨n1, n2⟩ := List.nodup_cons.1 hn
    have : p a = false := by
      rw [← Bool.not_eq_true, ← hp a (by simp)]
      exact fun h' => n1 (h.subset h')
    rw [List.filter_cons_of_neg (by simp [this])]
    exact ih n2 fun b hb => hp b (List.mem_cons_of_mem _ hb)
  | cons_cons a h ih =>
    obtain ⟨n1, n2⟩ := List.nodup_cons.1 hn
    rw [List.filter_cons_of_pos ((hp a (by simp)).1 (by simp))]
    congr 1
    refine ih n2 fun b hb => ?_
    rw [← hp b (List.mem_cons_of_mem _ hb)]
    have : b ≠ a := fun e => n1 (e ▸ hb)
    simp [this]

/-- the axes of a squeezed variable -/
theorem squeezed (nr : List ℚ → ℚ) (junk : List ℕ → ℚ) (x : Var ℚ) (data : List ℕ → ℚ) (hx : Contains x data) (hr : Regular x.axes) :
    ∃ Z d, squeeze nr junk x [] = some Z ∧ Z.axes = extended x.axes ∧ Contains Z d ∧
      ∀ pos : Axis → ℕ, (∀ a ∈ x.axes, pos a < a.len) → d (Z.axes.map pos) = data (x.axes.map pos) := by
  have hsome : ∃ Z, squeeze nr junk x [] = some Z := by
    unfold squeeze squeezeAxes
    simp
  obtain ⟨Z, hZ⟩ := hsome
  obtain ⟨h1, h2, h3, d, h4, h5⟩ := squeeze_correct nr junk x Z [] data hx hr hZ
  have hnd := hr.nodup
  have hmem : ∀ a ∈ x.axes, (a ∈ Z.axes ↔ a.len ≠ 1) := by
    intro a ha
    obtain ⟨i, hi, rfl⟩ := List.getElem_of_mem ha
    have := h3 i _ (List.getElem?_eq_getElem hi)
    simp only [true_or, and_true] at this
    rw [← not_iff_not, this]; simp
  refine ⟨Z, d, hZ, ?_, h4, ?_⟩
  · refine sublist_filter h1 hnd _ fun a ha => ?_
    rw [hmem a ha]; simp
  · intro pos hpos
    refine h5 pos fun a ha haZ => ?_
    have h1 : ¬ (a.len ≠ 1) := fun h => haZ ((hmem a ha).2 h)
    have := hpos a ha
    omega

theorem extended_regular {axes : List Axis} (h : Regular axes) : Regular (extended axes) :=
  ⟨fun a ha => h.cls a (List.mem_of_mem_filter ha), h.inc.sublist List.filter_sublist⟩

/-- the field drawn -/
theorem field_correct (nr : List ℚ → ℚ) (junk : List ℕ → ℚ) (p : PlotAtts) (Z : Var ℚ) (data : List ℕ → ℚ) (hZ : Contains Z data) (hr : Regular Z.axes)
    (hpos : ∀ a ∈ Z.axes, 0 < a.len) (X Y : Axis) (h : Z.axes = [X, Y] ∨ Z.axes = [Y, X]) :
    ∃ z, field nr junk p Z X Y = some z ∧ z.shape = [Y.len, X.len] ∧
      ∀ pos : Axis → ℕ, pos X < X.len → pos Y < Y.len → z.get [pos Y, pos X] = shown p (data (Z.axes.map pos)) := by
  have hXY : ∀ a ∈ Z.axes, ∀ b ∈ Z.axes, a ≠ b → axEq a b = false := by
    intro a ha b hb hab
    by_contra hne
    have h1 := Loop.axEq_compatible (by simpa using hne) (hr.cls a ha)
    obtain ⟨i, hi, rfl⟩ := List.getElem_of_mem ha
    obtain ⟨j, hj, rfl⟩ := List.getElem_of_mem hb
    have hij : i ≠ j := fun e => hab (by subst e; rfl)
    rw [hr.incompatible hi hj hij] at h1
    cases h1
  have hnd := hr.nodup
  obtain ⟨req, hreq, hreqnd, hreqf⟩ : ∃ req, whichAll Z.axes [.axis Y, .axis X] = some req ∧ req.Nodup ∧
      (req.filterMap fun i => Z.axes[i]?) = [Y, X] := by
    rcases h with h | h
    · have hne : X ≠ Y := by
        rw [h] at hnd; simpa using hnd
      have e1 := hXY X (by simp [h]) Y (by simp [h]) hne
      refine ⟨[1, 0], ?_, by simp, by rw [h]; rfl⟩
      rw [h]
      simp [whichAll, whichaxis, List.findIdx?_cons, e1, Dataset.axEq_self, foundAt]
    · have hne : Y ≠ X := by
        rw [h] at hnd; simpa using hnd
      have e1 := hXY Y (by simp [h]) X (by simp [h]) hne
      refine ⟨[0, 1], ?_, by simp, by rw [h]; rfl⟩
      rw [h]
      simp [whichAll, whichaxis, List.findIdx?_cons, e1, Dataset.axEq_self, foundAt]
  obtain ⟨t, ht⟩ : ∃ t, VarOps.transpose nr junk Z [.axis Y, .axis X] = some t := by
    unfold VarOps.transpose transposeOrder
    rw [if_neg (by simp), hreq]
    exact ⟨_, rfl⟩
  obtain ⟨t1, t2, t3, d, t4, t5⟩ := transpose_correct nr junk Z t _ req data hZ hr hreq hreqnd ht
  have hlen : t.axes.length = 2 := by
    rw [t1.length_eq]; rcases h with h | h <;> rw [h] <;> rfl
  have hax : t.axes = [Y, X] := by
    rw [hreqf] at t3
    exact (t3.eq_of_length (by rw [hlen]; rfl)).symm
  obtain ⟨r, r1, r2, r3⟩ := GetItem.get_correct nr junk t d t4 t2 (fun a ha => hpos a (t1.mem_iff.1 ha))
  refine ⟨r.map p.scale, ?_, ?_, ?_⟩
  · unfold field scaleVar
    rw [ht, Option.bind_some, r1]; rfl
  · show r.shape = _
    rw [r2, hax]; rfl
  · intro pos hX hY
    show p.scale (r.get _) = _
    rw [scale_eq, r3 _ (by rw [hax]; exact .cons hY (.cons hX .nil))]
    congr 1
    have := t5 pos
    rw [hax] at this
    exact this

theorem draws (nr : List ℚ → ℚ) (junk : List ℕ → ℚ) (pa : Axis → PlotAtts) (p : PlotAtts) (x Z : Var ℚ) (data d : List ℕ → ℚ) (hZ : Contains Z d)
    (hr : Regular x.axes) (hpos : ∀ a ∈ x.axes, 0 < a.len) (hax : Z.axes = extended x.axes)
    (hd : ∀ pos : Axis → ℕ, (∀ a ∈ x.axes, pos a < a.len) → d (Z.axes.map pos) = data (x.axes.map pos)) (X Y : Axis)
    (h : extended x.axes = [X, Y] ∨ extended x.axes = [Y, X]) :
    ∃ z, field nr junk p Z X Y = some z ∧ DrawsField pa p x.axes data X Y (scaleAxis pa X) (scaleAxis pa Y) z := by
  have hsub : ∀ a ∈ Z.axes, a ∈ x.axes := fun a ha => by
    rw [hax] at ha; exact List.mem_of_mem_filter ha
  obtain ⟨z, z1, z2, z3⟩ := field_correct nr junk p Z d hZ (by rw [hax]; exact extended_regular hr) (fun a ha => hpos a (hsub a ha)) X Y
    (by rw [hax]; exact h)
  have hX : X ∈ x.axes := hsub X (by rw [hax]; rcases h with h | h <;> simp [h])
  have hY : Y ∈ x.axes := hsub Y (by rw [hax]; rcases h with h | h <;> simp [h])
  have key : ∀ (A : Axis) (i : ℕ), i < A.len → (scaleAxis pa A).getD i 0 = shown (pa A) (A.values.getD i 0) := by
    intro A i hi
    have hi' : i < A.values.length := hi
    unfold scaleAxis
    rw [List.getD_eq_getElem _ _ (by simpa using hi'), List.getElem_map, List.getD_eq_getElem _ _ hi', scale_eq]
  refine ⟨z, z1, ?_, ?_, ?_, ?_⟩
  · rw [z2]; simp [scaleAxis, Axis.len]
  · simp [scaleAxis, Axis.len]
  · simp [scaleAxis, Axis.len]
  · intro pos hp
    refine ⟨key X _ (hp X hX), key Y _ (hp Y hY), ?_⟩
    rw [z3 pos (hp X hX) (hp Y hY), hd pos hp]

/-- C133: contours of a variable with two extended axes are drawn from its values at their coordinates; the axes are oriented by their kinds or as
asked for; a map is used if longitudes are along x and latitudes along y. -/
theorem vcontour_correct (nr : List ℚ → ℚ) (junk : List ℕ → ℚ) (pa : Axis → PlotAtts) (p : PlotAtts) (x : Var ℚ) (clevs clines : Option Levels)
    (tr : Option Bool) (data : List ℕ → ℚ) (hx : Contains x data) (hr : Regular x.axes) (hpos : ∀ a ∈ x.axes, 0 < a.len) (a b : Axis)
    (hab : extended x.axes = [a, b]) (ha : OneKind a) (hb : OneKind b) :
    ∃ c, vcontour nr junk pa p x clevs clines tr = some c ∧ Oriented tr a b c.X c.Y ∧ DrawsField pa p x.axes data c.X c.Y c.x c.y c.z ∧
      (c.onMap = true ↔ longitude c.X ∧ latitude c.Y) ∧
      (∀ f l, (f, l) ∈ c.calls ↔ (f = true ∧ (clevs = some l ∨ clevs = none ∧ clines = none ∧ l = .number 21)) ∨ f = false ∧ clines = some l) := by
  obtain ⟨Z, d, q1, q2, q3, q4⟩ := squeezed nr junk x data hx hr
  have ho := orient_spec tr a b ha hb
  have hxy : extended x.axes = [(orient tr a b).1, (orient tr a b).2] ∨ extended x.axes = [(orient tr a b).2, (orient tr a b).1] := by
    rw [hab]
    rcases ho.both with ⟨e1, e2⟩ | ⟨e1, e2⟩
    · left; rw [e1, e2]
    · right; rw [e1, e2]
  obtain ⟨z, z1, z2⟩ := draws nr junk pa p x Z data d q3 hr hpos q2 q4 _ _ hxy
  unfold vcontour
  rw [q1, Option.bind_some, q2, hab]
  simp only [z1, Option.map_some]
  refine ⟨_, rfl, ho, z2, ?_, ?_⟩
  · simp only [Bool.and_eq_true, isA_iff]
    rfl
  · intro f l
    cases clevs <;> cases clines <;> cases f <;> simp [eq_comm]

/-- C133: contours are refused if the number of extended axes is not two. -/
theorem vcontour_refused (nr : List ℚ → ℚ) (junk : List ℕ → ℚ) (pa : Axis → PlotAtts) (p : PlotAtts) (x : Var ℚ) (clevs clines : Option Levels)
    (tr : Option Bool) (data : List ℕ → ℚ) (hx : Contains x data) (hr : Regular x.axes) (h : (extended x.axes).length ≠ 2) :
    vcontour nr junk pa p x clevs clines tr = none := by
  obtain ⟨Z, d, q1, q2, -, -⟩ := squeezed nr junk x data hx hr
  unfold vcontour
  rw [q1, Option.bind_some, q2]
  match hl : extended x.axes with
  | [] => rfl
  | [_] => rfl
  | [_, _] => rw [hl] at h; exact absurd rfl h
  | _ :: _ :: _ :: _ => rfl

/-- C133: both components of a vector field are drawn at their coordinates, even if the second one has its axes in the other order. -/
theorem vstreamplot_correct (nr : List ℚ → ℚ) (junk : List ℕ → ℚ) (pa : Axis → PlotAtts) (pu pv : PlotAtts) (u v : Var ℚ)
    (tr : Option Bool) (du dv : List ℕ → ℚ) (hu : Contains u du) (hv : Contains v dv) (hur : Regular u.axes) (hvr : Regular v.axes)
    (hup : ∀ a ∈ u.axes, 0 < a.len) (hvp : ∀ a ∈ v.axes, 0 < a.len) (a b : Axis)
    (hab : extended u.axes = [a, b]) (hab' : extended v.axes = [a, b] ∨ extended v.axes = [b, a]) (ha : OneKind a) (hb : OneKind b) :
    ∃ c, vstreamplot nr junk pa pu pv u v tr = some c ∧ Oriented tr a b c.X c.Y ∧ DrawsField pa pu u.axes du c.X c.Y c.x c.y c.u ∧
      DrawsField pa pv v.axes dv c.X c.Y c.x c.y c.v := by
  obtain ⟨U, d, q1, q2, q3, q4⟩ := squeezed nr junk u du hu hur
  obtain ⟨V, e, r1, r2, r3, r4⟩ := squeezed nr junk v dv hv hvr
  have ho := orient_spec tr a b ha hb
  have hxy : extended u.axes = [(orient tr a b).1, (orient tr a b).2] ∨ extended u.axes = [(orient tr a b).2, (orient tr a b).1] := by
    rw [hab]
    rcases ho.both with ⟨e1, e2⟩ | ⟨e1, e2⟩
    · left; rw [e1, e2]
    · right; rw [e1, e2]
  have hxy' : extended v.axes = [(orient tr a b).1, (orient tr a b).2] ∨ extended v.axes = [(orient tr a b).2, (orient tr a b).1] := by
    rcases hab' with hab' | hab' <;> rw [hab'] <;> rcases ho.both with ⟨e1, e2⟩ | ⟨e1, e2⟩ <;> rw [e1, e2] <;> simp
  obtain ⟨z, z1, z2⟩ := draws nr junk pa pu u U du d q3 hur hup q2 q4 _ _ hxy
  obtain ⟨w, w1, w2⟩ := draws nr junk pa pv v V dv e r3 hvr hvp r2 r4 _ _ hxy'
  have hl : V.axes.length = 2 := by
    rw [r2]; rcases hab' with h | h <;> rw [h] <;> rfl
  unfold vstreamplot
  rw [q1, Option.bind_some, r1, Option.bind_some, if_pos hl, q2, hab]
  simp only [z1, w1, Option.bind_some, Option.map_some]
  exact ⟨_, rfl, ho, z2, w2⟩

/-- C133: the same with arrows, for two variables with the same extended axes in the same order. -/
theorem vquiver_correct (nr : List ℚ → ℚ) (junk : List ℕ → ℚ) (pa : Axis → PlotAtts) (pu pv : PlotAtts) (u v : Var ℚ)
    (tr : Option Bool) (du dv : List ℕ → ℚ) (hu : Contains u du) (hv : Contains v dv) (hur : Regular u.axes) (hvr : Regular v.axes)
    (hup : ∀ a ∈ u.axes, 0 < a.len) (hvp : ∀ a ∈ v.axes, 0 < a.len) (a b : Axis)
    (hab : extended u.axes = [a, b]) (hab' : extended v.axes = [a, b]) (ha : OneKind a) (hb : OneKind b) :
    ∃ c, vquiver nr junk pa pu pv u v tr = some c ∧ Oriented tr a b c.X c.Y ∧ DrawsField pa pu u.axes du c.X c.Y c.x c.y c.u ∧
      DrawsField pa pv v.axes dv c.X c.Y c.x c.y c.v := by
  obtain ⟨U, d, q1, q2, -, -⟩ := squeezed nr junk u du hu hur
  obtain ⟨V, e, r1, r2, -, -⟩ := squeezed nr junk v dv hv hvr
  unfold vquiver
  rw [q1, Option.bind_some, r1, Option.bind_some, if_pos (by rw [q2, r2, hab, hab']; simp [sameAxes, Dataset.axEq_self])]
  exact vstreamplot_correct nr junk pa pu pv u v tr du dv hu hv hur hvr hup hvp a b hab (.inl hab') ha hb

/-- C133: and it is refused if the order is the other one. -/
theorem vquiver_refused (nr : List ℚ → ℚ) (junk : List ℕ → ℚ) (pa : Axis → PlotAtts) (pu pv : PlotAtts) (u v : Var ℚ)
    (tr : Option Bool) (du dv : List ℕ → ℚ) (hu : Contains u du) (hv : Contains v dv) (hur : Regular u.axes) (hvr : Regular v.axes) (a b : Axis)
    (hab : extended u.axes = [a, b]) (hab' : extended v.axes = [b, a]) :
    vquiver nr junk pa pu pv u v tr = none := by
  obtain ⟨U, d, q1, q2, -, -⟩ := squeezed nr junk u du hu hur
  obtain ⟨V, e, r1, r2, -, -⟩ := squeezed nr junk v dv hv hvr
  have hR := extended_regular hur
  rw [hab] at hR
  have h1 := hR.incompatible (i := 0) (j := 1) (by simp) (by simp) (by simp)
  simp only [List.getElem_cons_zero, List.getElem_cons_succ] at h1
  have h2 : axEq a b = false := by
    by_contra hne
    rw [Loop.axEq_compatible (by simpa using hne) (hR.cls a (by simp))] at h1
    cases h1
  unfold vquiver
  rw [q1, Option.bind_some, r1, Option.bind_some, if_neg (by rw [q2, r2, hab, hab']; simp [sameAxes, h2])]

/-! ### lines -/

theorem foldl_min_spec : ∀ (vs : List ℚ) (v : ℚ), (∀ w ∈ v :: vs, vs.foldl min v ≤ w) ∧ vs.foldl min v ∈ v :: vs
  | [], v => by simp
  | u :: vs, v => by
    obtain ⟨h1, h2⟩ := foldl_min_spec vs (min v u)
    rw [List.foldl_cons]
    refine ⟨fun w hw => ?_, ?_⟩
    · have hm := h1 (min v u) (by simp)
      rcases List.mem_cons.1 hw with rfl | hw
      · exact hm.trans (min_le_left _ _)
      · rcases List.mem_cons.1 hw with rfl | hw
        · exact hm.trans (min_le_right _ _)
        · exact h1 w (by simp [hw])
    · rcases List.mem_cons.1 h2 with h2 | h2
      · rw [h2]; rcases min_choice v u with h | h <;> rw [h] <;> simp
      · simp [h2]

theorem foldl_max_spec : ∀ (vs : List ℚ) (v : ℚ), (∀ w ∈ v :: vs, w ≤ vs.foldl max v) ∧ vs.foldl max v ∈ v :: vs
  | [], v => by simp
  | u :: vs, v => by
    obtain ⟨h1, h2⟩ := foldl_max_spec vs (max v u)
    rw [List.foldl_cons]
    refine ⟨fun w hw => ?_, ?_⟩
    · have hm := h1 (max v u) (by simp)
      rcases List.mem_cons.1 hw with rfl | hw
      · exact (le_max_left _ _).trans hm
      · rcases List.mem_cons.1 hw with rfl | hw
        · exact (le_max_right _ _).trans hm
        · exact h1 w (by simp [hw])
    · rcases List.mem_cons.1 h2 with h2 | h2
      · rw [h2]; rcases max_choice v u with h | h <;> rw [h] <;> simp
      · simp [h2]

/-- `lim` are the ends of the part of the axis drawn: the least and the greatest of the numbers, in the order in which they are to be drawn -/
def _root_.PyGeode.Spec.Ends (down : Bool) (vals : List ℚ) (lim : ℚ × ℚ) : Prop :=
  let lo := if down then lim.2 else lim.1
  let hi := if down then lim.1 else lim.2
  lo ∈ vals ∧ hi ∈ vals ∧ ∀ v ∈ vals, lo ≤ v ∧ v ≤ hi

theorem limits_spec (down : Bool) (vals : List ℚ) (h : vals ≠ []) : ∃ lim, limits down vals = some lim ∧ Ends down vals lim := by
  cases vals with
  | nil => exact absurd rfl h
  | cons v vs =>
    have h1 := foldl_min_spec vs v
    have h2 := foldl_max_spec vs v
    cases down
    · exact ⟨_, rfl, h1.2, h2.2, fun w hw => ⟨h1.1 w hw, h2.1 w hw⟩⟩
    · exact ⟨_, rfl, h1.2, h2.2, fun w hw => ⟨h1.1 w hw, h2.1 w hw⟩⟩

/-- C133: a line is drawn through the points (coordinate, value) of a variable with one extended axis, along y if the axis is vertical, the other way if
`transpose` is given; along the axis the plot ends at the first and the last coordinate. -/
theorem vplot_correct (nr : List ℚ → ℚ) (junk : List ℕ → ℚ) (pa : Axis → PlotAtts) (p : PlotAtts) (x : Var ℚ) (tr : Bool) (data : List ℕ → ℚ)
    (hx : Contains x data) (hr : Regular x.axes) (hpos : ∀ a ∈ x.axes, 0 < a.len) (a : Axis) (ha : extended x.axes = [a]) :
    ∃ l along across lim, vplot nr junk pa p x tr = some l ∧
      ((vertical a ↔ tr = true) → l = ⟨along, across, some lim, none⟩) ∧ (¬ (vertical a ↔ tr = true) → l = ⟨across, along, none, some lim⟩) ∧
      along.length = a.len ∧ across.length = a.len ∧ Ends (pa a).down along lim ∧
      ∀ pos : Axis → ℕ, (∀ b ∈ x.axes, pos b < b.len) →
        along.getD (pos a) 0 = shown (pa a) (a.values.getD (pos a) 0) ∧ across.getD (pos a) 0 = shown p (data (x.axes.map pos)) := by
  obtain ⟨Z, d, q1, q2, q3, q4⟩ := squeezed nr junk x data hx hr
  have hax : a ∈ x.axes := (List.filter_sublist (p := fun a : Axis => decide (a.len ≠ 1)) (l := x.axes)).subset (show a ∈ extended x.axes by simp [ha])
  have hZp : ∀ b ∈ Z.axes, 0 < b.len := fun b hb => by
    rw [q2, ha, List.mem_singleton] at hb; rw [hb]; exact hpos a hax
  have hZr : Regular Z.axes := by rw [q2]; exact extended_regular hr
  obtain ⟨Y, y1, y2, y3, -⟩ := GetItem.load_correct nr junk Z d q3 hZr hZp
  obtain ⟨r, r1, r2, r3⟩ := GetItem.get_correct nr junk Y d y3 (by rw [y2]; exact hZr) (by rw [y2]; exact hZp)
  rw [y2, q2, ha] at r2 r3
  have hlen : 0 < a.values.length := hpos a hax
  obtain ⟨lim, l1, l2⟩ := limits_spec (pa a).down (scaleAxis pa a) (by
    intro h
    have := congrArg List.length h
    simp only [scaleAxis, List.length_map, List.length_nil] at this; omega)
  have key : ∀ i : ℕ, i < a.len → (scaleAxis pa a).getD i 0 = shown (pa a) (a.values.getD i 0) := by
    intro i hi
    have hi' : i < a.values.length := hi
    unfold scaleAxis
    rw [List.getD_eq_getElem _ _ (by simpa using hi'), List.getElem_map, List.getD_eq_getElem _ _ hi', scale_eq]
  have hshape : (r.map p.scale).shape.getD 0 0 = a.len := by
    show r.shape.getD 0 0 = _
    rw [r2]; rfl
  have hv : isA a "ZAxis" = true ↔ vertical a := isA_iff a "ZAxis"
  have he : vplot nr junk pa p x tr = some (if (if isA a "ZAxis" then tr else !tr) then
      { x := scaleAxis pa a, y := row (r.map p.scale), xlim := some lim, ylim := none }
      else { x := row (r.map p.scale), y := scaleAxis pa a, xlim := none, ylim := some lim }) := by
    unfold vplot
    rw [q1, Option.bind_some, y1, Option.bind_some, y2, q2, ha]
    simp only [scaleVar, r1, Option.map_some, Option.bind_some, l1]
  refine ⟨_, scaleAxis pa a, row (r.map p.scale), lim, he, ?_, ?_, by simp [scaleAxis, Axis.len], ?_, l2, ?_⟩
  · intro h
    by_cases hz : vertical a
    · rw [if_pos (hv.2 hz), h.1 hz, if_pos rfl]
    · have : isA a "ZAxis" = false := by rw [← Bool.not_eq_true, hv]; exact hz
      have ht : tr = false := by rw [← Bool.not_eq_true, ← h]; exact hz
      rw [this, ht]; rfl
  · intro h
    by_cases hz : vertical a
    · have ht : tr = false := by
        rw [← Bool.not_eq_true]; exact fun ht => h ⟨fun _ => ht, fun _ => hz⟩
      rw [if_pos (hv.2 hz), ht]; rfl
    · have : isA a "ZAxis" = false := by rw [← Bool.not_eq_true, hv]; exact hz
      have ht : tr = true := by
        by_contra ht
        exact h ⟨fun h => absurd h hz, fun h => absurd h ht⟩
      rw [this, ht]; rfl
  · unfold row
    rw [hshape]; simp
  · intro pos hp
    refine ⟨key _ (hp a hax), ?_⟩
    have hi := hp a hax
    unfold row
    rw [hshape, List.getD_eq_getElem _ _ (by simpa using hi), List.getElem_map, List.getElem_range]
    show p.scale (r.get _) = _
    rw [scale_eq, r3 _ (.cons hi .nil), ← q4 pos hp, q2, ha]
    rfl

/-- C133: a scatter plot of two variables of the same shape has one point for every position, at the two values there. -/
theorem vscatter_correct (nr : List ℚ → ℚ) (junk : List ℕ → ℚ) (px py : PlotAtts) (x y : Var ℚ) (dx dy : List ℕ → ℚ) (hx : Contains x dx) (hy : Contains y dy)
    (hxr : Regular x.axes) (hyr : Regular y.axes) (hxp : ∀ a ∈ x.axes, 0 < a.len) (hs : y.axes.map Axis.len = x.axes.map Axis.len) :
    ∃ l, vscatter nr junk px py x y = some l ∧ l.length = (x.axes.map Axis.len).prod ∧
      ∀ k, InBounds (x.axes.map Axis.len) k → l[ravel (x.axes.map Axis.len) k]? = some (shown px (dx k), shown py (dy k)) := by
  have hyp : ∀ a ∈ y.axes, 0 < a.len := by
    intro a ha
    have : a.len ∈ x.axes.map Axis.len := by rw [← hs]; exact List.mem_map_of_mem ha
    obtain ⟨b, hb, e⟩ := List.mem_map.1 this
    rw [← e]; exact hxp b hb
  obtain ⟨r, r1, r2, r3⟩ := GetItem.get_correct nr junk x dx hx hxr hxp
  obtain ⟨s, s1, s2, s3⟩ := GetItem.get_correct nr junk y dy hy hyr hyp
  unfold vscatter
  rw [if_pos (by rw [hs])]
  simp only [scaleVar, r1, s1, Option.map_some, Option.bind_some]
  refine ⟨_, rfl, by simp, ?_⟩
  intro k hk
  have hlt := ravel_lt hk
  rw [List.getElem?_map, List.getElem?_range hlt, Option.map_some]
  show some (px.scale (r.get (unravel r.shape _)), py.scale (s.get (unravel s.shape _))) = _
  rw [r2, s2, hs, unravel_ravel hk, scale_eq, scale_eq, r3 k hk, s3 k (by rw [hs]; exact hk)]

/-! ### significance -/

/-- C133: without `mnsig` the places drawn as significant are those where the p-value is beyond `mjsig` on either side. -/
theorem sigmask_correct_partial (mj v : ℚ) (h0 : 0 < mj) (h1 : mj < 11 / 10) (hv : |v| ≤ 1) (hne : |v| ≠ mj) :
    sigmask mj none v = some (some (if mj < |v| then .major else .none)) := by
  obtain ⟨v1, v2⟩ := abs_le.1 hv
  have hlev : ([-11 / 10, -mj, mj, 11 / 10] : List ℚ).Pairwise (· < ·) := by
    simp only [List.pairwise_cons, List.mem_cons, List.not_mem_nil, or_false, forall_eq_or_imp, forall_eq, List.Pairwise.nil, and_true,
      IsEmpty.forall_iff, implies_true]
    refine ⟨⟨by linarith, by linarith, by norm_num⟩, ⟨by linarith, by linarith⟩, h1⟩
  unfold sigmask contourf sigLevels
  simp only
  rw [if_pos hlev]
  simp only [List.length_cons, List.length_nil, List.range_succ_eq_map, List.range_zero, List.map_cons, List.map_nil, Option.map_some, Option.some.injEq]
  by_cases hs : mj < |v|
  · rw [if_pos hs]
    rcases lt_abs.1 hs with h | h
    · have c1 : ¬ (v < -mj) := by linarith
      have c2 : ¬ (v < mj) := by linarith
      have c3 : mj ≤ v := h.le
      have c4 : v < 11 / 10 := by linarith
      simp [List.find?, c1, c2, c3, c4]
    · have c1 : v < -mj := by linarith
      have c2 : -11 / 10 ≤ v := by linarith
      simp [List.find?, c1, c2]
  · rw [if_neg hs]
    obtain ⟨c1, c2⟩ := abs_lt.1 (lt_of_le_of_ne (not_lt.1 hs) hne)
    have c3 : ¬ (v < -mj) := by linarith
    simp [List.find?, c1.le, c2, c3]

/-- C133 fails with `mnsig`: for a minor level below the major one, as documented, the levels do not increase and nothing can be drawn. -/
theorem sigmask_minor_violated (mj mn v : ℚ) (h : mn < mj) : sigmask mj (some mn) v = none := by
  unfold sigmask contourf sigLevels
  simp only
  rw [if_neg]
  · rfl
  · intro hp
    have := (List.pairwise_cons.1 (List.pairwise_cons.1 hp).2).1 (-mj) (by simp)
    linarith

/-- C133: with the two levels swapped it is drawn as documented. -/
theorem sigmask_swapped (mj mn v : ℚ) (h0 : 0 < mj) (h : mj < mn) (h1 : mn < 11 / 10) (hv : |v| ≤ 1) (hne : |v| ≠ mj) (hne' : |v| ≠ mn) :
    sigmask mj (some mn) v = some (some (if mn < |v| then .major else if mj < |v| then .minor else .none)) := by
  obtain ⟨v1, v2⟩ := abs_le.1 hv
  have hlev : ([-11 / 10, -mn, -mj, mj, mn, 11 / 10] : List ℚ).Pairwise (· < ·) := by
    simp only [List.pairwise_cons, List.mem_cons, List.not_mem_nil, or_false, forall_eq_or_imp, forall_eq, List.Pairwise.nil, and_true,
      IsEmpty.forall_iff, implies_true]
    refine ⟨⟨by linarith, by linarith, by linarith, by linarith, by norm_num⟩, ⟨by linarith, by linarith, by linarith, by linarith⟩,
      ⟨by linarith, by linarith, by linarith⟩, ⟨by linarith, by linarith⟩, h1⟩
  unfold sigmask contourf sigLevels
  simp only
  rw [if_pos hlev]
  simp only [List.length_cons, List.length_nil, List.range_succ_eq_map, List.range_zero, List.map_cons, List.map_nil, Option.map_some, Option.some.injEq]
  by_cases hs : mn < |v|
  · rw [if_pos hs]
    rcases lt_abs.1 hs with h' | h'
    · have c1 : ¬ (v < -mn) := by linarith
      have c2 : ¬ (v < -mj) := by linarith
      have c3 : ¬ (v < mj) := by linarith
      have c4 : ¬ (v < mn) := by linarith
      have c5 : v < 11 / 10 := by linarith
      simp [List.find?, c1, c2, c3, c4, c5, h'.le]
    · have c1 : v < -mn := by linarith
      have c2 : -11 / 10 ≤ v := by linarith
      simp [List.find?, c1, c2]
  · rw [if_neg hs]
    obtain ⟨b1, b2⟩ := abs_lt.1 (lt_of_le_of_ne (not_lt.1 hs) hne')
    have c1 : ¬ (v < -mn) := by linarith
    by_cases ht : mj < |v|
    · rw [if_pos ht]
      rcases lt_abs.1 ht with h' | h'
      · have c2 : ¬ (v < -mj) := by linarith
        have c3 : ¬ (v < mj) := by linarith
        simp [List.find?, c1, c2, c3, b2, h'.le]
      · have c2 : v < -mj := by linarith
        simp [List.find?, c1, c2, b1.le]
    · rw [if_neg ht]
      obtain ⟨a1, a2⟩ := abs_lt.1 (lt_of_le_of_ne (not_lt.1 ht) hne)
      have c2 : ¬ (v < -mj) := by linarith
      simp [List.find?, c1, c2, a1.le, a2]

/-- C133: a title that is not given begins with the name, and names the place along every axis with a single position. -/
theorem title_correct (fmt : Axis → Name) (axes : List Axis) (name : Name) (units : Option Name) :
    name <+: varTitle fmt axes none (some name) units ∧
    (∀ u, units = some u → u ≠ [] → u <:+: varTitle fmt axes none (some name) units) ∧
    ∀ a ∈ axes, a.len = 1 → fmt a <:+: varTitle fmt axes none (some name) units := by
  unfold varTitle nameAndUnits
  simp only [Option.getD_some]
  refine ⟨?_, ?_, ?_⟩
  · rw [List.append_assoc]; exact List.prefix_append _ _
  · rintro u rfl hu
    simp only [hu, if_false]
    refine ⟨name ++ " [".toList, "]".toList ++ (axes.filter fun a => decide (a.len = 1)).flatMap fun a => ", ".toList ++ fmt a, ?_⟩
    simp only [List.append_assoc]
  · intro a ha h1
    have : a ∈ axes.filter fun a => decide (a.len = 1) := by simp [ha, h1]
    obtain ⟨s, t, e⟩ := List.append_of_mem this
    rw [e, List.flatMap_append, List.flatMap_cons]
    generalize (name ++ match units with
      | some u => if u = [] then [] else " [".toList ++ u ++ "]".toList
      | none => []) = N
    refine ⟨N ++ s.flatMap (fun a => ", ".toList ++ fmt a) ++ ", ".toList, t.flatMap (fun a => ", ".toList ++ fmt a), ?_⟩
    simp only [List.append_assoc]

/-! ### examples: pressure by latitude at one time -/

def presEx : Axis := ⟨["Pres".toList, "ZAxis".toList, "Axis".toList], [], "pres".toList, [1000, 500, 100], true, 1 / 100000, [], []⟩
def latEx : Axis := ⟨["Lat".toList, "YAxis".toList, "Axis".toList], [], "lat".toList, [-45, 45], true, 1 / 100000, [], []⟩
def onceEx : Axis := ⟨["StandardTime".toList, "Time".toList, "TAxis".toList, "Axis".toList], [], "time".toList, [7], true, 1 / 100000, [], []⟩

def plotEx : Var ℚ := ⟨[onceEx, presEx, latEx], .values ⟨[1, 3, 2], fun k => 10 * k.getD 1 0 + k.getD 2 0⟩⟩

theorem plotEx_contains : Contains plotEx fun k => 10 * k.getD 1 0 + k.getD 2 0 := ⟨by decide +kernel, fun _ _ => rfl⟩
theorem plotEx_regular : Regular plotEx.axes := ⟨by decide +kernel, by decide +kernel⟩

theorem presEx_kind : OneKind presEx := by unfold OneKind vertical latitude longitude; decide +kernel
theorem latEx_kind : OneKind latEx := by unfold OneKind vertical latitude longitude; decide +kernel

def attsEx : PlotAtts := ⟨some 2, some 1, true⟩

example := vcontour_correct (fun _ => 0) (fun _ => 7) (fun _ => attsEx) attsEx plotEx none none none _ plotEx_contains plotEx_regular (by decide +kernel)
  presEx latEx (by decide +kernel) presEx_kind latEx_kind

/-- pressure is along y -/
example : ((vcontour (fun _ => 0) (fun _ => 7) (fun _ => attsEx) attsEx plotEx none none none).map fun c => (c.X.name, c.x, c.y)) =
    some ("lat".toList, [-89, 91], [2001, 1001, 201]) := by decide +kernel
example : ((vcontour (fun _ => 0) (fun _ => 7) (fun _ => attsEx) attsEx plotEx none none none).map fun c => (c.z.shape, c.z.get [2, 1])) =
    some ([3, 2], 43) := by decide +kernel

example := vquiver_correct (fun _ => 0) (fun _ => 7) (fun _ => attsEx) attsEx attsEx plotEx plotEx none _ _ plotEx_contains plotEx_contains plotEx_regular plotEx_regular
  (by decide +kernel) (by decide +kernel) presEx latEx (by decide +kernel) (by decide +kernel) presEx_kind latEx_kind

def lineEx : Var ℚ := ⟨[onceEx, presEx], .values ⟨[1, 3], fun k => k.getD 1 0⟩⟩

example := vplot_correct (fun _ => 0) (fun _ => 7) (fun _ => attsEx) attsEx lineEx false (fun k => k.getD 1 0) ⟨by decide +kernel, fun _ _ => rfl⟩
  ⟨by decide +kernel, by decide +kernel⟩ (by decide +kernel) presEx (by decide +kernel)
example : ((vplot (fun _ => 0) (fun _ => 7) (fun _ => attsEx) attsEx lineEx false).map fun l => (l.x, l.y, l.ylim)) =
    some ([1, 3, 5], [2001, 1001, 201], some (2001, 201)) := by decide +kernel

example := vscatter_correct (fun _ => 0) (fun _ => 7) attsEx attsEx plotEx plotEx _ _ plotEx_contains plotEx_contains plotEx_regular plotEx_regular (by decide +kernel) rfl

example : sigmask (95 / 100) none (-97 / 100) = some (some .major) := by decide +kernel
example := sigmask_minor_violated (95 / 100) (90 / 100) 0 (by norm_num)

end Plot
end PyGeode
