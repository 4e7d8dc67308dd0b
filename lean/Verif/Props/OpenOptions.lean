/-
C97: the options of opening and saving: the format found from the name of the file, the types of the axes (`dimtypes`), the choice of variables
(`varlist`), the names (`namemap`) and packing (`pack`).
-/
import Verif.Model.OpenOptions
import Verif.Props.DatasetOps
import Verif.Props.Pack

namespace PyGeode
namespace OpenOptions
open Spec Axis Combine Dataset DatasetOps VarOps

variable {α : Type}

/-! ### the format -/

theorem takeWhile_rev (c : Char) (dir base : Name) (hb : c ∉ base) (hd : dir = [] ∨ dir.getLast? = some c) :
    ((dir ++ base).reverse.takeWhile (· ≠ c)).reverse = base := by
  rw [List.reverse_append, List.takeWhile_append_of_pos]
  · have : dir.reverse.takeWhile (· ≠ c) = [] := by
      rcases hd with rfl | h
      · rfl
      · rw [← List.head?_reverse] at h
        cases hr : dir.reverse with
        | nil => rfl
        | cons a l =>
          rw [hr] at h
          simp only [List.head?_cons, Option.some.injEq] at h
          subst h
          simp
    rw [this, List.append_nil, List.reverse_reverse]
  · intro a ha
    rw [List.mem_reverse] at ha
    simp only [ne_eq, decide_not, Bool.not_eq_eq_eq_not, Bool.not_true, decide_eq_false_iff_not]
    rintro rfl
    exact hb ha

/-- a part of a text without `c` that follows the last `c` -/
theorem split_last (c : Char) (f : Name) : ∃ dir base, f = dir ++ base ∧ c ∉ base ∧ (dir = [] ∨ dir.getLast? = some c) := by
  induction f using List.reverseRecOn with
  | nil => exact ⟨[], [], rfl, by simp, Or.inl rfl⟩
  | append_singleton f a ih =>
    by_cases ha : a = c
    · subst ha
      exact ⟨f ++ [a], [], by simp, by simp, Or.inr (by simp)⟩
    · obtain ⟨dir, base, rfl, h1, h2⟩ := ih
      exact ⟨dir, base ++ [a], by simp, by simp [h1, Ne.symm ha], h2⟩

/-- the extension of a file name: it ends the last part of the path, begins with its last dot, and something else than dots comes before -/
def _root_.PyGeode.Spec.HasExt (f e : Name) : Prop :=
  ∃ dir root, f = dir ++ root ++ '.' :: e ∧ (dir = [] ∨ dir.getLast? = some '/') ∧ '/' ∉ root ∧ '/' ∉ e ∧ '.' ∉ e ∧ ∃ c ∈ root, c ≠ '.'

theorem ext_some {f e : Name} (h : HasExt f e) : ext f = '.' :: e := by
  obtain ⟨dir, root, rfl, hd, h1, h2, h3, c, hc, hcd⟩ := h
  have hb : '/' ∉ root ++ '.' :: e := by simp [h1, h2]
  unfold ext
  rw [List.append_assoc, takeWhile_rev '/' dir _ hb hd]
  have e1 : ((root ++ '.' :: e).reverse.takeWhile (· ≠ '.')).reverse = e := by
    have := takeWhile_rev '.' (root ++ ['.']) e h3 (Or.inr (by simp))
    rwa [List.append_assoc] at this
  simp only [e1]
  rw [if_pos (by simp)]
  have e2 : (root ++ '.' :: e).take ((root ++ '.' :: e).length - e.length - 1) = root := by
    rw [show (root ++ '.' :: e).length - e.length - 1 = root.length by simp; omega, List.take_left]
  rw [e2, if_neg]
  rw [List.all_eq_true]
  intro hall
  exact hcd (by simpa using hall c hc)

theorem ext_none {f : Name} (h : ∀ e, ¬ HasExt f e) : ext f = [] := by
  obtain ⟨dir, base, rfl, hb, hd⟩ := split_last '/' f
  unfold ext
  rw [takeWhile_rev '/' dir _ hb hd]
  simp only
  split_ifs with h1 h2
  · rfl
  · exfalso
    obtain ⟨r, e, rfl, he, hr⟩ := split_last '.' base
    have hr' : r.getLast? = some '.' := by
      rcases hr with rfl | hr
      · exact absurd h1 he
      · exact hr
    obtain ⟨root, rfl⟩ := List.getLast?_eq_some_iff.1 hr'
    rw [takeWhile_rev '.' _ e he hr] at h2
    have e2 : (root ++ ['.'] ++ e).take ((root ++ ['.'] ++ e).length - e.length - 1) = root := by
      rw [show (root ++ ['.'] ++ e).length - e.length - 1 = root.length by simp; omega, List.append_assoc, List.take_left]
    rw [e2] at h2
    simp only [List.all_eq_true, beq_iff_eq, not_forall] at h2
    obtain ⟨c, hc, hcd⟩ := h2
    simp only [List.mem_append, not_or] at hb
    exact h e ⟨dir, root, by simp, hd, hb.1.1, hb.2, he, c, hc, hcd⟩
  · rfl

/-- C97: the format is found from the extension of the file: .nc, .hdf or .grib; with any other extension, or none, there is an error. -/
theorem autodetect_correct (f fmt : Name) : autodetect f = some fmt ↔
    (HasExt f "nc".toList ∧ fmt = "netcdf4".toList) ∨ (HasExt f "hdf".toList ∧ fmt = "hdf4".toList) ∨
      (HasExt f "grib".toList ∧ fmt = "grib".toList) := by
  have key : ∀ e : Name, (ext f = '.' :: e ↔ HasExt f e) := by
    intro e
    refine ⟨fun h => ?_, ext_some⟩
    by_cases hx : ∃ e', HasExt f e'
    · obtain ⟨e', he'⟩ := hx
      have := ext_some he'
      rw [h] at this
      simp only [List.cons.injEq, true_and] at this
      rw [this]; exact he'
    · rw [ext_none fun e he => hx ⟨e, he⟩] at h
      cases h
  have hl : ∀ x : Name, extdict.lookup x = some fmt ↔ (x = ".nc".toList ∧ fmt = "netcdf4".toList) ∨
      (x = ".hdf".toList ∧ fmt = "hdf4".toList) ∨ (x = ".grib".toList ∧ fmt = "grib".toList) := by
    intro x
    unfold extdict
    by_cases h1 : x = ".nc".toList
    · subst h1
      have a1 : ".nc".toList ≠ ".hdf".toList := by decide
      have a2 : ".nc".toList ≠ ".grib".toList := by decide
      rw [List.lookup_cons_self]
      constructor
      · intro h; exact Or.inl ⟨rfl, (Option.some.inj h).symm⟩
      · rintro (⟨_, h⟩ | ⟨h, _⟩ | ⟨h, _⟩)
        · rw [h]
        · exact absurd h a1
        · exact absurd h a2
    · rw [List.lookup_cons, beq_false_of_ne h1]
      by_cases h2 : x = ".hdf".toList
      · subst h2
        have a2 : ".hdf".toList ≠ ".grib".toList := by decide
        simp only [List.lookup_cons_self]
        constructor
        · intro h; exact Or.inr (Or.inl ⟨by first | rfl | trivial, (Option.some.inj h).symm⟩)
        · rintro (⟨h, _⟩ | ⟨_, h⟩ | ⟨h, _⟩)
          · exact absurd h h1
          · rw [h]
          · exact absurd h a2
      · simp only [List.lookup_cons, beq_false_of_ne h2]
        by_cases h3 : x = ".grib".toList
        · subst h3
          simp only [beq_self_eq_true]
          constructor
          · intro h; exact Or.inr (Or.inr ⟨by first | rfl | trivial, (Option.some.inj h).symm⟩)
          · rintro (⟨h, _⟩ | ⟨h, _⟩ | ⟨_, h⟩)
            · exact absurd h h1
            · exact absurd h h2
            · rw [h]
        · simp only [beq_false_of_ne h3, List.lookup_nil]
          constructor
          · intro h; cases h
          · rintro (⟨h, _⟩ | ⟨h, _⟩ | ⟨h, _⟩)
            · exact absurd h h1
            · exact absurd h h2
            · exact absurd h h3
  unfold autodetect
  rw [hl]
  have e1 : ".nc".toList = '.' :: "nc".toList := by decide
  have e2 : ".hdf".toList = '.' :: "hdf".toList := by decide
  have e3 : ".grib".toList = '.' :: "grib".toList := by decide
  rw [e1, e2, e3, key, key, key]

/-! ### replacing the axes of the variables of a dataset -/

theorem alias_self (a : Axis) : a.hasAlias a.name = true := by simp [Axis.hasAlias]

theorem replace_step (X new : List Axis) (p : Name × Axis) (hnd : (X.map Axis.name).Nodup)
    (ha : ∀ d ∈ X, d.hasAlias p.1 = true → d.name = p.1) (hl : new.length = X.length) :
    replaceStep X new p = List.zipWith (fun (d o : Axis) => if d.name = p.1 then p.2 else o) X new := by
  have halias : ∀ d ∈ X, (d.hasAlias p.1 = true ↔ d.name = p.1) := fun d hd => ⟨ha d hd, fun h => by rw [← h]; exact alias_self d⟩
  have hw : foundAt (whichaxis X (.name p.1)) = X.findIdx? (fun d => d.hasAlias p.1) := by
    unfold whichaxis
    cases hf : X.findIdx? (fun d => d.hasAlias p.1) <;> simp [hf, foundAt]
  unfold replaceStep
  rw [hw]
  cases hf : X.findIdx? (fun d => d.hasAlias p.1) with
  | none =>
    dsimp only
    rw [List.findIdx?_eq_none_iff] at hf
    apply List.ext_getElem
    · simp [hl]
    · intro i h1 h2
      simp only [List.getElem_zipWith]
      have hi : i < X.length := by omega
      have := hf X[i] (List.getElem_mem hi)
      rw [if_neg fun h => by rw [(halias _ (List.getElem_mem hi)).2 h] at this; cases this]
  | some j =>
    dsimp only
    obtain ⟨hj, h1, -⟩ := List.findIdx?_eq_some_iff_getElem.1 hf
    have hjn := (halias _ (List.getElem_mem hj)).1 h1
    apply List.ext_getElem
    · simp [hl]
    · intro i h2 h3
      simp only [List.length_set] at h2
      rw [List.getElem_set, List.getElem_zipWith]
      by_cases hij : j = i
      · subst hij
        rw [if_pos rfl, if_pos hjn]
      · rw [if_neg hij, if_neg]
        intro h
        refine hij ?_
        have := (List.nodup_iff_injective_get.1 hnd) (a₁ := ⟨j, by simpa using hj⟩) (a₂ := ⟨i, by simp; omega⟩)
          (by simp [hjn, h])
        simpa using this

theorem replace_fold (X : List Axis) (hnd : (X.map Axis.name).Nodup) (reps : List (Name × Axis))
    (ha : ∀ p ∈ reps, ∀ d ∈ X, d.hasAlias p.1 = true → d.name = p.1) (hr : (reps.map Prod.fst).Nodup) (new : List Axis)
    (hl : new.length = X.length) :
    reps.foldl (replaceStep X) new = List.zipWith (fun (d o : Axis) => (reps.lookup d.name).getD o) X new := by
  induction reps generalizing new with
  | nil =>
    apply List.ext_getElem
    · simp [hl]
    · intro i h1 h2
      simp
  | cons p reps ih =>
    rw [List.foldl_cons, replace_step X new p hnd (ha p (by simp)) hl,
      ih (fun b hb => ha b (by simp [hb])) (List.nodup_cons.1 (by simpa using hr)).2 _ (by simp [hl])]
    apply List.ext_getElem
    · simp
    · intro i h1 h2
      simp only [List.getElem_zipWith]
      have hi : i < X.length := by simp at h1; omega
      by_cases h : X[i].name = p.1
      · have hnone : reps.lookup X[i].name = none := by
          rw [List.lookup_eq_none_iff]
          intro b hb
          rw [bne_iff_ne]
          intro he
          have := (List.nodup_cons.1 (by simpa using hr : (p.1 :: reps.map Prod.fst).Nodup)).1
          exact this (List.mem_map.2 ⟨b, hb, he.symm.trans h⟩)
        have hp : (p :: reps).lookup X[i].name = some p.2 := by rw [h, List.lookup_cons, beq_self_eq_true]
        rw [hnone, if_pos h, hp]
        rfl
      · have hp : (p :: reps).lookup X[i].name = reps.lookup X[i].name := by rw [List.lookup_cons, beq_false_of_ne h]
        rw [if_neg h, hp]

/-- the variable after its axes have been replaced -/
def moved (nr : List ℚ → ℚ) (junk : List ℕ → α) (F : Axis → Axis) (x : Member α) : Member α :=
  ⟨x.name, Var.ofView junk (x.var.axes.map F) fun v => x.var.read nr junk { axes := x.var.axes, inds := v.inds }⟩

theorem moved_contains (nr : List ℚ → ℚ) (junk : List ℕ → α) (F : Axis → Axis) (x : Member α) (hr : Regular x.var.axes)
    (hl : ∀ a ∈ x.var.axes, (F a).len = a.len) (data : List ℕ → α) (hx : Contains x.var data) : Contains (moved nr junk F x).var data := by
  refine (replaceAxes_correct nr junk x.var _ (x.var.axes.map F) data hx hr ?_).2
  unfold VarOps.replaceAxes
  rw [if_pos (by rw [List.map_map]; exact (List.map_congr_left fun a ha => (hl a ha)).symm)]
  rfl

theorem moved_axes (vars : List (Member α)) (nr : List ℚ → ℚ) (junk : List ℕ → α) (F : Axis → Axis) :
    allAxes (vars.map (moved nr junk F)) = (allAxes vars).map F := by
  unfold allAxes
  rw [List.flatMap_map, List.map_flatMap]
  rfl

theorem moved_dataset {vars : List (Member α)} (h : IsDataset vars) (nr : List ℚ → ℚ) (junk : List ℕ → α) (F : Axis → Axis)
    (hs : ∀ a ∈ allAxes vars, ∀ b ∈ allAxes vars, (F a).name = (F b).name → F a = F b) : IsDataset (vars.map (moved nr junk F)) where
  names := by rw [List.map_map]; exact h.names
  blank x hx := by
    obtain ⟨x', hx', rfl⟩ := List.mem_map.1 hx
    exact h.blank x' hx'
  same a ha b hb hab := by
    rw [moved_axes] at ha hb
    obtain ⟨a', ha', rfl⟩ := List.mem_map.1 ha
    obtain ⟨b', hb', rfl⟩ := List.mem_map.1 hb
    exact hs a' ha' b' hb' hab

/-- replacing axes by name, in all the variables of a dataset -/
theorem each_moved (nr : List ℚ → ℚ) (junk : List ℕ → α) (d : Data α) (h : IsDataset d.vars) (f : Var α → Option (Var α)) (F : Axis → Axis)
    (reps : Var α → List (Name × Axis)) (hf : ∀ x ∈ d.vars, f x.var = replaceNamed nr junk x.var (reps x.var))
    (hnd : ∀ x ∈ d.vars, (x.var.axes.map Axis.name).Nodup) (hk : ∀ x ∈ d.vars, ((reps x.var).map Prod.fst).Nodup)
    (ha : ∀ x ∈ d.vars, ∀ p ∈ reps x.var, ∀ a ∈ x.var.axes, a.hasAlias p.1 = true → a.name = p.1)
    (hF : ∀ x ∈ d.vars, ∀ a ∈ x.var.axes, F a = ((reps x.var).lookup a.name).getD a)
    (hl : ∀ a ∈ allAxes d.vars, (F a).len = a.len)
    (hs : ∀ a ∈ allAxes d.vars, ∀ b ∈ allAxes d.vars, (F a).name = (F b).name → F a = F b) :
    each nr junk f d = some ⟨d.vars.map (moved nr junk F), d.atts⟩ := by
  have hfm : d.vars.filterMap (fun x => some (moved nr junk F x)) = d.vars.map (moved nr junk F) := by
    rw [← List.filterMap_eq_map]; rfl
  unfold each
  rw [map_correct nr junk _ d (fun x => some (moved nr junk F x)) ?_ (by rw [hfm]; exact moved_dataset h nr junk F hs), hfm]
  intro x hx
  have e : (reps x.var).foldl (replaceStep x.var.axes) x.var.axes = x.var.axes.map F := by
    rw [replace_fold _ (hnd x hx) _ (ha x hx) (hk x hx) _ rfl, List.zipWith_self]
    exact List.map_congr_left fun a hax => (hF x hx a hax).symm
  rw [hf x hx]
  unfold replaceNamed
  rw [e]
  unfold VarOps.replaceAxes
  rw [if_pos (by
    rw [List.map_map]
    exact (List.map_congr_left fun a hax => hl a (mem_allAxes.2 ⟨x, hx, hax⟩)).symm)]
  rfl

/-! ### the types of the axes -/

/-- the axis that `dimtypes` asks for in the place of the axis `old` -/
def _root_.PyGeode.Spec.Retyped (t : DimType) (old new : Axis) : Prop :=
  match t with
  | .inst a => new = a
  | .cls con => new = { con old.values with name := old.name }
  | .args con none => new = con old.values
  | .args con (some vs) => new = con vs
  | .fn f => f old = some new

theorem checked_iff (t : DimType) (a b : Axis) : checked t a = some (a.name, b) ↔ Retyped t a b ∧ b.len = a.len := by
  unfold checked Retyped build
  cases t with
  | inst c =>
    simp only
    split_ifs with h
    · simp only [Option.bind_none, reduceCtorEq, false_iff, not_and]
      rintro rfl; exact h
    · push Not at h
      simp only [Option.bind_some, if_pos h, Option.some.injEq, Prod.mk.injEq, true_and]
      constructor
      · rintro rfl; exact ⟨rfl, h⟩
      · exact fun h => h.1.symm
  | cls con =>
    simp only [Option.bind_some]
    split_ifs with h
    · simp only [Option.some.injEq, Prod.mk.injEq, true_and]
      constructor
      · rintro rfl; exact ⟨rfl, h⟩
      · exact fun h => h.1.symm
    · simp only [reduceCtorEq, false_iff, not_and]
      rintro rfl; exact h
  | args con vs =>
    cases vs with
    | none =>
      simp only [Option.bind_some, Option.getD_none]
      split_ifs with h
      · simp only [Option.some.injEq, Prod.mk.injEq, true_and]
        constructor
        · rintro rfl; exact ⟨rfl, h⟩
        · exact fun h => h.1.symm
      · simp only [reduceCtorEq, false_iff, not_and]
        rintro rfl; exact h
    | some vs =>
      simp only [Option.bind_some, Option.getD_some]
      split_ifs with h
      · simp only [Option.some.injEq, Prod.mk.injEq, true_and]
        constructor
        · rintro rfl; exact ⟨rfl, h⟩
        · exact fun h => h.1.symm
      · simp only [reduceCtorEq, false_iff, not_and]
        rintro rfl; exact h
  | fn f =>
    simp only
    cases hf : f a with
    | none => simp
    | some c =>
      simp only [Option.bind_some, Option.some.injEq]
      split_ifs with h
      · simp only [Option.some.injEq, Prod.mk.injEq, true_and]
        constructor
        · rintro rfl; exact ⟨rfl, h⟩
        · exact fun h => h.1
      · simp only [reduceCtorEq, false_iff, not_and]
        rintro rfl; exact h

theorem checked_name {t : DimType} {a : Axis} {p : Name × Axis} (h : checked t a = some p) : p.1 = a.name := by
  unfold checked at h
  obtain ⟨b, _, hb⟩ := Option.bind_eq_some_iff.1 h
  split_ifs at hb
  rw [← Option.some.inj hb]

/-- `f` gives the axes that `dimtypes` asks for, and they have the right lengths. -/
def _root_.PyGeode.Spec.Retypes (dimtypes : List (Name × DimType)) (axes : List Axis) (f : Axis → Axis) : Prop :=
  ∀ a ∈ axes, (dimtypes.lookup a.name = none → f a = a) ∧ ∀ t, dimtypes.lookup a.name = some t → Retyped t a (f a) ∧ (f a).len = a.len

/-- No axis answers to one of the keys unless the key is its name (an axis answers also to the names of its classes, and in upper and
lower case). -/
def _root_.PyGeode.Spec.ByName (axes : List Axis) (keys : List Name) : Prop :=
  ∀ a ∈ axes, ∀ k ∈ keys, a.hasAlias k = true → a.name = k

theorem mem_axes (vars : List (Member α)) (a : Axis) : a ∈ axes vars ↔ a ∈ allAxes vars := by
  unfold axes allAxes
  rw [dedup_fold]; simp

theorem axes_names {vars : List (Member α)} (h : IsDataset vars) : ((axes vars).map Axis.name).Nodup := by
  refine List.Nodup.map_on (fun a ha b hb => h.same a ((mem_axes _ a).1 ha) b ((mem_axes _ b).1 hb)) ?_
  exact dedup_nodup _ [] List.nodup_nil

theorem lookup_filterMap {V : Type} (c : Axis → Option V) : ∀ (l : List Axis), (l.map Axis.name).Nodup → ∀ a ∈ l,
    (l.filterMap fun b => (c b).map fun v => (b.name, v)).lookup a.name = c a := by
  intro l
  induction l with
  | nil => simp
  | cons b l ih =>
    intro hnd a ha
    rw [List.map_cons, List.nodup_cons] at hnd
    rcases List.mem_cons.1 ha with rfl | ha
    · cases hc : c a with
      | some v => rw [List.filterMap_cons, hc]; simp
      | none =>
        rw [List.filterMap_cons, hc]
        simp only [Option.map_none]
        rw [List.lookup_eq_none_iff]
        intro p hp
        rw [bne_iff_ne]
        rintro e
        obtain ⟨b, hb, hbp⟩ := List.mem_filterMap.1 hp
        obtain ⟨v, _, rfl⟩ := Option.map_eq_some_iff.1 hbp
        exact hnd.1 (List.mem_map.2 ⟨b, hb, e.symm⟩)
    · have hne : a.name ≠ b.name := fun e => hnd.1 (List.mem_map.2 ⟨a, ha, e⟩)
      rw [List.filterMap_cons]
      cases hc : c b with
      | some v =>
        simp only [Option.map_some]
        rw [List.lookup_cons, beq_false_of_ne hne]
        exact ih hnd.2 a ha
      | none => exact ih hnd.2 a ha

theorem filterMap_keys {V : Type} (c : Axis → Option V) (l : List Axis) (h : (l.map Axis.name).Nodup) :
    ((l.filterMap fun b => (c b).map fun v => (b.name, v)).map Prod.fst).Nodup := by
  refine h.sublist ?_
  clear h
  induction l with
  | nil => exact List.Sublist.slnil
  | cons b l ih =>
    rw [List.filterMap_cons]
    cases hc : c b with
    | some v => exact List.Sublist.cons_cons _ ih
    | none => exact List.Sublist.cons _ ih

theorem names_nodup {vars : List (Member α)} (h : IsDataset vars) {x : Member α} (hx : x ∈ vars) (hr : Regular x.var.axes) :
    (x.var.axes.map Axis.name).Nodup :=
  List.Nodup.map_on (fun a ha b hb => h.same a (mem_allAxes.2 ⟨x, hx, ha⟩) b (mem_allAxes.2 ⟨x, hx, hb⟩)) hr.nodup

theorem setAxisTypes_eq (nr : List ℚ → ℚ) (junk : List ℕ → α) (d : Data α) (h : IsDataset d.vars) (hr : ∀ x ∈ d.vars, Regular x.var.axes)
    (dimtypes : List (Name × DimType)) (f : Axis → Axis) (hf : Retypes dimtypes (allAxes d.vars) f)
    (hb : ByName (allAxes d.vars) (dimtypes.map Prod.fst))
    (hs : ∀ a ∈ allAxes d.vars, ∀ b ∈ allAxes d.vars, (f a).name = (f b).name → f a = f b) :
    setAxisTypes nr junk d dimtypes = some ⟨d.vars.map (moved nr junk f), d.atts⟩ := by
  set c : Axis → Option Axis := fun a => (dimtypes.lookup a.name).map fun _ => f a with hc
  have hstep : (axes d.vars).mapM (dimStep dimtypes) = some ((axes d.vars).map fun a => (c a).map fun v => (a.name, v)) := by
    apply mapM_forall₂
    rw [List.forall₂_map_right_iff, List.forall₂_same]
    intro a ha
    obtain ⟨_, h2⟩ := hf a ((mem_axes _ a).1 ha)
    unfold dimStep
    cases hl : dimtypes.lookup a.name with
    | none => simp [hc, hl]
    | some t =>
      simp only [hc, hl, Option.map_some]
      rw [(checked_iff t a (f a)).2 (h2 t hl)]
      rfl
  unfold setAxisTypes
  rw [hstep, Option.bind_some, List.filterMap_map]
  have hreps : (axes d.vars).filterMap (id ∘ fun a => (c a).map fun v => (a.name, v)) =
      (axes d.vars).filterMap fun a => (c a).map fun v => (a.name, v) := rfl
  rw [hreps]
  refine each_moved nr junk d h _ f (fun _ => (axes d.vars).filterMap fun a => (c a).map fun v => (a.name, v)) (fun x _ => rfl)
    (fun x hx => names_nodup h hx (hr x hx)) (fun x _ => filterMap_keys c _ (axes_names h)) ?_ ?_ ?_ hs
  · intro x hx p hp a ha hal
    obtain ⟨b, hb', hbp⟩ := List.mem_filterMap.1 hp
    obtain ⟨v, hv, rfl⟩ := Option.map_eq_some_iff.1 hbp
    simp only at hal ⊢
    refine hb a (mem_allAxes.2 ⟨x, hx, ha⟩) _ ?_ hal
    simp only [hc, Option.map_eq_some_iff] at hv
    obtain ⟨t, ht, _⟩ := hv
    obtain ⟨l1, l2, e, _⟩ := List.lookup_eq_some_iff.1 ht
    rw [e]; simp
  · intro x hx a ha
    have ham := mem_allAxes.2 ⟨x, hx, ha⟩
    rw [lookup_filterMap c _ (axes_names h) a ((mem_axes _ a).2 ham)]
    simp only [hc]
    cases hl : dimtypes.lookup a.name with
    | none => simp [(hf a ham).1 hl]
    | some t => simp
  · intro a ha
    cases hl : dimtypes.lookup a.name with
    | none => rw [(hf a ha).1 hl]
    | some t => exact ((hf a ha).2 t hl).2

/-- C97: an axis of the wrong length in `dimtypes`, or one that cannot be made, is refused. -/
theorem setAxisTypes_refused (nr : List ℚ → ℚ) (junk : List ℕ → α) (d : Data α) (dimtypes : List (Name × DimType)) (a : Axis)
    (ha : a ∈ allAxes d.vars) (t : DimType) (ht : dimtypes.lookup a.name = some t) (hbad : ∀ b, Retyped t a b → b.len ≠ a.len) :
    setAxisTypes nr junk d dimtypes = none := by
  have hc : dimStep dimtypes a = none := by
    unfold dimStep
    rw [ht]
    simp only [Option.map_eq_none_iff]
    cases hc : checked t a with
    | none => rfl
    | some p =>
      have hp := checked_name hc
      have : p = (a.name, p.2) := by rw [← hp]
      rw [this] at hc
      obtain ⟨h1, h2⟩ := (checked_iff t a p.2).1 hc
      exact absurd h2 (hbad _ h1)
  have : (axes d.vars).mapM (dimStep dimtypes) = none := by
    cases hm : (axes d.vars).mapM (dimStep dimtypes) with
    | none => rfl
    | some l =>
      have hrel := Call.mapM_rel hm
      obtain ⟨i, hi, e⟩ := List.getElem_of_mem ((mem_axes _ a).2 ha)
      have := (List.forall₂_iff_get.1 hrel).2 i hi (by rw [← hrel.length_eq]; exact hi)
      simp only [List.get_eq_getElem, e, hc] at this
      cases this
  unfold setAxisTypes
  rw [this]; rfl

/-! ### the choice of variables -/

/-- the variables that `varlist` asks for: all of them if it is empty, else those there are, in the order of `varlist` -/
def _root_.PyGeode.Spec.chosenVars (vars : List (Member α)) (varlist : List Name) : List (Member α) :=
  if varlist = [] then vars else varlist.filterMap fun n => vars.find? fun x => decide (x.name = n)

theorem find_mem {vars : List (Member α)} {n : Name} {x : Member α} (h : vars.find? (fun x => decide (x.name = n)) = some x) :
    x ∈ vars ∧ x.name = n :=
  ⟨List.mem_of_find?_eq_some h, by simpa using List.find?_some h⟩

theorem chosen_mem {vars : List (Member α)} {varlist : List Name} {x : Member α} (h : x ∈ chosenVars vars varlist) : x ∈ vars := by
  unfold chosenVars at h
  split_ifs at h
  · exact h
  · obtain ⟨n, _, hn⟩ := List.mem_filterMap.1 h
    exact (find_mem hn).1

theorem chosen_names {vars : List (Member α)} (h : IsDataset vars) {varlist : List Name} (hv : varlist.Nodup) :
    ((chosenVars vars varlist).map Member.name).Nodup := by
  unfold chosenVars
  split_ifs with h0
  · exact h.names
  · refine hv.sublist ?_
    clear hv h0
    induction varlist with
    | nil => exact List.Sublist.slnil
    | cons n l ih =>
      rw [List.filterMap_cons]
      cases hf : vars.find? (fun x => decide (x.name = n)) with
      | none => exact List.Sublist.cons _ ih
      | some x =>
        simp only [List.map_cons]
        rw [(find_mem hf).2]
        exact List.Sublist.cons_cons _ ih

theorem _root_.PyGeode.Spec.IsDataset.subset {vars vars' : List (Member α)} (h : IsDataset vars) (hs : ∀ x ∈ vars', x ∈ vars)
    (hn : (vars'.map Member.name).Nodup) : IsDataset vars' where
  names := hn
  blank x hx := h.blank x (hs x hx)
  same a ha b hb := by
    obtain ⟨x, hx, hax⟩ := mem_allAxes.1 ha
    obtain ⟨y, hy, hby⟩ := mem_allAxes.1 hb
    exact h.same a (mem_allAxes.2 ⟨x, hs x hx, hax⟩) b (mem_allAxes.2 ⟨y, hs y hy, hby⟩)

theorem lookup_find {vars : List (Member α)} (h : IsDataset vars) (n : Name) :
    ((vardict (vars.map fun x => (x.name, x.var))).lookup n).map (Member.mk n) = vars.find? fun x => decide (x.name = n) := by
  have l1 : ∀ v, (vardict (vars.map fun x => (x.name, x.var))).lookup n = some v ↔ ∃ x ∈ vars, x.name = n ∧ x.var = v := by
    intro v
    rw [vardict_lookup _ (by rw [List.map_map]; exact h.names), List.mem_map]
    simp
  cases hf : vars.find? (fun x => decide (x.name = n)) with
  | none =>
    rw [Option.map_eq_none_iff, Option.eq_none_iff_forall_ne_some]
    intro v hv
    obtain ⟨x, hx, hxn, _⟩ := (l1 v).1 hv
    have := List.find?_eq_none.1 hf x hx
    simp [hxn] at this
  | some x =>
    obtain ⟨h1, h2⟩ := find_mem hf
    rw [(l1 x.var).2 ⟨x, h1, h2, rfl⟩, ← h2]
    rfl

theorem whitelist_eq (nr : List ℚ → ℚ) (junk : List ℕ → α) (d : Data α) (h : IsDataset d.vars) (varlist : List Name) (hv : varlist.Nodup) :
    given varlist (fun d => whitelist nr junk d varlist) d = some ⟨chosenVars d.vars varlist, d.atts⟩ := by
  unfold given
  split_ifs with h0
  · simp [chosenVars, h0]
  · have e : (varlist.filterMap fun n => ((vardict (d.vars.map fun x => (x.name, x.var))).lookup n).map (Member.mk n)) =
        chosenVars d.vars varlist := by
      unfold chosenVars
      rw [if_neg h0]
      exact List.filterMap_congr fun n _ => lookup_find h n
    show make nr junk (varlist.filterMap fun n => ((vardict (d.vars.map fun x => (x.name, x.var))).lookup n).map (Member.mk n)) d.atts = _
    rw [e]
    exact make_id nr junk _ _ (h.subset (fun x hx => chosen_mem hx) (chosen_names h hv))

theorem chosen_moved (vars : List (Member α)) (varlist : List Name) (nr : List ℚ → ℚ) (junk : List ℕ → α) (F : Axis → Axis) :
    chosenVars (vars.map (moved nr junk F)) varlist = (chosenVars vars varlist).map (moved nr junk F) := by
  unfold chosenVars
  split_ifs with h0
  · rfl
  · rw [List.map_filterMap]
    refine List.filterMap_congr fun n _ => ?_
    rw [List.find?_map]
    rfl

/-! ### the names -/

/-- the name `n` is to be known by -/
def _root_.PyGeode.Spec.newName (namemap : List (Name × Name)) (n : Name) : Name := (namemap.lookup n).getD n

/-- the axis under the name it is to be known by -/
def _root_.PyGeode.Spec.nameChanged (nr : List ℚ → ℚ) (namemap : List (Name × Name)) (a : Axis) : Axis :=
  ((namemap.lookup a.name).map (renameAxis nr a)).getD a

/-- C97: an axis keeps its values and whatever else belongs to it under the new name. -/
theorem nameChanged_kept (nr : List ℚ → ℚ) (namemap : List (Name × Name)) (a : Axis) :
    (nameChanged nr namemap a).name = newName namemap a.name ∧ (nameChanged nr namemap a).values = a.values ∧
    (nameChanged nr namemap a).auxatts = a.auxatts ∧ (nameChanged nr namemap a).auxarrays = a.auxarrays ∧
    (nameChanged nr namemap a).isFloat = a.isFloat ∧ (nameChanged nr namemap a).aliases = a.aliases ∧
    ((∀ c ∈ a.classes, ' ' ∉ c) → (nameChanged nr namemap a).classes = a.classes) := by
  unfold nameChanged newName
  cases h : namemap.lookup a.name with
  | none => simp
  | some n =>
    refine ⟨rfl, rfl, rfl, rfl, rfl, rfl, fun hc => ?_⟩
    simp only [Option.map_some, Option.getD_some, renameAxis]
    conv_rhs => rw [← List.map_id a.classes]
    refine List.map_congr_left fun c hcm => ?_
    unfold reclass
    rw [if_neg]
    · rfl
    intro hs
    have hs' : ' ' :: a.name <:+ c := by simpa using hs
    exact hc c hcm (hs'.subset (by simp))

theorem which_of_mem {X : List Axis} (hnd : (X.map Axis.name).Nodup) {a : Axis} (ha : a ∈ X)
    (hal : ∀ d ∈ X, d.hasAlias a.name = true → d.name = a.name) :
    ∃ i, foundAt (whichaxis X (.name a.name)) = some i ∧ X[i]? = some a := by
  have hw : foundAt (whichaxis X (.name a.name)) = X.findIdx? (fun d => d.hasAlias a.name) := by
    unfold whichaxis
    cases hf : X.findIdx? (fun d => d.hasAlias a.name) <;> simp [hf, foundAt]
  rw [hw]
  cases hf : X.findIdx? (fun d => d.hasAlias a.name) with
  | none =>
    rw [List.findIdx?_eq_none_iff] at hf
    have := hf a ha
    rw [alias_self] at this; cases this
  | some i =>
    obtain ⟨hi, h1, -⟩ := List.findIdx?_eq_some_iff_getElem.1 hf
    refine ⟨i, rfl, ?_⟩
    rw [List.getElem?_eq_getElem hi, Option.some.injEq]
    exact List.inj_on_of_nodup_map hnd (List.getElem_mem hi) ha (hal _ (List.getElem_mem hi) h1)

theorem renamed_lookup (nr : List ℚ → ℚ) {X : List Axis} (hnd : (X.map Axis.name).Nodup) {a : Axis} (ha : a ∈ X) :
    ∀ (namemap : List (Name × Name)), ByName X (namemap.map Prod.fst) →
    (namemap.filterMap (renamedAxis nr X)).lookup a.name = (namemap.lookup a.name).map (renameAxis nr a) := by
  intro namemap
  induction namemap with
  | nil => intro _; rfl
  | cons p ps ih =>
    intro hb
    have ih := ih fun a ha k hk => hb a ha k (by simp at hk ⊢; exact Or.inr hk)
    by_cases hp : a.name = p.1
    · obtain ⟨i, h1, h2⟩ := which_of_mem hnd ha fun d hd hal => hb d hd a.name (by simp [hp]) hal
      have e : renamedAxis nr X p = some (a.name, renameAxis nr a p.2) := by
        unfold renamedAxis
        rw [← hp, h1, Option.bind_some, h2]; rfl
      rw [List.filterMap_cons, e, List.lookup_cons, List.lookup_cons, beq_self_eq_true, ← hp, beq_self_eq_true]
      rfl
    · rw [List.filterMap_cons, List.lookup_cons, beq_false_of_ne hp]
      cases e : renamedAxis nr X p with
      | none => exact ih
      | some q =>
        have hq : q.1 = p.1 := by
          unfold renamedAxis at e
          obtain ⟨i, _, h1⟩ := Option.bind_eq_some_iff.1 e
          obtain ⟨b, _, h2⟩ := Option.map_eq_some_iff.1 h1
          rw [← h2]
        simp only
        rw [List.lookup_cons, beq_false_of_ne (by rw [hq]; exact hp)]
        exact ih

theorem renamed_keys (nr : List ℚ → ℚ) (X : List Axis) (namemap : List (Name × Name)) :
    ((namemap.filterMap (renamedAxis nr X)).map Prod.fst).Sublist (namemap.map Prod.fst) := by
  induction namemap with
  | nil => exact List.Sublist.slnil
  | cons p ps ih =>
    rw [List.filterMap_cons]
    cases e : renamedAxis nr X p with
    | none => exact List.Sublist.cons _ ih
    | some q =>
      have hq : q.1 = p.1 := by
        unfold renamedAxis at e
        obtain ⟨i, _, h1⟩ := Option.bind_eq_some_iff.1 e
        obtain ⟨b, _, h2⟩ := Option.map_eq_some_iff.1 h1
        rw [← h2]
      simp only [List.map_cons, hq]
      exact List.Sublist.cons_cons _ ih

theorem renameAxes_eq (nr : List ℚ → ℚ) (junk : List ℕ → α) (d : Data α) (h : IsDataset d.vars) (hr : ∀ x ∈ d.vars, Regular x.var.axes)
    (namemap : List (Name × Name)) (hk : (namemap.map Prod.fst).Nodup) (hb : ByName (allAxes d.vars) (namemap.map Prod.fst))
    (hs : ∀ a ∈ allAxes d.vars, ∀ b ∈ allAxes d.vars, newName namemap a.name = newName namemap b.name → a = b) :
    each nr junk (renameAxes nr junk namemap) d = some ⟨d.vars.map (moved nr junk (nameChanged nr namemap)), d.atts⟩ := by
  refine each_moved nr junk d h _ _ (fun x => namemap.filterMap (renamedAxis nr x.axes)) (fun x _ => rfl)
    (fun x hx => names_nodup h hx (hr x hx)) (fun x _ => hk.sublist (renamed_keys nr _ _)) ?_ ?_ ?_ ?_
  · intro x hx p hp a ha hal
    have hpm : p.1 ∈ namemap.map Prod.fst := (renamed_keys nr x.var.axes namemap).subset (List.mem_map_of_mem hp)
    exact hb a (mem_allAxes.2 ⟨x, hx, ha⟩) _ hpm hal
  · intro x hx a ha
    rw [renamed_lookup nr (names_nodup h hx (hr x hx)) ha namemap fun b hbx k hk' => hb b (mem_allAxes.2 ⟨x, hx, hbx⟩) k hk']
    rfl
  · intro a _
    unfold Axis.len
    rw [(nameChanged_kept nr namemap a).2.1]
  · intro a ha b hb' hab
    rw [(nameChanged_kept nr namemap a).1, (nameChanged_kept nr namemap b).1] at hab
    rw [hs a ha b hb' hab]

/-! ### opening -/

/-- C97, the options of `open`: the variables are those of `varlist` that there are, in this order (all of them if there is no `varlist`), under
their new names; their axes are those asked for by `dimtypes`, under their new names; and their data are those of the file, position by position. -/
theorem finalizeOpen_correct_partial (nr : List ℚ → ℚ) (junk : List ℕ → α) (dimtypes : List (Name × DimType)) (namemap : List (Name × Name))
    (varlist : List Name) (d : Data α) (h : IsDataset d.vars) (hr : ∀ x ∈ d.vars, Regular x.var.axes)
    -- the axes asked for
    (f : Axis → Axis) (hf : Retypes dimtypes (allAxes d.vars) f) (hb : ByName (allAxes d.vars) (dimtypes.map Prod.fst))
    (hs : ∀ a ∈ allAxes d.vars, ∀ b ∈ allAxes d.vars, (f a).name = (f b).name → f a = f b) (hr' : ∀ x ∈ d.vars, Regular (x.var.axes.map f))
    -- the variables asked for
    (hv : varlist.Nodup)
    -- the names asked for
    (hk : (namemap.map Prod.fst).Nodup) (hne : ∀ p ∈ namemap, p.2 ≠ [])
    (hb' : ByName ((allAxes (chosenVars d.vars varlist)).map f) (namemap.map Prod.fst))
    (hn : ((chosenVars d.vars varlist).map fun x => newName namemap x.name).Nodup)
    (hs' : ∀ a ∈ allAxes (chosenVars d.vars varlist), ∀ b ∈ allAxes (chosenVars d.vars varlist),
      newName namemap (f a).name = newName namemap (f b).name → f a = f b) :
    ∃ d', finalizeOpen nr junk dimtypes namemap varlist d = some d' ∧ d'.atts = d.atts ∧ IsDataset d'.vars ∧
      List.Forall₂ (fun x y => y.name = newName namemap x.name ∧ y.var.axes = x.var.axes.map (fun a => nameChanged nr namemap (f a)) ∧
        ∀ data, Contains x.var data → Contains y.var data) (chosenVars d.vars varlist) d'.vars := by
  have hlen : ∀ a ∈ allAxes d.vars, (f a).len = a.len := by
    intro a ha
    cases hl : dimtypes.lookup a.name with
    | none => rw [(hf a ha).1 hl]
    | some t => exact ((hf a ha).2 t hl).2
  -- the first step
  obtain ⟨G, hG1, hG2⟩ : ∃ G : Member α → Member α, given dimtypes (fun d => setAxisTypes nr junk d dimtypes) d = some ⟨d.vars.map G, d.atts⟩ ∧
      ((G = moved nr junk f) ∨ (G = id ∧ ∀ a ∈ allAxes d.vars, f a = a)) := by
    unfold given
    split_ifs with h0
    · exact ⟨id, by rw [List.map_id], Or.inr ⟨rfl, fun a ha => (hf a ha).1 (by rw [h0]; rfl)⟩⟩
    · exact ⟨_, setAxisTypes_eq nr junk d h hr dimtypes f hf hb hs, Or.inl rfl⟩
  have hGp : ∀ x ∈ d.vars, (G x).name = x.name ∧ (G x).var.axes = x.var.axes.map f ∧
      ∀ data, Contains x.var data → Contains (G x).var data := by
    intro x hx
    rcases hG2 with rfl | ⟨rfl, hid⟩
    · exact ⟨rfl, rfl, fun data hc => moved_contains nr junk f x (hr x hx) (fun a ha => hlen a (mem_allAxes.2 ⟨x, hx, ha⟩)) data hc⟩
    · refine ⟨rfl, ?_, fun _ hc => hc⟩
      conv_lhs => rw [id, ← List.map_id x.var.axes]
      exact List.map_congr_left fun a ha => (hid a (mem_allAxes.2 ⟨x, hx, ha⟩)).symm
  have hds1 : IsDataset (d.vars.map G) := by
    rcases hG2 with rfl | ⟨rfl, _⟩
    · exact moved_dataset h nr junk f hs
    · rw [List.map_id]; exact h
  have hch : chosenVars (d.vars.map G) varlist = (chosenVars d.vars varlist).map G := by
    rcases hG2 with rfl | ⟨rfl, _⟩
    · exact chosen_moved _ _ _ _ _
    · rw [List.map_id, List.map_id]
  -- the second step
  have h2 := whitelist_eq nr junk ⟨d.vars.map G, d.atts⟩ hds1 varlist hv
  simp only [hch] at h2
  have hds2 : IsDataset ((chosenVars d.vars varlist).map G) := by
    rw [← hch]
    exact hds1.subset (fun x hx => chosen_mem hx) (chosen_names hds1 hv)
  have hax2 : ∀ a, a ∈ allAxes ((chosenVars d.vars varlist).map G) → ∃ a' ∈ allAxes (chosenVars d.vars varlist), a = f a' := by
    intro a ha
    obtain ⟨y, hy, hay⟩ := mem_allAxes.1 ha
    obtain ⟨x, hx, rfl⟩ := List.mem_map.1 hy
    rw [(hGp x (chosen_mem hx)).2.1] at hay
    obtain ⟨a', ha', rfl⟩ := List.mem_map.1 hay
    exact ⟨a', mem_allAxes.2 ⟨x, hx, ha'⟩, rfl⟩
  unfold finalizeOpen
  rw [hG1, Option.bind_some, h2, Option.bind_some]
  -- the third step
  unfold given
  by_cases h0 : namemap = []
  · rw [if_pos h0]
    refine ⟨_, rfl, rfl, hds2, ?_⟩
    simp only
    rw [List.forall₂_map_right_iff, List.forall₂_same]
    intro x hx
    obtain ⟨g1, g2, g3⟩ := hGp x (chosen_mem hx)
    subst h0
    exact ⟨g1, g2, g3⟩
  · rw [if_neg h0]
    obtain ⟨d3, hd3, hi3, ha3, hv3⟩ := rename_correct nr junk ⟨(chosenVars d.vars varlist).map G, d.atts⟩ hds2 namemap hne (by
      have e : (((chosenVars d.vars varlist).map G).map fun x => (namemap.lookup x.name).getD x.name) =
          (chosenVars d.vars varlist).map fun x => newName namemap x.name := by
        rw [List.map_map]
        refine List.map_congr_left fun x hx => ?_
        rw [Function.comp, (hGp x (chosen_mem hx)).1]
        rfl
      simp only [e]
      exact hn)
    simp only at hv3 ha3
    have hax3 : allAxes d3.vars = allAxes ((chosenVars d.vars varlist).map G) := by
      rw [hv3]
      unfold allAxes
      rw [List.flatMap_map, List.flatMap_map]
    have hr3 : ∀ x ∈ d3.vars, Regular x.var.axes := by
      intro x hx
      rw [hv3] at hx
      obtain ⟨y, hy, rfl⟩ := List.mem_map.1 hx
      obtain ⟨z, hz, rfl⟩ := List.mem_map.1 hy
      simp only [(hGp z (chosen_mem hz)).2.1]
      exact hr' z (chosen_mem hz)
    have hs3 : ∀ a ∈ allAxes d3.vars, ∀ b ∈ allAxes d3.vars, newName namemap a.name = newName namemap b.name → a = b := by
      rw [hax3]
      intro a ha b hb hab
      obtain ⟨a', ha', rfl⟩ := hax2 a ha
      obtain ⟨b', hb', rfl⟩ := hax2 b hb
      exact hs' a' ha' b' hb' hab
    have h3 := renameAxes_eq nr junk d3 hi3 hr3 namemap hk (by
      rw [hax3]
      intro a ha k hk' hal
      obtain ⟨a', ha', rfl⟩ := hax2 a ha
      exact hb' _ (List.mem_map_of_mem ha') k hk' hal) hs3
    simp only []
    rw [hd3, Option.bind_some, h3]
    refine ⟨_, rfl, ha3, moved_dataset hi3 nr junk _ ?_, ?_⟩
    · intro a ha b hb hab
      rw [(nameChanged_kept nr namemap a).1, (nameChanged_kept nr namemap b).1] at hab
      rw [hs3 a ha b hb hab]
    · simp only
      have hv4 : d3.vars.map (moved nr junk (nameChanged nr namemap)) =
          (chosenVars d.vars varlist).map fun x => moved nr junk (nameChanged nr namemap) ⟨(namemap.lookup (G x).name).getD (G x).name, (G x).var⟩ := by
        rw [hv3, List.map_map, List.map_map]; rfl
      rw [hv4, List.forall₂_map_right_iff, List.forall₂_same]
      intro x hx
      obtain ⟨g1, g2, g3⟩ := hGp x (chosen_mem hx)
      refine ⟨?_, ?_, ?_⟩
      · show (namemap.lookup (G x).name).getD (G x).name = _
        rw [g1]; rfl
      · show (G x).var.axes.map _ = _
        rw [g2, List.map_map]; rfl
      · intro data hc
        refine moved_contains nr junk _ _ (by simp only [g2]; exact hr' x (chosen_mem hx)) (fun a _ => ?_) data (g3 data hc)
        unfold Axis.len
        rw [(nameChanged_kept nr namemap a).2.1]

/-! ### saving -/

/-- the variables that `pack` is for: all of them, or those in the list -/
def _root_.PyGeode.Spec.PackedBy (pack : PackOpt) (n : Name) : Prop :=
  match pack with
  | .flag b => b = true
  | .names l => n ∈ l
  | .text s => s ≠ [] ∧ n <:+: s

theorem packedBy_iff (pack : PackOpt) (n : Name) : PackedBy pack n ↔ pack.isSet = true ∧ pack.holds n = true := by
  cases pack with
  | flag b => simp [PackedBy, PackOpt.isSet, PackOpt.holds]
  | names l =>
    simp only [PackedBy, PackOpt.isSet, PackOpt.holds, decide_eq_true_eq]
    exact ⟨fun h => ⟨List.ne_nil_of_mem h, h⟩, fun h => h.2⟩
  | text s => simp [PackedBy, PackOpt.isSet, PackOpt.holds]

/-- C97: saving with `pack` packs the variables it is for and leaves the others as they are; the names, their order and the attributes of the
dataset are kept; the scale and the offset are recorded for the packed variables only. -/
theorem finalizeSave_correct (nr : List ℚ → ℚ) (junk : List ℕ → Option ℚ) (limit : ℕ) (bad : ℤ) (pack : PackOpt) (d d' : Data (Option ℚ))
    (scales : List (Option (Option ℚ × Option ℚ))) (h : IsDataset d.vars)
    (hd : finalizeSave nr junk limit bad pack d = some (d', scales)) :
    d'.atts = d.atts ∧ d'.vars.length = d.vars.length ∧ scales.length = d.vars.length ∧
    ∀ (i : ℕ) (x : Member (Option ℚ)), d.vars[i]? = some x → ∃ y s, d'.vars[i]? = some y ∧ scales[i]? = some s ∧ y.name = x.name ∧
      (¬ PackedBy pack x.name → y = x ∧ s = none) ∧
      (PackedBy pack x.name → ∃ r, s = some r ∧ Pack.packVar nr junk limit bad x.var = some (y.var, r)) := by
  unfold finalizeSave at hd
  by_cases hset : pack.isSet = true
  · rw [if_pos hset] at hd
    obtain ⟨l, hl, hd2⟩ := Option.bind_eq_some_iff.1 hd
    obtain ⟨d2, hd3, hd4⟩ := Option.map_eq_some_iff.1 hd2
    have hrel := Call.mapM_rel hl
    have hstep : ∀ x q, packOne nr junk limit bad pack x = some q → q.1.name = x.name ∧ q.1.var.axes = x.var.axes ∧
        (¬ PackedBy pack x.name → q.1 = x ∧ q.2 = none) ∧
        (PackedBy pack x.name → ∃ r, q.2 = some r ∧ Pack.packVar nr junk limit bad x.var = some (q.1.var, r)) := by
      intro x q hq
      unfold packOne at hq
      split_ifs at hq with hh
      · obtain ⟨r, hr, rfl⟩ := Option.map_eq_some_iff.1 hq
        refine ⟨rfl, ?_, fun hn => absurd ((packedBy_iff _ _).2 ⟨hset, hh⟩) hn, fun _ => ⟨r.2, rfl, hr⟩⟩
        simp only
        unfold Pack.packVar at hr
        obtain ⟨lo, _, hr⟩ := Option.bind_eq_some_iff.1 hr
        obtain ⟨hi, _, hr⟩ := Option.bind_eq_some_iff.1 hr
        rw [← Option.some.inj hr]
        rfl
      · rw [← Option.some.inj hq]
        exact ⟨rfl, rfl, fun _ => ⟨rfl, rfl⟩, fun hp => absurd ((packedBy_iff _ _).1 hp).2 hh⟩
    have hds : IsDataset (l.map Prod.fst) := by
      have hnames : (l.map Prod.fst).map Member.name = d.vars.map Member.name := by
        rw [List.map_map]
        apply List.ext_getElem
        · simp [hrel.length_eq]
        · intro i h1 h2
          have := (List.forall₂_iff_get.1 hrel).2 i (by simpa using h2) (by simpa using h1)
          simp only [List.get_eq_getElem] at this
          simp only [List.getElem_map, Function.comp]
          exact (hstep _ _ this).1
      have hmem : ∀ y ∈ l.map Prod.fst, ∃ x ∈ d.vars, y.name = x.name ∧ y.var.axes = x.var.axes := by
        intro y hy
        obtain ⟨q, hq, rfl⟩ := List.mem_map.1 hy
        obtain ⟨i, hi, rfl⟩ := List.getElem_of_mem hq
        have := (List.forall₂_iff_get.1 hrel).2 i (by rw [hrel.length_eq]; exact hi) hi
        simp only [List.get_eq_getElem] at this
        exact ⟨_, List.getElem_mem _, (hstep _ _ this).1, (hstep _ _ this).2.1⟩
      refine ⟨by rw [hnames]; exact h.names, ?_, ?_⟩
      · intro y hy
        obtain ⟨x, hx, e, _⟩ := hmem y hy
        rw [e]; exact h.blank x hx
      · intro a ha b hb hab
        obtain ⟨y, hy, hay⟩ := mem_allAxes.1 ha
        obtain ⟨z, hz, hbz⟩ := mem_allAxes.1 hb
        obtain ⟨x, hx, _, e⟩ := hmem y hy
        obtain ⟨w, hw, _, e'⟩ := hmem z hz
        exact h.same a (mem_allAxes.2 ⟨x, hx, e ▸ hay⟩) b (mem_allAxes.2 ⟨w, hw, e' ▸ hbz⟩) hab
    have hparts : (l.map fun r => Part.var r.1) = (l.map Prod.fst).map Part.var := by rw [List.map_map]; rfl
    have hv : ownVars (l.map fun r => Part.var r.1) = l.map Prod.fst := by rw [hparts]; exact own_vars [] _
    have ho : ownData (l.map fun r => Part.var r.1) = [] := by rw [hparts]; exact own_data [] _
    have has : asDataset nr junk (l.map fun r => Part.var r.1) = some ⟨l.map Prod.fst, []⟩ := by
      unfold asDataset
      rw [ho, hv]
      exact make_id nr junk _ _ hds
    rw [has, Option.some.injEq] at hd3
    subst hd3
    obtain ⟨rfl, rfl⟩ := Prod.mk.inj hd4
    refine ⟨rfl, by simp [hrel.length_eq], by simp [hrel.length_eq], fun i x hx => ?_⟩
    obtain ⟨hi, e⟩ := List.getElem?_eq_some_iff.1 hx
    have hil : i < l.length := by rw [← hrel.length_eq]; exact hi
    have := (List.forall₂_iff_get.1 hrel).2 i hi hil
    simp only [List.get_eq_getElem, e] at this
    obtain ⟨g1, g2, g3, g4⟩ := hstep _ _ this
    exact ⟨l[i].1, l[i].2, by simp [hil], by simp [hil], g1, g3, g4⟩
  · rw [if_neg hset] at hd
    obtain ⟨rfl, rfl⟩ := Prod.mk.inj (Option.some.inj hd)
    refine ⟨rfl, rfl, by simp, fun i x hx => ⟨x, none, hx, by rw [List.getElem?_map, hx]; rfl, rfl, fun _ => ⟨rfl, rfl⟩, fun hp => ?_⟩⟩
    exact absurd ((packedBy_iff _ _).1 hp).1 hset

/-! ### examples -/

example : autodetect "/data/run.1/temp.nc".toList = some "netcdf4".toList := by decide
example : autodetect "/data/run.nc/temp".toList = none := by decide
example : autodetect "/data/.nc".toList = none := by decide
example : HasExt "/data/run.1/temp.nc".toList "nc".toList :=
  ⟨"/data/run.1/".toList, "temp".toList, by decide, Or.inr (by decide), by decide, by decide, by decide, 't', by decide, by decide⟩

/-- two axes of a file -/
def tEx : Axis := ⟨["NamedAxis t".toList, "Axis".toList], ["namedaxis".toList], "t".toList, [1, 2, 3], true, 0, [], []⟩
def xEx : Axis := ⟨["NamedAxis x".toList, "Axis".toList], ["namedaxis".toList], "x".toList, [0, 90], true, 0, [], []⟩
/-- `Lon(values)` -/
def lonOf (vals : List ℚ) : Axis := ⟨["Lon".toList, "XAxis".toList, "Axis".toList], ["lon".toList, "xaxis".toList], "lon".toList, vals, true, 0, [], []⟩
/-- a file with two variables -/
def fileOptEx : Data ℕ :=
  ⟨[⟨"Q".toList, ⟨[tEx, xEx], .values ⟨[3, 2], fun k => k.getD 0 0 * 2 + k.getD 1 0⟩⟩⟩, ⟨"U".toList, ⟨[xEx], .values ⟨[2], fun k => k.getD 0 0⟩⟩⟩,
    ⟨"V".toList, ⟨[xEx], .values ⟨[2], fun _ => 7⟩⟩⟩], []⟩

theorem fileOptEx_dataset : IsDataset fileOptEx.vars := ⟨by decide +kernel, by decide +kernel, by decide +kernel⟩

def retypeEx (a : Axis) : Axis := if a.name = "x".toList then { lonOf a.values with name := a.name } else a

theorem regular_axes {axes : List Axis} (h1 : ∀ a ∈ axes, a.classes ≠ []) (h2 : axes.Pairwise fun a b => Axis.compatible a b = false) :
    Regular axes := ⟨h1, h2⟩

theorem fileOptEx_axes : ∀ x ∈ fileOptEx.vars, x.var.axes = [tEx, xEx] ∨ x.var.axes = [xEx] := by decide +kernel

/-- U and Q are chosen, Q and x are renamed, and x becomes a longitude -/
example := finalizeOpen_correct_partial (fun _ => 0) (fun _ => 0) [("x".toList, .cls lonOf)] [("Q".toList, "temp".toList), ("x".toList, "lambda".toList)]
  ["U".toList, "Q".toList, "W".toList] fileOptEx fileOptEx_dataset (by
    intro x hx
    rcases fileOptEx_axes x hx with h | h <;> rw [h] <;> exact regular_axes (by decide +kernel) (by decide +kernel)) retypeEx
  (by
    have h1 : ∀ a ∈ allAxes fileOptEx.vars, a = tEx ∨ a = xEx := by decide +kernel
    intro a ha
    rcases h1 a ha with rfl | rfl
    · exact ⟨fun _ => by decide +kernel, fun t ht => by exact absurd ht (by simp [tEx, List.lookup])⟩
    · refine ⟨fun h => ?_, fun t ht => ?_⟩
      · exact absurd h (by simp [xEx, List.lookup])
      obtain rfl : DimType.cls lonOf = t := Option.some.inj ht
      exact ⟨by unfold Retyped; decide +kernel, by decide +kernel⟩)
  (by unfold ByName; decide +kernel) (by decide +kernel)
  (by
    intro x hx
    rcases fileOptEx_axes x hx with h | h <;> rw [h] <;> exact regular_axes (by decide +kernel) (by decide +kernel))
  (by decide) (by decide) (by decide) (by unfold ByName; decide +kernel) (by decide +kernel) (by decide +kernel)

/-- the names of the variables, with their axes -/
def shownNames (d : Data ℕ) : List (Name × List (Name × List Name)) := d.vars.map fun x => (x.name, x.var.axes.map fun a => (a.name, a.classes.take 1))

example : (finalizeOpen (fun _ => 0) (fun _ => 0) [("x".toList, .cls lonOf)] [("Q".toList, "temp".toList), ("x".toList, "lambda".toList)]
    ["U".toList, "Q".toList, "W".toList] fileOptEx).map shownNames =
  some [("U".toList, [("lambda".toList, ["Lon".toList])]),
    ("temp".toList, [("t".toList, ["NamedAxis t".toList]), ("lambda".toList, ["Lon".toList])])] := by decide +kernel

/-- C97, violated without `ByName`: upper and lower case are not told apart for axes, so that renaming the variable V renames the axis v too. -/
theorem namemap_case_violated :
    (finalizeOpen (fun _ => 0) (fun _ => 0) [] [("V".toList, "wind".toList)] []
      (⟨[⟨"V".toList, ⟨[{ xEx with name := "v".toList }], .values ⟨[2], fun _ => 7⟩⟩⟩], []⟩ : Data ℕ)).map
        (fun d => d.vars.map fun x => (x.name, x.var.axes.map Axis.name)) = some [("wind".toList, ["wind".toList])] := by decide +kernel

/-- C97, violated without `ByName`: an axis answers to the name of its class, so that an axis given for the name lon is put in the place of
another longitude, in a variable that has no axis named lon. -/
theorem dimtypes_alias_violated :
    (finalizeOpen (fun _ => 0) (fun _ => 0) [("lon".toList, .inst (lonOf [5, 6]))] [] []
      (⟨[⟨"A".toList, ⟨[lonOf [1, 2]], .values ⟨[2], fun _ => 7⟩⟩⟩,
        ⟨"B".toList, ⟨[{ lonOf [180, 270] with name := "lon_edge".toList }], .values ⟨[2], fun _ => 7⟩⟩⟩], []⟩ : Data ℕ)).map
        (fun d => d.vars.map fun x => (x.name, x.var.axes.map fun a => (a.name, a.values))) =
      some [("A".toList, [("lon".toList, [5, 6])]), ("B".toList, [("lon".toList, [5, 6])])] := by decide +kernel

/-- C97, violated: with a class and arguments, or an axis, in `dimtypes` the axis loses its name in the file, so that `namemap` with this name has no
effect (the names in `namemap` are said to be those of the file). -/
theorem dimtypes_namemap_violated :
    (finalizeOpen (fun _ => 0) (fun _ => 0) [("x".toList, .args lonOf none)] [("x".toList, "lambda".toList)] [] fileOptEx).map
      (fun d => d.vars.map fun x => x.var.axes.map Axis.name) =
    some [["t".toList, "lon".toList], ["lon".toList], ["lon".toList]] := by decide +kernel

/-- C97: an instance of the wrong length -/
example := setAxisTypes_refused (fun _ => 0) (fun _ => 0) fileOptEx [("x".toList, .inst (lonOf [5, 6, 7]))] xEx (by decide +kernel) _ rfl
  (by rintro b rfl; decide +kernel)

/-- C97, violated: a name given to `pack` as a text packs every variable whose name is a part of it. -/
theorem pack_text_violated : PackedBy (.text "temperature".toList) "temp".toList ∧ PackedBy (.text "temperature".toList) "t".toList ∧
    ¬ PackedBy (.names ["temperature".toList]) "t".toList := by
  refine ⟨⟨by decide, [], "erature".toList, by decide⟩, ⟨by decide, [], "emperature".toList, by decide⟩, ?_⟩
  unfold PackedBy
  decide

/-- Q is packed and U is not -/
example := finalizeSave_correct (fun _ => 0) (fun _ => none) 2 0 (.names ["Q".toList])
  ⟨[⟨"Q".toList, ⟨[xEx], .values ⟨[2], fun k => some ((k.getD 0 0 : ℕ) : ℚ)⟩⟩⟩, ⟨"U".toList, ⟨[xEx], .values ⟨[2], fun _ => none⟩⟩⟩], []⟩
example : ((finalizeSave (fun _ => 0) (fun _ => none) 2 0 (.names ["Q".toList])
  ⟨[⟨"Q".toList, ⟨[xEx], .values ⟨[2], fun k => some ((k.getD 0 0 : ℕ) : ℚ)⟩⟩⟩, ⟨"U".toList, ⟨[xEx], .values ⟨[2], fun _ => none⟩⟩⟩], []⟩).map Prod.snd) =
  some [some (some (1 / 65534), some (1 / 2)), none] := by decide +kernel

end OpenOptions
end PyGeode
