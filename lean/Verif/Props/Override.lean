/-
Property C149: values given on opening replace those of the file.
-/
import Verif.Model.Override
import Verif.Props.Lookup

namespace PyGeode
namespace Override
open Combine DatasetOps Lookup Spec

variable {α : Type}

/-- what is given fits: a variable of that name has that shape, an axis (if no variable has the name) that length -/
def Fits (d : Data α) (name : Name) (values : NArr α) : Prop :=
  (∀ x ∈ d.vars, x.name = name → values.shape = x.var.axes.map fun a => a.values.length) ∧
    (name ∉ d.vars.map Member.name → ∀ a ∈ allAxes d.vars, a.name = name → values.shape = [a.values.length])

/-- the variable with the values given for it, if there are any -/
def withGiven (given : List (Name × NArr α)) (x : Member α) : Member α :=
  ⟨x.name, { x.var with src := (given.lookup x.name).elim x.var.src .values }⟩

theorem contains_iff (d : Data α) (h : IsDataset d.vars) (name : Name) : contains d name = true ↔ getitem d name ≠ none :=
  (dataAttr_correct d h name).1

theorem overrideOne_var (d : Data α) (h : IsDataset d.vars) (x : Member α) (hx : x ∈ d.vars) (values : NArr α) :
    overrideOne d x.name values = if values.shape = x.var.axes.map fun a => a.values.length then
      some (some (x.name, ⟨x.name, ⟨x.var.axes, .values values⟩⟩)) else none := by
  have hg : getitem d x.name = some (.inl x.var) := ((getitem_correct d h x.name).1 x.var).2 ⟨x, hx, rfl, rfl⟩
  unfold overrideOne
  rw [if_pos ((contains_iff d h x.name).2 (by rw [hg]; simp)), hg]
  rfl

theorem overrideOne_axis (d : Data α) (h : IsDataset d.vars) (name : Name) (hn : name ∉ d.vars.map Member.name) (values : NArr α)
    (hf : Fits d name values) : ∃ r, overrideOne d name values = some r ∧ ∀ q ∈ r, q.1 = name := by
  unfold overrideOne
  split_ifs with hc
  · cases hg : getitem d name with
    | none => exact absurd hg ((contains_iff d h name).1 hc)
    | some old =>
      cases old with
      | inl v =>
        obtain ⟨x, hx, e, -⟩ := ((getitem_correct d h name).1 v).1 hg
        exact absurd (List.mem_map.mpr ⟨x, hx, e⟩) hn
      | inr a =>
        obtain ⟨-, ha, e⟩ := ((getitem_correct d h name).2.1 a).1 hg
        refine ⟨some (name, ⟨a.name, ⟨[a], .values values⟩⟩), ?_, by simp⟩
        simp only [Option.bind_some]
        exact if_pos (hf.2 hn a ha e)
  · exact ⟨none, rfl, by simp⟩

/-- C149: every variable for which values are given has these values, on its own axes; all others, the names, the order and the global
attributes are those of the file -/
theorem override_correct (nr : List ℚ → ℚ) (junk : List ℕ → α) (d : Data α) (h : IsDataset d.vars) (given : List (Name × NArr α))
    (hf : ∀ p ∈ given, Fits d p.1 p.2) :
    overrideValues nr junk d given = some ⟨d.vars.map (withGiven given), d.atts⟩ := by
  have hone : ∀ p ∈ given, ∃ r, overrideOne d p.1 p.2 = some r ∧ (∀ q ∈ r, q.1 = p.1) ∧
      ∀ x ∈ d.vars, x.name = p.1 → r = some (p.1, ⟨x.name, ⟨x.var.axes, .values p.2⟩⟩) := by
    intro p hp
    by_cases hm : p.1 ∈ d.vars.map Member.name
    · obtain ⟨x, hx, e⟩ := List.mem_map.mp hm
      have h1 := overrideOne_var d h x hx p.2
      rw [if_pos ((hf p hp).1 x hx e), e] at h1
      refine ⟨_, h1, by simp, fun y hy ey => ?_⟩
      have : x = y := List.inj_on_of_nodup_map h.names hx hy (e.trans ey.symm)
      subst this
      rw [e]
    · obtain ⟨r, h1, h2⟩ := overrideOne_axis d h p.1 hm p.2 (hf p hp)
      exact ⟨r, h1, h2, fun x hx e => absurd (List.mem_map.mpr ⟨x, hx, e⟩) hm⟩
  obtain ⟨l, hl, hlook⟩ : ∃ l, given.mapM (fun p => overrideOne d p.1 p.2) = some l ∧
      ∀ x ∈ d.vars, ((l.filterMap id).lookup x.name).getD x = withGiven given x := by
    induction given with
    | nil => exact ⟨[], rfl, fun x _ => rfl⟩
    | cons p given ih =>
      obtain ⟨l, hl, hlook⟩ := ih (fun q hq => hf q (by simp [hq])) (fun q hq => hone q (by simp [hq]))
      obtain ⟨r, hr, hname, hvar⟩ := hone p (by simp)
      refine ⟨r :: l, by rw [List.mapM_cons, hr]; simp [hl], fun x hx => ?_⟩
      by_cases e : x.name = p.1
      · rw [hvar x hx e]
        obtain ⟨n, v⟩ := p
        simp only at e
        subst e
        simp [withGiven]
      · have e' : (x.name == p.1) = false := by simpa using e
        have hw : withGiven (p :: given) x = withGiven given x := by
          obtain ⟨n, v⟩ := p
          simp only [withGiven, List.lookup_cons, e']
        rw [hw, ← hlook x hx]
        cases r with
        | none => rfl
        | some q =>
          have hq : (x.name == q.1) = false := by rw [hname q rfl]; exact e'
          obtain ⟨n, m⟩ := q
          simp only [List.filterMap_cons, id, List.lookup_cons, hq]
  have hmap : d.vars.map (fun x => ((l.filterMap id).lookup x.name).getD x) = d.vars.map (withGiven given) :=
    List.map_congr_left hlook
  have hD : IsDataset (d.vars.map (withGiven given)) := by
    have hax : allAxes (d.vars.map (withGiven given)) = allAxes d.vars := by
      unfold allAxes
      rw [List.flatMap_map]
      rfl
    refine ⟨?_, ?_, ?_⟩
    · rw [List.map_map]
      exact h.names
    · intro x hx
      obtain ⟨y, hy, rfl⟩ := List.mem_map.mp hx
      exact h.blank y hy
    · rw [hax]
      exact h.same
  unfold overrideValues
  rw [hl, Option.bind_some]
  unfold replaceVars
  rw [hmap, make_id nr junk _ d.atts hD]

/-- C149: values of another shape than the variable are refused -/
theorem override_refused (nr : List ℚ → ℚ) (junk : List ℕ → α) (d : Data α) (h : IsDataset d.vars) (given : List (Name × NArr α))
    (x : Member α) (hx : x ∈ d.vars) (values : NArr α) (hg : (x.name, values) ∈ given)
    (hs : values.shape ≠ x.var.axes.map fun a => a.values.length) : overrideValues nr junk d given = none := by
  have h1 : overrideOne d x.name values = none := by rw [overrideOne_var d h x hx, if_neg hs]
  have h2 : given.mapM (fun p => overrideOne d p.1 p.2) = none := by
    induction given with
    | nil => simp at hg
    | cons p given ih =>
      rw [List.mapM_cons]
      rcases List.mem_cons.mp hg with rfl | hg
      · simp [h1]
      · rw [ih hg]
        cases overrideOne d p.1 p.2 <;> rfl
  unfold overrideValues
  rw [h2]
  rfl

/-- C149 fails for the values of an axis that is not a variable of the file (a dimension without coordinates): they are silently ignored -/
theorem override_axis_violated (nr : List ℚ → ℚ) (junk : List ℕ → α) (d : Data α) (h : IsDataset d.vars) (given : List (Name × NArr α))
    (hf : ∀ p ∈ given, Fits d p.1 p.2) (ha : ∀ p ∈ given, p.1 ∉ d.vars.map Member.name) : overrideValues nr junk d given = some d := by
  rw [override_correct nr junk d h given hf]
  have : d.vars.map (withGiven given) = d.vars := by
    conv_rhs => rw [← List.map_id d.vars]
    refine List.map_congr_left fun x hx => ?_
    have hl : given.lookup x.name = none := by
      rw [List.lookup_eq_none_iff]
      intro p hp
      simpa using fun e => ha p hp (List.mem_map.mpr ⟨x, hx, e⟩)
    simp [withGiven, hl]
  rw [this]

/-! ### an example -/

/-- two variables on one axis -/
def fileEx : Data ℕ :=
  ⟨[⟨"T".toList, ⟨[levEx], .values ⟨[2], fun _ => 1⟩⟩⟩, ⟨"U".toList, ⟨[levEx], .values ⟨[2], fun _ => 2⟩⟩⟩], []⟩

theorem fileEx_isDataset : IsDataset fileEx.vars where
  names := by decide
  blank := by decide
  same := by
    intro a ha b hb _
    simp only [allAxes, fileEx, List.flatMap_cons, List.flatMap_nil, List.append_nil, List.mem_append, List.mem_singleton, or_self] at ha hb
    rw [ha, hb]

/-- `U` is given, `T` is kept; `V` is not in the file; `lev` is not a variable -/
example (nr : List ℚ → ℚ) (junk : List ℕ → ℕ) : overrideValues nr junk fileEx
    [("U".toList, ⟨[2], fun _ => 7⟩), ("V".toList, ⟨[5], fun _ => 8⟩), ("lev".toList, ⟨[2], fun _ => 9⟩)] =
      some ⟨[⟨"T".toList, ⟨[levEx], .values ⟨[2], fun _ => 1⟩⟩⟩, ⟨"U".toList, ⟨[levEx], .values ⟨[2], fun _ => 7⟩⟩⟩], []⟩ := by
  rw [override_correct nr junk fileEx fileEx_isDataset]
  · rfl
  · intro p hp
    simp only [List.mem_cons, List.not_mem_nil, or_false] at hp
    rcases hp with rfl | rfl | rfl
    · exact ⟨by simp [fileEx, levEx], by simp [fileEx]⟩
    · exact ⟨by simp [fileEx], by simp [fileEx, allAxes, levEx]⟩
    · exact ⟨by simp [fileEx], by simp [fileEx, allAxes, levEx]⟩

end Override
end PyGeode
