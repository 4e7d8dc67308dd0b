/-
Property C140: seasonal time axes, and means over seasons.
-/
import Verif.Spec.Seasonal
import Verif.Props.TimeInit
import Verif.Props.ClimVar
import Verif.Props.ClimRemake

namespace PyGeode
namespace Seasonal
open Spec Calendar NArr Axis Combine VarOps TimeInit
variable {α β : Type}

/-! ### dates -/

theorem season_of {c : Cal} {d : Date} (h : SeasonDate c d) : getSeasons c (fullDate d) = some (seasonAt d) := by
  obtain ⟨hv, rfl | ⟨rfl, h'⟩⟩ := h
  · exact season_noleap d hv
  · exact season_standard_partial d hv h'

/-- the seasons are numbered 1 to 4 -/
def Numbered (ys : ℤ × ℤ) : Prop := 1 ≤ ys.2 ∧ ys.2 ≤ 4

theorem four {ys : ℤ × ℤ} (h : Numbered ys) : ys = (ys.1, 1) ∨ ys = (ys.1, 2) ∨ ys = (ys.1, 3) ∨ ys = (ys.1, 4) := by
  obtain ⟨y, s⟩ := ys
  obtain ⟨h1, h2⟩ := h
  simp only [Prod.mk.injEq, true_and]
  simp only at h1 h2
  omega

theorem central_eq {ys : ℤ × ℤ} (h : Numbered ys) : centralDate (some ys.1) ys.2 = fullDate (middle ys) := by
  rcases four h with e | e | e | e <;> (rw [e]; simp [centralDate, fullDate, middle])

theorem middle_ok {c : Cal} (hc : c = .noleap ∨ c = .standard) {ys : ℤ × ℤ} (h : Numbered ys) : SeasonDate c (middle ys) := by
  have key : ∀ y s : ℤ, s = 1 ∨ s = 2 ∨ s = 3 ∨ s = 4 → SeasonDate c (middle (y, s)) := by
    intro y s hs
    refine ⟨⟨?_, ?_, ?_, ?_, ?_⟩, ?_⟩
    · simp only [middle]; omega
    · simp only [middle]
      rcases hc with rfl | rfl <;> rcases hs with rfl | rfl | rfl | rfl <;> norm_num [monthLength]
    · simp [middle]
    · simp [middle]
    · simp [middle]
    · rcases hc with rfl | rfl
      · exact Or.inl rfl
      · refine Or.inr ⟨rfl, ?_⟩
        rcases hs with rfl | rfl | rfl | rfl <;> simp [middle]
  obtain ⟨y, s⟩ := ys
  obtain ⟨h1, h2⟩ := h
  exact key y s (by simp only at h1 h2; omega)

theorem season_middle {ys : ℤ × ℤ} (h : Numbered ys) : seasonAt (middle ys) = ys := by
  rcases four h with e | e | e | e <;> (rw [e]; simp [seasonAt, middle, seasonOf])

theorem seasonAt_numbered (d : Date) : Numbered (seasonAt d) := by
  unfold seasonAt seasonOf Numbered
  split_ifs <;> simp

theorem middle_earlier {a b : ℤ × ℤ} (h : SeasonLt a b) : Earlier (middle a) (middle b) := by
  rcases h with h | ⟨h1, h2⟩
  · exact Or.inl h
  · refine Or.inr ⟨h1, Or.inl ?_⟩
    simp only [middle]; omega

/-! ### the axes -/

/-- the value of a season -/
def valOf (c : Cal) (u : Units) (start : Date) (ys : ℤ × ℤ) : ℚ :=
  (((Calendar.count c).abs (middle ys) - (Calendar.count c).abs start : ℤ) : ℚ) / ticks u

theorem dateAsVal_eq {c : Cal} (hc : c = .noleap ∨ c = .standard) {s : DateDict} (hs : ValidDate c (instant s)) (u : Units) {years : Bool} {ys : ℤ × ℤ}
    (h : Numbered ys) (hy : years = false → ys.1 = 0) : dateAsVal c s years u ys = some (valOf c u (instant s) ys) := by
  have e : centralDate (if years then some ys.1 else none) ys.2 = fullDate (middle ys) := by
    rw [← central_eq h]
    cases years with
    | true => rfl
    | false => rw [hy rfl]; rfl
  rw [dateAsVal, e]
  exact val_eq u hs (middle_ok hc h).1

theorem finish_eq {c : Cal} (hc : c = .noleap ∨ c = .standard) {s : DateDict} (hs : ValidDate c (instant s)) (u : Units) {years : Bool} {S : List (ℤ × ℤ)}
    (h : ∀ ys ∈ S, Numbered ys) (hy : years = false → ∀ ys ∈ S, ys.1 = 0) :
    Seasonal.finish c u s years S = some ⟨c, u, s, years, S, S.map (valOf c u (instant s))⟩ := by
  rw [Seasonal.finish]
  have : S.mapM (dateAsVal c s years u) = some (S.map (valOf c u (instant s))) := by
    rw [mapM_forall, List.forall₂_map_right_iff, List.forall₂_same]
    exact fun ys hys => dateAsVal_eq hc hs u (h ys hys) fun e => hy e ys hys
  rw [this]
  rfl

theorem values_elapsed {c : Cal} (hc : c = .noleap ∨ c = .standard) {s : Date} (hs : ValidDate c s) (u : Units) {S : List (ℤ × ℤ)}
    (h : ∀ ys ∈ S, Numbered ys) :
    List.Forall₂ (fun ys v => ∃ n : ℤ, v = n / ticks u ∧ Elapsed c s (middle ys) n) S (S.map (valOf c u s)) := by
  rw [List.forall₂_map_right_iff, List.forall₂_same]
  exact fun ys hys => ⟨_, rfl, (elapsed_iff hs (middle_ok hc (h ys hys)).1 _).2 rfl⟩

/-- C140: an axis made from seasons, with a start date, has these seasons; its values are the times from the start date to the middle of each season; and
the dates made from the values are these seasons again. -/
theorem from_seasons (c : Cal) (hc : c = .noleap ∨ c = .standard) (u : Units) (s : DateDict) (years : Bool) (S : List (ℤ × ℤ))
    (hs : ValidDate c (startOf s years)) (h : ∀ ys ∈ S, 1 ≤ ys.2 ∧ ys.2 ≤ 4) (hy : years = false → ∀ ys ∈ S, ys.1 = 0) :
    ∃ a, ofFields c u (some s) years S = some a ∧ a.dates = S ∧ asDates a = some S ∧
      List.Forall₂ (fun ys v => ∃ n : ℤ, v = n / ticks u ∧ Elapsed c (startOf s years) (middle ys) n) S a.values := by
  set s' : DateDict := if years then allFields.dict (fill s) else { allFields.dict (fill s) with year := none } with hs'
  have e : instant s' = startOf s years := by cases years <;> rfl
  have hv : ValidDate c (instant s') := by rw [e]; exact hs
  refine ⟨⟨c, u, s', years, S, S.map (valOf c u (instant s'))⟩, ?_, rfl, ?_, ?_⟩
  · exact finish_eq hc hv u h hy
  · rw [asDates, mapM_forall, List.forall₂_map_left_iff, List.forall₂_same]
    intro ys hys
    have hm := middle_ok hc (h ys hys)
    have hr : npRound (valOf c u (instant s') ys * unitfactor u) = (Calendar.count c).abs (middle ys) - (Calendar.count c).abs (instant s') := by
      rw [valOf, unit_ticks, div_mul_cancel₀ _ (ne_of_gt (ticks_pos u)), npRound_int]
    obtain ⟨d, h1, h2, h3⟩ := valAsDate_spec c (instant s') hv.month (npRound (valOf c u (instant s') ys * unitfactor u))
    have hd : d = middle ys := (count_ok c).abs_inj h2 hm.1 (by rw [h3, hr]; omega)
    subst hd
    simp only [Seasonal.valAsDate, valAsDatePy]
    rw [getDates_eq, h1, Option.map_some, Option.bind_some]
    cases years with
    | true =>
      have : keepFields s' false (middle ys) = fullDate (middle ys) := rfl
      rw [this, season_of hm, season_middle (h ys hys)]
      rfl
    | false =>
      have hy0 := hy rfl ys hys
      have : getSeasons c (keepFields s' false (middle ys)) = getSeasons c (fullDate (middle ys)) := by
        have e2 : (getDates (keepFields s' false (middle ys))).year = (getDates (fullDate (middle ys))).year := hy0.symm
        unfold getSeasons
        rw [e2]
        rfl
      rw [this, season_of hm, season_middle (h ys hys)]
      obtain ⟨y, sn⟩ := ys
      simp only at hy0
      subst hy0
      rfl
  · rw [← e]
    exact values_elapsed hc hv u h

theorem ofValues_eq {c : Cal} {u : Units} {s : DateDict} {vals : List ℚ} {dates : List Date} (hs : ValidDate c (startOf s true))
    (hc : c = .noleap ∨ c = .standard)
    (h : List.Forall₂ (fun x d => SeasonDate c d ∧ ∃ n : ℤ, x = n / ticks u ∧ Elapsed c (startOf s true) d n) vals dates) :
    ofValues c u s vals = some ⟨c, u, fullDate (startOf s true), true, dates.map seasonAt, (dates.map seasonAt).map (valOf c u (startOf s true))⟩ := by
  have e : instant (allFields.dict (fill s)) = startOf s true := rfl
  have hv : ValidDate c (instant (allFields.dict (fill s))) := by rw [e]; exact hs
  have hm : (vals.mapM fun x => Seasonal.valAsDate c (allFields.dict (fill s)) x u) = some (dates.map seasonAt) := by
    rw [mapM_forall, List.forall₂_map_right_iff]
    refine h.imp ?_
    rintro x d ⟨hd, n, rfl, hn⟩
    rw [elapsed_iff hs hd.1] at hn
    obtain ⟨d', h1, h2, h3⟩ := val_date (s := fill s) hv u ((n : ℚ) / ticks u)
    rw [div_mul_cancel₀ _ (ne_of_gt (ticks_pos u)), npRound_int] at h3
    have : d' = d := (count_ok c).abs_inj h2 hd.1 (by
      have e3 : (Calendar.count c).abs (fill s) = (Calendar.count c).abs (startOf s true) := rfl
      rw [e3] at h3; omega)
    subst this
    rw [Seasonal.valAsDate, h1, Option.bind_some, season_of hd]
    rfl
  have hN : ∀ ys ∈ dates.map seasonAt, Numbered ys := by
    intro ys hys
    obtain ⟨d, _, rfl⟩ := List.mem_map.1 hys
    exact seasonAt_numbered d
  rw [ofValues, hm, Option.bind_some]
  exact finish_eq hc hv u hN (by simp)

/-- C140: an axis made from values has the seasons of the months of their dates (see `SeasonDate` for the dates this does not cover), and each value is
replaced by that of the middle of the season. -/
theorem from_values_partial (c : Cal) (u : Units) (s : DateDict) (vals : List ℚ) (dates : List Date) (hs : ValidDate c (startOf s true))
    (hc : c = .noleap ∨ c = .standard)
    (h : List.Forall₂ (fun x d => SeasonDate c d ∧ ∃ n : ℤ, x = n / ticks u ∧ Elapsed c (startOf s true) d n) vals dates) :
    ∃ a, ofValues c u s vals = some a ∧ a.cal = c ∧ a.units = u ∧ a.start = fullDate (startOf s true) ∧ a.dates = dates.map seasonAt ∧
      List.Forall₂ (fun ys v => ∃ n : ℤ, v = n / ticks u ∧ Elapsed c (startOf s true) (middle ys) n) a.dates a.values := by
  refine ⟨_, ofValues_eq hs hc h, rfl, rfl, rfl, rfl, values_elapsed hc hs u ?_⟩
  intro ys hys
  obtain ⟨d, _, rfl⟩ := List.mem_map.1 hys
  exact seasonAt_numbered d

/-- C140 fails without a start date: every time of such an axis is then taken for winter. -/
theorem no_start_violated : ∃ a, ofFields .standard .days none true [(2000, 1), (2000, 3), (2001, 2)] = some a ∧
    asDates a = some [(2000, 1), (2000, 1), (2001, 1)] := by
  refine ⟨⟨.standard, .days, { year := some 2000 }, true, [(2000, 1), (2000, 3), (2001, 2)], [15, 197, 470]⟩, ?_, ?_⟩ <;> decide +kernel

example : ofFields .noleap .days (some { year := some 2000 }) true [(2000, 1), (2000, 3), (2001, 2)] =
    some ⟨.noleap, .days, fullDate ⟨2000, 1, 1, 0, 0, 0⟩, true, [(2000, 1), (2000, 3), (2001, 2)], [15, 196, 469]⟩ := by decide +kernel
example : ValidDate .noleap (startOf { year := some 2000 } true) := by decide +kernel
example : ofValues .noleap .days { year := some 2000 } [0, 40, 60, 340] =
    some ⟨.noleap, .days, fullDate ⟨2000, 1, 1, 0, 0, 0⟩, true, [(2000, 1), (2000, 1), (2000, 2), (2001, 1)], [15, 15, 104, 380]⟩ := by decide +kernel

end Seasonal
end PyGeode
