/-
C83, C84: axes without coordinates (stations).
-/
import Verif.Model.Station
import Verif.Props.Cf

namespace PyGeode
open Spec Axis Cf

namespace Station
variable {δ : Type}

/-! ### Text -/

/-- a text that is one word -/
def _root_.PyGeode.Spec.IsWord (s : Name) : Prop := s ≠ [] ∧ ∀ c ∈ s, isSpace c = false

theorem words_nil : words [] = [] := by decide +kernel

theorem words_word {s : Name} (h : IsWord s) : words s = [s] := by
  unfold words
  rw [List.splitOnP_eq_singleton h.2, List.filter_cons_of_pos (by simpa using h.1)]
  rfl

theorem words_intercalate (l : List Name) (h : ∀ s ∈ l, IsWord s) : words (List.intercalate [' '] l) = l := by
  induction l with
  | nil => exact words_nil
  | cons s l ih =>
    cases l with
    | nil => rw [show List.intercalate [' '] [s] = s by simp [List.intercalate]]; exact words_word (h s (by simp))
    | cons t l =>
      have h1 : List.intercalate [' '] (s :: t :: l) = s ++ ' ' :: List.intercalate [' '] (t :: l) := by
        simp [List.intercalate]
      have hs := h s (by simp)
      have ih := ih fun x hx => h x (List.mem_cons_of_mem _ hx)
      unfold words at ih ⊢
      rw [h1, List.splitOnP_append_cons_of_forall_mem hs.2 ' ' (by decide), List.filter_cons_of_pos (by simpa using hs.1), ih]

theorem intercalate_length_pos {l : List Name} (h : ∀ s ∈ l, IsWord s) : (List.intercalate [' '] l).length > 0 ↔ l ≠ [] := by
  constructor
  · rintro h1 rfl; simp [List.intercalate] at h1
  · intro hl
    rw [gt_iff_lt, List.length_pos_iff]
    intro h1
    have := words_intercalate l h
    rw [h1, words_nil] at this
    exact hl this.symm

/-! ### Strings -/

theorem foldl_max_le (l : List ℕ) (m : ℕ) : m ≤ l.foldl Max.max m ∧ ∀ x ∈ l, x ≤ l.foldl Max.max m := by
  induction l generalizing m with
  | nil => simp
  | cons y l ih =>
    have := ih (Max.max m y)
    simp only [List.foldl_cons, List.mem_cons, forall_eq_or_imp]
    exact ⟨(le_max_left _ _).trans this.1, (le_max_right _ _).trans this.1, this.2⟩

/-- C83: texts come back from the characters stored, unless there is none with a character; the rows have equal lengths. -/
theorem strings_roundtrip (v : List Name) (hne : ∃ s ∈ v, s ≠ []) (hnul : ∀ s ∈ v, nul ∉ s) :
    ∃ r, encodeStrings v = some r ∧ r.map (fun s => s.filter (· ≠ nul)) = v ∧ ∃ n, ∀ s ∈ r, s.length = n := by
  obtain ⟨s, hs, hs0⟩ := hne
  have hmax := (foldl_max_le (v.map List.length) 0).2
  have hn : (v.map List.length).foldl Max.max 0 ≠ 0 := by
    have := hmax _ (List.mem_map_of_mem hs)
    have := List.length_pos_iff.2 hs0
    omega
  unfold encodeStrings
  refine ⟨_, if_neg hn, ?_, (v.map List.length).foldl Max.max 0, ?_⟩
  · rw [List.map_map]
    refine (List.map_congr_left fun s hs => ?_).trans (List.map_id v)
    simp only [Function.comp, List.filter_append, id]
    rw [List.filter_eq_self.2 fun c hc => by
        rw [decide_eq_true_eq]; rintro rfl; exact hnul s hs hc]
    rw [List.filter_eq_nil_iff.2 fun c hc => by rw [List.eq_of_mem_replicate hc]; simp]
    simp
  · intro s hs
    obtain ⟨t, ht, rfl⟩ := List.mem_map.1 hs
    have := hmax _ (List.mem_map_of_mem ht)
    simp only [List.length_append, List.length_replicate]
    omega

/-- NULs disappear, and arrays of empty strings cannot be stored. -/
theorem strings_nul_violated : (encodeStrings [[nul, 'a'], ['b']]).map (fun r => r.map (fun s => s.filter (· ≠ nul))) = some [['a'], ['b']] ∧
    encodeStrings [[], []] = none := by decide +kernel

/-! ### The round trip -/

/-- the name of the variable an auxiliary array is stored in -/
def _root_.PyGeode.Spec.storedName (p : Name × Arr δ) : Name :=
  match p.2 with
  | .strs _ => p.1 ++ "_name".toList
  | _ => p.1

/-- The auxiliary arrays `aux` of an axis `a` without coordinates in a dataset with variables `vars` (before saving) can be stored:
their names are single words, other than parts of the text "lat lon", and are not those of variables; latitudes and longitudes are
numbers, and texts are proper texts, not all empty; variables have the axis under no other capitalization, and those with the axis have
no attributes `coordinates` and `ancillary_variables` of their own. -/
structure _root_.PyGeode.Spec.StationOk (a : Name) (aux : List (Name × Arr δ)) (vars : List (CVar δ)) : Prop where
  nodup : (aux.map Prod.fst).Nodup
  word : ∀ p ∈ aux, IsWord p.1
  sub : ∀ p ∈ aux, p.1 = "lat".toList ∨ p.1 = "lon".toList ∨ ¬ p.1 <:+: "lat lon".toList
  coord : ∀ p ∈ aux, p.1 = "lat".toList ∨ p.1 = "lon".toList → ∃ v, p.2 = .nums v
  kinds : ∀ p ∈ aux, (∃ v, p.2 = .nums v) ∨ ∃ s, p.2 = .strs s ∧ (∃ x ∈ s, x ≠ []) ∧ ∀ x ∈ s, nul ∉ x
  names : ∀ v ∈ vars, v.name ∉ aux.map Prod.fst
  plain : ∀ v ∈ vars, ∀ r, v.arr ≠ .chars r
  used : ∃ v ∈ vars, a ∈ v.axes
  case : ∀ v ∈ vars, ∀ b ∈ v.axes, lower b = lower a → b = a
  atts : ∀ v ∈ vars, a ∈ v.axes → v.coords = none ∧ v.anc = none
  stored : (vars.map CVar.name ++ aux.map storedName).Nodup

/-- the variable an auxiliary array is read as -/
def mk (a : Name) (p : Name × Arr δ) : CVar δ := { name := p.1, axes := [a], arr := p.2 }

theorem encodeStringVar_ok (a : Name) (p : Name × Arr δ)
    (h : (∃ v, p.2 = .nums v) ∨ ∃ s, p.2 = .strs s ∧ (∃ x ∈ s, x ≠ []) ∧ ∀ x ∈ s, nul ∉ x) :
    ∃ v, encodeStringVar (mk a p) = some v ∧ decodeStringVar v = mk a p ∧ v.name = storedName p := by
  rcases p with ⟨n, arr⟩
  rcases h with ⟨v, hv⟩ | ⟨s, hs, h1, h2⟩
  · subst hv
    exact ⟨_, rfl, rfl, rfl⟩
  · subst hs
    obtain ⟨r, hr, hr2, -⟩ := strings_roundtrip s h1 h2
    refine ⟨{ name := n ++ "_name".toList, axes := [a] ++ [n ++ "_strlen".toList], arr := .chars r }, ?_, ?_, rfl⟩
    · simp only [encodeStringVar, mk]
      rw [hr]; rfl
    · simp only [decodeStringVar, mk]
      rw [if_pos ⟨List.suffix_append _ _, by simp⟩]
      simp only [hr2]
      congr 1
      simp

theorem decode_plain (v : CVar δ) (h : ∀ r, v.arr ≠ .chars r) : decodeStringVar v = v := by
  rcases v with ⟨n, ax, c, an, arr⟩
  cases arr with
  | nums d => rfl
  | strs d => rfl
  | chars r => exact absurd rfl (h r)

theorem mapM_ok (a : Name) (l : List (Name × Arr δ))
    (h : ∀ p ∈ l, (∃ v, p.2 = .nums v) ∨ ∃ s, p.2 = .strs s ∧ (∃ x ∈ s, x ≠ []) ∧ ∀ x ∈ s, nul ∉ x) :
    ∃ o, l.mapM (fun p => encodeStringVar ({ name := p.1, axes := [a], arr := p.2 } : CVar δ)) = some o ∧
      o.map decodeStringVar = l.map (mk a) ∧ o.map CVar.name = l.map storedName := by
  induction l with
  | nil => exact ⟨[], rfl, rfl, rfl⟩
  | cons p l ih =>
    obtain ⟨o, h1, h2, h3⟩ := ih fun q hq => h q (List.mem_cons_of_mem _ hq)
    obtain ⟨v, h4, h5, h6⟩ := encodeStringVar_ok a p (h p (by simp))
    refine ⟨v :: o, ?_, by simp [h2, h5], by simp [h3, h6]⟩
    rw [List.mapM_cons]
    unfold mk at h4
    rw [h4]
    simp only [Option.bind_eq_bind, Option.bind_some]
    rw [h1]; rfl

theorem mem_coordNames {aux : List (Name × Arr δ)} {n : Name} :
    n ∈ coordNames aux ↔ (n = "lat".toList ∨ n = "lon".toList) ∧ n ∈ aux.map Prod.fst := by
  unfold coordNames
  rw [List.mem_filter, decide_eq_true_eq]
  simp

theorem coordNames_infix (aux : List (Name × Arr δ)) : List.intercalate [' '] (coordNames aux) <:+: "lat lon".toList := by
  unfold coordNames
  by_cases h1 : "lat".toList ∈ aux.map Prod.fst <;> by_cases h2 : "lon".toList ∈ aux.map Prod.fst
  · rw [List.filter_cons_of_pos (by simpa using h1), List.filter_cons_of_pos (by simpa using h2)]; rw [List.filter_nil]; decide
  · rw [List.filter_cons_of_pos (by simpa using h1), List.filter_cons_of_neg (by simpa using h2)]; rw [List.filter_nil]; decide
  · rw [List.filter_cons_of_neg (by simpa using h1), List.filter_cons_of_pos (by simpa using h2)]; rw [List.filter_nil]; decide
  · rw [List.filter_cons_of_neg (by simpa using h1), List.filter_cons_of_neg (by simpa using h2)]; rw [List.filter_nil]; decide

theorem infix_intercalate {n : Name} {l : List Name} (h : n ∈ l) : n <:+: List.intercalate [' '] l := by
  induction l with
  | nil => simp at h
  | cons s l ih =>
    cases l with
    | nil =>
      rw [show List.intercalate [' '] [s] = s by simp [List.intercalate], List.mem_singleton.1 h]
    | cons t l =>
      have h1 : List.intercalate [' '] (s :: t :: l) = s ++ (' ' :: List.intercalate [' '] (t :: l)) := by
        simp [List.intercalate]
      rw [h1]
      rcases List.mem_cons.1 h with rfl | h
      · exact (List.prefix_append _ _).isInfix
      · exact (ih h).trans (((List.suffix_cons _ _).trans (List.suffix_append _ _)).isInfix)

theorem mem_ancillary {a : Name} {aux : List (Name × Arr δ)} {vars : List (CVar δ)} (h : StationOk a aux vars) {p : Name × Arr δ} :
    p ∈ ancillary aux ↔ p ∈ aux ∧ p.1 ∉ coordNames aux := by
  unfold ancillary
  rw [List.mem_filter, Bool.not_eq_true', decide_eq_false_iff_not]
  refine and_congr_right fun hp => not_congr ⟨fun hi => ?_, infix_intercalate⟩
  have h1 := hi.trans (coordNames_infix aux)
  rcases h.sub p hp with h2 | h2 | h2
  · exact mem_coordNames.2 ⟨.inl h2, List.mem_map_of_mem hp⟩
  · exact mem_coordNames.2 ⟨.inr h2, List.mem_map_of_mem hp⟩
  · exact absurd h1 h2

/-- the auxiliary arrays in the order in which they are stored -/
def order (aux : List (Name × Arr δ)) : List (Name × Arr δ) :=
  ((coordNames aux).flatMap fun n => aux.filter fun p => decide (p.1 = n)) ++ ancillary aux

theorem order_perm {a : Name} {aux : List (Name × Arr δ)} {vars : List (CVar δ)} (h : StationOk a aux vars) : (order aux).Perm aux := by
  have hnd : aux.Nodup := h.nodup.of_map
  refine (List.perm_ext_iff_of_nodup ?_ hnd).2 fun p => ?_
  · unfold order
    refine List.Nodup.append ?_ (hnd.filter _) ?_
    · rw [List.nodup_flatMap]
      refine ⟨fun n _ => hnd.filter _, ?_⟩
      have : (coordNames aux).Nodup := List.Nodup.filter _ (by decide)
      refine this.imp fun {m n} hmn => ?_
      intro q hq1 hq2
      have e1 : q.1 = m := by simpa using (List.mem_filter.1 hq1).2
      have e2 : q.1 = n := by simpa using (List.mem_filter.1 hq2).2
      exact hmn (e1.symm.trans e2)
    · intro p hp1 hp2
      obtain ⟨n, hn, hp⟩ := List.mem_flatMap.1 hp1
      have e1 : p.1 = n := by simpa using (List.mem_filter.1 hp).2
      exact ((mem_ancillary h).1 hp2).2 (e1 ▸ hn)
  · unfold order
    rw [List.mem_append, mem_ancillary h, List.mem_flatMap]
    constructor
    · rintro (⟨n, _, hp⟩ | hp)
      · exact (List.mem_filter.1 hp).1
      · exact hp.1
    · intro hp
      by_cases hc : p.1 ∈ coordNames aux
      · exact .inl ⟨p.1, hc, List.mem_filter.2 ⟨hp, by simp⟩⟩
      · exact .inr ⟨hp, hc⟩

theorem lookup_iff {κ ν : Type} [BEq κ] [LawfulBEq κ] {l : List (κ × ν)} (hn : (l.map Prod.fst).Nodup) {k : κ} {v : ν} :
    l.lookup k = some v ↔ (k, v) ∈ l := by
  induction l with
  | nil => simp
  | cons p l ih =>
    rw [List.map_cons, List.nodup_cons] at hn
    rw [List.lookup_cons]
    rcases Classical.em (k = p.1) with hk | hk
    · subst hk
      simp only [beq_self_eq_true, List.mem_cons]
      constructor
      · intro h; left; rw [Option.some.injEq] at h; rw [← h]
      · rintro (h | h)
        · rw [← h]
        · exact absurd (List.mem_map_of_mem (f := Prod.fst) h) hn.1
    · rw [beq_false_of_ne hk]
      simp only [List.mem_cons]
      rw [ih hn.2]
      constructor
      · exact .inr
      · rintro (h | h)
        · exact absurd (by rw [← h]) hk
        · exact h

theorem lookup_perm {κ ν : Type} [BEq κ] [LawfulBEq κ] {l m : List (κ × ν)} (hn : (m.map Prod.fst).Nodup) (hp : l.Perm m) (k : κ) :
    l.lookup k = m.lookup k := by
  have hl : (l.map Prod.fst).Nodup := (hp.map Prod.fst).nodup_iff.2 hn
  refine Option.ext fun v => ?_
  rw [lookup_iff hl, lookup_iff hn, hp.mem_iff]

/-- C83: the auxiliary arrays of an axis without coordinates come back under their names with their contents, and all variables
with their names, axes and contents, in their order; and the variables stored all have different names. -/
theorem station_roundtrip_partial (a : Name) (aux : List (Name × Arr δ)) (vars : List (CVar δ)) (h : StationOk a aux vars) :
    ∃ enc, encode a aux vars = some enc ∧ (enc.map CVar.name).Nodup ∧
      (∀ n, (decode a enc).1.lookup n = aux.lookup n) ∧
      (decode a enc).2.map (fun v => (v.name, v.axes, v.arr)) = vars.map (fun v => (v.name, v.axes, v.arr)) := by
  obtain ⟨o, ho1, ho2, ho3⟩ := mapM_ok a (ancillary aux) fun p hp => h.kinds p ((mem_ancillary h).1 hp).1
  set coordinates := List.intercalate [' '] (coordNames aux) with hco
  set anc := List.intercalate [' '] ((ancillary aux).map Prod.fst) with han
  set vars1 := vars.map (mark a coordinates anc) with hv1
  set C := (coordNames aux).flatMap fun n => (aux.filter fun p => decide (p.1 = n)).map fun p => ({ name := n, axes := [a], arr := p.2 } : CVar δ) with hC
  have hCeq : C = ((coordNames aux).flatMap fun n => aux.filter fun p => decide (p.1 = n)).map (mk a) := by
    rw [hC, List.map_flatMap]
    refine List.flatMap_congr fun n _ => List.map_congr_left fun p hp => ?_
    have e1 : p.1 = n := by simpa using (List.mem_filter.1 hp).2
    rw [mk, e1]
  have hwc : ∀ s ∈ coordNames aux, IsWord s := by
    intro s hs
    obtain ⟨p, hp, rfl⟩ := List.mem_map.1 (mem_coordNames.1 hs).2
    exact h.word p hp
  have hwa : ∀ s ∈ (ancillary aux).map Prod.fst, IsWord s := by
    intro s hs
    obtain ⟨p, hp, rfl⟩ := List.mem_map.1 hs
    exact h.word p ((mem_ancillary h).1 hp).1
  have hsame : vars1.map (fun v => (v.name, v.axes, v.arr)) = vars.map (fun v => (v.name, v.axes, v.arr)) := by
    rw [hv1, List.map_map]
    refine List.map_congr_left fun v _ => ?_
    simp only [Function.comp, mark]
    split <;> rfl
  have hnames : vars1.map CVar.name = vars.map CVar.name := by
    have := congrArg (List.map fun t : Name × List Name × Arr δ => t.1) hsame
    simpa [List.map_map, Function.comp_def] using this
  have henc : encode a aux vars = some (vars1 ++ C ++ o) := by
    unfold encode
    simp only
    rw [ho1]
    rfl
  -- the variables as decode sees them
  have hdec : (vars1 ++ C ++ o).map decodeStringVar = vars1 ++ (order aux).map (mk a) := by
    rw [List.map_append, List.map_append, ho2, hCeq, order, List.map_append, List.append_assoc]
    congr 1
    · refine (List.map_congr_left fun v hv => ?_).trans (List.map_id vars1)
      obtain ⟨w, hw, rfl⟩ := List.mem_map.1 hv
      refine decode_plain _ fun r hr => h.plain w hw r ?_
      rw [← hr]
      unfold mark
      split <;> rfl
    · congr 1
      rw [List.map_map]
      refine List.map_congr_left fun p hp => ?_
      obtain ⟨n, hn, hp⟩ := List.mem_flatMap.1 hp
      have e1 : p.1 = n := by simpa using (List.mem_filter.1 hp).2
      obtain ⟨v, hv⟩ := h.coord p (List.mem_filter.1 hp).1 (e1 ▸ (mem_coordNames.1 hn).1)
      simp only [Function.comp, mk, hv, decodeStringVar]
  have hhas : ∀ v ∈ vars1, hasaxis v a = decide (a ∈ v.axes) := by
    intro v hv
    obtain ⟨w, hw, hwv⟩ := List.mem_map.1 hv
    have hax : v.axes = w.axes := by rw [← hwv]; unfold mark; split <;> rfl
    unfold hasaxis
    rw [hax, Bool.eq_iff_iff, List.any_eq_true, decide_eq_true_eq]
    constructor
    · rintro ⟨b, hb, hl⟩
      rw [decide_eq_true_eq] at hl
      rw [← h.case w hw b hb hl]; exact hb
    · intro ha; exact ⟨a, ha, by simp⟩
  have hmk : ∀ p : Name × Arr δ, hasaxis (mk a p) a = true := by intro p; simp [hasaxis, mk]
  have hord := order_perm h
  have hmem : ∀ n, n ∈ (order aux).map Prod.fst ↔ n ∈ aux.map Prod.fst := fun n => (hord.map Prod.fst).mem_iff
  have hnotin : ∀ v ∈ vars1, v.name ∉ aux.map Prod.fst := by
    intro v hv
    have : v.name ∈ vars.map CVar.name := by rw [← hnames]; exact List.mem_map_of_mem hv
    obtain ⟨w, hw, e⟩ := List.mem_map.1 this
    rw [← e]
    exact h.names w hw
  set L := vars1 ++ (order aux).map (mk a) with hL
  set deps := (L.filter fun v => hasaxis v a).flatMap fun v => words (v.coords.getD []) ++ words (v.anc.getD []) with hdeps
  have hdeps_mem : ∀ n, n ∈ aux.map Prod.fst → n ∈ deps := by
    intro n hn
    obtain ⟨w, hw, haw⟩ := h.used
    have hat := h.atts w hw haw
    refine List.mem_flatMap.2 ⟨mark a coordinates anc w, ?_, ?_⟩
    · have hm : mark a coordinates anc w ∈ vars1 := List.mem_map_of_mem hw
      refine List.mem_filter.2 ⟨List.mem_append_left _ hm, ?_⟩
      rw [hhas _ hm, decide_eq_true_eq]
      unfold mark
      rw [if_pos haw]
      exact haw
    · unfold mark
      rw [if_pos haw, List.mem_append]
      by_cases hc : n ∈ coordNames aux
      · left
        have hpos : coordinates.length > 0 := (intercalate_length_pos hwc).2 (List.ne_nil_of_mem hc)
        simp only [if_pos hpos, Option.getD_some]
        rw [hco, words_intercalate _ hwc]
        exact hc
      · right
        obtain ⟨p, hp, rfl⟩ := List.mem_map.1 hn
        have hpa : p.1 ∈ (ancillary aux).map Prod.fst := List.mem_map_of_mem ((mem_ancillary h).2 ⟨hp, hc⟩)
        have hpos : anc.length > 0 := (intercalate_length_pos hwa).2 (List.ne_nil_of_mem hpa)
        simp only [if_pos hpos, Option.getD_some]
        rw [han, words_intercalate _ hwa]
        exact hpa
  have hdeps_sub : ∀ n ∈ deps, n ∈ aux.map Prod.fst := by
    intro n hn
    obtain ⟨v, hv, hn⟩ := List.mem_flatMap.1 hn
    obtain ⟨hv, hav⟩ := List.mem_filter.1 hv
    rcases List.mem_append.1 hv with hv | hv
    · rw [hhas v hv, decide_eq_true_eq] at hav
      obtain ⟨w, hw, rfl⟩ := List.mem_map.1 hv
      have haw : a ∈ w.axes := by
        unfold mark at hav
        split at hav <;> exact hav
      have hat := h.atts w hw haw
      unfold mark at hn
      rw [if_pos haw, hat.1, hat.2] at hn
      simp only at hn
      rcases List.mem_append.1 hn with hn | hn
      · split at hn
        · rw [Option.getD_some, hco, words_intercalate _ hwc] at hn
          exact (mem_coordNames.1 hn).2
        · rw [Option.getD_none, words_nil] at hn; simp at hn
      · split at hn
        · rw [Option.getD_some, han, words_intercalate _ hwa] at hn
          obtain ⟨p, hp, rfl⟩ := List.mem_map.1 hn
          exact List.mem_map_of_mem ((mem_ancillary h).1 hp).1
        · rw [Option.getD_none, words_nil] at hn; simp at hn
    · obtain ⟨p, hp, rfl⟩ := List.mem_map.1 hv
      simp [mk, words_nil] at hn
  have hdependencies : (L.filter fun v => decide (v.name ∈ deps) && decide (v.axes.length = 1) && hasaxis v a) = (order aux).map (mk a) := by
    rw [hL, List.filter_append, List.filter_eq_nil_iff.2, List.filter_eq_self.2, List.nil_append]
    · intro v hv
      obtain ⟨p, hp, rfl⟩ := List.mem_map.1 hv
      rw [hmk p]
      simp only [Bool.and_true, Bool.and_eq_true, decide_eq_true_eq]
      exact ⟨hdeps_mem _ ((hmem _).1 (List.mem_map_of_mem hp)), rfl⟩
    · intro v hv hh
      simp only [Bool.and_eq_true, decide_eq_true_eq] at hh
      exact hnotin v hv (hdeps_sub _ hh.1.1)
  have haux : ((order aux).map (mk a)).map (fun v => (v.name, v.arr)) = order aux := by
    rw [List.map_map]
    exact (List.map_congr_left fun p _ => rfl).trans (List.map_id _)
  have hdecode : decode a (vars1 ++ C ++ o) = (order aux, vars1) := by
    unfold decode
    simp only
    rw [hdec, ← hdeps, hdependencies, haux]
    congr 1
    rw [hL, List.filter_append, List.filter_eq_self.2, List.filter_eq_nil_iff.2, List.append_nil]
    · intro v hv
      obtain ⟨p, hp, rfl⟩ := List.mem_map.1 hv
      simp only [decide_eq_true_eq, not_not]
      exact List.mem_map_of_mem hp
    · intro v hv
      rw [decide_eq_true_eq, hmem]
      exact hnotin v hv
  refine ⟨_, henc, ?_, ?_, ?_⟩
  · have : ((vars1 ++ C ++ o).map CVar.name).Perm (vars.map CVar.name ++ aux.map storedName) := by
      rw [List.map_append, List.map_append, hnames, ho3, List.append_assoc]
      refine List.Perm.append_left _ ?_
      refine List.Perm.trans ?_ (hord.map storedName)
      rw [order, List.map_append, hCeq, List.map_map]
      refine List.Perm.append_right _ (List.Perm.of_eq (List.map_congr_left fun p hp => ?_))
      obtain ⟨n, hn, hp⟩ := List.mem_flatMap.1 hp
      have e1 : p.1 = n := by simpa using (List.mem_filter.1 hp).2
      obtain ⟨v, hv⟩ := h.coord p (List.mem_filter.1 hp).1 (e1 ▸ (mem_coordNames.1 hn).1)
      simp [mk, storedName, hv]
    exact this.nodup_iff.2 h.stored
  · intro n
    rw [hdecode]
    exact lookup_perm h.nodup hord n
  · rw [hdecode]
    exact hsame

/-! ### An example: stations with positions, names and heights -/

def auxEx : List (Name × Arr ℕ) :=
  [("station".toList, .strs ["Oslo".toList, [], "Ulm".toList]), ("lat".toList, .nums 1), ("height".toList, .nums 2), ("lon".toList, .nums 3)]

def varsEx : List (CVar ℕ) :=
  [{ name := "ozone".toList, axes := ["time".toList, "station".toList], arr := .nums 10 }, { name := "co2".toList, axes := ["time".toList], arr := .nums 11 }]

theorem stationEx_ok : StationOk "station".toList auxEx varsEx where
  nodup := by decide +kernel
  word := by unfold IsWord; decide +kernel
  sub := by decide +kernel
  coord := by
    intro p hp h
    have : ∀ p ∈ auxEx, p.1 = "lat".toList ∨ p.1 = "lon".toList → p.2 = .nums 1 ∨ p.2 = .nums 3 := by decide +kernel
    rcases this p hp h with h | h
    · exact ⟨1, h⟩
    · exact ⟨3, h⟩
  kinds := by
    intro p hp
    have : ∀ p ∈ auxEx, p.2 = .nums 1 ∨ p.2 = .nums 2 ∨ p.2 = .nums 3 ∨ p.2 = .strs ["Oslo".toList, [], "Ulm".toList] := by decide +kernel
    rcases this p hp with h | h | h | h
    · exact .inl ⟨1, h⟩
    · exact .inl ⟨2, h⟩
    · exact .inl ⟨3, h⟩
    · exact .inr ⟨_, h, ⟨_, List.mem_cons_self, by decide⟩, by decide +kernel⟩
  names := by decide +kernel
  plain := by
    intro v hv r hr
    have : ∀ v ∈ varsEx, v.arr = .nums 10 ∨ v.arr = .nums 11 := by decide +kernel
    rcases this v hv with h | h <;> rw [h] at hr <;> exact absurd hr (by simp)
  used := ⟨_, List.mem_cons_self, by decide +kernel⟩
  case := by decide +kernel
  atts := by decide +kernel
  stored := by decide +kernel

/-- the names of the auxiliary arrays and of the variables that come back -/
def backEx (a : Name) (aux : List (Name × Arr ℕ)) (vars : List (CVar ℕ)) : Option (List String × List String) :=
  (encode a aux vars).map fun e => ((decode a e).1.map fun p => String.ofList p.1, (decode a e).2.map fun v => String.ofList v.name)

example : backEx "station".toList auxEx varsEx = some (["lat", "lon", "station", "height"], ["ozone", "co2"]) := by decide +kernel

/-- The test whether a name is a coordinate looks for it in the text "lat lon": an array `lo` beside longitudes is lost altogether. -/
theorem station_substring_violated : backEx "station".toList [("lon".toList, .nums 1), ("lo".toList, .nums 2)] varsEx =
    some (["lon"], ["ozone", "co2"]) := by decide +kernel

/-- A variable with two such axes keeps the attributes of the last only: the arrays of the first stay variables. -/
theorem station_two_violated :
    ((encode "s".toList [("p".toList, .nums 1)] [({ name := "x".toList, axes := ["s".toList, "t".toList], arr := .nums 9 } : CVar ℕ)]).bind
      (encode "t".toList [("q".toList, .nums 2)])).map (fun e =>
        ((decode "s".toList e).1.map (fun p => String.ofList p.1), (decode "t".toList e).1.map (fun p => String.ofList p.1))) =
      some ([], ["q"]) := by decide +kernel

/-- The positions are stored as variables `lat` and `lon`, also where the dataset has variables of these names. -/
theorem station_clash_violated :
    (encode "s".toList [("lat".toList, .nums 1)] [({ name := "lat".toList, axes := ["s".toList, "t".toList], arr := .nums 9 } : CVar ℕ)]).map
      (fun e => e.map fun v => String.ofList v.name) = some ["lat", "lat"] := by decide +kernel

/-! ### C84: matching and lookup -/

variable {κ : Type} [DecidableEq κ]

theorem listEq_iff {l m : List (Option κ)} : listEq l m = true ↔ l = m ∧ none ∉ l := by
  induction l generalizing m with
  | nil => cases m <;> simp [listEq]
  | cons x l ih =>
    cases m with
    | nil => simp [listEq]
    | cons y m =>
      rw [listEq, Bool.and_eq_true, ih]
      cases x <;> cases y <;> simp [valEq, eq_comm, and_assoc]

/-- C84: two axes without coordinates are equal exactly if they are of the same class and have the same auxiliary arrays, in any
order and without NaN. -/
theorem eq_iff (s t : NAxis κ) (hs : (s.aux.map Prod.fst).Nodup) (ht : (t.aux.map Prod.fst).Nodup) :
    eq s t = true ↔ s.cls = t.cls ∧ s.aux.Perm t.aux ∧ ∀ p ∈ s.aux, none ∉ p.2 := by
  unfold eq
  simp only [Bool.and_eq_true, decide_eq_true_eq, List.all_eq_true, listEq_iff]
  constructor
  · rintro ⟨⟨⟨h1, h2⟩, h3⟩, h4⟩
    refine ⟨h1, ?_, fun p hp => (h4 p hp).2⟩
    refine (List.perm_ext_iff_of_nodup hs.of_map ht.of_map).2 fun p => ⟨fun hp => ?_, fun hp => ?_⟩
    · obtain ⟨q, hq, e⟩ := List.mem_map.1 (h2 p.1 (List.mem_map_of_mem hp))
      have e2 := (h4 p hp).1
      rw [show t.aux.lookup p.1 = some q.2 from (lookup_iff ht).2 (by rw [← e]; exact hq)] at e2
      rw [show p = q from Prod.ext e.symm e2]
      exact hq
    · obtain ⟨q, hq, e⟩ := List.mem_map.1 (h3 p.1 (List.mem_map_of_mem hp))
      have e2 := (h4 q hq).1
      rw [show t.aux.lookup q.1 = some p.2 from (lookup_iff ht).2 (by rw [e]; exact hp)] at e2
      rw [show p = q from Prod.ext e.symm e2.symm]
      exact hq
  · rintro ⟨h1, h2, h3⟩
    refine ⟨⟨⟨h1, fun k hk => (h2.map Prod.fst).mem_iff.1 hk⟩, fun k hk => (h2.map Prod.fst).mem_iff.2 hk⟩, fun p hp => ⟨?_, h3 p hp⟩⟩
    rw [show t.aux.lookup p.1 = some p.2 from (lookup_iff ht).2 (h2.mem_iff.1 hp)]
    rfl

/-- An axis with NaN among its auxiliary values is not equal to itself. -/
theorem eq_nan_violated : eq (κ := ℕ) ⟨"Station".toList, [("height".toList, [some 1, none])]⟩ ⟨"Station".toList, [("height".toList, [some 1, none])]⟩ = false := by
  decide +kernel

/-- entry `i` of an axis under the names `keys` -/
def _root_.PyGeode.Spec.entry (s : NAxis κ) (keys : List Name) (i : ℕ) : List (Option κ) :=
  keys.map fun k => ((s.aux.lookup k).getD []).getD i none

/-- all arrays have the length of the axis -/
def _root_.PyGeode.Spec.HasLen (s : NAxis κ) (n : ℕ) : Prop := ∀ p ∈ s.aux, p.2.length = n

theorem entries_eq (s : NAxis κ) (keys : List Name) (n : ℕ) (hn : HasLen s n) (hs : (s.aux.map Prod.fst).Nodup) (hne : keys ≠ [])
    (hk : ∀ k ∈ keys, k ∈ s.aux.map Prod.fst) : entries s keys = (List.range n).map (entry s keys) := by
  unfold entries
  have : ((keys.map fun k => (s.aux.lookup k).getD []).map List.length) = keys.map fun _ => n := by
    rw [List.map_map]
    refine List.map_congr_left fun k hk' => ?_
    obtain ⟨p, hp, rfl⟩ := List.mem_map.1 (hk k hk')
    rw [Function.comp_apply, show s.aux.lookup p.1 = some p.2 from (lookup_iff hs).2 hp]
    exact hn p hp
  simp only [this]
  have hmin : (keys.map fun _ => n).min? = some n := by
    rw [List.min?_eq_some_iff]
    obtain ⟨k, hk⟩ := List.exists_mem_of_ne_nil _ hne
    exact ⟨List.mem_map.2 ⟨k, hk, rfl⟩, fun x hx => by obtain ⟨_, _, rfl⟩ := List.mem_map.1 hx; exact le_refl _⟩
  rw [hmin]
  refine List.map_congr_left fun i _ => ?_
  rw [List.map_map]
  rfl

/-- C84: mapping one axis without coordinates to another of the same class gives, for every entry of the other that this axis also
has, in the order of the other, the first position here whose values under all common names are the same; entries this axis does not
have are left out. Axes without NaN. -/
theorem mapTo_correct_partial (s t : NAxis κ) (n m : ℕ) (hn : HasLen s n) (hm : HasLen t m) (hs : (s.aux.map Prod.fst).Nodup)
    (ht : (t.aux.map Prod.fst).Nodup) (hcls : s.cls = t.cls) (hnan : ∀ p ∈ s.aux, none ∉ p.2) (keys : List Name)
    (hkeys : keys = (s.aux.map Prod.fst).filter fun k => decide (k ∈ t.aux.map Prod.fst)) (hne : keys ≠ []) :
    ∃ ind, mapTo s t = some ind ∧
      List.Forall₂ (fun i j => i < n ∧ entry s keys i = entry t keys j ∧ ∀ i' < i, entry s keys i' ≠ entry t keys j) ind
        ((List.range m).filter fun j => decide (∃ i < n, entry s keys i = entry t keys j)) := by
  have hks : ∀ k ∈ keys, k ∈ s.aux.map Prod.fst := fun k hk => (List.mem_filter.1 (hkeys ▸ hk)).1
  have hkt : ∀ k ∈ keys, k ∈ t.aux.map Prod.fst := fun k hk => by
    rw [hkeys] at hk
    have := (List.mem_filter.1 hk).2
    rwa [decide_eq_true_eq] at this
  have hfree : ∀ i < n, none ∉ entry s keys i := by
    intro i hi hmem
    obtain ⟨k, hk, e⟩ := List.mem_map.1 hmem
    obtain ⟨p, hp, rfl⟩ := List.mem_map.1 (hks k hk)
    rw [show s.aux.lookup p.1 = some p.2 from (lookup_iff hs).2 hp, Option.getD_some, List.getD_eq_getElem _ _ (by rw [hn p hp]; exact hi)] at e
    exact hnan p hp (e ▸ List.getElem_mem _)
  unfold mapTo
  rw [if_neg (by simpa using hcls)]
  simp only
  rw [← hkeys, if_neg hne, entries_eq s keys n hn hs hne hks, entries_eq t keys m hm ht hne hkt]
  refine ⟨_, rfl, ?_⟩
  rw [List.filterMap_map]
  induction List.range m with
  | nil => exact .nil
  | cons j l ih =>
    cases hf : ((List.range n).map (entry s keys)).findIdx? fun u => listEq u (entry t keys j) with
    | none =>
      rw [List.filterMap_cons_none (by rw [Function.comp_apply]; exact hf), List.filter_cons_of_neg]
      · exact ih
      · rw [decide_eq_true_eq]
        rintro ⟨i, hi, e⟩
        have := List.findIdx?_eq_none_iff.1 hf (entry s keys i) (List.mem_map.2 ⟨i, List.mem_range.2 hi, rfl⟩)
        rw [e] at this
        have h2 : listEq (entry t keys j) (entry t keys j) = true := listEq_iff.2 ⟨rfl, e ▸ hfree i hi⟩
        rw [h2] at this
        exact absurd this (by simp)
    | some i =>
      obtain ⟨h1, h2, h3⟩ := List.findIdx?_eq_some_iff_getElem.1 hf
      rw [List.length_map, List.length_range] at h1
      rw [List.getElem_map, List.getElem_range] at h2
      have e := (listEq_iff.1 h2).1
      rw [List.filterMap_cons_some (b := i) (by rw [Function.comp_apply]; exact hf), List.filter_cons_of_pos]
      · refine .cons ⟨h1, e, fun i' hi' e' => ?_⟩ ih
        have := h3 i' hi'
        rw [List.getElem_map, List.getElem_range] at this
        exact this (listEq_iff.2 ⟨e', hfree i' (by omega)⟩)
      · rw [decide_eq_true_eq]; exact ⟨i, h1, e⟩

def stEx (names : List String) (lats : List ℕ) : NAxis String :=
  ⟨"Station".toList, [("station".toList, names.map fun s => some s), ("lat".toList, lats.map fun n => some (toString n))]⟩

/-- The hypotheses are met by lists of stations. -/
example := mapTo_correct_partial (stEx ["a", "b", "c"] [1, 2, 3]) (stEx ["c", "x", "a"] [3, 3, 1]) 3 3 (by unfold HasLen; decide +kernel) (by unfold HasLen; decide +kernel)
  (by decide +kernel) (by decide +kernel) rfl (by decide +kernel) _ rfl (by decide +kernel)

example : mapTo (stEx ["a", "b", "c"] [1, 2, 3]) (stEx ["c", "x", "a"] [3, 3, 1]) = some [2, 0] := by decide +kernel

/-- C84: a name in the list of names stands for the first position that has it, which is shown as that name; other names stand for
no position. -/
theorem strAsVal_correct (values : List Name) (s : Name) :
    (s ∈ values → formatvalue values (strAsVal values s) = some s ∧ ∀ i : ℕ, values[i]? = some s → strAsVal values s ≤ i) ∧
    (s ∉ values → strAsVal values s = -1 ∧ formatvalue values (strAsVal values s) = none) := by
  unfold strAsVal
  cases hf : values.findIdx? fun v => decide (v = s) with
  | none =>
    have := List.findIdx?_eq_none_iff.1 hf
    refine ⟨fun hs => absurd (this s hs) (by simp), fun _ => ⟨rfl, ?_⟩⟩
    simp [formatvalue]
  | some i =>
    obtain ⟨h1, h2, h3⟩ := List.findIdx?_eq_some_iff_getElem.1 hf
    rw [decide_eq_true_eq] at h2
    refine ⟨fun _ => ⟨?_, fun j hj => ?_⟩, fun hs => absurd (h2 ▸ List.getElem_mem h1) hs⟩
    · show formatvalue values (i : ℤ) = some s
      unfold formatvalue
      rw [if_pos ⟨by omega, by exact_mod_cast h1⟩]
      simp [h1, h2]
    · by_contra hlt
      have hji : j < i := by
        simp only at hlt
        omega
      obtain ⟨hj1, hj2⟩ := List.getElem?_eq_some_iff.1 hj
      exact h3 j hji (by simpa using hj2)

/-- The names of an axis, selected and shown again. -/
example : strAsVal ["Oslo".toList, "Ulm".toList] "Ulm".toList = 1 := by decide +kernel

end Station
end PyGeode
