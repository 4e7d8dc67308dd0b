/-
Property C130: texts of attributes.
-/
import Verif.Props.OpenDapParse

namespace PyGeode
namespace OpenDap
open NArr Cf Spec

/-! ### characters after a backslash -/

/-- the character that stands for another after a backslash -/
def code (c : Char) : Char := if c = '\n' then 'n' else if c = '\t' then 't' else c

/-- the text of one character if those of `S` and backslashes are escaped -/
def enc (S : List Char) (c : Char) : Name := if c = '\\' then ['\\', '\\'] else if c ∈ S then ['\\', code c] else [c]

theorem escape_eq (s : Name) : escape s = s.flatMap (enc special) := by
  unfold escape replace
  simp only [List.flatMap_assoc]
  apply List.flatMap_congr
  intro c _
  unfold enc
  by_cases h1 : c = '\\'
  · subst h1; decide
  by_cases h2 : c = '\n'
  · subst h2; decide
  by_cases h3 : c = '"'
  · subst h3; decide
  by_cases h4 : c = '\''
  · subst h4; decide
  by_cases h5 : c = '\t'
  · subst h5; decide
  simp [special, h1, h2, h3, h4, h5]

theorem subEscape_plain (q r : Char) (p : Option Char) (c : Char) (hc : c ≠ '\\') (s : Name) : subEscape q r p (c :: s) = c :: subEscape q r (some c) s := by
  rw [subEscape]
  intro d t h
  exact fun _ => hc h

theorem subEscape_back (q r : Char) (p : Option Char) (d : Char) (s : Name)
    (h : ¬ (d = q ∧ (p.map fun p => decide (p ≠ '\\')).getD false = true)) :
    subEscape q r p ('\\' :: d :: s) = '\\' :: subEscape q r (some '\\') (d :: s) := by
  rw [subEscape, if_neg h]

/-- one pass decodes one of the characters -/
theorem subEscape_pass (S : List Char) (r : Char) (hr : r ∈ special) (hS : ∀ c ∈ S, c ∈ special) (hn : r ∉ S) :
    ∀ (v : Name) (p : Char), Steady (p :: v) →
      subEscape (code r) r (some p) (v.flatMap (enc (r :: S)) ++ ['"']) = v.flatMap (enc S) ++ ['"'] := by
  have hspec : ∀ c ∈ special, code c ≠ '\\' ∧ c ≠ '\\' := by decide
  have hinj : ∀ c ∈ special, ∀ d ∈ special, code c = code d → c = d := by decide
  intro v
  induction v with
  | nil => intro p _; rfl
  | cons c v ih =>
    intro p hp
    have hv : Steady (c :: v) := (List.isChain_cons_cons.mp hp).2
    have hpc : p = '\\' → c ∉ special := (List.isChain_cons_cons.mp hp).1
    rw [List.flatMap_cons, List.flatMap_cons, List.append_assoc, List.append_assoc]
    by_cases h1 : c = '\\'
    · subst h1
      have e : ∀ S, enc S '\\' = ['\\', '\\'] := fun S => rfl
      rw [e, e]
      simp only [List.cons_append, List.nil_append]
      rw [subEscape_back _ _ _ _ _ (by rintro ⟨h, -⟩; exact (hspec r hr).1 h.symm)]
      have hne : v.flatMap (enc (r :: S)) ++ ['"'] ≠ [] := by simp
      have := ih '\\' hv
      cases hx : v.flatMap (enc (r :: S)) ++ ['"'] with
      | nil => exact absurd hx hne
      | cons d s =>
        rw [hx] at this
        rw [subEscape_back _ _ _ _ _ (by rintro ⟨-, h⟩; simp at h), this]
    · by_cases h2 : c ∈ r :: S
      · have hcs : c ∈ special := by rcases List.mem_cons.mp h2 with rfl | h; exacts [hr, hS c h]
        have hp' : p ≠ '\\' := fun h => hpc h hcs
        have e : enc (r :: S) c = ['\\', code c] := by rw [enc, if_neg h1, if_pos h2]
        have hsteady : Steady (code c :: v) := by
          cases v with
          | nil => exact List.isChain_singleton _
          | cons d v => exact List.isChain_cons_cons.mpr ⟨fun h => absurd h (hspec c hcs).1, (List.isChain_cons_cons.mp hv).2⟩
        rw [e]
        simp only [List.cons_append, List.nil_append]
        by_cases h3 : c = r
        · subst h3
          have e' : enc S c = [c] := by rw [enc, if_neg h1, if_neg hn]
          rw [subEscape, if_pos ⟨rfl, by simp [hp']⟩, ih _ hsteady, e']
          rfl
        · have h4 : c ∈ S := by rcases List.mem_cons.mp h2 with h | h; exacts [absurd h h3, h]
          have e' : enc S c = ['\\', code c] := by rw [enc, if_neg h1, if_pos h4]
          rw [subEscape_back _ _ _ _ _ (by rintro ⟨h, -⟩; exact h3 (hinj c hcs r hr h)), subEscape_plain _ _ _ _ (hspec c hcs).1,
            ih _ hsteady, e']
          rfl
      · have e : enc (r :: S) c = [c] := by rw [enc, if_neg h1, if_neg h2]
        have e' : enc S c = [c] := by rw [enc, if_neg h1, if_neg (fun h => h2 (by simp [h]))]
        rw [e, e']
        simp only [List.cons_append, List.nil_append]
        rw [subEscape_plain _ _ _ _ h1, ih c hv]

theorem subBackslash_last : ∀ v : Name, subBackslash (v.flatMap (enc []) ++ ['"']) = v ++ ['"']
  | [] => rfl
  | c :: v => by
    have ih := subBackslash_last v
    rw [List.flatMap_cons, List.append_assoc]
    by_cases h1 : c = '\\'
    · subst h1
      have e : enc [] '\\' = ['\\', '\\'] := rfl
      rw [e]
      simp only [List.cons_append, List.nil_append]
      rw [subBackslash, ih]
    · have e : enc [] c = [c] := by rw [enc, if_neg h1, if_neg (by simp)]
      rw [e]
      simp only [List.cons_append, List.nil_append]
      rw [subBackslash, ih]
      intro s h; exact fun _ => h1 h

/-- **C130**: a text without a backslash before a quote, newline or tab is decoded as it was -/
theorem unescape_escape (v : Name) (hv : Steady v) : unescape ('"' :: escape v ++ ['"']) = v := by
  have h0 : Steady ('"' :: v) := by
    cases v with
    | nil => exact List.isChain_singleton _
    | cons d v => exact List.isChain_cons_cons.mpr ⟨fun h => absurd h (by decide), hv⟩
  have h1 := subEscape_pass ['\t', '"', '\''] '\n' (by decide) (by decide) (by decide) v '"' h0
  have h2 := subEscape_pass ['"', '\''] '\t' (by decide) (by decide) (by decide) v '"' h0
  have h3 := subEscape_pass ['\''] '"' (by decide) (by decide) (by decide) v '"' h0
  have h4 := subEscape_pass [] '\'' (by decide) (by decide) (by decide) v '"' h0
  have c1 : code '\n' = 'n' := by decide
  have c2 : code '\t' = 't' := by decide
  have c3 : code '"' = '"' := by decide
  have c4 : code '\'' = '\'' := by decide
  rw [c1] at h1; rw [c2] at h2; rw [c3] at h3; rw [c4] at h4
  have hp : ∀ (q r : Char) (s : Name), subEscape q r none ('"' :: s) = '"' :: subEscape q r (some '"') s :=
    fun q r s => subEscape_plain q r none '"' (by decide) s
  have hb : ∀ s : Name, subBackslash ('"' :: s) = '"' :: subBackslash s := by
    intro s
    rw [subBackslash]
    intro t h; simp at h
  unfold unescape
  rw [escape_eq, List.cons_append, hp, show special = '\n' :: ['\t', '"', '\''] from rfl, h1, hp, h2, hp, h3, hp, h4, hb, subBackslash_last]
  simp

/-! ### the pattern of quoted texts -/

theorem quotedRest_stop (s : Name) (hs : s.head? ≠ some '"') : quotedRest '"' ('"' :: s) = none := by
  cases s with
  | nil => rfl
  | cons d s =>
    have : d ≠ '"' := by simpa using hs
    rw [quotedRest]
    simp [this]

theorem quotedRest_text : ∀ (n : ℕ) (w : Name), w.length ≤ n → ∀ (s : Name), s.head? ≠ some '"' → w ≠ [] → w.head? ≠ some '"' →
    w.getLast? ≠ some '\\' → w.IsChain (fun a b => b = '"' → a = '\\') → quotedRest '"' (w ++ '"' :: s) = some (w.length + 1)
  | 0, w, hl, _, _, hn, _, _, _ => absurd (List.length_eq_zero_iff.mp (by omega)) hn
  | n + 1, [], _, _, _, hn, _, _, _ => absurd rfl hn
  | n + 1, [c], _, s, hs, _, hh, hlast, _ => by
    have h1 : c ≠ '"' := by simpa using hh
    have h2 : c ≠ '\\' := by simpa using hlast
    have h3 := quotedRest_stop s hs
    rw [List.singleton_append, quotedRest]
    simp [h1, h2, h3]
  | n + 1, c :: d :: w, hl, s, hs, _, hh, hlast, hch => by
    have h1 : c ≠ '"' := by simpa using hh
    obtain ⟨hcd, hch'⟩ := List.isChain_cons_cons.mp hch
    have hlast' : (d :: w).getLast? ≠ some '\\' := by rwa [List.getLast?_cons_cons] at hlast
    simp only [List.length_cons] at hl
    by_cases h2 : d = '"'
    · have h3 := hcd h2
      subst h2 h3
      simp only [List.cons_append]
      rw [quotedRest]
      cases w with
      | nil =>
        rw [List.nil_append, quotedRest_stop s hs, quotedRest]
        simp
      | cons e w =>
        have he : e ≠ '"' := fun h => absurd ((List.isChain_cons_cons.mp hch').1 h) (by decide)
        have := quotedRest_text n (e :: w) (by simp only [List.length_cons] at hl ⊢; omega) s hs (by simp) (by simpa using he)
          (by rwa [List.getLast?_cons_cons] at hlast') (List.isChain_cons_cons.mp hch').2
        rw [this]
        simp
    · have := quotedRest_text n (d :: w) (by simp only [List.length_cons]; omega) s hs (by simp) (by simpa using h2) hlast' hch'
      simp only [List.cons_append] at this ⊢
      rw [quotedRest]
      simp [h1, h2, this]

theorem enc_chain (S : List Char) (hq : '"' ∈ S) : ∀ v : Name, (v.flatMap (enc S)).IsChain (fun a b => b = '"' → a = '\\') ∧
    (v.flatMap (enc S)).head? ≠ some '"' := by
  intro v
  induction v with
  | nil => exact ⟨List.isChain_nil, by simp⟩
  | cons c v ih =>
    rw [List.flatMap_cons]
    have hcons : ∀ x : Char, (x :: v.flatMap (enc S)).IsChain (fun a b => b = '"' → a = '\\') := by
      intro x
      cases hx : v.flatMap (enc S) with
      | nil => exact List.isChain_singleton _
      | cons y l =>
        rw [hx] at ih
        exact List.isChain_cons_cons.mpr ⟨fun h => absurd (by simp [h]) ih.2, ih.1⟩
    by_cases h1 : c = '\\'
    · subst h1
      have e : enc S '\\' = ['\\', '\\'] := rfl
      rw [e]
      exact ⟨List.isChain_cons_cons.mpr ⟨fun _ => rfl, hcons _⟩, by simp⟩
    · by_cases h2 : c ∈ S
      · have e : enc S c = ['\\', code c] := by rw [enc, if_neg h1, if_pos h2]
        rw [e]
        exact ⟨List.isChain_cons_cons.mpr ⟨fun _ => rfl, hcons _⟩, by simp⟩
      · have e : enc S c = [c] := by rw [enc, if_neg h1, if_neg h2]
        rw [e]
        refine ⟨hcons c, ?_⟩
        simp only [List.cons_append, List.nil_append, List.head?_cons]
        rintro h
        simp only [Option.some.injEq] at h
        subst h
        exact h2 hq

theorem enc_ne (S : List Char) (c : Char) : enc S c ≠ [] := by unfold enc; split_ifs <;> simp

theorem escape_last (v : Name) (hn : v ≠ []) (hl : v.getLast? ≠ some '\\') : escape v ≠ [] ∧ (escape v).getLast? ≠ some '\\' := by
  have hspec : ∀ c ∈ special, code c ≠ '\\' ∧ c ≠ '\\' := by decide
  rw [escape_eq]
  obtain ⟨l, c, rfl⟩ : ∃ l c, v = l ++ [c] := ⟨v.dropLast, v.getLast hn, (List.dropLast_append_getLast hn).symm⟩
  have hc : c ≠ '\\' := by simpa using hl
  rw [List.flatMap_append, List.flatMap_cons, List.flatMap_nil, List.append_nil]
  constructor
  · simp [enc_ne]
  · rw [enc, if_neg hc]
    split_ifs with h
    · have := (hspec c h).1
      simp [List.getLast?_append, this]
    · simp [List.getLast?_append, hc]

/-- a quoted text is one piece -/
theorem quoted_text (v : Name) (hv : Quotable v) (s : Name) (hs : s.head? ≠ some '"') :
    quoted '"' (some ' ') ('"' :: (escape v ++ '"' :: s)) = some ((escape v).length + 2) := by
  have h := escape_last v hv.1 hv.2.1
  have hc := enc_chain special (by decide) v
  rw [← escape_eq] at hc
  have := quotedRest_text _ (escape v) le_rfl s hs h.1 hc.2 h.2 hc.1
  rw [quoted, if_pos ⟨by decide, rfl⟩, this]
  rfl

end OpenDap
end PyGeode
