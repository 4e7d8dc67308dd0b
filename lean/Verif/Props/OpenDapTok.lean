/-
Property C129: the tokens of a description.
-/
import Verif.Props.OpenDapXdr
import Verif.Props.Cf

namespace PyGeode
namespace OpenDap
open NArr Cf Spec

/-! ### numbers as texts -/

/-- `str(n)` -/
abbrev num (n : ℕ) : Name := fmtInt 0 (n : ℤ)

theorem num_ne (n : ℕ) : num n ≠ [] := (fmtInt_spec 0 n (by omega)).1
theorem num_digit (n : ℕ) : ∀ c ∈ num n, c.isDigit = true := (fmtInt_spec 0 n (by omega)).2.1
theorem num_value (n : ℕ) : Nat.ofDigitChars 10 (num n) 0 = n := by simpa using (fmtInt_spec 0 n (by omega)).2.2.1

theorem okDigits_digits : ∀ (n : ℕ) (l : Name), l.length ≤ n → l ≠ [] → (∀ c ∈ l, c.isDigit = true) → okDigits l = true
  | 0, l, h, hn, _ => absurd (List.length_eq_zero_iff.mp (by omega)) hn
  | n + 1, [], _, hn, _ => absurd rfl hn
  | n + 1, [c], _, _, hd => by simpa [okDigits] using hd c (by simp)
  | n + 1, c :: d :: l, h, _, hd => by
    have hdd := hd d (by simp)
    have : d ≠ '_' := by rintro rfl; revert hdd; decide
    rw [okDigits, if_neg this, hd c (by simp), Bool.true_and]
    exact okDigits_digits n (d :: l) (by simpa using h) (by simp) fun c hc => hd c (by simp at hc ⊢; tauto)

theorem pyInt_num (n : ℕ) : pyInt (num n) = some (n : ℤ) := by
  have h1 := num_digit n
  have h2 := num_ne n
  have h3 := num_value n
  have hf : (num n).filter Char.isDigit = num n := List.filter_eq_self.mpr h1
  have hok := okDigits_digits _ (num n) le_rfl h2 h1
  generalize num n = l at *
  cases l with
  | nil => exact absurd rfl h2
  | cons c l =>
    have hc := h1 c (by simp)
    have hm : c ≠ '-' := by rintro rfl; revert hc; decide
    have hp : c ≠ '+' := by rintro rfl; revert hc; decide
    rw [pyInt]
    · rw [if_pos hok, hf, h3]
    · intro l h; simp at h; exact hm h.1
    · intro l h; simp at h; exact hp h.1

/-! ### tokens -/

/-- the tokens of a text -/
def Tok (s : Name) (ts : List Name) : Prop := ∀ n, s.length ≤ n → words n s = ts

theorem Tok.nil : Tok [] [] := by
  intro n _
  cases n <;> rfl

/-- a text does not begin with a character of a word -/
def Ends (s : Name) : Prop := ∀ c ∈ s.head?, wordChar c = false

theorem takeWhile_ends (w s : Name) (hw : ∀ c ∈ w, wordChar c = true) (hs : Ends s) :
    (w ++ s).takeWhile wordChar = w ∧ (w ++ s).dropWhile wordChar = s := by
  induction w with
  | nil =>
    cases s with
    | nil => exact ⟨rfl, rfl⟩
    | cons c s => have := hs c (by simp); simp [this]
  | cons c w ih =>
    have := ih fun c hc => hw c (by simp [hc])
    simp [hw c (by simp), this]

theorem Tok.word {s : Name} {ts : List Name} (h : Tok s ts) (w : Name) (hn : w ≠ []) (hw : ∀ c ∈ w, wordChar c = true) (hs : Ends s) :
    Tok (w ++ s) (w :: ts) := by
  cases w with
  | nil => exact absurd rfl hn
  | cons c w =>
    intro n hl
    cases n with
    | zero => simp at hl
    | succ n =>
      have ht := takeWhile_ends w s (fun c hc => hw c (by simp [hc])) hs
      rw [List.cons_append, words, if_pos (hw c (by simp)), ht.1, ht.2, h n (by simp at hl; omega)]

theorem Tok.punct {s : Name} {ts : List Name} (h : Tok s ts) (c : Char) (hw : wordChar c = false) (hc : OpenDap.punct c = true) :
    Tok (c :: s) ([c] :: ts) := by
  intro n hl
  cases n with
  | zero => simp at hl
  | succ n => rw [words, if_neg (by simp [hw]), if_pos hc, h n (by simpa using hl)]

theorem Tok.other {s : Name} {ts : List Name} (h : Tok s ts) (c : Char) (hw : wordChar c = false) (hc : OpenDap.punct c = false) :
    Tok (c :: s) ts := by
  intro n hl
  cases n with
  | zero => simp at hl
  | succ n => rw [words, if_neg (by simp [hw]), if_neg (by simp [hc]), h n (by simpa using hl)]

theorem Tok.blanks {s : Name} {ts : List Name} (h : Tok s ts) (l : Name) (hw : ∀ c ∈ l, wordChar c = false ∧ OpenDap.punct c = false) : Tok (l ++ s) ts := by
  induction l with
  | nil => exact h
  | cons c l ih => exact (ih fun c hc => hw c (by simp [hc])).other c (hw c (by simp)).1 (hw c (by simp)).2

theorem takeWhile_all (p : Char → Bool) (s : Name) : ∀ d ∈ s.takeWhile p, p d = true := by
  induction s with
  | nil => simp
  | cons c s ih =>
    intro d hd
    rw [List.takeWhile_cons] at hd
    split_ifs at hd with h
    · rcases List.mem_cons.mp hd with rfl | hd
      · exact h
      · exact ih d hd
    · simp at hd

theorem takeWhile_self (p : Char → Bool) (s : Name) (h : ∀ d ∈ s, p d = true) : s.takeWhile p = s := by
  induction s with
  | nil => rfl
  | cons c s ih => rw [List.takeWhile_cons, if_pos (h c (by simp)), ih fun d hd => h d (by simp [hd])]

theorem exists_tok (s : Name) : ∃ ts, Tok s ts := by
  suffices ∀ n (s : Name), s.length ≤ n → ∃ ts, Tok s ts from this _ s le_rfl
  intro n
  induction n with
  | zero => intro s h; rw [List.length_eq_zero_iff.mp (Nat.le_zero.mp h)]; exact ⟨_, Tok.nil⟩
  | succ n ih =>
    intro s h
    cases s with
    | nil => exact ⟨_, Tok.nil⟩
    | cons c s =>
      by_cases hw : wordChar c = true
      · obtain ⟨ts, ht⟩ := ih (s.dropWhile wordChar) (by
          have := (List.dropWhile_suffix (l := s) wordChar).length_le
          simp at h; omega)
        have := ht.word (c :: s.takeWhile wordChar) (by simp) (by
          intro d hd
          simp only [List.mem_cons] at hd
          rcases hd with rfl | hd
          · exact hw
          · exact (takeWhile_all wordChar s d hd)) (by
          intro d hd
          have := List.head?_dropWhile_not wordChar s
          cases hh : (s.dropWhile wordChar).head? with
          | none => rw [hh] at hd; cases hd
          | some e =>
            rw [hh] at hd this
            simp only [Option.mem_def, Option.some.injEq] at hd
            subst hd
            simpa using this)
        rw [List.cons_append, List.takeWhile_append_dropWhile] at this
        exact ⟨_, this⟩
      · obtain ⟨ts, ht⟩ := ih s (by simpa using h)
        by_cases hp : OpenDap.punct c = true
        · exact ⟨_, ht.punct c (by simpa using hw) hp⟩
        · exact ⟨_, ht.other c (by simpa using hw) (by simpa using hp)⟩

/-- a text without quotes is split into words and signs -/
theorem tokenize_noQuote (s : Name) (ts : List Name) (hn : s ≠ []) (hq : ∀ c ∈ s, noQuote c = true) (ht : Tok s ts) : tokenize s = some ts := by
  cases s with
  | nil => exact absurd rfl hn
  | cons c cs =>
    have h1 : (c :: cs).takeWhile noQuote = c :: cs := takeWhile_self noQuote _ hq
    have hk : ((quoted '"' none (c :: cs)).or (quoted '\'' none (c :: cs))).getD ((c :: cs).takeWhile noQuote).length = (c :: cs).length := by
      rw [h1]; simp [quoted]
    unfold tokenize
    rw [List.length_cons, strings, hk]
    rw [if_neg (by simp), List.take_length, List.drop_length]
    have : strings (cs.length + 1) ((c :: cs)[(c :: cs).length - 1]?) [] = [[]] := by rw [strings.eq_def]
    rw [this]
    simp only [List.dropLast_cons_cons, List.dropLast_singleton, List.mapM_cons, List.mapM_nil, hq c (by simp), if_true]
    rw [ht _ (by simp)]
    change some ([ts].flatten) = some ts
    simp

end OpenDap
end PyGeode
