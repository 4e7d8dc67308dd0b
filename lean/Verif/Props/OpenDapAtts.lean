/-
Property C130: attributes.
-/
import Verif.Props.OpenDapEscape

namespace PyGeode
namespace OpenDap
open NArr Cf Spec

/-! ### tokens of texts with quotes -/

/-- the tokens of one piece, as in `tokenize` -/
def pieceTokens : Name → Option (List Name)
  | [] => none
  | c :: cs => if noQuote c then some (words (cs.length + 2) (c :: cs)) else some [c :: cs]

/-- the tokens of a text after the character `prev` -/
def lex (n : ℕ) (prev : Option Char) (s : Name) : Option (List Name) := ((strings n prev s).dropLast.mapM pieceTokens).map List.flatten

theorem tokenize_eq (s : Name) : tokenize s = lex (s.length + 1) none s := by
  unfold tokenize lex
  congr 2

/-- a text that is complete: its tokens do not depend on what follows -/
def Pre (u : Name) (tu : List Name) : Prop := (∀ c ∈ u, noQuote c = true) ∧ ∀ s ts, Tok s ts → Tok (u ++ s) (tu ++ ts)

theorem Pre.append {u w : Name} {tu tw : List Name} (h : Pre u tu) (k : Pre w tw) : Pre (u ++ w) (tu ++ tw) := by
  refine ⟨?_, ?_⟩
  · intro c hc; rcases List.mem_append.mp hc with hc | hc; exacts [h.1 c hc, k.1 c hc]
  · intro s ts ht
    rw [List.append_assoc, List.append_assoc]
    exact h.2 _ _ (k.2 s ts ht)

theorem Pre.nil : Pre [] [] := ⟨by simp, fun _ _ h => h⟩

theorem Pre.tok {u : Name} {tu : List Name} (h : Pre u tu) : Tok u tu := by simpa using h.2 _ _ Tok.nil

theorem Pre.sign (c : Char) (hw : wordChar c = false) (hc : punct c = true) : Pre [c] [[c]] := by
  refine ⟨?_, fun s ts h => h.punct c hw hc⟩
  intro d hd
  rw [List.mem_singleton] at hd
  subst hd
  unfold punct at hc
  rw [decide_eq_true_iff] at hc
  revert hc
  have : ∀ c ∈ [';', ':', '{', '}', '[', ']', '='], noQuote c = true := by decide
  exact this d

theorem Pre.other (c : Char) (hq : noQuote c = true) (hw : wordChar c = false) (hc : punct c = false) : Pre [c] [] :=
  ⟨by simpa using hq, fun s ts h => h.other c hw hc⟩

/-- a word and a character after it -/
theorem Pre.word (w : Name) (hn : w ≠ []) (hw : ∀ c ∈ w, wordChar c = true) (c : Char) (hc : wordChar c = false) (tc : List Name)
    (h : Pre [c] tc) : Pre (w ++ [c]) (w :: tc) := by
  refine ⟨?_, ?_⟩
  · intro d hd
    rcases List.mem_append.mp hd with hd | hd
    · exact noQuote_of_word (hw d hd)
    · exact h.1 d hd
  · intro s ts ht
    rw [List.append_assoc]
    exact (h.2 s ts ht).word w hn hw (ends_cons hc)

/-- the tokens of a text that may have quotes, after a text without -/
def LexC (s : Name) (ts : List Name) : Prop :=
  ∀ u tu, u ≠ [] → Pre u tu → ∀ n prev, (u ++ s).length < n → lex n prev (u ++ s) = some (tu ++ ts)

theorem strings_unquoted (n : ℕ) (prev : Option Char) (u s : Name) (hn : u ≠ []) (hu : ∀ c ∈ u, noQuote c = true)
    (hs : ∀ c ∈ s.head?, noQuote c = false) : strings (n + 1) prev (u ++ s) = u :: strings n u.getLast? s := by
  cases u with
  | nil => exact absurd rfl hn
  | cons c u =>
    have hc := hu c (by simp)
    have h1 : c ≠ '"' ∧ c ≠ '\'' := by simpa [noQuote] using hc
    have ht : (c :: (u ++ s)).takeWhile noQuote = c :: u := by
      have : ∀ w : Name, (∀ c ∈ w, noQuote c = true) → (w ++ s).takeWhile noQuote = w := by
        intro w hw
        induction w with
        | nil =>
          cases s with
          | nil => rfl
          | cons d s => simp [hs d (by simp)]
        | cons d w ih => rw [List.cons_append, List.takeWhile_cons, if_pos (hw d (by simp)), ih fun c hc => hw c (by simp [hc])]
      exact this (c :: u) hu
    have hk : ((quoted '"' prev (c :: (u ++ s))).or (quoted '\'' prev (c :: (u ++ s)))).getD ((c :: (u ++ s)).takeWhile noQuote).length = u.length + 1 := by
      rw [ht]; simp [quoted, h1.1, h1.2]
    rw [List.cons_append, strings, hk, if_neg (by omega)]
    have e1 : (c :: (u ++ s)).take (u.length + 1) = c :: u := by simp
    have e2 : (c :: (u ++ s)).drop (u.length + 1) = s := by simp
    have e3 : (c :: (u ++ s))[u.length + 1 - 1]? = (c :: u).getLast? := by
      rw [List.getLast?_eq_getElem?, Nat.add_sub_cancel, ← List.cons_append, List.getElem?_append_left (by simp)]
      rfl
    rw [e1, e2, e3]

theorem strings_ne (n : ℕ) (prev : Option Char) (s : Name) (hn : s.length < n) : strings n prev s ≠ [] := by
  cases n with
  | zero => simp at hn
  | succ n =>
    cases s with
    | nil => rw [strings.eq_def]; simp
    | cons c s =>
      rw [strings]
      split_ifs <;> simp

theorem lex_piece (n m : ℕ) (prev prev' : Option Char) (s s' w : Name) (h : strings n prev s = w :: strings m prev' s') (hm : s'.length < m)
    (tw ts : List Name) (hw : pieceTokens w = some tw) (hr : lex m prev' s' = some ts) : lex n prev s = some (tw ++ ts) := by
  unfold lex at hr ⊢
  rw [h, List.dropLast_cons_of_ne_nil (strings_ne m prev' s' hm), List.mapM_cons, hw]
  cases hx : (strings m prev' s').dropLast.mapM pieceTokens with
  | none => rw [hx] at hr; cases hr
  | some l =>
    rw [hx] at hr
    simp only [Option.map_some, Option.some.injEq] at hr
    subst hr
    rfl

theorem pieceTokens_unquoted (u : Name) (tu : List Name) (hn : u ≠ []) (hu : Pre u tu) : pieceTokens u = some tu := by
  cases u with
  | nil => exact absurd rfl hn
  | cons c u =>
    rw [pieceTokens, if_pos (hu.1 c (by simp)), hu.tok _ (by simp)]

theorem LexC.nil : LexC [] [] := by
  intro u tu hn hu n prev hl
  obtain ⟨n, rfl⟩ : ∃ m, n = m + 1 := ⟨n - 1, by omega⟩
  have hlen : 0 < n := by
    have := List.length_pos_of_ne_nil hn
    simp at hl; omega
  refine lex_piece (n + 1) n prev u.getLast? (u ++ []) [] u (strings_unquoted n prev u [] hn hu.1 (by simp)) (by simpa using hlen) tu []
    (pieceTokens_unquoted u tu hn hu) ?_
  unfold lex
  have : strings n u.getLast? [] = [[]] := by
    obtain ⟨m, rfl⟩ : ∃ m, n = m + 1 := ⟨n - 1, by omega⟩
    rw [strings.eq_def]
  rw [this]
  rfl

theorem LexC.pre {s : Name} {ts : List Name} (h : LexC s ts) {w : Name} {tw : List Name} (hw : Pre w tw) : LexC (w ++ s) (tw ++ ts) := by
  intro u tu hn hu n prev hl
  rw [← List.append_assoc, ← List.append_assoc]
  exact h (u ++ w) (tu ++ tw) (by simp [hn]) (hu.append hw) n prev (by rwa [List.append_assoc])

/-- a quoted text between a blank and a semicolon -/
theorem LexC.text {s : Name} {ts : List Name} (h : LexC s ts) (v : Name) (hv : Quotable v) (w : Name) (tw : List Name) (hb : Pre (w ++ [' ']) tw) :
    LexC (w ++ ' ' :: '"' :: (escape v ++ '"' :: ';' :: s)) (tw ++ ('"' :: escape v ++ ['"']) :: [';'] :: ts) := by
  intro u tu hn hu n prev hl
  have hu' := hu.append hb
  rw [← List.append_assoc] at hl hu' ⊢
  rw [← List.append_assoc]
  generalize u ++ w = u at hl hu' ⊢
  generalize tu ++ tw = tu at hu' ⊢
  have e : u ++ ' ' :: '"' :: (escape v ++ '"' :: ';' :: s) = (u ++ [' ']) ++ '"' :: (escape v ++ '"' :: ';' :: s) := by simp
  simp only [List.length_append, List.length_cons] at hl
  obtain ⟨n, rfl⟩ : ∃ m, n = m + 2 := ⟨n - 2, by omega⟩
  have h1 := strings_unquoted (n + 1) prev (u ++ [' ']) ('"' :: (escape v ++ '"' :: ';' :: s)) (by simp) hu'.1 (by simp [noQuote])
  rw [List.getLast?_concat] at h1
  have h2 : strings (n + 1) (some ' ') ('"' :: (escape v ++ '"' :: ';' :: s)) =
      ('"' :: escape v ++ ['"']) :: strings n (some '"') (';' :: s) := by
    have hq := quoted_text v hv (';' :: s) (by simp)
    have hk : ((quoted '"' (some ' ') ('"' :: (escape v ++ '"' :: ';' :: s))).or (quoted '\'' (some ' ') ('"' :: (escape v ++ '"' :: ';' :: s)))).getD
        (('"' :: (escape v ++ '"' :: ';' :: s)).takeWhile noQuote).length = (escape v).length + 2 := by rw [hq]; rfl
    rw [strings, hk, if_neg (by omega)]
    have e1 : ('"' :: (escape v ++ '"' :: ';' :: s)).take ((escape v).length + 2) = '"' :: escape v ++ ['"'] := by
      rw [List.take_succ_cons, List.take_append]; simp
    have e2 : ('"' :: (escape v ++ '"' :: ';' :: s)).drop ((escape v).length + 2) = ';' :: s := by
      rw [List.drop_succ_cons, List.drop_append]; simp
    have e3 : ('"' :: (escape v ++ '"' :: ';' :: s))[(escape v).length + 2 - 1]? = some '"' := by
      rw [show (escape v).length + 2 - 1 = (escape v).length + 1 by omega, List.getElem?_cons_succ, List.getElem?_append_right le_rfl]
      simp
    rw [e1, e2, e3]
  have h3 := h [';'] [[';']] (by simp) (Pre.sign ';' (by decide) (by decide)) n (some '"') (by
    simp only [List.length_append, List.length_singleton]; omega)
  have h4 := lex_piece (n + 1) n (some ' ') (some '"') _ _ _ h2 (by simp only [List.length_cons]; omega) [('"' :: escape v ++ ['"'])] _
    (by rw [List.cons_append, pieceTokens, if_neg (by decide)]) h3
  rw [e]
  have := lex_piece (n + 2) (n + 1) prev (some ' ') _ _ _ h1 (by simp only [List.length_cons, List.length_append]; omega) tu _
    (pieceTokens_unquoted _ tu (by simp) hu') h4
  simpa using this

/-! ### tokens of attributes -/

/-- a text that is one word -/
def Word (w : Name) : Prop := w ≠ [] ∧ ∀ c ∈ w, wordChar c = true

theorem fmtInt_word (z : ℤ) : Word (fmtInt 0 z) := by
  have hd : ∀ n, ∀ c ∈ Nat.toDigits 10 n, c.isDigit = true := fun n c hc => by
    have := num_digit n c
    simp only [num, fmtInt] at this
    simp at this
    exact this hc
  unfold fmtInt
  split_ifs with h
  · refine ⟨by simp [Nat.toDigits_ne_nil], ?_⟩
    intro c hc
    simp only [Nat.zero_sub, List.replicate_zero, List.nil_append] at hc
    exact wordChar_of_digit (hd _ c hc)
  · refine ⟨by simp, ?_⟩
    intro c hc
    simp only [Nat.zero_sub, List.replicate_zero, List.nil_append, List.mem_cons] at hc
    rcases hc with rfl | hc
    · decide
    · exact wordChar_of_digit (hd _ c hc)

theorem pyInt_fmtInt (z : ℤ) : pyInt (fmtInt 0 z) = some z := by
  rcases Int.le_total 0 z with h | h
  · have := pyInt_num z.toNat
    unfold num at this
    rwa [Int.toNat_of_nonneg h] at this
  · rcases eq_or_ne z 0 with rfl | h0
    · rfl
    · have hn := pyInt_num z.natAbs
      have hfmt : fmtInt 0 z = '-' :: num z.natAbs := by
        unfold num fmtInt
        rw [if_neg (by omega), if_pos (by omega)]
        simp only [Nat.zero_sub, List.replicate_zero, List.nil_append, Int.natAbs_natCast]
      have h1 := num_digit z.natAbs
      have h2 := num_ne z.natAbs
      have h3 := num_value z.natAbs
      rw [hfmt, pyInt, if_pos (okDigits_digits _ _ le_rfl h2 h1), List.filter_eq_self.mpr h1, h3]
      congr 1
      omega

/-- the words of a value -/
def valueTokens (strF : ℤ → Name) : AttValue → List Name
  | .text s => ['"' :: escape s ++ ['"']]
  | .numbers t _ l => l.map (strNum strF t)

def typeName : AttValue → Name
  | .text _ => "String".toList
  | .numbers t _ _ => (np2dap t).name

def attTokens (strF : ℤ → Name) (a : Name × AttValue) : List Name := typeName a.2 :: a.1 :: (valueTokens strF a.2 ++ [[';']])

theorem strNum_word (strF : ℤ → Name) (hF : ∀ z, Word (strF z)) (t : Np) (z : ℤ) : Word (strNum strF t z) := by
  unfold strNum
  split_ifs
  · exact hF z
  · exact fmtInt_word z

theorem semi : Pre [';'] [[';']] := Pre.sign ';' (by decide) (by decide)
theorem blank : Pre [' '] [] := Pre.other ' ' (by decide) (by decide) (by decide)

theorem Pre.wordBlank {w : Name} (hw : Word w) : Pre (w ++ [' ']) [w] := Pre.word w hw.1 hw.2 ' ' (by decide) [] blank

theorem Pre.blanks (n : ℕ) : Pre (List.replicate n ' ') [] := by
  induction n with
  | zero => exact Pre.nil
  | succ n ih => exact blank.append ih

theorem numbers_pre (l : List Name) (hl : ∀ w ∈ l, Word w) (hn : l ≠ []) : Pre (", ".toList.intercalate l ++ [';']) (l ++ [[';']]) := by
  induction l with
  | nil => exact absurd rfl hn
  | cons w l ih =>
    have hw := hl w (by simp)
    cases l with
    | nil => simpa using Pre.word w hw.1 hw.2 ';' (by decide) [[';']] semi
    | cons x l =>
      have h := ih (fun w hw => hl w (by simp [hw])) (by simp)
      have hcomma : Pre [','] [] := Pre.other ',' (by decide) (by decide) (by decide)
      have := (Pre.word w hw.1 hw.2 ',' (by decide) [] hcomma).append (blank.append h)
      have e : ", ".toList.intercalate (w :: x :: l) = w ++ (',' :: ' ' :: ", ".toList.intercalate (x :: l)) := by
        rw [List.intercalate_cons_cons, List.append_assoc]; rfl
      rw [e]
      simpa using this

theorem typeName_word (v : AttValue) : Word (typeName v) := by
  cases v with
  | text s => 
    have : Word "String".toList := ⟨by decide, by decide⟩
    exact this
  | numbers t b l => exact name_word _

/-- one attribute -/
theorem att_lex (strF : ℤ → Name) (hF : ∀ z, Word (strF z)) (a : Name × AttValue) (hn : Word a.1) (hv : AttSent a.2) (s : Name) (ts : List Name) (h : LexC s ts) :
    LexC (attText strF a.1 a.2 ++ s) (attTokens strF a ++ ts) := by
  obtain ⟨name, v⟩ := a
  have hname := Pre.wordBlank hn
  have htype := Pre.wordBlank (typeName_word v)
  cases v with
  | text v =>
    have h1 := ((h.pre (Pre.other '\n' (by decide) (by decide) (by decide))).text v hv name [name] hname).pre ((Pre.blanks 8).append htype)
    have e : attText strF name (.text v) ++ s =
        List.replicate 8 ' ' ++ ("String".toList ++ [' ']) ++ (name ++ (' ' :: '"' :: (escape v ++ '"' :: ';' :: ('\n' :: s)))) := by
      have : attText strF name (.text v) = "        String ".toList ++ name ++ " \"".toList ++ escape v ++ "\";\n".toList := rfl
      have e0 : "        String ".toList = List.replicate 8 ' ' ++ ("String".toList ++ [' ']) := rfl
      have e1 : " \"".toList = [' ', '"'] := rfl
      have e2 : "\";\n".toList = ['"', ';', '\n'] := rfl
      rw [this, e0, e1, e2]
      simp only [List.append_assoc, List.cons_append, List.nil_append]
    rw [e]
    exact h1
  | numbers t b l =>
    obtain ⟨-, hl, hb⟩ := hv
    have hnum := numbers_pre (l.map (strNum strF t)) (by
      intro w hw; obtain ⟨z, -, rfl⟩ := List.mem_map.mp hw; exact strNum_word strF hF t z) (by simpa using hl)
    cases b with
    | true =>
      have h1 := h.pre (htype.append (hname.append hnum))
      have e : attText strF name (.numbers t true l) ++ s =
          ((np2dap t).name ++ [' '] ++ (name ++ [' '] ++ (", ".toList.intercalate (l.map (strNum strF t)) ++ [';']))) ++ s := by
        have : attText strF name (.numbers t true l) =
          (np2dap t).name ++ [' '] ++ name ++ [' '] ++ ", ".toList.intercalate (l.map (strNum strF t)) ++ [';'] := rfl
        rw [this]
        simp only [List.append_assoc]
      rw [e]
      exact h1
    | false =>
      obtain ⟨z, rfl⟩ := List.length_eq_one_iff.mp (hb rfl)
      have h1 := h.pre ((Pre.blanks 8).append (htype.append (hname.append hnum)))
      have e : attText strF name (.numbers t false [z]) ++ s =
          (List.replicate 8 ' ' ++ ((np2dap t).name ++ [' '] ++ (name ++ [' '] ++ (", ".toList.intercalate ([z].map (strNum strF t)) ++ [';'])))) ++ s := by
        have : attText strF name (.numbers t false [z]) =
          List.replicate 8 ' ' ++ (np2dap t).name ++ [' '] ++ name ++ [' '] ++ [z].flatMap (strNum strF t) ++ [';'] := rfl
        rw [this]
        simp
      rw [e]
      exact h1

/-- the tokens of a variable -/
def varTokens (strF : ℤ → Name) (v : Name × List (Name × AttValue)) : List Name := v.1 :: ['{'] :: (v.2.flatMap (attTokens strF) ++ [['}']])

theorem newline : Pre ['\n'] [] := Pre.other '\n' (by decide) (by decide) (by decide)

theorem atts_lex (strF : ℤ → Name) (hF : ∀ z, Word (strF z)) (l : List (Name × AttValue)) (hl : ∀ a ∈ l, Word a.1 ∧ AttSent a.2) (s : Name)
    (ts : List Name) (h : LexC s ts) : LexC (l.flatMap (fun a => attText strF a.1 a.2) ++ s) (l.flatMap (attTokens strF) ++ ts) := by
  induction l with
  | nil => exact h
  | cons a l ih =>
    rw [List.flatMap_cons, List.flatMap_cons, List.append_assoc, List.append_assoc]
    exact att_lex strF hF a (hl a (by simp)).1 (hl a (by simp)).2 _ _ (ih fun b hb => hl b (by simp [hb]))

theorem var_lex (strF : ℤ → Name) (hF : ∀ z, Word (strF z)) (v : Name × List (Name × AttValue)) (hv : Word v.1)
    (hl : ∀ a ∈ v.2, Word a.1 ∧ AttSent a.2) (s : Name) (ts : List Name) (h : LexC s ts) :
    LexC ("    ".toList ++ v.1 ++ " {\n".toList ++ v.2.flatMap (fun a => attText strF a.1 a.2) ++ "    }\n".toList ++ s) (varTokens strF v ++ ts) := by
  have hclose : Pre ['}'] [['}']] := Pre.sign '}' (by decide) (by decide)
  have hopen : Pre ['{'] [['{']] := Pre.sign '{' (by decide) (by decide)
  have h1 := h.pre ((Pre.blanks 4).append (hclose.append newline))
  have h2 := (atts_lex strF hF v.2 hl _ _ h1).pre ((Pre.blanks 4).append ((Pre.wordBlank hv).append (hopen.append newline)))
  have e1 : "    ".toList = List.replicate 4 ' ' := rfl
  have e2 : " {\n".toList = [' '] ++ (['{'] ++ ['\n']) := rfl
  have e3 : "    }\n".toList = List.replicate 4 ' ' ++ (['}'] ++ ['\n']) := rfl
  rw [e1, e2, e3]
  unfold varTokens
  simpa only [List.append_assoc, List.nil_append, List.append_nil, List.cons_append] using h2

theorem vars_lex (strF : ℤ → Name) (hF : ∀ z, Word (strF z)) (l : List (Name × List (Name × AttValue)))
    (hl : ∀ v ∈ l, Word v.1 ∧ ∀ a ∈ v.2, Word a.1 ∧ AttSent a.2) (s : Name) (ts : List Name) (h : LexC s ts) :
    LexC ((l.flatMap fun v => "    ".toList ++ v.1 ++ " {\n".toList ++ v.2.flatMap (fun a => attText strF a.1 a.2) ++ "    }\n".toList) ++ s)
      (l.flatMap (varTokens strF) ++ ts) := by
  induction l with
  | nil => exact h
  | cons v l ih =>
    have := var_lex strF hF v (hl v (by simp)).1 (hl v (by simp)).2 _ _ (ih fun b hb => hl b (by simp [hb]))
    rw [← List.append_assoc, ← List.append_assoc] at this
    exact this

theorem das_tokens (strF : ℤ → Name) (hF : ∀ z, Word (strF z)) (l : List (Name × List (Name × AttValue)))
    (hl : ∀ v ∈ l, Word v.1 ∧ ∀ a ∈ v.2, Word a.1 ∧ AttSent a.2) :
    tokenize (das strF l) = some ("Attributes".toList :: ['{'] :: (l.flatMap (varTokens strF) ++ [['}']])) := by
  have hclose : Pre ['}'] [['}']] := Pre.sign '}' (by decide) (by decide)
  have hopen : Pre ['{'] [['{']] := Pre.sign '{' (by decide) (by decide)
  have h0 := LexC.nil.pre (hclose.append newline)
  have h1 := vars_lex strF hF l hl _ _ h0
  have hw : Word "Attributes".toList := ⟨by decide, by decide⟩
  have hu := (Pre.wordBlank hw).append (hopen.append newline)
  have e : das strF l = ("Attributes".toList ++ [' '] ++ (['{'] ++ ['\n'])) ++
      ((l.flatMap fun v => "    ".toList ++ v.1 ++ " {\n".toList ++ v.2.flatMap (fun a => attText strF a.1 a.2) ++ "    }\n".toList) ++
        (['}'] ++ ['\n'] ++ [])) := by
    have : das strF l = "Attributes".toList ++ [' '] ++ (['{'] ++ ['\n']) ++
      (l.flatMap fun v => "    ".toList ++ v.1 ++ " {\n".toList ++ v.2.flatMap (fun a => attText strF a.1 a.2) ++ "    }\n".toList) ++
        (['}'] ++ ['\n']) := rfl
    rw [this, List.append_assoc, List.append_nil]
  rw [tokenize_eq]
  have := h1 _ _ (by simp) hu ((das strF l).length + 1) none (by rw [← e]; omega)
  rw [← e] at this
  rw [this]
  simp

/-! ### values -/

theorem lower_name (t : Np) (ht : Carried t) : lower (np2dap t).name ≠ "string".toList ∧
    (if t = .float32 ∨ t = .float64 ∨ t = .int64 ∨ t = .uint64 then lower (np2dap t).name = "float32".toList ∨ lower (np2dap t).name = "float64".toList
     else lower (np2dap t).name = "int16".toList ∨ lower (np2dap t).name = "uint16".toList ∨ lower (np2dap t).name = "int32".toList ∨
      lower (np2dap t).name = "uint32".toList) := by
  cases t <;> first | decide | exact absurd rfl ht.1 | exact absurd rfl ht.2

theorem readValue_number (float : Name → Option ℤ) (strF : ℤ → Name) (asFloat : ℤ → ℤ) (hf : ∀ z, float (strF z) = some z)
    (hi : ∀ z, float (fmtInt 0 z) = some (asFloat z)) (t : Np) (ht : Carried t) (z : ℤ) :
    readValue float (lower (np2dap t).name) (strNum strF t z) = some (gotNumber asFloat t z) := by
  have h := lower_name t ht
  unfold readValue
  rw [if_neg h.1]
  have h2 := h.2
  by_cases hfl : t = .float32 ∨ t = .float64 ∨ t = .int64 ∨ t = .uint64
  · rw [if_pos hfl] at h2
    have hno : ¬ (lower (np2dap t).name = "int16".toList ∨ lower (np2dap t).name = "uint16".toList ∨ lower (np2dap t).name = "int32".toList ∨
        lower (np2dap t).name = "uint32".toList) := by
      rcases h2 with h2 | h2 <;> rw [h2] <;> decide
    rw [if_neg hno, if_pos h2]
    unfold strNum gotNumber
    by_cases h64 : t = .int64 ∨ t = .uint64
    · rw [if_neg (by rcases h64 with rfl | rfl <;> decide), if_pos h64, hi]; rfl
    · have hff : t = .float32 ∨ t = .float64 := by clear * - hfl h64; tauto
      rw [if_pos hff, if_neg h64, if_pos hff, hf]; rfl
  · rw [if_neg hfl] at h2
    rw [if_pos h2]
    unfold strNum gotNumber
    have h1 : ¬ (t = .float32 ∨ t = .float64) := by clear * - hfl; tauto
    have h3 : ¬ (t = .int64 ∨ t = .uint64) := by clear * - hfl; tauto
    rw [if_neg h1, if_neg h3, if_neg h1, pyInt_fmtInt]; rfl

theorem word_ne {w : Name} (hw : Word w) (c : Char) (hc : wordChar c = false) : w ≠ [c] := by
  rintro rfl
  have := hw.2 c (by simp)
  rw [hc] at this
  cases this

theorem readValues_list (float : Name → Option ℤ) (d : Name) (l : List Name) (g : List Got) (hl : List.Forall₂ (fun w x => w ≠ [';'] ∧ readValue float d w = some x) l g)
    (ts : List Name) (n : ℕ) (hn : l.length < n) : readValues float d n (l ++ [';'] :: ts) = some (g, [';'] :: ts) := by
  induction hl generalizing n with
  | nil =>
    obtain ⟨n, rfl⟩ : ∃ m, n = m + 1 := ⟨n - 1, by omega⟩
    rw [List.nil_append, readValues, if_pos rfl]
  | cons h _ ih =>
    simp only [List.length_cons] at hn
    obtain ⟨n, rfl⟩ : ∃ m, n = m + 1 := ⟨n - 1, by omega⟩
    rw [List.cons_append, readValues, if_neg h.1, h.2, Option.bind_some, ih n (by omega)]
    rfl

theorem values_read (float : Name → Option ℤ) (strF : ℤ → Name) (hF : ∀ z, Word (strF z)) (asFloat : ℤ → ℤ) (hf : ∀ z, float (strF z) = some z)
    (hi : ∀ z, float (fmtInt 0 z) = some (asFloat z)) (v : AttValue) (hv : AttSent v) :
    List.Forall₂ (fun w x => w ≠ [';'] ∧ readValue float (lower (typeName v)) w = some x) (valueTokens strF v) (gotValue asFloat v) := by
  cases v with
  | text s =>
    refine .cons ⟨by simp, ?_⟩ .nil
    have e : lower (typeName (.text s)) = "string".toList := by
      change lower "String".toList = _
      decide
    rw [e, readValue, if_pos rfl, unescape_escape s hv.2.2]
  | numbers t b l =>
    change List.Forall₂ _ (l.map (strNum strF t)) (l.map (gotNumber asFloat t))
    rw [List.forall₂_map_left_iff, List.forall₂_map_right_iff, List.forall₂_same]
    intro z _
    exact ⟨word_ne (strNum_word strF hF t z) ';' (by decide), readValue_number float strF asFloat hf hi t hv.1 z⟩

theorem got_ne (asFloat : ℤ → ℤ) (v : AttValue) (hv : AttSent v) : gotValue asFloat v ≠ [] := by
  cases v with
  | text s => simp [gotValue]
  | numbers t b l => simpa [gotValue] using hv.2.1

section read
variable (float : Name → Option ℤ) (strF : ℤ → Name) (hF : ∀ z, Word (strF z)) (asFloat : ℤ → ℤ) (hf : ∀ z, float (strF z) = some z)
  (hi : ∀ z, float (fmtInt 0 z) = some (asFloat z))
include hF hf hi

theorem atts_read (l : List (Name × AttValue)) (hl : ∀ a ∈ l, Word a.1 ∧ AttSent a.2) (ts : List Name) (n : ℕ) (hn : l.length < n) :
    readAtts float n (l.flatMap (attTokens strF) ++ ['}'] :: ts) = some (l.map fun a => (a.1, gotValue asFloat a.2), ['}'] :: ts) := by
  induction l generalizing n with
  | nil =>
    obtain ⟨n, rfl⟩ : ∃ m, n = m + 1 := ⟨n - 1, by omega⟩
    rw [List.flatMap_nil, List.nil_append, readAtts, if_pos rfl]
    rfl
  | cons a l ih =>
    simp only [List.length_cons] at hn
    obtain ⟨n, rfl⟩ : ∃ m, n = m + 1 := ⟨n - 1, by omega⟩
    have ha := hl a (by simp)
    have hr := ih (fun b hb => hl b (by simp [hb])) n (by omega)
    have hv := values_read float strF hF asFloat hf hi a.2 ha.2
    have e : (a :: l).flatMap (attTokens strF) ++ ['}'] :: ts =
        typeName a.2 :: a.1 :: (valueTokens strF a.2 ++ [';'] :: (l.flatMap (attTokens strF) ++ ['}'] :: ts)) := by
      rw [List.flatMap_cons]
      unfold attTokens
      simp
    rw [e, readAtts, if_neg (word_ne (typeName_word _) '}' (by decide)), next, Option.bind_some,
      readValues_list float _ _ _ hv _ _ (by simp), Option.bind_some, if_neg (got_ne asFloat a.2 ha.2)]
    simp only [expect, if_true, Option.bind_some, hr, Option.map_some, List.map_cons]

theorem vars_read (l : List (Name × List (Name × AttValue))) (hl : ∀ v ∈ l, Word v.1 ∧ ∀ a ∈ v.2, Word a.1 ∧ AttSent a.2) (ts : List Name) (n : ℕ)
    (hn : l.length < n) : readVars float n (l.flatMap (varTokens strF) ++ ['}'] :: ts) =
      some (l.map fun v => (v.1, v.2.map fun a => (a.1, gotValue asFloat a.2)), ['}'] :: ts) := by
  induction l generalizing n with
  | nil =>
    obtain ⟨n, rfl⟩ : ∃ m, n = m + 1 := ⟨n - 1, by omega⟩
    rw [List.flatMap_nil, List.nil_append, readVars, if_pos rfl]
    rfl
  | cons v l ih =>
    simp only [List.length_cons] at hn
    obtain ⟨n, rfl⟩ : ∃ m, n = m + 1 := ⟨n - 1, by omega⟩
    have hv := hl v (by simp)
    have hr := ih (fun b hb => hl b (by simp [hb])) n (by omega)
    have e : (v :: l).flatMap (varTokens strF) ++ ['}'] :: ts =
        v.1 :: ['{'] :: (v.2.flatMap (attTokens strF) ++ ['}'] :: (l.flatMap (varTokens strF) ++ ['}'] :: ts)) := by
      rw [List.flatMap_cons]
      unfold varTokens
      simp
    have hlen : v.2.length ≤ (v.2.flatMap (attTokens strF)).length := by
      rw [List.length_flatMap]
      generalize v.2 = w
      induction w with
      | nil => simp
      | cons a w ih => simp [attTokens] at ih ⊢; omega
    rw [e, readVars, if_neg (word_ne hv.1 '}' (by decide))]
    simp only [expect, if_true, Option.bind_some]
    rw [atts_read float strF hF asFloat hf hi v.2 hv.2 _ _ (by simp only [List.length_append]; omega)]
    simp only [if_true, Option.bind_some, hr, Option.map_some, List.map_cons]

/-- **C130**: the client reads the attributes that were sent -/
theorem attributes_correct_partial (l : List (Name × List (Name × AttValue))) (hl : ∀ v ∈ l, Word v.1 ∧ ∀ a ∈ v.2, Word a.1 ∧ AttSent a.2) :
    (tokenize (das strF l)).bind (parseAttributes float) = some (l.map fun v => (v.1, v.2.map fun a => (a.1, gotValue asFloat a.2))) := by
  have hlen : l.length ≤ (l.flatMap (varTokens strF)).length := by
    rw [List.length_flatMap]
    generalize l = w
    induction w with
    | nil => simp
    | cons a w ih => simp [varTokens] at ih ⊢; omega
  rw [das_tokens strF hF l hl, Option.bind_some]
  unfold parseAttributes
  have e1 : lower "Attributes".toList = lower "attributes".toList := by decide
  simp only [expect, if_true, Option.bind_some, e1]
  rw [vars_read float strF hF asFloat hf hi l hl [] _ (by simp only [List.length_append]; omega)]
  simp

end read

/-! ### a case, and what cannot be sent -/

/-- a variable with a text of quotes, blanks and backslashes, negative integers and a 64-bit integer -/
def exAtts : List (Name × List (Name × AttValue)) :=
  [("temp".toList, [("long_name".toList, .text "the \"old\" \\n\tname;}".toList), ("range".toList, .numbers .int16 true [-5, 30])]),
   ("NC_GLOBAL".toList, [("version".toList, .numbers .int64 false [3])])]

example (float : Name → Option ℤ) (strF : ℤ → Name) (hF : ∀ z, Word (strF z)) (asFloat : ℤ → ℤ) (hf : ∀ z, float (strF z) = some z)
    (hi : ∀ z, float (fmtInt 0 z) = some (asFloat z)) :
    (tokenize (das strF exAtts)).bind (parseAttributes float) =
      some [("temp".toList, [("long_name".toList, [.text "the \"old\" \\n\tname;}".toList]), ("range".toList, [.int (-5), .int 30])]),
        ("NC_GLOBAL".toList, [("version".toList, [.float (asFloat 3)])])] := by
  refine attributes_correct_partial float strF hF asFloat hf hi exAtts ?_
  intro v hv
  simp only [exAtts, List.mem_cons, List.not_mem_nil, or_false] at hv
  rcases hv with rfl | rfl
  · refine ⟨⟨by decide, by decide⟩, ?_⟩
    intro a ha
    simp only [List.mem_cons, List.not_mem_nil, or_false] at ha
    rcases ha with rfl | rfl
    · exact ⟨⟨by decide, by decide⟩, by decide, by decide, by unfold Steady; decide⟩
    · exact ⟨⟨by decide, by decide⟩, ⟨by decide, by decide⟩, by decide, by decide⟩
  · refine ⟨⟨by decide, by decide⟩, ?_⟩
    intro a ha
    simp only [List.mem_singleton] at ha
    subst ha
    exact ⟨⟨by decide, by decide⟩, ⟨by decide, by decide⟩, by decide, by decide⟩

/-- the hypotheses on floats can be met -/
example : ∃ (float : Name → Option ℤ) (strF : ℤ → Name) (asFloat : ℤ → ℤ), (∀ z, Word (strF z)) ∧ (∀ z, float (strF z) = some z) ∧
    ∀ z, float (fmtInt 0 z) = some (asFloat z) := ⟨pyInt, fmtInt 0, id, fmtInt_word, pyInt_fmtInt, pyInt_fmtInt⟩

/-- C130 fails for an empty text, a text that ends with a backslash and bytes: the client cannot read the attributes at all -/
theorem empty_violated (strF : ℤ → Name) (float : Name → Option ℤ) :
    (tokenize (das strF [("x".toList, [("a".toList, .text [])])])).bind (parseAttributes float) = none := by
  have e : das strF [("x".toList, [("a".toList, .text [])])] = "Attributes {\n    x {\n        String a \"\";\n    }\n}\n".toList := rfl
  rw [e]
  have : tokenize "Attributes {\n    x {\n        String a \"\";\n    }\n}\n".toList = none := by decide +kernel
  rw [this]; rfl

theorem trailing_violated (strF : ℤ → Name) (float : Name → Option ℤ) :
    (tokenize (das strF [("x".toList, [("a".toList, .text "b\\".toList)])])).bind (parseAttributes float) = none := by
  have e : das strF [("x".toList, [("a".toList, .text "b\\".toList)])] = "Attributes {\n    x {\n        String a \"b\\\\\";\n    }\n}\n".toList := rfl
  rw [e]
  have : tokenize "Attributes {\n    x {\n        String a \"b\\\\\";\n    }\n}\n".toList = none := by decide +kernel
  rw [this]; rfl

theorem byteAtt_violated (strF : ℤ → Name) (float : Name → Option ℤ) :
    (tokenize (das strF [("x".toList, [("a".toList, .numbers .uint8 false [3])])])).bind (parseAttributes float) = none := by
  have e : das strF [("x".toList, [("a".toList, .numbers .uint8 false [3])])] = "Attributes {\n    x {\n        Byte a 3;    }\n}\n".toList := rfl
  rw [e]
  have : tokenize "Attributes {\n    x {\n        Byte a 3;    }\n}\n".toList =
      some ["Attributes".toList, ['{'], ['x'], ['{'], "Byte".toList, ['a'], ['3'], [';'], ['}'], ['}']] := by decide +kernel
  rw [this]; rfl

/-- C130 fails for a newline after a backslash: another text arrives -/
theorem newline_violated (strF : ℤ → Name) (float : Name → Option ℤ) :
    (tokenize (das strF [("x".toList, [("a".toList, .text "b\\\nc".toList)])])).bind (parseAttributes float) =
      some [("x".toList, [("a".toList, [.text "b\\\\nc".toList])])] := by
  have e : das strF [("x".toList, [("a".toList, .text "b\\\nc".toList)])] = "Attributes {\n    x {\n        String a \"b\\\\\\nc\";\n    }\n}\n".toList := rfl
  rw [e]
  have : tokenize "Attributes {\n    x {\n        String a \"b\\\\\\nc\";\n    }\n}\n".toList =
      some ["Attributes".toList, ['{'], ['x'], ['{'], "String".toList, ['a'], "\"b\\\\\\nc\"".toList, [';'], ['}'], ['}']] := by decide +kernel
  rw [this]
  rfl

end OpenDap
end PyGeode
