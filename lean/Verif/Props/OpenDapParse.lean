/-
Property C129: the client reads descriptions.
-/
import Verif.Props.OpenDapTok

namespace PyGeode
namespace OpenDap
open NArr Cf Spec

/-! ### arrays -/

def dimTokens (a : AxisD) : List Name := [['['], a.name, ['='], num a.values.length, [']']]

def entryTokens (x : VarD) : List Name := (np2dap x.type).name :: x.name :: (x.axes.flatMap dimTokens ++ [[';']])

/-- what is read of the description of an array -/
def declOf (x : VarD) : Decl :=
  ⟨np2dap x.type, x.name, x.axes.map fun a => some a.name, x.axes.map fun a => (a.values.length : ℤ)⟩

/-- names of the array and its axes can be read -/
def Named (x : VarD) : Prop := PlainName x.name ∧ ∀ a ∈ x.axes, PlainName a.name ∧ pyInt a.name = none

theorem wordChar_of_plain {n : Name} (h : PlainName n) : ∀ c ∈ n, wordChar c = true := by
  intro c hc
  rcases h.2 c hc with h | rfl | rfl | rfl
  · simp [wordChar, h]
  · rfl
  · rfl
  · rfl

theorem wordChar_of_digit {c : Char} (h : c.isDigit = true) : wordChar c = true := by
  simp [wordChar, Char.isAlphanum, h]

theorem num_word (n : ℕ) : ∀ c ∈ num n, wordChar c = true := fun c hc => wordChar_of_digit (num_digit n c hc)

theorem name_word (t : Dap) : t.name ≠ [] ∧ ∀ c ∈ t.name, wordChar c = true := by cases t <;> decide

theorem dap_lower (t : Dap) : dapOf (lower t.name) = some t := by cases t <;> decide

theorem ends_cons {c : Char} {s : Name} (h : wordChar c = false) : Ends (c :: s) := by
  intro d hd; simp at hd; subst hd; exact h

theorem dims_tok (l : List AxisD) (hl : ∀ a ∈ l, PlainName a.name) (s : Name) (ts : List Name) (h : Tok s ts) (hs : Ends s) :
    Tok ((l.flatMap fun a => ['['] ++ a.name ++ " = ".toList ++ fmtInt 0 a.values.length ++ [']']) ++ s) (l.flatMap dimTokens ++ ts) ∧
    Ends ((l.flatMap fun a => ['['] ++ a.name ++ " = ".toList ++ fmtInt 0 a.values.length ++ [']']) ++ s) := by
  induction l with
  | nil => exact ⟨h, hs⟩
  | cons a l ih =>
    obtain ⟨i1, i2⟩ := ih fun a ha => hl a (by simp [ha])
    have hp := hl a (by simp)
    have h1 := i1.punct ']' (by decide) (by decide)
    have h2 := h1.word (num a.values.length) (num_ne _) (num_word _) (ends_cons (by decide))
    have h3 := ((h2.other ' ' (by decide) (by decide)).punct '=' (by decide) (by decide)).other ' ' (by decide) (by decide)
    have h4 := (h3.word a.name hp.1 (wordChar_of_plain hp) (ends_cons (by decide))).punct '[' (by decide) (by decide)
    rw [List.flatMap_cons, List.flatMap_cons]
    constructor
    · have e : ∀ t : Name, " = ".toList ++ t = ' ' :: '=' :: ' ' :: t := fun _ => rfl
      simpa only [dimTokens, List.append_assoc, List.cons_append, List.nil_append, e] using h4
    · simp only [List.append_assoc, List.cons_append, List.nil_append]
      exact ends_cons (by decide)

theorem entry_tok (x : VarD) (hx : Named x) (s : Name) (ts : List Name) (h : Tok s ts) :
    Tok (entry x ++ (";\n".toList ++ s)) (entryTokens x ++ ts) := by
  have h1 := (h.other '\n' (by decide) (by decide)).punct ';' (by decide) (by decide)
  have h2 := dims_tok x.axes (fun a ha => (hx.2 a ha).1) _ _ h1 (ends_cons (by decide))
  have h3 := (h2.1.word x.name hx.1.1 (wordChar_of_plain hx.1) h2.2).other ' ' (by decide) (by decide)
  have h4 := h3.word (np2dap x.type).name (name_word _).1 (name_word _).2 (ends_cons (by decide))
  have e : ";\n".toList = [';', '\n'] := rfl
  rw [entry, e]
  simpa only [entryTokens, List.append_assoc, List.cons_append, List.nil_append] using h4

theorem parseDims_entry (l : List AxisD) (hl : ∀ a ∈ l, pyInt a.name = none) (ts : List Name) (n : ℕ) (hn : l.length < n) :
    parseDims n (l.flatMap dimTokens ++ [';'] :: ts) =
      some ((l.map fun a => some a.name, l.map fun a => (a.values.length : ℤ)), ts) := by
  induction l generalizing n with
  | nil =>
    cases n with
    | zero => simp at hn
    | succ n => rfl
  | cons a l ih =>
    cases n with
    | zero => simp at hn
    | succ n =>
      have := ih (fun a ha => hl a (by simp [ha])) n (by simpa using hn)
      simp only [List.flatMap_cons, dimTokens, List.cons_append, List.nil_append, parseDims, next, Option.bind_some]
      rw [if_neg (by decide), if_pos trivial]
      simp only [hl a (by simp), expect, if_true, Option.bind_some, pyInt_num, this, Option.map_some, List.map_cons]

theorem parseArray_entry (x : VarD) (hx : Named x) (ts : List Name) : parseArray (entryTokens x ++ ts) = some (declOf x, ts) := by
  have := parseDims_entry x.axes (fun a ha => (hx.2 a ha).2) ts ((entryTokens x ++ ts).length + 1) (by
    have h : (x.axes.flatMap dimTokens).length = 5 * x.axes.length := flatMap_length_const _ 5 (fun _ => rfl) _
    simp only [entryTokens, List.cons_append, List.length_cons, List.length_append, h]
    omega)
  unfold parseArray
  simp only [entryTokens, List.cons_append, next, Option.bind_some, dap_lower]
  simp only [entryTokens, List.cons_append] at this
  rw [List.append_assoc, List.singleton_append] at this ⊢
  rw [this]
  rfl

/-! ### arrays and grids -/

/-- a part of a description: an array, or a grid of an array and its maps -/
abbrev Item := VarD × Option (List VarD)

def itemText : Item → Name
  | (x, none) => "    ".toList ++ entry x ++ ";\n".toList
  | (x, some ms) => "    Grid {\n".toList ++ "      Array:\n".toList ++ ("        ".toList ++ entry x ++ ";\n".toList) ++ "      Maps:\n".toList ++
      (ms.flatMap fun m => "        ".toList ++ entry m ++ ";\n".toList) ++ ("    } ".toList ++ x.name ++ ";\n".toList)

def itemTokens : Item → List Name
  | (x, none) => entryTokens x
  | (x, some ms) => ["Grid".toList, ['{'], "Array".toList, [':']] ++ entryTokens x ++ ["Maps".toList, [':']] ++ ms.flatMap entryTokens ++
      [['}'], x.name, [';']]

/-- the maps of a grid are those of its axes -/
def Item.Good : Item → Prop
  | (x, none) => Named x
  | (x, some ms) => Named x ∧ List.Forall₂ (fun (m : VarD) (a : AxisD) => Named m ∧ (declOf m).dims = [some a.name] ∧
      (declOf m).shape = [(a.values.length : ℤ)]) ms x.axes

theorem entries_tok (l : List VarD) (hl : ∀ x ∈ l, Named x) (s : Name) (ts : List Name) (h : Tok s ts) :
    Tok ((l.flatMap fun m => "        ".toList ++ entry m ++ ";\n".toList) ++ s) (l.flatMap entryTokens ++ ts) := by
  induction l with
  | nil => exact h
  | cons x l ih =>
    have h1 := entry_tok x (hl x (by simp)) _ _ (ih fun x hx => hl x (by simp [hx]))
    have h2 := h1.blanks "        ".toList (by decide)
    simpa only [List.flatMap_cons, List.append_assoc] using h2

theorem forall₂_left {α β : Type} {R : α → β → Prop} {P : α → Prop} (h : ∀ a b, R a b → P a) {l : List α} {r : List β} (hl : List.Forall₂ R l r) :
    ∀ a ∈ l, P a := by
  induction hl with
  | nil => simp
  | cons h1 _ ih => intro a ha; rcases List.mem_cons.mp ha with rfl | ha; exacts [h _ _ h1, ih a ha]

theorem item_tok (i : Item) (hi : i.Good) (s : Name) (ts : List Name) (h : Tok s ts) : Tok (itemText i ++ s) (itemTokens i ++ ts) := by
  obtain ⟨x, ms⟩ := i
  cases ms with
  | none =>
    have := (entry_tok x hi s ts h).blanks "    ".toList (by decide)
    have ht : itemText (x, none) ++ s = "    ".toList ++ (entry x ++ (";\n".toList ++ s)) := by
      have e : itemText (x, none) = "    ".toList ++ entry x ++ ";\n".toList := rfl
      rw [e, List.append_assoc, List.append_assoc]
    rw [ht]
    exact this
  | some ms =>
    have hn := forall₂_left (P := Named) (fun m a h => h.1) hi.2
    have h1 := (h.other '\n' (by decide) (by decide)).punct ';' (by decide) (by decide)
    have h2 := (h1.word x.name hi.1.1.1 (wordChar_of_plain hi.1.1) (ends_cons (by decide))).other ' ' (by decide) (by decide)
    have h3 := (h2.punct '}' (by decide) (by decide)).blanks "    ".toList (by decide)
    have h4 := ((entries_tok ms hn _ _ h3).other '\n' (by decide) (by decide)).punct ':' (by decide) (by decide)
    have h5 := (h4.word "Maps".toList (by decide) (by decide) (ends_cons (by decide))).blanks "      ".toList (by decide)
    have h6 := (entry_tok x hi.1 _ _ h5).blanks "        ".toList (by decide)
    have h7 := (h6.other '\n' (by decide) (by decide)).punct ':' (by decide) (by decide)
    have h8 := (h7.word "Array".toList (by decide) (by decide) (ends_cons (by decide))).blanks "      ".toList (by decide)
    have h9 := ((h8.other '\n' (by decide) (by decide)).punct '{' (by decide) (by decide)).other ' ' (by decide) (by decide)
    have h10 := (h9.word "Grid".toList (by decide) (by decide) (ends_cons (by decide))).blanks "    ".toList (by decide)
    have ht : itemText (x, some ms) ++ s = "    ".toList ++ ("Grid".toList ++ ' ' :: '{' :: '\n' :: ("      ".toList ++ ("Array".toList ++ ':' :: '\n' ::
        ("        ".toList ++ (entry x ++ (";\n".toList ++ ("      ".toList ++ ("Maps".toList ++ ':' :: '\n' ::
          ((ms.flatMap fun m => "        ".toList ++ entry m ++ ";\n".toList) ++ ("    ".toList ++ '}' :: ' ' :: (x.name ++ ';' :: '\n' :: s))))))))))) := by
      have e0 : itemText (x, some ms) = "    Grid {\n".toList ++ "      Array:\n".toList ++ ("        ".toList ++ entry x ++ ";\n".toList) ++
          "      Maps:\n".toList ++ (ms.flatMap fun m => "        ".toList ++ entry m ++ ";\n".toList) ++ ("    } ".toList ++ x.name ++ ";\n".toList) := rfl
      have e1 : ∀ t : Name, "    Grid {\n".toList ++ t = "    ".toList ++ ("Grid".toList ++ ' ' :: '{' :: '\n' :: t) := fun _ => rfl
      have e2 : ∀ t : Name, "      Array:\n".toList ++ t = "      ".toList ++ ("Array".toList ++ ':' :: '\n' :: t) := fun _ => rfl
      have e3 : ∀ t : Name, "      Maps:\n".toList ++ t = "      ".toList ++ ("Maps".toList ++ ':' :: '\n' :: t) := fun _ => rfl
      have e4 : ∀ t : Name, "    } ".toList ++ t = "    ".toList ++ '}' :: ' ' :: t := fun _ => rfl
      have e5 : ";\n".toList ++ s = ';' :: '\n' :: s := rfl
      rw [e0]
      simp only [List.append_assoc, e1, e2, e3, e4, List.cons_append]
      rw [e5]
    have hk : itemTokens (x, some ms) ++ ts = "Grid".toList :: ['{'] :: "Array".toList :: [':'] :: (entryTokens x ++
        ("Maps".toList :: [':'] :: (ms.flatMap entryTokens ++ (['}'] :: x.name :: [';'] :: ts)))) := by
      simp only [itemTokens, List.append_assoc, List.cons_append, List.nil_append]
    rw [ht, hk]
    exact h10

theorem parseMaps_entries (ms : List VarD) (axes : List AxisD) (ts : List Name)
    (h : List.Forall₂ (fun (m : VarD) (a : AxisD) => Named m ∧ (declOf m).dims = [some a.name] ∧ (declOf m).shape = [(a.values.length : ℤ)]) ms axes) :
    parseMaps ((axes.map fun a => some a.name).zip (axes.map fun a => (a.values.length : ℤ))) (ms.flatMap entryTokens ++ ts) = some ts := by
  induction h with
  | nil => rfl
  | cons h1 _ ih =>
    rw [List.map_cons, List.map_cons, List.zip_cons_cons, parseMaps, if_neg (by simp), List.flatMap_cons, List.append_assoc,
      parseArray_entry _ h1.1, Option.bind_some, if_pos ⟨h1.2.1, h1.2.2⟩, ih]

theorem parseGrid_item (x : VarD) (ms : List VarD) (hi : Item.Good (x, some ms)) (ts : List Name) :
    parseGrid (itemTokens (x, some ms) ++ ts) = some (declOf x, ts) := by
  have e : itemTokens (x, some ms) ++ ts = "Grid".toList :: ['{'] :: "Array".toList :: [':'] :: (entryTokens x ++
      ("Maps".toList :: [':'] :: (ms.flatMap entryTokens ++ (['}'] :: x.name :: [';'] :: ts)))) := by
    simp only [itemTokens, List.append_assoc, List.cons_append, List.nil_append]
  have g1 : lower "Grid".toList = lower "grid".toList := by decide
  have g2 : lower "Array".toList = lower "array".toList := by decide
  have g3 : lower "Maps".toList = lower "maps".toList := by decide
  rw [e]
  unfold parseGrid
  simp only [expect, g1, g2, g3, if_true, Option.bind_some, parseArray_entry x hi.1]
  have := parseMaps_entries ms x.axes (['}'] :: x.name :: [';'] :: ts) hi.2
  simp only [declOf] at this ⊢
  rw [this]
  simp [next]

theorem type_not (t : Dap) : t.name ≠ ['}'] ∧ (dapOf (lower t.name)).isSome := by cases t <;> decide

/-- the description of arrays and grids gives these back, whatever follows the closing brace -/
theorem parseEntries_items (l : List Item) (hl : ∀ i ∈ l, i.Good) (ts : List Name) (n : ℕ) (hn : l.length < n) :
    parseEntries n (l.flatMap itemTokens ++ ['}'] :: ts) = some (l.map fun i => declOf i.1) := by
  induction l generalizing n with
  | nil =>
    cases n with
    | zero => simp at hn
    | succ n => rfl
  | cons i l ih =>
    cases n with
    | zero => simp at hn
    | succ n =>
      have := ih (fun i hi => hl i (by simp [hi])) n (by simpa using hn)
      obtain ⟨x, ms⟩ := i
      have hi := hl _ (List.mem_cons_self ..)
      cases ms with
      | none =>
        have hp := parseArray_entry x hi (l.flatMap itemTokens ++ ['}'] :: ts)
        rw [List.flatMap_cons, List.append_assoc, itemTokens]
        rw [entryTokens, List.cons_append] at hp ⊢
        rw [parseEntries, if_neg (type_not _).1, if_pos (type_not _).2, hp, Option.bind_some, this]
        rfl
      | some ms =>
        have hp := parseGrid_item x ms hi (l.flatMap itemTokens ++ ['}'] :: ts)
        rw [List.flatMap_cons, List.append_assoc]
        rw [itemTokens, List.cons_append, List.cons_append, List.cons_append, List.cons_append, List.cons_append] at hp ⊢
        have g0 : dapOf (lower "Grid".toList) = none := by decide
        have g1 : lower "Grid".toList = "grid".toList := by decide
        have g2 : "Grid".toList ≠ ['}'] := by decide
        rw [parseEntries, if_neg g2, if_neg (by rw [g0]; simp), if_pos g1, hp, Option.bind_some, this]
        rfl

/-- the text of a description -/
def ddsText (l : List Item) (file : Name) : Name := "Dataset {\n".toList ++ l.flatMap itemText ++ ("} ".toList ++ file ++ ";\n".toList)

theorem items_tok (l : List Item) (hl : ∀ i ∈ l, i.Good) (s : Name) (ts : List Name) (h : Tok s ts) :
    Tok (l.flatMap itemText ++ s) (l.flatMap itemTokens ++ ts) := by
  induction l with
  | nil => exact h
  | cons i l ih =>
    have := item_tok i (hl i (by simp)) _ _ (ih fun i hi => hl i (by simp [hi]))
    simpa only [List.flatMap_cons, List.append_assoc] using this

theorem noQuote_of_word {c : Char} (h : wordChar c = true) : noQuote c = true := by
  unfold noQuote
  have h1 : c ≠ '"' := by rintro rfl; revert h; decide
  have h2 : c ≠ '\'' := by rintro rfl; revert h; decide
  simp [h1, h2]

/-- a text without quotes and without `:` after `a` -/
def Clean (s : Name) : Prop :=
  (∀ c ∈ s, noQuote c = true) ∧ s.IsChain (fun x y => y = ':' → x ≠ 'a') ∧ s.head? ≠ some ':'

theorem Clean.append {s t : Name} (hs : Clean s) (ht : Clean t) : Clean (s ++ t) := by
  refine ⟨fun c hc => ?_, ?_, ?_⟩
  · rcases List.mem_append.mp hc with h | h; exacts [hs.1 c h, ht.1 c h]
  · rw [List.isChain_append]
    refine ⟨hs.2.1, ht.2.1, ?_⟩
    intro x _ y hy h
    subst h
    exact absurd hy ht.2.2
  · cases s with
    | nil => exact ht.2.2
    | cons c s => exact hs.2.2

theorem Clean.flatMap {α : Type} (f : α → Name) (l : List α) (h : ∀ a ∈ l, Clean (f a)) : Clean (l.flatMap f) := by
  induction l with
  | nil => exact ⟨by simp, List.IsChain.nil, by simp⟩
  | cons a l ih => exact (h a (by simp)).append (ih fun a ha => h a (by simp [ha]))

theorem clean_of (s : Name) (h : ∀ c ∈ s, noQuote c = true ∧ c ≠ ':') : Clean s := by
  refine ⟨fun c hc => (h c hc).1, ?_, ?_⟩
  · induction s with
    | nil => exact List.IsChain.nil
    | cons c s ih =>
      rw [List.isChain_cons]
      refine ⟨fun y hy e => ?_, ih fun c hc => h c (by simp [hc])⟩
      exact absurd e (h y (by simp [List.mem_of_mem_head? hy])).2
  · intro e
    exact (h ':' (List.mem_of_mem_head? e)).2 rfl

theorem clean_word (w : Name) (h : ∀ c ∈ w, wordChar c = true) : Clean w :=
  clean_of w fun c hc => ⟨noQuote_of_word (h c hc), by rintro rfl; exact absurd (h _ hc) (by decide)⟩

theorem clean_entry (x : VarD) (hx : Named x) : Clean (entry x) := by
  unfold entry
  refine (((clean_word _ (name_word _).2).append (clean_of _ (by decide))).append (clean_word _ (wordChar_of_plain hx.1))).append ?_
  refine Clean.flatMap _ _ fun a ha => ?_
  exact ((((clean_of _ (by decide)).append (clean_word _ (wordChar_of_plain (hx.2 a ha).1))).append (clean_of _ (by decide))).append
    (clean_word _ (num_word _))).append (clean_of _ (by decide))

theorem clean_item (i : Item) (hi : i.Good) : Clean (itemText i) := by
  have lit : ∀ s : Name, (∀ c ∈ s, noQuote c = true) → s.IsChain (fun x y => y = ':' → x ≠ 'a') → s.head? ≠ some ':' → Clean s := fun _ a b c => ⟨a, b, c⟩
  obtain ⟨x, ms⟩ := i
  cases ms with
  | none => exact ((clean_of _ (by decide)).append (clean_entry x hi)).append (clean_of _ (by decide))
  | some ms =>
    have hn := forall₂_left (P := Named) (fun m a h => h.1) hi.2
    refine (((((clean_of _ (by decide)).append (lit _ (by decide) (by decide) (by decide))).append ?_).append
      (lit _ (by decide) (by decide) (by decide))).append ?_).append ?_
    · exact ((clean_of _ (by decide)).append (clean_entry x hi.1)).append (clean_of _ (by decide))
    · exact Clean.flatMap _ _ fun m hm => ((clean_of _ (by decide)).append (clean_entry m (hn m hm))).append (clean_of _ (by decide))
    · exact ((clean_of _ (by decide)).append (clean_word _ (wordChar_of_plain hi.1.1))).append (clean_of _ (by decide))

theorem clean_dds (l : List Item) (hl : ∀ i ∈ l, i.Good) (file : Name) (hf : ∀ c ∈ file, noQuote c = true ∧ c ≠ ':') : Clean (ddsText l file) :=
  ((clean_of _ (by decide)).append (Clean.flatMap _ _ fun i hi => clean_item i (hl i hi))).append
    (((clean_of _ (by decide)).append (clean_of _ hf)).append (clean_of _ (by decide)))

/-- C129: the client reads from a description the arrays that are in it -/
theorem dds_read (l : List Item) (hl : ∀ i ∈ l, i.Good) (file : Name) (hf : ∀ c ∈ file, noQuote c = true ∧ c ≠ ':') :
    (tokenize (ddsText l file)).bind parseDataset = some (l.map fun i => declOf i.1) := by
  obtain ⟨ts, ht⟩ := exists_tok (file ++ ";\n".toList)
  have h1 := (ht.other ' ' (by decide) (by decide)).punct '}' (by decide) (by decide)
  have h2 := ((items_tok l hl _ _ h1).other '\n' (by decide) (by decide)).punct '{' (by decide) (by decide)
  have h3 := (h2.other ' ' (by decide) (by decide)).word "Dataset".toList (by decide) (by decide) (ends_cons (by decide))
  have e1 : ∀ t : Name, "Dataset {\n".toList ++ t = "Dataset".toList ++ ' ' :: '{' :: '\n' :: t := fun _ => rfl
  have e2 : ∀ t : Name, "} ".toList ++ t = '}' :: ' ' :: t := fun _ => rfl
  have e0 : ddsText l file = "Dataset {\n".toList ++ l.flatMap itemText ++ ("} ".toList ++ file ++ ";\n".toList) := rfl
  have htok : Tok (ddsText l file) ("Dataset".toList :: ['{'] :: (l.flatMap itemTokens ++ ['}'] :: ts)) := by
    have : ddsText l file = "Dataset".toList ++ ' ' :: '{' :: '\n' :: (l.flatMap itemText ++ '}' :: ' ' :: (file ++ ";\n".toList)) := by
      rw [e0]
      simp only [List.append_assoc, e1, e2, List.cons_append]
    rw [this]
    exact h3
  have hne : ddsText l file ≠ [] := by
    rw [e0]
    simp only [List.append_assoc, e1]
    exact List.append_ne_nil_of_left_ne_nil (by decide) _
  rw [tokenize_noQuote _ _ hne (clean_dds l hl file hf).1 htok, Option.bind_some]
  have g1 : lower "Dataset".toList = lower "dataset".toList := by decide
  simp only [parseDataset, expect, g1, if_true, Option.bind_some]
  refine parseEntries_items l hl ts _ ?_
  have : l.length ≤ (l.flatMap itemTokens).length := by
    clear * -
    induction l with
    | nil => simp
    | cons i l ih =>
      have : 1 ≤ (itemTokens i).length := by
        obtain ⟨x, ms⟩ := i
        cases ms <;> simp [itemTokens, entryTokens]
      simp only [List.flatMap_cons, List.length_append, List.length_cons]; omega
  simp only [List.length_append, List.length_cons]
  omega

end OpenDap
end PyGeode
