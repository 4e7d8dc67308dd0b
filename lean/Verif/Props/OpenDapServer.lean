/-
Property C129: requests as the server reads them.
-/
import Verif.Props.OpenDapLoad

namespace PyGeode
namespace OpenDap
open NArr Cf Spec

/-! ### requests -/

theorem splitOn_one (c : Char) (s : Name) (h : c ∉ s) : s.splitOn c = [s] := by
  have := List.splitOn_intercalate c (ls := [s]) (by simpa using h) (by simp)
  simpa using this

theorem splitOn_two (c : Char) (s t : Name) (hs : c ∉ s) (ht : c ∉ t) : (s ++ c :: t).splitOn c = [s, t] := by
  have := List.splitOn_intercalate c (ls := [s, t]) (by
    intro l hl
    simp only [List.mem_cons, List.not_mem_nil, or_false] at hl
    rcases hl with rfl | rfl
    exacts [hs, ht]) (by simp)
  simpa [List.intercalate, List.intersperse] using this

/-- the slice of a part of an axis -/
def part (s c : ℕ) : PySlice := ⟨some (s : ℤ), some ((s + c : ℕ) : ℤ), none⟩

/-- one slice of a request -/
def sliceText (s c : ℕ) : Name := num s ++ ':' :: num (s + c - 1)

theorem parseSlice_text (s c : ℕ) (hc : 0 < c) : parseSlice (sliceText s c) = some (part s c) := by
  have hn : ∀ n, ':' ∉ num n := fun n h => absurd (num_digit n _ h) (by decide)
  unfold parseSlice sliceText
  rw [splitOn_two ':' _ _ (hn s) (hn _)]
  simp only [List.mapM_cons, List.mapM_nil, pyInt_num]
  change some _ = _
  unfold part
  congr 2
  push_cast [show 1 ≤ s + c by omega]
  simp

/-- the brackets of a request -/
def bracketsText (l : List (ℕ × ℕ)) : Name := l.flatMap fun p => '[' :: (sliceText p.1 p.2 ++ [']'])

theorem brackets_text (l : List (ℕ × ℕ)) (n : ℕ) (hn : (bracketsText l).length ≤ n) :
    brackets n (bracketsText l) = l.map fun p => sliceText p.1 p.2 := by
  induction l generalizing n with
  | nil => cases n <;> rfl
  | cons p l ih =>
    have e : bracketsText (p :: l) = '[' :: (sliceText p.1 p.2 ++ ']' :: bracketsText l) := by
      simp [bracketsText]
    rw [e] at hn ⊢
    cases n with
    | zero => simp at hn
    | succ n =>
      have hall : ∀ c ∈ sliceText p.1 p.2, (c.isDigit || c == ':') = true := by
        intro c hc
        simp only [sliceText, List.mem_append, List.mem_cons] at hc
        rcases hc with h | rfl | h
        · simp [num_digit _ _ h]
        · rfl
        · simp [num_digit _ _ h]
      have hrun : (sliceText p.1 p.2 ++ ']' :: bracketsText l).takeWhile (fun c => c.isDigit || c == ':') = sliceText p.1 p.2 := by
        rw [List.takeWhile_append_of_pos hall, List.takeWhile_cons, if_neg (by decide), List.append_nil]
      have hne : sliceText p.1 p.2 ≠ [] := by simp [sliceText]
      rw [brackets]
      simp only [hrun]
      have hd : (sliceText p.1 p.2 ++ ']' :: bracketsText l).drop (sliceText p.1 p.2).length = ']' :: bracketsText l := List.drop_left' rfl
      have hd2 : (sliceText p.1 p.2 ++ ']' :: bracketsText l).drop ((sliceText p.1 p.2).length + 1) = bracketsText l := by
        rw [← List.drop_drop, hd]; rfl
      rw [if_pos ⟨trivial, hne, by rw [hd]; rfl⟩, hd2, ih n (by simp at hn; omega), List.map_cons]

theorem request_eq (name : Name) (start count : List ℕ) (hc : ∀ c ∈ count, 0 < c) :
    request name start count = name ++ bracketsText (start.zip count) := by
  unfold request bracketsText
  congr 1
  apply List.flatMap_congr
  intro p hp
  have : 0 < p.2 := hc _ (List.of_mem_zip hp).2
  have e : (p.1 : ℤ) + p.2 - 1 = ((p.1 + p.2 - 1 : ℕ) : ℤ) := by omega
  rw [e]
  simp [sliceText]

theorem brackets_chars (l : List (ℕ × ℕ)) : ∀ c ∈ bracketsText l, c.isDigit = true ∨ c = '[' ∨ c = ':' ∨ c = ']' := by
  intro c hc
  simp only [bracketsText, List.mem_flatMap, sliceText, List.mem_cons, List.mem_append, List.not_mem_nil, or_false] at hc
  obtain ⟨p, -, h⟩ := hc
  rcases h with rfl | (h | rfl | h) | rfl
  · simp
  · exact Or.inl (num_digit _ _ h)
  · simp
  · exact Or.inl (num_digit _ _ h)
  · simp

theorem plain_not {n : Name} (h : PlainName n) {c : Char} (hc : c ∈ [',', '[', '.']) : c ∉ n := by
  intro hn
  have := h.2 c hn
  simp only [List.mem_cons, List.not_mem_nil, or_false] at hc
  rcases hc with rfl | rfl | rfl <;> revert this <;> decide

/-- a request for a part of one variable -/
theorem fieldsOf_request (ds : Data) (name : Name) (hp : PlainName name) (l : List (ℕ × ℕ)) (hl : ∀ p ∈ l, 0 < p.2) :
    fieldsOf ds (name ++ bracketsText l) = addVar ds [] name (l.map fun p => part p.1 p.2) true := by
  have h1 : ',' ∉ name ++ bracketsText l := by
    intro h
    rcases List.mem_append.mp h with h | h
    · exact plain_not hp (by decide) h
    · exact absurd (brackets_chars l _ h) (by decide)
  have hne : name ++ bracketsText l ≠ [] := by simp [hp.1]
  have h2 : (name ++ bracketsText l).takeWhile (fun c => decide (c ≠ '[')) = name := by
    rw [List.takeWhile_append_of_pos (fun c hc => by
      have : c ≠ '[' := by rintro rfl; exact plain_not hp (by decide) hc
      simp [this])]
    cases l with
    | nil => simp [bracketsText]
    | cons p l => simp [bracketsText]
  have h3 : (l.map fun p => sliceText p.1 p.2).mapM parseSlice = some (l.map fun p => part p.1 p.2) := by
    clear * - hl
    induction l with
    | nil => rfl
    | cons p l ih => simp [parseSlice_text p.1 p.2 (hl p (by simp)), ih fun p hp => hl p (by simp [hp])]
  unfold fieldsOf
  rw [if_neg hne, splitOn_one _ _ h1]
  simp only [List.foldlM_cons, List.foldlM_nil]
  have : addArg ds [] (name ++ bracketsText l) = addVar ds [] name (l.map fun p => part p.1 p.2) true := by
    unfold addArg
    simp only [h2]
    rw [List.drop_left' rfl, brackets_text l _ (by simp; omega), h3, Option.bind_some, splitOn_one '.' name (plain_not hp (by decide))]
  rw [this]
  cases addVar ds [] name (l.map fun p => part p.1 p.2) true <;> rfl

/-! ### fields of a request -/

theorem find_var (ds : Data) (hs : Servable ds) (v : VarD) (hv : v ∈ ds.vars) : ds.find v.name = some v := by
  have hn : (ds.vars.map VarD.name).Nodup := (List.nodup_append.mp hs.once).2.1
  have : ds.vars.find? (fun w => decide (w.name = v.name)) = some v := by
    revert hn hv
    generalize ds.vars = l
    intro hv hn
    induction l with
    | nil => simp at hv
    | cons w l ih =>
      rw [List.find?_cons]
      by_cases h : w.name = v.name
      · rcases List.mem_cons.mp hv with rfl | hv
        · simp
        · rw [List.map_cons, List.nodup_cons] at hn
          exact absurd (List.mem_map.mpr ⟨v, hv, h.symm⟩) hn.1
      · simp only [h, decide_false]
        rcases List.mem_cons.mp hv with rfl | hv
        · exact absurd rfl h
        · exact ih hv (by rw [List.map_cons, List.nodup_cons] at hn; exact hn.2)
  unfold Data.find
  rw [this]
  rfl

theorem find_axis (l : List AxisD) (hn : (l.map AxisD.name).Nodup) (a : AxisD) (ha : a ∈ l) :
    l.find? (fun b => decide (b.name = a.name)) = some a := by
  induction l with
  | nil => simp at ha
  | cons w l ih =>
    rw [List.find?_cons]
    by_cases h : w.name = a.name
    · rcases List.mem_cons.mp ha with rfl | ha
      · simp
      · rw [List.map_cons, List.nodup_cons] at hn
        exact absurd (List.mem_map.mpr ⟨a, ha, h.symm⟩) hn.1
    · simp only [h, decide_false]
      rcases List.mem_cons.mp ha with rfl | ha
      · exact absurd rfl h
      · exact ih (by rw [List.map_cons, List.nodup_cons] at hn; exact hn.2) ha

theorem axis_ne_var (ds : Data) (hs : Servable ds) (v : VarD) (hv : v ∈ ds.vars) (a : AxisD) (ha : a ∈ ds.axes) : a.name ≠ v.name := by
  intro h
  exact (List.nodup_append.mp hs.once).2.2 a.name (List.mem_map.mpr ⟨a, ha, rfl⟩) v.name (List.mem_map.mpr ⟨v, hv, rfl⟩) h

theorem find_asVar (ds : Data) (hs : Servable ds) (a : AxisD) (ha : a ∈ ds.axes) : ds.find a.name = some a.asVar := by
  have h1 : ds.vars.find? (fun w => decide (w.name = a.name)) = none := by
    rw [List.find?_eq_none]
    intro w hw h
    exact axis_ne_var ds hs w hw a ha (of_decide_eq_true h).symm
  unfold Data.find
  rw [h1, find_axis ds.axes (List.nodup_append.mp hs.once).1 a ha]
  rfl

theorem lookup_none {β : Type} (l : List (Name × β)) (k : Name) (h : ∀ p ∈ l, p.1 ≠ k) : l.lookup k = none := by
  induction l with
  | nil => rfl
  | cons p l ih =>
    obtain ⟨a, b⟩ := p
    rw [List.lookup_cons]
    have : (k == a) = false := by simpa using fun e => h (a, b) (by simp) e.symm
    rw [this]
    exact ih fun p hp => h p (by simp [hp])

theorem setKey_new {β : Type} (l : List (Name × β)) (k : Name) (b : β) (h : ∀ p ∈ l, p.1 ≠ k) : setKey k b l = l ++ [(k, b)] := by
  induction l with
  | nil => rfl
  | cons p l ih => rw [setKey, if_neg (h p (by simp)), ih fun p hp => h p (by simp [hp])]; rfl

theorem lookup_last {β : Type} (l : List (Name × β)) (k : Name) (b : β) (h : ∀ p ∈ l, p.1 ≠ k) : (l ++ [(k, b)]).lookup k = some b := by
  induction l with
  | nil => simp
  | cons p l ih =>
    obtain ⟨a, c⟩ := p
    rw [List.cons_append, List.lookup_cons]
    have : (k == a) = false := by simpa using fun e => h (a, c) (by simp) e.symm
    rw [this]
    exact ih fun p hp => h p (by simp [hp])

theorem setKey_last {β : Type} (l : List (Name × β)) (k : Name) (b c : β) (h : ∀ p ∈ l, p.1 ≠ k) : setKey k c (l ++ [(k, b)]) = l ++ [(k, c)] := by
  induction l with
  | nil => simp [setKey]
  | cons p l ih => rw [List.cons_append, setKey, if_neg (h p (by simp)), ih fun p hp => h p (by simp [hp])]; rfl

/-- the fields after a variable and some of its axes were added -/
theorem addAxes (ds : Data) (hs : Servable ds) (v : VarD) (hv : v ∈ ds.vars) (l : List (AxisD × PySlice)) (hl : ∀ p ∈ l, p.1 ∈ v.axes)
    (f : Fields) (hf : ∀ p ∈ f, p.1 ≠ v.name)
    (x : List (Name × List PySlice)) (hx : ∀ p ∈ l, ∀ q ∈ x, q.1 ≠ p.1.name) (hn : (l.map fun p => p.1.name).Nodup) :
    l.foldlM (fun f p => addAxis ds f v.name p.1.name [p.2]) (f ++ [(v.name, x)]) =
      some (f ++ [(v.name, x ++ l.map fun p => (p.1.name, [p.2]))]) := by
  induction l generalizing x with
  | nil => simp
  | cons p l ih =>
    have h1 : addAxis ds (f ++ [(v.name, x)]) v.name p.1.name [p.2] = some (f ++ [(v.name, x ++ [(p.1.name, [p.2])])]) := by
      unfold addAxis
      rw [find_var ds hs v hv, Option.bind_some, if_pos (List.any_eq_true.mpr ⟨p.1, hl p (by simp), by simp⟩)]
      simp only [List.cons_ne_nil, if_false, List.length_singleton, ne_eq, not_true_eq_false]
      unfold addPart
      have hlk : List.lookup v.name (f ++ [(v.name, x)]) = some x := lookup_last f _ _ hf
      have hnew : x.lookup p.1.name = none := lookup_none _ _ (hx p (by simp))
      simp only [hlk, Option.getD_some, hnew]
      rw [setKey_new x _ _ (hx p (by simp)), setKey_last f _ _ _ hf]
    rw [List.map_cons, List.nodup_cons] at hn
    rw [List.foldlM_cons, h1]
    change List.foldlM _ _ l = _
    rw [ih (fun p hp => hl p (by simp [hp])) _ ?_ hn.2]
    · simp
    · intro q hq r hr
      rcases List.mem_append.mp hr with hr | hr
      · exact hx q (by simp [hq]) r hr
      · simp only [List.mem_singleton] at hr
        subst hr
        intro e
        exact hn.1 (List.mem_map.mpr ⟨q, hq, e.symm⟩)

/-- what is asked of a variable and its axes -/
def fieldsVar (v : VarD) (sl : List PySlice) : List (Name × List PySlice) := (v.name, sl) :: (v.axes.zip sl).map fun p => (p.1.name, [p.2])

theorem zip_names (v : VarD) (sl : List PySlice) (hl : sl.length = v.axes.length) :
    ((v.axes.zip sl).map fun p => p.1.name) = v.axes.map AxisD.name := by
  have : (v.axes.zip sl).map Prod.fst = v.axes := List.map_fst_zip (by omega)
  conv_rhs => rw [← this, List.map_map]
  rfl

/-- the slices of a request for all of a variable -/
def slicesOf (v : VarD) (sl : List PySlice) : List PySlice := if sl = [] then v.axes.map fun _ => full else sl

theorem addVar_var (ds : Data) (hs : Servable ds) (v : VarD) (hv : v ∈ ds.vars) (sl : List PySlice) (hl : (slicesOf v sl).length = v.axes.length)
    (f : Fields) (hf : ∀ p ∈ f, p.1 ≠ v.name) :
    addVar ds f v.name sl true = some (f ++ [(v.name, fieldsVar v (slicesOf v sl))]) := by
  have h1 : addPart f v.name v.name (slicesOf v sl) = some (f ++ [(v.name, [(v.name, slicesOf v sl)])]) := by
    unfold addPart
    rw [lookup_none f _ hf]
    simp only [Option.getD_none, List.lookup_nil]
    rw [setKey_new f _ _ hf]
    rfl
  unfold addVar
  rw [find_var ds hs v hv, Option.bind_some]
  change (if (slicesOf v sl).length ≠ v.axes.length then none else _) = _
  rw [if_neg (by simpa using hl)]
  change (addPart f v.name v.name (slicesOf v sl)).bind _ = _
  rw [h1, Option.bind_some, if_pos ⟨rfl, List.any_eq_true.mpr ⟨v, hv, by simp⟩⟩]
  change List.foldlM _ _ (v.axes.zip (slicesOf v sl)) = _
  rw [addAxes ds hs v hv _ ?_ f hf]
  · rfl
  · intro p hp q hq
    simp only [List.mem_singleton] at hq
    subst hq
    exact (axis_ne_var ds hs v hv p.1 (hs.known v hv _ (List.of_mem_zip hp).1)).symm
  · rw [zip_names v _ hl]; exact hs.own v hv
  · intro p hp; exact (List.of_mem_zip hp).1

theorem addVar_axis (ds : Data) (hs : Servable ds) (a : AxisD) (ha : a ∈ ds.axes) (f : Fields) (hf : ∀ p ∈ f, p.1 ≠ a.name) :
    addVar ds f a.name [] true = some (f ++ [(a.name, [(a.name, [full])])]) := by
  unfold addVar
  rw [find_asVar ds hs a ha, Option.bind_some]
  have e : ((if ([] : List PySlice) = [] then a.asVar.axes.map fun _ => full else []) : List PySlice) = [full] := rfl
  rw [e]
  have h0 : ¬ ds.vars.any (fun v => decide (v.name = a.name)) = true := by
    rw [List.any_eq_true]
    rintro ⟨w, hw, h⟩
    exact axis_ne_var ds hs w hw a ha (of_decide_eq_true h).symm
  have h1 : addPart f a.name a.name [full] = some (f ++ [(a.name, [(a.name, [full])])]) := by
    unfold addPart
    rw [lookup_none f _ hf]
    simp only [Option.getD_none, List.lookup_nil]
    rw [setKey_new f _ _ hf]
    rfl
  rw [if_neg (by simp [AxisD.asVar]), h1, Option.bind_some, if_neg (by simp [h0])]

end OpenDap
end PyGeode
