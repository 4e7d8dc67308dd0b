/-
Property C147: a request to a directory served by OPeNDAP reaches its dataset.
-/
import Verif.Model.DapRoute
import Verif.Spec.DapRoute
import Verif.Props.OpenDapUse
import Verif.Props.OpenDapAtts

namespace PyGeode
namespace DapRoute
open NArr Cf OpenDap Spec

/-! ### paths -/

theorem ext_dot {e : Name} (h : IsDapExt e) : ∃ t, e = '.' :: t ∧ '.' ∉ t ∧ '?' ∉ e ∧ e ≠ [] ∧ '/' ∉ e := by
  rcases h with rfl | rfl | rfl
  · exact ⟨"das".toList, by decide⟩
  · exact ⟨"dds".toList, by decide⟩
  · exact ⟨"dods".toList, by decide⟩

/-- a name with an extension at the beginning of another: they are the same, or the longer name begins with both -/
theorem prefix_cases (n n' t t' : Name) (ht : '.' ∉ t) (ht' : '.' ∉ t') (h : n' ++ '.' :: t' <+: n ++ '.' :: t) :
    n = n' ∨ n' ++ '.' :: t' <+: n := by
  obtain ⟨w, hw⟩ := h
  rw [List.append_assoc, List.append_eq_append_iff] at hw
  rcases hw with ⟨a, hn, ha⟩ | ⟨a, hn, ha⟩
  · cases a with
    | nil => left; simpa using hn
    | cons x a =>
      right
      simp only [List.cons_append, List.cons.injEq] at ha
      obtain ⟨rfl, ha⟩ := ha
      rw [List.append_eq_append_iff] at ha
      rcases ha with ⟨c, hc, -⟩ | ⟨c, hc, hd⟩
      · exact ⟨c, by rw [hn, hc]; simp⟩
      · cases c with
        | nil => exact ⟨[], by rw [hn, hc]; simp⟩
        | cons y c =>
          simp only [List.cons_append, List.cons.injEq] at hd
          exact absurd (by rw [hc, hd.1]; simp) ht'
  · cases a with
    | nil => left; simpa using hn.symm
    | cons x a =>
      simp only [List.cons_append, List.cons.injEq] at ha
      exact absurd (by rw [ha.2]; simp) ht

/-- what follows a question mark does not matter for such a beginning -/
theorem prefix_query (p q r : Name) (hp : '?' ∉ p) (h : p <+: q ++ '?' :: r) : p <+: q := by
  obtain ⟨w, hw⟩ := h
  rw [List.append_eq_append_iff] at hw
  rcases hw with ⟨a, hn, -⟩ | ⟨a, hn, ha⟩
  · exact ⟨a, hn.symm⟩
  · cases a with
    | nil => exact ⟨[], by simp [hn]⟩
    | cons x a =>
      simp only [List.cons_append, List.cons.injEq] at ha
      exact absurd (by rw [hn, ← ha.1]; simp) hp

theorem rsplit_query (a b : Name) (hb : '?' ∉ b) : rsplit (a ++ '?' :: b) = (a, b) := by
  have e : (a ++ '?' :: b).reverse = b.reverse ++ '?' :: a.reverse := by simp
  have hb' : ∀ c ∈ b.reverse, (decide (c ≠ '?')) = true := by
    intro c hc
    rw [List.mem_reverse] at hc
    rw [decide_eq_true_eq]
    rintro rfl
    exact hb hc
  unfold rsplit
  rw [if_pos (by simp), e, List.dropWhile_append_of_pos hb', List.takeWhile_append_of_pos hb']
  simp

theorem rsplit_plain (a : Name) (ha : '?' ∉ a) : rsplit a = (a, []) := by unfold rsplit; rw [if_neg ha]

theorem splitExt_ext (p e : Name) (h : IsDapExt e) : splitExt (p ++ e) = some (p, e) := by
  have hf : extensions.find? (fun e' => decide (e' <:+ p ++ e)) = some e := by
    have key : ∀ e', e' <:+ p ++ e → e' <:+ e ∨ e <:+ e' := fun e' h' => by
      rcases Nat.le_total e'.length e.length with hl | hl
      · exact .inl (List.suffix_of_suffix_length_le h' (List.suffix_append p e) hl)
      · exact .inr (List.suffix_of_suffix_length_le (List.suffix_append p e) h' hl)
    have no : ∀ e', ¬ (e' <:+ e ∨ e <:+ e') → decide (e' <:+ p ++ e) = false := fun e' hn => by
      simpa using fun h' => hn (key e' h')
    unfold extensions
    rcases h with rfl | rfl | rfl
    · rw [List.find?_cons_of_pos (by simp)]
    · rw [List.find?_cons_of_neg (by rw [no _ (by decide)]; decide), List.find?_cons_of_pos (by simp)]
    · rw [List.find?_cons_of_neg (by rw [no _ (by decide)]; decide), List.find?_cons_of_neg (by rw [no _ (by decide)]; decide),
        List.find?_cons_of_pos (by simp)]
  unfold splitExt
  rw [hf]
  simp

/-! ### the entry that takes a request -/

theorem findIdx_of_unique {β : Type} (l : List β) (p : β → Bool) (i : ℕ) (hi : i < l.length) (h : p l[i] = true)
    (hu : ∀ j (hj : j < l.length), j ≠ i → p l[j] = false) : l.findIdx? p = some i := by
  rw [List.findIdx?_eq_some_iff_getElem]
  refine ⟨hi, h, fun j hj => ?_⟩
  simp [hu j (by omega) (by omega)]

/-- the entry of a name takes a request, and no other does: it is asked -/
theorem ask_of (nodes : List (Name × Node)) (hn : (nodes.map Prod.fst).Nodup) (n : Name) (d : Data) (hd : (n, Node.data d) ∈ nodes)
    (r : Name) (hr : r ≠ [] ∧ r ≠ ['/']) (h : takes r (n, .data d) = true)
    (ho : ∀ p ∈ nodes, p.1 ≠ n → takes r p = false) : ask nodes r = some (d, parse r) := by
  obtain ⟨i, hi, hnd⟩ := List.getElem_of_mem hd
  have hu : ∀ j (hj : j < nodes.length), j ≠ i → takes r nodes[j] = false := by
    intro j hj hne
    refine ho _ (List.getElem_mem hj) fun e => hne ?_
    have := (List.nodup_iff_injective_getElem.mp hn) (a₁ := ⟨j, by simpa using hj⟩) (a₂ := ⟨i, by simpa using hi⟩)
      (by simp [e, hnd])
    simpa using this
  unfold ask route
  rw [if_neg (by tauto), findIdx_of_unique nodes (takes r) i hi (by rw [hnd]; exact h) hu]
  simp [List.getElem?_eq_getElem hi, hnd]

/-- the requests for something of a dataset: with arguments after a question mark, or without -/
theorem ask_ext (nodes : List (Name × Node)) (hu : Unambiguous (nodes.map Prod.fst)) (n : Name) (d : Data) (hd : (n, Node.data d) ∈ nodes)
    (e : Name) (he : IsDapExt e) (rest : Name) (hrest : rest = [] ∨ ∃ args, rest = '?' :: args) :
    ask nodes ('/' :: n ++ e ++ rest) = some (d, parse ('/' :: n ++ e ++ rest)) := by
  obtain ⟨t, het, ht, hq, hne, hsl⟩ := ext_dot he
  have hmem : n ∈ nodes.map Prod.fst := List.mem_map.mpr ⟨_, hd, rfl⟩
  refine ask_of nodes hu.nodup n d hd _ ⟨by simp, by simp [het]⟩ ?_ ?_
  · have hp : '/' :: n ++ e <+: '/' :: n ++ e ++ rest := List.prefix_append _ _
    unfold takes
    rcases he with rfl | rfl | rfl
    · rw [decide_eq_true (p := '/' :: n ++ ".das".toList <+: _) hp]; simp
    · rw [decide_eq_true (p := '/' :: n ++ ".dds".toList <+: _) hp]; simp
    · rw [decide_eq_true (p := '/' :: n ++ ".dods".toList <+: _) hp]; simp
  · rintro ⟨n', x⟩ hp hne'
    have hmem' : n' ∈ nodes.map Prod.fst := List.mem_map.mpr ⟨_, hp, rfl⟩
    have key : ∀ e', IsDapExt e' → ¬ '/' :: n' ++ e' <+: '/' :: n ++ e ++ rest := by
      intro e' he' h
      obtain ⟨t', het', ht', hq', -⟩ := ext_dot he'
      have h1 : n' ++ e' <+: n ++ e ++ rest := by simpa using h
      have h2 : n' ++ e' <+: n ++ e := by
        rcases hrest with rfl | ⟨args, rfl⟩
        · simpa using h1
        · exact prefix_query _ _ args (by simp [hu.noQuery n' hmem', hq']) h1
      rw [het, het'] at h2
      rcases prefix_cases n n' t t' ht ht' h2 with h3 | h3
      · exact hne' h3.symm
      · exact hu.free n hmem n' hmem' e' he' (het' ▸ h3)
    have eqn : '/' :: n ++ e ++ rest ≠ '/' :: n' := by
      intro h
      have h1 : n ++ e ++ rest = n' := by simpa using h
      exact hu.free n' hmem' n hmem e he ⟨rest, h1⟩
    unfold takes
    simp only [decide_eq_false (key _ (.inl rfl)), decide_eq_false (key _ (.inr (.inl rfl))), decide_eq_false (key _ (.inr (.inr rfl))),
      decide_eq_false eqn, Bool.or_self, Bool.false_and]

theorem parse_ext (n e : Name) (hn : '?' ∉ n) (he : IsDapExt e) : parse ('/' :: n ++ e) = some ⟨e.drop 1, n, []⟩ := by
  obtain ⟨t, het, ht, hq, hne, hsl⟩ := ext_dot he
  unfold parse
  rw [rsplit_plain _ (by simp [hn, hq])]
  change (splitExt ('/' :: n ++ e)).map _ = _
  rw [splitExt_ext _ _ he]
  rfl

theorem parse_args (n e args : Name) (he : IsDapExt e) (ha : '?' ∉ args) :
    parse ('/' :: n ++ e ++ '?' :: args) = some ⟨e.drop 1, n, args⟩ := by
  unfold parse
  rw [rsplit_query _ _ ha]
  change (splitExt ('/' :: n ++ e)).map _ = _
  rw [splitExt_ext _ _ he]
  rfl

/-- C147: a request for a dataset of the directory, its kind and arguments reaches that dataset with them, whatever else the directory has
and in whatever order -/
theorem ask_correct (nodes : List (Name × Node)) (hu : Unambiguous (nodes.map Prod.fst)) (n : Name) (d : Data)
    (hd : (n, Node.data d) ∈ nodes) (e : Name) (he : IsDapExt e) :
    ask nodes ('/' :: n ++ e) = some (d, some ⟨e.drop 1, n, []⟩) ∧
      ∀ args, '?' ∉ args → ask nodes ('/' :: n ++ e ++ '?' :: args) = some (d, some ⟨e.drop 1, n, args⟩) := by
  constructor
  · have := ask_ext nodes hu n d hd e he [] (.inl rfl)
    rw [List.append_nil] at this
    rw [this, parse_ext n e (hu.noQuery n (List.mem_map.mpr ⟨_, hd, rfl⟩)) he]
  · intro args ha
    rw [ask_ext nodes hu n d hd e he _ (.inr ⟨args, rfl⟩), parse_args n e args he ha]

/-- C147: the address of the dataset alone, typed into a browser, gives the page for browsers -/
theorem ask_page (nodes : List (Name × Node)) (hu : Unambiguous (nodes.map Prod.fst)) (n : Name) (d : Data)
    (hd : (n, Node.data d) ∈ nodes) (hne : n ≠ []) (hx : ∀ e, IsDapExt e → ¬ e <:+ n) : ask nodes ('/' :: n) = some (d, none) := by
  have hmem : n ∈ nodes.map Prod.fst := List.mem_map.mpr ⟨_, hd, rfl⟩
  rw [ask_of nodes hu.nodup n d hd _ ⟨by simp, by simpa using hne⟩]
  · unfold parse
    rw [rsplit_plain _ (by simp [hu.noQuery n hmem])]
    have : splitExt ('/' :: n) = none := by
      unfold splitExt
      rw [Option.map_eq_none_iff, List.find?_eq_none]
      intro e he
      have he : IsDapExt e := by
        simp only [extensions, List.mem_cons, List.not_mem_nil, or_false] at he
        exact he
      obtain ⟨-, -, -, -, -, hsl⟩ := ext_dot he
      rw [decide_eq_true_eq, List.suffix_cons_iff]
      rintro (h | h)
      · exact hsl (h ▸ by simp)
      · exact hx e he h
    simp [this]
  · simp [takes, Node.isDir]
  · rintro ⟨n', x⟩ hp hne'
    have hmem' : n' ∈ nodes.map Prod.fst := List.mem_map.mpr ⟨_, hp, rfl⟩
    have key : ∀ e', IsDapExt e' → ¬ '/' :: n' ++ e' <+: '/' :: n := fun e' he' h =>
      hu.free n hmem n' hmem' e' he' (by simpa using h)
    have eqn : '/' :: n ≠ '/' :: n' := fun h => hne' (by simpa using h.symm)
    unfold takes
    simp only [decide_eq_false (key _ (.inl rfl)), decide_eq_false (key _ (.inr (.inl rfl))), decide_eq_false (key _ (.inr (.inr rfl))),
      decide_eq_false eqn, Bool.or_self, Bool.false_and]

/-! ### opening and reading -/

theorem sentText_eq (nodes : List (Name × Node)) (hu : Unambiguous (nodes.map Prod.fst)) (n : Name) (d : Data)
    (hd : (n, Node.data d) ∈ nodes) : sentText nodes ('/' :: n ++ ".dds".toList) = dds d n [] := by
  unfold sentText
  rw [(ask_correct nodes hu n d hd _ (.inr (.inl rfl))).1]
  rfl

theorem sentData_eq (toDouble : ℤ → ℕ) (limit : ℕ) (nodes : List (Name × Node)) (hu : Unambiguous (nodes.map Prod.fst)) (n : Name) (d : Data)
    (hd : (n, Node.data d) ∈ nodes) (args : Name) (ha : '?' ∉ args) :
    sentData toDouble limit nodes ('/' :: n ++ ".dods".toList ++ '?' :: args) = dods toDouble limit d n args := by
  unfold sentData
  rw [(ask_correct nodes hu n d hd _ (.inr (.inr rfl))).2 args ha]
  rfl

theorem plain_noQuery {n : Name} (h : PlainName n) : '?' ∉ n := fun hm => by
  rcases h.2 _ hm with h | h | h | h
  · exact absurd h (by decide)
  all_goals exact absurd h (by decide)

theorem digits_noQuery (z : ℤ) : '?' ∉ fmtInt 0 z := fun hm => by
  have := (fmtInt_word z).2 _ hm
  exact absurd this (by decide)

/-- C147: opening the address of a dataset in a directory gives the axes with their values and the variables of this dataset -/
theorem openUrl_correct (toDouble : ℤ → ℕ) (hdb : ∀ z, toDouble z < 2 ^ 64) (limit : ℕ) (hl : 1 ≤ limit)
    (nodes : List (Name × Node)) (hu : Unambiguous (nodes.map Prod.fst)) (n : Name) (hf : ∀ c ∈ n, c ≠ '"' ∧ c ≠ '\'' ∧ c ≠ ':')
    (d : Data) (hd : (n, Node.data d) ∈ nodes) (hs : Servable d)
    (ha : ∀ a ∈ d.axes, Carried a.type ∧ (∀ z ∈ a.values, Carries a.type z) ∧ a.values.length < 2 ^ 31) :
    openUrl toDouble limit nodes n =
      some { axes := d.axes.map fun a => (a.name, a.values.map (arrives toDouble a.type))
             vars := d.vars.map fun v => (v.name, dap2np (np2dap v.type), v.axes.map AxisD.name) } := by
  unfold openUrl
  rw [sentText_eq nodes hu n d hd]
  refine open_server toDouble hdb limit hl d hs _ n (fun a hm => ?_) hf ha
  exact sentData_eq toDouble limit nodes hu n d hd _ (plain_noQuery (hs.plain _ (List.mem_append_left _ (List.mem_map_of_mem hm))))

/-- C147: reading a box of a variable of a dataset in a directory gives the values of that box of this variable of this dataset -/
theorem readUrl_correct (toDouble : ℤ → ℕ) (hdb : ∀ z, toDouble z < 2 ^ 64) (limit : ℕ) (hl : 1 ≤ limit)
    (nodes : List (Name × Node)) (hu : Unambiguous (nodes.map Prod.fst)) (n : Name) (hf : ∀ c ∈ n, c ≠ '"' ∧ c ≠ '\'' ∧ c ≠ ':')
    (d : Data) (hd : (n, Node.data d) ∈ nodes) (hs : Servable d) (v : VarD) (hv : v ∈ d.vars) (ht : Carried v.type)
    (hval : ∀ k, InBounds v.shape k → Carries v.type (v.data k)) (box : List (ℕ × ℕ))
    (hb : List.Forall₂ (fun (a : AxisD) (p : ℕ × ℕ) => 0 < p.2 ∧ p.1 + p.2 ≤ a.values.length) v.axes box)
    (hsize : (box.map Prod.snd).prod < 2 ^ 31) :
    readUrl toDouble limit nodes n v.name (box.map Prod.fst) (box.map Prod.snd) =
      some (box.map fun p => (p.2 : ℤ), (product (box.map fun p => List.range p.2)).map fun k =>
        arrives toDouble v.type (v.data (List.zipWith (· + ·) (box.map Prod.fst) k))) := by
  rw [← getvalues_correct toDouble hdb limit hl d hs n hf v hv ht hval box hb hsize]
  unfold readUrl getvalues
  beta_reduce
  rw [sentData_eq toDouble limit nodes hu n d hd]
  unfold request
  rw [List.mem_append, not_or]
  refine ⟨plain_noQuery (hs.plain _ (List.mem_append_right _ (List.mem_map_of_mem hv))), ?_⟩
  rw [List.mem_flatMap]
  rintro ⟨p, -, hp⟩
  simp only [List.mem_append, List.mem_singleton] at hp
  rcases hp with (((h | h) | h) | h) | h
  · exact absurd h (by decide)
  · exact digits_noQuery _ h
  · exact absurd h (by decide)
  · exact digits_noQuery _ h
  · exact absurd h (by decide)

/-! ### a directory, and where it fails -/

/-- two datasets and a directory -/
def exNodes : List (Name × Node) := [("a.nc".toList, .data ⟨[exLev], []⟩), ("a".toList, .data exServed), ("b".toList, .dir)]

theorem exNodes_unambiguous : Unambiguous (exNodes.map Prod.fst) where
  nodup := by decide
  noQuery := by decide
  free := by
    rintro n hn n' hn' e (rfl | rfl | rfl)
    all_goals
      revert n n'
      decide

example (toDouble : ℤ → ℕ) (hd : ∀ z, toDouble z < 2 ^ 64) :
    openUrl toDouble 4 exNodes "a.nc".toList = some ⟨[("lev".toList, [-5, 7, 9])], []⟩ :=
  openUrl_correct toDouble hd 4 (by decide) exNodes exNodes_unambiguous "a.nc".toList (by decide) ⟨[exLev], []⟩ (by simp [exNodes])
    { plain := by unfold PlainName; decide
      once := by decide
      words := by decide
      known := by simp
      own := by simp
      values := by decide } (by
    intro a ha
    simp only [List.mem_cons, List.not_mem_nil, or_false] at ha
    subst ha
    exact ⟨⟨by decide, by decide⟩, by simp [exLev, Carries], by decide⟩)

example : ask exNodes "/a.dods?temp[0:1][0:0]".toList = some (exServed, some ⟨"dods".toList, "a".toList, "temp[0:1][0:0]".toList⟩) :=
  (ask_correct exNodes exNodes_unambiguous "a".toList exServed (by simp [exNodes]) ".dods".toList (.inr (.inr rfl))).2
    "temp[0:1][0:0]".toList (by decide)

/-- C147 fails if a dataset is named like another followed by an extension: the other one answers all its requests -/
theorem clash_violated (d d' : Data) (args : Name) (ha : '?' ∉ args) :
    ask [("a".toList, .data d), ("a.dds".toList, .data d')] ("/a.dds.dods".toList ++ '?' :: args) =
      some (d, some ⟨"dods".toList, "a.dds".toList, args⟩) := by
  have h1 := parse_args "a.dds".toList ".dods".toList args (.inr (.inr rfl)) ha
  have h2 : takes ("/a.dds.dods".toList ++ '?' :: args) ("a".toList, .data d) = true := by
    have : '/' :: "a".toList ++ ".dds".toList <+: "/a.dds.dods".toList ++ '?' :: args := ⟨".dods".toList ++ '?' :: args, rfl⟩
    unfold takes
    rw [decide_eq_true this]
    rfl
  unfold ask route
  rw [if_neg (by simp), List.findIdx?_cons, h2]
  simp only [if_true, List.getElem?_cons_zero, Option.bind_some]
  exact congrArg (fun x => some (d, x)) h1

/-- C147 fails for arguments with a question mark: instead of data or an error the page for browsers is sent -/
theorem query_violated (d : Data) : ask [("a".toList, .data d)] "/a.dods?x?y".toList = some (d, none) := by
  have h1 : parse "/a.dods?x?y".toList = none := by decide
  have h2 : route [("a".toList, .data d)] "/a.dods?x?y".toList = .node 0 := by
    unfold route
    rw [if_neg (by decide), List.findIdx?_cons]
    have : takes "/a.dods?x?y".toList ("a".toList, .data d) = true := by unfold takes; simp [List.cons_prefix_cons]
    rw [this]
    rfl
  unfold ask
  rw [h2, h1]
  rfl

/-- something that does not exist is not refused: the page for browsers is sent -/
theorem unknown_violated (d : Data) : ask [("a".toList, .data d)] "/a.ddsx".toList = some (d, none) := by
  have h1 : parse "/a.ddsx".toList = none := by decide
  have h2 : route [("a".toList, .data d)] "/a.ddsx".toList = .node 0 := by
    unfold route
    rw [if_neg (by decide), List.findIdx?_cons]
    have : takes "/a.ddsx".toList ("a".toList, .data d) = true := by unfold takes; simp [List.cons_prefix_cons]
    rw [this]
    rfl
  unfold ask
  rw [h2, h1]
  rfl

end DapRoute
end PyGeode
