/-
The manifest of the file scanner: which histories of writes, runs and crashes it survives.
-/
import Mathlib.Tactic
import Verif.Model.Manifest

namespace PyGeode

namespace Spec
open Manifest
variable {P γ : Type} [DecidableEq P]

/-- the table that the next run starts from -/
def known : Disk P γ → P → Option γ
  | .good true t _ => t
  | _ => fun _ => none

/-- a known file has other contents now -/
def Changed (w : World P γ) (f : P) : Prop :=
  ∃ (c : γ) (file : File γ), known w.disk f = some c ∧ w.fs f = some file ∧ file.contents ≠ some c

/-- `f` was written in an earlier second than `g` -/
def EarlierSecond (w : World P γ) (f g : P) : Prop :=
  ∀ a b : File γ, w.fs f = some a → w.fs g = some b → ⌊a.mtime⌋ < ⌊b.mtime⌋

/-- What keeps a manifest right (`r`: the time of the last run):
* files are not written or removed while a run goes on, nor written in the second of the last run, and get the time of the writing
  as modification time;
* a run lists all the files that changed, and those that changed after all the files of earlier seconds. -/
def CarefulEvent (norm : P → P) (r : ℚ) (w : World P γ) : Event P γ → Prop
  | .write _ _ m t => w.proc = none ∧ m = t ∧ ⌊r⌋ < ⌊t⌋
  | .remove _ => w.proc = none
  | .start files _ => (∀ f, Changed w f → f ∈ files.map norm) ∧
      (files.map norm).Pairwise fun f g => f ≠ g → Changed w g → EarlierSecond w f g
  | _ => True

/-- the time of the last run -/
def lastRun (r : ℚ) : Event P γ → ℚ
  | .start _ t => t
  | .writeData t => t
  | _ => r

def Careful (norm : P → P) : ℚ → World P γ → List (Event P γ) → Prop
  | _, _, [] => True
  | r, w, e :: es => CarefulEvent norm r w e ∧ ∀ w', step norm w e = some w' → Careful norm (lastRun r e) w' es

/-- the table says what is in the file now -/
def Current (w : World P γ) (t : P → Option γ) (f : P) : Prop :=
  ∃ (file : File γ) (c : γ), w.fs f = some file ∧ file.contents = some c ∧ t f = some c

end Spec

namespace Manifest
open Spec
variable {P γ : Type} [DecidableEq P]

/-- every entry of the table is right, or its file is seen to have changed -/
def Detect (fs : P → Option (File γ)) (t : P → Option γ) (m : ℚ) : Prop :=
  ∀ (f : P) (c : γ) (file : File γ), t f = some c → fs f = some file → file.contents ≠ some c → m < (⌊file.mtime⌋ : ℚ)

def Stale (fs : P → Option (File γ)) (t : P → Option γ) (f : P) : Prop :=
  ∃ (c : γ) (file : File γ), t f = some c ∧ fs f = some file ∧ file.contents ≠ some c

structure Inv (norm : P → P) (r : ℚ) (w : World P γ) : Prop where
  times : ∀ f file, w.fs f = some file → file.mtime ≤ w.clock
  rclock : r ≤ w.clock
  rpos : 0 ≤ r
  disk : ∀ t m, w.disk = .good true t m → Detect w.fs t m ∧ m < (⌊r⌋ : ℚ) + 1
  version : ∀ t m, w.disk ≠ .good false t m
  bound : ∀ p, w.proc = some p → p.sess.mtime < (⌊r⌋ : ℚ) + 1 ∧ ∀ f file, w.fs f = some file → file.mtime ≤ r
  scan : ∀ p, w.proc = some p → p.phase = .scanning → Detect w.fs p.sess.table p.sess.mtime ∧
    (∀ f, Stale w.fs p.sess.table f → f ∈ p.todo) ∧
    (p.todo.Pairwise fun f g => f ≠ g → Stale w.fs p.sess.table g → EarlierSecond w f g) ∧
    ∀ f ∈ p.sess.selected.map norm, f ∈ p.todo ∨ Current w p.sess.table f
  save : ∀ p, w.proc = some p → p.phase ≠ .scanning → p.todo = [] ∧ (∀ f, ¬ Stale w.fs p.sess.table f) ∧
    ∀ f ∈ p.sess.selected.map norm, Current w p.sess.table f

theorem floor_lt_of {r t : ℚ} (h : ⌊r⌋ < ⌊t⌋) {m : ℚ} (hm : m < (⌊r⌋ : ℚ) + 1) : m < (⌊t⌋ : ℚ) := by
  have : (⌊r⌋ : ℚ) + 1 ≤ (⌊t⌋ : ℚ) := by exact_mod_cast h
  linarith

theorem detect_of_no_stale {fs : P → Option (File γ)} {t : P → Option γ} (h : ∀ f, ¬ Stale fs t f) (m : ℚ) : Detect fs t m :=
  fun f c file h1 h2 h3 => absurd ⟨c, file, h1, h2, h3⟩ (h f)

theorem known_good {t : P → Option γ} {m : ℚ} : known (.good true t m) = t := rfl

theorem Inv.step {norm : P → P} {r : ℚ} {w w' : World P γ} {e : Event P γ} (hi : Inv norm r w) (hc : CarefulEvent norm r w e)
    (hs : step norm w e = some w') : Inv norm (lastRun r e) w' := by
  cases e with
  | write f c m t =>
    obtain ⟨hp, hm, hf⟩ := hc
    subst hm
    unfold Manifest.step at hs
    dsimp only at hs
    split_ifs at hs with h
    cases hs
    have hrt : r ≤ m := by
      by_contra hlt
      have := Int.floor_le_floor (le_of_lt (not_le.1 hlt))
      omega
    refine ⟨?_, hrt, hi.rpos, ?_, hi.version, ?_, ?_, ?_⟩
    · intro g file hg
      dsimp only at hg
      split_ifs at hg with hgf
      · cases hg; exact le_rfl
      · exact (hi.times g file hg).trans h.1
    · intro T k hd
      obtain ⟨h1, h2⟩ := hi.disk T k hd
      refine ⟨?_, h2⟩
      intro g c' file hT hg hne
      dsimp only at hg
      split_ifs at hg with hgf
      · cases hg; exact floor_lt_of hf h2
      · exact h1 g c' file hT hg hne
    all_goals (intro p hpp; dsimp only at hpp; rw [hp] at hpp; cases hpp)
  | remove f =>
    have hp : w.proc = none := hc
    unfold Manifest.step at hs
    dsimp only at hs
    cases hs
    have hsub : ∀ g file, (if g = f then none else w.fs g) = some file → w.fs g = some file := by
      intro g file hg
      split_ifs at hg
      exact hg
    refine ⟨fun g file hg => hi.times g file (hsub g file hg), hi.rclock, hi.rpos, ?_, hi.version, ?_, ?_, ?_⟩
    · intro T k hd
      obtain ⟨h1, h2⟩ := hi.disk T k hd
      exact ⟨fun g c file hT hg hne => h1 g c file hT (hsub g file hg) hne, h2⟩
    all_goals (intro p hpp; dsimp only at hpp; rw [hp] at hpp; cases hpp)
  | start files t =>
    obtain ⟨hall, hord⟩ := hc
    unfold Manifest.step at hs
    dsimp only at hs
    split at hs
    · cases hs
    · rename_i hp
      split_ifs at hs with ht
      obtain ⟨s, hl, hs⟩ := Option.map_eq_some_iff.1 hs
      cases hs
      have hrt : r ≤ t := hi.rclock.trans ht
      have hfl : (⌊r⌋ : ℚ) ≤ (⌊t⌋ : ℚ) := by exact_mod_cast Int.floor_le_floor hrt
      have ht0 : 0 ≤ t := hi.rpos.trans hrt
      have key : s.table = known w.disk ∧ Detect w.fs s.table s.mtime ∧ s.mtime < (⌊t⌋ : ℚ) + 1 := by
        cases hd : w.disk with
        | absent =>
          rw [hd] at hl
          cases hl
          refine ⟨rfl, (fun f c file (h : none = some c) => by cases h), ?_⟩
          have : (0 : ℚ) ≤ (⌊t⌋ : ℚ) := by exact_mod_cast Int.floor_nonneg.2 ht0
          show (0 : ℚ) < _
          linarith
        | torn => rw [hd] at hl; cases hl
        | good v T k =>
          cases v with
          | false => exact absurd hd (hi.version T k)
          | true =>
            rw [hd] at hl
            cases hl
            obtain ⟨h1, h2⟩ := hi.disk T k hd
            exact ⟨rfl, h1, lt_of_lt_of_le h2 (by linarith)⟩
      obtain ⟨k1, k2, k3⟩ := key
      have hst : ∀ f, Stale w.fs s.table f ↔ Changed w f := fun f => by unfold Stale Changed; rw [k1]
      refine ⟨fun f file h => (hi.times f file h).trans ht, le_rfl, ht0, ?_, hi.version, ?_, ?_, ?_⟩
      · intro T k hd
        obtain ⟨h1, h2⟩ := hi.disk T k hd
        exact ⟨h1, lt_of_lt_of_le h2 (by show _ ≤ (⌊t⌋ : ℚ) + 1; linarith)⟩
      · intro p hpp
        cases hpp
        exact ⟨k3, fun f file h => (hi.times f file h).trans ht⟩
      · intro p hpp _
        cases hpp
        refine ⟨k2, fun f hf => hall f ((hst f).1 hf), ?_, fun f hf => Or.inl hf⟩
        exact hord.imp fun h hne hs => h hne ((hst _).1 hs)
      · intro p hpp hph
        cases hpp
        exact absurd rfl hph
  | scan =>
    unfold Manifest.step at hs
    dsimp only at hs
    split at hs
    · rename_i s f rest hp
      obtain ⟨s', hsc, hs⟩ := Option.map_eq_some_iff.1 hs
      cases hs
      obtain ⟨hb1, hb2⟩ := hi.bound _ hp
      obtain ⟨hdet, hstale, hord, hsel⟩ := hi.scan _ hp rfl
      dsimp only at hb1 hdet hstale hord hsel
      have hsel0 : s'.selected = s.selected := by
        unfold scanOne at hsc
        split at hsc
        · cases hsc
        · split_ifs at hsc
          · cases hsc; rfl
          · split at hsc
            · cases hsc
            · cases hsc; rfl
      refine ⟨hi.times, hi.rclock, hi.rpos, hi.disk, hi.version, ?_, ?_, ?_⟩
      · intro p hpp
        cases hpp
        refine ⟨?_, hb2⟩
        unfold scanOne at hsc
        split at hsc
        · cases hsc
        · rename_i file hfile
          split_ifs at hsc
          · cases hsc; exact hb1
          · split at hsc
            · cases hsc
            · cases hsc
              refine max_lt hb1 ?_
              have : (⌊file.mtime⌋ : ℚ) ≤ (⌊r⌋ : ℚ) := by exact_mod_cast Int.floor_le_floor (hb2 f file hfile)
              show (⌊file.mtime⌋ : ℚ) < (⌊r⌋ : ℚ) + 1
              linarith
      · intro p hpp _
        cases hpp
        dsimp only
        unfold scanOne at hsc
        split at hsc
        · cases hsc
        · rename_i file hfile
          split_ifs at hsc with hskip
          · cases hsc
            obtain ⟨hin, hle⟩ := hskip
            obtain ⟨c, hcf⟩ := Option.isSome_iff_exists.1 hin
            have hcur : file.contents = some c := by
              by_contra hne
              exact hle (hdet f c file hcf hfile hne)
            refine ⟨hdet, ?_, hord.of_cons, ?_⟩
            · intro g hg
              rcases List.mem_cons.1 (hstale g hg) with rfl | h
              · obtain ⟨c', file', h1, h2, h3⟩ := hg
                rw [hcf] at h1; cases h1
                rw [hfile] at h2; cases h2
                exact absurd hcur h3
              · exact h
            · intro g hg
              rcases hsel g hg with h | h
              · rcases List.mem_cons.1 h with rfl | h
                · exact Or.inr ⟨file, c, hfile, hcur, hcf⟩
                · exact Or.inl h
              · exact Or.inr h
          · split at hsc
            · cases hsc
            · rename_i c hcont
              cases hsc
              dsimp only
              have hst : ∀ g, Stale w.fs (fun g => if g = f then some c else s.table g) g → g ≠ f ∧ Stale w.fs s.table g := by
                rintro g ⟨c', file', h1, h2, h3⟩
                dsimp only at h1
                split_ifs at h1 with hgf
                · subst hgf
                  cases h1
                  rw [hfile] at h2; cases h2
                  exact absurd hcont h3
                · exact ⟨hgf, c', file', h1, h2, h3⟩
              rw [List.pairwise_cons] at hord
              refine ⟨?_, ?_, ?_, ?_⟩
              · intro g c' file' h1 h2 h3
                obtain ⟨hgf, hg⟩ := hst g ⟨c', file', h1, h2, h3⟩
                have hgr : g ∈ rest := by
                  rcases List.mem_cons.1 (hstale g hg) with h | h
                  · exact absurd h hgf
                  · exact h
                have h5 := hord.1 g hgr (Ne.symm hgf) hg file file' hfile h2
                obtain ⟨c2, file2, q1, q2, q3⟩ := hg
                rw [h2] at q2; cases q2
                refine max_lt (hdet g c2 file' q1 h2 q3) ?_
                exact_mod_cast h5
              · intro g hg
                obtain ⟨hgf, hg⟩ := hst g hg
                rcases List.mem_cons.1 (hstale g hg) with h | h
                · exact absurd h hgf
                · exact h
              · exact hord.2.imp fun h hne hs => h hne (hst _ hs).2
              · intro g hg
                by_cases hgf : g = f
                · subst hgf
                  exact Or.inr ⟨file, c, hfile, hcont, if_pos rfl⟩
                · rcases hsel g hg with h | ⟨a, b, q1, q2, q3⟩
                  · rcases List.mem_cons.1 h with h | h
                    · exact absurd h hgf
                    · exact Or.inl h
                  · exact Or.inr ⟨a, b, q1, q2, (if_neg hgf).trans q3⟩
      · intro p hpp hph
        cases hpp
        exact absurd rfl hph
    · cases hs
  | openFile =>
    unfold Manifest.step at hs
    dsimp only at hs
    split at hs
    · rename_i s hp
      split_ifs at hs
      cases hs
      obtain ⟨hdet, hstale, -, hsel⟩ := hi.scan _ hp rfl
      refine ⟨hi.times, hi.rclock, hi.rpos, (by intro t m h; cases h), (by intro t m h; cases h), ?_, ?_, ?_⟩
      · intro p hpp
        cases hpp
        exact ⟨(hi.bound _ hp).1, (hi.bound _ hp).2⟩
      · intro p hpp hph
        cases hpp
        cases hph
      · intro p hpp _
        cases hpp
        refine ⟨rfl, fun f hf => by simpa using hstale f hf, fun f hf => ?_⟩
        rcases hsel f hf with h | h
        · cases h
        · exact h
    · cases hs
  | writeData t =>
    unfold Manifest.step at hs
    dsimp only at hs
    split at hs
    · rename_i s hp
      split_ifs at hs with ht
      cases hs
      have hrt : r ≤ t := hi.rclock.trans ht
      have hfl : (⌊r⌋ : ℚ) ≤ (⌊t⌋ : ℚ) := by exact_mod_cast Int.floor_le_floor hrt
      obtain ⟨-, hns, hsel⟩ := hi.save _ hp (by simp)
      obtain ⟨hb1, hb2⟩ := hi.bound _ hp
      refine ⟨fun f file h => (hi.times f file h).trans ht, le_rfl, hi.rpos.trans hrt, ?_, ?_, ?_, ?_, ?_⟩
      · intro T m hd
        cases hd
        exact ⟨detect_of_no_stale hns _, Int.lt_floor_add_one t⟩
      · intro T m hd
        cases hd
      · intro p hpp
        cases hpp
        exact ⟨lt_of_lt_of_le hb1 (by show _ ≤ (⌊t⌋ : ℚ) + 1; linarith), fun f file h => (hb2 f file h).trans hrt⟩
      · intro p hpp hph
        cases hpp
        cases hph
      · intro p hpp _
        cases hpp
        exact ⟨rfl, hns, hsel⟩
    · cases hs
  | setTime =>
    unfold Manifest.step at hs
    dsimp only at hs
    split at hs
    · rename_i s hp
      cases hs
      obtain ⟨-, hns, hsel⟩ := hi.save _ hp (by simp)
      obtain ⟨hb1, hb2⟩ := hi.bound _ hp
      refine ⟨hi.times, hi.rclock, hi.rpos, ?_, ?_, ?_, ?_, ?_⟩
      · intro T m hd
        cases hd
        exact ⟨detect_of_no_stale hns _, hb1⟩
      · intro T m hd
        cases hd
      · intro p hpp
        cases hpp
        exact ⟨hb1, hb2⟩
      · intro p hpp hph
        cases hpp
        cases hph
      · intro p hpp _
        cases hpp
        exact ⟨rfl, hns, hsel⟩
    · cases hs
  | stop =>
    unfold Manifest.step at hs
    dsimp only at hs
    split at hs
    · cases hs
      refine ⟨hi.times, hi.rclock, hi.rpos, hi.disk, hi.version, ?_, ?_, ?_⟩
      all_goals (intro p hpp; cases hpp)
    · cases hs

theorem inv_initial (norm : P → P) : Inv norm 0 (initial : World P γ) := by
  refine ⟨?_, le_rfl, le_rfl, ?_, ?_, ?_, ?_, ?_⟩
  · intro f file h; cases h
  · intro t m h; cases h
  · intro t m h; cases h
  all_goals (intro p hpp; cases hpp)

theorem inv_run {norm : P → P} : ∀ (es : List (Event P γ)) {r : ℚ} {w w' : World P γ}, Inv norm r w → Careful norm r w es →
    run norm w es = some w' → ∃ r', Inv norm r' w'
  | [], r, w, w', hi, _, h => by cases h; exact ⟨r, hi⟩
  | e :: es, r, w, w', hi, hc, h => by
    obtain ⟨w1, h1, h2⟩ := Option.bind_eq_some_iff.1 h
    exact inv_run es (hi.step hc.1 h1) (hc.2 w1 h1) h2

/-- C78: after any history of writes, removals, runs and crashes, if what `Careful` says was kept to, then a run that has scanned
its files knows exactly what is in them now. -/
theorem manifest_current_partial (norm : P → P) (es : List (Event P γ)) (hc : Careful norm 0 initial es) (w : World P γ)
    (h : run norm initial es = some w) (p : Proc P γ) (hp : w.proc = some p) (hdone : p.todo = []) :
    ∀ f ∈ p.sess.selected, Current w p.sess.table (norm f) := by
  obtain ⟨r, hi⟩ := inv_run es (inv_initial norm) hc h
  intro f hf
  have hf' := List.mem_map_of_mem (f := norm) hf
  by_cases hph : p.phase = .scanning
  · rcases (hi.scan p hp hph).2.2.2 _ hf' with h | h
    · rw [hdone] at h; cases h
    · exact h
  · exact (hi.save p hp hph).2.2 _ hf'

omit [DecidableEq P] in
theorem getTable_mem {s : Sess P γ} {l : List (P × γ)} (h : getTable s = some l) :
    l.map Prod.fst = s.selected ∧ ∀ q ∈ l, s.table q.1 = some q.2 := by
  unfold getTable at h
  generalize s.selected = fs at h
  induction fs generalizing l with
  | nil => cases h; simp
  | cons f fs ih =>
    rw [List.mapM_cons] at h
    obtain ⟨q, hq, h⟩ := Option.bind_eq_some_iff.1 h
    obtain ⟨qs, hqs, h⟩ := Option.bind_eq_some_iff.1 h
    cases h
    obtain ⟨c, hc, rfl⟩ := Option.map_eq_some_iff.1 hq
    obtain ⟨h1, h2⟩ := ih hqs
    refine ⟨by simp [h1], ?_⟩
    intro q hq
    rcases List.mem_cons.1 hq with rfl | hq
    · exact hc
    · exact h2 q hq

omit [DecidableEq P] in
theorem getTable_some {s : Sess P γ} (h : ∀ f ∈ s.selected, ∃ c, s.table f = some c) : ∃ l, getTable s = some l := by
  unfold getTable
  generalize s.selected = fs at h
  induction fs with
  | nil => exact ⟨[], rfl⟩
  | cons f fs ih =>
    obtain ⟨c, hc⟩ := h f (List.mem_cons_self ..)
    obtain ⟨l, hl⟩ := ih fun g hg => h g (List.mem_cons_of_mem _ hg)
    exact ⟨(f, c) :: l, by rw [List.mapM_cons, hc, hl]; rfl⟩

/-- C78: the table the run then works with lists the files asked for, with what is in them now (names as `normpath` writes them). -/
theorem getTable_current (norm : P → P) (es : List (Event P γ)) (hc : Careful norm 0 initial es) (w : World P γ)
    (h : run norm initial es = some w) (p : Proc P γ) (hp : w.proc = some p) (hdone : p.todo = [])
    (hn : ∀ f ∈ p.sess.selected, norm f = f) :
    ∃ l, getTable p.sess = some l ∧ l.map Prod.fst = p.sess.selected ∧
      ∀ q ∈ l, ∃ file, w.fs q.1 = some file ∧ file.contents = some q.2 := by
  have hcur := manifest_current_partial norm es hc w h p hp hdone
  obtain ⟨l, hl⟩ := getTable_some (s := p.sess) fun f hf => by
    obtain ⟨-, c, -, -, h3⟩ := hcur f hf
    rw [hn f hf] at h3
    exact ⟨c, h3⟩
  obtain ⟨h1, h2⟩ := getTable_mem hl
  refine ⟨l, hl, h1, fun q hq => ?_⟩
  have hm : q.1 ∈ p.sess.selected := by rw [← h1]; exact List.mem_map_of_mem hq
  obtain ⟨file, c, q1, q2, q3⟩ := hcur q.1 hm
  rw [hn q.1 hm] at q1 q3
  rw [h2 q hq] at q3
  cases q3
  exact ⟨file, q1, q2⟩

/-! ### examples and violations -/

/-- Two files, a run that saves its manifest but is killed before it sets its modification time, a change of the first file, and a
second run. -/
def historyEx : List (Event ℕ ℕ) :=
  [.write 1 (some 100) 10 10, .write 2 (some 200) 10 10, .start [1, 2] 20, .scan, .scan, .openFile, .writeData 21, .stop,
   .write 1 (some 101) 30 30, .start [1, 2] 40, .scan, .scan]

/-- what a run that has scanned its files answers -/
def answer (norm : P → P) (es : List (Event P γ)) : Option (List (P × γ)) :=
  (run norm initial es).bind fun w => w.proc.bind fun p => if p.todo = [] then getTable p.sess else none

example : answer id historyEx = some [(1, 101), (2, 200)] := by decide +kernel

example : Careful id 0 initial historyEx := by
  unfold historyEx
  repeat'
    first
    | trivial
    | (refine ⟨?_, ?_⟩
       rotate_left
       intro w' h
       norm_num [step, initial, load, scanOne] at h
       subst h)
  all_goals simp [CarefulEvent, Changed, EarlierSecond, known]
  intro f x h
  split_ifs at h <;> simp_all

/-- Two known files change, the second before the first: in a run that lists them the other way round the change of the second is
missed, now and for ever (its time is that of the first). -/
theorem order_violated : answer id ([.write 1 (some 100) 10 10, .write 2 (some 200) 10 10, .start [1, 2] 20, .scan, .scan, .openFile,
    .writeData 21, .setTime, .stop, .write 2 (some 201) 30 30, .write 1 (some 101) 31 31, .start [1, 2] 40, .scan, .scan] :
    List (Event ℕ ℕ)) = some [(1, 101), (2, 200)] := by decide +kernel

/-- Both files change; a run lists only the file that changed last: the change of the other one is missed by the next run. -/
theorem sublist_violated : answer id ([.write 1 (some 100) 10 10, .write 2 (some 200) 10 10, .start [1, 2] 20, .scan, .scan, .openFile,
    .writeData 21, .setTime, .stop, .write 2 (some 201) 30 30, .write 1 (some 101) 31 31,
    .start [1] 40, .scan, .openFile, .writeData 41, .setTime, .stop, .start [2] 50, .scan] :
    List (Event ℕ ℕ)) = some [(2, 200)] := by decide +kernel

/-- A file changes again in the second in which it was scanned: the change is missed. -/
theorem same_second_violated : answer id ([.write 1 (some 100) (101/10) (101/10), .start [1] (102/10), .scan, .openFile,
    .writeData (103/10), .setTime, .stop, .write 1 (some 101) (108/10) (108/10), .start [1] 50, .scan] :
    List (Event ℕ ℕ)) = some [(1, 100)] := by decide +kernel

/-- A file changes while a run is scanning, which then scans a file written later: the change is missed by the next run. -/
theorem write_during_run_violated : answer id ([.write 1 (some 100) 10 10, .start [1, 2] 20, .write 2 (some 200) 21 21, .scan,
    .write 1 (some 101) 22 22, .write 2 (some 201) 23 23, .scan, .openFile, .writeData 24, .setTime, .stop, .start [1] 50, .scan] :
    List (Event ℕ ℕ)) = some [(1, 100)] := by decide +kernel

/-- A file is replaced by one with an older modification time (`cp -p`, `mv`): the change is missed. -/
theorem older_violated : answer id ([.write 1 (some 100) 10 10, .start [1] 20, .scan, .openFile, .writeData 21, .setTime, .stop,
    .write 1 (some 101) 5 30, .start [1] 50, .scan] : List (Event ℕ ℕ)) = some [(1, 100)] := by decide +kernel

/-- A run killed between writing its manifest and setting its time: a change made while it was scanning is missed, though the same
run, not killed, would have left it to be seen. -/
theorem killed_before_time_violated :
    answer id ([.write 1 (some 100) 10 10, .start [1] 20, .scan, .write 1 (some 101) 21 21, .openFile, .writeData 22,
      .stop, .start [1] 50, .scan] : List (Event ℕ ℕ)) = some [(1, 100)] ∧
    answer id ([.write 1 (some 100) 10 10, .start [1] 20, .scan, .write 1 (some 101) 21 21, .openFile, .writeData 22, .setTime,
      .stop, .start [1] 50, .scan] : List (Event ℕ ℕ)) = some [(1, 101)] := by decide +kernel

/-- A file is named in a way `normpath` changes (`./1`): the scan works, the table raises KeyError. -/
theorem norm_violated : ∃ (norm : ℕ → ℕ) (es : List (Event ℕ ℕ)) (w : World ℕ ℕ) (p : Proc ℕ ℕ), (∀ f, norm (norm f) = norm f) ∧
    Careful norm 0 initial es ∧ run norm initial es = some w ∧ w.proc = some p ∧ p.todo = [] ∧ getTable p.sess = none := by
  refine ⟨fun f => f % 10, [.write 1 (some 100) 10 10, .start [11] 20, .scan], ?w, ?p, fun f => by show f % 10 % 10 = f % 10; omega, ?_, ?_, ?_, ?_, ?_⟩
  case refine_2 =>
    norm_num [run, step, initial, load, scanOne]
    rfl
  case refine_3 => rfl
  case refine_4 => rfl
  case refine_5 => rfl
  case refine_1 =>
    repeat'
      first
      | trivial
      | (refine ⟨?_, ?_⟩
         rotate_left
         intro w' h
         norm_num [step, initial, load, scanOne] at h
         subst h)
    all_goals simp [CarefulEvent, Changed, known]

/-! ### runs that are killed -/

/-- no run is killed between opening its manifest for writing and having written it -/
def NotWhileWriting (norm : P → P) (es : List (Event P γ)) : Prop :=
  ∀ (es1 es2 : List (Event P γ)) (w : World P γ) (p : Proc P γ), es = es1 ++ .stop :: es2 → run norm initial es1 = some w →
    w.proc = some p → p.phase ≠ .opened

theorem run_append (norm : P → P) : ∀ (es1 es2 : List (Event P γ)) (w : World P γ),
    run norm w (es1 ++ es2) = (run norm w es1).bind fun w' => run norm w' es2
  | [], _, _ => rfl
  | e :: es1, es2, w => by
    simp only [List.cons_append, run]
    cases step norm w e with
    | none => rfl
    | some w' => exact run_append norm es1 es2 w'

/-- a manifest is cut off only while it is being written -/
def Whole (w : World P γ) : Prop := w.disk = .torn → ∃ p, w.proc = some p ∧ p.phase = .opened

theorem whole_step {norm : P → P} {w w' : World P γ} {e : Event P γ} (hw : Whole w) (h : step norm w e = some w')
    (hs : e = .stop → ∀ p, w.proc = some p → p.phase ≠ .opened) : Whole w' := by
  intro ht
  cases e with
  | write f c m t =>
    simp only [step] at h
    split_ifs at h
    cases h
    exact hw ht
  | remove f =>
    cases h
    exact hw ht
  | start files t =>
    simp only [step] at h
    split at h
    · cases h
    · rename_i hp
      split_ifs at h
      obtain ⟨s, -, h⟩ := Option.map_eq_some_iff.1 h
      cases h
      obtain ⟨p, h1, -⟩ := hw ht
      rw [hp] at h1
      cases h1
  | scan =>
    simp only [step] at h
    split at h
    · rename_i hp
      obtain ⟨s, -, h⟩ := Option.map_eq_some_iff.1 h
      cases h
      obtain ⟨p, h1, h2⟩ := hw ht
      rw [hp] at h1
      cases h1
      cases h2
    · cases h
  | openFile =>
    simp only [step] at h
    split at h
    · split_ifs at h
      cases h
      exact ⟨_, rfl, rfl⟩
    · cases h
  | writeData t =>
    simp only [step] at h
    split at h
    · split_ifs at h
      cases h
      cases ht
    · cases h
  | setTime =>
    simp only [step] at h
    split at h
    · cases h
      cases ht
    · cases h
  | stop =>
    simp only [step] at h
    split at h
    · cases h
      obtain ⟨p, h1, h2⟩ := hw ht
      exact absurd h2 (hs rfl p h1)
    · cases h

/-- C79 (partial): whatever happens, if no run was killed while it was writing its manifest, then the next run can start.
Missing: kills while writing, see `torn_violated`. -/
theorem restart_partial (norm : P → P) (es : List (Event P γ)) (hk : NotWhileWriting norm es) (w : World P γ)
    (h : run norm initial es = some w) (hp : w.proc = none) (files : List P) :
    ∃ w', step norm w (.start files w.clock) = some w' ∧ w'.disk = w.disk ∧ w'.fs = w.fs := by
  have hw : Whole w := by
    clear hp
    induction es using List.reverseRecOn generalizing w with
    | nil =>
      cases h
      intro h; cases h
    | append_singleton es e ih =>
      rw [run_append] at h
      obtain ⟨w1, h1, h2⟩ := Option.bind_eq_some_iff.1 h
      obtain ⟨w2, h3, h4⟩ := Option.bind_eq_some_iff.1 h2
      cases h4
      refine whole_step (ih ?_ w1 h1) h3 ?_
      · intro es1 es2 w' p he
        exact hk es1 (es2 ++ [e]) w' p (by rw [he]; simp)
      · rintro rfl p hp
        exact hk es [] w1 p rfl h1 hp
  have hl : ∃ s, load w.disk = some s := by
    cases hd : w.disk with
    | absent => exact ⟨_, rfl⟩
    | torn =>
      obtain ⟨p, h1, -⟩ := hw hd
      rw [hp] at h1
      cases h1
    | good v t m => cases v <;> exact ⟨_, rfl⟩
  obtain ⟨s, hs⟩ := hl
  exact ⟨{ w with clock := w.clock, proc := some ⟨{ s with selected := files }, files.map norm, .scanning⟩ },
    by simp [step, hp, hs], rfl, rfl⟩

/-- A run killed while it writes its manifest: no run on this manifest can ever start again, whatever else happens. -/
theorem torn_violated : ∃ es : List (Event ℕ ℕ), Careful id 0 initial es ∧ ∃ w, run id initial es = some w ∧ w.proc = none ∧
    ∀ (es' : List (Event ℕ ℕ)) (w' : World ℕ ℕ), run id w es' = some w' → ∀ (files : List ℕ) (t : ℚ),
      step id w' (.start files t) = none := by
  have stay : ∀ (es' : List (Event ℕ ℕ)) (w w' : World ℕ ℕ), w.disk = .torn → w.proc = none → run id w es' = some w' →
      w'.disk = .torn ∧ w'.proc = none := by
    intro es'
    induction es' with
    | nil => intro w w' h1 h2 h; cases h; exact ⟨h1, h2⟩
    | cons e es' ih =>
      intro w w' h1 h2 h
      obtain ⟨w1, h3, h4⟩ := Option.bind_eq_some_iff.1 h
      refine ih w1 w' ?_ ?_ h4
      all_goals
        cases e <;> simp only [step, h1, h2, load] at h3 <;> (try split_ifs at h3) <;> (try cases h3) <;> (first | exact h1 | exact h2 | rfl)
  refine ⟨[.write 1 (some 100) 10 10, .start [1] 20, .scan, .openFile, .stop], ?_, ?_⟩
  · repeat'
      first
      | trivial
      | (refine ⟨?_, ?_⟩
         rotate_left
         intro w' h
         norm_num [step, initial, load, scanOne] at h
         subst h)
    all_goals simp [CarefulEvent, Changed, known]
  · refine ⟨?w, ?_, ?_, ?_⟩
    rotate_left
    · norm_num [run, step, initial, load, scanOne]
      rfl
    · rfl
    · intro es' w' h files t
      obtain ⟨h1, h2⟩ := stay es' _ w' rfl rfl h
      simp [step, h1, h2, load]

example : NotWhileWriting id historyEx := by
  have key : ∀ n < 12, (historyEx.take n).length = n → ∀ w, run id initial (historyEx.take n) = some w →
      ∀ p, w.proc = some p → p.phase = .opened → n = 6 := by
    intro n hn _
    interval_cases n <;> (intro w h p hp hq; norm_num [historyEx, run, step, initial, load, scanOne] at h; subst h; simp only [Option.some.injEq] at hp; first | (subst hp; cases hq; done) | rfl | (cases hp; done))
  intro es1 es2 w p he hr hp hq
  have hl : es1.length < 12 := by
    have := congrArg List.length he
    simp [historyEx] at this
    omega
  have ht : historyEx.take es1.length = es1 := by rw [he]; simp
  have h6 := key es1.length hl (by rw [ht]) w (by rw [ht]; exact hr) p hp hq
  have : historyEx[es1.length]? = some .stop := by rw [he]; simp
  rw [h6] at this
  cases this

end Manifest
end PyGeode
