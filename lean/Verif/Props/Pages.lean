/-
C134: `savepages` puts every figure on a page once, in order, in its own place.
-/
import Verif.Model.Pages
import Mathlib.Tactic.Linarith
import Mathlib.Tactic.Positivity
import Mathlib.Tactic.NormNum
import Mathlib.Tactic.Ring
import Mathlib.Tactic.FieldSimp
import Mathlib.Tactic.GCongr

namespace PyGeode
namespace Spec
open Pages

/-- the figure number `f.2` of the given size is printed at the scale asked for: `q` is its place -/
def Prints (p : Paper) (q : Placed) (f : (ℚ × ℚ) × ℕ) : Prop :=
  q.fig = f.2 ∧ (q.x1 - q.x0) * p.width = f.1.1 * p.scl ∧ (q.y1 - q.y0) * p.height = f.1.2 * p.scl

/-- two places do not cover each other: one is to the side of, or above, the other -/
def Disjoint2 (a b : Placed) : Prop := a.x1 ≤ b.x0 ∨ b.x1 ≤ a.x0 ∨ a.y1 ≤ b.y0 ∨ b.y1 ≤ a.y0

/-- the paper has a size, the figures are not turned inside out and have a size that is not negative -/
structure Printable (p : Paper) (figs : List (ℚ × ℚ)) : Prop where
  width : 0 < p.width
  height : 0 < p.height
  scl : 0 ≤ p.scl
  sizes : ∀ f ∈ figs, 0 ≤ f.1 ∧ 0 ≤ f.2

end Spec

namespace Pages
open Spec

private structure Inv (p : Paper) (figs : List (ℚ × ℚ)) (s : State) : Prop where
  prints : List.Forall₂ (Prints p) s.done figs.zipIdx
  page : 1 ≤ s.page
  pages : ∀ q ∈ s.done, q.page ≤ s.page
  ordered : s.done.Pairwise fun a b => a.page ≤ b.page
  used : ∀ g, 1 ≤ g → g < s.page → ∃ q ∈ s.done, q.page = g
  some_ : 0 < s.nfigs ↔ ∃ q ∈ s.done, q.page = s.page
  none_ : s.nfigs = 0 → s.done = []
  first : ∀ q ∈ s.done, 1 ≤ q.page
  left : p.xmarg ≤ s.x ∧ ∀ q ∈ s.done, p.xmarg ≤ q.x0
  top : s.y ≤ 1 - p.ymarg ∧ ∀ q ∈ s.done, q.y1 ≤ 1 - p.ymarg
  hlast : 0 ≤ s.hlast
  apart : s.done.Pairwise fun a b => a.page = b.page → Disjoint2 a b
  free : ∀ q ∈ s.done, q.page = s.page → s.y ≤ q.y0 ∨ (q.x1 ≤ s.x ∧ s.y - s.hlast ≤ q.y0)

private theorem inv_start (p : Paper) : Inv p [] (start p) :=
  { prints := .nil, page := le_refl _, pages := by simp [start], ordered := by simp [start]
    used := fun g h1 h2 => by simp [start] at h2; omega
    some_ := by simp [start], none_ := fun _ => rfl, first := by simp [start]
    left := ⟨le_refl _, by simp [start]⟩, top := ⟨le_refl _, by simp [start]⟩, hlast := le_refl _
    apart := by simp [start], free := by simp [start] }

private theorem inv_step {p : Paper} {figs : List (ℚ × ℚ)} {s : State} (i : Inv p figs s) {f : ℚ × ℚ}
    (hw : 0 < p.width) (hh : 0 < p.height) (hs : 0 ≤ p.scl) (hf : 0 ≤ f.1 ∧ 0 ≤ f.2) :
    Inv p (figs ++ [f]) (step p s (f, figs.length)) := by
  have w0 : 0 ≤ f.1 / p.width * p.scl := mul_nonneg (div_nonneg hf.1 hw.le) hs
  have h0 : 0 ≤ f.2 / p.height * p.scl := mul_nonneg (div_nonneg hf.2 hh.le) hs
  have we : f.1 / p.width * p.scl * p.width = f.1 * p.scl := by field_simp
  have he : f.2 / p.height * p.scl * p.height = f.2 * p.scl := by field_simp
  generalize hW : f.1 / p.width * p.scl = w at w0 we
  generalize hH : f.2 / p.height * p.scl = h at h0 he
  have zip : (figs ++ [f]).zipIdx = figs.zipIdx ++ [(f, figs.length)] := by simp [List.zipIdx_append]
  have last : ∀ g, (∀ q ∈ s.done, q.page ≤ g) → ∀ c : Placed, c.page = g →
      (s.done ++ [c]).Pairwise (fun a b => a.page ≤ b.page) := fun g hg c hc => by
    rw [List.pairwise_append]
    exact ⟨i.ordered, by simp, fun a ha b hb => by simp at hb; subst hb; rw [hc]; exact hg a ha⟩
  by_cases hx : s.x + w < 1 - p.xmarg
  · have e : step p s (f, figs.length) = { s with x := s.x + w, hlast := max h s.hlast, nfigs := s.nfigs + 1, done := s.done ++ [⟨figs.length, s.page, s.x, s.y - h, s.x + w, s.y⟩] } := by
      simp only [step, hW, hH]; rw [if_pos hx]
    rw [e]
    refine { prints := ?_, page := i.page, pages := ?_, ordered := last s.page i.pages _ rfl, used := ?_, some_ := ?_, none_ := ?_, first := ?_, left := ?_, top := ?_, hlast := le_max_of_le_left h0, apart := ?_, free := ?_ }
    · rw [zip]; exact List.rel_append i.prints (.cons ⟨rfl, by simpa using we, by simpa using he⟩ .nil)
    · intro q hq; simp at hq; rcases hq with hq | rfl
      · exact i.pages q hq
      · exact le_refl _
    · intro g h1 h2; obtain ⟨q, hq, hg⟩ := i.used g h1 h2; exact ⟨q, by simp [hq], hg⟩
    · exact ⟨fun _ => ⟨_, List.mem_append_right _ (List.mem_singleton.2 rfl), rfl⟩, fun _ => Nat.succ_pos _⟩
    · intro h; simp at h
    · intro q hq; simp at hq; rcases hq with hq | rfl
      · exact i.first q hq
      · exact i.page
    · refine ⟨le_trans i.left.1 (by linarith), fun q hq => ?_⟩
      simp at hq; rcases hq with hq | rfl
      · exact i.left.2 q hq
      · exact i.left.1
    · refine ⟨i.top.1, fun q hq => ?_⟩
      simp at hq; rcases hq with hq | rfl
      · exact i.top.2 q hq
      · exact i.top.1
    · show List.Pairwise _ (s.done ++ [_])
      rw [List.pairwise_append]
      refine ⟨i.apart, by simp, fun a ha b hb hab => ?_⟩
      simp at hb; subst hb
      rcases i.free a ha hab with h | h
      · exact .inr (.inr (.inr h))
      · exact .inl h.1
    · intro q hq hg; simp at hq; rcases hq with hq | rfl
      · rcases i.free q hq hg with h' | h'
        · exact .inl h'
        · refine .inr ⟨le_trans h'.1 (by simpa using w0), le_trans ?_ h'.2⟩
          have := le_max_right h s.hlast
          simp only; linarith
      · refine .inr ⟨le_refl _, ?_⟩
        have := le_max_left h s.hlast
        simp only; linarith
  · by_cases hn : 0 < s.nfigs ∧ s.y - s.hlast - h < p.ymarg
    · have e : step p s (f, figs.length) = { x := p.xmarg + w, y := 1 - p.ymarg, hlast := h, nfigs := 1, page := s.page + 1, done := s.done ++ [⟨figs.length, s.page + 1, p.xmarg, 1 - p.ymarg - h, p.xmarg + w, 1 - p.ymarg⟩] } := by
        simp only [step, hW, hH]; rw [if_neg hx]; simp [hn.1, hn.2]
      rw [e]
      refine { prints := ?_, page := Nat.succ_pos _, pages := ?_, ordered := last (s.page + 1) (fun q hq => Nat.le_succ_of_le (i.pages q hq)) _ rfl, used := ?_, some_ := ?_, none_ := ?_, first := ?_, left := ?_, top := ?_, hlast := h0, apart := ?_, free := ?_ }
      · rw [zip]; exact List.rel_append i.prints (.cons ⟨rfl, by simpa using we, by simpa using he⟩ .nil)
      · intro q hq; simp at hq; rcases hq with hq | rfl
        · exact Nat.le_succ_of_le (i.pages q hq)
        · exact le_refl _
      · intro g h1 h2
        rcases Nat.lt_succ_iff_lt_or_eq.1 h2 with h | h
        · obtain ⟨q, hq, hg⟩ := i.used g h1 h; exact ⟨q, by simp [hq], hg⟩
        · obtain ⟨q, hq, hg⟩ := i.some_.1 hn.1; exact ⟨q, by simp [hq], by rw [hg, h]⟩
      · exact ⟨fun _ => ⟨_, List.mem_append_right _ (List.mem_singleton.2 rfl), rfl⟩, fun _ => Nat.one_pos⟩
      · intro h; simp at h
      · intro q hq; simp at hq; rcases hq with hq | rfl
        · exact i.first q hq
        · exact Nat.succ_pos _
      · refine ⟨by simpa using w0, fun q hq => ?_⟩
        simp at hq; rcases hq with hq | rfl
        · exact i.left.2 q hq
        · exact le_refl _
      · refine ⟨le_refl _, fun q hq => ?_⟩
        simp at hq; rcases hq with hq | rfl
        · exact i.top.2 q hq
        · exact le_refl _
      · show List.Pairwise _ (s.done ++ [_])
        rw [List.pairwise_append]
        refine ⟨i.apart, by simp, fun a ha b hb hab => ?_⟩
        simp at hb; subst hb
        have := i.pages a ha; simp at hab; omega
      · intro q hq hg; simp at hq; rcases hq with hq | rfl
        · have := i.pages q hq; simp at hg; omega
        · exact .inr ⟨le_refl _, le_refl _⟩
    · have e : step p s (f, figs.length) = { x := p.xmarg + w, y := s.y - s.hlast, hlast := h, nfigs := s.nfigs + 1, page := s.page, done := s.done ++ [⟨figs.length, s.page, p.xmarg, s.y - s.hlast - h, p.xmarg + w, s.y - s.hlast⟩] } := by
        simp only [step, hW, hH]; rw [if_neg hx]
        have : (decide (0 < s.nfigs) && decide (s.y - s.hlast - h < p.ymarg)) = false := by
          rw [Bool.eq_false_iff]; simpa using hn
        simp [this]
      have l := i.hlast
      rw [e]
      have above : ∀ q ∈ s.done, q.page = s.page → s.y - s.hlast ≤ q.y0 := fun q hq hg => by
        rcases i.free q hq hg with h | h
        · linarith
        · exact h.2
      refine { prints := ?_, page := i.page, pages := ?_, ordered := last s.page i.pages _ rfl, used := ?_, some_ := ?_, none_ := ?_, first := ?_, left := ?_, top := ?_, hlast := h0, apart := ?_, free := ?_ }
      · rw [zip]; exact List.rel_append i.prints (.cons ⟨rfl, by simpa using we, by simpa using he⟩ .nil)
      · intro q hq; simp at hq; rcases hq with hq | rfl
        · exact i.pages q hq
        · exact le_refl _
      · intro g h1 h2; obtain ⟨q, hq, hg⟩ := i.used g h1 h2; exact ⟨q, by simp [hq], hg⟩
      · exact ⟨fun _ => ⟨_, List.mem_append_right _ (List.mem_singleton.2 rfl), rfl⟩, fun _ => Nat.succ_pos _⟩
      · intro h; simp at h
      · intro q hq; simp at hq; rcases hq with hq | rfl
        · exact i.first q hq
        · exact i.page
      · refine ⟨by simpa using w0, fun q hq => ?_⟩
        simp at hq; rcases hq with hq | rfl
        · exact i.left.2 q hq
        · exact le_refl _
      · have t := i.top.1
        refine ⟨by simp only; linarith, fun q hq => ?_⟩
        simp at hq; rcases hq with hq | rfl
        · exact i.top.2 q hq
        · simp only; linarith
      · show List.Pairwise _ (s.done ++ [_])
        rw [List.pairwise_append]
        refine ⟨i.apart, by simp, fun a ha b hb hab => ?_⟩
        simp at hb; subst hb
        exact .inr (.inr (.inr (above a ha hab)))
      · intro q hq hg; simp at hq; rcases hq with hq | rfl
        · exact .inl (above q hq hg)
        · exact .inr ⟨le_refl _, le_refl _⟩

private theorem inv {p : Paper} {figs : List (ℚ × ℚ)} (hp : Printable p figs) : Inv p figs (figs.zipIdx.foldl (step p) (start p)) := by
  have key : ∀ L : List (ℚ × ℚ), (∀ f ∈ L, 0 ≤ f.1 ∧ 0 ≤ f.2) → Inv p L (L.zipIdx.foldl (step p) (start p)) := by
    intro L
    induction L using List.reverseRecOn with
    | nil => exact fun _ => inv_start p
    | append_singleton L f ih =>
      intro h
      have := inv_step (ih fun g hg => h g (by simp [hg])) hp.width hp.height hp.scl (h f (by simp))
      simpa [List.zipIdx_append, List.foldl_append] using this
  exact key figs hp.sizes

/-- **C134**: every figure is printed once, in the order given, at the scale asked for; the pages are used one after the other and
none is left blank; no figure begins in the left or the top margin; and no two figures of a page cover each other. -/
theorem savePages_correct {p : Paper} {figs : List (ℚ × ℚ)} (hp : Printable p figs) :
    List.Forall₂ (Prints p) (savePages p figs).1 figs.zipIdx ∧
    (savePages p figs).1.Pairwise (fun a b => a.page ≤ b.page ∧ (a.page = b.page → Disjoint2 a b)) ∧
    (∀ q ∈ (savePages p figs).1, 1 ≤ q.page ∧ q.page ≤ (savePages p figs).2 ∧ p.marg / p.width ≤ q.x0 ∧ q.y1 ≤ 1 - p.marg / p.height) ∧
    (figs ≠ [] → ∀ g, 1 ≤ g → g ≤ (savePages p figs).2 → ∃ q ∈ (savePages p figs).1, q.page = g) := by
  have i := inv hp
  refine ⟨i.prints, i.ordered.and i.apart, fun q hq => ⟨i.first q hq, i.pages q hq, i.left.2 q hq, i.top.2 q hq⟩, fun hne g h1 h2 => ?_⟩
  rcases lt_or_eq_of_le h2 with h | h
  · exact i.used g h1 h
  · rcases Nat.eq_zero_or_pos (figs.zipIdx.foldl (step p) (start p)).nfigs with h0 | h0
    · have e := i.none_ h0
      have l := i.prints.length_eq
      rw [e] at l; simp at l
      exact absurd (List.length_eq_zero_iff.1 l.symm) hne
    · rw [h]; exact i.some_.1 h0

/-- the right edge -/
private theorem right_of {p : Paper} {L : List ((ℚ × ℚ) × ℕ)} {s : State}
    (h : ∀ f ∈ L, f.1.1 / p.width * p.scl ≤ 1 - 2 * p.xmarg) (hs : ∀ q ∈ s.done, q.x1 ≤ 1 - p.xmarg) :
    ∀ q ∈ (L.foldl (step p) s).done, q.x1 ≤ 1 - p.xmarg := by
  induction L generalizing s with
  | nil => exact hs
  | cons f L ih =>
    refine ih (fun g hg => h g (by simp [hg])) fun q hq => ?_
    have hf := h f (by simp)
    unfold step at hq
    simp only at hq
    split at hq
    · next hx =>
      simp only [List.mem_append, List.mem_singleton] at hq
      rcases hq with hq | rfl
      · exact hs q hq
      · exact hx.le
    · simp only [List.mem_append, List.mem_singleton] at hq
      rcases hq with hq | rfl
      · exact hs q hq
      · simp only; linarith

/-- **C134**: when each figure is not wider than the space between the margins, all are between the margins -/
theorem savePages_right {p : Paper} {figs : List (ℚ × ℚ)} (hp : Printable p figs)
    (fit : ∀ f ∈ figs, f.1 * p.scl ≤ p.width - 2 * p.marg) :
    ∀ q ∈ (savePages p figs).1, q.x1 ≤ 1 - p.marg / p.width := by
  refine right_of (p := p) (s := start p) (fun f hf => ?_) (by simp [start])
  have := fit f.1 (by
    obtain ⟨⟨a, b⟩, n⟩ := f
    have := List.mem_zipIdx hf
    obtain ⟨_, _, e⟩ := this
    rw [e]; exact List.getElem_mem _)
  have hw := hp.width
  have e : f.1.1 / p.width * p.scl = f.1.1 * p.scl / p.width := by ring
  have e2 : 1 - 2 * p.xmarg = (p.width - 2 * p.marg) / p.width := by unfold Paper.xmarg; field_simp
  rw [e, e2]
  gcongr

/-- the bottom edge -/
private theorem bottom_of {p : Paper} {L : List ((ℚ × ℚ) × ℕ)} {s : State} (hl : L.Pairwise fun a b => b.1.2 / p.height * p.scl ≤ a.1.2 / p.height * p.scl)
    (fit : ∀ f ∈ L, f.1.2 / p.height * p.scl ≤ 1 - 2 * p.ymarg)
    (h : ∀ f ∈ L, p.ymarg ≤ s.y - f.1.2 / p.height * p.scl) (h0 : s.nfigs = 0 → s.hlast = 0) (hs : ∀ q ∈ s.done, p.ymarg ≤ q.y0) :
    ∀ q ∈ (L.foldl (step p) s).done, p.ymarg ≤ q.y0 := by
  induction L generalizing s with
  | nil => exact hs
  | cons f L ih =>
    have hf := h f (by simp)
    have ff := fit f (by simp)
    obtain ⟨hl1, hl2⟩ := List.pairwise_cons.1 hl
    by_cases hx : s.x + f.1.1 / p.width * p.scl < 1 - p.xmarg
    · refine ih hl2 (fun g hg => fit g (by simp [hg])) ?_ ?_ ?_
      · intro g hg; unfold step; simp only [hx, if_true]; exact h g (by simp [hg])
      · unfold step; simp only [hx, if_true]; simp
      · intro q hq; unfold step at hq; simp only [hx, if_true, List.mem_append, List.mem_singleton] at hq
        rcases hq with hq | rfl
        · exact hs q hq
        · exact hf
    · have low : p.ymarg ≤ (step p s f).y - f.1.2 / p.height * p.scl := by
        unfold step; simp only [hx, if_false]
        split
        · linarith
        · next hn =>
          simp only [Bool.and_eq_true, decide_eq_true_eq, not_and, not_lt] at hn
          rcases Nat.eq_zero_or_pos s.nfigs with z | z
          · rw [h0 z, sub_zero]; exact hf
          · exact hn z
      refine ih hl2 (fun g hg => fit g (by simp [hg])) ?_ ?_ ?_
      · intro g hg; have := hl1 g hg; linarith
      · unfold step; simp only [hx, if_false]; split <;> simp
      · intro q hq
        have e : (step p s f).done = s.done ++ [⟨f.2, (step p s f).page, p.xmarg, (step p s f).y - f.1.2 / p.height * p.scl, p.xmarg + f.1.1 / p.width * p.scl, (step p s f).y⟩] := by
          unfold step; simp only [hx, if_false]
        rw [e] at hq
        simp only [List.mem_append, List.mem_singleton] at hq
        rcases hq with hq | rfl
        · exact hs q hq
        · exact low

/-- **C134, part**: when the figures come from the tallest to the lowest and the tallest is not taller than the space between the
margins, none runs into the bottom margin. In full it is claimed for figures in any order: see `savePages_violated`. -/
theorem savePages_bottom_partial {p : Paper} {figs : List (ℚ × ℚ)} (hp : Printable p figs)
    (fit : ∀ f ∈ figs, f.2 * p.scl ≤ p.height - 2 * p.marg) (sorted : figs.Pairwise fun a b => b.2 ≤ a.2) :
    ∀ q ∈ (savePages p figs).1, p.marg / p.height ≤ q.y0 := by
  have hh := hp.height
  have ht : ∀ f ∈ figs.zipIdx, f.1.2 / p.height * p.scl ≤ 1 - 2 * p.ymarg := fun f hf => by
    have := fit f.1 (by
      obtain ⟨⟨a, b⟩, n⟩ := f
      obtain ⟨_, _, e⟩ := List.mem_zipIdx hf
      rw [e]; exact List.getElem_mem _)
    have e : f.1.2 / p.height * p.scl = f.1.2 * p.scl / p.height := by ring
    have e2 : 1 - 2 * p.ymarg = (p.height - 2 * p.marg) / p.height := by unfold Paper.ymarg; field_simp
    rw [e, e2]; gcongr
  refine bottom_of (p := p) (s := start p) ?_ ht (fun f hf => ?_) (fun _ => rfl) (by simp [start])
  · have : (figs.zipIdx.map Prod.fst).Pairwise fun a b => b.2 ≤ a.2 := by simpa using sorted
    rw [List.pairwise_map] at this
    refine this.imp fun {a b} h => ?_
    have hs := hp.scl
    gcongr
  · have := ht f hf
    simp only [start]; linarith

/-- **C134 fails**: a figure taller than the one that began its row is put beside it although it does not fit there, and runs off the
page, although it is not taller than a page. On a page of 10 by 10 with margins of 1: one figure of 7 by 5, then one of 2 by 3, then
one of 2 by 8. -/
theorem savePages_violated :
    Printable ⟨10, 10, 1, 1⟩ [(7, 5), (2, 3), (2, 8)] ∧ (∀ f ∈ [((7 : ℚ), (5 : ℚ)), (2, 3), (2, 8)], f.2 * 1 ≤ 10 - 2 * 1) ∧
    ∃ q ∈ (savePages ⟨10, 10, 1, 1⟩ [(7, 5), (2, 3), (2, 8)]).1, q.y0 < 0 := by
  refine ⟨⟨by norm_num, by norm_num, by norm_num, by decide +kernel⟩, by decide +kernel, ⟨2, 1, 3/10, -4/10, 5/10, 4/10⟩, by decide +kernel, by norm_num⟩

/-- three figures of which two are beside each other and the third begins the second page -/
example : Printable ⟨10, 10, 1, 1⟩ [(3, 6), (4, 5), (4, 4)] ∧
    (savePages ⟨10, 10, 1, 1⟩ [(3, 6), (4, 5), (4, 4)]) =
      ([⟨0, 1, 1/10, 3/10, 4/10, 9/10⟩, ⟨1, 1, 4/10, 4/10, 8/10, 9/10⟩, ⟨2, 2, 1/10, 5/10, 5/10, 9/10⟩], 2) ∧
    (∀ f ∈ [((3 : ℚ), (6 : ℚ)), (4, 5), (4, 4)], f.1 * 1 ≤ 10 - 2 * 1 ∧ f.2 * 1 ≤ 10 - 2 * 1) ∧
    [((3 : ℚ), (6 : ℚ)), (4, 5), (4, 4)].Pairwise fun a b => b.2 ≤ a.2 :=
  ⟨⟨by norm_num, by norm_num, by norm_num, by decide +kernel⟩, by decide +kernel, by decide +kernel, by decide +kernel⟩

end Pages
end PyGeode
