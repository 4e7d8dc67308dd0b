import Verif.Model.Spectral
import Mathlib.Tactic.Linarith
import Mathlib.Tactic.Ring
import Mathlib.Algebra.Order.Floor.Ring
import Mathlib.Algebra.BigOperators.Group.List.Basic
import Mathlib.Data.List.Nodup
/-!
# C124: the axis of spherical harmonics
-/
namespace PyGeode.Spectral

/-- The harmonics of order `m` follow each other by degree. -/
def block (s m : ℕ) : List (ℕ × ℕ) := (List.range (s - m)).map fun i => (m, m + i)

theorem zip_blocks (s : ℕ) (l : List ℕ) :
    (l.map fun n => List.replicate (s - n) n).flatten.zip
      (l.map fun n => (List.range (s - n)).map fun i => n + i).flatten =
      (l.map (block s)).flatten := by
  induction l with
  | nil => rfl
  | cons n l ih =>
    simp only [List.map_cons, List.flatten_cons]
    rw [List.zip_append (by simp), ih]
    congr 1
    unfold block
    apply List.ext_getElem
    · simp
    · intro i h1 h2
      simp

theorem zip_eq (s : ℕ) : (orders s).zip (degrees s) = ((List.range s).map (block s)).flatten :=
  zip_blocks s _

theorem lengths (s : ℕ) : (degrees s).length = s * (s + 1) / 2 ∧
    (orders s).length = s * (s + 1) / 2 := by
  have key : ∀ n, ((List.range n).map fun m => s - m).sum = n * s - n * (n - 1) / 2 ∨ s < n := by
    intro n
    induction n with
    | zero => left; simp
    | succ n ih =>
      by_cases h : s < n + 1
      · exact Or.inr h
      · left
        rw [List.range_succ, List.map_append, List.sum_append]
        rcases ih with ih | ih
        · rw [ih]
          simp only [List.map_cons, List.map_nil, List.sum_cons, List.sum_nil, add_zero,
            Nat.add_sub_cancel]
          have e1 : (n + 1) * n / 2 = n * (n - 1) / 2 + n := by
            cases n with
            | zero => rfl
            | succ k =>
              simp only [Nat.add_sub_cancel]
              have : (k + 1 + 1) * (k + 1) = (k + 1) * k + 2 * (k + 1) := by ring
              rw [this]; omega
          have e2 : n * (n - 1) / 2 ≤ n * s := by
            refine (Nat.div_le_self _ _).trans (Nat.mul_le_mul_left _ (by omega))
          rw [e1, Nat.add_mul, Nat.one_mul]
          omega
        · omega
  have k := (key s).resolve_right (lt_irrefl _)
  have tot : s * s - s * (s - 1) / 2 = s * (s + 1) / 2 := by
    clear k key
    cases s with
    | zero => rfl
    | succ k =>
      simp only [Nat.add_sub_cancel]
      have h1 : (k + 1) * (k + 1) * 2 = (k + 1) * k + (k + 1) * (k + 1 + 1) := by ring
      have h2 : (k + 1) * k % 2 = 0 := Nat.even_iff.1 (by
        rw [mul_comm]; exact Nat.even_mul_succ_self k)
      omega
  constructor
  · unfold degrees
    rw [List.length_flatten, List.map_map]
    have : (List.length ∘ fun n => (List.range (s - n)).map fun i => n + i) = fun m => s - m := by
      funext n; simp
    rw [this, k, tot]
  · unfold orders
    rw [List.length_flatten, List.map_map]
    have : (List.length ∘ fun n => List.replicate (s - n) n) = fun m => s - m := by
      funext n; simp
    rw [this, k, tot]

/-- Inferring the truncation from the number of harmonics. -/
theorem inferred_eq (s : ℕ) : inferred (s * (s + 1) / 2) = s := by
  unfold inferred
  have h2 : s * (s + 1) / 2 * 2 = s * (s + 1) := by
    have : s * (s + 1) % 2 = 0 := Nat.even_iff.1 (Nat.even_mul_succ_self s)
    omega
  have : ((s * (s + 1) / 2 : ℕ) : ℝ) * 2 + 1 / 4 = ((s : ℝ) + 1 / 2) ^ 2 := by
    have : ((s * (s + 1) / 2 : ℕ) : ℝ) * 2 = (s : ℝ) * (s + 1) := by exact_mod_cast h2
    rw [this]; ring
  rw [this, Real.sqrt_sq (by positivity)]
  have : (s : ℝ) + 1 / 2 - 3 / 2 + 1 = ((s : ℤ) : ℝ) := by push_cast; ring
  rw [this, Int.floor_intCast]
  rfl

/-- **C124.** A spectral axis made with a truncation, or with as many values as there are
harmonics of a truncation, has every harmonic - order `m` from zero to the truncation, degree `n`
from `m` to the truncation - exactly once, those of an order together, in increasing order. -/
theorem harmonics_spec (g : Given) (t : ℕ)
    (h : g = .trunc t ∨ g = .values ((t + 1) * (t + 2) / 2) none ∨
      g = .values ((t + 1) * (t + 2) / 2) (some t)) :
    ∃ N M, harmonics g = some ((t + 1) * (t + 2) / 2, N, M) ∧
      N.length = (t + 1) * (t + 2) / 2 ∧ M.length = (t + 1) * (t + 2) / 2 ∧
      (M.zip N).Nodup ∧ (∀ m n, (m, n) ∈ M.zip N ↔ m ≤ n ∧ n ≤ t) ∧
      (M.zip N).Pairwise fun a b => a.1 < b.1 ∨ a.1 = b.1 ∧ a.2 < b.2 := by
  obtain ⟨l1, l2⟩ := lengths (t + 1)
  have hm : ∀ m n, (m, n) ∈ (orders (t + 1)).zip (degrees (t + 1)) ↔ m ≤ n ∧ n ≤ t := by
    intro m n
    rw [zip_eq]
    simp only [List.mem_flatten, List.mem_map, List.mem_range, block]
    constructor
    · rintro ⟨_, ⟨k, hk, rfl⟩, hh⟩
      simp only [List.mem_map, List.mem_range, Prod.mk.injEq] at hh
      obtain ⟨i, hi, rfl, rfl⟩ := hh
      omega
    · rintro ⟨h1, h2⟩
      refine ⟨_, ⟨m, by omega, rfl⟩, ?_⟩
      simp only [List.mem_map, List.mem_range, Prod.mk.injEq]
      exact ⟨n - m, by omega, trivial, by omega⟩
  have hp : ((orders (t + 1)).zip (degrees (t + 1))).Pairwise
      fun a b => a.1 < b.1 ∨ a.1 = b.1 ∧ a.2 < b.2 := by
    rw [zip_eq, List.pairwise_flatten]
    constructor
    · intro l hl
      obtain ⟨m, _, rfl⟩ := List.mem_map.1 hl
      unfold block
      rw [List.pairwise_map]
      refine List.pairwise_lt_range.imp ?_
      intro a b hab
      exact Or.inr ⟨rfl, by simpa using hab⟩
    · rw [List.pairwise_map]
      refine List.pairwise_lt_range.imp ?_
      intro a b hab x hx y hy
      unfold block at hx hy
      obtain ⟨i, _, rfl⟩ := List.mem_map.1 hx
      obtain ⟨j, _, rfl⟩ := List.mem_map.1 hy
      exact Or.inl hab
  refine ⟨degrees (t + 1), orders (t + 1), ?_, l1, l2, ?_, hm, hp⟩
  · have hi := inferred_eq (t + 1)
    unfold harmonics
    rcases h with rfl | rfl | rfl
    · simp [l1, l2]
    · simp only
      rw [hi]
      simp [l1, l2]
    · simp [l1, l2]
  · refine hp.imp ?_
    rintro a b (h | ⟨h, h'⟩) rfl
    · exact absurd h (lt_irrefl _)
    · exact absurd h' (lt_irrefl _)

/-- **C124.** Any other number of values is refused. -/
theorem harmonics_refused (n : ℕ) (tr : Option ℕ) {r} (h : harmonics (.values n tr) = some r) :
    ∃ t, n = (t + 1) * (t + 2) / 2 ∧ (∀ t', tr = some t' → t' = t) := by
  unfold harmonics at h
  dsimp only at h
  split_ifs at h with h1 h2
  cases tr with
  | none =>
    dsimp only at h1 h2
    obtain ⟨s, hs⟩ : ∃ s, inferred n = s + 1 := Nat.exists_eq_succ_of_ne_zero h1
    rw [hs, (lengths (s + 1)).1] at h2
    exact ⟨s, h2.1.symm, by simp⟩
  | some t =>
    dsimp only at h2
    rw [(lengths (t + 1)).1] at h2
    exact ⟨t, h2.1.symm, by simp⟩

/-- Truncation two: six harmonics. -/
example : degrees 3 = [0, 1, 2, 1, 2, 2] ∧ orders 3 = [0, 0, 0, 1, 1, 2] := by decide

end PyGeode.Spectral
