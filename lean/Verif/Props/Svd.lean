import Verif.Model.Svd
import Verif.Spec.Svd
import Mathlib.Tactic.Ring
import Mathlib.Tactic.Linarith
import Mathlib.Tactic.FieldSimp
import Mathlib.Algebra.BigOperators.Intervals
import Mathlib.Algebra.Order.BigOperators.Group.Finset
/-!
# C126: the C functions behind coupled patterns, and a run of the iteration
-/
namespace PyGeode
namespace Svd
open Spec Finset

section loops
variable {σ τ K : Type}

theorem cfor_zero (f : ℕ → σ → σ) (s : σ) : cfor 0 f s = s := rfl
theorem cfor_succ (n : ℕ) (f : ℕ → σ → σ) (s : σ) : cfor (n + 1) f s = f n (cfor n f s) := by
  unfold cfor
  rw [List.range_succ, List.foldl_append]
  rfl

theorem cfor_prod (n : ℕ) (f : ℕ → σ → σ) (g : ℕ → τ → τ) (s : σ × τ) :
    cfor n (fun i s => (f i s.1, g i s.2)) s = (cfor n f s.1, cfor n g s.2) := by
  induction n with
  | zero => rfl
  | succ n ih => rw [cfor_succ, ih, cfor_succ, cfor_succ]

theorem cfor_congr (n : ℕ) {f g : ℕ → σ → σ} (h : ∀ i < n, ∀ s, f i s = g i s) (s : σ) : cfor n f s = cfor n g s := by
  induction n with
  | zero => rfl
  | succ n ih => rw [cfor_succ, cfor_succ, ih fun i hi => h i (by omega), h n (by omega)]

theorem cfor_sum [AddCommMonoid K] (n : ℕ) (f : ℕ → K) (a : K) : cfor n (fun x s => s + f x) a = a + ∑ x ∈ range n, f x := by
  induction n with
  | zero => simp [cfor_zero]
  | succ n ih => rw [cfor_succ, ih, sum_range_succ, add_assoc]

theorem assign_self (a : ℕ → K) (i : ℕ) (v : K) : assign a i v i = v := if_pos rfl
theorem assign_ne (a : ℕ → K) {i j : ℕ} (h : j ≠ i) (v : K) : assign a i v j = a j := if_neg h

/-- a loop that rewrites one element after the other -/
theorem scatter (n : ℕ) (adr : ℕ → ℕ) (hadr : ∀ i < n, ∀ j < n, adr i = adr j → i = j) (g : ℕ → K → K) (a : ℕ → K) :
    (∀ i < n, cfor n (fun i a => assign a (adr i) (g i (a (adr i)))) a (adr i) = g i (a (adr i))) ∧
    ∀ j, (∀ i < n, j ≠ adr i) → cfor n (fun i a => assign a (adr i) (g i (a (adr i)))) a j = a j := by
  induction n with
  | zero => exact ⟨fun i hi => absurd hi (by omega), fun _ _ => rfl⟩
  | succ n ih =>
    obtain ⟨h1, h2⟩ := ih fun i hi j hj => hadr i (by omega) j (by omega)
    constructor
    · intro i hi
      rw [cfor_succ]
      by_cases e : i = n
      · subst e
        rw [assign_self, h2 _ fun j hj he => by have := hadr i (by omega) j (by omega) he; omega]
      · rw [assign_ne _ fun he => e (hadr i (by omega) n (by omega) he), h1 i (by omega)]
    · intro j hj
      rw [cfor_succ, assign_ne _ (hj n (by omega)), h2 j fun i hi => hj i (by omega)]

/-- two nested loops that fill a table -/
theorem scatter2 (m n : ℕ) (adr : ℕ → ℕ → ℕ) (hadr : ∀ i < m, ∀ j < n, ∀ i' < m, ∀ j' < n, adr i j = adr i' j' → i = i' ∧ j = j')
    (v : ℕ → ℕ → K) (a : ℕ → K) :
    (∀ i < m, ∀ j < n, cfor m (fun i a => cfor n (fun j a => assign a (adr i j) (v i j)) a) a (adr i j) = v i j) ∧
    ∀ q, (∀ i < m, ∀ j < n, q ≠ adr i j) → cfor m (fun i a => cfor n (fun j a => assign a (adr i j) (v i j)) a) a q = a q := by
  induction m with
  | zero => exact ⟨fun i hi => absurd hi (by omega), fun _ _ => rfl⟩
  | succ m ih =>
    obtain ⟨h1, h2⟩ := ih fun i hi j hj i' hi' j' hj' => hadr i (by omega) j hj i' (by omega) j' hj'
    obtain ⟨g1, g2⟩ := scatter n (adr m) (fun i hi j hj e => (hadr m (by omega) i hi m (by omega) j hj e).2) (fun j _ => v m j)
      (cfor m (fun i a => cfor n (fun j a => assign a (adr i j) (v i j)) a) a)
    constructor
    · intro i hi j hj
      rw [cfor_succ]
      by_cases e : i = m
      · subst e; exact g1 j hj
      · rw [g2 _ fun j' hj' he => e (hadr i hi j hj m (by omega) j' hj' he).1, h1 i (by omega) j hj]
    · intro q hq
      rw [cfor_succ, g2 q fun j hj => hq m (by omega) j hj, h2 q fun i hi j hj => hq i (by omega) j hj]

end loops

theorem flat_inj {n i j x y : ℕ} (hx : x < n) (hy : y < n) (h : i * n + x = j * n + y) : i = j ∧ x = y := by
  have h1 : (i * n + x) / n = i := by rw [mul_comm, Nat.mul_add_div (by omega), Nat.div_eq_of_lt hx]; omega
  have h2 : (j * n + y) / n = j := by rw [mul_comm, Nat.mul_add_div (by omega), Nat.div_eq_of_lt hy]; omega
  rw [h, h2] at h1
  subst h1
  exact ⟨rfl, by omega⟩

section field
variable {K : Type} [Field K]

/-- rewriting row `e` of a table -/
theorem row_write (n e : ℕ) (g : ℕ → K → K) (a : ℕ → K) (i x : ℕ) (hx : x < n) :
    cfor n (fun x a => assign a (e * n + x) (g x (a (e * n + x)))) a (i * n + x) = if i = e then g x (a (i * n + x)) else a (i * n + x) := by
  obtain ⟨h1, h2⟩ := scatter n (fun x => e * n + x) (fun i _ j _ h => by simp at h; exact h) g a
  split_ifs with h
  · subst h; exact h1 x hx
  · exact h2 _ fun y hy he => h (flat_inj hx hy he).1

/-- the new patterns of `build_svds` -/
theorem build_new (num nt nx1 : ℕ) (input1 : ℕ → K) (PC : ℕ → ℕ → K) (new : ℕ → K) (n x : ℕ) (hn : n < num) (hx : x < nx1) :
    cfor num (fun n new => cfor nt (fun t new => cfor nx1 (fun x new => assign new (n * nx1 + x)
      (new (n * nx1 + x) + PC n t * input1 (t * nx1 + x))) new) new) new (n * nx1 + x) =
      new (n * nx1 + x) + ∑ t ∈ range nt, PC n t * input1 (t * nx1 + x) := by
  have inner : ∀ (e : ℕ) (a : ℕ → K) (i : ℕ), cfor nt (fun t new => cfor nx1 (fun x new => assign new (e * nx1 + x)
      (new (e * nx1 + x) + PC e t * input1 (t * nx1 + x))) new) a (i * nx1 + x) =
      if i = e then a (i * nx1 + x) + ∑ t ∈ range nt, PC e t * input1 (t * nx1 + x) else a (i * nx1 + x) := by
    intro e a i
    induction nt with
    | zero => simp [cfor_zero]
    | succ nt ih =>
      rw [cfor_succ, row_write nx1 e (fun x v => v + PC e nt * input1 (nt * nx1 + x)) _ i x hx, ih]
      split_ifs with h
      · rw [sum_range_succ]; ring
      · rfl
  have outer : ∀ m, cfor m (fun n new => cfor nt (fun t new => cfor nx1 (fun x new => assign new (n * nx1 + x)
      (new (n * nx1 + x) + PC n t * input1 (t * nx1 + x))) new) new) new (n * nx1 + x) =
      if n < m then new (n * nx1 + x) + ∑ t ∈ range nt, PC n t * input1 (t * nx1 + x) else new (n * nx1 + x) := by
    intro m
    induction m with
    | zero => simp [cfor_zero]
    | succ m ih =>
      rw [cfor_succ, inner, ih]
      rcases lt_trichotomy n m with h | h | h
      · rw [if_neg (by omega), if_pos h, if_pos (by omega)]
      · subst h; rw [if_pos rfl, if_neg (by omega), if_pos (by omega)]
      · rw [if_neg (by omega), if_neg (by omega), if_neg (by omega)]
  rw [outer num, if_pos hn]

/-- C126: `build_svds` adds to the new patterns what the chunk contributes, and writes the sizes of the old patterns. -/
theorem build_correct (num nt nx1 nx2 : ℕ) (input1 input2 old : ℕ → K) (p : ℕ) (st : (ℕ → K) × (ℕ → K)) :
    (∀ n < num, ∀ x < nx1, (buildSvds num nt nx1 nx2 input1 input2 old p st).1 (n * nx1 + x) = st.1 (n * nx1 + x) +
      ∑ t ∈ range nt, (∑ y ∈ range nx2, input2 (t * nx2 + y) * old (n * nx2 + y)) * input1 (t * nx1 + x)) ∧
    (∀ t < nt, ∀ n < num, (buildSvds num nt nx1 nx2 input1 input2 old p st).2 (p + (t * num + n)) =
      ∑ y ∈ range nx2, input2 (t * nx2 + y) * old (n * nx2 + y)) ∧
    ∀ q, (∀ t < nt, ∀ n < num, q ≠ p + (t * num + n)) → (buildSvds num nt nx1 nx2 input1 input2 old p st).2 q = st.2 q := by
  set PC : ℕ → ℕ → K := fun n t => ∑ y ∈ range nx2, input2 (t * nx2 + y) * old (n * nx2 + y) with hPC
  have e : buildSvds num nt nx1 nx2 input1 input2 old p st =
      (cfor num (fun n new => cfor nt (fun t new => cfor nx1 (fun x new => assign new (n * nx1 + x)
          (new (n * nx1 + x) + PC n t * input1 (t * nx1 + x))) new) new) st.1,
       cfor num (fun n a => cfor nt (fun t a => assign a (p + (t * num + n)) (PC n t)) a) st.2) := by
    unfold buildSvds
    rw [← cfor_prod]
    refine cfor_congr _ (fun n _ s => ?_) st
    rw [← cfor_prod]
    refine cfor_congr _ (fun t _ s => ?_) s
    simp only [hPC, cfor_sum, zero_add]
  obtain ⟨h1, h2⟩ := scatter2 num nt (fun n t => p + (t * num + n)) (fun i hi j hj i' hi' j' hj' he => by
    have := flat_inj (n := num) (i := j) (j := j') hi hi' (by omega)
    exact ⟨this.2, this.1⟩) PC st.2
  rw [e]
  refine ⟨fun n hn x hx => build_new num nt nx1 input1 PC st.1 n x hn hx, fun t ht n hn => h1 n hn t ht,
    fun q hq => h2 q fun n hn t ht => hq t ht n hn⟩

theorem buildEofs_eq (num nt nx : ℕ) (input old : ℕ → K) (p : ℕ) (st : (ℕ → K) × (ℕ → K)) :
    buildEofs num nt nx input old p st = buildSvds num nt nx nx input input old p st := rfl

/-- C126: `dot` -/
theorem dot_correct (num nx : ℕ) (U V out : ℕ → K) :
    Holding num num (dot num nx U V out) fun i j => ∑ x ∈ range nx, U (i * nx + x) * V (j * nx + x) := by
  intro i hi j hj
  have e : dot num nx U V out = cfor num (fun e1 out => cfor num (fun e2 out =>
      assign out (e1 * num + e2) (∑ x ∈ range nx, U (e1 * nx + x) * V (e2 * nx + x))) out) out := by
    unfold dot
    refine cfor_congr _ (fun n _ s => cfor_congr _ (fun t _ s => ?_) s) out
    rw [cfor_sum, zero_add]
  rw [e]
  exact (scatter2 num num (fun i j => i * num + j) (fun i hi j hj i' hi' j' hj' he => flat_inj hj hj' he) _ out).1 i hi j hj

/-- C126: `transform` replaces the patterns by combinations of them. -/
theorem transform_correct (num nx : ℕ) (P U : ℕ → K) :
    Holding num nx (transform num nx P U) fun i x => ∑ e ∈ range num, P (e * num + i) * U (e * nx + x) := by
  have key : ∀ m ≤ nx, ∀ i < num, ∀ x < nx, cfor m (fun x U =>
      let work := cfor num (fun e1 w => assign w e1 (cfor num (fun e2 s => s + P (e2 * num + e1) * U (e2 * nx + x)) 0)) fun _ => 0
      cfor num (fun e1 U => assign U (e1 * nx + x) (work e1)) U) U (i * nx + x) =
      if x < m then ∑ e ∈ range num, P (e * num + i) * U (e * nx + x) else U (i * nx + x) := by
    intro m
    induction m with
    | zero => intro _ i _ x _; simp [cfor_zero]
    | succ m ih =>
      intro hm i hi x hx
      rw [cfor_succ]
      set W := cfor m (fun x U =>
        let work := cfor num (fun e1 w => assign w e1 (cfor num (fun e2 s => s + P (e2 * num + e1) * U (e2 * nx + x)) 0)) fun _ => 0
        cfor num (fun e1 U => assign U (e1 * nx + x) (work e1)) U) U with hW
      have ih' := ih (by omega)
      obtain ⟨h1, h2⟩ := scatter num (fun e => e * nx + m) (fun i _ j _ h => (flat_inj (by omega) (by omega) h).1)
        (fun e _ => (cfor num (fun e1 w => assign w e1 (cfor num (fun e2 s => s + P (e2 * num + e1) * W (e2 * nx + m)) 0)) fun _ => 0) e) W
      by_cases hxm : x = m
      · subst hxm
        rw [if_pos (by omega)]
        refine (h1 i hi).trans ?_
        refine ((scatter num (fun e => e) (fun i _ j _ h => h)
          (fun e1 _ => cfor num (fun e2 s => s + P (e2 * num + e1) * W (e2 * nx + x)) 0) fun _ => 0).1 i hi).trans ?_
        rw [cfor_sum, zero_add]
        refine sum_congr rfl fun e he => ?_
        rw [ih' e (mem_range.1 he) x hx, if_neg (by omega)]
      · refine (h2 _ fun j hj he => hxm (flat_inj hx (by omega) he).2).trans ?_
        rw [ih' i hi x hx]
        by_cases h : x < m
        · rw [if_pos h, if_pos (by omega)]
        · rw [if_neg h, if_neg (by omega)]
  intro i hi x hx
  unfold transform
  rw [key nx le_rfl i hi x hx, if_pos hx]

/-- a loop that rewrites one row after the other -/
theorem rows_write (m n : ℕ) (body : ℕ → (ℕ → K) → ℕ → K) (G : ℕ → (ℕ → K) → ℕ → K)
    (hb : ∀ e < m, ∀ U i x, x < n → body e U (i * n + x) = if i = e then G e (fun y => U (e * n + y)) x else U (i * n + x))
    (hG : ∀ e r r', (∀ y < n, r y = r' y) → ∀ x < n, G e r x = G e r' x) (U : ℕ → K) (i x : ℕ) (hx : x < n) :
    cfor m body U (i * n + x) = if i < m then G i (fun y => U (i * n + y)) x else U (i * n + x) := by
  induction m generalizing i x with
  | zero => simp [cfor_zero]
  | succ m ih =>
    have ih' := ih fun e he => hb e (by omega)
    rw [cfor_succ, hb m (by omega) _ i x hx]
    rcases lt_trichotomy i m with h | h | h
    · rw [if_neg (by omega), ih' i x hx, if_pos h, if_pos (by omega)]
    · subst h
      rw [if_pos rfl, if_pos (by omega)]
      refine hG i _ _ (fun y hy => ?_) x hx
      rw [ih' i y hy, if_neg (by omega)]
    · rw [if_neg (by omega), ih' i x hx, if_neg (by omega), if_neg (by omega)]

/-! ### one pass over the data -/

theorem chunk_at (d : ℕ → ℕ → K) {n : ℕ} (t0 t x : ℕ) (hx : x < n) : chunk d n t0 (t * n + x) = d (t0 + t) x := by
  unfold chunk
  rw [mul_comm, Nat.mul_add_div (by omega), Nat.div_eq_of_lt hx, Nat.mul_add_mod, Nat.mod_eq_of_lt hx, add_zero]

/-- the fold over the chunks, one of the two accumulations -/
theorem pass_aux (k n1 n2 : ℕ) (d1 d2 : ℕ → ℕ → K) (old : ℕ → K) : ∀ (parts : List (ℕ × ℕ)) (t0 T : ℕ) (st : (ℕ → K) × (ℕ → K)),
    Following t0 parts T → t0 ≤ T ∧
    (∀ n < k, ∀ x < n1, (parts.foldl (fun st p => buildSvds k p.2 n1 n2 (chunk d1 n1 p.1) (chunk d2 n2 p.1) old (p.1 * k) st) st).1 (n * n1 + x) =
      st.1 (n * n1 + x) + ∑ t ∈ Ico t0 T, projection n2 d2 (fun y => old (n * n2 + y)) t * d1 t x) ∧
    ∀ t, ∀ n < k, (parts.foldl (fun st p => buildSvds k p.2 n1 n2 (chunk d1 n1 p.1) (chunk d2 n2 p.1) old (p.1 * k) st) st).2 (t * k + n) =
      if t0 ≤ t ∧ t < T then projection n2 d2 (fun y => old (n * n2 + y)) t else st.2 (t * k + n)
  | [], t0, T, st, h => by
    have h : t0 = T := h
    subst h
    refine ⟨le_rfl, fun n hn x hx => by simp, fun t n hn => ?_⟩
    rw [if_neg (by omega)]
    rfl
  | p :: ps, t0, T, st, h => by
    obtain ⟨h1, h2⟩ := h
    subst h1
    obtain ⟨g0, g1, g2⟩ := pass_aux k n1 n2 d1 d2 old ps (p.1 + p.2) T
      (buildSvds k p.2 n1 n2 (chunk d1 n1 p.1) (chunk d2 n2 p.1) old (p.1 * k) st) h2
    obtain ⟨b1, b2, b3⟩ := build_correct k p.2 n1 n2 (chunk d1 n1 p.1) (chunk d2 n2 p.1) old (p.1 * k) st
    have hproj : ∀ n t, ∑ y ∈ range n2, chunk d2 n2 p.1 (t * n2 + y) * old (n * n2 + y) = projection n2 d2 (fun y => old (n * n2 + y)) (p.1 + t) := by
      intro n t
      unfold projection
      refine sum_congr rfl fun y hy => ?_
      rw [chunk_at _ _ _ _ (mem_range.1 hy)]
    refine ⟨by omega, fun n hn x hx => ?_, fun t n hn => ?_⟩
    · rw [List.foldl_cons, g1 n hn x hx, b1 n hn x hx, ← sum_Ico_consecutive _ (Nat.le_add_right p.1 p.2) g0,
        sum_Ico_eq_sum_range _ p.1 (p.1 + p.2), add_assoc, Nat.add_sub_cancel_left]
      congr 2
      refine sum_congr rfl fun t _ => ?_
      rw [hproj, chunk_at _ _ _ _ hx]
    · rw [List.foldl_cons, g2 t n hn]
      by_cases c1 : p.1 + p.2 ≤ t ∧ t < T
      · rw [if_pos c1, if_pos (by omega)]
      rw [if_neg c1]
      by_cases c2 : p.1 ≤ t ∧ t < T
      · rw [if_pos c2]
        have := b2 (t - p.1) (by omega) n hn
        rw [hproj, show p.1 + (t - p.1) = t by omega] at this
        rw [← this]
        congr 1
        rw [← add_assoc, ← add_mul, show p.1 + (t - p.1) = t by omega]
      · rw [if_neg c2]
        refine b3 _ fun s hs m hm he => ?_
        rw [← add_assoc, ← add_mul] at he
        have := (flat_inj hn hm he).1
        omega

theorem foldl_pair {σ τ ι : Type} (f : σ → ι → σ) (g : τ → ι → τ) (l : List ι) (s : σ × τ) :
    l.foldl (fun s i => (f s.1 i, g s.2 i)) s = (l.foldl f s.1, l.foldl g s.2) := by
  induction l generalizing s with
  | nil => rfl
  | cons i l ih => rw [List.foldl_cons, ih]; rfl

/-- C126: whatever the chunks, a pass over the data gives the covariances of each field with the sizes of the patterns of the other, and these
sizes at all times. -/
theorem pass_correct (k NX1 NX2 NT : ℕ) (d1 d2 : ℕ → ℕ → K) (parts : List (ℕ × ℕ)) (hp : Following 0 parts NT) (U X pcs1 pcs2 : ℕ → K) :
    let r := accumulate k NX1 NX2 d1 d2 parts U X pcs1 pcs2
    Holding k NX1 r.1.1 (fun n => regression NT d1 (projection NX2 d2 fun y => X (n * NX2 + y))) ∧
    Holding k NX2 r.2.1 (fun n => regression NT d2 (projection NX1 d1 fun y => U (n * NX1 + y))) ∧
    Holding NT k r.1.2 (fun t n => projection NX2 d2 (fun y => X (n * NX2 + y)) t) ∧
    Holding NT k r.2.2 (fun t n => projection NX1 d1 (fun y => U (n * NX1 + y)) t) := by
  have e : accumulate k NX1 NX2 d1 d2 parts U X pcs1 pcs2 =
      (parts.foldl (fun st p => buildSvds k p.2 NX1 NX2 (chunk d1 NX1 p.1) (chunk d2 NX2 p.1) X (p.1 * k) st) (fun _ => 0, pcs2),
       parts.foldl (fun st p => buildSvds k p.2 NX2 NX1 (chunk d2 NX2 p.1) (chunk d1 NX1 p.1) U (p.1 * k) st) (fun _ => 0, pcs1)) := by
    unfold accumulate
    generalize (fun (x : ℕ) => (0 : K)) = z
    generalize hF : (fun (p : ℕ × ℕ) => buildSvds k p.2 NX1 NX2 (chunk d1 NX1 p.1) (chunk d2 NX2 p.1) X (p.1 * k)) = F
    generalize hG : (fun (p : ℕ × ℕ) => buildSvds k p.2 NX2 NX1 (chunk d2 NX2 p.1) (chunk d1 NX1 p.1) U (p.1 * k)) = G
    have hF' : ∀ p : ℕ × ℕ, buildSvds k p.2 NX1 NX2 (chunk d1 NX1 p.1) (chunk d2 NX2 p.1) X (p.1 * k) = F p := fun p => by rw [← hF]
    have hG' : ∀ p : ℕ × ℕ, buildSvds k p.2 NX2 NX1 (chunk d2 NX2 p.1) (chunk d1 NX1 p.1) U (p.1 * k) = G p := fun p => by rw [← hG]
    simp only [hF', hG']
    exact foldl_pair (fun st p => F p st) (fun st p => G p st) parts ((z, pcs2), (z, pcs1))
  obtain ⟨-, a1, a2⟩ := pass_aux k NX1 NX2 d1 d2 X parts 0 NT (fun _ => 0, pcs2) hp
  obtain ⟨-, b1, b2⟩ := pass_aux k NX2 NX1 d2 d1 U parts 0 NT (fun _ => 0, pcs1) hp
  intro r
  simp only [r, e]
  refine ⟨fun n hn x hx => ?_, fun n hn x hx => ?_, fun t ht n hn => ?_, fun t ht n hn => ?_⟩
  · rw [a1 n hn x hx, zero_add, Nat.Ico_zero_eq_range]; rfl
  · rw [b1 n hn x hx, zero_add, Nat.Ico_zero_eq_range]; rfl
  · rw [a2 t n hn, if_pos ⟨by omega, ht⟩]
  · rw [b2 t n hn, if_pos ⟨by omega, ht⟩]

/-- the chunks of `range(0,NT,dt)` follow each other -/
theorem chunks_following (NT dt : ℕ) (h : 1 ≤ dt) : Following 0 (chunks NT dt) NT := by
  have key : ∀ m a, (∀ i < m, (a + i) * dt < NT) → NT ≤ (a + m) * dt → (m = 0 → a * dt = NT ∨ NT ≤ a * dt) →
      Following (min NT (a * dt)) ((List.range' a m).map fun i => (i * dt, min dt (NT - i * dt))) NT := by
    intro m
    induction m with
    | zero =>
      intro a _ h2 _
      show min NT (a * dt) = NT
      exact min_eq_left (by simpa using h2)
    | succ m ih =>
      intro a h1 h2 _
      have h3 : a * dt < NT := by simpa using h1 0 (by omega)
      rw [List.range'_succ, List.map_cons]
      refine ⟨(min_eq_right h3.le).symm, ?_⟩
      have h4 : min NT (a * dt) + min dt (NT - a * dt) = min NT ((a + 1) * dt) := by
        rw [add_mul, one_mul]; omega
      rw [h4]
      exact ih (a + 1) (fun i hi => by have := h1 (i + 1) (by omega); rwa [show a + (i + 1) = a + 1 + i by omega] at this)
        (by rwa [show a + 1 + m = a + (m + 1) by omega]) (fun hm => Or.inr (by subst hm; simpa using h2))
  have := key ((NT + dt - 1) / dt) 0 (fun i hi => ?_) ?_ (fun h => ?_)
  · unfold chunks
    rw [List.range_eq_range']
    simpa using this
  · have hd := Nat.div_mul_le_self (NT + dt - 1) dt
    have : (i + 1) * dt ≤ (NT + dt - 1) / dt * dt := Nat.mul_le_mul_right _ hi
    rw [add_mul, one_mul] at this
    rw [zero_add]
    omega
  · have := Nat.lt_div_mul_add (a := NT + dt - 1) (b := dt) (by omega)
    rw [zero_add]
    omega
  · have := Nat.lt_div_mul_add (a := NT + dt - 1) (b := dt) (by omega)
    rw [h] at this
    omega

end field

/-! ### signs and sizes -/

/-- C126: `fixcov` turns pattern and series of the second field together, so that each pair of series has no negative covariance; pairs that have
none before are left alone. -/
theorem fixcov_correct {K : Type} [Field K] [LinearOrder K] [IsStrictOrderedRing K] (num nt nx : ℕ) (pcA pcB eofB : ℕ → K) :
    ∃ sgn : ℕ → K, (∀ e < num, (sgn e = 1 ∨ sgn e = -1) ∧
        (0 ≤ ∑ t ∈ range nt, pcA (t * num + e) * pcB (t * num + e) → sgn e = 1) ∧
        0 ≤ ∑ t ∈ range nt, pcA (t * num + e) * (fixcov num nt nx pcA pcB eofB).1 (t * num + e)) ∧
      Holding nt num (fixcov num nt nx pcA pcB eofB).1 (fun t e => sgn e * pcB (t * num + e)) ∧
      Holding num nx (fixcov num nt nx pcA pcB eofB).2 (fun e x => sgn e * eofB (e * nx + x)) := by
  set cov : ℕ → K := fun e => ∑ t ∈ range nt, pcA (t * num + e) * pcB (t * num + e) with hcov
  let sgn : ℕ → K := fun e => if cov e < 0 then -1 else 1
  let body : ℕ → (ℕ → K) × (ℕ → K) → (ℕ → K) × (ℕ → K) := fun e st =>
        if cfor nt (fun t s => s + pcA (t * num + e) * st.1 (t * num + e)) 0 < 0 then
          (cfor nt (fun t b => assign b (t * num + e) (b (t * num + e) * -1)) st.1,
           cfor nx (fun x b => assign b (e * nx + x) (b (e * nx + x) * -1)) st.2)
        else st
  have key : ∀ m ≤ num, (∀ t < nt, ∀ e < num, (cfor m body (pcB, eofB)).1 (t * num + e) = if e < m then sgn e * pcB (t * num + e) else pcB (t * num + e)) ∧
      (∀ e < num, ∀ x < nx, (cfor m body (pcB, eofB)).2 (e * nx + x) = if e < m then sgn e * eofB (e * nx + x) else eofB (e * nx + x)) := by
    intro m
    induction m with
    | zero => intro _; simp [cfor_zero]
    | succ m ih =>
      intro hm
      obtain ⟨i1, i2⟩ := ih (by omega)
      rw [cfor_succ]
      set r := cfor m body (pcB, eofB) with hr
      have hbody : body m r = if cfor nt (fun t s => s + pcA (t * num + m) * r.1 (t * num + m)) 0 < 0 then
          (cfor nt (fun t b => assign b (t * num + m) (b (t * num + m) * -1)) r.1,
           cfor nx (fun x b => assign b (m * nx + x) (b (m * nx + x) * -1)) r.2)
        else r := rfl
      have hc : cfor nt (fun t s => s + pcA (t * num + m) * r.1 (t * num + m)) 0 = cov m := by
        rw [cfor_sum, zero_add, hcov]
        refine sum_congr rfl fun t ht => ?_
        rw [i1 t (mem_range.1 ht) m (by omega), if_neg (by omega)]
      rw [hbody, hc]
      obtain ⟨s1, s2⟩ := scatter nt (fun t => t * num + m) (fun i _ j _ h => (flat_inj (by omega) (by omega) h).1) (fun _ v => v * -1) r.1
      constructor
      · intro t ht e he
        split_ifs with c1 c2 c2
        · by_cases hem : e = m
          · subst hem
            refine (s1 t ht).trans ?_
            rw [i1 t ht e he, if_neg (by omega)]
            simp only [sgn]
            rw [if_pos c1]; ring
          · refine (s2 _ fun t' ht' h => hem (flat_inj he (by omega) h).2).trans ?_
            rw [i1 t ht e he, if_pos (by omega)]
        · refine (s2 _ fun t' ht' h => ?_).trans ?_
          · have := (flat_inj he (by omega) h).2
            omega
          · rw [i1 t ht e he, if_neg (by omega)]
        · rw [i1 t ht e he]
          by_cases hem : e = m
          · subst hem
            rw [if_neg (by omega)]
            simp only [sgn]
            rw [if_neg c1, one_mul]
          · rw [if_pos (by omega)]
        · rw [i1 t ht e he, if_neg (by omega)]
      · intro e he x hx
        split_ifs with c1 c2 c2
        · refine (row_write nx m (fun _ v => v * -1) r.2 e x hx).trans ?_
          by_cases hem : e = m
          · subst hem
            rw [if_pos rfl, i2 e he x hx, if_neg (by omega)]
            simp only [sgn]
            rw [if_pos c1]; ring
          · rw [if_neg hem, i2 e he x hx, if_pos (by omega)]
        · refine (row_write nx m (fun _ v => v * -1) r.2 e x hx).trans ?_
          rw [if_neg (by omega), i2 e he x hx, if_neg (by omega)]
        · rw [i2 e he x hx]
          by_cases hem : e = m
          · subst hem
            rw [if_neg (by omega)]
            simp only [sgn]
            rw [if_neg c1, one_mul]
          · rw [if_pos (by omega)]
        · rw [i2 e he x hx, if_neg (by omega)]
  obtain ⟨k1, k2⟩ := key num le_rfl
  have hpc : Holding nt num (fixcov num nt nx pcA pcB eofB).1 (fun t e => sgn e * pcB (t * num + e)) := by
    intro t ht e he
    exact (k1 t ht e he).trans (if_pos he)
  refine ⟨sgn, fun e he => ⟨?_, ?_, ?_⟩, hpc, fun e he x hx => (k2 e he x hx).trans (if_pos he)⟩
  · by_cases c : cov e < 0
    · exact Or.inr (if_pos c)
    · exact Or.inl (if_neg c)
  · intro h
    exact if_neg (not_lt.2 h)
  · rw [sum_congr rfl fun t ht => by rw [hpc t (mem_range.1 ht) e he]]
    have : ∑ t ∈ range nt, pcA (t * num + e) * (sgn e * pcB (t * num + e)) = sgn e * cov e := by
      rw [hcov, mul_sum]
      exact sum_congr rfl fun t _ => by ring
    rw [this]
    simp only [sgn]
    split_ifs with c
    · linarith
    · linarith [not_lt.1 c]

/-- C126: `normalize` multiplies every pattern that is not 0 by a number that gives it size 1 and a first element that is not negative. -/
theorem normalize_correct (num nx : ℕ) (U : ℕ → ℝ) : ∃ c : ℕ → ℝ, Holding num nx (normalize num nx U) (fun e x => c e * U (e * nx + x)) ∧
    ∀ e < num, (∃ x < nx, U (e * nx + x) ≠ 0) → c e ≠ 0 ∧ (0 ≤ U (e * nx) → 0 < c e) ∧ ∑ x ∈ range nx, normalize num nx U (e * nx + x) ^ 2 = 1 ∧
      0 ≤ normalize num nx U (e * nx) := by
  let nrm : (ℕ → ℝ) → ℝ := fun r => Real.sqrt (∑ x ∈ range nx, r x * r x)
  have hn : ∀ r r' : ℕ → ℝ, (∀ y < nx, r y = r' y) → nrm r = nrm r' := by
    intro r r' h
    simp only [nrm]
    congr 1
    exact sum_congr rfl fun y hy => by rw [h y (mem_range.1 hy)]
  set V := cfor num (fun e U =>
    let n := Real.sqrt (cfor nx (fun x s => s + U (e * nx + x) * U (e * nx + x)) 0)
    cfor nx (fun x U => assign U (e * nx + x) (U (e * nx + x) / n)) U) U with hV
  have h1 : ∀ e < num, ∀ x < nx, V (e * nx + x) = U (e * nx + x) / nrm fun y => U (e * nx + y) := by
    intro e he x hx
    rw [hV, rows_write num nx _ (fun e r x => r x / nrm r) ?_ ?_ U e x hx, if_pos he]
    · intro e he U i x hx
      simp only
      rw [row_write nx e (fun _ v => v / Real.sqrt (cfor nx (fun x s => s + U (e * nx + x) * U (e * nx + x)) 0)) U i x hx]
      split_ifs with h
      · subst h
        rw [cfor_sum, zero_add]
      · rfl
    · intro e r r' h x hx
      rw [hn r r' h, h x hx]
  have h2 : ∀ e < num, ∀ x < nx, normalize num nx U (e * nx + x) = if V (e * nx) < 0 then V (e * nx + x) * -1 else V (e * nx + x) := by
    intro e he x hx
    unfold normalize
    rw [← hV]
    rw [rows_write num nx _ (fun e r x => if r 0 < 0 then r x * -1 else r x) ?_ ?_ V e x hx, if_pos he]
    · simp only [add_zero]
    · intro e he U i x hx
      simp only [add_zero]
      split_ifs with c1 c2 c2
      · rw [row_write nx e (fun _ v => v * -1) U i x hx, if_pos c2, c2]
      · rw [row_write nx e (fun _ v => v * -1) U i x hx, if_neg c2]
      · rw [c2]
      · rfl
    · intro e r r' h x hx
      rw [h 0 (by omega), h x hx]
  let c : ℕ → ℝ := fun e => (if V (e * nx) < 0 then -1 else 1) / nrm fun y => U (e * nx + y)
  have h3 : Holding num nx (normalize num nx U) (fun e x => c e * U (e * nx + x)) := by
    intro e he x hx
    rw [h2 e he x hx, h1 e he x hx]
    simp only [c]
    split_ifs <;> ring
  refine ⟨c, h3, fun e he hne => ?_⟩
  obtain ⟨x0, hx0, hne⟩ := hne
  have hpos : 0 < ∑ x ∈ range nx, U (e * nx + x) * U (e * nx + x) := by
    refine lt_of_lt_of_le (mul_self_pos.2 hne) ?_
    exact single_le_sum (f := fun x => U (e * nx + x) * U (e * nx + x)) (fun x _ => mul_self_nonneg _) (mem_range.2 hx0)
  have hnp : 0 < nrm fun y => U (e * nx + y) := Real.sqrt_pos.2 hpos
  have hsq : (nrm fun y => U (e * nx + y)) ^ 2 = ∑ x ∈ range nx, U (e * nx + x) * U (e * nx + x) := Real.sq_sqrt hpos.le
  refine ⟨?_, fun h0 => ?_, ?_, ?_⟩
  · simp only [c]
    refine div_ne_zero ?_ hnp.ne'
    split_ifs <;> norm_num
  · have := h1 e he 0 (by omega)
    rw [add_zero] at this
    simp only [c]
    rw [if_neg (not_lt.2 (by rw [this]; exact div_nonneg h0 hnp.le))]
    exact div_pos one_pos hnp
  · have hc2 : c e ^ 2 = 1 / (nrm fun y => U (e * nx + y)) ^ 2 := by
      simp only [c]
      split_ifs <;> ring
    calc ∑ x ∈ range nx, normalize num nx U (e * nx + x) ^ 2
        = ∑ x ∈ range nx, c e ^ 2 * (U (e * nx + x) * U (e * nx + x)) :=
          sum_congr rfl fun x hx => by rw [h3 e he x (mem_range.1 hx)]; ring
      _ = 1 := by
          rw [← mul_sum, ← hsq, hc2]
          field_simp
  · have := h2 e he 0 (by omega)
    rw [add_zero] at this
    rw [this]
    split_ifs with h
    · linarith
    · exact not_lt.1 h

end Svd
end PyGeode
