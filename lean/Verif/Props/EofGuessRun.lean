import Verif.Props.EofGuessMerge
/-!
# C127: the whole run of the one-pass estimate
-/
namespace PyGeode
namespace EofGuess
open Spec Matrix
open Svd (cfor assign chunk scatter row_write cfor_succ cfor_zero table_of_holding chunk_at)

theorem sum_shorter {n N : ℕ} (h : n ≤ N) (f : ℕ → ℝ) (h0 : ∀ t, n ≤ t → t < N → f t = 0) : ∑ t ∈ Finset.range N, f t = ∑ t ∈ Finset.range n, f t := by
  symm
  refine Finset.sum_subset (by simpa using h) fun t ht hn => ?_
  simp only [Finset.mem_range, not_lt] at ht hn
  exact h0 t hn ht

/-- one piece of the data -/
theorem piece_decomposes {lapack : Dsyev} (hl : lapack.Right) {N nx NT NREC : ℕ} {d : ℕ → ℕ → ℝ} {t1 offset : ℕ} (hN : 0 < N)
    (ho : offset < NREC) (hT : t1 + NREC ≤ NT) :
    Decomposes N nx NT d (t1 + offset) (piece lapack N nx NREC (chunk d nx t1) offset) ∧
      (piece lapack N nx NREC (chunk d nx t1) offset).nt = min N (NREC - offset) := by
  set p := piece lapack N nx NREC (chunk d nx t1) offset with hp
  set n := if offset + N ≤ NREC then N else NREC - offset with hn
  have hnt : p.nt = n := rfl
  have hn' : n = min N (NREC - offset) := by rw [hn]; split_ifs <;> omega
  set df : ℕ → ℝ := fun i => if i < n * nx then chunk d nx t1 (offset * nx + i) else 0 with hdf
  have hnN : n ≤ N := by omega
  obtain ⟨vvt, vtv, eq, uut, uat, nonneg, anti, total, gone⟩ := svd_correct hl nx N df
  set A := table N nx df with hA
  set r := svd lapack nx N df with hr
  have heof : p.eof = r.1 := rfl
  have heig : p.eig = r.2.1 := rfl
  have hpc : ∀ i < N, ∀ t < n, p.pc (i * n + t) = r.2.2 (i * N + t) := memcpy_rows N n r.2.2 (fun i => i * N) fun _ => 0
  have hAin : ∀ (t : Fin N) (x : Fin nx), (t : ℕ) < n → A t x = d (t1 + offset + t) x := by
    intro t x ht
    have hlt : (t : ℕ) * nx + x < n * nx := by
      calc (t : ℕ) * nx + x < (t + 1) * nx := by rw [add_mul, one_mul]; have := x.2; omega
        _ ≤ n * nx := Nat.mul_le_mul_right _ ht
    show df (t * nx + x) = _
    rw [hdf]
    simp only [if_pos hlt]
    rw [← add_assoc, ← add_mul, chunk_at d t1 (offset + t) x x.2, add_assoc]
  have hAout : ∀ (t : Fin N) (x : Fin nx), n ≤ (t : ℕ) → A t x = 0 := by
    intro t x ht
    show df (t * nx + x) = _
    rw [hdf]
    have : ¬ ((t : ℕ) * nx + x < n * nx) := by
      have := Nat.mul_le_mul_right nx ht
      omega
    simp only [if_neg this]
  have hVout : ∀ i j : Fin N, n ≤ (j : ℕ) → r.2.1 i ≠ 0 → table N N r.2.2 i j = 0 := by
    intro i j hj hi
    have h1 := congrFun (congrFun uat i) j
    rw [mul_apply, diagonal_mul, Finset.sum_eq_zero] at h1
    · rcases mul_eq_zero.1 h1.symm with h | h
      · exact absurd h hi
      · exact h
    · intro x _
      rw [transpose_apply, hAout j x hj, mul_zero]
  refine ⟨⟨⟨?_, ?_, ?_, ?_⟩, ?_, ?_, ?_, ?_⟩, hn'⟩
  · intro i hi; exact nonneg ⟨i, hi⟩
  · intro i j hij hj
    exact anti (show (⟨i, by omega⟩ : Fin N) ≤ ⟨j, hj⟩ from hij)
  · intro i hi j hj
    have := congrFun (congrFun uut ⟨i, hi⟩) ⟨j, hj⟩
    rw [mul_apply, diagonal_apply] at this
    rw [Finset.sum_range, heof, heig]
    refine Eq.trans this ?_
    by_cases hij : i = j
    · subst hij; simp
    · simp [hij]
  · intro i hi j hj gi gj
    rw [hnt]
    have := congrFun (congrFun vvt ⟨i, hi⟩) ⟨j, hj⟩
    rw [mul_apply, one_apply] at this
    calc ∑ t ∈ Finset.range n, p.pc (i * n + t) * p.pc (j * n + t)
        = ∑ t ∈ Finset.range n, r.2.2 (i * N + t) * r.2.2 (j * N + t) := Finset.sum_congr rfl fun t ht => by
          rw [hpc i hi t (Finset.mem_range.1 ht), hpc j hj t (Finset.mem_range.1 ht)]
      _ = ∑ t ∈ Finset.range N, r.2.2 (i * N + t) * r.2.2 (j * N + t) := by
          symm
          refine sum_shorter hnN _ fun t h1 h2 => ?_
          rw [show r.2.2 (i * N + t) = 0 from hVout ⟨i, hi⟩ ⟨t, h2⟩ h1 gi, zero_mul]
      _ = _ := by
          rw [Finset.sum_range]
          refine Eq.trans this ?_
          simp [Fin.ext_iff]
  · rw [hnt]; omega
  · rw [hnt]; omega
  · rw [hnt, Finset.sum_range, heig]
    refine le_of_eq (total.trans ?_)
    calc ∑ i : Fin N, ∑ x : Fin nx, A i x ^ 2 = ∑ i ∈ Finset.range N, ∑ x ∈ Finset.range nx, df (i * nx + x) ^ 2 := by
          rw [Finset.sum_range]
          exact Finset.sum_congr rfl fun i _ => by rw [Finset.sum_range]; rfl
      _ = ∑ i ∈ Finset.range n, ∑ x ∈ Finset.range nx, df (i * nx + x) ^ 2 := by
          refine sum_shorter hnN _ fun t h1 h2 => Finset.sum_eq_zero fun x hx => ?_
          rw [show df (t * nx + x) = 0 from hAout ⟨t, h2⟩ ⟨x, Finset.mem_range.1 hx⟩ h1]
          simp
      _ = _ := by
          refine Finset.sum_congr rfl fun t ht => Finset.sum_congr rfl fun x hx => ?_
          rw [Finset.mem_range] at ht hx
          rw [show df (t * nx + x) = _ from hAin ⟨t, by omega⟩ ⟨x, hx⟩ ht]
  · intro _ t ht x hx
    rw [hnt] at ht
    have h1 : A ⟨t, by omega⟩ ⟨x, hx⟩ = _ := congrFun (congrFun eq ⟨t, by omega⟩) ⟨x, hx⟩
    rw [hAin ⟨t, by omega⟩ ⟨x, hx⟩ ht, mul_apply] at h1
    rw [rebuilt, Finset.sum_range, hnt]
    refine Eq.trans ?_ h1.symm
    refine Finset.sum_congr rfl fun i _ => ?_
    rw [mul_diagonal, transpose_apply, hpc i i.2 t ht]
    rfl

/-! ### the stack -/

theorem ones_odd {c : ℕ} (h : c % 2 = 1) : ones c = ones (c / 2) + 1 ∧ ones (c + 1) = ones (c / 2 + 1) := by
  constructor
  · rw [ones, if_neg (by omega), h, add_comm]
  · rw [ones, if_neg (by omega), show (c + 1) % 2 = 0 by omega, show (c + 1) / 2 = c / 2 + 1 by omega, zero_add]

theorem ones_even {c : ℕ} (h : ¬ c % 2 = 1) : ones (c + 1) = ones c + 1 := by
  rw [ones, if_neg (by omega), show (c + 1) % 2 = 1 by omega, show (c + 1) / 2 = c / 2 by omega]
  rw [add_comm]
  congr 1
  conv_rhs => rw [ones]
  split_ifs with h0
  · rw [h0]; rw [ones]; simp
  · rw [show c % 2 = 0 by omega, zero_add]

theorem ones_le (k : ℕ) : ∀ c, c < 2 ^ k → ones c ≤ k := by
  induction k with
  | zero => intro c h; rw [ones, if_pos (by omega)]
  | succ k ih =>
    intro c h
    rw [ones]
    split_ifs with h0
    · omega
    · have := ih (c / 2) (by rw [pow_succ] at h; omega)
      omega

theorem mergeWhile_correct {lapack : Dsyev} (hl : lapack.Right) {N nx NT : ℕ} {d : ℕ → ℕ → ℝ} : ∀ (c : ℕ) (stack : List Piece) (T : ℕ),
    stack.length = ones c + 1 → Stacked N nx NT d stack T →
      ∃ s, mergeWhile lapack N nx c stack = some s ∧ s.length = ones (c + 1) ∧ Stacked N nx NT d s T := by
  intro c
  induction c using Nat.strong_induction_on with
  | _ c ih =>
    intro stack T hlen hst
    rw [mergeWhile]
    by_cases h : c % 2 = 1
    · rw [dif_pos h]
      obtain ⟨o1, o2⟩ := ones_odd h
      rw [o1] at hlen
      match stack, hlen, hst with
      | p2 :: p1 :: rest, hlen, ⟨t2, e2, d2, t1, e1, d1, hrest⟩ =>
        subst e1
        have hm : mergeTop lapack N nx (p2 :: p1 :: rest) = some (merge lapack N nx p1 p2 :: rest) := by
          rw [mergeTop, if_pos ⟨d1.some, d2.some⟩]
        rw [hm, Option.bind_some, o2]
        refine ih (c / 2) (by omega) _ T ?_ ⟨t1, ?_, merge_decomposes hl d1 d2, hrest⟩
        · simpa using hlen
        · rw [e2, add_assoc]; rfl
    · rw [dif_neg h, ones_even h]
      exact ⟨stack, rfl, hlen, hst⟩

/-- what holds between the pieces: the pieces on the stack decompose all records up to `T` -/
structure Good (N nx NT : ℕ) (d : ℕ → ℕ → ℝ) (w : Work) (T : ℕ) : Prop where
  len : w.stack.length = ones w.count
  few : w.count ≤ T
  dec : Stacked N nx NT d w.stack T

theorem addToStack_correct {lapack : Dsyev} (hl : lapack.Right) {N nx NT : ℕ} {d : ℕ → ℕ → ℝ} (hNT : NT ≤ 2 ^ 99) {w : Work} {T : ℕ} (hg : Good N nx NT d w T)
    {p : Piece} (hp : Decomposes N nx NT d T p) : ∃ w', addToStack lapack N nx w p = some w' ∧ Good N nx NT d w' (T + p.nt) := by
  have h1 := hp.some
  have h2 := hp.inside
  have hl99 : ones w.count ≤ 99 := ones_le 99 _ (by have := hg.few; omega)
  obtain ⟨s, e, l, hs⟩ := mergeWhile_correct hl w.count (p :: w.stack) (T + p.nt) (by simp [hg.len]) ⟨T, rfl, hp, hg.dec⟩
  refine ⟨⟨s, w.count + 1⟩, ?_, l, ?_, hs⟩
  · rw [addToStack, if_pos (by rw [hg.len]; omega), e]; rfl
  · have := hg.few; show w.count + 1 ≤ _; omega

theorem foldlM_range_succ {σ : Type} (f : σ → ℕ → Option σ) (s : σ) (n : ℕ) :
    (List.range (n + 1)).foldlM f s = ((List.range n).foldlM f s).bind fun s => f s n := by
  rw [List.range_succ, List.foldlM_append]
  simp only [List.foldlM_cons, List.foldlM_nil]
  congr 1
  funext s
  cases f s n <;> rfl

theorem process_correct {lapack : Dsyev} (hl : lapack.Right) {N nx NT : ℕ} {d : ℕ → ℕ → ℝ} (hN : 0 < N) (hNT : NT ≤ 2 ^ 99) {w : Work} {T NREC : ℕ}
    (hg : Good N nx NT d w T) (hT : T + NREC ≤ NT) : ∃ w', process lapack N nx w NREC (chunk d nx T) = some w' ∧ Good N nx NT d w' (T + NREC) := by
  have key : ∀ m ≤ (NREC + N - 1) / N, ∃ w', (List.range m).foldlM
      (fun w i => addToStack lapack N nx w (piece lapack N nx NREC (chunk d nx T) (i * N))) w = some w' ∧ Good N nx NT d w' (T + min (m * N) NREC) := by
    intro m
    induction m with
    | zero => intro _; exact ⟨w, rfl, by simpa using hg⟩
    | succ m ih =>
      intro hm
      obtain ⟨w', e, hg'⟩ := ih (by omega)
      have hlt : m * N < NREC := by
        have := (Nat.le_div_iff_mul_le hN).1 hm
        rw [add_mul, one_mul] at this
        omega
      obtain ⟨hp, hnt⟩ := piece_decomposes hl (N := N) (nx := nx) (NT := NT) (NREC := NREC) (d := d) (t1 := T) (offset := m * N) hN hlt hT
      rw [min_eq_left hlt.le] at hg'
      obtain ⟨w'', e', hg''⟩ := addToStack_correct hl hNT hg' hp
      refine ⟨w'', ?_, ?_⟩
      · rw [foldlM_range_succ, e, Option.bind_some, e']
      · rw [hnt, show T + m * N + min N (NREC - m * N) = T + min ((m + 1) * N) NREC by rw [add_mul, one_mul]; omega] at hg''
        exact hg''
  obtain ⟨w', e, hg'⟩ := key _ le_rfl
  refine ⟨w', e, ?_⟩
  have : NREC ≤ (NREC + N - 1) / N * N := by
    have := Nat.lt_mul_div_succ (NREC + N - 1) hN
    rw [mul_add, mul_one, mul_comm] at this
    omega
  rwa [min_eq_right this] at hg'

theorem parts_correct {lapack : Dsyev} (hl : lapack.Right) {N nx NT : ℕ} {d : ℕ → ℕ → ℝ} (hN : 0 < N) (hNT : NT ≤ 2 ^ 99) :
    ∀ (parts : List (ℕ × ℕ)) (w : Work) (T : ℕ), Good N nx NT d w T → Following T parts NT →
      ∃ w', parts.foldlM (fun w p => process lapack N nx w p.2 (chunk d nx p.1)) w = some w' ∧ Good N nx NT d w' NT := by
  have hle : ∀ (parts : List (ℕ × ℕ)) (T : ℕ), Following T parts NT → T ≤ NT := by
    intro parts
    induction parts with
    | nil => intro T h; exact le_of_eq h
    | cons p ps ih => rintro T ⟨_, h⟩; have := ih _ h; omega
  intro parts
  induction parts with
  | nil => intro w T hg h; rw [Following] at h; subst h; exact ⟨w, rfl, hg⟩
  | cons p ps ih =>
    rintro w T hg ⟨h1, h2⟩
    obtain ⟨w1, e1, g1⟩ := process_correct hl hN hNT hg (hle _ _ h2)
    obtain ⟨w2, e2, g2⟩ := ih w1 _ g1 h2
    refine ⟨w2, ?_, g2⟩
    rw [List.foldlM_cons, h1, e1]
    exact e2

theorem mergeAll_correct {lapack : Dsyev} (hl : lapack.Right) {N nx NT : ℕ} {d : ℕ → ℕ → ℝ} : ∀ (rest : List Piece) (p : Piece) (T : ℕ),
    Stacked N nx NT d (p :: rest) T → ∃ q, mergeAll lapack N nx p rest = some q ∧ q.nt = T ∧ Decomposes N nx NT d 0 q := by
  intro rest
  induction rest with
  | nil =>
    rintro p T ⟨t0, e, hd, h0⟩
    rw [Stacked] at h0
    subst h0
    exact ⟨p, rfl, by omega, hd⟩
  | cons p1 rest ih =>
    rintro p2 T ⟨t2, e2, d2, t1, e1, d1, hrest⟩
    subst e1
    obtain ⟨q, e, hq⟩ := ih (merge lapack N nx p1 p2) T ⟨t1, by rw [e2, add_assoc]; rfl, merge_decomposes hl d1 d2, hrest⟩
    exact ⟨q, by rw [mergeAll, if_pos ⟨d1.some, d2.some⟩, e], hq⟩

/-! ### signs -/

/-- the sign that makes the first element of the pattern nonnegative -/
noncomputable def sign (a : ℝ) : ℝ := if a < 0 then -1 else 1

theorem sign_sq (a : ℝ) : sign a * sign a = 1 := by unfold sign; split_ifs <;> norm_num
theorem sign_mul (a : ℝ) : 0 ≤ a * sign a := by unfold sign; split_ifs <;> linarith

theorem signs_correct (N nx nt : ℕ) (hx : 0 < nx) (eof pc : ℕ → ℝ) :
    let s := cfor N (fun i s => if s.1 (i * nx) < 0 then
          (cfor nx (fun x a => assign a (i * nx + x) (a (i * nx + x) * -1)) s.1,
           cfor nt (fun t a => assign a (i * nt + t) (a (i * nt + t) * -1)) s.2) else s) (eof, pc)
    ∀ i < N, (∀ x < nx, s.1 (i * nx + x) = eof (i * nx + x) * sign (eof (i * nx))) ∧ ∀ t < nt, s.2 (i * nt + t) = pc (i * nt + t) * sign (eof (i * nx)) := by
  have key : ∀ m, ∀ i, (∀ x < nx, (cfor m (fun i s => if s.1 (i * nx) < 0 then
          (cfor nx (fun x a => assign a (i * nx + x) (a (i * nx + x) * -1)) s.1,
           cfor nt (fun t a => assign a (i * nt + t) (a (i * nt + t) * -1)) s.2) else s) (eof, pc)).1 (i * nx + x) =
              eof (i * nx + x) * if i < m then sign (eof (i * nx)) else 1) ∧
      ∀ t < nt, (cfor m (fun i s => if s.1 (i * nx) < 0 then
          (cfor nx (fun x a => assign a (i * nx + x) (a (i * nx + x) * -1)) s.1,
           cfor nt (fun t a => assign a (i * nt + t) (a (i * nt + t) * -1)) s.2) else s) (eof, pc)).2 (i * nt + t) =
              pc (i * nt + t) * if i < m then sign (eof (i * nx)) else 1 := by
    intro m
    induction m with
    | zero => intro i; simp [cfor_zero]
    | succ m ih =>
      intro i
      rw [cfor_succ]
      have h0 := (ih m).1 0 hx
      rw [add_zero, if_neg (lt_irrefl m), mul_one] at h0
      rw [h0]
      by_cases hneg : eof (m * nx) < 0
      · rw [if_pos hneg]
        refine ⟨fun x hx => ?_, fun t ht => ?_⟩
        · refine (row_write nx m (fun _ v => v * -1) _ i x hx).trans ?_
          rw [(ih i).1 x hx]
          by_cases him : i = m
          · subst him; simp [sign, hneg]
          · simp only [him, if_false]
            congr 1
            have : (i < m) ↔ (i < m + 1) := by omega
            simp only [this]
        · refine (row_write nt m (fun _ v => v * -1) _ i t ht).trans ?_
          rw [(ih i).2 t ht]
          by_cases him : i = m
          · subst him; simp [sign, hneg]
          · simp only [him, if_false]
            congr 1
            have : (i < m) ↔ (i < m + 1) := by omega
            simp only [this]
      · rw [if_neg hneg]
        have h2 : (if i < m then sign (eof (i * nx)) else 1) = if i < m + 1 then sign (eof (i * nx)) else 1 := by
          by_cases him : i = m
          · subst him; simp [sign, hneg]
          · have : (i < m) ↔ (i < m + 1) := by omega
            simp only [this]
        rw [← h2]
        exact ih i
  intro s i hi
  have := key N i
  simp only [hi, if_true] at this
  exact this

/-- **C127** The estimate never fails, it has a series of the length of the data, orthonormal patterns and series with decreasing sizes, never more variance than the
data, patterns that begin with a positive number (or 0); and if the data is made of no more patterns than are asked for, it is the exact
decomposition of the data, however the data was cut. -/
theorem guess_correct {lapack : Dsyev} (hl : lapack.Right) {N nx NT : ℕ} {d : ℕ → ℕ → ℝ} {parts : List (ℕ × ℕ)} (hN : 0 < N) (hx : 0 < nx) (h0 : 0 < NT)
    (hNT : NT ≤ 2 ^ 99) (hp : Following 0 parts NT) :
    ∃ p, guess lapack N nx d parts = some p ∧ p.nt = NT ∧ Decomposes N nx NT d 0 p ∧ ∀ i < N, 0 ≤ p.eof (i * nx) := by
  obtain ⟨w, e, hg⟩ := parts_correct hl hN hNT parts ⟨[], 0⟩ 0 ⟨by rw [ones]; rfl, le_rfl, rfl⟩ hp
  obtain ⟨hlen, hfew, hst⟩ := hg
  cases hw : w.stack with
  | nil => rw [hw, Stacked] at hst; omega
  | cons p rest =>
    rw [hw] at hst
    obtain ⟨q, eq, hnt, hd⟩ := mergeAll_correct hl rest p NT hst
    have hs := signs_correct N nx q.nt hx q.eof q.pc
    set s := cfor N (fun i s => if s.1 (i * nx) < 0 then
          (cfor nx (fun x a => assign a (i * nx + x) (a (i * nx + x) * -1)) s.1,
           cfor q.nt (fun t a => assign a (i * q.nt + t) (a (i * q.nt + t) * -1)) s.2) else s) (q.eof, q.pc) with hsdef
    have hs : ∀ i < N, (∀ x < nx, s.1 (i * nx + x) = q.eof (i * nx + x) * sign (q.eof (i * nx))) ∧
      ∀ t < q.nt, s.2 (i * q.nt + t) = q.pc (i * q.nt + t) * sign (q.eof (i * nx)) := hs
    refine ⟨{ q with eof := s.1, pc := s.2 }, ?_, hnt, ⟨⟨hd.orth.nonneg, hd.orth.anti, ?_, ?_⟩, hd.inside, hd.some, hd.variance, ?_⟩, ?_⟩
    · rw [guess, e, Option.bind_some, hw, endloop, eq, Option.bind_some, if_pos hd.some]
    · intro i hi j hj
      have := hd.orth.patterns i hi j hj
      show ∑ x ∈ Finset.range nx, s.1 (i * nx + x) * s.1 (j * nx + x) = if i = j ∧ q.eig i ≠ 0 then 1 else 0
      calc ∑ x ∈ Finset.range nx, s.1 (i * nx + x) * s.1 (j * nx + x)
          = sign (q.eof (i * nx)) * sign (q.eof (j * nx)) * ∑ x ∈ Finset.range nx, q.eof (i * nx + x) * q.eof (j * nx + x) := by
            rw [Finset.mul_sum]
            refine Finset.sum_congr rfl fun x hx => ?_
            rw [(hs i hi).1 x (Finset.mem_range.1 hx), (hs j hj).1 x (Finset.mem_range.1 hx)]; ring
        _ = _ := by
            rw [this]
            by_cases hij : i = j
            · subst hij; rw [sign_sq, one_mul]
            · simp [hij]
    · intro i hi j hj gi gj
      have := hd.orth.series i hi j hj gi gj
      show ∑ t ∈ Finset.range q.nt, s.2 (i * q.nt + t) * s.2 (j * q.nt + t) = if i = j then 1 else 0
      calc ∑ t ∈ Finset.range q.nt, s.2 (i * q.nt + t) * s.2 (j * q.nt + t)
          = sign (q.eof (i * nx)) * sign (q.eof (j * nx)) * ∑ t ∈ Finset.range q.nt, q.pc (i * q.nt + t) * q.pc (j * q.nt + t) := by
            rw [Finset.mul_sum]
            refine Finset.sum_congr rfl fun x hx => ?_
            rw [(hs i hi).2 x (Finset.mem_range.1 hx), (hs j hj).2 x (Finset.mem_range.1 hx)]; ring
        _ = _ := by
            rw [this]
            by_cases hij : i = j
            · subst hij; rw [sign_sq, one_mul]
            · simp [hij]
    · intro hen t ht x hx
      rw [← hd.exact hen t ht x hx]
      show ∑ i ∈ Finset.range N, s.2 (i * q.nt + t) * q.eig i * s.1 (i * nx + x) = ∑ i ∈ Finset.range N, q.pc (i * q.nt + t) * q.eig i * q.eof (i * nx + x)
      refine Finset.sum_congr rfl fun i hi => ?_
      rw [Finset.mem_range] at hi
      rw [(hs i hi).1 x hx, (hs i hi).2 t ht]
      calc _ = q.pc (i * q.nt + t) * q.eig i * q.eof (i * nx + x) * (sign (q.eof (i * nx)) * sign (q.eof (i * nx))) := by ring
        _ = _ := by rw [sign_sq, mul_one]
    · intro i hi
      have := (hs i hi).1 0 hx
      rw [add_zero] at this
      show 0 ≤ s.1 (i * nx)
      rw [this]
      exact sign_mul _

end EofGuess
end PyGeode
