/-
Property C107: the climatological trend of a variable.
-/
import Verif.Props.ClimRemake

namespace PyGeode
namespace ClimVar
open Spec NArr Axis Combine VarOps Reduce Climat PartialSum

section
variable {x : Var ℚ} {ti : ℕ} {t out : Axis} {I : List (List ℕ)} {nr : List ℚ → ℚ} {limit : ℕ}

theorem sliced_get (hlen : I.length = x.axes.length) (ht : x.axes[ti]? = some t) (nr : List ℚ → ℚ) :
    (List.zipWith (sliceAxis nr) x.axes (I.set ti (List.range t.len)))[ti]? = some t := by
  obtain ⟨h, rfl⟩ := List.getElem?_eq_some_iff.1 ht
  rw [List.getElem?_eq_getElem (by simp; omega), List.getElem_zipWith, List.getElem_set_self, sliceAxis_range]

theorem sliced_regular (hlen : I.length = x.axes.length) (hr : Regular x.axes) (S : List (List ℕ)) (hS : S.length = x.axes.length) :
    Regular (List.zipWith (sliceAxis nr) x.axes S) := by
  refine Along.regular_of_classes ?_ hr
  refine List.ext_getElem (by simp [hS]) fun j h1 h2 => ?_
  rw [List.getElem_map, List.getElem_zipWith, List.getElem_map, sliceAxis_classes]

theorem pair_reading (junk : List ℕ → ℚ) (secs : List ℚ) {data : List ℕ → ℚ} (hx : TimeInput x ti t) (hc : Contains x data)
    (hI : InRange ((x.axes.set ti out).map Axis.len) I) :
    ∀ J, InRange ((I.map List.length).set ti t.len) J → (∀ ind ∈ J, ind ≠ []) →
      ∃ r, pairReader nr junk x t secs ⟨List.zipWith (sliceAxis nr) x.axes (I.set ti (List.range t.len)), J⟩ = some r ∧
        IsRead (fun q => (data (cell (I.set ti (List.range t.len)) q), secs.getD (q.getD ti 0) 0)) J r := by
  intro J hJ hne
  have hlen : I.length = x.axes.length := by simpa using hI.length_eq
  have htl : ti < x.axes.length := (List.getElem?_eq_some_iff.1 hx.time).1
  obtain ⟨r, h1, h2, h3⟩ := reading (nr := nr) junk hx.toTimeAt hc hI J hJ hne
  set B := List.zipWith (sliceAxis nr) x.axes (I.set ti (List.range t.len)) with hB
  have hBr : Regular B := sliced_regular hlen hx.reg _ (by simpa using hlen)
  have hBt := sliced_get hlen hx.time nr
  rw [← hB] at hBt
  obtain ⟨hbl, hbe⟩ := List.getElem?_eq_some_iff.1 hBt
  have hBlen : B.map Axis.len = (I.map List.length).set ti t.len := by
    refine List.ext_getElem (by simp [hB, hlen]) fun j h1 h2 => ?_
    rw [List.getElem_map]
    simp only [hB, List.getElem_zipWith, sliceAxis_len, List.getElem_set, List.getElem_map]
    split_ifs
    · simp
    · rfl
  set sv : Var ℚ := { axes := [t], src := .values ⟨[t.len], fun k => secs.getD (k.getD 0 0) 0⟩ } with hsv
  obtain ⟨s, g1, g2, g3⟩ := read_on nr junk sv (fun k => secs.getD (k.getD 0 0) 0) ⟨rfl, fun _ _ => rfl⟩ (by simp [hsv]) B hBr
    (by
      intro a ha
      have : a = t := by simpa [hsv] using ha
      subst this
      rw [← hbe]; exact List.getElem_mem _) J (by rw [hBlen]; exact hJ) hne
  refine ⟨⟨r.shape, fun k => (r.get k, s.get (bindex s.shape k))⟩, ?_, h2, fun k hk => ?_⟩
  · unfold pairReader
    rw [h1, Option.bind_some, g1]
    rfl
  · simp only
    rw [h3 k hk, g3 k hk]
    congr 1
    have hidx : B.idxOf t = ti := by
      have := hBr.nodup.idxOf_getElem ti hbl
      rwa [hbe] at this
    simp only [relabel, hsv, List.map_cons, List.map_nil, hidx, List.getD_cons_zero]

end

/-! ### the line -/

/-- the slope the formula gives for the points (time, value) -/
def slope (P : List (ℚ × ℚ)) : ℚ :=
  (avg (P.map fun p => p.2 * p.1) - avg (P.map Prod.fst) * avg (P.map Prod.snd)) /
    (avg (P.map fun p => p.1 ^ 2) - avg (P.map Prod.fst) ^ 2)

/-- the value at 0 the formula gives -/
def intercept (P : List (ℚ × ℚ)) : ℚ :=
  (avg (P.map fun p => p.1 ^ 2) * avg (P.map Prod.snd) - avg (P.map Prod.fst) * avg (P.map fun p => p.2 * p.1)) /
    (avg (P.map fun p => p.1 ^ 2) - avg (P.map Prod.fst) ^ 2)

theorem residual_misfit (P : List (ℚ × ℚ)) (m b : ℚ) : Climat.residual P b m = misfit P m b := by
  unfold Climat.residual misfit
  refine congrArg List.sum (List.map_congr_left fun p _ => ?_)
  rw [add_comm b]

theorem line_best (P : List (ℚ × ℚ)) (hne : ∃ p ∈ P, ∃ q ∈ P, p.1 ≠ q.1) (m b : ℚ) :
    misfit P (slope P) (intercept P) ≤ misfit P m b ∧ (misfit P m b = misfit P (slope P) (intercept P) → m = slope P ∧ b = intercept P) := by
  have hn : (P.length : ℚ) ≠ 0 := by
    have : P ≠ [] := by obtain ⟨p, hp, _⟩ := hne; exact List.ne_nil_of_mem hp
    simpa using this
  have hnpos : (0 : ℚ) < P.length := lt_of_le_of_ne (by positivity) (Ne.symm hn)
  have hsp := spread_pos P hne
  simp only [← residual_misfit]
  rw [residual_expand, residual_expand]
  unfold slope intercept avg
  simp only [List.length_map]
  have f1 : (P.map Prod.fst).sum = (P.map fun p => p.1).sum := rfl
  have f2 : (P.map Prod.snd).sum = (P.map fun p => p.2).sum := rfl
  rw [f1, f2]
  generalize (P.map fun p => p.1).sum = sx at *
  generalize (P.map fun p => p.2).sum = sf at *
  generalize (P.map fun p => p.2 * p.1).sum = sxf at *
  generalize (P.map fun p => p.1 ^ 2).sum = sxx at *
  generalize (P.map fun p => p.2 ^ 2).sum = sff at *
  generalize (P.length : ℚ) = n at *
  have hd : 0 < sxx / n - (sx / n) ^ 2 := by
    have : sxx / n - (sx / n) ^ 2 = (n * sxx - sx ^ 2) / n ^ 2 := by field_simp
    rw [this]
    exact div_pos hsp (by positivity)
  obtain ⟨n1, n2⟩ := normal_eqs (sx := sx) (sf := sf) (sxf := sxf) (sxx := sxx) hn (ne_of_gt hd)
  set A := (sxx / n * (sf / n) - sx / n * (sxf / n)) / (sxx / n - (sx / n) ^ 2)
  set B := (sxf / n - sx / n * (sf / n)) / (sxx / n - (sx / n) ^ 2)
  have key : sff - 2 * b * sf - 2 * m * sxf + n * b ^ 2 + 2 * b * m * sx + m ^ 2 * sxx =
      (sff - 2 * A * sf - 2 * B * sxf + n * A ^ 2 + 2 * A * B * sx + B ^ 2 * sxx) + n * ((b - A) + (m - B) * (sx / n)) ^ 2 +
      (m - B) ^ 2 * n * (sxx / n - (sx / n) ^ 2) := by
    rw [← n1, ← n2]
    field_simp
    ring
  rw [key]
  have p1 : 0 ≤ n * ((b - A) + (m - B) * (sx / n)) ^ 2 := by positivity
  have p2 : 0 ≤ (m - B) ^ 2 * n * (sxx / n - (sx / n) ^ 2) := by positivity
  refine ⟨by linarith, fun h => ?_⟩
  have z2 : (m - B) ^ 2 * n * (sxx / n - (sx / n) ^ 2) = 0 := by linarith
  have z1 : n * ((b - A) + (m - B) * (sx / n)) ^ 2 = 0 := by linarith
  have hb : m - B = 0 := by
    rcases mul_eq_zero.1 z2 with h | h
    · rcases mul_eq_zero.1 h with h | h
      · exact pow_eq_zero_iff (two_ne_zero) |>.1 h
      · exact absurd h hn
    · exact absurd h (ne_of_gt hd)
  rw [hb, zero_mul, add_zero] at z1
  have ha : b - A = 0 := by
    rcases mul_eq_zero.1 z1 with h | h
    · exact absurd h hn
    · exact pow_eq_zero_iff (two_ne_zero) |>.1 h
  exact ⟨by linarith, by linarith⟩

theorem forall₂_snoc {A B : Type} {R : A → B → Prop} {k : List A} {s : List B} {n : B} (h : List.Forall₂ R k (s ++ [n])) :
    ∃ k' c, k = k' ++ [c] ∧ List.Forall₂ R k' s ∧ R c n := by
  have h1 := List.forall₂_take_append _ _ _ h
  have h2 := List.forall₂_drop_append _ _ _ h
  obtain ⟨c, l, h3, h4, h5⟩ := List.forall₂_cons_right_iff.1 h2
  rw [List.forall₂_nil_right_iff] at h4
  refine ⟨_, c, ?_, h1, h3⟩
  rw [h4] at h5
  conv_lhs => rw [← List.take_append_drop s.length k, h5]

section
variable {x : Var ℚ} {ti : ℕ} {t out : Axis} {I : List (List ℕ)} {nr : List ℚ → ℚ} {limit : ℕ}

theorem mean_of (st : NArr ℚ × NArr ℕ) (k : List ℕ) :
    (zip2 (fun s (n : ℕ) => s / (n : ℚ)) st.1 st.2).get k = st.1.get k / (st.2.get k : ℚ) := rfl

/-- the points (time, value) at a cell of the output -/
def pointsAt (t out : Axis) (ti : ℕ) (secs : List ℚ) (data : List ℕ → ℚ) (K : List ℕ) : List (ℚ × ℚ) :=
  (timesLike t (fieldsKept t .clim) (dateAt out (fieldsKept t .clim) (K.getD ti 0))).map fun i : ℕ =>
    (secs.getD i 0, data (K.set ti i))

theorem trend_view (junk : List ℕ → ℚ) (secs : List ℚ) {data : List ℕ → ℚ} (hl : 1 ≤ limit) (hx : TimeInput x ti t) (hc : Contains x data)
    (g : GoodOut (fieldsKept t .clim) t out) (hf : fieldsKept t .clim ≠ []) (cs : List ℕ)
    (hI : InRange ((x.axes.set ti out).map Axis.len) I) (hne : ∀ ind ∈ I, ind ≠ []) (hnd : (I.getD ti []).Nodup)
    (hcs : ∀ c ∈ cs, c < 2) :
    ∃ r, trendView nr junk limit x secs t ti ⟨x.axes.set ti out ++ [coefAxis nr], I ++ [cs]⟩ = some r ∧
      IsRead (fun K => if K.getLastD 0 = 1 then slope (pointsAt t out ti secs data K.dropLast)
        else intercept (pointsAt t out ti secs data K.dropLast)) (I ++ [cs]) r := by
  have hlen : I.length = x.axes.length := by simpa using hI.length_eq
  have htl : ti < x.axes.length := (List.getElem?_eq_some_iff.1 hx.time).1
  have q := climReq hx.time g hI hne hnd
  obtain ⟨chunk, h1, h2⟩ := accumulate_eq (nr := nr) hl hx.toTimeAt g (common_kept nr hx.plain g) hf hI hne hnd (pair_reading junk secs hx hc hI)
  have hmean : ∀ (f : ℚ × ℚ → ℚ) {k : List ℕ}, InBounds (I.map List.length) k →
      (climMean limit (I.map List.length) ti
        (binPairs (List.range (fieldsKept t .clim).length) (rowsOf t (fieldsKept t .clim)) (I.getD ti [])) fun c => (chunk c).map f).get k =
      avg ((pointsAt t out ti secs data (cell I k)).map fun p => f (p.2, p.1)) := by
    intro f k hk
    have h4 := (climMean_correct q hl (by rw [rowsOf_length]; exact reads_map' f h1) hk).2
    refine h4.trans ?_
    have hb := bin_together (fun K => f (data K, secs.getD (K.getD ti 0) 0)) hlen hx.time g q hk
    have hkl : k.length = I.length := by simpa using hk.length_eq
    have e : (pointsAt t out ti secs data (cell I k)).map (fun p => f (p.2, p.1)) =
        together t out (fieldsKept t .clim) ti (fun K => f (data K, secs.getD (K.getD ti 0) 0)) (cell I k) := by
      unfold pointsAt together
      rw [List.map_map]
      refine List.map_congr_left fun i _ => ?_
      simp only [Function.comp_apply]
      rw [getD_set_self _ _ _ _ (by rw [cell, List.length_zipWith]; omega)]
    rw [e, ← hb]
    unfold avg
    rw [List.length_map]
    congr 2
    refine List.map_congr_left fun i hi => ?_
    have hi : i < t.len := by
      rw [timesWith_eq] at hi
      exact List.mem_range.1 (List.mem_filter.1 hi).1
    congr 2
    rw [getD_set_self _ _ _ _ (by omega), Along.set_cell I k ti _ i (by omega) hkl, getD_set_self _ _ _ _ (by rw [cell, List.length_zipWith]; omega),
      List.getD_eq_getElem (List.range t.len) _ (by simpa using hi), List.getElem_range]
  unfold trendView
  simp only [List.dropLast_concat]
  rw [h2 ℚ ℚ Prod.fst partialSum, Option.bind_some, h2 ℚ ℚ Prod.snd partialSum, Option.bind_some,
    h2 ℚ ℚ (fun p => p.1 * p.2) partialSum, Option.bind_some, h2 ℚ ℚ (fun p => p.2 ^ 2) partialSum, Option.map_some]
  refine ⟨_, rfl, rfl, fun k hk => ?_⟩
  have hk' : InBounds (I.map List.length ++ [cs.length]) k := by simpa using hk
  obtain ⟨k', c, rfl, hkk, hc'⟩ := forall₂_snoc hk'
  have hcell : cell (I ++ [cs]) (k' ++ [c]) = cell I k' ++ [cs.getD c 0] := by
    unfold cell
    rw [List.zipWith_append (by simpa using hkk.length_eq.symm)]
    rfl
  have hlt : cs.getD c 0 < 2 := by rw [List.getD_eq_getElem _ _ hc']; exact hcs _ (List.getElem_mem _)
  have m1 := hmean Prod.fst hkk
  have m2 := hmean Prod.snd hkk
  have m3 := hmean (fun p => p.1 * p.2) hkk
  have m4 := hmean (fun p => p.2 ^ 2) hkk
  unfold climMean at m1 m2 m3 m4
  rw [mean_of] at m1 m2 m3 m4
  rw [hcell]
  simp only [List.dropLast_concat, List.getLastD_concat]
  rw [m1, m2, m3, m4]
  unfold slope intercept
  have f1 : ∀ P : List (ℚ × ℚ), (P.map fun p => ((p.2, p.1) : ℚ × ℚ).1) = P.map Prod.snd := fun P => rfl
  have f2 : ∀ P : List (ℚ × ℚ), (P.map fun p => ((p.2, p.1) : ℚ × ℚ).2) = P.map Prod.fst := fun P => rfl
  simp only [f1, f2]
  rcases (by omega : cs.getD c 0 = 0 ∨ cs.getD c 0 = 1) with h | h
  · rw [h]; simp
  · rw [h]; simp

end

/-- C107: the trend of the values that belong together, as a line through the points (`secs`, value): the slope at coefficient 1,
the value at second 0 at coefficient 0. Wherever the times are not all the same it is the line with the least sum of squared misfits,
and the only one with that sum. -/
theorem climtrend_correct (nr : List ℚ → ℚ) (junk : List ℕ → ℚ) (limit : ℕ) (mk : List (Name × List ℚ) → Axis) (secs : List ℚ) (x : Var ℚ)
    (data : List ℕ → ℚ) (ti : ℕ) (t : Axis) (hl : 1 ≤ limit) (hx : TimeInput x ti t) (hreg : Regular (x.axes ++ [coefAxis nr]))
    (hc : Contains x data) (hm : Remakes t mk) (hn : Needs t .clim) (h2 : 1 < t.len) :
    ∃ out y, climtrend nr junk limit mk secs x = some y ∧ IsBinned (fieldsKept t .clim) t out ∧
      y.axes = x.axes.set ti out ++ [coefAxis nr] ∧ ∃ A B : List ℕ → ℚ,
        (Shows nr y fun K => if K.getLastD 0 = 1 then A K.dropLast else B K.dropLast) ∧
        ∀ K, let P := (timesLike t (fieldsKept t .clim) (dateAt out (fieldsKept t .clim) (K.getD ti 0))).map fun i : ℕ =>
            (secs.getD i 0, data (K.set ti i))
          (∃ p ∈ P, ∃ q ∈ P, p.1 ≠ q.1) →
            ∀ a b, misfit P (A K) (B K) ≤ misfit P a b ∧ (misfit P a b = misfit P (A K) (B K) → a = A K ∧ b = B K) := by
  obtain ⟨out, h1, g⟩ := outTime_good hx.plain hx.pos hm .clim hn
  have htl : ti < x.axes.length := (List.getElem?_eq_some_iff.1 hx.time).1
  refine ⟨out, Var.ofView junk (x.axes.set ti out ++ [coefAxis nr]) (trendView nr junk limit x secs t ti), ?_, good_binned g, rfl,
    fun K => slope (pointsAt t out ti secs data K), fun K => intercept (pointsAt t out ti secs data K),
    Spec.Views.shows ⟨junk, trendView nr junk limit x secs t ti, rfl, ?_⟩ ?_, fun K hP a b => line_best _ hP a b⟩
  · unfold climtrend
    rw [found_time hx, Option.bind_some, hx.time, Option.bind_some, if_pos h2, h1]
    rfl
  · intro I' hI' ht
    have hI' : InRange ((x.axes.set ti out).map Axis.len ++ [2]) I' := by
      simpa [Var.ofView, coefAxis, Axis.len] using hI'
    obtain ⟨I, cs, rfl, hI, hcs⟩ := forall₂_snoc hI'
    have hlen : I.length = x.axes.length := by simpa using hI.length_eq
    refine trend_view junk secs hl hx hc g (needs_ne hn) cs hI (fun ind hind => (ht ind (by simp [hind])).1) ?_ hcs
    rw [List.getD_eq_getElem _ _ (by omega)]
    exact (ht _ (by simp)).2.imp fun h => Nat.ne_of_lt h
  · refine Along.regular_of_classes ?_ hreg
    show (x.axes.set ti out ++ [coefAxis nr]).map Axis.classes = _
    rw [List.map_append, List.map_append, Along.classes_set x.axes ti t out hx.time g.cls]

/-! ### an example -/

/-- days 4, 189, 369 and 371 after the start -/
def secsEx : List ℚ := [4 * 86400, 189 * 86400, 369 * 86400, 371 * 86400]

example : ∃ out y, climtrend nr0 (fun _ => 0) 3 (remake nr0 datesEx) secsEx climEx = some y ∧
    y.axes = climEx.axes.set 0 out ++ [coefAxis nr0] := by
  obtain ⟨out, y, h1, -, h3, -⟩ := climtrend_correct nr0 (fun _ => 0) 3 (remake nr0 datesEx) secsEx climEx _ 0 timesEx (by omega)
    climEx_input ⟨by decide +kernel, by decide +kernel⟩ climEx_contains
    (remake_correct nr0 _ datesEx (by decide +kernel) (by decide +kernel)) (by unfold Needs; decide +kernel) (by decide +kernel)
  exact ⟨out, y, h1, h3⟩

/-- 5 January: from 0 on day 4 to 20 on day 369 -/
example : ((climtrend nr0 (fun _ => 0) 3 (remake nr0 datesEx) secsEx climEx).bind fun y =>
    (y.read nr0 (fun _ => 0) ⟨y.axes, [[0], [0], [0, 1]]⟩).map fun r => (r.get [0, 0, 0], r.get [0, 0, 1])) =
      some (-(4 * 86400) * (20 / (365 * 86400)), 20 / (365 * 86400)) := by decide +kernel

end ClimVar
end PyGeode
