/-
C103: the variables of a GRIB file.
-/
import Verif.Props.Grib
import Verif.Props.EofCov
import Verif.Model.GribVar

namespace PyGeode
namespace Grib
open Spec NArr VarOps

theorem mapM_all {α β : Type} {f : α → Option β} {g : α → β} : ∀ {l : List α}, (∀ x ∈ l, f x = some (g x)) → l.mapM f = some (l.map g)
  | [], _ => rfl
  | a :: l, h => by
    rw [List.mapM_cons, h a (by simp), mapM_all fun x hx => h x (List.mem_cons_of_mem _ hx)]
    rfl

/-- all points that are asked for, in order -/
theorem readDataLoop_correct (junk : ℕ → Byte) (f : List Byte) (v : IndexVar) (ts zs ys xs : List ℕ) (D : List ℕ → ℚ)
    (h : ∀ t ∈ ts, ∀ z ∈ zs, ∃ record, readData junk f v t z = some record ∧ ∀ y ∈ ys, ∀ x ∈ xs,
      record[y * v.gds.ni + x]? = some (D [t, z, y, x])) :
    readDataLoop junk f v ts zs ys xs = some ((product [ts, zs, ys, xs]).map D) := by
  unfold readDataLoop
  have h1 : ∀ t ∈ ts, ((zs.mapM fun z => (readData junk f v t z).bind fun record => pick v.gds.ni record ys xs).map List.flatten) =
      some (zs.map fun z => (ys.map fun y => xs.map fun x => D [t, z, y, x]).flatten).flatten := by
    intro t ht
    rw [mapM_all (g := fun z => (ys.map fun y => xs.map fun x => D [t, z, y, x]).flatten)]
    · rfl
    · intro z hz
      obtain ⟨record, hr, hp⟩ := h t ht z hz
      rw [hr, Option.bind_some]
      unfold pick
      rw [mapM_all (g := fun y => xs.map fun x => D [t, z, y, x])]
      · rfl
      · intro y hy
        exact mapM_all fun x hx => hp y hy x hx
  rw [mapM_all h1]
  show some _ = some _
  congr 1
  simp only [product, List.flatMap_def, List.map_flatten, List.map_map, List.map_cons, List.map_nil, List.flatten_cons,
    List.flatten_nil, Function.comp_def, List.append_nil]
  congr 1
  apply List.map_congr_left
  intro t _
  congr 1
  apply List.map_congr_left
  intro z _
  congr 1
  apply List.map_congr_left
  intro y _
  clear h h1
  induction xs with
  | nil => rfl
  | cons x xs ih => rw [List.map_cons, List.map_cons, List.flatten_cons, ← ih]; rfl

theorem flat_read (I : List (List ℕ)) (D : List ℕ → ℚ) (k : List ℕ) (hk : InBounds (I.map List.length) k) :
    ((product I).map D).getD (ravel (I.map List.length) k) 0 = D (cell I k) := by
  have hlt := ravel_lt hk
  rw [Eof.product_cells, List.map_map, List.getD_eq_getElem _ _ (by simpa using hlt), List.getElem_map, List.getElem_range]
  show D (cell I (unravel _ (ravel _ k))) = _
  rw [unravel_ravel hk]

theorem firstWhere_mem {L : List ℕ} {l : ℕ} (h : l ∈ L) : ∃ i, firstWhere L (l : ℚ) = some i ∧ L[i]? = some l := by
  unfold firstWhere
  cases hf : L.findIdx? fun m : ℕ => decide ((m : ℚ) = (l : ℚ)) with
  | none =>
    rw [List.findIdx?_eq_none_iff] at hf
    have := hf l h
    simp at this
  | some i =>
    refine ⟨i, rfl, ?_⟩
    rw [List.findIdx?_eq_some_iff_getElem] at hf
    obtain ⟨hi, h1, -⟩ := hf
    rw [List.getElem?_eq_getElem hi]
    simpa using h1

/-- the values along a line between two points -/
def Line (n : ℕ) (a b : ℚ) (vals : List ℚ) : Prop :=
  vals.length = n ∧ ∀ k : ℕ, k < n → vals.getD k 0 = a + (k : ℚ) * ((b - a) / ((n : ℚ) - 1))

theorem between_line {n : ℕ} (a b : ℚ) (h : 2 ≤ n) : ∃ vals, between n a b = some vals ∧ Line n a b vals := by
  refine ⟨(List.range n).map fun k : ℕ => a + (k : ℚ) / ((n : ℚ) - 1) * (b - a), by unfold between; rw [if_neg (by omega)], by simp, ?_⟩
  intro k hk
  rw [List.getD_eq_getElem _ _ (by simpa using hk), List.getElem_map, List.getElem_range]
  ring

/-- what is read for one time and level of a complete variable -/
theorem record_read {junk : ℕ → Byte} {f : List Byte} {records : List (List Octet × GribRecord)} {v : IndexVar}
    (hL : Listed junk f records v) (hc : Complete records v.code v.gds.ni v.gds.nj) {ti zi : ℕ} {w : List ℕ} {l : ℕ}
    (hw : (whensOf records v.code)[ti]? = some w) (hl : (levelsOf records v.code)[zi]? = some l) :
    ∃ m, lastRecord records v.code w l = some m ∧ ∃ record, readData junk f v ti zi = some record ∧
      ∀ y < v.gds.nj, ∀ x < v.gds.ni, record[y * v.gds.ni + x]? = some (m.value (y * v.gds.ni + x)) := by
  obtain ⟨m, h1, h2, h3, h4⟩ := hc.record w (List.mem_of_getElem? hw) l (List.mem_of_getElem? hl)
  refine ⟨m, h1, _, hL.data ti zi w l hw hl m h1 h2 (by rw [h3, h4]), ?_⟩
  intro y hy x hx
  have hlt : y * v.gds.ni + x < m.ni * m.nj := by
    rw [h3, h4, Nat.mul_comm v.gds.ni]
    exact Eof.flat_lt hy hx
  rw [List.getElem?_map, List.getElem?_range hlt]
  rfl

theorem lev2_eq {junk : ℕ → Byte} {f : List Byte} {records : List (List Octet × GribRecord)} {v : IndexVar}
    (hL : Listed junk f records v) (h : ∀ l ∈ levelsOf records v.code, l < 256) : lev2 v = levelsOf records v.code := by
  unfold lev2
  rw [hL.levels, List.map_map]
  conv_rhs => rw [← List.map_id (levelsOf records v.code)]
  apply List.map_congr_left
  intro l hl
  exact Nat.mod_eq_of_lt (h l hl)

/-- C103: which fields have no vertical axis. -/
theorem isSurface_iff {junk : ℕ → Byte} {f : List Byte} {records : List (List Octet × GribRecord)} {v : IndexVar}
    (hL : Listed junk f records v) (h : ∀ l ∈ levelsOf records v.code, l < 256) : isSurface v = true ↔ OneLayer records v.code := by
  unfold isSurface OneLayer
  rw [lev2_eq hL h]
  show (decide (((v.code.getD 3 0).val) ≤ 99) || decide (((v.code.getD 3 0).val) ∈ [102, 200, 201]) ||
    (decide (((v.code.getD 3 0).val) = 109) && _)) = true ↔ _
  generalize (v.code.getD 3 0).val = t
  simp only [Bool.or_eq_true, Bool.and_eq_true, decide_eq_true_eq, List.mem_cons, List.not_mem_nil, or_false]
  have : t ≤ 99 ↔ t < 100 := by omega
  rw [this]
  tauto

theorem len_mkAxis (nr : List ℚ → ℚ) (k : CfFile.Kind) (n : Name) (b : Bool) (vals : List ℚ) (aux : List (Name × List ℚ))
    (hk : k ≠ .named) : (CfFile.mkAxis nr k n b vals aux).values = vals := by
  unfold CfFile.mkAxis
  rw [if_neg hk]

/-- C103: a variable of a GRIB file, for every file, every index that lists its records and every request. Its longitudes and
the latitudes of a regular grid run evenly from the first to the last point. It has the levels of its records, in increasing
order, and at a time, a level and a point it holds the value of the last record for that time and level at that point. A field
without a vertical axis holds the values of the level that appears first. -/
theorem openVar_correct_partial (nr : List ℚ → ℚ) (gauss : ℕ → Bool → Axis) (hgauss : ∀ n b, (gauss n b).len = n) (junkA : List ℕ → ℚ)
    {junk : ℕ → Byte} {f : List Byte} {records : List (List Octet × GribRecord)} {v : IndexVar}
    (hL : Listed junk f records v) (hc : Complete records v.code v.gds.ni v.gds.nj) (time : Axis)
    (htime : time.len = (whensOf records v.code).length) (hni : 2 ≤ v.gds.ni)
    (hgrid : v.gds.gridType = 0 ∧ 2 ≤ v.gds.nj ∨ v.gds.gridType = 4) :
    ∃ x lat lon, openVar nr gauss junkA junk f time v = some x ∧
      Line v.gds.ni (degreesEast v.gds.lo1) (degreesEast v.gds.lo2) lon.values ∧ lat.len = v.gds.nj ∧
      (v.gds.gridType = 0 → Line v.gds.nj (degrees v.gds.la1) (degrees v.gds.la2) lat.values) ∧
      (¬ OneLayer records v.code → ∃ z, x.axes = [time, z, lat, lon] ∧
        z.values = ((levelsOf records v.code).insertionSort (· ≤ ·)).map (fun l : ℕ => (l : ℚ)) ∧
        ∀ data : List ℕ → ℚ, (∀ ti zi yi xi w l m, (whensOf records v.code)[ti]? = some w →
            ((levelsOf records v.code).insertionSort (· ≤ ·))[zi]? = some l → lastRecord records v.code w l = some m →
            yi < v.gds.nj → xi < v.gds.ni → data [ti, zi, yi, xi] = m.value (yi * v.gds.ni + xi)) → Contains x data) ∧
      (OneLayer records v.code → x.axes = [time, lat, lon] ∧
        ∀ data : List ℕ → ℚ, (∀ ti yi xi w l m, (whensOf records v.code)[ti]? = some w →
            (levelsOf records v.code)[0]? = some l → lastRecord records v.code w l = some m →
            yi < v.gds.nj → xi < v.gds.ni → data [ti, yi, xi] = m.value (yi * v.gds.ni + xi)) → Contains x data) := by
  obtain ⟨lons, hl1, hl2⟩ := between_line (degreesEast v.gds.lo1) (degreesEast v.gds.lo2) hni
  have hlon : lonAxis nr v = some (CfFile.mkAxis nr .lon "lon".toList true lons []) := by
    unfold lonAxis
    rw [hl1]
    rfl
  obtain ⟨lat, hlat, hlatn, hlatl⟩ : ∃ lat, latAxis nr gauss v = some lat ∧ lat.len = v.gds.nj ∧
      (v.gds.gridType = 0 → Line v.gds.nj (degrees v.gds.la1) (degrees v.gds.la2) lat.values) := by
    rcases hgrid with ⟨hg, hn⟩ | hg
    · obtain ⟨lats, h1, h2⟩ := between_line (degrees v.gds.la1) (degrees v.gds.la2) hn
      refine ⟨CfFile.mkAxis nr .lat "lat".toList true lats [], ?_, ?_, fun _ => ?_⟩
      · unfold latAxis
        rw [if_pos hg, h1]
        rfl
      · unfold Axis.len
        rw [len_mkAxis _ _ _ _ _ _ (by decide)]
        exact h2.1
      · rw [len_mkAxis _ _ _ _ _ _ (by decide)]
        exact h2
    · refine ⟨_, by unfold latAxis; rw [if_neg (by omega), if_pos hg], hgauss _ _, fun h => by omega⟩
  set lon := CfFile.mkAxis nr .lon "lon".toList true lons [] with hlondef
  have hlonv : lon.values = lons := len_mkAxis _ _ _ _ _ _ (by decide)
  have hlonn : lon.len = v.gds.ni := by
    unfold Axis.len
    rw [hlonv]
    exact hl2.1
  have hnz : v.nz = (levelsOf records v.code).length := hL.nz
  set D : List ℕ → ℚ := fun k => ((readData junk f v (k.getD 0 0) (k.getD 1 0)).getD []).getD (k.getD 2 0 * v.gds.ni + k.getD 3 0) 0
    with hD
  have hDv : ∀ ti zi w l, (whensOf records v.code)[ti]? = some w → (levelsOf records v.code)[zi]? = some l →
      ∃ m, lastRecord records v.code w l = some m ∧ ∃ record, readData junk f v ti zi = some record ∧ ∀ y < v.gds.nj, ∀ x < v.gds.ni,
        record[y * v.gds.ni + x]? = some (D [ti, zi, y, x]) ∧ D [ti, zi, y, x] = m.value (y * v.gds.ni + x) := by
    intro ti zi w l hw hl
    obtain ⟨m, h1, record, h2, h3⟩ := record_read hL hc hw hl
    refine ⟨m, h1, record, h2, ?_⟩
    intro y hy x hx
    have e : D [ti, zi, y, x] = m.value (y * v.gds.ni + x) := by
      show ((readData junk f v ti zi).getD []).getD (y * v.gds.ni + x) 0 = _
      rw [h2]
      show record.getD _ 0 = _
      rw [List.getD_eq_getElem?_getD, h3 y hy x hx]
      rfl
    rw [e]
    exact ⟨h3 y hy x hx, rfl⟩
  have hsurf : isSurface v = true ↔ OneLayer records v.code := isSurface_iff hL hc.level
  refine ⟨_, lat, lon, by unfold openVar; rw [hlat, Option.bind_some, hlon, Option.bind_some], by rw [hlonv]; exact hl2, hlatn, hlatl,
    ?_, ?_⟩
  · intro hs
    have hz : (zAxis nr v).values = ((levelsOf records v.code).insertionSort (· ≤ ·)).map (fun l : ℕ => (l : ℚ)) := by
      unfold zAxis
      simp only []
      rw [lev2_eq hL hc.level]
      split_ifs
      · exact len_mkAxis _ _ _ _ _ _ (by decide)
      · exact len_mkAxis _ _ _ _ _ _ (by decide)
    rw [if_neg (fun h => hs (hsurf.mp h))]
    refine ⟨zAxis nr v, rfl, hz, ?_⟩
    intro data hdata
    refine contains_ofView _ _ _ _ fun I hI _ => ?_
    rw [List.map_cons, List.map_cons, List.map_cons, List.map_cons, List.map_nil] at hI
    obtain ⟨ts, zs, ys, xs, rfl, hts, hzs, hys, hxs⟩ : ∃ ts zs ys xs, I = [ts, zs, ys, xs] ∧ (∀ i ∈ ts, i < time.len) ∧
        (∀ i ∈ zs, i < (zAxis nr v).len) ∧ (∀ i ∈ ys, i < lat.len) ∧ (∀ i ∈ xs, i < lon.len) := by
      rcases hI with _ | ⟨h1, _ | ⟨h2, _ | ⟨h3, _ | ⟨h4, _ | _⟩⟩⟩⟩
      exact ⟨_, _, _, _, rfl, h1, h2, h3, h4⟩
    set sorted := (levelsOf records v.code).insertionSort (· ≤ ·) with hsorted
    have hσ : ∀ i ∈ zs, ∃ l j, sorted[i]? = some l ∧ ((zAxis nr v).values[i]?).bind (firstWhere (lev2 v)) = some j ∧
        (levelsOf records v.code)[j]? = some l := by
      intro i hi
      have hlen : i < sorted.length := by
        have := hzs i hi
        unfold Axis.len at this
        rwa [hz, List.length_map] at this
      have hmem : sorted[i] ∈ levelsOf records v.code := (List.perm_insertionSort _ _).mem_iff.mp (List.getElem_mem hlen)
      obtain ⟨j, hj1, hj2⟩ := firstWhere_mem hmem
      refine ⟨sorted[i], j, List.getElem?_eq_getElem hlen, ?_, hj2⟩
      rw [hz, List.getElem?_map, List.getElem?_eq_getElem hlen, lev2_eq hL hc.level]
      exact hj1
    set σ : ℕ → ℕ := fun i => (((zAxis nr v).values[i]?).bind (firstWhere (lev2 v))).getD 0 with hσd
    have hmap : (zs.mapM fun i => ((zAxis nr v).values[i]?).bind (firstWhere (lev2 v))) = some (zs.map σ) := by
      refine mapM_all fun i hi => ?_
      obtain ⟨l, j, -, h2, -⟩ := hσ i hi
      rw [hσd]
      simp only []
      rw [h2]
      rfl
    have hread := readDataLoop_correct junk f v ts (zs.map σ) ys xs D (by
      intro t ht z hz'
      obtain ⟨i, hi, rfl⟩ := List.mem_map.mp hz'
      obtain ⟨l, j, -, h2, h3⟩ := hσ i hi
      have hj : σ i = j := by rw [hσd]; simp only []; rw [h2]; rfl
      rw [hj]
      have htl : t < (whensOf records v.code).length := by rw [← htime]; exact hts t ht
      obtain ⟨m, -, record, hr, hp⟩ := hDv t j _ l (List.getElem?_eq_getElem htl) h3
      refine ⟨record, hr, fun y hy x hx => (hp y ?_ x ?_).1⟩
      · rw [← hlatn]; exact hys y hy
      · rw [← hlonn]; exact hxs x hx)
    refine ⟨_, by
      show ((zs.mapM fun i => ((zAxis nr v).values[i]?).bind (firstWhere (lev2 v))).bind _) = _
      rw [hmap, Option.bind_some, hread]
      rfl, rfl, ?_⟩
    intro k hk
    show ((product [ts, zs.map σ, ys, xs]).map D).getD (ravel ([ts, zs, ys, xs].map List.length) k) 0 = _
    have hlens : [ts, zs, ys, xs].map List.length = [ts, zs.map σ, ys, xs].map List.length := by simp
    rw [hlens, flat_read _ _ _ (by rw [← hlens]; exact hk)]
    rcases hk with _ | ⟨k1, _ | ⟨k2, _ | ⟨k3, _ | ⟨k4, _ | _⟩⟩⟩⟩
    rename_i a b c d
    show D [ts.getD a 0, (zs.map σ).getD b 0, ys.getD c 0, xs.getD d 0] = data [ts.getD a 0, zs.getD b 0, ys.getD c 0, xs.getD d 0]
    have m1 : ts.getD a 0 ∈ ts := by rw [List.getD_eq_getElem _ _ k1]; exact List.getElem_mem _
    have m2 : zs.getD b 0 ∈ zs := by rw [List.getD_eq_getElem _ _ k2]; exact List.getElem_mem _
    have m3 : ys.getD c 0 ∈ ys := by rw [List.getD_eq_getElem _ _ k3]; exact List.getElem_mem _
    have m4 : xs.getD d 0 ∈ xs := by rw [List.getD_eq_getElem _ _ k4]; exact List.getElem_mem _
    have e2 : (zs.map σ).getD b 0 = σ (zs.getD b 0) := by
      rw [List.getD_eq_getElem (zs.map σ) _ (by rw [List.length_map]; exact k2), List.getElem_map, List.getD_eq_getElem zs _ k2]
    rw [e2]
    generalize ts.getD a 0 = t at *
    generalize zs.getD b 0 = z at *
    generalize ys.getD c 0 = y at *
    generalize xs.getD d 0 = x at *
    obtain ⟨l, j, g1, g2, g3⟩ := hσ z m2
    have hj : σ z = j := by rw [hσd]; simp only []; rw [g2]; rfl
    rw [hj]
    have htl : t < (whensOf records v.code).length := by rw [← htime]; exact hts t m1
    obtain ⟨m, hm, record, hr, hp⟩ := hDv t j _ l (List.getElem?_eq_getElem htl) g3
    have hy := hys y m3
    have hx := hxs x m4
    rw [hlatn] at hy
    rw [hlonn] at hx
    rw [(hp y hy x hx).2, hdata t z y x _ l m (List.getElem?_eq_getElem htl) g1 hm hy hx]
  · intro hs
    rw [if_pos (hsurf.mpr hs)]
    refine ⟨rfl, ?_⟩
    intro data hdata
    refine contains_ofView _ _ _ _ fun I hI _ => ?_
    rw [List.map_cons, List.map_cons, List.map_cons, List.map_nil] at hI
    obtain ⟨ts, ys, xs, rfl, hts, hys, hxs⟩ : ∃ ts ys xs, I = [ts, ys, xs] ∧ (∀ i ∈ ts, i < time.len) ∧
        (∀ i ∈ ys, i < lat.len) ∧ (∀ i ∈ xs, i < lon.len) := by
      rcases hI with _ | ⟨h1, _ | ⟨h2, _ | ⟨h3, _ | _⟩⟩⟩
      exact ⟨_, _, _, rfl, h1, h2, h3⟩
    have hl0 : ∃ l, (levelsOf records v.code)[0]? = some l := by
      obtain ⟨m, hm, -⟩ := hL.first
      unfold levelsOf
      cases hk : ofKind records v.code with
      | nil => rw [hk] at hm; simp at hm
      | cons a l => exact ⟨a.level, by simp [List.eraseDups_cons]⟩
    obtain ⟨l, hl⟩ := hl0
    have hread := readDataLoop_correct junk f v ts [0] ys xs D (by
      intro t ht z hz'
      rw [List.mem_singleton] at hz'
      subst hz'
      have htl : t < (whensOf records v.code).length := by rw [← htime]; exact hts t ht
      obtain ⟨m, -, record, hr, hp⟩ := hDv t 0 _ l (List.getElem?_eq_getElem htl) hl
      refine ⟨record, hr, fun y hy x hx => (hp y ?_ x ?_).1⟩
      · rw [← hlatn]; exact hys y hy
      · rw [← hlonn]; exact hxs x hx)
    refine ⟨_, by
      show (readDataLoop junk f v ts [0] ys xs).map _ = _
      rw [hread]
      rfl, rfl, ?_⟩
    intro k hk
    show ((product [ts, [0], ys, xs]).map D).getD (ravel ([ts, ys, xs].map List.length) k) 0 = _
    rcases hk with _ | ⟨k1, _ | ⟨k3, _ | ⟨k4, _ | _⟩⟩⟩
    rename_i a c d
    have hr : ravel ([ts, ys, xs].map List.length) [a, c, d] = ravel ([ts, [0], ys, xs].map List.length) [a, 0, c, d] := by
      simp [ravel]
    rw [hr, flat_read [ts, [0], ys, xs] D [a, 0, c, d]
      (by exact .cons k1 (.cons Nat.zero_lt_one (.cons k3 (.cons k4 .nil))))]
    show D [ts.getD a 0, 0, ys.getD c 0, xs.getD d 0] = data [ts.getD a 0, ys.getD c 0, xs.getD d 0]
    have m1 : ts.getD a 0 ∈ ts := by rw [List.getD_eq_getElem _ _ k1]; exact List.getElem_mem _
    have m3 : ys.getD c 0 ∈ ys := by rw [List.getD_eq_getElem _ _ k3]; exact List.getElem_mem _
    have m4 : xs.getD d 0 ∈ xs := by rw [List.getD_eq_getElem _ _ k4]; exact List.getElem_mem _
    generalize ts.getD a 0 = t at *
    generalize ys.getD c 0 = y at *
    generalize xs.getD d 0 = x at *
    have htl : t < (whensOf records v.code).length := by rw [← htime]; exact hts t m1
    obtain ⟨m, hm, record, hr, hp⟩ := hDv t 0 _ l (List.getElem?_eq_getElem htl) hl
    have hy := hys y m3
    have hx := hxs x m4
    rw [hlatn] at hy
    rw [hlonn] at hx
    rw [(hp y hy x hx).2, hdata t y x _ l m (List.getElem?_eq_getElem htl) hl hm hy hx]

/-! ### examples -/

/-- a record: two by two points of eight bits -/
def recEx (level : ℕ) (hour : Octet) (data : List Octet) : GribRecord :=
  { table := 2, center := 7, process := 0, grid := 255, sections := 128, param := 11, levelType := 100, level := level
    yearOfCentury := 100, month := 1, day := 2, hour := hour, minute := 0, timeUnit := 1, p1 := 0, p2 := 0, timeRange := 0
    inAverage := 0, missing := 0, century := 20, subcenter := 0, decimal := 1, pvpl := 255, gridType := 0, ni := 2, nj := 2
    la1 := 90000, lo1 := -10000, resolution := 128, la2 := -90000, lo2 := 10000, di := 1000, dj := 1000, scanning := 0
    coords := [], dataFlags := 0, binary := -1, reference := ⟨true, 65, 1048576⟩, width := 8, data := data }

/-- two times and two levels, in no particular order, one of them twice, with bytes between them and after them -/
def recordsEx : List (List Octet × GribRecord) :=
  [([1, 71, 82, 73, 71], recEx 200 0 [1, 2, 3, 4]), ([], recEx 50 6 [5, 6, 7, 8]), ([66], recEx 200 6 [9, 10, 11, 12]),
   ([], recEx 50 0 [13, 14, 15, 16]), ([0], recEx 50 6 [17, 18, 19, 20])]

theorem recEx_fits (l : ℕ) (h : Octet) (d : List Octet) (hl : l < 65536) (hd : d.length = 4) : (recEx l h d).Fits := by
  have h1 : 11 + (recEx l h d).data.length < 16777216 := by show 11 + d.length < _; rw [hd]; omega
  have h2 : 2 * 2 * 8 ≤ 8 * (recEx l h d).data.length := by show _ ≤ 8 * d.length; rw [hd]
  have h0 : (recEx 0 0 []).inAverage < 65536 ∧ (recEx 0 0 []).coords.length < 256 ∧
    (∀ x ∈ (recEx 0 0 []).reference :: (recEx 0 0 []).coords, x.exponent < 128 ∧ x.fraction < 16777216) := by decide
  exact ⟨hl, h0.1, by norm_num [recEx], by norm_num [recEx], by norm_num [recEx], by norm_num [recEx], by norm_num [recEx],
    by norm_num [recEx], by norm_num [recEx], by norm_num [recEx], by norm_num [recEx], h0.2.1, h0.2.2, by norm_num [recEx],
    by norm_num [recEx], h1, h2⟩

theorem eraseDups_length_le {α : Type} [BEq α] [LawfulBEq α] (l : List α) : l.eraseDups.length ≤ l.length := by
  classical
  induction l using List.reverseRecOn with
  | nil => simp
  | append_singleton l x ih =>
    rw [eraseDups_concat]
    split_ifs <;> simp <;> omega

theorem recordsEx_ok : (∀ p ∈ recordsEx, NoRecord p.1 ∧ p.2.Listable) ∧ NoRecord [71, 82, 73] ∧
    (gribFile recordsEx [71, 82, 73]).length < 9223372036854775808 ∧
    ((recordsEx.map fun p => p.2.kind).eraseDups).length < 256 ∧
    (∀ k, (whensOf recordsEx k).length < 256) ∧ ∀ k, (levelsOf recordsEx k).length < 256 := by
  refine ⟨?_, by unfold NoRecord; decide +kernel, by decide +kernel, by decide +kernel, ?_, ?_⟩
  · intro p hp
    have hno : NoRecord p.1 := by
      revert p
      unfold NoRecord
      decide +kernel
    refine ⟨hno, ?_⟩
    simp only [recordsEx, List.mem_cons, List.not_mem_nil, or_false] at hp
    rcases hp with rfl | rfl | rfl | rfl | rfl <;>
      exact ⟨recEx_fits _ _ _ (by decide) rfl, by decide, by decide⟩
  · intro k
    refine Nat.lt_of_le_of_lt (Nat.le_trans (eraseDups_length_le _) ?_) (show 5 < 256 by omega)
    rw [List.length_map]
    exact List.length_filter_le _ _
  · intro k
    refine Nat.lt_of_le_of_lt (Nat.le_trans (eraseDups_length_le _) ?_) (show 5 < 256 by omega)
    rw [List.length_map]
    exact List.length_filter_le _ _

theorem recordsEx_complete : Complete recordsEx [7, 2, 11, 100] 2 2 := by
  refine ⟨by decide +kernel, ?_⟩
  have hw : whensOf recordsEx [7, 2, 11, 100] = [(recEx 200 0 []).when, (recEx 200 6 []).when] := by decide +kernel
  have hl : levelsOf recordsEx [7, 2, 11, 100] = [200, 50] := by decide +kernel
  have hR : ∀ l h d, l < 65536 → d.length = 4 → (recEx l h d).Readable ∧ (recEx l h d).ni = 2 ∧ (recEx l h d).nj = 2 :=
    fun l h d hl hd => ⟨⟨recEx_fits l h d hl hd, by norm_num [recEx], by norm_num [recEx]⟩, rfl, rfl⟩
  intro w hwm l hlm
  rw [hw] at hwm
  rw [hl] at hlm
  simp only [List.mem_cons, List.not_mem_nil, or_false] at hwm hlm
  rcases hwm with rfl | rfl <;> rcases hlm with rfl | rfl
  · exact ⟨_, rfl, hR 200 0 [1, 2, 3, 4] (by decide) rfl⟩
  · exact ⟨_, rfl, hR 50 0 [13, 14, 15, 16] (by decide) rfl⟩
  · exact ⟨_, rfl, hR 200 6 [9, 10, 11, 12] (by decide) rfl⟩
  · exact ⟨_, rfl, hR 50 6 [17, 18, 19, 20] (by decide) rfl⟩

/-- the index of that file and what is read through it -/
def exIndex : Option (List IndexVar) := (makeIndex (fun _ => 77) (gribFile recordsEx [71, 82, 73])).bind readIndex

example : exIndex.map (fun l => l.map IndexVar.code) = some [[7, 2, 11, 100]] := by decide +kernel
example : exIndex.map (fun l => l.map fun v => (getTime v).map fun d => (d.1, d.2.2.2.1)) = some [[(2000, 0), (2000, 6)]] := by decide +kernel
example : exIndex.map (fun l => l.map lev2) = some [[200, 50]] := by decide +kernel
example : exIndex.map (fun l => l.map fun v => readData (fun _ => 0) (gribFile recordsEx [71, 82, 73]) v 1 1) =
    some [some [15 / 20, 16 / 20, 17 / 20, 18 / 20]] := by decide +kernel

/-! ### what is not so -/

/-- C101: a negative decimal scale is taken for a number of more than 32768: the values are divided by ten to the power of
`65536 - d` instead of being multiplied by ten to the power of `d`. -/
theorem negative_scale_violated (m : GribRecord) (h : m.Fits) (hd : m.decimal < 0) :
    (decodePds m.product).scale = 65536 - m.decimal.natAbs := by
  have h1 : two m.product 26 = m.decimal.natAbs + 32768 := by
    rw [show two m.product 26 = two (signMagnitude 2 m.decimal ++ []) 0 from rfl]
    unfold signMagnitude
    have := h.decimal
    rw [if_pos hd, two_be _ (by norm_num; omega)]
    norm_num
  have h2 : 128 ≤ at' m.product 26 := by
    have e : two m.product 26 = at' m.product 26 * 256 + at' m.product 27 := rfl
    have := at_lt m.product 27
    omega
  show pdsScale m.product = _
  unfold pdsScale
  simp only []
  rw [if_pos h2, h1]
  have h3 := xor_high (k := 15) (n := m.decimal.natAbs) (by have := h.decimal; norm_num; omega)
  norm_num at h3
  rw [h3]
  have := h.decimal
  omega

/-- C101: the values of a field that is the same everywhere (no bits at all) are undefined: a shift by 32 ... -/
theorem constant_field_violated (packed : ℕ → Byte) (i : ℕ) : unpack 0 packed i = none := by
  unfold unpack
  simp

/-- ... and so are some of the values of 27, 29, 30 or 31 bits. -/
theorem wide_field_violated (packed : ℕ → Byte) :
    unpack 27 packed 5 = none ∧ unpack 29 packed 3 = none ∧ unpack 30 packed 2 = none ∧ unpack 31 packed 2 = none := by
  refine ⟨?_, ?_, ?_, ?_⟩ <;> · unfold unpack; simp

/-- two times and two levels, but only two of the four records -/
def gapsEx : List (List Octet × GribRecord) := [([], recEx 200 0 [1, 2, 3, 4]), ([], recEx 50 6 [5, 6, 7, 8])]

/-- its index -/
def gapsIndex : Option (List IndexVar) := (makeIndex (fun _ => 4) (gribFile gapsEx [])).bind readIndex

/-- C102: where there is no record for a time and a level, the values of the first record of the file are read, or those of
whatever place is in memory: here of the second record. -/
theorem missing_record_violated :
    (gapsIndex.map fun l => l.map fun v => (getTime v).map fun d => d.2.2.2.1) = some [[0, 6]] ∧
    (gapsIndex.map fun l => l.map lev2) = some [[200, 50]] ∧
    (gapsIndex.map fun l => l.map fun v => readData (fun _ => 0) (gribFile gapsEx []) v 1 0) =
      some [some [-1 / 20, 0, 1 / 20, 2 / 20]] ∧
    (gapsIndex.map fun l => l.map fun v => readData (fun _ => 0) (gribFile gapsEx []) v 0 1) =
      some [some [3 / 20, 4 / 20, 5 / 20, 6 / 20]] := by
  refine ⟨?_, ?_, ?_, ?_⟩ <;> decide +kernel

/-- C103: only the second byte of a level is looked at: 1000, 850 and 500 become 232, 82 and 244. -/
theorem level_violated :
    (((makeIndex (fun _ => 0) (gribFile [([], recEx 1000 0 [1, 2, 3, 4]), ([], recEx 850 0 [1, 2, 3, 4]),
      ([], recEx 500 0 [1, 2, 3, 4])] [])).bind readIndex).map fun l => l.map fun v => (zAxis (fun _ => 0) v).values) =
      some [[82, 232, 244]] := by decide +kernel

/-- C102: forecasts for different times that start at the same time have the same date. -/
theorem forecast_violated :
    (((makeIndex (fun _ => 0) (gribFile [([], recEx 200 0 [1, 2, 3, 4]), ([], { recEx 200 0 [1, 2, 3, 4] with p1 := 6 })]
      [])).bind readIndex).map fun l => l.map fun v => (getTime v).map fun d => (d.1, d.2.2.2.1)) =
      some [[(2000, 0), (2000, 0)]] := by decide +kernel

/-- C102: averages of 0 and of 256 values are taken for the same time. -/
theorem average_violated :
    (((makeIndex (fun _ => 0) (gribFile [([], recEx 200 0 [1, 2, 3, 4]), ([], { recEx 200 0 [5, 6, 7, 8] with inAverage := 256 })]
      [])).bind readIndex).map fun l => l.map fun v => (getTime v).length) = some [1] := by decide +kernel

/-- C102: an index with an odd number of parameters of the vertical coordinate is made, but cannot be read. -/
theorem odd_coords_violated :
    (makeIndex (fun _ => 0) (gribFile [([], { recEx 200 0 [1, 2, 3, 4] with coords := [⟨false, 64, 0⟩] })] [])).isSome = true ∧
    (makeIndex (fun _ => 0) (gribFile [([], { recEx 200 0 [1, 2, 3, 4] with coords := [⟨false, 64, 0⟩] })] [])).bind readIndex =
      none := by
  constructor
  · decide +kernel
  · rw [← Option.isNone_iff_eq_none]
    decide +kernel

/-- C103: three longitudes from 350 to 10 degrees are 350, 180 and 10. -/
theorem lon_violated : between 3 (degreesEast (-10000)) (degreesEast 10000) = some [350, 180, 10] := by decide +kernel

/-- C103: the index of the example, opened: the levels are in order, and the second time and the second level of the file are
the second time and the first level of the variable. -/
def exVar : Option (Var ℚ) := exIndex.bind fun l => l.head?.bind fun v =>
  openVar (fun _ => 0) (fun _ _ => timeEx 2) (fun _ => 0) (fun _ => 0) (gribFile recordsEx [71, 82, 73]) (timeEx 2) v

example : (exVar.map fun x => x.axes.map Axis.values) = some [[0, 1], [50, 200], [90, -90], [350, 10]] := by decide +kernel
example : (exVar.bind fun x => (x.read (fun _ => 0) (fun _ => 0) ⟨x.axes, [[1], [0], [0, 1], [1]]⟩).map fun r =>
    [r.get [0, 0, 0, 0], r.get [0, 0, 1, 0]]) = some [16 / 20, 18 / 20] := by decide +kernel

end Grib
end PyGeode
