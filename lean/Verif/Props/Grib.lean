/-
C102: making the index of a GRIB file, reading it back, and reading the data through it.
-/
import Verif.Props.GribRound

namespace PyGeode
namespace Grib
open Spec

/-- the records of a file and the places where they begin -/
def placed : ℕ → List (List Byte × GribRecord) → List (ℕ × GribRecord)
  | _, [] => []
  | off, p :: l => (off + p.1.length, p.2) :: placed (off + p.1.length + p.2.bytes.length) l

theorem recsOf_placed (records : List (List Byte × GribRecord)) :
    ∀ off, recsOf off records = (placed off records).map fun p => recOf p.1 p.2 := by
  induction records with
  | nil => intro off; rfl
  | cons p l ih =>
    intro off
    rw [recsOf, placed, List.map_cons, ih]

theorem placed_snd (records : List (List Byte × GribRecord)) : ∀ off, (placed off records).map Prod.snd = records.map Prod.snd := by
  induction records with
  | nil => intro off; rfl
  | cons p l ih =>
    intro off
    rw [placed, List.map_cons, ih, List.map_cons]

theorem placed_at (records : List (List Byte × GribRecord)) (rest : List Byte) :
    ∀ (a : List Byte) (off : ℕ) (m : GribRecord), (off, m) ∈ placed a.length records →
      ∃ a' b, a ++ gribFile records rest = a' ++ (m.bytes ++ b) ∧ a'.length = off := by
  induction records with
  | nil => intro a off m h; simp [placed] at h
  | cons p l ih =>
    intro a off m h
    have e : a ++ gribFile (p :: l) rest = (a ++ p.1) ++ (p.2.bytes ++ gribFile l rest) := by
      unfold gribFile
      rw [List.flatMap_cons]
      simp only [List.append_assoc]
    rw [placed, List.mem_cons] at h
    rcases h with h | h
    · obtain ⟨rfl, rfl⟩ := Prod.mk.inj h
      exact ⟨a ++ p.1, gribFile l rest, e, by rw [List.length_append]⟩
    · have hl : (a ++ p.1 ++ p.2.bytes).length = a.length + p.1.length + p.2.bytes.length := by
        rw [List.length_append, List.length_append]
      rw [← hl] at h
      obtain ⟨a', b, h1, h2⟩ := ih _ off m h
      refine ⟨a', b, ?_, h2⟩
      rw [e, ← List.append_assoc, h1]

theorem octet_byte (x : Octet) : byte (x.val : ℤ) = x := by
  apply Fin.ext
  rw [byte_val]
  exact Nat.mod_eq_of_lt x.isLt

/-- the bytes of a time -/
def timeBytes (w : List ℕ) : List Byte := w.map (fun n => byte (n : ℤ)) ++ [0]

/-- the bytes of a level -/
def levelBytes (l : ℕ) : List Byte := [byte (l / 256 : ℕ), byte (l : ℤ)]

theorem rec_code (off : ℕ) (m : GribRecord) (h : m.Fits) : (recOf off m).code = m.kind := by
  unfold Rec.code recOf
  rw [decodePds_product m h]
  simp only [octet_byte]
  rfl

theorem rec_time (off : ℕ) (m : GribRecord) (h : m.Fits) : (recOf off m).time = timeBytes m.when := by
  unfold Rec.time recOf
  rw [decodePds_product m h]
  rfl

theorem rec_level (off : ℕ) (m : GribRecord) (h : m.Fits) : (recOf off m).level = levelBytes m.level := by
  unfold Rec.level recOf
  rw [decodePds_product m h]
  rfl

theorem byte_inj {a b : ℕ} (ha : a < 256) (hb : b < 256) (h : byte (a : ℤ) = byte (b : ℤ)) : a = b := by
  have := congrArg Fin.val h
  rw [byte_val, byte_val] at this
  omega

theorem map_byte_inj : ∀ {u w : List ℕ}, (∀ n ∈ u, n < 256) → (∀ n ∈ w, n < 256) →
    u.map (fun n : ℕ => byte (n : ℤ)) = w.map (fun n : ℕ => byte (n : ℤ)) → u = w
  | [], [], _, _, _ => rfl
  | [], _ :: _, _, _, h => by simp at h
  | _ :: _, [], _, _, h => by simp at h
  | a :: u, b :: w, hu, hw, h => by
    rw [List.map_cons, List.map_cons] at h
    have h1 := (List.cons.inj h).1
    have h2 := (List.cons.inj h).2
    rw [byte_inj (hu a (by simp)) (hw b (by simp)) h1,
      map_byte_inj (fun n hn => hu n (List.mem_cons_of_mem _ hn)) (fun n hn => hw n (List.mem_cons_of_mem _ hn)) h2]

theorem when_lt {m : GribRecord} (h : m.Listable) : ∀ n ∈ m.when, n < 256 := by
  intro n hn
  have := h.inAverage
  simp only [GribRecord.when, List.mem_cons, List.not_mem_nil, or_false] at hn
  rcases hn with rfl | rfl | rfl | rfl | rfl | rfl | rfl | rfl | rfl | rfl | rfl | rfl <;> omega

theorem timeBytes_inj {m n : GribRecord} (hm : m.Listable) (hn : n.Listable) (h : timeBytes m.when = timeBytes n.when) :
    m.when = n.when := map_byte_inj (when_lt hm) (when_lt hn) (List.append_cancel_right h)

theorem levelBytes_inj {a b : ℕ} (ha : a < 65536) (hb : b < 65536) (h : levelBytes a = levelBytes b) : a = b := by
  unfold levelBytes at h
  have h1 := (List.cons.inj h).1
  have h2 := (List.cons.inj (List.cons.inj h).2).1
  have e1 := byte_inj (by omega) (by omega) h1
  have := congrArg Fin.val h2
  rw [byte_val, byte_val] at this
  omega

/-- what a variable of the index has to say about the records of its kind in the file -/
structure Listed (junk : ℕ → Byte) (file : List Octet) (records : List (List Octet × GribRecord)) (v : IndexVar) : Prop where
  /-- the grid and the vertical coordinate are those of the first record of this kind -/
  first : ∃ m, (ofKind records v.code).head? = some m ∧
    (v.gds.gridType, v.gds.ni, v.gds.nj) = (m.gridType.val, m.ni, m.nj) ∧
    (v.gds.la1, v.gds.lo1, v.gds.la2, v.gds.lo2) = (m.la1, m.lo1, m.la2, m.lo2) ∧
    v.a = (m.coords.take (m.coords.length / 2)).map GribReal.value ∧
    v.b = (m.coords.drop (m.coords.length / 2)).map GribReal.value
  /-- one time for every time of a record, in the order of their first appearance -/
  nt : v.nt = (whensOf records v.code).length ∧ (getTime v).length = (whensOf records v.code).length
  times : ∀ (ti : ℕ) (w : List ℕ), (whensOf records v.code)[ti]? = some w → ∀ m ∈ ofKind records v.code, m.when = w →
    (getTime v)[ti]? = some m.date
  /-- one level for every level of a record, in the order of their first appearance -/
  nz : v.nz = (levelsOf records v.code).length
  levels : getLevels v = (levelsOf records v.code).map fun l => (l / 256, l % 256)
  /-- at a time and a level the values of the last record for that time and level are read -/
  data : ∀ (ti zi : ℕ) (w : List ℕ) (l : ℕ), (whensOf records v.code)[ti]? = some w → (levelsOf records v.code)[zi]? = some l →
    ∀ m, lastRecord records v.code w l = some m → m.Readable →
      m.ni * m.nj = v.gds.ni * v.gds.nj → readData junk file v ti zi = some ((List.range (m.ni * m.nj)).map m.value)

theorem own_placed (off : ℕ) (records : List (List Byte × GribRecord)) (h : ∀ p ∈ records, p.2.Listable) (c : List Byte) :
    own (recsOf off records) c =
      ((placed off records).filter fun p => decide (p.2.kind = c)).map fun p => recOf p.1 p.2 := by
  unfold own
  rw [recsOf_placed, List.filter_map]
  congr 1
  apply List.filter_congr
  intro p hp
  have hp' : p.2 ∈ records.map Prod.snd := by
    rw [← placed_snd records off]
    exact List.mem_map_of_mem hp
  obtain ⟨q, hq, hqe⟩ := List.mem_map.mp hp'
  have hl := (h q hq).fits
  rw [hqe] at hl
  simp only [Function.comp, rec_code _ _ hl]

theorem ofKind_placed (off : ℕ) (records : List (List Byte × GribRecord)) (c : List Byte) :
    ofKind records c = ((placed off records).filter fun p => decide (p.2.kind = c)).map Prod.snd := by
  unfold ofKind
  rw [← placed_snd records off, List.filter_map]
  rfl

theorem placed_listable {off : ℕ} {records : List (List Byte × GribRecord)} (h : ∀ p ∈ records, p.2.Listable)
    {p : ℕ × GribRecord} (hp : p ∈ placed off records) : p.2.Listable := by
  have hp' : p.2 ∈ records.map Prod.snd := by
    rw [← placed_snd records off]
    exact List.mem_map_of_mem hp
  obtain ⟨q, hq, hqe⟩ := List.mem_map.mp hp'
  rw [← hqe]
  exact h q hq

theorem ofKind_listable {records : List (List Byte × GribRecord)} (h : ∀ p ∈ records, p.2.Listable) {c : List Byte}
    {m : GribRecord} (hm : m ∈ ofKind records c) : m.Listable := by
  unfold ofKind at hm
  obtain ⟨q, hq, rfl⟩ := List.mem_map.mp (List.mem_filter.mp hm).1
  exact h q hq

theorem times_eq (off : ℕ) (records : List (List Byte × GribRecord)) (h : ∀ p ∈ records, p.2.Listable) (c : List Byte) :
    ((own (recsOf off records) c).map Rec.time).eraseDups = (whensOf records c).map timeBytes := by
  have e : (own (recsOf off records) c).map Rec.time = ((ofKind records c).map GribRecord.when).map timeBytes := by
    rw [own_placed off records h, ofKind_placed off, List.map_map, List.map_map, List.map_map]
    apply List.map_congr_left
    intro p hp
    exact rec_time _ _ (placed_listable h (List.mem_filter.mp hp).1).fits
  rw [e, eraseDups_map]
  · rfl
  · intro x hx y hy hxy
    obtain ⟨m, hm, rfl⟩ := List.mem_map.mp hx
    obtain ⟨n, hn, rfl⟩ := List.mem_map.mp hy
    exact timeBytes_inj (ofKind_listable h hm) (ofKind_listable h hn) hxy

theorem levels_eq (off : ℕ) (records : List (List Byte × GribRecord)) (h : ∀ p ∈ records, p.2.Listable) (c : List Byte) :
    ((own (recsOf off records) c).map Rec.level).eraseDups = (levelsOf records c).map levelBytes := by
  have e : (own (recsOf off records) c).map Rec.level = ((ofKind records c).map GribRecord.level).map levelBytes := by
    rw [own_placed off records h, ofKind_placed off, List.map_map, List.map_map, List.map_map]
    apply List.map_congr_left
    intro p hp
    exact rec_level _ _ (placed_listable h (List.mem_filter.mp hp).1).fits
  rw [e, eraseDups_map]
  · rfl
  · intro x hx y hy hxy
    obtain ⟨m, hm, rfl⟩ := List.mem_map.mp hx
    obtain ⟨n, hn, rfl⟩ := List.mem_map.mp hy
    exact levelBytes_inj (ofKind_listable h hm).fits.level (ofKind_listable h hn).fits.level hxy

/-- the bytes of the numbers of the levels of a variable -/
def coordsOf (records : List (List Byte × GribRecord)) (half : List GribReal → List GribReal) (v : VarEntry) : List (List Byte) :=
  (half (((ofKind records v.code).head?.map GribRecord.coords).getD [])).map GribReal.bytes

/-- the first half of a list -/
def firstHalf (l : List GribReal) : List GribReal := l.take (l.length / 2)
/-- the second half of a list -/
def secondHalf (l : List GribReal) : List GribReal := l.drop (l.length / 2)

theorem head_of {records : List (List Byte × GribRecord)} (h : ∀ p ∈ records, p.2.Listable) {v : VarEntry}
    (hv : EntryOk (recsOf 0 records) v) : ∃ m, (ofKind records v.code).head? = some m ∧ m.Listable ∧
      v.gds = decodeGds m.gridSection ∧ v.pvA = (firstHalf m.coords).flatMap GribReal.bytes ∧
      v.pvB = (secondHalf m.coords).flatMap GribReal.bytes := by
  have hh := hv.head
  rw [own_placed 0 records h] at hh
  have ho := ofKind_placed 0 records v.code
  cases hl : (placed 0 records).filter fun p => decide (p.2.kind = v.code) with
  | nil => rw [hl] at hh; simp at hh
  | cons p l =>
    rw [hl] at hh ho
    simp only [List.map_cons, List.head?_cons, Option.map_some, Option.some.injEq, Prod.mk.injEq] at hh
    have hp : p ∈ placed 0 records := by
      have : p ∈ p :: l := by simp
      rw [← hl] at this
      exact (List.mem_filter.mp this).1
    refine ⟨p.2, by rw [ho]; rfl, placed_listable h hp, hh.2.1.symm, hh.2.2.1.symm, hh.2.2.2.symm⟩

theorem canWrite {records : List (List Byte × GribRecord)} (h : ∀ p ∈ records, p.2.Listable)
    (ht : ∀ k, (whensOf records k).length < 256) (hl : ∀ k, (levelsOf records k).length < 256) {v : VarEntry}
    (hv : EntryOk (recsOf 0 records) v) :
    CanWrite (coordsOf records firstHalf) (coordsOf records secondHalf) v := by
  obtain ⟨m, h1, h2, h3, h4, h5⟩ := head_of h hv
  have hm : m ∈ ofKind records v.code := by
    cases hk : ofKind records v.code with
    | nil => rw [hk] at h1; simp at h1
    | cons x l => rw [hk] at h1; simp at h1; simp [h1]
  have hkind : m.kind = v.code := by
    have := (List.mem_filter.mp hm).2
    simpa using this
  have hnv : v.gds.nv = m.coords.length := by rw [h3, decodeGds_grid m h2.fits]
  have hco : ∀ half, coordsOf records half v = (half m.coords).map GribReal.bytes := by
    intro half
    unfold coordsOf
    rw [h1]
    rfl
  refine ⟨by rw [← hkind]; rfl, by rw [h3]; exact gdsFits_of m h2.fits, by rw [hnv]; exact h2.coords, ?_, ?_, ?_, ?_, ?_, ?_⟩
  · rw [hco, h4, hnv]
    refine ⟨List.flatMap_def .., ?_, ?_⟩
    · rw [List.length_map]; unfold firstHalf; rw [List.length_take]; omega
    · intro x hx
      obtain ⟨y, -, rfl⟩ := List.mem_map.mp hx
      rfl
  · rw [hco, h5, hnv]
    have := h2.coords
    refine ⟨List.flatMap_def .., ?_, ?_⟩
    · rw [List.length_map]; unfold secondHalf; rw [List.length_drop]; omega
    · intro x hx
      obtain ⟨y, -, rfl⟩ := List.mem_map.mp hx
      rfl
  · have := congrArg List.length hv.times
    rw [times_eq 0 records h, List.length_map, List.length_map] at this
    rw [this]
    exact ht _
  · have := congrArg List.length hv.levels
    rw [levels_eq 0 records h, List.length_map] at this
    rw [this]
    exact hl _
  · intro t htm
    have : t.time ∈ v.times.map TimeEntry.time := List.mem_map_of_mem htm
    rw [hv.times, times_eq 0 records h] at this
    obtain ⟨w, hw, hwe⟩ := List.mem_map.mp this
    unfold whensOf at hw
    rw [List.mem_eraseDups] at hw
    obtain ⟨n, -, rfl⟩ := List.mem_map.mp hw
    rw [← hwe]
    rfl
  · intro l hlm
    rw [hv.levels, levels_eq 0 records h] at hlm
    obtain ⟨n, -, rfl⟩ := List.mem_map.mp hlm
    rfl

/-- C102: for every file made of records with arbitrary bytes between and after them, and whatever is in memory: the index can
be made and read back; it has one variable for every kind of record, in the order of their first appearance; every variable has
the grid of its first record, one time and one level for every time and level of its records; and at a time and a level the
values of the last record for that time and level are read. -/
theorem index_correct_partial (junk : ℕ → ℤ) (junkB : ℕ → Byte) (records : List (List Octet × GribRecord)) (rest : List Octet)
    (hrec : ∀ p ∈ records, NoRecord p.1 ∧ p.2.Listable) (hrest : NoRecord rest)
    (hsize : (gribFile records rest).length < 9223372036854775808)
    (hk : ((records.map fun p => p.2.kind).eraseDups).length < 256)
    (ht : ∀ k, (whensOf records k).length < 256) (hl : ∀ k, (levelsOf records k).length < 256) :
    ∃ s vars, makeIndex junk (gribFile records rest) = some s ∧ readIndex s = some vars ∧
      vars.map IndexVar.code = (records.map fun p => p.2.kind).eraseDups ∧
      ∀ v ∈ vars, Listed junkB (gribFile records rest) records v := by
  have hL : ∀ p ∈ records, p.2.Listable := fun p hp => (hrec p hp).2
  obtain ⟨vars, h1, h2⟩ := fold_ok junk (recsOf 0 records) (by
    intro c
    rw [levels_eq 0 records hL, List.length_map]
    have := hl c
    omega)
  have hloop : indexLoop junk (gribFile records rest) ((gribFile records rest).length + 1) 0 [] = some vars := by
    have := loop_ok junk (gribFile records rest) rest hrest records hrec [] [] ((gribFile records rest).length + 1) rfl
      (Nat.lt_succ_of_le (records_length records rest))
    rw [List.length_nil] at this
    rw [this, h1]
  have hcodes : vars.map VarEntry.code = (records.map fun p => p.2.kind).eraseDups := by
    rw [h2.codes, recsOf_placed, List.map_map, show (records.map fun p => p.2.kind) = (records.map Prod.snd).map GribRecord.kind by
      rw [List.map_map]; rfl, ← placed_snd records 0, List.map_map]
    congr 1
    apply List.map_congr_left
    intro p hp
    exact rec_code _ _ (placed_listable hL hp).fits
  obtain ⟨s, h3, h4⟩ := index_round vars (fun v hv => canWrite hL ht hl (h2.entry v hv)) (by
    have := congrArg List.length hcodes
    rw [List.length_map] at this
    omega)
  refine ⟨s, _, ?_, h4, ?_, ?_⟩
  · unfold makeIndex
    rw [hloop, Option.bind_some, h3]
  · rw [List.map_map, ← hcodes]
    rfl
  · intro iv hiv
    obtain ⟨v, hv, rfl⟩ := List.mem_map.mp hiv
    have hE := h2.entry v hv
    obtain ⟨m, f1, f2, f3, f4, f5⟩ := head_of hL hE
    have hco : ∀ half, coordsOf records half v = (half m.coords).map GribReal.bytes := by
      intro half
      unfold coordsOf
      rw [f1]
      rfl
    have hval : ∀ l : List GribReal, (∀ x ∈ l, x ∈ m.coords) → (l.map GribReal.bytes).map decodeFloat = l.map GribReal.value := by
      intro l hlm
      rw [List.map_map]
      apply List.map_congr_left
      intro x hx
      have := decodeFloat_bytes x (f2.fits.real x (List.mem_cons_of_mem _ (hlm x hx))) []
      rwa [List.append_nil] at this
    have hgds := decodeGds_grid m f2.fits
    have htimes : v.times.map TimeEntry.time = (whensOf records v.code).map timeBytes := by rw [hE.times, times_eq 0 records hL]
    have hlevels : v.levels = (levelsOf records v.code).map levelBytes := by rw [hE.levels, levels_eq 0 records hL]
    have hnt : v.times.length = (whensOf records v.code).length := by
      have := congrArg List.length htimes
      simpa using this
    have hnz : v.levels.length = (levelsOf records v.code).length := by rw [hlevels, List.length_map]
    refine ⟨⟨m, f1, ?_, ?_, ?_, ?_⟩, ⟨hnt, ?_⟩, ?_, hnz, ?_, ?_⟩
    · show (v.gds.gridType, v.gds.ni, v.gds.nj) = _
      rw [f3, hgds]
    · show (v.gds.la1, v.gds.lo1, v.gds.la2, v.gds.lo2) = _
      rw [f3, hgds]
    · show (coordsOf records firstHalf v).map decodeFloat = _
      rw [hco, hval (firstHalf m.coords) fun x hx => List.mem_of_mem_take hx]
      rfl
    · show (coordsOf records secondHalf v).map decodeFloat = _
      rw [hco, hval (secondHalf m.coords) fun x hx => List.mem_of_mem_drop hx]
      rfl
    · show ((v.times.map TimeEntry.time).map _).length = _
      rw [List.length_map, List.length_map, hnt]
      rfl
    · intro ti w hw n hn hnw
      show ((v.times.map TimeEntry.time).map _)[ti]? = _
      have hw' : (whensOf records v.code)[ti]? = some w := hw
      rw [htimes, List.getElem?_map, List.getElem?_map, hw', ← hnw]
      show some _ = some _
      congr 1
      show ((((byte (n.century.val : ℤ)).val : ℤ) - 1) * 100 + ((byte (n.yearOfCentury.val : ℤ)).val : ℤ), (byte (n.month.val : ℤ)).val,
        (byte (n.day.val : ℤ)).val, (byte (n.hour.val : ℤ)).val, (byte (n.minute.val : ℤ)).val) = _
      simp only [octet_byte]
      rfl
    · show v.levels.map _ = _
      rw [hlevels, List.map_map]
      apply List.map_congr_left
      intro l hlm
      show ((byte _).val, (byte _).val) = _
      unfold levelsOf at hlm
      rw [List.mem_eraseDups] at hlm
      obtain ⟨n, hn, rfl⟩ := List.mem_map.mp hlm
      have := (ofKind_listable hL hn).fits.level
      rw [byte_val, byte_val, Nat.mod_eq_of_lt (by omega)]
    · intro ti zi w l hw hlz n hlast hR hsz
      have hw' : (whensOf records v.code)[ti]? = some w := hw
      have hlz' : (levelsOf records v.code)[zi]? = some l := hlz
      have hti : ti < v.times.length := by
        rw [hnt]; exact (List.getElem?_eq_some_iff.mp hw').1
      have hzi : zi < v.levels.length := by
        rw [hnz]; exact (List.getElem?_eq_some_iff.mp hlz').1
      -- the record
      have hlast' : ((ofKind records v.code).filter fun m => decide (m.when = w ∧ m.level = l)).getLast? = some n := hlast
      rw [ofKind_placed 0, List.filter_map, List.getLast?_map] at hlast'
      obtain ⟨p, hp, rfl⟩ := Option.map_eq_some_iff.mp hlast'
      have hpm := List.mem_of_getLast? hp
      obtain ⟨hpm1, hpm2⟩ := List.mem_filter.mp hpm
      obtain ⟨hpl, -⟩ := List.mem_filter.mp hpm1
      have hpL := placed_listable hL hpl
      simp only [Function.comp, decide_eq_true_eq] at hpm2
      have hoff : (v.times[ti]).offset zi = p.1 := by
        have htt : (v.times[ti]).time = timeBytes w := by
          have : (v.times.map TimeEntry.time)[ti]? = ((whensOf records v.code).map timeBytes)[ti]? := by rw [htimes]
          rw [List.getElem?_map, List.getElem?_map, hw', List.getElem?_eq_getElem hti] at this
          exact Option.some.inj this
        refine hE.offset _ (List.getElem_mem hti) zi (levelBytes l) ?_ (recOf p.1 p.2) ?_
        · rw [hlevels, List.getElem?_map, hlz']
          rfl
        · unfold these
          rw [own_placed 0 records hL, List.filter_map, List.getLast?_map, htt]
          have e : (((placed 0 records).filter fun p => decide (p.2.kind = v.code)).filter
              ((fun r => decide (Rec.time r = timeBytes w ∧ Rec.level r = levelBytes l)) ∘ fun p => recOf p.1 p.2)) =
              ((placed 0 records).filter fun p => decide (p.2.kind = v.code)).filter
                ((fun m : GribRecord => decide (m.when = w ∧ m.level = l)) ∘ Prod.snd) := by
            apply List.filter_congr
            intro q hq
            have hqL := placed_listable hL (List.mem_filter.mp hq).1
            simp only [Function.comp]
            rw [rec_time _ _ hqL.fits, rec_level _ _ hqL.fits, ← hpm2.1, ← hpm2.2]
            apply decide_eq_decide.mpr
            constructor
            · rintro ⟨g1, g2⟩
              exact ⟨timeBytes_inj hqL hpL g1, levelBytes_inj hqL.fits.level hpL.fits.level g2⟩
            · rintro ⟨g1, g2⟩
              rw [g1, g2]
              exact ⟨rfl, rfl⟩
          rw [e, hp]
          rfl
      obtain ⟨a', b, g1, g2⟩ := placed_at records rest [] p.1 p.2 hpl
      rw [List.nil_append] at g1
      have hlt : (p.1 : ℤ) < 9223372036854775808 := by
        have := congrArg List.length g1
        rw [List.length_append, g2] at this
        omega
      unfold readData
      rw [if_pos ⟨hti, hzi⟩]
      have ho : (((indexOf (coordsOf records firstHalf) (coordsOf records secondHalf) v).offset.getD ti []).getD zi 0) = p.1 := by
        show ((v.times.map fun t => (List.range v.levels.length).map fun i => wrap64 (t.offset i)).getD ti []).getD zi 0 = _
        have e1 : (v.times.map fun t => (List.range v.levels.length).map fun i => wrap64 (t.offset i)).getD ti [] =
            (List.range v.levels.length).map fun i => wrap64 ((v.times[ti]).offset i) := by
          rw [List.getD_eq_getElem?_getD, List.getElem?_map, List.getElem?_eq_getElem hti]
          rfl
        rw [e1]
        show ((List.range v.levels.length).map _).getD zi 0 = _
        rw [List.getD_eq_getElem?_getD, List.getElem?_map, List.getElem?_range hzi]
        show wrap64 _ = _
        rw [hoff, wrap64_id (by omega) hlt]
      rw [ho, ← hsz, g1, ← g2]
      exact readAt_correct_partial junkB a' b p.2 hR

end Grib
end PyGeode
