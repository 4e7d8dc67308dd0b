/-
C102: making the index of a GRIB file and reading it back.
-/
import Verif.Props.GribIndex

namespace PyGeode
namespace Grib
open Spec

/-! ### going through the file -/

/-- the record as `make_index` sees it -/
def recOf (off : ℕ) (m : GribRecord) : Rec :=
  { offset := off, pds := decodePds m.product, gds := decodeGds m.gridSection
    pvA := (m.coords.take (m.coords.length / 2)).flatMap GribReal.bytes
    pvB := (m.coords.drop (m.coords.length / 2)).flatMap GribReal.bytes }

theorem bytes_length (m : GribRecord) : m.bytes.length = 83 + 4 * m.coords.length + m.data.length := by
  rw [bytes_eq]
  simp only [List.length_append, product_length, gridSection_length, coords_length, dataHead_length]
  rw [show word.length = 4 from rfl, show (indicator m).length = 4 from rfl, show ([55, 55, 55, 55] : List Byte).length = 4 from rfl]
  omega

/-- one record of the file -/
theorem readRecord_correct (a b : List Byte) (m : GribRecord) (h : m.Listable) :
    readRecord (a ++ (m.bytes ++ b)) (a.length + 4) = some (recOf a.length m, a.length + m.bytes.length) := by
  obtain ⟨hf, hc, -⟩ := h
  set f := a ++ (m.bytes ++ b) with hfdef
  set ca := (m.coords.take (m.coords.length / 2)).flatMap GribReal.bytes with hca
  set cb := (m.coords.drop (m.coords.length / 2)).flatMap GribReal.bytes with hcb
  have hcab : m.coords.flatMap GribReal.bytes = ca ++ cb := by
    rw [hca, hcb, ← List.flatMap_append, List.take_append_drop]
  have hla : ca.length = 4 * (m.coords.length / 2) := by
    rw [hca, coords_length, List.length_take]
    omega
  have hlb : cb.length = 4 * (m.coords.length / 2) := by
    rw [hcb, coords_length, List.length_drop]
    omega
  have f0 : f = a ++ (word ++ (indicator m ++ (m.product ++ (m.gridSection ++ (ca ++ (cb ++
      (dataHead m ++ (m.data ++ ([55, 55, 55, 55] ++ b))))))))) := by
    rw [hfdef, bytes_eq, hcab]
    simp only [List.append_assoc]
  have hind : (indicator m).length = 4 := rfl
  have hword : word.length = 4 := rfl
  have q1 : fread f (a.length + 4) 4 = some (indicator m) := by
    refine fread_at (a := a ++ word) (s := indicator m) (b := m.product ++ (m.gridSection ++ (ca ++ (cb ++
      (dataHead m ++ (m.data ++ ([55, 55, 55, 55] ++ b))))))) ?_ ?_ rfl
    · rw [f0]; simp only [List.append_assoc]
    · simp only [List.length_append, hword]
  have q2 : fread f (a.length + 4 + 4) 28 = some m.product := by
    refine fread_at (a := a ++ (word ++ indicator m)) (s := m.product) (b := m.gridSection ++ (ca ++ (cb ++
      (dataHead m ++ (m.data ++ ([55, 55, 55, 55] ++ b)))))) ?_ ?_ rfl
    · rw [f0]; simp only [List.append_assoc]
    · simp only [List.length_append, hword, hind]
  have q3 : fread f (a.length + 4 + 4 + 28) 32 = some m.gridSection := by
    refine fread_at (a := a ++ (word ++ (indicator m ++ m.product))) (s := m.gridSection) (b := ca ++ (cb ++
      (dataHead m ++ (m.data ++ ([55, 55, 55, 55] ++ b))))) ?_ ?_ rfl
    · rw [f0]; simp only [List.append_assoc]
    · simp only [List.length_append, hword, hind, product_length]
  have q4 : fread f (a.length + 4 + 4 + 60) (4 * (m.coords.length / 2)) = some ca := by
    refine fread_at (a := a ++ (word ++ (indicator m ++ (m.product ++ m.gridSection)))) (s := ca) (b := cb ++
      (dataHead m ++ (m.data ++ ([55, 55, 55, 55] ++ b)))) ?_ ?_ hla.symm
    · rw [f0]; simp only [List.append_assoc]
    · simp only [List.length_append, hword, hind, product_length, gridSection_length]
  have q5 : fread f (a.length + 4 + 4 + 60 + 4 * (m.coords.length / 2)) (4 * (m.coords.length / 2)) = some cb := by
    refine fread_at (a := a ++ (word ++ (indicator m ++ (m.product ++ (m.gridSection ++ ca))))) (s := cb) (b :=
      dataHead m ++ (m.data ++ ([55, 55, 55, 55] ++ b))) ?_ ?_ hlb.symm
    · rw [f0]; simp only [List.append_assoc]
    · simp only [List.length_append, hword, hind, product_length, gridSection_length, hla]; omega
  have q6 : fread f (a.length + 4 + 4 + 60 + 4 * (m.coords.length / 2) + 4 * (m.coords.length / 2)) 11 = some (dataHead m) := by
    refine fread_at (a := a ++ (word ++ (indicator m ++ (m.product ++ (m.gridSection ++ (ca ++ cb)))))) (s := dataHead m) (b :=
      m.data ++ ([55, 55, 55, 55] ++ b)) ?_ ?_ rfl
    · rw [f0]; simp only [List.append_assoc]
    · simp only [List.length_append, hword, hind, product_length, gridSection_length, hla, hlb]; omega
  have hflen : f.length = a.length + (m.bytes.length + b.length) := by rw [hfdef, List.length_append, List.length_append]
  have hblen := bytes_length m
  unfold readRecord readIs
  rw [q1, Option.bind_some, if_pos (indicator_ok m), Option.bind_some, q2, Option.bind_some, q3, Option.bind_some]
  simp only []
  rw [show (decodeGds m.gridSection).nv = m.coords.length by rw [decodeGds_grid m hf], q4, Option.bind_some, q5,
    Option.bind_some]
  congr 2
  unfold skipBds
  rw [q6]
  simp only []
  rw [dataHead_three m hf]
  unfold skipEor
  rw [if_pos (by omega)]
  omega

/-- the records of the file with the places where they begin -/
def recsOf : ℕ → List (List Byte × GribRecord) → List Rec
  | _, [] => []
  | off, p :: l => recOf (off + p.1.length) p.2 :: recsOf (off + p.1.length + p.2.bytes.length) l

theorem loop_ok (junk : ℕ → ℤ) (f rest : List Byte) (hrest : NoRecord rest) (records : List (List Byte × GribRecord))
    (h : ∀ p ∈ records, NoRecord p.1 ∧ p.2.Listable) :
    ∀ (a : List Byte) (vars : List VarEntry) (fuel : ℕ), f = a ++ gribFile records rest → records.length < fuel →
      indexLoop junk f fuel a.length vars = (recsOf a.length records).foldlM (addRecord junk) vars := by
  induction records with
  | nil =>
    intro a vars fuel hf hfuel
    obtain ⟨k, rfl⟩ : ∃ k, fuel = k + 1 := ⟨fuel - 1, by simp at hfuel; omega⟩
    rw [indexLoop, hf, show gribFile [] rest = rest from rfl, readHead_none _ _ hrest]
    rfl
  | cons p records ih =>
    intro a vars fuel hf hfuel
    obtain ⟨k, rfl⟩ : ∃ k, fuel = k + 1 := ⟨fuel - 1, by simp at hfuel; omega⟩
    obtain ⟨hg, hm⟩ := h p (by simp)
    have hfile : f = (a ++ p.1) ++ (p.2.bytes ++ gribFile records rest) := by
      rw [hf]
      unfold gribFile
      rw [List.flatMap_cons]
      simp only [List.append_assoc]
    have hhead : readHead f a.length = some (a.length + p.1.length + 4) := by
      rw [hfile, bytes_eq, List.append_assoc, List.append_assoc, readHead_found _ _ _ hg]
    have hrec : readRecord f (a.length + p.1.length + 4) = some (recOf (a.length + p.1.length) p.2,
        a.length + p.1.length + p.2.bytes.length) := by
      have := readRecord_correct (a ++ p.1) (gribFile records rest) p.2 hm
      rw [List.length_append] at this
      rw [hfile]
      exact this
    rw [indexLoop, hhead]
    simp only []
    rw [hrec, Option.bind_some]
    show _ = (recOf (a.length + p.1.length) p.2 :: recsOf (a.length + p.1.length + p.2.bytes.length) records).foldlM _ _
    rw [List.foldlM_cons]
    show (addRecord junk vars (recOf (a.length + p.1.length) p.2)).bind _ = (addRecord junk vars _).bind _
    congr 1
    funext vars'
    have := ih (fun q hq => h q (List.mem_cons_of_mem _ hq)) (a ++ p.1 ++ p.2.bytes) vars' k
      (by rw [hfile]; simp only [List.append_assoc]) (by simp at hfuel; omega)
    rw [List.length_append, List.length_append] at this
    exact this

theorem records_length (records : List (List Byte × GribRecord)) (rest : List Byte) :
    records.length ≤ (gribFile records rest).length := by
  unfold gribFile
  rw [List.length_append]
  refine Nat.le_trans ?_ (Nat.le_add_right _ _)
  induction records with
  | nil => simp
  | cons p l ih =>
    rw [List.flatMap_cons, List.length_append, List.length_append, bytes_length, List.length_cons]
    omega

/-! ### the index file -/

theorem next_append (a b : List Byte) (n : ℕ) (h : a.length = n) : next n (a ++ b) = some (a, b) := by
  subst h
  unfold next
  rw [if_pos (by simp), List.take_left, List.drop_left]

theorem nexts_flatten (k : ℕ) (l : List (List Byte)) (b : List Byte) (h : ∀ x ∈ l, x.length = k) :
    nexts k l.length (l.flatten ++ b) = some (l, b) := by
  induction l with
  | nil => rfl
  | cons x l ih =>
    rw [List.length_cons, nexts, List.flatten_cons, List.append_assoc, next_append _ _ _ (h x (by simp)), Option.bind_some,
      ih fun y hy => h y (List.mem_cons_of_mem _ hy)]
    rfl

theorem byteI_val (z : ℤ) : ((byte z).val : ℤ) = z % 256 := by
  show (((z % 256).toNat : ℕ) : ℤ) = _
  omega

/-- the conversion to a signed number of 64 bits -/
def wrap64 (z : ℤ) : ℤ := (z + 9223372036854775808) % 18446744073709551616 - 9223372036854775808

theorem offset_round (o : ℤ) : decodeOffset (offsetBytes o) = wrap64 o := by
  have e : ∀ i x, at' (offsetBytes o) i = x → True := fun _ _ _ => trivial
  unfold decodeOffset wrap64
  have b0 : (at' (offsetBytes o) 0 : ℤ) = o / 72057594037927936 % 256 := byteI_val _
  have b1 : (at' (offsetBytes o) 1 : ℤ) = o / 281474976710656 % 256 := byteI_val _
  have b2 : (at' (offsetBytes o) 2 : ℤ) = o / 1099511627776 % 256 := byteI_val _
  have b3 : (at' (offsetBytes o) 3 : ℤ) = o / 4294967296 % 256 := byteI_val _
  have b4 : (at' (offsetBytes o) 4 : ℤ) = o / 16777216 % 256 := byteI_val _
  have b5 : (at' (offsetBytes o) 5 : ℤ) = o / 65536 % 256 := byteI_val _
  have b6 : (at' (offsetBytes o) 6 : ℤ) = o / 256 % 256 := byteI_val _
  have b7 : (at' (offsetBytes o) 7 : ℤ) = o % 256 := byteI_val _
  generalize at' (offsetBytes o) 0 = x0 at *
  generalize at' (offsetBytes o) 1 = x1 at *
  generalize at' (offsetBytes o) 2 = x2 at *
  generalize at' (offsetBytes o) 3 = x3 at *
  generalize at' (offsetBytes o) 4 = x4 at *
  generalize at' (offsetBytes o) 5 = x5 at *
  generalize at' (offsetBytes o) 6 = x6 at *
  generalize at' (offsetBytes o) 7 = x7 at *
  simp only []
  split_ifs <;> omega

theorem wrap64_id {o : ℤ} (h : 0 ≤ o) (h' : o < 9223372036854775808) : wrap64 o = o := by
  unfold wrap64; omega

/-- the numbers of a grid section fit into their bytes -/
structure GdsFits (g : Gds) : Prop where
  length : g.length < 16777216
  nv : g.nv < 256
  pvpl : g.pvpl < 256
  gridType : g.gridType < 256
  ni : g.ni < 65536
  nj : g.nj < 65536
  la1 : g.la1.natAbs < 8388608
  lo1 : g.lo1.natAbs < 8388608
  resFlags : g.resFlags < 256
  la2 : g.la2.natAbs < 8388608
  lo2 : g.lo2.natAbs < 8388608
  di : -32768 ≤ g.di ∧ g.di < 32768
  dj : -32768 ≤ g.dj ∧ g.dj < 32768
  scan : g.scan < 256

theorem sign_round (z : ℤ) (h : z.natAbs < 8388608) :
    0 ≤ unsign23 z ∧ unsign23 z < 16777216 ∧ sign23 (unsign23 z).toNat = z := by
  unfold unsign23
  by_cases hz : z < 0
  · rw [if_pos hz]
    have h1 : (-z).toNat < 2 ^ 23 := by norm_num; omega
    have h2 : (-z).toNat ^^^ 8388608 = (-z).toNat + 8388608 := by
      have := xor_high (k := 23) (n := (-z).toNat) h1
      have h3 : ((-z).toNat + 2 ^ 23) ^^^ 2 ^ 23 ^^^ 2 ^ 23 = (-z).toNat ^^^ 2 ^ 23 := by rw [this]
      rw [Nat.xor_assoc, Nat.xor_self, Nat.xor_zero] at h3
      norm_num at h3
      exact h3.symm
    rw [h2]
    refine ⟨by omega, by omega, ?_⟩
    rw [Int.toNat_natCast]
    unfold sign23
    rw [if_pos (by omega)]
    have h4 := xor_high (k := 23) (n := (-z).toNat) h1
    norm_num at h4
    rw [h4]
    omega
  · rw [if_neg hz]
    refine ⟨by omega, by omega, ?_⟩
    unfold sign23
    rw [if_neg (by omega)]
    omega

theorem three_bytes (l : List Byte) (i : ℕ) (z : ℤ) (h : 0 ≤ z) (h' : z < 16777216) (e0 : at' l i = (byte (z / 65536)).val)
    (e1 : at' l (i + 1) = (byte (z / 256)).val) (e2 : at' l (i + 2) = (byte z).val) : three l i = z.toNat := by
  have b0 := byteI_val (z / 65536)
  have b1 := byteI_val (z / 256)
  have b2 := byteI_val z
  unfold three
  rw [e0, e1, e2]
  omega

theorem short_bytes (l : List Byte) (i : ℕ) (z : ℤ) (h : -32768 ≤ z ∧ z < 32768) (e0 : at' l i = (byte (z / 256)).val)
    (e1 : at' l (i + 1) = (byte z).val) : short (two l i) = z := by
  have b0 := byteI_val (z / 256)
  have b1 := byteI_val z
  unfold two short
  rw [e0, e1]
  split_ifs <;> omega

/-- a grid section can be written and read back -/
theorem gds_round (g : Gds) (h : GdsFits g) : decodeGds (encodeGds g) = g := by
  obtain ⟨h1, h2, h3, h4, h5, h6, h7, h8, h9, h10, h11, h12, h13, h14⟩ := h
  obtain ⟨length, nv, pvpl, gridType, ni, nj, la1, lo1, resFlags, la2, lo2, di, dj, scan⟩ := g
  simp only at h1 h2 h3 h4 h5 h6 h7 h8 h9 h10 h11 h12 h13 h14
  obtain ⟨a1, a2, a3⟩ := sign_round la1 h7
  obtain ⟨b1, b2, b3⟩ := sign_round lo1 h8
  obtain ⟨c1, c2, c3⟩ := sign_round la2 h10
  obtain ⟨d1, d2, d3⟩ := sign_round lo2 h11
  have small : ∀ n : ℕ, n < 256 → (byte (n : ℤ)).val = n := fun n hn => by rw [byte_val]; omega
  simp only [decodeGds, Gds.mk.injEq]
  refine ⟨?_, small nv h2, small pvpl h3, small gridType h4, ?_, ?_, ?_, ?_, small resFlags h9, ?_, ?_, ?_, ?_, small scan h14⟩
  · show (byte ((length / 65536 : ℕ) : ℤ)).val * 65536 + (byte ((length / 256 : ℕ) : ℤ)).val * 256 + (byte (length : ℤ)).val = length
    rw [byte_val, byte_val, byte_val]
    omega
  · show (byte ((ni / 256 : ℕ) : ℤ)).val * 256 + (byte (ni : ℤ)).val = ni
    rw [byte_val, byte_val]
    omega
  · show (byte ((nj / 256 : ℕ) : ℤ)).val * 256 + (byte (nj : ℤ)).val = nj
    rw [byte_val, byte_val]
    omega
  · rw [three_bytes _ 10 _ a1 a2 rfl rfl rfl, a3]
  · rw [three_bytes _ 13 _ b1 b2 rfl rfl rfl, b3]
  · rw [three_bytes _ 17 _ c1 c2 rfl rfl rfl, c3]
  · rw [three_bytes _ 20 _ d1 d2 rfl rfl rfl, d3]
  · exact short_bytes _ 23 _ h12 rfl rfl
  · exact short_bytes _ 25 _ h13 rfl rfl

theorem gdsFits_of (m : GribRecord) (h : m.Fits) : GdsFits (decodeGds m.gridSection) := by
  rw [decodeGds_grid m h]
  have hs : ∀ x, x < 65536 → -32768 ≤ short x ∧ short x < 32768 := by
    intro x hx
    unfold short
    split_ifs <;> omega
  have := h.coords
  exact ⟨by show 32 + 4 * m.coords.length < _; omega, h.coords, m.pvpl.isLt, m.gridType.isLt, h.ni, h.nj, h.la1, h.lo1,
    m.resolution.isLt, h.la2, h.lo2, hs _ h.di, hs _ h.dj, m.scanning.isLt⟩

end Grib
end PyGeode
