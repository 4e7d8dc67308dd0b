/-
Property C128: the client reads the array that the server sends.
-/
import Verif.Props.OpenDapParse

namespace PyGeode
namespace OpenDap
open NArr Cf Spec

/-- `Data:` and a new line -/
abbrev mark : Name := ['D', 'a', 't', 'a', ':', '\n']

theorem toNat_inj {c d : Char} (h : c.toNat = d.toNat) : c = d := by
  rw [← Char.ofNat_toNat c, h, Char.ofNat_toNat]

theorem indexOf_mark (s : Name) (hs : s.IsChain (fun x y => y = ':' → x ≠ 'a')) (hl : s = [] ∨ s.getLast? = some '\n') (r : List ℕ) :
    indexOf (mark.map Char.toNat) ((s ++ mark).map Char.toNat ++ r) = some s.length := by
  induction s with
  | nil =>
    simp only [List.nil_append, List.map_cons, List.map_nil, List.cons_append, indexOf]
    rw [if_pos (by simp [List.isPrefixOf])]
    rfl
  | cons c s ih =>
    rw [List.cons_append, List.map_cons (a := c), List.cons_append, indexOf]
    have hl' : (c :: s).getLast? = some '\n' := by simpa using hl
    rw [if_neg, ih]
    · rfl
    · rw [List.isChain_cons] at hs; exact hs.2
    · cases s with
      | nil => exact Or.inl rfl
      | cons d s => exact Or.inr (by simpa using hl')
    · intro hp
      have hpre : ∃ t, (c :: (s ++ mark)).map Char.toNat ++ r = mark.map Char.toNat ++ t := by
        obtain ⟨t, ht⟩ := List.isPrefixOf_iff_prefix.mp hp
        exact ⟨t, by rw [List.map_cons, List.cons_append]; exact ht.symm⟩
      obtain ⟨t, ht⟩ := hpre
      rcases s with _ | ⟨d, _ | ⟨e, _ | ⟨f, _ | ⟨g, s⟩⟩⟩⟩
      · simp at hl' ht
      · simp at hl' ht
      · simp at hl' ht
      · simp at hl' ht
      · simp only [List.cons_append, List.map_cons, List.cons.injEq] at ht
        have h1 := toNat_inj (c := f) (d := 'a') ht.2.2.2.1
        have h2 := toNat_inj (c := g) (d := ':') ht.2.2.2.2.1
        simp only [List.isChain_cons_cons] at hs
        exact hs.2.2.2.1 h2 h1

theorem ddsText_last (l : List Item) (file : Name) : (ddsText l file).getLast? = some '\n' := by
  have e0 : ddsText l file = ("Dataset {\n".toList ++ l.flatMap itemText ++ ("} ".toList ++ file)) ++ [';', '\n'] := by
    have : ddsText l file = "Dataset {\n".toList ++ l.flatMap itemText ++ ("} ".toList ++ file ++ ";\n".toList) := rfl
    rw [this]
    simp only [List.append_assoc]
    rfl
  rw [e0, List.getLast?_append]
  rfl

theorem unpack32_be32 (n : ℕ) (h : n < 2 ^ 31) : unpack32 (be32 n) = some (n : ℤ) := by
  have := str2int32_sent [n] [] (by simpa using by omega)
  simp only [List.flatMap_cons, List.flatMap_nil, List.append_nil, List.length_singleton] at this
  have e : (str2int32 (be32 n)).head? = some n := by
    have h1 := this.1
    cases hh : str2int32 (be32 n) with
    | nil => rw [hh] at h1; simp at h1
    | cons a l => rw [hh] at h1; simp at h1; simp [h1]
  unfold unpack32
  rw [if_pos (be32_length n), e, Option.map_some]
  rw [signed32, if_pos h]

theorem prod_cast (l : List ℕ) : (l.map fun n : ℕ => (n : ℤ)).prod = (l.prod : ℤ) := by
  induction l with
  | nil => simp
  | cons a l ih => simp [ih]

theorem prod_pos_of (l : List ℕ) (h : ∀ n ∈ l, 0 < n) : 0 < l.prod := by
  induction l with
  | nil => simp
  | cons a l ih => simp only [List.prod_cons]; exact Nat.mul_pos (h a (by simp)) (ih fun n hn => h n (by simp [hn]))

theorem map_ofNat_toNat (s : Name) : (s.map Char.toNat).map Char.ofNat = s := by
  rw [List.map_map]
  conv_rhs => rw [← List.map_id s]
  exact List.map_congr_left fun c _ => Char.ofNat_toNat c

theorem inOrder_length (x : VarD) : (inOrder x).length = x.shape.prod := by
  unfold inOrder
  rw [List.length_map, product_length, List.map_map]
  congr 1
  conv_rhs => rw [← List.map_id x.shape]
  exact List.map_congr_left fun n _ => by simp

/-- C128: the answer that describes one array first is read as that array, whatever follows -/
theorem load_sent (toDouble : ℤ → ℕ) (hd : ∀ z, toDouble z < 2 ^ 64) (i : Item) (hi : i.Good) (file : Name)
    (hf : ∀ c ∈ file, noQuote c = true ∧ c ≠ ':') (hx : Sendable i.1) (r : List ℕ) :
    loadArray ((ddsText [i] file ++ "Data:\n".toList).map Char.toNat ++
        (be32 i.1.shape.prod ++ be32 i.1.shape.prod ++ writeValues toDouble i.1.type (inOrder i.1) ++ r)) =
      some (i.1.shape.map fun n : ℕ => (n : ℤ), (inOrder i.1).map (arrives toDouble i.1.type)) := by
  have hg : ∀ j ∈ [i], Item.Good j := by simpa using hi
  have hc := clean_dds [i] hg file hf
  have hread := dds_read [i] hg file hf
  have hlast := ddsText_last [i] file
  generalize ddsText [i] file = T at hc hread hlast
  have em : "Data:\n".toList = mark := rfl
  have hidx := indexOf_mark T hc.2.1 (Or.inr hlast)
  set n := i.1.shape.prod with hn
  have hn0 : 0 < n := prod_pos_of _ fun m hm => by
    obtain ⟨a, ha, rfl⟩ := List.mem_map.mp hm
    exact List.length_pos_of_ne_nil (hx.axes a ha)
  rw [em]
  generalize hD : (T ++ mark).map Char.toNat ++ (be32 n ++ be32 n ++ writeValues toDouble i.1.type (inOrder i.1) ++ r) = D
  have hD1 : D.take T.length = T.map Char.toNat := by
    rw [← hD, List.map_append, List.append_assoc, List.take_left' (by simp)]
  have hD2 : D.drop (T.length + 6) = be32 n ++ be32 n ++ writeValues toDouble i.1.type (inOrder i.1) ++ r := by
    rw [← hD, List.drop_left' (by simp)]
  have hsh : (declOf i.1).shape.prod = (n : ℤ) := by
    rw [hn, ← prod_cast, VarD.shape, List.map_map]; rfl
  obtain ⟨arr, ha, hlen, htake⟩ := decode_sent_partial toDouble hd i.1.type hx.type (inOrder i.1) hx.fits r
  rw [inOrder_length] at hlen htake
  unfold loadArray
  rw [em, ← hD, hidx, Option.bind_some, hD]
  simp only [hD1, hD2, map_ofNat_toNat]
  rw [hread, Option.bind_some]
  simp only [List.map_cons, List.map_nil, hsh]
  rw [if_neg (by omega)]
  have t1 : (be32 n ++ be32 n ++ writeValues toDouble i.1.type (inOrder i.1) ++ r).take 4 = be32 n := by
    rw [List.append_assoc, List.append_assoc, List.take_left' (be32_length n)]
  have t2 : (be32 n ++ be32 n ++ writeValues toDouble i.1.type (inOrder i.1) ++ r).drop 4 = be32 n ++ (writeValues toDouble i.1.type (inOrder i.1) ++ r) := by
    rw [List.append_assoc, List.append_assoc, List.drop_left' (be32_length n)]
  have t3 : (be32 n ++ be32 n ++ writeValues toDouble i.1.type (inOrder i.1) ++ r).drop 8 = writeValues toDouble i.1.type (inOrder i.1) ++ r := by
    rw [List.append_assoc, List.drop_left' (by simp [be32_length])]
  rw [t1, t2, t3, List.take_left' (be32_length n), unpack32_be32 n hx.size]
  simp only [Option.bind_some]
  rw [if_neg (by simp)]
  have ht : (declOf i.1).type = np2dap i.1.type := rfl
  rw [ht, ha, Option.bind_some, Int.toNat_natCast, if_pos hlen, htake]
  simp [declOf, VarD.shape]

end OpenDap
end PyGeode
