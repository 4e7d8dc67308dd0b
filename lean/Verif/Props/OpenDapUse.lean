/-
Properties C128 and C129: a dataset that can be served, and what cannot.
-/
import Verif.Props.OpenDap

namespace PyGeode
namespace OpenDap
open NArr Cf Spec

/-- an axis of floats: bits of 0 and 1 -/
def exLat : AxisD := ⟨"lat".toList, .float64, [0, 0x3ff0000000000000]⟩
/-- an axis of integers -/
def exLev : AxisD := ⟨"lev".toList, .int32, [-5, 7, 9]⟩
/-- a variable on both -/
def exTemp : VarD := ⟨"temp".toList, .int16, [exLat, exLev], fun k => 10 * (k.getD 0 0 : ℤ) - k.getD 1 0, false⟩
def exServed : Data := ⟨[exLat, exLev], [exTemp]⟩

theorem exServed_servable : Servable exServed where
  plain := by unfold PlainName; decide
  once := by decide
  words := by decide
  known := by
    intro v hv a ha
    simp only [exServed, List.mem_singleton] at hv
    subst hv
    simpa [exServed, exTemp] using ha
  own := by decide
  values := by decide

theorem shape_exTemp (k : List ℕ) (hk : InBounds exTemp.shape k) : ∃ i j, i < 2 ∧ j < 3 ∧ k = [i, j] := by
  cases hk with
  | cons hi h =>
    cases h with
    | cons hj h =>
      cases h
      exact ⟨_, _, hi, hj, rfl⟩

/-- the last two levels of both latitudes -/
example (toDouble : ℤ → ℕ) (hd : ∀ z, toDouble z < 2 ^ 64) :
    getvalues (dods toDouble 4 exServed "x.nc".toList) "temp".toList [0, 1] [2, 2] = some ([2, 2], [-1, -2, 9, 8]) := by
  have := getvalues_correct toDouble hd 4 (by decide) exServed exServed_servable "x.nc".toList (by decide) exTemp (by simp [exServed])
    ⟨by decide, by decide⟩ (by
      intro k hk
      obtain ⟨i, j, hi, hj, rfl⟩ := shape_exTemp k hk
      simp only [exTemp, Carries, List.getD_cons_zero, List.getD_cons_succ]
      omega) [(0, 2), (1, 2)] (.cons (by decide) (.cons (by decide) .nil)) (by decide)
  exact this

example (toDouble : ℤ → ℕ) (hd : ∀ z, toDouble z < 2 ^ 64) :
    (dds exServed "x.nc".toList []).bind (fun text => openDap text (dods toDouble 4 exServed "x.nc".toList)) =
      some ⟨[("lat".toList, [0, 0x3ff0000000000000]), ("lev".toList, [-5, 7, 9])], [("temp".toList, .int16, ["lat".toList, "lev".toList])]⟩ := by
  have := open_correct toDouble hd 4 (by decide) exServed exServed_servable "x.nc".toList (by decide) (by
    intro a ha
    simp only [exServed, List.mem_cons, List.not_mem_nil, or_false] at ha
    rcases ha with rfl | rfl
    · exact ⟨⟨by decide, by decide⟩, by simp [exLat, Carries], by decide⟩
    · exact ⟨⟨by decide, by decide⟩, by simp [exLev, Carries], by decide⟩)
  exact this

/-- C128 fails for unsigned integers from 2 ^ 31 on: they are read as negative numbers -/
theorem unsigned_violated (toDouble : ℤ → ℕ) (z : ℤ) (h0 : 2 ^ 31 ≤ z) (h1 : z < 2 ^ 32) :
    decode (np2dap .uint32) (writeValues toDouble .uint32 [z]) = some [z - 2 ^ 32] := by
  have hb : (bits 32 z : ℤ) = z := bits_of_nonneg 32 z (by omega) h1
  have h := str2int32_sent [bits 32 z] [] (by simpa using bits_lt 32 z)
  have hlen : (str2int32 (be32 (bits 32 z))).length = 1 := by simp [str2int32, be32_length]
  have e : str2int32 (be32 (bits 32 z)) = [bits 32 z] := by
    have := h.1
    simp only [List.flatMap_cons, List.flatMap_nil, List.append_nil, List.length_singleton] at this
    rwa [List.take_of_length_le (by omega)] at this
  have : decode (np2dap .uint32) (writeValues toDouble .uint32 [z]) = some ((str2int32 (be32 (bits 32 z))).map signed32) := by
    simp [decode, np2dap, writeValues]
  rw [this, e]
  simp only [List.map_cons, List.map_nil, signed32]
  rw [if_neg (by omega), hb]

/-- C128 fails for bytes and texts: the server sends them, the client cannot read them -/
theorem byte_violated (toDouble : ℤ → ℕ) (limit : ℕ) (x : VarD) (hx : x.type = .uint8 ∨ x.type = .string8) (hs : x.shape.prod < 2 ^ 31) :
    (∃ b, writeXdr toDouble limit x = some b) ∧ ∀ xdr, decode (np2dap x.type) xdr = none := by
  constructor
  · unfold writeXdr packLength
    rw [if_pos hs]
    exact ⟨_, rfl⟩
  · intro xdr
    rcases hx with h | h <;> rw [h] <;> rfl

/-- C129 fails for an axis whose name is a number: its description cannot be read -/
theorem numbered_violated : ∃ ds : Data, (dds ds "x".toList []).isSome ∧ (dds ds "x".toList []).bind (fun t => (tokenize t).bind parseDataset) = none :=
  ⟨⟨[⟨"1_0".toList, .int32, [3]⟩], []⟩, by decide +kernel⟩

/-- C129 fails for names with a dot: the server looks for a part of another variable -/
theorem dotted_violated : ∃ (ds : Data) (a : AxisD), a ∈ ds.axes ∧ (dds ds "x".toList []).isSome ∧ fieldsOf ds a.name = none :=
  ⟨⟨[⟨"a.b".toList, .int32, [3]⟩], []⟩, ⟨"a.b".toList, .int32, [3]⟩, by simp, by decide +kernel⟩

end OpenDap
end PyGeode
