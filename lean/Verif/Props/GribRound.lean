/-
C102: writing the index and reading it back.
-/
import Verif.Props.GribFile

namespace PyGeode
namespace Grib
open Spec

/-- the entry of a variable can be written: `A v` and `B v` are the numbers of its levels -/
structure CanWrite (A B : VarEntry → List (List Byte)) (v : VarEntry) : Prop where
  code : v.code.length = 4
  gds : GdsFits v.gds
  even : v.gds.nv % 2 = 0
  a : v.pvA = (A v).flatten ∧ (A v).length = v.gds.nv / 2 ∧ ∀ x ∈ A v, x.length = 4
  b : v.pvB = (B v).flatten ∧ (B v).length = v.gds.nv / 2 ∧ ∀ x ∈ B v, x.length = 4
  times : v.times.length < 256
  levels : v.levels.length < 256
  timeBytes : ∀ t ∈ v.times, t.time.length = 13
  levelBytes : ∀ l ∈ v.levels, l.length = 2

/-- the entry of a variable after the first part of the index is read -/
def headerOf (A B : VarEntry → List (List Byte)) (v : VarEntry) : IndexVar :=
  { code := v.code, pds := decodePds (encodePds v.pds), gds := v.gds, nt := v.times.length, nz := v.levels.length
    a := (A v).map decodeFloat, b := (B v).map decodeFloat, level := [], time := [], offset := [] }

/-- the entry of a variable after all of the index is read -/
def indexOf (A B : VarEntry → List (List Byte)) (v : VarEntry) : IndexVar :=
  { headerOf A B v with
    level := v.levels
    time := v.times.map TimeEntry.time
    offset := v.times.map fun t => (List.range v.levels.length).map fun i => wrap64 (t.offset i) }

theorem readVarHeader_ok {A B : VarEntry → List (List Byte)} {v : VarEntry} (h : CanWrite A B v) (s : List Byte) :
    readVarHeader (varHeader v ++ s) = some (headerOf A B v, s) := by
  have e : varHeader v ++ s = v.code ++ (encodePds v.pds ++ (encodeGds v.gds ++
      ([byte v.times.length, byte v.levels.length, byte v.gds.nv] ++ (v.pvA ++ (v.pvB ++ s))))) := by
    unfold varHeader
    simp only [List.append_assoc]
  have n0 : at' [byte v.times.length, byte v.levels.length, byte v.gds.nv] 0 = v.times.length := by
    show (byte _).val = _
    rw [byte_val]; have := h.times; omega
  have n1 : at' [byte v.times.length, byte v.levels.length, byte v.gds.nv] 1 = v.levels.length := by
    show (byte _).val = _
    rw [byte_val]; have := h.levels; omega
  have n2 : at' [byte v.times.length, byte v.levels.length, byte v.gds.nv] 2 = v.gds.nv := by
    show (byte _).val = _
    rw [byte_val]; have := h.gds.nv; omega
  unfold readVarHeader
  rw [e, next_append _ _ _ h.code, Option.bind_some]
  simp only []
  rw [next_append _ _ 28 rfl, Option.bind_some]
  simp only []
  rw [next_append _ _ 32 rfl, Option.bind_some]
  simp only []
  rw [next_append _ _ 3 rfl, Option.bind_some]
  simp only []
  rw [n0, n1, n2, if_pos h.even, h.a.1, h.b.1, ← h.a.2.1, nexts_flatten 4 _ _ h.a.2.2, Option.bind_some]
  simp only []
  rw [h.a.2.1, ← h.b.2.1, nexts_flatten 4 _ _ h.b.2.2, Option.bind_some, gds_round _ h.gds]
  rfl

theorem readHeaders_ok {A B : VarEntry → List (List Byte)} (vars : List VarEntry) (h : ∀ v ∈ vars, CanWrite A B v) (s : List Byte) :
    readHeaders vars.length (vars.flatMap varHeader ++ s) = some (vars.map (headerOf A B), s) := by
  induction vars with
  | nil => rfl
  | cons v vars ih =>
    rw [List.length_cons, readHeaders, List.flatMap_cons, List.append_assoc, readVarHeader_ok (h v (by simp)), Option.bind_some,
      ih fun w hw => h w (List.mem_cons_of_mem _ hw)]
    rfl

theorem readTime_ok (nz : ℕ) (t : TimeEntry) (ht : t.time.length = 13) (s : List Byte) :
    readTime nz (t.time ++ ((List.range nz).flatMap fun i => offsetBytes (t.offset i)) ++ s) =
      some ((t.time, (List.range nz).map fun i => wrap64 (t.offset i)), s) := by
  unfold readTime
  rw [List.append_assoc, next_append _ _ _ ht, Option.bind_some]
  simp only []
  have := nexts_flatten 8 ((List.range nz).map fun i => offsetBytes (t.offset i)) s (by
    intro x hx
    obtain ⟨i, -, rfl⟩ := List.mem_map.mp hx
    rfl)
  rw [List.length_map, List.length_range] at this
  rw [List.flatMap_def, this, Option.bind_some, List.map_map]
  have e : (decodeOffset ∘ fun i => offsetBytes (t.offset i)) = fun i => wrap64 (t.offset i) := by
    funext i
    exact offset_round _
  rw [e]

theorem readTimes_ok (nz : ℕ) (times : List TimeEntry) (h : ∀ t ∈ times, t.time.length = 13) (s : List Byte) :
    readTimes nz times.length ((times.flatMap fun t => t.time ++ (List.range nz).flatMap fun i => offsetBytes (t.offset i)) ++ s) =
      some (times.map fun t => (t.time, (List.range nz).map fun i => wrap64 (t.offset i)), s) := by
  induction times with
  | nil => rfl
  | cons t times ih =>
    rw [List.length_cons, readTimes, List.flatMap_cons, List.append_assoc (_ ++ _), readTime_ok nz t (h t (by simp)),
      Option.bind_some, ih fun u hu => h u (List.mem_cons_of_mem _ hu)]
    rfl

theorem readVarBody_ok {A B : VarEntry → List (List Byte)} {v : VarEntry} (h : CanWrite A B v) (s : List Byte) :
    readVarBody (headerOf A B v) (varBody v ++ s) = some (indexOf A B v, s) := by
  unfold readVarBody varBody
  show (nexts 2 v.levels.length _).bind _ = _
  rw [List.append_assoc, nexts_flatten 2 _ _ h.levelBytes, Option.bind_some]
  simp only []
  show (readTimes v.levels.length v.times.length _).bind _ = _
  rw [readTimes_ok _ _ h.timeBytes, Option.bind_some, List.map_map, List.map_map]
  rfl

theorem readBodies_ok {A B : VarEntry → List (List Byte)} (vars : List VarEntry) (h : ∀ v ∈ vars, CanWrite A B v) :
    readBodies (vars.map (headerOf A B)) (vars.flatMap varBody) = some (vars.map (indexOf A B)) := by
  induction vars with
  | nil => rfl
  | cons v vars ih =>
    rw [List.map_cons, readBodies, List.flatMap_cons, readVarBody_ok (h v (by simp)), Option.bind_some]
    simp only []
    rw [ih fun w hw => h w (List.mem_cons_of_mem _ hw)]
    rfl

/-- the index can be written and read back -/
theorem index_round {A B : VarEntry → List (List Byte)} (vars : List VarEntry) (h : ∀ v ∈ vars, CanWrite A B v)
    (hn : vars.length < 256) : ∃ s, indexBytes vars = some s ∧ readIndex s = some (vars.map (indexOf A B)) := by
  refine ⟨byte vars.length :: (vars.flatMap varHeader ++ vars.flatMap varBody), ?_, ?_⟩
  · unfold indexBytes
    rw [if_pos ⟨hn, fun v hv => ⟨(h v hv).times, (h v hv).levels⟩⟩]
  · unfold readIndex
    rw [show byte vars.length :: (vars.flatMap varHeader ++ vars.flatMap varBody) =
      [byte vars.length] ++ (vars.flatMap varHeader ++ vars.flatMap varBody) from rfl, next_append _ _ 1 rfl, Option.bind_some]
    simp only []
    rw [show at' [byte vars.length] 0 = vars.length by
      show (byte _).val = _
      rw [byte_val]; omega, readHeaders_ok vars h, Option.bind_some]
    exact readBodies_ok vars h

end Grib
end PyGeode
