/-
C102: the index of a GRIB file.
-/
import Verif.Props.GribRecord

namespace PyGeode
namespace Grib
open Spec

/-! ### lists without repeats -/

theorem eraseDups_concat {α : Type} [BEq α] [LawfulBEq α] (l : List α) (x : α) [Decidable (x ∈ l)] :
    (l ++ [x]).eraseDups = if x ∈ l then l.eraseDups else l.eraseDups ++ [x] := by
  rw [List.eraseDups_append]
  by_cases h : x ∈ l
  · rw [if_pos h]
    simp [List.removeAll, h]
  · rw [if_neg h]
    simp [List.removeAll, h, List.eraseDups_cons]

theorem eraseDups_nodup {α : Type} [BEq α] [LawfulBEq α] (l : List α) : l.eraseDups.Nodup := by
  induction l using List.reverseRecOn with
  | nil => simp
  | append_singleton l x ih =>
    classical
    rw [eraseDups_concat]
    split_ifs with h
    · exact ih
    · rw [List.nodup_append]
      refine ⟨ih, by simp, ?_⟩
      intro a ha b hb
      rw [List.mem_singleton] at hb
      rw [List.mem_eraseDups] at ha
      rintro rfl
      exact h (hb ▸ ha)

theorem eraseDups_map {α β : Type} [BEq α] [LawfulBEq α] [BEq β] [LawfulBEq β] (g : α → β) (l : List α)
    (h : ∀ x ∈ l, ∀ y ∈ l, g x = g y → x = y) : (l.map g).eraseDups = l.eraseDups.map g := by
  induction l using List.reverseRecOn with
  | nil => simp
  | append_singleton l x ih =>
    classical
    rw [List.map_append, List.map_cons, List.map_nil, eraseDups_concat, eraseDups_concat,
      ih fun a ha b hb => h a (by simp [ha]) b (by simp [hb])]
    have : g x ∈ l.map g ↔ x ∈ l := by
      constructor
      · intro hm
        obtain ⟨y, hy, hxy⟩ := List.mem_map.mp hm
        rw [← h y (by simp [hy]) x (by simp) hxy]
        exact hy
      · exact fun hm => List.mem_map_of_mem hm
    by_cases hx : x ∈ l
    · rw [if_pos hx, if_pos (this.mpr hx)]
    · rw [if_neg hx, if_neg (fun hc => hx (this.mp hc)), List.map_append]
      rfl

/-! ### the list of variables -/

/-- the records of one variable -/
def own (rs : List Rec) (c : List Byte) : List Rec := rs.filter fun r => decide (r.code = c)

/-- the records of one variable for one time and level -/
def these (rs : List Rec) (c t l : List Byte) : List Rec := (own rs c).filter fun r => decide (r.time = t ∧ r.level = l)

/-- what the entry of a variable has to say -/
structure EntryOk (rs : List Rec) (v : VarEntry) : Prop where
  levels : v.levels = ((own rs v.code).map Rec.level).eraseDups
  times : v.times.map TimeEntry.time = ((own rs v.code).map Rec.time).eraseDups
  head : (own rs v.code).head?.map (fun r => (strip r.pds, r.gds, r.pvA, r.pvB)) = some (v.pds, v.gds, v.pvA, v.pvB)
  offset : ∀ t ∈ v.times, ∀ (zi : ℕ) (l : List Byte), v.levels[zi]? = some l → ∀ r,
    (these rs v.code t.time l).getLast? = some r → t.offset zi = r.offset

/-- what the list of the variables has to say -/
structure ListOk (rs : List Rec) (vars : List VarEntry) : Prop where
  codes : vars.map VarEntry.code = (rs.map Rec.code).eraseDups
  entry : ∀ v ∈ vars, EntryOk rs v

theorem own_concat (rs : List Rec) (r : Rec) (c : List Byte) :
    own (rs ++ [r]) c = if r.code = c then own rs c ++ [r] else own rs c := by
  unfold own
  rw [List.filter_append]
  split_ifs with h <;> simp [h]

theorem these_concat (rs : List Rec) (r : Rec) (c t l : List Byte) :
    these (rs ++ [r]) c t l = if r.code = c ∧ r.time = t ∧ r.level = l then these rs c t l ++ [r] else these rs c t l := by
  unfold these
  rw [own_concat]
  by_cases h : r.code = c
  · rw [if_pos h, List.filter_append]
    by_cases h2 : r.time = t ∧ r.level = l
    · rw [if_pos ⟨h, h2⟩]
      simp [h2]
    · rw [if_neg (fun hc => h2 hc.2)]
      simp [h2]
  · rw [if_neg h, if_neg (fun hc => h hc.1)]

theorem entry_other {rs : List Rec} {r : Rec} {v : VarEntry} (h : EntryOk rs v) (hc : r.code ≠ v.code) :
    EntryOk (rs ++ [r]) v := by
  obtain ⟨h1, h2, h3, h4⟩ := h
  have e : own (rs ++ [r]) v.code = own rs v.code := by rw [own_concat, if_neg hc]
  refine ⟨by rw [e]; exact h1, by rw [e]; exact h2, by rw [e]; exact h3, ?_⟩
  intro t ht zi l hl r' hr'
  rw [these_concat, if_neg (fun h => hc h.1)] at hr'
  exact h4 t ht zi l hl r' hr'

theorem addTime_times (junk : ℕ → ℤ) (nz : ℕ) (times : List TimeEntry) (t : List Byte) :
    (addTime junk nz times t).map TimeEntry.time =
      if t ∈ times.map TimeEntry.time then times.map TimeEntry.time else times.map TimeEntry.time ++ [t] := by
  unfold addTime
  split_ifs <;> simp

/-- the entry of a variable after one more record -/
theorem updateVar_ok {junk : ℕ → ℤ} {rs : List Rec} {r : Rec} {v : VarEntry}
    (hlev : v.levels = ((own rs r.code).map Rec.level).eraseDups)
    (htim : v.times.map TimeEntry.time = ((own rs r.code).map Rec.time).eraseDups)
    (hhead : (own (rs ++ [r]) r.code).head?.map (fun r => (strip r.pds, r.gds, r.pvA, r.pvB)) =
      some (v.pds, v.gds, v.pvA, v.pvB))
    (hoff : ∀ t ∈ v.times, ∀ (zi : ℕ) (l : List Byte), v.levels[zi]? = some l → ∀ q,
      (these rs r.code t.time l).getLast? = some q → t.offset zi = q.offset)
    (hcode : v.code = r.code) (hroom : ((own (rs ++ [r]) r.code).map Rec.level).eraseDups.length ≤ 255) :
    ∃ v', updateVar junk r v = some v' ∧ v'.code = r.code ∧ EntryOk (rs ++ [r]) v' := by
  have hown : own (rs ++ [r]) r.code = own rs r.code ++ [r] := by rw [own_concat, if_pos rfl]
  have hlev' : addLevel v.levels r.level = ((own (rs ++ [r]) r.code).map Rec.level).eraseDups := by
    rw [hown, List.map_append, List.map_cons, List.map_nil, eraseDups_concat, ← hlev]
    unfold addLevel
    by_cases h : r.level ∈ v.levels
    · rw [if_pos h, if_pos (by rw [hlev, List.mem_eraseDups] at h; exact h)]
    · rw [if_neg h, if_neg (by rw [hlev, List.mem_eraseDups] at h; exact h)]
  set times := addTime junk v.levels.length v.times r.time with htimes
  have htim' : times.map TimeEntry.time = ((own (rs ++ [r]) r.code).map Rec.time).eraseDups := by
    rw [htimes, addTime_times, hown, List.map_append, List.map_cons, List.map_nil, eraseDups_concat, ← htim]
    by_cases h : r.time ∈ v.times.map TimeEntry.time
    · rw [if_pos h, if_pos (by rw [htim, List.mem_eraseDups] at h; exact h)]
    · rw [if_neg h, if_neg (by rw [htim, List.mem_eraseDups] at h; exact h)]
  have hnd : (times.map TimeEntry.time).Nodup := by rw [htim']; exact eraseDups_nodup _
  set levels := addLevel v.levels r.level with hlevels
  have hlnd : levels.Nodup := by rw [hlev']; exact eraseDups_nodup _
  set ti := (times.map TimeEntry.time).idxOf r.time with hti
  have hmem : r.time ∈ times.map TimeEntry.time := by
    rw [htim', List.mem_eraseDups, hown]; simp
  have htilt : ti < times.length := by
    have := List.idxOf_lt_length_of_mem hmem
    simpa [← hti] using this
  have hlmem : r.level ∈ levels := by rw [hlev', List.mem_eraseDups, hown]; simp
  have hzlt := List.idxOf_lt_length_of_mem hlmem
  have hlen : levels.length ≤ 255 := by rw [hlev']; exact hroom
  refine ⟨{ v with levels := levels, times := times.modify ti (setOffset (levels.idxOf r.level) r.offset) }, ?_, hcode, ?_⟩
  · unfold updateVar
    simp only []
    rw [if_pos hlen]
  have hmt : (times.modify ti (setOffset (levels.idxOf r.level) r.offset)).map TimeEntry.time = times.map TimeEntry.time := by
    apply List.ext_getElem (by simp)
    intro i h1 h2
    rw [List.getElem_map, List.getElem_map, List.getElem_modify]
    split_ifs <;> rfl
  -- the offsets before the new record
  have hbefore : ∀ t ∈ times, ∀ (zi : ℕ) (l : List Byte), levels[zi]? = some l → ∀ q,
      (these rs r.code t.time l).getLast? = some q → t.offset zi = q.offset := by
    intro t ht zi l hl q hq
    have hqm := List.mem_of_getLast? hq
    obtain ⟨hqo, hqd⟩ := List.mem_filter.mp hqm
    rw [decide_eq_true_eq] at hqd
    -- the level and the time are old
    have hlold : l ∈ v.levels := by
      rw [hlev, List.mem_eraseDups, ← hqd.2]
      exact List.mem_map_of_mem hqo
    have htold : t.time ∈ v.times.map TimeEntry.time := by
      rw [htim, List.mem_eraseDups, ← hqd.1]
      exact List.mem_map_of_mem hqo
    have htv : t ∈ v.times := by
      rw [htimes] at ht
      unfold addTime at ht
      split_ifs at ht with hin
      · exact ht
      · rw [List.mem_append] at ht
        rcases ht with ht | ht
        · exact ht
        · rw [List.mem_singleton] at ht
          rw [ht] at htold
          exact absurd htold hin
    refine hoff t htv zi l ?_ q hq
    rw [hlevels] at hl
    unfold addLevel at hl
    split_ifs at hl with hin
    · exact hl
    · rw [List.getElem?_append] at hl
      split_ifs at hl with hz
      · exact hl
      · rcases Nat.eq_zero_or_pos (zi - v.levels.length) with h0 | h0
        · rw [h0] at hl
          simp at hl
          rw [← hl] at hlold
          exact absurd hlold hin
        · rw [List.getElem?_eq_none (by simp; omega)] at hl
          simp at hl
  refine ⟨?_, ?_, ?_, ?_⟩
  · rw [show ({ v with levels := levels, times := times.modify ti (setOffset (levels.idxOf r.level) r.offset) } : VarEntry).code
      = r.code from hcode]
    exact hlev'
  · rw [show ({ v with levels := levels, times := times.modify ti (setOffset (levels.idxOf r.level) r.offset) } : VarEntry).code
      = r.code from hcode]
    show (times.modify ti (setOffset (levels.idxOf r.level) r.offset)).map TimeEntry.time = _
    rw [hmt]
    exact htim'
  · rw [show ({ v with levels := levels, times := times.modify ti (setOffset (levels.idxOf r.level) r.offset) } : VarEntry).code
      = r.code from hcode]
    exact hhead
  · rw [show ({ v with levels := levels, times := times.modify ti (setOffset (levels.idxOf r.level) r.offset) } : VarEntry).code
      = r.code from hcode]
    show ∀ t ∈ times.modify ti (setOffset (levels.idxOf r.level) r.offset), _
    intro t ht zi l hl q hq
    have hl : levels[zi]? = some l := hl
    obtain ⟨i, hi, hit⟩ := List.getElem_of_mem ht
    rw [List.length_modify] at hi
    rw [List.getElem_modify] at hit
    by_cases hii : ti = i
    · rw [if_pos hii] at hit
      have htt : (times[i]).time = r.time := by
        have h1 : (times.map TimeEntry.time)[ti]'(by simpa using htilt) = r.time := List.getElem_idxOf _
        rw [List.getElem_map] at h1
        simp only [← hii]
        exact h1
      have htime : t.time = r.time := by rw [← hit]; exact htt
      by_cases hll : r.level = l
      · rw [these_concat, if_pos ⟨rfl, htime.symm, hll⟩, List.getLast?_concat] at hq
        have hz : zi = levels.idxOf r.level := by
          obtain ⟨hz1, hz2⟩ := List.getElem?_eq_some_iff.mp hl
          rw [hll, ← hz2, List.Nodup.idxOf_getElem hlnd]
        rw [← hit, ← Option.some.inj hq, hz]
        show Function.update _ _ _ _ = _
        rw [Function.update_self]
      · rw [these_concat, if_neg (fun h => hll h.2.2)] at hq
        have hz : zi ≠ levels.idxOf r.level := by
          rintro rfl
          obtain ⟨hz1, hz2⟩ := List.getElem?_eq_some_iff.mp hl
          rw [List.getElem_idxOf] at hz2
          exact hll hz2
        rw [← hit]
        show Function.update _ _ _ _ = _
        rw [Function.update_of_ne hz]
        refine hbefore _ (List.getElem_mem hi) zi l hl q ?_
        rw [htt, ← htime]
        exact hq
    · rw [if_neg hii] at hit
      subst hit
      have htt : r.time ≠ (times[i]).time := by
        intro hc
        apply hii
        have h1 : (times.map TimeEntry.time)[i]'(by simpa using hi) = r.time := by rw [List.getElem_map, hc]
        rw [hti, ← h1, List.Nodup.idxOf_getElem hnd]
      rw [these_concat, if_neg (fun h => htt h.2.1)] at hq
      exact hbefore _ (List.getElem_mem hi) zi l hl q hq

theorem own_nil {rs : List Rec} {c : List Byte} (h : c ∉ rs.map Rec.code) : own rs c = [] := by
  unfold own
  rw [List.filter_eq_nil_iff]
  intro r hr hc
  rw [decide_eq_true_eq] at hc
  exact h (hc ▸ List.mem_map_of_mem hr)

theorem set_ok {rs : List Rec} {r : Rec} {vars : List VarEntry} {i : ℕ} {v' : VarEntry} (hi : i < vars.length)
    (hnd : (vars.map VarEntry.code).Nodup) (hcode : (vars[i]).code = r.code) (hv' : v'.code = r.code)
    (hcodes : vars.map VarEntry.code = ((rs ++ [r]).map Rec.code).eraseDups)
    (hother : ∀ v ∈ vars, v.code ≠ r.code → EntryOk rs v) (hok : EntryOk (rs ++ [r]) v') :
    ListOk (rs ++ [r]) (vars.set i v') := by
  refine ⟨?_, ?_⟩
  · rw [← hcodes, List.map_set, hv', ← hcode]
    apply List.ext_getElem (by simp)
    intro j h1 h2
    rw [List.getElem_set]
    split_ifs with h
    · subst h
      rw [List.getElem_map]
    · rfl
  · intro v hv
    obtain ⟨j, hj, hjv⟩ := List.getElem_of_mem hv
    rw [List.getElem_set] at hjv
    split_ifs at hjv with h
    · rw [← hjv]; exact hok
    · rw [List.length_set] at hj
      have hne : v.code ≠ r.code := by
        intro hc
        apply h
        have h1 : (vars.map VarEntry.code)[i]'(by simpa using hi) = (vars.map VarEntry.code)[j]'(by simpa using hj) := by
          rw [List.getElem_map, List.getElem_map, hcode, hjv, hc]
        exact (List.Nodup.getElem_inj_iff hnd).mp h1
      exact entry_other (hother v (hjv ▸ List.getElem_mem hj) hne) (Ne.symm hne)

/-- the list of the variables after one more record -/
theorem addRecord_ok {junk : ℕ → ℤ} {rs : List Rec} {r : Rec} {vars : List VarEntry} (h : ListOk rs vars)
    (hroom : ((own (rs ++ [r]) r.code).map Rec.level).eraseDups.length ≤ 255) :
    ∃ vars', addRecord junk vars r = some vars' ∧ ListOk (rs ++ [r]) vars' := by
  obtain ⟨h1, h2⟩ := h
  have hnd : (vars.map VarEntry.code).Nodup := by rw [h1]; exact eraseDups_nodup _
  unfold addRecord
  simp only []
  by_cases hin : r.code ∈ vars.map VarEntry.code
  · rw [if_pos hin]
    have hin' : r.code ∈ rs.map Rec.code := by rw [h1, List.mem_eraseDups] at hin; exact hin
    have hi : (vars.map VarEntry.code).idxOf r.code < vars.length := by
      have := List.idxOf_lt_length_of_mem hin
      simpa using this
    set i := (vars.map VarEntry.code).idxOf r.code with hidef
    have hcode : (vars[i]).code = r.code := by
      have : (vars.map VarEntry.code)[i]'(by simpa using hi) = r.code := List.getElem_idxOf _
      rwa [List.getElem_map] at this
    have hE := h2 _ (List.getElem_mem hi)
    obtain ⟨e1, e2, e3, e4⟩ := hE
    rw [hcode] at e1 e2 e3 e4
    have hhead : (own (rs ++ [r]) r.code).head?.map (fun r => (strip r.pds, r.gds, r.pvA, r.pvB)) =
        some ((vars[i]).pds, (vars[i]).gds, (vars[i]).pvA, (vars[i]).pvB) := by
      rw [own_concat, if_pos rfl, List.head?_append]
      cases hh : (own rs r.code).head? with
      | none => rw [hh] at e3; simp at e3
      | some q => rw [hh] at e3; exact e3
    obtain ⟨v', q1, q2, q3⟩ := updateVar_ok (junk := junk) e1 e2 hhead e4 hcode hroom
    refine ⟨vars.set i v', ?_, ?_⟩
    · rw [List.getElem?_eq_getElem hi, Option.bind_some, q1]
      rfl
    · refine set_ok hi hnd hcode q2 ?_ (fun v hv _ => h2 v hv) q3
      rw [h1, List.map_append, List.map_cons, List.map_nil, eraseDups_concat, if_pos hin']
  · rw [if_neg hin]
    have hin' : r.code ∉ rs.map Rec.code := by rw [h1, List.mem_eraseDups] at hin; exact hin
    have hown := own_nil hin'
    have hmap : (vars ++ [newVar r]).map VarEntry.code = vars.map VarEntry.code ++ [r.code] := by simp [newVar]
    have hidx : ((vars ++ [newVar r]).map VarEntry.code).idxOf r.code = vars.length := by
      rw [hmap, List.idxOf_append_of_notMem hin]
      simp
    rw [hidx]
    have hhead : (own (rs ++ [r]) r.code).head?.map (fun r => (strip r.pds, r.gds, r.pvA, r.pvB)) =
        some ((newVar r).pds, (newVar r).gds, (newVar r).pvA, (newVar r).pvB) := by
      rw [own_concat, if_pos rfl, hown]
      rfl
    obtain ⟨v', q1, q2, q3⟩ := updateVar_ok (junk := junk) (rs := rs) (v := newVar r) (by rw [hown]; rfl) (by rw [hown]; rfl) hhead
      (by intro t ht; simp [newVar] at ht) rfl hroom
    refine ⟨(vars ++ [newVar r]).set vars.length v', ?_, ?_⟩
    · rw [List.getElem?_append_right (Nat.le_refl _), Nat.sub_self]
      show (some (newVar r)).bind _ = _
      rw [Option.bind_some, q1]
      rfl
    · refine set_ok (by simp) ?_ (by simp [newVar]) q2 ?_ ?_ q3
      · rw [hmap, List.nodup_append]
        refine ⟨hnd, by simp, ?_⟩
        intro a ha b hb
        rw [List.mem_singleton] at hb
        rintro rfl
        exact hin (hb ▸ ha)
      · rw [hmap, h1, List.map_append, List.map_cons, List.map_nil, eraseDups_concat, if_neg hin']
      · intro v hv hne
        rw [List.mem_append] at hv
        rcases hv with hv | hv
        · exact h2 v hv
        · rw [List.mem_singleton] at hv
          rw [hv] at hne
          exact absurd rfl hne

theorem own_map_prefix {rs qs : List Rec} {c : List Byte} :
    ((own rs c).map Rec.level).eraseDups.length ≤ ((own (rs ++ qs) c).map Rec.level).eraseDups.length := by
  unfold own
  rw [List.filter_append, List.map_append, List.eraseDups_append, List.length_append]
  omega

/-- the list of the variables of all records -/
theorem fold_ok (junk : ℕ → ℤ) (rs : List Rec) (hroom : ∀ c, ((own rs c).map Rec.level).eraseDups.length ≤ 255) :
    ∃ vars, rs.foldlM (addRecord junk) [] = some vars ∧ ListOk rs vars := by
  induction rs using List.reverseRecOn with
  | nil => exact ⟨[], rfl, ⟨rfl, by simp⟩⟩
  | append_singleton rs r ih =>
    obtain ⟨vars, h1, h2⟩ := ih fun c => Nat.le_trans own_map_prefix (hroom c)
    obtain ⟨vars', h3, h4⟩ := addRecord_ok (junk := junk) h2 (hroom r.code)
    refine ⟨vars', ?_, h4⟩
    rw [List.foldlM_append, h1]
    show (some vars).bind _ = _
    rw [Option.bind_some, List.foldlM_cons, h3]
    rfl

end Grib
end PyGeode
