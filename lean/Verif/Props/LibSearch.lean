/-
Property C148: which library is loaded.
-/
import Verif.Model.LibSearch
import Verif.Spec.LibSearch

namespace PyGeode
namespace LibSearch
open Cf Spec

/-- a directory as a search path names it -/
def Directory (p : Name) : Prop := p ≠ [] ∧ p.getLast? ≠ some '/'

theorem splitName_plain {n : Name} (h : '/' ∉ n) : splitName n = ([], n) := by unfold splitName; rw [if_neg h]

theorem splitName_dir (d b : Name) (h : '/' ∉ b) : splitName (d ++ '/' :: b) = (d, b) := by
  have e : (d ++ '/' :: b).reverse = b.reverse ++ '/' :: d.reverse := by simp
  have hb : ∀ c ∈ b.reverse, (decide (c ≠ '/')) = true := by
    intro c hc
    rw [List.mem_reverse] at hc
    rw [decide_eq_true_eq]
    rintro rfl
    exact h hc
  unfold splitName
  rw [if_pos (by simp), e, List.dropWhile_append_of_pos hb, List.takeWhile_append_of_pos hb]
  simp

/-- the file looked for in a directory -/
theorem candidate (p n e : Name) (hp : Directory p) : join (join p []) ("lib".toList ++ n ++ e) = libFile p n e := by
  have h1 : join p [] = p ++ ['/'] := by
    unfold join
    rw [if_neg (by simp), if_neg (by rintro (h | h); exacts [hp.1 h, hp.2 h])]
  rw [h1]
  unfold join libFile
  rw [if_neg (by simp), if_pos (.inr (by simp))]
  simp

/-- where `glob` finds a path without wildcards -/
def globOf (there : Name → Prop) [DecidablePred there] (c : Name) : List Name := if there c then [c] else []

theorem head_globOf (there : Name → Prop) [DecidablePred there] (c f : Name) : (globOf there c).head? = some f ↔ c = f ∧ there c := by
  unfold globOf
  split_ifs with h <;> simp [h]

theorem head_globOf_none (there : Name → Prop) [DecidablePred there] (c : Name) : (globOf there c).head? = none ↔ ¬ there c := by
  unfold globOf
  split_ifs with h <;> simp [h]

/-- C148: the library found is the one in the first directory that has it, of the first kind there; otherwise the one of the system -/
theorem findLibrary_correct (there : Name → Prop) [DecidablePred there] (system : Name → Option Name) (paths : List Name)
    (hp : ∀ p ∈ paths, Directory p) (name : Name) (hn : '/' ∉ name) (f : Name) :
    findLibrary (globOf there) system paths name = some f ↔
      FirstLibrary there paths name f ∨ (∀ p ∈ paths, ∀ k ∈ libKinds, ¬ there (libFile p name k)) ∧ system name = some f := by
  have hin : ∀ p ∈ paths, (exts.findSome? fun e => (globOf there (join (join p []) ("lib".toList ++ name ++ e))).head?) =
      libKinds.findSome? fun e => (globOf there (libFile p name e)).head? := by
    intro p hm
    have : exts = libKinds := rfl
    rw [this]
    congr 1
    funext e
    rw [candidate p name e (hp p hm)]
  have hnone : ∀ p, (libKinds.findSome? fun e => (globOf there (libFile p name e)).head?) = none ↔
      ∀ k ∈ libKinds, ¬ there (libFile p name k) := by
    intro p
    rw [List.findSome?_eq_none_iff]
    simp only [head_globOf_none]
  have hsome : (paths.findSome? fun p => exts.findSome? fun e => (globOf there (join (join p []) ("lib".toList ++ name ++ e))).head?) = some f ↔
      FirstLibrary there paths name f := by
    rw [List.findSome?_eq_some_iff]
    unfold FirstLibrary
    constructor
    · rintro ⟨l, p, r, hl, h1, h2⟩
      have hpm : p ∈ paths := hl ▸ by simp
      refine ⟨l, p, r, hl, fun c hc => ?_, ?_⟩
      · rw [← hnone, ← hin c (hl ▸ by simp [hc])]
        exact h2 c hc
      · rw [hin p hpm, List.findSome?_eq_some_iff] at h1
        obtain ⟨a, k, b, hk, h3, h4⟩ := h1
        rw [head_globOf] at h3
        exact ⟨a, k, b, hk, h3.1.symm, h3.1 ▸ h3.2, fun k' hk' => (head_globOf_none _ _).mp (h4 k' hk')⟩
    · rintro ⟨l, p, r, hl, h1, a, k, b, hk, rfl, h3, h4⟩
      have hpm : p ∈ paths := hl ▸ by simp
      refine ⟨l, p, r, hl, ?_, fun c hc => ?_⟩
      · rw [hin p hpm, List.findSome?_eq_some_iff]
        exact ⟨a, k, b, hk, (head_globOf _ _ _).mpr ⟨rfl, h3⟩, fun k' hk' => (head_globOf_none _ _).mpr (h4 k' hk')⟩
      · rw [hin c (hl ▸ by simp [hc]), hnone]
        exact h1 c hc
  have hzero : (paths.findSome? fun p => exts.findSome? fun e => (globOf there (join (join p []) ("lib".toList ++ name ++ e))).head?) = none ↔
      ∀ p ∈ paths, ∀ k ∈ libKinds, ¬ there (libFile p name k) := by
    rw [List.findSome?_eq_none_iff]
    refine forall₂_congr fun p hm => ?_
    rw [hin p hm, hnone]
  unfold findLibrary
  rw [splitName_plain hn]
  change ((paths.findSome? fun p => exts.findSome? fun e => (globOf there (join (join p []) ("lib".toList ++ name ++ e))).head?).or
    (system name)) = some f ↔ _
  rw [Option.or_eq_some_iff, hsome, hzero]

/-- C148: a library in the directory of the package is taken, whatever else is installed -/
theorem own_first (there : Name → Prop) [DecidablePred there] (system : Name → Option Name) (own pre : Name) (ld : Option Name)
    (hp : ∀ p ∈ libraryPaths [own] pre ld, Directory p) (name : Name) (hn : '/' ∉ name) (h : there (libFile own name ".so".toList)) :
    findLibrary (globOf there) system (libraryPaths [own] pre ld) name = some (libFile own name ".so".toList) := by
  rw [findLibrary_correct there system _ hp name hn]
  left
  exact ⟨[], own, _, rfl, by simp, [], ".so".toList, _, rfl, rfl, h, by simp⟩

/-- C148: a name with an absolute directory is looked for there only (and then in the system), whatever the search path -/
theorem absolute (glob : Name → List Name) (system : Name → Option Name) (paths : List Name) (hne : paths ≠ []) (d base : Name)
    (hd : d.head? = some '/') (hb : '/' ∉ base) :
    findLibrary glob system paths (d ++ '/' :: base) =
      (exts.findSome? fun e => (glob (join d ("lib".toList ++ base ++ e))).head?).or (system base) := by
  have hj : ∀ p, join p d = d := fun p => by unfold join; rw [if_pos hd]
  unfold findLibrary
  rw [splitName_dir d base hb]
  simp only [hj]
  congr 1
  obtain ⟨p, ps, rfl⟩ := List.exists_cons_of_ne_nil hne
  rw [List.findSome?_cons]
  generalize hv : (exts.findSome? fun e => (glob (join d ("lib".toList ++ base ++ e))).head?) = v
  cases v with
  | some x => rfl
  | none =>
    simp only []
    rw [List.findSome?_eq_none_iff]
    intro _ _
    rfl

/-! ### a search, and where it fails -/

/-- the files of a computer -/
def exThere (f : Name) : Bool := decide (f ∈ ["/usr/lib/pygeode/libnetcdf.dylib".toList, "/opt/lib/libnetcdf.dll".toList, "/opt/lib/libnetcdf.dylib".toList])

example : findLibrary (globOf fun f => exThere f = true) (fun _ => none) (libraryPaths ["/home/pygeode".toList] "/opt".toList (some "/x".toList))
    "netcdf".toList = some "/opt/lib/libnetcdf.dll".toList := by
  rw [findLibrary_correct _ _ _ (by unfold Directory; decide) _ (by decide)]
  left
  exact ⟨["/home/pygeode".toList, "/opt/lib/pygeode".toList], "/opt/lib".toList, _, rfl, by decide, [".so".toList], ".dll".toList, _, rfl, by decide,
    by decide, by decide⟩

/-- C148 fails if LD_LIBRARY_PATH is not set (or has an empty part): then a file in the working directory is found before those of the
system. `dlopen` gets its name without a directory, and looks for that name elsewhere -/
theorem working_directory_violated : '/' ∉ "netcdf".toList ∧ libraryPaths ["/home/pygeode".toList] "/usr".toList none =
      ["/home/pygeode".toList, "/usr/lib/pygeode".toList, "/usr/lib".toList, "/usr/lib/pygeode".toList, "/usr/local/lib/pygeode".toList, []] ∧
    findLibrary (globOf fun f => f = "libnetcdf.so".toList) (fun _ => some "libnetcdf.so.19".toList)
      (libraryPaths ["/home/pygeode".toList] "/usr".toList none) "netcdf".toList = some "libnetcdf.so".toList := by
  refine ⟨by decide, by decide, by decide⟩

/-- C148 fails for a library in the root directory: it is looked for in the search path instead -/
theorem root_violated : findLibrary (globOf fun f => f = "/libx.so".toList) (fun _ => none) ["/usr/lib".toList] "/x".toList = none := by
  decide

end LibSearch
end PyGeode
