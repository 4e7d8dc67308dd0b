/- Specification: the files among which a library is searched. -/
import Mathlib.Data.List.Basic

namespace PyGeode.Spec

/-- the kinds of libraries, in the order in which they are preferred -/
def libKinds : List (List Char) := [".so".toList, ".dll".toList, ".dylib".toList]

/-- the file of a library in a directory -/
def libFile (directory name kind : List Char) : List Char := directory ++ "/lib".toList ++ name ++ kind

/-- `f` is the file of the library in the first directory that has one, of the first kind that is there -/
def FirstLibrary (there : List Char → Prop) (directories : List (List Char)) (name f : List Char) : Prop :=
  ∃ earlier d later, directories = earlier ++ d :: later ∧ (∀ c ∈ earlier, ∀ k ∈ libKinds, ¬ there (libFile c name k)) ∧
    ∃ better k worse, libKinds = better ++ k :: worse ∧ f = libFile d name k ∧ there f ∧ ∀ k' ∈ better, ¬ there (libFile d name k')

end PyGeode.Spec
