/- Specification: a directory whose requests are not ambiguous. -/
import Mathlib.Data.List.Basic

namespace PyGeode.Spec

/-- the three kinds of requests -/
def IsDapExt (e : List Char) : Prop := e = ".das".toList ∨ e = ".dds".toList ∨ e = ".dods".toList

/-- the names are different, none has a question mark, and none begins with another name followed by the extension of a request -/
structure Unambiguous (names : List (List Char)) : Prop where
  nodup : names.Nodup
  noQuery : ∀ n ∈ names, '?' ∉ n
  free : ∀ n ∈ names, ∀ n' ∈ names, ∀ e, IsDapExt e → ¬ n' ++ e <+: n

end PyGeode.Spec
