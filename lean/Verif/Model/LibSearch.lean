/-
Model of the search for libraries: `get_library_paths`, `find_library`, /repo/pygeode/libhelper.py:3-50. `glob` gives the files that a path
with wildcards stands for, `system` is `ctypes.util.find_library`. Not modelled: loading (lines 63-75, `dlopen`).
-/
import Verif.Model.Cf

namespace PyGeode
namespace LibSearch
open Cf

/-- `os.path.join(a, b)` of POSIX -/
def join (a b : Name) : Name :=
  if b.head? = some '/' then b else if a = [] ∨ a.getLast? = some '/' then a ++ b else a ++ '/' :: b

/-- `get_library_paths()`, libhelper.py:3-19; `own` are the directories of the package, `ld` is LD_LIBRARY_PATH -/
def libraryPaths (own : List Name) (pre : Name) (ld : Option Name) : List Name :=
  own ++ [join (join (join "/".toList pre) "lib".toList) "pygeode".toList, join (join "/".toList pre) "lib".toList,
    "/usr/lib/pygeode".toList, "/usr/local/lib/pygeode".toList] ++ (ld.getD []).splitOn ':'

/-- `exts`, libhelper.py:36 -/
def exts : List Name := [".so".toList, ".dll".toList, ".dylib".toList]

/-- `dir, name`, libhelper.py:31-34 -/
def splitName (name : Name) : Name × Name :=
  if '/' ∈ name then (((name.reverse.dropWhile (· ≠ '/')).drop 1).reverse, (name.reverse.takeWhile (· ≠ '/')).reverse) else ([], name)

/-- `find_library(name)`, libhelper.py:23-50 -/
def findLibrary (glob : Name → List Name) (system : Name → Option Name) (paths : List Name) (name : Name) : Option Name :=
  let (dir, base) := splitName name
  (paths.findSome? fun p => exts.findSome? fun e => (glob (join (join p dir) ("lib".toList ++ base ++ e))).head?).or (system base)

end LibSearch
end PyGeode
