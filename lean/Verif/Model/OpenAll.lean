/-
Model of `openall`, /repo/pygeode/formats/multifile.py:6-98: the files that match some patterns are opened one by one and their datasets joined.

Not modelled: the choice of the format (C97) and of its `open`; here `opener` gives the dataset of a file.
-/
import Verif.Model.DatasetOps

namespace PyGeode
namespace OpenAll
open DatasetOps Combine Dataset

variable {α : Type}

/-- `expand_file_list(file_list, sort)`, multifile.py:6-15; `glob` gives the names that match a pattern, in the order of the directory;
`none`: AssertionError; a text is a list of one -/
def expandFileList (glob : Name → List Name) (exist : Name → Bool) (fileList : List Name) (sort : Bool) : Option (List Name) :=
  let files := fileList.flatMap glob                                                                     -- line 11
  if files = [] then none                                                                                -- line 12
  else if files.any fun f => !exist f then none                                                          -- line 13
  else some (if sort then files.insertionSort (· ≤ ·) else files)                                        -- line 14

/-- the order of `var.sorted()` without arguments, varoperations.py:265-268, and of `axis.argsort(None)`, axis.py:325-330: all axes in their
natural order; `down`: `plotorder` of
the class is -1 -/
def natural (down : List Name → Bool) (axes : List Axis) (i : ℕ) : Option Bool := (axes[i]?).map fun a => down a.classes

/-- `dataset.sorted()`, dataset.py:728-748: `Var.sorted` of each variable -/
def sortedData (nr : List ℚ → ℚ) (junk : List ℕ → α) (down : List Name → Bool) (d : Data α) : Option (Data α) :=
  DatasetOps.map nr junk (fun x => some (some ⟨x.name, VarOps.sortedVar nr junk x.var (natural down x.var.axes)⟩)) d

/-- `openall(files, opener=opener, sorted=sort)`, multifile.py:76-98; the outer `none` of `opener` is an exception, the inner one None -/
def openAll (nr : List ℚ → ℚ) (junk : List ℕ → α) (new : ℕ → Axis) (down : List Name → Bool) (glob : Name → List Name) (exist : Name → Bool)
    (opener : Name → Option (Option (Data α))) (fileList : List Name) (sort : Bool) : Option (Data α) :=
  (expandFileList glob exist fileList sort).bind fun files =>
    (files.mapM opener).bind fun datasets =>                                                             -- line 94
      (DatasetOps.concat nr junk new (datasets.filterMap id)).bind fun ds =>                             -- line 96
        if sort then sortedData nr junk down ds else some ds                                             -- lines 97-98

end OpenAll
end PyGeode
