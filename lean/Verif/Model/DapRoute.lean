/-
Model of how a request to a directory served by OPeNDAP finds its dataset and its kind: `DAPHandler.handle` up to line 181 and
`DAP_Dir.handle`, /repo/pygeode/formats/opendap.py:134-181, 425-479; what the client asks for, lines 717-719, 773-795, 798-805. The names of
a directory are different (a dictionary, here in its order). Not modelled: HTTP, the text of pages, `Dir` of the missing package
`pygeode.server`.
-/
import Verif.Model.OpenDap

namespace PyGeode
namespace DapRoute
open NArr Cf OpenDap

/-- `extensions`, opendap.py:144 -/
def extensions : List Name := [".das".toList, ".dds".toList, ".dods".toList]

/-- `path.rsplit('?', 1)`, opendap.py:147-148: what comes before and after the last question mark -/
def rsplit (s : Name) : Name × Name :=
  if '?' ∈ s then (((s.reverse.dropWhile (· ≠ '?')).drop 1).reverse, (s.reverse.takeWhile (· ≠ '?')).reverse) else (s, [])

/-- the path without the first extension it ends with, and that extension, opendap.py:150-155 -/
def splitExt (path : Name) : Option (Name × Name) :=
  (extensions.find? fun e => decide (e <:+ path)).map fun e => (path.take (path.length - e.length), e)

/-- a request for something of a dataset: kind (without its dot, opendap.py:152), file, arguments -/
structure Req where
  kind : Name
  file : Name
  args : Name
deriving DecidableEq

/-- `DAPHandler.handle`, opendap.py:146-181, up to the answer; `none`: the page for browsers, lines 162-172 -/
def parse (relpath : Name) : Option Req :=
  let (path, args) := rsplit relpath
  (splitExt path).map fun p => ⟨p.2.drop 1, p.1.drop 1, args⟩

/-- an entry of a directory -/
inductive Node where
  | data (d : Data)
  | dir

/-- where a request ends -/
inductive Route where
  | listing
  | node (i : ℕ)
  | defer
deriving DecidableEq

def Node.isDir : Node → Bool
  | .data _ => false
  | .dir => true

/-- an entry takes the request, opendap.py:471-476 -/
def takes (relpath : Name) (p : Name × Node) : Bool :=
  decide ('/' :: p.1 ++ ".dds".toList <+: relpath) || decide ('/' :: p.1 ++ ".das".toList <+: relpath) ||
    decide ('/' :: p.1 ++ ".dods".toList <+: relpath) || (decide (relpath = '/' :: p.1) && !p.2.isDir)

/-- `DAP_Dir.handle`, opendap.py:439-479: the first entry that takes the request, otherwise `Dir.handle`. Paths begin with a slash (line 468
asserts it); here another path is left to `Dir.handle` -/
def route (nodes : List (Name × Node)) (relpath : Name) : Route :=
  if relpath = [] ∨ relpath = ['/'] then .listing
  else match nodes.findIdx? (takes relpath) with
    | some i => .node i
    | none => .defer

/-- the dataset that is asked, and for what; `none` inside: the page for browsers -/
def ask (nodes : List (Name × Node)) (relpath : Name) : Option (Data × Option Req) :=
  match route nodes relpath with
  | .node i => (nodes[i]?).bind fun p => match p.2 with
    | .data d => some (d, parse relpath)
    | .dir => none
  | _ => none

/-- the description sent, opendap.py:403-411; `none`: no description is sent -/
def sentText (nodes : List (Name × Node)) (relpath : Name) : Option Name :=
  (ask nodes relpath).bind fun r => r.2.bind fun q => if q.kind = "dds".toList then dds r.1 q.file q.args else none

/-- the data sent, opendap.py:413-419; `none`: no data are sent -/
def sentData (toDouble : ℤ → ℕ) (limit : ℕ) (nodes : List (Name × Node)) (relpath : Name) : Option (List ℕ) :=
  (ask nodes relpath).bind fun r => r.2.bind fun q => if q.kind = "dods".toList then dods toDouble limit r.1 q.file q.args else none

/-- `open(url)` for `url` = the directory and `name`, opendap.py:798-855, without attributes: it reads url.dds and url.dods?axis -/
def openUrl (toDouble : ℤ → ℕ) (limit : ℕ) (nodes : List (Name × Node)) (name : Name) : Option Opened :=
  (sentText nodes ('/' :: name ++ ".dds".toList)).bind fun text =>
    openDap text fun args => sentData toDouble limit nodes ('/' :: name ++ ".dods".toList ++ '?' :: args)

/-- reading a box of a variable of what `open(url)` gave, opendap.py:717-719 -/
def readUrl (toDouble : ℤ → ℕ) (limit : ℕ) (nodes : List (Name × Node)) (name var : Name) (start count : List ℕ) :
    Option (List ℤ × List ℤ) :=
  getvalues (fun args => sentData toDouble limit nodes ('/' :: name ++ ".dods".toList ++ '?' :: args)) var start count

end DapRoute
end PyGeode
