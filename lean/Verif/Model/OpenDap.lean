/-
Model of the OPeNDAP server and client: /repo/pygeode/formats/opendap.py and /repo/pygeode/formats/opendap.c. The server describes a dataset (DDS), its attributes (DAS)
and sends numbers (XDR); the client reads these texts and numbers.

Numbers are integers or, for floats, their bits; a byte is a number below 256. Texts are lists of characters, `lower` and `\s` are ASCII. Not
modelled: HTTP (headers, chunks, connections, `urllib.unquote`: names without `%`), errors while data are read (the server sends NaN), the
conversion from and to CF (C91), and that neither side runs on Python 3 (`httplib`, `urllib.unquote`, texts written to binary streams).
-/
import Verif.Model.GetItem
import Verif.Model.Cf

namespace PyGeode
namespace OpenDap
open NArr Cf

/-! ### types -/

/-- names of types in numpy, opendap.py:9-11 -/
inductive Np where
  | uint8 | int8 | uint16 | int16 | uint32 | int32 | uint64 | int64 | float32 | float64 | string8
  deriving DecidableEq, Repr

/-- names of types in OPeNDAP, opendap.py:13-15 -/
inductive Dap where
  | byte | uint16 | int16 | uint32 | int32 | float32 | float64 | string
  deriving DecidableEq, Repr

/-- `np2dap`, opendap.py:9-11 -/
def np2dap : Np → Dap
  | .uint8 => .byte | .int8 => .int16 | .uint16 => .uint16 | .int16 => .int16 | .uint32 => .uint32 | .int32 => .int32
  | .uint64 => .float64 | .int64 => .float64 | .float32 => .float32 | .float64 => .float64 | .string8 => .string

/-- `dap2np`, opendap.py:13-15 -/
def dap2np : Dap → Np
  | .byte => .uint8 | .uint16 => .uint16 | .int16 => .int16 | .uint32 => .uint32 | .int32 => .int32
  | .float32 => .float32 | .float64 => .float64 | .string => .string8

/-- the values of `np2dap`, opendap.py:9-11 -/
def Dap.name : Dap → Name
  | .byte => "Byte".toList | .uint16 => "UInt16".toList | .int16 => "Int16".toList | .uint32 => "UInt32".toList | .int32 => "Int32".toList
  | .float32 => "Float32".toList | .float64 => "Float64".toList | .string => "String".toList

/-- `s.lower()` -/
def lower (s : Name) : Name := s.map Char.toLower

/-- the key of `dap2np` that a text in small letters is, opendap.py:13-15 -/
def dapOf (s : Name) : Option Dap :=
  [Dap.byte, .uint16, .int16, .uint32, .int32, .float32, .float64, .string].find? fun d => decide (lower d.name = s)

/-! ### numbers -/

/-- the four bytes of a number, opendap.c:63-72 and 89-99 -/
def be32 (x : ℕ) : List ℕ := [x / 2 ^ 24 % 256, x / 2 ^ 16 % 256, x / 2 ^ 8 % 256, x % 256]

/-- the eight bytes of a number, opendap.c:101-115 -/
def be64 (x : ℕ) : List ℕ :=
  [x / 2 ^ 56 % 256, x / 2 ^ 48 % 256, x / 2 ^ 40 % 256, x / 2 ^ 32 % 256, x / 2 ^ 24 % 256, x / 2 ^ 16 % 256, x / 2 ^ 8 % 256, x % 256]

/-- `str2int32` and `str2float32`, opendap.c:14-20 and 31-40, with `n = slen/4`, lines 141 and 171: the sums are those of 32-bit numbers -/
def str2int32 (s : List ℕ) : List ℕ := (List.range (s.length / 4)).map fun i =>
  (s.getD (4 * i) 0 * 2 ^ 24 + s.getD (4 * i + 1) 0 * 2 ^ 16 + s.getD (4 * i + 2) 0 * 2 ^ 8 + s.getD (4 * i + 3) 0) % 2 ^ 32

/-- `str2float64`, opendap.c:42-52, with `n = slen/8`, line 186. The assertions of lines 44 and 187, which fail, are off in extension modules. -/
def str2float64 (s : List ℕ) : List ℕ := (List.range (s.length / 8)).map fun i =>
  (s.getD (8 * i) 0 * 2 ^ 56 + s.getD (8 * i + 1) 0 * 2 ^ 48 + s.getD (8 * i + 2) 0 * 2 ^ 40 + s.getD (8 * i + 3) 0 * 2 ^ 32 +
    s.getD (8 * i + 4) 0 * 2 ^ 24 + s.getD (8 * i + 5) 0 * 2 ^ 16 + s.getD (8 * i + 6) 0 * 2 ^ 8 + s.getD (8 * i + 7) 0) % 2 ^ 64

/-- the lowest `n` bits of a number: what numpy keeps of an integer -/
def bits (n : ℕ) (z : ℤ) : ℕ := (z % 2 ^ n).toNat

/-- the number with these 32 bits and a sign -/
def signed32 (x : ℕ) : ℤ := if x < 2 ^ 31 then x else (x : ℤ) - 2 ^ 32

/-- the values of one piece of data as bytes, opendap.py:76-90; `toDouble` gives the bits of the double next to an integer -/
def writeValues (toDouble : ℤ → ℕ) (t : Np) (values : List ℤ) : List ℕ :=
  match np2dap t with
  | .byte | .string => values.map (bits 8)                                                               -- lines 77-81
  | .uint16 | .int16 | .uint32 | .int32 => values.flatMap fun z => be32 (bits 32 z)                      -- lines 82-84
  | .float32 => values.flatMap fun z => be32 (bits 32 z)                                                 -- lines 85-87
  | .float64 => values.flatMap fun z => be64 (if t = .float64 then bits 64 z else toDouble z)            -- lines 88-90

/-! ### what is served -/

/-- an axis -/
structure AxisD where
  name : Name
  type : Np
  values : List ℤ

/-- a variable, or an axis as one; `isAxis`: its values are in memory (`hasattr(var, "values")`), as those of axes always are -/
structure VarD where
  name : Name
  type : Np
  axes : List AxisD
  data : List ℕ → ℤ
  isAxis : Bool

/-- an axis as a variable: its only axis is itself -/
def AxisD.asVar (a : AxisD) : VarD := ⟨a.name, a.type, [a], fun k => a.values.getD (k.headD 0) 0, true⟩

/-- the number of values along each axis -/
def VarD.shape (x : VarD) : List ℕ := x.axes.map fun a => a.values.length

/-- a dataset -/
structure Data where
  axes : List AxisD
  vars : List VarD

/-- `dataset[name]`, dataset.py:42-43 -/
def Data.find (d : Data) (name : Name) : Option VarD :=
  (d.vars.find? fun v => decide (v.name = name)).or ((d.axes.find? fun a => decide (a.name = name)).map AxisD.asVar)

/-- `struct.pack('!2l', n, n)`, opendap.py:53; `none`: the number is too large -/
def packLength (n : ℕ) : Option (List ℕ) := if n < 2 ^ 31 then some (be32 n ++ be32 n) else none

/-- the pieces of a variable, opendap.py:57-72: at most `limit` values, and one place of the first axis at a time -/
def pieces (limit : ℕ) (x : VarD) : List (List (List ℕ)) :=
  if x.isAxis then [x.shape.map List.range]                                                              -- line 58
  else
    let loop := ((⟨x.axes, x.shape.map List.range⟩ : View AxisD).loopMem limit []).map View.inds         -- lines 60-62
    if 2 < x.axes.length then loop.flatMap fun v => (v.headD []).map fun s => v.set 0 [s]                 -- lines 65-70
    else loop

/-- `write_xdr`, opendap.py:48-92 -/
def writeXdr (toDouble : ℤ → ℕ) (limit : ℕ) (x : VarD) : Option (List ℕ) :=
  (packLength x.shape.prod).map fun l =>
    l ++ (pieces limit x).flatMap fun v => writeValues toDouble x.type ((product v).map x.data)

/-! ### requests -/

/-- `fields`, opendap.py:256-262: for each variable its parts (itself and axes) and their slices -/
abbrev Fields := List (Name × List (Name × List PySlice))

/-- `l[k] = v` -/
def setKey {β : Type} (k : Name) (v : β) : List (Name × β) → List (Name × β)
  | [] => [(k, v)]
  | p :: l => if p.1 = k then (k, v) :: l else p :: setKey k v l

/-- `slice(None)` -/
def full : PySlice := ⟨none, none, none⟩

/-- the entry of one part, opendap.py:204-207 and 218-221: `none`: it is there with other slices -/
def addPart (fields : Fields) (var part : Name) (sl : List PySlice) : Option Fields :=
  let x := (fields.lookup var).getD []                                                                   -- lines 192-194
  match x.lookup part with
  | none => some (setKey var (setKey part sl x) fields)
  | some old => if old = sl then some (setKey var (setKey part sl x) fields) else none

/-- `add_axis`, opendap.py:197-207 -/
def addAxis (ds : Data) (fields : Fields) (var axis : Name) (sl : List PySlice) : Option Fields :=
  (ds.find var).bind fun v =>                                                                            -- lines 185-187
    if v.axes.any fun a => decide (a.name = axis) then                                                   -- line 188
      let sl := if sl = [] then [full] else sl                                                           -- line 200
      if sl.length ≠ 1 then none else addPart fields var axis sl                                         -- lines 201-207
    else none

/-- `add_var`, opendap.py:211-225 -/
def addVar (ds : Data) (fields : Fields) (var : Name) (slices : List PySlice) (recurse : Bool) : Option Fields :=
  (ds.find var).bind fun v =>
    let slices := if slices = [] then v.axes.map fun _ => full else slices                               -- line 215
    if slices.length ≠ v.axes.length then none                                                           -- line 216
    else (addPart fields var var slices).bind fun fields =>
      if recurse ∧ ds.vars.any (fun v => decide (v.name = var)) then                                     -- line 223
        (v.axes.zip slices).foldlM (fun f p => addAxis ds f var p.1.name [p.2]) fields
      else some fields

/-- characters of `re.findall('\[[0-9:]+\]', slices)`, opendap.py:282: what stands between the brackets -/
def brackets (n : ℕ) (s : Name) : List Name :=
  match n, s with
  | 0, _ => []
  | _, [] => []
  | n + 1, c :: cs =>
    let run := cs.takeWhile fun c => c.isDigit || c == ':'
    if c = '[' ∧ run ≠ [] ∧ (cs.drop run.length).head? = some ']' then run :: brackets n (cs.drop (run.length + 1)) else brackets n cs

/-- the rest of an integer: digits, single underscores between them -/
def okDigits : Name → Bool
  | [] => false
  | [c] => c.isDigit
  | c :: d :: l => c.isDigit && if d = '_' then okDigits l else okDigits (d :: l)

/-- `int(s)` of a text without blanks; `none`: ValueError -/
def pyInt : Name → Option ℤ
  | '-' :: l => if okDigits l then some (-(Nat.ofDigitChars 10 (l.filter Char.isDigit) 0 : ℤ)) else none
  | '+' :: l => if okDigits l then some (Nat.ofDigitChars 10 (l.filter Char.isDigit) 0 : ℤ) else none
  | l => if okDigits l then some (Nat.ofDigitChars 10 (l.filter Char.isDigit) 0 : ℤ) else none

/-- one slice of a request, opendap.py:284-292 -/
def parseSlice (s : Name) : Option PySlice :=
  ((s.splitOn ':').mapM pyInt).bind fun
    | [a] => some ⟨some a, some (a + 1), none⟩
    | [a, b] => some ⟨some a, some (b + 1), none⟩
    | [a, c, b] => some ⟨some a, some (b + 1), some c⟩
    | _ => none

/-- one part of a request, opendap.py:275-308 -/
def addArg (ds : Data) (fields : Fields) (arg : Name) : Option Fields :=
  let var := arg.takeWhile (· ≠ '[')                                                                     -- lines 278-281
  ((brackets (arg.length + 1) (arg.drop var.length)).mapM parseSlice).bind fun slices =>                  -- lines 282-292
    match var.splitOn '.' with                                                                           -- lines 294-306
    | [var] => addVar ds fields var slices true
    | [var, axis] => if var = axis then addVar ds fields var slices false else addAxis ds fields var axis slices
    | _ => none

/-- `fields`, opendap.py:269-308; `none`: an error is sent -/
def fieldsOf (ds : Data) (args : Name) : Option Fields :=
  if args = [] then ((ds.axes.map AxisD.name) ++ ds.vars.map VarD.name).foldlM (fun f n => addVar ds f n [] true) []
  else (args.splitOn ',').foldlM (addArg ds) []

/-! ### the description of a dataset -/

/-- the axis at the positions of a slice -/
def AxisD.take (a : AxisD) (l : List ℕ) : AxisD := { a with values := l.map fun i => a.values.getD i 0 }

/-- `var._getitem_asvar(sl)`, opendap.py:241 (C99 for slices): the part of the variable -/
def VarD.slice (x : VarD) (sl : List PySlice) : Option VarD :=
  ((x.axes.zip sl).mapM fun p => GetItem.npTake p.1.values.length (.slice p.2)).map fun inds =>
    { x with axes := (x.axes.zip inds).map fun p => p.1.take p.2
             data := fun k => x.data (List.zipWith (fun l i => l.getD i 0) inds k) }

/-- the text of one array, opendap.py:244-252 -/
def entry (x : VarD) : Name :=
  (np2dap x.type).name ++ [' '] ++ x.name ++
    x.axes.flatMap fun a => ['['] ++ a.name ++ " = ".toList ++ fmtInt 0 a.values.length ++ [']']

/-- `make_entry`, opendap.py:233-253: the array it sends -/
def makeEntry (ds : Data) (fields : Fields) (var part : Name) : Option VarD :=
  ((fields.lookup var).bind fun x => x.lookup part).bind fun sl =>
    (ds.find var).bind fun v =>
      if part = var then v.slice sl
      else ((v.axes.find? fun a => decide (a.name = part)).map AxisD.asVar).bind fun a => a.slice sl

/-- one variable of the description, opendap.py:357-382: its text and its arrays -/
def varEntry (ds : Data) (fields : Fields) (v : VarD) : Option (Name × List VarD) :=
  match fields.lookup v.name with
  | none => some ([], [])
  | some x =>
    let maps := v.axes.map AxisD.name
    if (x.lookup v.name).isSome ∧ (∀ a ∈ maps, (x.lookup a).isSome) ∧
        x.lookup v.name = some (maps.map fun a => ((x.lookup a).getD []).headD full) then                 -- lines 362-365
      (makeEntry ds fields v.name v.name).bind fun arr =>
        (maps.mapM fun a => makeEntry ds fields v.name a).map fun ms =>
          ("    Grid {\n".toList ++ "      Array:\n".toList ++ ("        ".toList ++ entry arr ++ ";\n".toList) ++ "      Maps:\n".toList ++
            (ms.flatMap fun m => "        ".toList ++ entry m ++ ";\n".toList) ++ ("    } ".toList ++ v.name ++ ";\n".toList), arr :: ms)
    else
      (((if (x.lookup v.name).isSome then [v.name] else []) ++ maps.filter fun a => (x.lookup a).isSome).mapM
        fun a => makeEntry ds fields v.name a).map fun ms =>
          ("    Structure {\n".toList ++ (ms.flatMap fun m => "        ".toList ++ entry m ++ ";\n".toList) ++
            ("    } ".toList ++ v.name ++ ";\n".toList), ms)

/-- the description of what is asked for, opendap.py:351-383, and the arrays to send -/
def describe (ds : Data) (file : Name) (fields : Fields) : Option (Name × List VarD) :=
  ((ds.axes.filter fun a => (fields.lookup a.name).isSome).mapM fun a => makeEntry ds fields a.name a.name).bind fun axes =>
    (ds.vars.mapM (varEntry ds fields)).map fun vars =>
      ("Dataset {\n".toList ++ (axes.flatMap fun a => "    ".toList ++ entry a ++ ";\n".toList) ++ vars.flatMap Prod.fst ++
        ("} ".toList ++ file ++ ";\n".toList), axes ++ vars.flatMap Prod.snd)

/-- the answer to a request for the description -/
def dds (ds : Data) (file args : Name) : Option Name := (fieldsOf ds args).bind fun f => (describe ds file f).map Prod.fst

/-- the answer to a request for data, opendap.py:413-419: text and bytes in one -/
def dods (toDouble : ℤ → ℕ) (limit : ℕ) (ds : Data) (file args : Name) : Option (List ℕ) :=
  (fieldsOf ds args).bind fun f => (describe ds file f).bind fun r =>
    (r.2.mapM (writeXdr toDouble limit)).map fun xs => (r.1 ++ "Data:\n".toList).map Char.toNat ++ xs.flatten

/-! ### the client: tokens -/

/-- `[a-zA-Z0-9_.+-]`, opendap.py:553 -/
def wordChar (c : Char) : Bool := c.isAlphanum || c == '_' || c == '.' || c == '+' || c == '-'

/-- `;|:|{|}|\[|\]|=`, opendap.py:553 -/
def punct (c : Char) : Bool := decide (c ∈ [';', ':', '{', '}', '[', ']', '='])

/-- `re.findall(pattern, tok)`, opendap.py:553 and 557; other characters are passed over. `n` bounds the number of steps -/
def words (n : ℕ) (s : Name) : List Name :=
  match n, s with
  | 0, _ => []
  | _, [] => []
  | n + 1, c :: cs =>
    if wordChar c then (c :: cs.takeWhile wordChar) :: words n (cs.dropWhile wordChar)
    else if punct c then [c] :: words n cs
    else words n cs

/-- the rest `(?:\\q|[^q])*[^\\]q` of a quoted text, opendap.py:546-547: how many characters match, in the order in which `re` tries -/
def quotedRest (q : Char) : Name → Option ℕ
  | [] => none
  | [_] => none
  | c :: d :: rest =>
    let here := if c ≠ '\\' ∧ d = q then some 2 else none
    ((if c = '\\' ∧ d = q then (quotedRest q rest).map (· + 2) else none).or
      (if c ≠ q then (quotedRest q (d :: rest)).map (· + 1) else none)).or here

/-- a quoted text, opendap.py:546-547, after the character `prev`: how many characters match -/
def quoted (q : Char) (prev : Option Char) : Name → Option ℕ
  | [] => none
  | c :: cs => if (prev.map isSpace).getD false ∧ c = q then (quotedRest q cs).map (· + 1) else none

/-- not a quote: `[^"']`, opendap.py:548 -/
def noQuote (c : Char) : Bool := c ≠ '"' && c ≠ '\''

/-- `re.findall` of quoted texts and of what is between them, opendap.py:549; after an empty match the next character is passed over. `n` bounds
the number of steps -/
def strings (n : ℕ) (prev : Option Char) (s : Name) : List Name :=
  match n, s with
  | 0, _ => []
  | _, [] => [[]]
  | n + 1, c :: cs =>
    let k := ((quoted '"' prev (c :: cs)).or (quoted '\'' prev (c :: cs))).getD ((c :: cs).takeWhile noQuote).length
    if k = 0 then [] :: strings n (some c) cs
    else ((c :: cs).take k) :: strings n ((c :: cs)[k - 1]?) ((c :: cs).drop k)

/-- `tokenize`, opendap.py:543-560; `none`: `tok[0]` of an empty text (line 557) -/
def tokenize (s : Name) : Option (List Name) :=
  (((strings (s.length + 1) none s).dropLast).mapM fun
    | [] => none
    | c :: cs => if noQuote c then some (words (cs.length + 2) (c :: cs)) else some [c :: cs]).map List.flatten

/-! ### the client: descriptions -/

/-- a parser: what it reads and what is left; `none`: an exception -/
abbrev Parser (α : Type) := List Name → Option (α × List Name)

/-- `s.next()`, opendap.py:566-569 -/
def next : Parser Name
  | [] => none
  | t :: ts => some (t, ts)

/-- `s.expect(e)`, opendap.py:571-574 -/
def expect (e : Name) : Parser Unit
  | [] => none
  | t :: ts => if lower t = lower e then some ((), ts) else none

/-- an array without values, opendap.py:578 -/
structure Decl where
  type : Dap
  name : Name
  dims : List (Option Name)
  shape : List ℤ
  deriving DecidableEq

/-- the loop of `parse_array`, opendap.py:588-603; `n` bounds the number of steps -/
def parseDims (n : ℕ) (ts : List Name) : Option ((List (Option Name) × List ℤ) × List Name) :=
  match n with
  | 0 => none
  | n + 1 =>
    (next ts).bind fun r =>
      if r.1 = [';'] then some (([], []), r.2)
      else if r.1 = ['['] then
        (next r.2).bind fun size =>
          match pyInt size.1 with
          | some k => (expect [']'] size.2).bind fun e => (parseDims n e.2).map fun x => ((none :: x.1.1, k :: x.1.2), x.2)
          | none => (expect ['='] size.2).bind fun e => (next e.2).bind fun k => (pyInt k.1).bind fun k' =>
              (expect [']'] k.2).bind fun e => (parseDims n e.2).map fun x => ((some size.1 :: x.1.1, k' :: x.1.2), x.2)
      else none

/-- `parse_array`, opendap.py:577-603 -/
def parseArray : Parser Decl := fun ts =>
  (next ts).bind fun t => (dapOf (lower t.1)).bind fun ty => (next t.2).bind fun nm =>
    (parseDims (ts.length + 1) nm.2).map fun x => (⟨ty, nm.1, x.1.1, x.1.2⟩, x.2)

/-- the maps of a grid, opendap.py:615-622 -/
def parseMaps : List (Option Name × ℤ) → List Name → Option (List Name)
  | [], ts => some ts
  | d :: ds, ts =>
    if d.1 = none then none
    else (parseArray ts).bind fun m => if m.1.dims = [d.1] ∧ m.1.shape = [d.2] then parseMaps ds m.2 else none

/-- `parse_grid`, opendap.py:605-628 -/
def parseGrid : Parser Decl := fun ts =>
  (expect "grid".toList ts).bind fun r => (expect ['{'] r.2).bind fun r => (expect "array".toList r.2).bind fun r => (expect [':'] r.2).bind fun r =>
    (parseArray r.2).bind fun arr => (expect "maps".toList arr.2).bind fun r => (expect [':'] r.2).bind fun r =>
      (parseMaps (arr.1.dims.zip arr.1.shape) r.2).bind fun ts => (expect ['}'] ts).bind fun r => (next r.2).bind fun nm =>
        if nm.1 = arr.1.name then (expect [';'] nm.2).map fun r => (arr.1, r.2) else none

/-- the loop of `parse_dataset`, opendap.py:639-654; `n` bounds the number of steps; at the end of the tokens nothing is returned (lines 655-656) -/
def parseEntries (n : ℕ) (ts : List Name) : Option (List Decl) :=
  match n, ts with
  | 0, _ => none
  | _, [] => none
  | n + 1, t :: ts =>
    if t = ['}'] then some []
    else if (dapOf (lower t)).isSome then (parseArray (t :: ts)).bind fun r => (parseEntries n r.2).map (r.1 :: ·)
    else if lower t = "grid".toList then (parseGrid (t :: ts)).bind fun r => (parseEntries n r.2).map (r.1 :: ·)
    else none

/-- `parse_dataset`, opendap.py:631-656 -/
def parseDataset (ts : List Name) : Option (List Decl) :=
  (expect "dataset".toList ts).bind fun r => (expect ['{'] r.2).bind fun r => parseEntries (r.2.length + 1) r.2

/-! ### the client: data -/

/-- `data.index(lookfor)` -/
def indexOf (pat : List ℕ) : List ℕ → Option ℕ
  | [] => if pat = [] then some 0 else none
  | c :: cs => if pat.isPrefixOf (c :: cs) then some 0 else (indexOf pat cs).map (· + 1)

/-- `struct.unpack('!l', s)` -/
def unpack32 (s : List ℕ) : Option ℤ := if s.length = 4 then ((str2int32 s).head?).map signed32 else none

/-- the numbers in the bytes of an array, opendap.py:756-768: integers with a sign, bits of floats -/
def decode (t : Dap) (xdr : List ℕ) : Option (List ℤ) :=
  match t with
  | .byte | .string => none                                                                              -- lines 756-758, 768
  | .uint16 | .int16 | .uint32 | .int32 => some ((str2int32 xdr).map signed32)                           -- line 761
  | .float32 => some ((str2int32 xdr).map Int.ofNat)                                                     -- line 764
  | .float64 => some ((str2float64 xdr).map Int.ofNat)                                                   -- line 767

/-- `load_array`, opendap.py:722-770, of the bytes of an answer: shape and values (integers with a sign, bits of floats) -/
def loadArray (data : List ℕ) : Option (List ℤ × List ℤ) :=
  (indexOf ("Data:\n".toList.map Char.toNat) data).bind fun i =>                                          -- lines 729-735
    let xdr := data.drop (i + 6)                                                                         -- line 736
    ((tokenize ((data.take i).map Char.ofNat)).bind parseDataset).bind fun
      | [d] =>                                                                                           -- lines 737-742
        let size := d.shape.prod                                                                         -- line 746
        if size ≤ 0 then none
        else (unpack32 (xdr.take 4)).bind fun l1 => (unpack32 ((xdr.drop 4).take 4)).bind fun l2 =>       -- line 749
          if l1 ≠ l2 ∨ l1 ≠ size then none                                                               -- lines 750-751
          else
            let xdr := xdr.drop 8
            (decode d.type xdr).bind fun arr => if size.toNat ≤ arr.length then some (d.shape, arr.take size.toNat) else none   -- line 770
      | _ => none

/-- what the client asks for, opendap.py:718-719 -/
def request (name : Name) (start count : List ℕ) : Name :=
  name ++ (start.zip count).flatMap fun p => ['['] ++ fmtInt 0 p.1 ++ [':'] ++ fmtInt 0 ((p.1 : ℤ) + p.2 - 1) ++ [']']

/-- `OpenDAP_Var.getvalues`, opendap.py:717-719, `server` answers requests for data -/
def getvalues (server : Name → Option (List ℕ)) (name : Name) (start count : List ℕ) : Option (List ℤ × List ℤ) :=
  (server (request name start count)).bind loadArray

/-- an opened dataset: axes with their values, variables with their types and the names of their axes -/
structure Opened where
  axes : List (Name × List ℤ)
  vars : List (Name × Np × List Name)
  deriving DecidableEq

/-- names and lengths of the dimensions, each once, opendap.py:816-824 -/
def axisNames (l : List Decl) : Option (List Name) :=
  (l.flatMap Decl.dims).foldlM (fun acc d => d.map fun n => if n ∈ acc then acc else acc ++ [n]) []

/-- `open`, opendap.py:798-873, without attributes; `text` is the description, `server` answers requests for data -/
def openDap (text : Name) (server : Name → Option (List ℕ)) : Option Opened :=
  ((tokenize text).bind parseDataset).bind fun l => (axisNames l).bind fun names =>                       -- lines 806-824
    (names.mapM fun n => (server n).bind fun b => (loadArray b).map fun r => (n, r.2)).map fun axes =>    -- lines 826-846
      { axes := axes
        vars := (l.filter fun d => decide (d.name ∉ names)).map fun d =>                                 -- lines 849-855
          (d.name, dap2np d.type, d.dims.flatMap fun n => (axes.filter fun a => decide (some a.1 = n)).map Prod.fst) }

/-! ### attributes -/

/-- a value of an attribute: a text, or numbers (floats are their bits); `array`: an array of one dimension, otherwise one number -/
inductive AttValue where
  | text (s : Name)
  | numbers (t : Np) (array : Bool) (l : List ℤ)

/-- `value.replace(c1, c2)` -/
def replace (c1 : Char) (c2 s : Name) : Name := s.flatMap fun c => if c = c1 then c2 else [c]

/-- the text between quotes, opendap.py:325-326 -/
def escape (s : Name) : Name :=
  replace '\t' ['\\', 't'] (replace '\'' ['\\', '\''] (replace '"' ['\\', '"'] (replace '\n' ['\\', 'n'] (replace '\\' ['\\', '\\'] s))))

/-- `str(v)` of a number; `strF` for floats -/
def strNum (strF : ℤ → Name) (t : Np) (z : ℤ) : Name := if t = .float32 ∨ t = .float64 then strF z else fmtInt 0 z

/-- one attribute, opendap.py:319-340 -/
def attText (strF : ℤ → Name) (name : Name) : AttValue → Name
  | .text s => "        String ".toList ++ name ++ " \"".toList ++ escape s ++ "\";\n".toList                  -- line 327
  | .numbers t false l => "        ".toList ++ (np2dap t).name ++ [' '] ++ name ++ [' '] ++ l.flatMap (strNum strF t) ++ [';']   -- line 338
  | .numbers t true l => (np2dap t).name ++ [' '] ++ name ++ [' '] ++ ", ".toList.intercalate (l.map (strNum strF t)) ++ [';']  -- line 340

/-- the answer to a request for attributes, opendap.py:314-347: of axes, variables and the dataset (`NC_GLOBAL`) -/
def das (strF : ℤ → Name) (l : List (Name × List (Name × AttValue))) : Name :=
  "Attributes {\n".toList ++ (l.flatMap fun v => "    ".toList ++ v.1 ++ " {\n".toList ++ v.2.flatMap (fun a => attText strF a.1 a.2) ++ "    }\n".toList) ++
    "}\n".toList

/-- `re.sub(r'(?<=[^\\])\\q', r, x)` for two characters, opendap.py:680-683, after the character `prev` -/
def subEscape (q r : Char) (prev : Option Char) : Name → Name
  | '\\' :: d :: s => if d = q ∧ (prev.map fun p => decide (p ≠ '\\')).getD false = true then r :: subEscape q r (some d) s else '\\' :: subEscape q r (some '\\') (d :: s)
  | c :: s => c :: subEscape q r (some c) s
  | [] => []

/-- `re.sub(r'\\\\', r'\\', x)`, opendap.py:684 -/
def subBackslash : Name → Name
  | '\\' :: '\\' :: s => '\\' :: subBackslash s
  | c :: s => c :: subBackslash s
  | [] => []

/-- a text as the client reads it, opendap.py:680-685 -/
def unescape (x : Name) : Name :=
  ((subBackslash (subEscape '\'' '\'' none (subEscape '"' '"' none (subEscape 't' '\t' none (subEscape 'n' '\n' none x))))).drop 1).dropLast

/-- a value as the client reads it -/
inductive Got where
  | text (s : Name)
  | int (z : ℤ)
  | float (z : ℤ)
  deriving DecidableEq

/-- one value, opendap.py:678-688; `float` reads a float -/
def readValue (float : Name → Option ℤ) (daptype x : Name) : Option Got :=
  if daptype = "string".toList then some (.text (unescape x))
  else if daptype = "int16".toList ∨ daptype = "uint16".toList ∨ daptype = "int32".toList ∨ daptype = "uint32".toList then (pyInt x).map .int
  else if daptype = "float32".toList ∨ daptype = "float64".toList then (float x).map .float
  else none

/-- the values of an attribute, opendap.py:675-689; `n` bounds the number of steps -/
def readValues (float : Name → Option ℤ) (daptype : Name) (n : ℕ) (ts : List Name) : Option (List Got × List Name) :=
  match n, ts with
  | 0, _ => none
  | _, [] => none
  | n + 1, t :: ts =>
    if t = [';'] then some ([], t :: ts)
    else (readValue float daptype t).bind fun v => (readValues float daptype n ts).map fun r => (v :: r.1, r.2)

/-- the attributes of a variable, opendap.py:670-694; one value is not a list (line 692): a list of one -/
def readAtts (float : Name → Option ℤ) (n : ℕ) (ts : List Name) : Option (List (Name × List Got) × List Name) :=
  match n, ts with
  | 0, _ => none
  | _, [] => none
  | n + 1, t :: ts =>
    if t = ['}'] then some ([], t :: ts)
    else (next ts).bind fun nm => (readValues float (lower t) (nm.2.length + 1) nm.2).bind fun vs =>
      if vs.1 = [] then none                                                                             -- line 691
      else (expect [';'] vs.2).bind fun r => (readAtts float n r.2).map fun l => ((nm.1, vs.1) :: l.1, l.2)

/-- the variables, opendap.py:664-695 -/
def readVars (float : Name → Option ℤ) (n : ℕ) (ts : List Name) : Option (List (Name × List (Name × List Got)) × List Name) :=
  match n, ts with
  | 0, _ => none
  | _, [] => none
  | n + 1, t :: ts =>
    if t = ['}'] then some ([], t :: ts)
    else (expect ['{'] ts).bind fun r => (readAtts float (r.2.length + 1) r.2).bind fun a =>
      (expect ['}'] a.2).bind fun r => (readVars float n r.2).map fun l => ((t, a.1) :: l.1, l.2)

/-- `parse_attributes`, opendap.py:658-697 -/
def parseAttributes (float : Name → Option ℤ) (ts : List Name) : Option (List (Name × List (Name × List Got))) :=
  (expect "attributes".toList ts).bind fun r => (expect ['{'] r.2).bind fun r => (readVars float (r.2.length + 1) r.2).bind fun l =>
    (expect ['}'] l.2).map fun _ => l.1

end OpenDap
end PyGeode
