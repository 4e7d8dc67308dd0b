/-
Model of the C code that reads GRIB files: /repo/pygeode/formats/grib.c:20-983 and grib.h. A file is the list of its bytes.
`none` stands for an exception, an assertion that fails and undefined behaviour (a structure that was not filled, a shift by
32 or more, a read outside of the array of a record). Numbers are exact: `decode_float` and the values of a record are
rational, where the code has `float` and `double`. The Python wrappers (grib.c:996-1156) are not part of the model: they turn
the object they are given into a new capsule and take that for the index.
-/
import Mathlib.Algebra.Order.Field.Rat
import Mathlib.Data.List.Basic
import Mathlib.Data.Nat.Bitwise
import Mathlib.Logic.Function.Basic

namespace PyGeode
namespace Grib

/-- `unsigned char` -/
abbrev Byte := Fin 256

/-- the conversion of an integer to `unsigned char` -/
def byte (n : ℤ) : Byte := ⟨(n % 256).toNat, by omega⟩

/-- `raw[i]` -/
def at' (raw : List Byte) (i : ℕ) : ℕ := (raw.getD i 0).val

/-- `(raw[i]<<8) + raw[i+1]` -/
def two (raw : List Byte) (i : ℕ) : ℕ := at' raw i * 256 + at' raw (i + 1)

/-- `(raw[i]<<16) + (raw[i+1]<<8) + raw[i+2]` -/
def three (raw : List Byte) (i : ℕ) : ℕ := at' raw i * 65536 + at' raw (i + 1) * 256 + at' raw (i + 2)

/-- `fread` of one structure of `n` bytes at position `pos` -/
def fread (f : List Byte) (pos n : ℕ) : Option (List Byte) :=
  if pos + n ≤ f.length then some ((f.drop pos).take n) else none

/-- `decode_float`, grib.c:22-32: the sign, an exponent of 16 that is 64 too large, a fraction of 24 bits -/
def decodeFloat (x : List Byte) : ℚ :=
  let b := three x 1
  let a : ℤ := (at' x 0 % 128 : ℕ) - 64
  let y : ℚ := b * (16 : ℚ) ^ a * (2 : ℚ) ^ (-24 : ℤ)
  if 128 ≤ at' x 0 then -y else y

/-! ### the start of a record -/

/-- one character of `read_head`, grib.c:42-46 -/
def headStep (m : ℕ) (c : Byte) : ℕ :=
  if c.val = 71 then 1
  else if c.val = 82 ∧ m = 1 then m + 1
  else if c.val = 73 ∧ m = 2 then m + 1
  else if c.val = 66 ∧ m = 3 then m + 1
  else 0

/-- the loop of `read_head`, grib.c:40-49: the number of characters read; `none` at the end of the file -/
def headLoop (m : ℕ) : List Byte → Option ℕ
  | [] => none
  | c :: s => if headStep m c = 4 then some 1 else (headLoop (headStep m c) s).map (· + 1)

/-- `read_head`, grib.c:37-51: the position after the letters -/
def readHead (f : List Byte) (pos : ℕ) : Option ℕ := (headLoop 0 (f.drop pos)).map (pos + ·)

/-! ### the sections -/

/-- `PDS`, grib.h:51-75 -/
structure Pds where
  length : ℕ
  table : ℕ
  center : ℕ
  process : ℕ
  grid : ℕ
  flag : ℕ
  param : ℕ
  levelType : ℕ
  level : ℕ
  year : ℕ
  month : ℕ
  day : ℕ
  hour : ℕ
  minute : ℕ
  unit : ℕ
  p1 : ℕ
  p2 : ℕ
  range : ℕ
  inAvg : ℕ
  missing : ℕ
  century : ℕ
  subcenter : ℕ
  /-- an `unsigned short` -/
  scale : ℕ
  deriving DecidableEq

/-- `GDS`, grib.h:98-116 -/
structure Gds where
  length : ℕ
  nv : ℕ
  pvpl : ℕ
  gridType : ℕ
  ni : ℕ
  nj : ℕ
  la1 : ℤ
  lo1 : ℤ
  resFlags : ℕ
  la2 : ℤ
  lo2 : ℤ
  /-- a `signed short` -/
  di : ℤ
  dj : ℤ
  scan : ℕ
  deriving DecidableEq

/-- `read_IS`, grib.c:53-66: 4 bytes, of which only the edition is used (in an assertion). A short read leaves everything
that follows unset. -/
def readIs (f : List Byte) (pos : ℕ) : Option ℕ :=
  (fread f pos 4).bind fun raw => if at' raw 3 = 1 then some (pos + 4) else none

/-- the length of the product section, grib.c:76-80: the first byte is used twice -/
def pdsLength (raw : List Byte) : ℕ :=
  let l := at' raw 0 * 65536 + at' raw 1 * 256 + at' raw 0
  if l = 0 then 28 else l

/-- the decimal scale, grib.c:102-103, kept in an `unsigned short` -/
def pdsScale (raw : List Byte) : ℕ :=
  let s := two raw 26
  if 128 ≤ at' raw 26 then (65536 - (s ^^^ 32768)) % 65536 else s

/-- `decode_PDS`, grib.c:75-117: the errors it returns are not looked at -/
def decodePds (raw : List Byte) : Pds :=
  { length := pdsLength raw
    table := at' raw 3, center := at' raw 4, process := at' raw 5, grid := at' raw 6, flag := at' raw 7
    param := at' raw 8, levelType := at' raw 9, level := two raw 10
    year := at' raw 12, month := at' raw 13, day := at' raw 14, hour := at' raw 15, minute := at' raw 16
    unit := at' raw 17, p1 := at' raw 18, p2 := at' raw 19, range := at' raw 20
    inAvg := two raw 21, missing := at' raw 23, century := at' raw 24, subcenter := at' raw 25
    scale := pdsScale raw }

/-- `encode_PDS`, grib.c:152-185: the scale is never negative -/
def encodePds (p : Pds) : List Byte :=
  [byte (p.length / 65536 : ℕ), byte (p.length / 256 : ℕ), byte p.length, byte p.table, byte p.center, byte p.process,
   byte p.grid, byte p.flag, byte p.param, byte p.levelType, byte (p.level / 256 : ℕ), byte p.level, byte p.year, byte p.month,
   byte p.day, byte p.hour, byte p.minute, byte p.unit, byte p.p1, byte p.p2, byte p.range, byte (p.inAvg / 256 : ℕ),
   byte p.inAvg, byte p.missing, byte p.century, byte p.subcenter, byte (p.scale / 256 : ℕ), byte p.scale]

/-- `if (x & bit23) x = -(x^bit23)`, grib.c:208-211 -/
def sign23 (x : ℕ) : ℤ := if 8388608 ≤ x then -((x ^^^ 8388608 : ℕ) : ℤ) else x

/-- the conversion of an `unsigned short` to a `signed short` -/
def short (x : ℕ) : ℤ := if 32768 ≤ x then (x : ℤ) - 65536 else x

/-- `decode_GDS`, grib.c:193-227: the error it returns is not looked at -/
def decodeGds (raw : List Byte) : Gds :=
  { length := three raw 0, nv := at' raw 3, pvpl := at' raw 4, gridType := at' raw 5
    ni := two raw 6, nj := two raw 8
    la1 := sign23 (three raw 10), lo1 := sign23 (three raw 13), resFlags := at' raw 16
    la2 := sign23 (three raw 17), lo2 := sign23 (three raw 20)
    di := short (two raw 23), dj := short (two raw 25), scan := at' raw 27 }

/-- `if (x < 0) x = (-x) ^ 0x800000`, grib.c:275-278 -/
def unsign23 (x : ℤ) : ℤ := if x < 0 then (((-x).toNat ^^^ 8388608 : ℕ) : ℤ) else x

/-- `encode_GDS`, grib.c:255-301: `>>` rounds down -/
def encodeGds (g : Gds) : List Byte :=
  let la1 := unsign23 g.la1
  let lo1 := unsign23 g.lo1
  let la2 := unsign23 g.la2
  let lo2 := unsign23 g.lo2
  [byte (g.length / 65536 : ℕ), byte (g.length / 256 : ℕ), byte g.length, byte g.nv, byte g.pvpl, byte g.gridType,
   byte (g.ni / 256 : ℕ), byte g.ni, byte (g.nj / 256 : ℕ), byte g.nj,
   byte (la1 / 65536), byte (la1 / 256), byte la1, byte (lo1 / 65536), byte (lo1 / 256), byte lo1, byte g.resFlags,
   byte (la2 / 65536), byte (la2 / 256), byte la2, byte (lo2 / 65536), byte (lo2 / 256), byte lo2,
   byte (g.di / 256), byte g.di, byte (g.dj / 256), byte g.dj, byte g.scan, 0, 0, 0, 0]

/-- `skip_BDS`, grib.c:366-375, at position `pos`: the position after the section; the end of the file if its 11 bytes are
not there. A length of less than 11 goes back. -/
def skipBds (f : List Byte) (pos : ℕ) : ℕ :=
  match fread f pos 11 with
  | some raw => pos + three raw 0
  | none => max pos f.length

/-- `read_EOR`, grib.c:352-361: what it finds is not looked at -/
def skipEor (f : List Byte) (pos : ℕ) : ℕ := if pos + 4 ≤ f.length then pos + 4 else max pos f.length

/-! ### the index -/

/-- a record as seen by `make_index` -/
structure Rec where
  offset : ℕ
  pds : Pds
  gds : Gds
  /-- the bytes of the coordinates of the levels, two lists of `nv/2` numbers -/
  pvA : List Byte
  pvB : List Byte

/-- `Code`, grib.c:388-391 and 461 -/
def Rec.code (r : Rec) : List Byte := [byte r.pds.center, byte r.pds.table, byte r.pds.param, byte r.pds.levelType]

/-- `Time`, grib.c:400-403 and 492-495: 13 bytes, of which the last is never set (0) -/
def Rec.time (r : Rec) : List Byte :=
  [byte r.pds.year, byte r.pds.month, byte r.pds.day, byte r.pds.hour, byte r.pds.minute, byte r.pds.unit, byte r.pds.p1,
   byte r.pds.p2, byte r.pds.range, byte r.pds.inAvg, byte r.pds.missing, byte r.pds.century, 0]

/-- `Level`, grib.c:394-397 and 511 -/
def Rec.level (r : Rec) : List Byte := [byte (r.pds.level / 256 : ℕ), byte r.pds.level]

/-- `TimeLL`, grib.c:419-423 -/
structure TimeEntry where
  time : List Byte
  offset : ℕ → ℤ

/-- `VarLL`, grib.c:426-435 -/
structure VarEntry where
  code : List Byte
  pds : Pds
  gds : Gds
  pvA : List Byte
  pvB : List Byte
  levels : List (List Byte)
  times : List TimeEntry

/-- the parts of the product section that are set to 0, grib.c:475-477 -/
def strip (p : Pds) : Pds :=
  { p with level := 0, year := 0, month := 0, day := 0, hour := 0, minute := 0, unit := 0, p1 := 0, p2 := 0, range := 0
           inAvg := 0, missing := 0, century := 0 }

/-- a new variable, grib.c:465-490 -/
def newVar (r : Rec) : VarEntry :=
  { code := r.code, pds := strip r.pds, gds := r.gds, pvA := r.pvA, pvB := r.pvB, levels := [], times := [] }

/-- a new time, grib.c:497-508: the offsets of the levels known so far are set to 0, the others keep what is in memory -/
def addTime (junk : ℕ → ℤ) (nz : ℕ) (times : List TimeEntry) (t : List Byte) : List TimeEntry :=
  if t ∈ times.map TimeEntry.time then times
  else times ++ [{ time := t, offset := fun i => if i < nz then 0 else junk i }]

/-- a new level, grib.c:512-518 -/
def addLevel (levels : List (List Byte)) (l : List Byte) : List (List Byte) := if l ∈ levels then levels else levels ++ [l]

/-- `t->offset[zi] = offset`, grib.c:521 -/
def setOffset (zi : ℕ) (o : ℤ) (t : TimeEntry) : TimeEntry := { t with offset := Function.update t.offset zi o }

/-- the record in the entry of its variable, grib.c:491-521: there is room for 255 levels -/
def updateVar (junk : ℕ → ℤ) (r : Rec) (v : VarEntry) : Option VarEntry :=
  let times := addTime junk v.levels.length v.times r.time
  let levels := addLevel v.levels r.level
  if levels.length ≤ 255 then
    some { v with levels := levels
                  times := times.modify ((times.map TimeEntry.time).idxOf r.time)
                    (setOffset (levels.idxOf r.level) r.offset) }
  else none

/-- a record in the list of the variables, grib.c:460-521 -/
def addRecord (junk : ℕ → ℤ) (vars : List VarEntry) (r : Rec) : Option (List VarEntry) :=
  let vars := if r.code ∈ vars.map VarEntry.code then vars else vars ++ [newVar r]
  let i := (vars.map VarEntry.code).idxOf r.code
  (vars[i]?).bind fun v => (updateVar junk r v).map fun v' => vars.set i v'

/-- the sections of the record whose letters end at `pos`, grib.c:442-458: the record and the position after it -/
def readRecord (f : List Byte) (pos : ℕ) : Option (Rec × ℕ) :=
  (readIs f pos).bind fun p1 =>
  (fread f p1 28).bind fun rawP =>
  (fread f (p1 + 28) 32).bind fun rawG =>
  let gds := decodeGds rawG
  (fread f (p1 + 60) (4 * (gds.nv / 2))).bind fun a =>
  (fread f (p1 + 60 + 4 * (gds.nv / 2)) (4 * (gds.nv / 2))).bind fun b =>
  some ({ offset := pos - 4, pds := decodePds rawP, gds := gds, pvA := a, pvB := b },
    skipEor f (skipBds f (p1 + 60 + 4 * (gds.nv / 2) + 4 * (gds.nv / 2))))

/-- the loop of `make_index`, grib.c:441-522. Each pass takes at least one byte, so `f.length + 1` passes are enough. -/
def indexLoop (junk : ℕ → ℤ) (f : List Byte) : ℕ → ℕ → List VarEntry → Option (List VarEntry)
  | 0, _, _ => none
  | fuel + 1, pos, vars =>
    match readHead f pos with
    | none => some vars
    | some p => (readRecord f p).bind fun r => (addRecord junk vars r.1).bind fun vars' => indexLoop junk f fuel r.2 vars'

/-- eight bytes of a `long long`, grib.c:585-586 -/
def offsetBytes (o : ℤ) : List Byte :=
  [byte (o / 72057594037927936), byte (o / 281474976710656), byte (o / 1099511627776), byte (o / 4294967296),
   byte (o / 16777216), byte (o / 65536), byte (o / 256), byte o]

/-- the header of a variable in the index, grib.c:554-573 -/
def varHeader (v : VarEntry) : List Byte :=
  v.code ++ encodePds v.pds ++ encodeGds v.gds ++ [byte v.times.length, byte v.levels.length, byte v.gds.nv] ++ v.pvA ++ v.pvB

/-- the levels, times and offsets of a variable in the index, grib.c:575-590 -/
def varBody (v : VarEntry) : List Byte :=
  v.levels.flatten ++ v.times.flatMap fun t => t.time ++ (List.range v.levels.length).flatMap fun i => offsetBytes (t.offset i)

/-- the index file, grib.c:550-590, with its assertions -/
def indexBytes (vars : List VarEntry) : Option (List Byte) :=
  if vars.length < 256 ∧ ∀ v ∈ vars, v.times.length < 256 ∧ v.levels.length < 256 then
    some (byte vars.length :: (vars.flatMap varHeader ++ vars.flatMap varBody))
  else none

/-- `make_index`, grib.c:409-597 -/
def makeIndex (junk : ℕ → ℤ) (f : List Byte) : Option (List Byte) :=
  (indexLoop junk f (f.length + 1) 0 []).bind indexBytes

/-- `Var`, grib.c:600-611 -/
structure IndexVar where
  code : List Byte
  pds : Pds
  gds : Gds
  nt : ℕ
  nz : ℕ
  a : List ℚ
  b : List ℚ
  level : List (List Byte)
  time : List (List Byte)
  offset : List (List ℤ)

/-- the bytes of the next structure and the rest of the file; a short read leaves the structure unset -/
def next (n : ℕ) (s : List Byte) : Option (List Byte × List Byte) :=
  if n ≤ s.length then some (s.take n, s.drop n) else none

/-- `n` structures of `k` bytes -/
def nexts (k : ℕ) : ℕ → List Byte → Option (List (List Byte) × List Byte)
  | 0, s => some ([], s)
  | n + 1, s => (next k s).bind fun p => (nexts k n p.2).map fun q => (p.1 :: q.1, q.2)

/-- `decode_offset`, grib.c:377-384, as a signed number of 64 bits -/
def decodeOffset (o : List Byte) : ℤ :=
  let n := ((((((at' o 0 * 256 + at' o 1) * 256 + at' o 2) * 256 + at' o 3) * 256 + at' o 4) * 256 + at' o 5) * 256
    + at' o 6) * 256 + at' o 7
  if 9223372036854775808 ≤ n then (n : ℤ) - 18446744073709551616 else n

/-- the header of one variable, `read_Index`, grib.c:635-680: `nv` has to be even -/
def readVarHeader (s : List Byte) : Option (IndexVar × List Byte) :=
  (next 4 s).bind fun code =>
  (next 28 code.2).bind fun p =>
  (next 32 p.2).bind fun g =>
  (next 3 g.2).bind fun n =>
  let nv := at' n.1 2
  if nv % 2 = 0 then
    (nexts 4 (nv / 2) n.2).bind fun a =>
    (nexts 4 (nv / 2) a.2).bind fun b =>
    some ({ code := code.1, pds := decodePds p.1, gds := decodeGds g.1, nt := at' n.1 0, nz := at' n.1 1,
            a := a.1.map decodeFloat, b := b.1.map decodeFloat, level := [], time := [], offset := [] }, b.2)
  else none

/-- one time of one variable, `read_Index`, grib.c:714-722 -/
def readTime (nz : ℕ) (s : List Byte) : Option ((List Byte × List ℤ) × List Byte) :=
  (next 13 s).bind fun t =>
  (nexts 8 nz t.2).bind fun o =>
  some ((t.1, o.1.map decodeOffset), o.2)

/-- the times of one variable -/
def readTimes (nz : ℕ) : ℕ → List Byte → Option (List (List Byte × List ℤ) × List Byte)
  | 0, s => some ([], s)
  | n + 1, s => (readTime nz s).bind fun p => (readTimes nz n p.2).map fun q => (p.1 :: q.1, q.2)

/-- the levels and times of one variable, `read_Index`, grib.c:705-728 -/
def readVarBody (v : IndexVar) (s : List Byte) : Option (IndexVar × List Byte) :=
  (nexts 2 v.nz s).bind fun l =>
  (readTimes v.nz v.nt l.2).bind fun t =>
  some ({ v with level := l.1, time := t.1.map Prod.fst, offset := t.1.map Prod.snd }, t.2)

/-- the loop over the headers -/
def readHeaders : ℕ → List Byte → Option (List IndexVar × List Byte)
  | 0, s => some ([], s)
  | n + 1, s => (readVarHeader s).bind fun p => (readHeaders n p.2).map fun q => (p.1 :: q.1, q.2)

/-- the loop over the bodies -/
def readBodies : List IndexVar → List Byte → Option (List IndexVar)
  | [], _ => some []
  | v :: vs, s => (readVarBody v s).bind fun p => (readBodies vs p.2).map fun q => p.1 :: q

/-- `read_Index`, grib.c:621-748 -/
def readIndex (s : List Byte) : Option (List IndexVar) :=
  (next 1 s).bind fun n =>
  (readHeaders (at' n.1 0) n.2).bind fun h =>
  readBodies h.1 h.2

/-! ### what the index says about a variable -/

/-- `get_var_t`, grib.c:826-840 -/
def getTime (v : IndexVar) : List (ℤ × ℕ × ℕ × ℕ × ℕ) :=
  v.time.map fun t => (((at' t 11 : ℤ) - 1) * 100 + at' t 0, at' t 1, at' t 2, at' t 3, at' t 4)

/-- `get_var_z`, grib.c:846-857: the two bytes of every level -/
def getLevels (v : IndexVar) : List (ℕ × ℕ) := v.level.map fun l => (at' l 0, at' l 1)

/-! ### the values of a record -/

/-- one value, grib.c:937-942. `nbits` is a `char`; `packed` is unspecified outside of the section. A shift by a negative
number or by 32 or more is undefined. -/
def unpack (nbits : ℕ) (packed : ℕ → Byte) (i : ℕ) : Option ℕ :=
  if 128 ≤ nbits then none
  else
    let p := i * nbits / 8
    let d := ((packed p).val * 16777216 + (packed (p + 1)).val * 65536 + (packed (p + 2)).val * 256 + (packed (p + 3)).val)
    let leftpad := i * nbits % 8
    let d := d * 2 ^ leftpad % 4294967296 / 2 ^ leftpad
    if 32 < nbits + leftpad ∨ nbits + leftpad = 0 then none
    else some (d / 2 ^ (32 - nbits - leftpad))

/-- `bds->e`, grib.c:315-316 -/
def bdsE (raw : List Byte) : ℤ :=
  let e : ℤ := (at' raw 4 % 128 * 256 + at' raw 5 : ℕ)
  if 128 ≤ at' raw 4 then -e else e

/-- `read_data`, grib.c:904-952, of `size` values from a given position: the flags of the sections are not looked at, the
extra bytes of long sections are not skipped, the exponent of ten is that of an unsigned number -/
def readAt (junk : ℕ → Byte) (f : List Byte) (offset : ℤ) (size : ℕ) : Option (List ℚ) :=
  if offset < 0 then none else
  (readHead f offset.toNat).bind fun p0 =>
  (readIs f p0).bind fun p1 =>
  (fread f p1 28).bind fun rawP =>
  (fread f (p1 + 28) 32).bind fun rawG =>
  let p2 := p1 + 60 + 4 * (decodeGds rawG).nv
  (fread f p2 11).bind fun raw =>
  if three raw 0 < 11 then none else
  let packed := fun i => if i < three raw 0 - 11 then (f[p2 + 11 + i]?).getD (junk i) else junk i
  (List.range size).mapM fun i => (unpack (at' raw 10) packed i).map fun d : ℕ =>
    (decodeFloat (raw.drop 6) + d * (2 : ℚ) ^ bdsE raw) * (10 : ℚ) ^ (-((decodePds rawP).scale : ℤ))

/-- `read_data`, grib.c:895-952: time `t` and level `z` of a variable -/
def readData (junk : ℕ → Byte) (f : List Byte) (v : IndexVar) (t z : ℕ) : Option (List ℚ) :=
  if t < v.nt ∧ z < v.nz then readAt junk f ((v.offset.getD t []).getD z 0) (v.gds.ni * v.gds.nj) else none

/-- the points of one record that are asked for, grib.c:970-975 -/
def pick (ni : ℕ) (record : List ℚ) (ys xs : List ℕ) : Option (List ℚ) :=
  (ys.mapM fun y => xs.mapM fun x => record[y * ni + x]?).map List.flatten

/-- `read_data_loop`, grib.c:956-983 -/
def readDataLoop (junk : ℕ → Byte) (f : List Byte) (v : IndexVar) (ts zs ys xs : List ℕ) : Option (List ℚ) :=
  (ts.mapM fun t => (zs.mapM fun z => (readData junk f v t z).bind fun record => pick v.gds.ni record ys xs).map List.flatten).map
    List.flatten

end Grib
end PyGeode
