/-
What a GRIB file is (edition 1, WMO FM 92): records with arbitrary bytes between them, each record made of an indicator, a
product, a grid and a data section and the four characters 7777. Nothing here mentions how pygeode reads it.
-/
import Mathlib.Algebra.Order.Field.Rat
import Mathlib.Data.List.Basic
import Mathlib.Algebra.BigOperators.Group.Finset.Basic

namespace PyGeode.Spec

/-- a byte of a file -/
abbrev Octet := Fin 256

/-- a number in `k` bytes, most significant first -/
def bigEndian : ℕ → ℕ → List Octet
  | 0, _ => []
  | k + 1, n => Fin.ofNat 256 (n / 256 ^ k) :: bigEndian k n

/-- a number in `k` bytes whose first bit is the sign -/
def signMagnitude (k : ℕ) (z : ℤ) : List Octet :=
  bigEndian k (z.natAbs + if z < 0 then 256 ^ k / 2 else 0)

/-- a real number in a GRIB file: a fraction of 24 bits times a power of 16 -/
structure GribReal where
  negative : Bool
  exponent : ℕ
  fraction : ℕ

/-- its four bytes -/
def GribReal.bytes (x : GribReal) : List Octet :=
  Fin.ofNat 256 (x.exponent + if x.negative then 128 else 0) :: bigEndian 3 x.fraction

/-- its value -/
def GribReal.value (x : GribReal) : ℚ :=
  (if x.negative then -1 else 1) * (x.fraction / 2 ^ 24) * (16 : ℚ) ^ ((x.exponent : ℤ) - 64)

/-- a bit of a sequence of bytes, most significant first -/
def bitAt (data : List Octet) (k : ℕ) : ℕ := (data.getD (k / 8) 0).val / 2 ^ (7 - k % 8) % 2

/-- the number made of `n` bits from bit `start` on -/
def bitField (data : List Octet) (start n : ℕ) : ℕ := ∑ j ∈ Finset.range n, bitAt data (start + j) * 2 ^ (n - 1 - j)

/-- a record -/
structure GribRecord where
  table : Octet
  center : Octet
  process : Octet
  grid : Octet
  sections : Octet
  param : Octet
  levelType : Octet
  level : ℕ
  yearOfCentury : Octet
  month : Octet
  day : Octet
  hour : Octet
  minute : Octet
  timeUnit : Octet
  p1 : Octet
  p2 : Octet
  timeRange : Octet
  inAverage : ℕ
  missing : Octet
  century : Octet
  subcenter : Octet
  /-- the values are divided by ten to this power -/
  decimal : ℤ
  pvpl : Octet
  gridType : Octet
  /-- the number of points along a latitude circle and along a meridian -/
  ni : ℕ
  nj : ℕ
  /-- the first and the last point, in thousandths of a degree -/
  la1 : ℤ
  lo1 : ℤ
  resolution : Octet
  la2 : ℤ
  lo2 : ℤ
  di : ℕ
  dj : ℕ
  scanning : Octet
  /-- the parameters of the vertical coordinate -/
  coords : List GribReal
  dataFlags : Octet
  /-- the values are multiplied by two to this power -/
  binary : ℤ
  reference : GribReal
  /-- the number of bits of a value -/
  width : ℕ
  /-- the values, packed without gaps -/
  data : List Octet

namespace GribRecord
variable (m : GribRecord)

/-- the product section -/
def product : List Octet :=
  bigEndian 3 28 ++ [m.table, m.center, m.process, m.grid, m.sections, m.param, m.levelType] ++ bigEndian 2 m.level ++
  [m.yearOfCentury, m.month, m.day, m.hour, m.minute, m.timeUnit, m.p1, m.p2, m.timeRange] ++ bigEndian 2 m.inAverage ++
  [m.missing, m.century, m.subcenter] ++ signMagnitude 2 m.decimal

/-- the grid section of a latitude/longitude or Gaussian grid -/
def gridSection : List Octet :=
  bigEndian 3 (32 + 4 * m.coords.length) ++ [Fin.ofNat 256 m.coords.length, m.pvpl, m.gridType] ++
  bigEndian 2 m.ni ++ bigEndian 2 m.nj ++ signMagnitude 3 m.la1 ++ signMagnitude 3 m.lo1 ++ [m.resolution] ++
  signMagnitude 3 m.la2 ++ signMagnitude 3 m.lo2 ++ bigEndian 2 m.di ++ bigEndian 2 m.dj ++ [m.scanning, 0, 0, 0, 0]

/-- the data section -/
def dataSection : List Octet :=
  bigEndian 3 (11 + m.data.length) ++ [m.dataFlags] ++ signMagnitude 2 m.binary ++ m.reference.bytes ++
  [Fin.ofNat 256 m.width] ++ m.data

/-- the bytes of a record: GRIB, its length, the edition, the sections, 7777 -/
def bytes : List Octet :=
  [71, 82, 73, 66] ++ bigEndian 3 (8 + 28 + 32 + 4 * m.coords.length + 11 + m.data.length + 4) ++ [1] ++ m.product ++
  m.gridSection ++ m.coords.flatMap GribReal.bytes ++ m.dataSection ++ [55, 55, 55, 55]

/-- the `i`-th value of the record -/
def value (i : ℕ) : ℚ :=
  (m.reference.value + bitField m.data (i * m.width) m.width * (2 : ℚ) ^ m.binary) / (10 : ℚ) ^ m.decimal

/-- every number fits into its bytes, and there is a value for every point -/
structure Fits : Prop where
  level : m.level < 65536
  inAverage : m.inAverage < 65536
  decimal : m.decimal.natAbs < 32768
  ni : m.ni < 65536
  nj : m.nj < 65536
  la1 : m.la1.natAbs < 8388608
  lo1 : m.lo1.natAbs < 8388608
  la2 : m.la2.natAbs < 8388608
  lo2 : m.lo2.natAbs < 8388608
  di : m.di < 65536
  dj : m.dj < 65536
  coords : m.coords.length < 256
  real : ∀ x ∈ m.reference :: m.coords, x.exponent < 128 ∧ x.fraction < 16777216
  binary : m.binary.natAbs < 32768
  width : m.width < 256
  size : 11 + m.data.length < 16777216
  points : m.ni * m.nj * m.width ≤ 8 * m.data.length

/-- a record whose values can be read -/
structure Readable : Prop where
  fits : m.Fits
  /-- the decimal scale is not negative -/
  decimal : 0 ≤ m.decimal
  /-- the number of bits is one of these -/
  width : 0 < m.width ∧ (m.width ≤ 26 ∨ m.width = 28 ∨ m.width = 32)

/-- a record that can be listed in an index -/
structure Listable : Prop where
  fits : m.Fits
  /-- two parameters of the vertical coordinate for every level -/
  coords : m.coords.length % 2 = 0
  inAverage : m.inAverage < 256

/-- what a record is about: the variable and the kind of level -/
def kind : List Octet := [m.center, m.table, m.param, m.levelType]

/-- the time a record is for: date, forecast period and averaging -/
def when : List ℕ :=
  [m.yearOfCentury, m.month, m.day, m.hour, m.minute, m.timeUnit, m.p1, m.p2, m.timeRange, m.inAverage, m.missing, m.century]

/-- year, month, day, hour and minute of the time of reference: century 20 and year 100 is 2000 -/
def date : ℤ × ℕ × ℕ × ℕ × ℕ :=
  (((m.century.val : ℤ) - 1) * 100 + m.yearOfCentury.val, m.month.val, m.day.val, m.hour.val, m.minute.val)

end GribRecord

/-- the records of one kind, in the order of the file -/
def ofKind (records : List (List Octet × GribRecord)) (k : List Octet) : List GribRecord :=
  (records.map Prod.snd).filter fun m => decide (m.kind = k)

/-- the times of one kind of record, in the order of their first appearance -/
def whensOf (records : List (List Octet × GribRecord)) (k : List Octet) : List (List ℕ) :=
  ((ofKind records k).map GribRecord.when).eraseDups

/-- the levels of one kind of record, in the order of their first appearance -/
def levelsOf (records : List (List Octet × GribRecord)) (k : List Octet) : List ℕ :=
  ((ofKind records k).map GribRecord.level).eraseDups

/-- A field without a vertical axis: the fourth number of its kind is at most 99 (the ground, the tropopause, ...), or mean sea
level (102), or the whole atmosphere (200) or ocean (201), or it is on hybrid levels (109) and the only level is level 1. -/
def OneLayer (records : List (List Octet × GribRecord)) (k : List Octet) : Prop :=
  (k.getD 3 0).val < 100 ∨ (k.getD 3 0).val = 102 ∨ (k.getD 3 0).val = 200 ∨ (k.getD 3 0).val = 201 ∨
    (k.getD 3 0).val = 109 ∧ levelsOf records k = [1]

/-- the last record of one kind for a time and a level -/
def lastRecord (records : List (List Octet × GribRecord)) (k : List Octet) (w : List ℕ) (l : ℕ) : Option GribRecord :=
  ((ofKind records k).filter fun m => decide (m.when = w ∧ m.level = l)).getLast?

/-- one kind of record makes up a variable: for every time and level there is a record, on the grid of the first one, and the
levels are numbers of one byte -/
structure Complete (records : List (List Octet × GribRecord)) (k : List Octet) (ni nj : ℕ) : Prop where
  level : ∀ l ∈ levelsOf records k, l < 256
  record : ∀ w ∈ whensOf records k, ∀ l ∈ levelsOf records k, ∃ m, lastRecord records k w l = some m ∧ m.Readable ∧
    m.ni = ni ∧ m.nj = nj

/-- the bytes of a file: records, each after arbitrary bytes, and arbitrary bytes at the end -/
def gribFile (records : List (List Octet × GribRecord)) (rest : List Octet) : List Octet :=
  records.flatMap (fun p => p.1 ++ p.2.bytes) ++ rest

/-- where a record begins -/
def recordStart (records : List (List Octet × GribRecord)) (k : ℕ) : ℕ :=
  ((records.take k).flatMap fun p => p.1 ++ p.2.bytes).length + ((records.map Prod.fst).getD k []).length

/-- bytes that do not contain the word GRIB -/
def NoRecord (s : List Octet) : Prop := ¬ [71, 82, 73, 66] <:+: s

end PyGeode.Spec
