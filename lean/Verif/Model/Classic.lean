/-
Model of numbers and attributes in classic netCDF files: /repo/pygeode/formats/netcdf.py:10-31 (types), 46-92 (`get_attributes`), 96-130
(`put_attributes`) and 513-514, 547, 257 (the numbers of a variable). The C library stores what it is given. Integers and floats are rationals; rounding to a double
is a parameter. Attributes whose values are arrays of more than one dimension are not modelled, nor the encoding of texts (texts are lists of characters).
-/
import Verif.Model.Axis
import Mathlib.Algebra.Order.Field.Rat

namespace PyGeode
namespace Classic

/-- types of numpy; all others (strings, objects, booleans, complex numbers, ...) are `other` -/
inductive DType where
  | i8 | i16 | i32 | i64 | u8 | u16 | u32 | u64 | f32 | f64 | other
deriving DecidableEq

/-- the two formats: `version=3` and `version=4` -/
inductive Version where
  | v3 | v4
deriving DecidableEq

/-- `numpy_type[nc_type[version][name]]`, netcdf.py:12-30: the type in which numbers of a type are stored. `none` is an unknown name. -/
def stored : Version → DType → Option DType
  | .v3, .i8 => some .i8
  | .v3, .i16 => some .i16
  | .v3, .i32 => some .i32
  | .v3, .f32 => some .f32
  | .v3, .f64 => some .f64
  | .v3, .u8 => some .i16
  | .v3, .u16 => some .i32
  | .v3, .u32 => some .i32
  | .v3, .i64 => some .f64
  | .v3, .u64 => some .f64
  | .v4, .other => none
  | .v4, t => some t
  | .v3, .other => none

/-- numpy's conversion of an array to another type, for the pairs that `stored` gives: `rnd` rounds to a double -/
def cast (rnd : ℚ → ℚ) (dst src : DType) (q : ℚ) : ℚ :=
  if dst = src then q
  else match dst with
    | .i16 => ((q.num + 2 ^ 15) % 2 ^ 16 - 2 ^ 15 : ℤ)
    | .i32 => ((q.num + 2 ^ 31) % 2 ^ 32 - 2 ^ 31 : ℤ)
    | .f64 => rnd q
    | _ => q

/-- the value of an attribute: a text, a Python integer, a number or a one-dimensional array of numpy -/
inductive Att where
  | text (t : Name)
  | int (z : ℤ)
  | scalar (d : DType) (q : ℚ)
  | array (d : DType) (l : List ℚ)
deriving DecidableEq

/-- an attribute in the file -/
inductive Stored where
  | text (t : Name)
  | nums (d : DType) (l : List ℚ)
deriving DecidableEq

/-- `asarray(value)`, netcdf.py:110-114: Python's integers are made as small as 32 bits; numpy itself takes 64 bits, and objects if these are too few -/
def asArray : Att → DType × List ℚ
  | .text _ => (.other, [])
  | .int z =>
    (if -2147483648 ≤ z ∧ z ≤ 2147483647 then .i32
      else if -9223372036854775808 ≤ z ∧ z ≤ 9223372036854775807 then .i64
      else if 0 ≤ z ∧ z ≤ 18446744073709551615 then .u64 else .other, [(z : ℚ)])
  | .scalar d q => (d, [q])
  | .array d l => (d, l)

/-- one attribute, netcdf.py:103-130; `none` means that it is not written -/
def putOne (rnd : ℚ → ℚ) (v : Version) (a : Att) : Option Stored := match a with
  | .text t => some (.text t)
  | a => (stored v (asArray a).1).map fun d => .nums d ((asArray a).2.map (cast rnd d (asArray a).1))

/-- `put_attributes`, netcdf.py:96-130: an attribute that cannot be written ends the loop (`return`, lines 118 and 121) -/
def put (rnd : ℚ → ℚ) (v : Version) : List (Name × Att) → List (Name × Stored)
  | [] => []
  | (n, a) :: l => match putOne rnd v a with
    | some s => (n, s) :: put rnd v l
    | none => []

/-- one attribute read, netcdf.py:77-90: a text ends at the first null character (`valstr.value`), an array of one number is a number -/
def getOne : Stored → Att
  | .text t => .text (t.takeWhile fun c => decide (c ≠ '\x00'))
  | .nums d l => match l with
    | [q] => .scalar d q
    | l => .array d l

/-- `get_attributes`, netcdf.py:46-92 -/
def get (l : List (Name × Stored)) : List (Name × Att) := l.map fun p => (p.1, getOne p.2)

/-- the numbers of a variable as they are written and read again, netcdf.py:513-514, 547, 257; `none` is the exception for an unknown type -/
def saved (rnd : ℚ → ℚ) (v : Version) (d : DType) (l : List ℚ) : Option (DType × List ℚ) :=
  (stored v d).map fun t => (t, l.map (cast rnd t d))

end Classic
end PyGeode
