/-
What classic netCDF files keep exactly, stated without the tables of /repo/pygeode/formats/netcdf.py.
-/
import Verif.Model.Classic

namespace PyGeode
namespace Spec
open Classic

/-- `q` is an integer from `lo` to `hi` -/
def IntIn (lo hi : ℤ) (q : ℚ) : Prop := ∃ z : ℤ, q = z ∧ lo ≤ z ∧ z ≤ hi

/-- numbers of type `d` that both formats keep: what the type holds, except unsigned 32 bits of 2³¹ and more, and 64 bits beyond ±2⁵³, in the classic format -/
def Keeps : Version → DType → ℚ → Prop
  | _, .other, _ => False
  | .v4, _, _ => True
  | .v3, .u8, q => IntIn 0 255 q
  | .v3, .u16, q => IntIn 0 65535 q
  | .v3, .u32, q => IntIn 0 2147483647 q
  | .v3, .i64, q => IntIn (-9007199254740992) 9007199254740992 q
  | .v3, .u64, q => IntIn 0 9007199254740992 q
  | .v3, _, _ => True

/-- rounding to a double keeps integers up to 2⁵³ -/
def ExactRounding (rnd : ℚ → ℚ) : Prop := ∀ z : ℤ, -9007199254740992 ≤ z → z ≤ 9007199254740992 → rnd z = z

/-- an attribute that the format keeps -/
def KeepsAtt (v : Version) : Att → Prop
  | .text t => '\x00' ∉ t
  | .int z => match v with
    | .v3 => -9007199254740992 ≤ z ∧ z ≤ 9007199254740992
    | .v4 => -9223372036854775808 ≤ z ∧ z ≤ 18446744073709551615
  | .scalar d q => Keeps v d q
  | .array d l => d ≠ .other ∧ ∀ q ∈ l, Keeps v d q

/-- the text or numbers of an attribute, whatever the type of the numbers -/
def content : Att → Name ⊕ List ℚ
  | .text t => .inl t
  | .int z => .inr [(z : ℚ)]
  | .scalar _ q => .inr [q]
  | .array _ l => .inr l

/-- an array, as opposed to one text or number -/
def IsArray : Att → Prop
  | .array _ l => l.length ≠ 1
  | _ => False

/-- the same attribute: the same text or the same numbers, a single number being a number and not an array -/
def SameAtt (a b : Att) : Prop := content a = content b ∧ (IsArray a ↔ IsArray b)

end Spec
end PyGeode
