/-
What a client of the OPeNDAP server should find, independent of how texts and bytes are written and read.
-/
import Verif.Model.OpenDap

namespace PyGeode
namespace Spec
open OpenDap NArr

/-- types that both sides can send and read -/
def Carried (t : Np) : Prop := t ≠ .uint8 ∧ t ≠ .string8

/-- the values of a type that can be carried: of unsigned 32-bit integers the lower half; a float is its bits -/
def Carries (t : Np) (z : ℤ) : Prop :=
  match t with
  | .uint8 | .string8 => 0 ≤ z ∧ z < 2 ^ 8
  | .int8 => -2 ^ 7 ≤ z ∧ z < 2 ^ 7
  | .uint16 => 0 ≤ z ∧ z < 2 ^ 16
  | .int16 => -2 ^ 15 ≤ z ∧ z < 2 ^ 15
  | .uint32 => 0 ≤ z ∧ z < 2 ^ 31
  | .int32 => -2 ^ 31 ≤ z ∧ z < 2 ^ 31
  | .uint64 => 0 ≤ z ∧ z < 2 ^ 64
  | .int64 => -2 ^ 63 ≤ z ∧ z < 2 ^ 63
  | .float32 => 0 ≤ z ∧ z < 2 ^ 32
  | .float64 => 0 ≤ z ∧ z < 2 ^ 64

/-- what arrives of a value: itself, and the nearest double of a 64-bit integer -/
def arrives (toDouble : ℤ → ℕ) (t : Np) (z : ℤ) : ℤ := if t = .int64 ∨ t = .uint64 then toDouble z else z

/-- the values of an array in the order of the last axis first -/
def inOrder (x : VarD) : List ℤ := (product (x.shape.map List.range)).map x.data

/-- an array that can be sent: a carried type, values that fit it, no empty axis, and a length that fits 32 bits -/
structure Sendable (x : VarD) : Prop where
  type : Carried x.type
  fits : ∀ z ∈ inOrder x, Carries x.type z
  axes : ∀ a ∈ x.axes, a.values ≠ []
  size : x.shape.prod < 2 ^ 31

/-- a name made of letters, digits and `_`, `+`, `-` -/
def PlainName (n : Name) : Prop := n ≠ [] ∧ ∀ c ∈ n, c.isAlphanum ∨ c = '_' ∨ c = '+' ∨ c = '-'

/-- a dataset that can be served: plain names, each used once, those of axes are not numbers; the axes of variables are those of the dataset, and
none is empty -/
structure Servable (d : Data) : Prop where
  plain : ∀ n ∈ d.axes.map AxisD.name ++ d.vars.map VarD.name, PlainName n
  once : (d.axes.map AxisD.name ++ d.vars.map VarD.name).Nodup
  words : ∀ a ∈ d.axes, pyInt a.name = none
  known : ∀ v ∈ d.vars, ∀ a ∈ v.axes, a ∈ d.axes
  own : ∀ v ∈ d.vars, (v.axes.map AxisD.name).Nodup
  values : ∀ a ∈ d.axes, a.values ≠ []

/-- the characters written after a backslash -/
def special : List Char := ['\n', '\t', '"', '\'']

/-- no backslash is right before a newline, a tab or a quote -/
def Steady (s : Name) : Prop := s.IsChain fun a b => a = '\\' → b ∉ special

/-- a text that can be sent as an attribute: not empty, no backslash at the end or before a newline, a tab or a quote -/
def Quotable (s : Name) : Prop := s ≠ [] ∧ s.getLast? ≠ some '\\' ∧ Steady s

/-- a value of an attribute that can be sent: a text as above, or at least one number of a carried type -/
def AttSent : AttValue → Prop
  | .text s => Quotable s
  | .numbers t array l => Carried t ∧ l ≠ [] ∧ (array = false → l.length = 1)

/-- what arrives of a number of an attribute: 64-bit integers arrive as floats -/
def gotNumber (asFloat : ℤ → ℤ) (t : Np) (z : ℤ) : Got :=
  if t = .int64 ∨ t = .uint64 then .float (asFloat z) else if t = .float32 ∨ t = .float64 then .float z else .int z

/-- what arrives of the value of an attribute -/
def gotValue (asFloat : ℤ → ℤ) : AttValue → List Got
  | .text s => [.text s]
  | .numbers t _ l => l.map (gotNumber asFloat t)

end Spec
end PyGeode
