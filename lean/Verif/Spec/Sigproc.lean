import Verif.Model.Metadata

/-!
# How SIGPROC writes a header

Only the types `SigVal`, `SigType` are shared with the model.
-/

namespace Verif.Spec

open Verif.Model

/-- The `k` bytes of a natural number below `256 ^ k`, least significant first. -/
def leBytes : ℕ → ℕ → List UInt8
  | 0, _ => []
  | k + 1, n => UInt8.ofNat (n % 256) :: leBytes k (n / 256)

/-- A 32-bit signed integer (two's complement). -/
def encodeInt (i : ℤ) : List UInt8 := leBytes 4 (i % 2 ^ 32).toNat

/-- The bytes of a string in UTF-8. -/
def utf8Bytes (s : String) : List UInt8 := s.toByteArray.data.toList

/-- A string: its length in bytes, and its bytes. -/
def encodeStr (s : String) : List UInt8 := encodeInt (utf8Bytes s).length ++ utf8Bytes s

/-- A header value. -/
def encodeVal : SigVal → List UInt8
  | .str s => encodeStr s
  | .int i => encodeInt i
  | .float bits => leBytes 8 bits
  | .bool b => [if b then 1 else 0]

/-- The range of values that can be stored. -/
def InRange : SigVal → Prop
  | .str s => (utf8Bytes s).length < 2 ^ 31
  | .int i => -2 ^ 31 ≤ i ∧ i < 2 ^ 31
  | .float bits => bits < 2 ^ 64
  | .bool _ => True

/-- The type of a value. -/
def typeOf : SigVal → SigType
  | .str _ => .str
  | .int _ => .int
  | .float _ => .float
  | .bool _ => .bool

/-- One attribute. -/
def encodeAttr (kv : String × SigVal) : List UInt8 := encodeStr kv.1 ++ encodeVal kv.2

/-- A complete header. -/
def encodeHeader (attrs : List (String × SigVal)) : List UInt8 :=
  encodeStr "HEADER_START" ++ (attrs.map encodeAttr).flatten ++ encodeStr "HEADER_END"

/-- One sample of data. -/
def encodeSample : RawSample → List UInt8
  | .int8 i => leBytes 1 (i % 256).toNat
  | .float32 bits => leBytes 4 bits

/-- A sample that can be stored with 8 bits, signed or not. -/
def IsInt8 (signed : Bool) (x : RawSample) : Prop :=
  ∃ i, x = .int8 i ∧ if signed then -128 ≤ i ∧ i < 128 else 0 ≤ i ∧ i < 256

/-- A sample that can be stored as a `float32`. -/
def IsFloat32 (x : RawSample) : Prop := ∃ bits, x = .float32 bits ∧ bits < 2 ^ 32

end Verif.Spec
