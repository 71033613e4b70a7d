import Verif.Model.Samples
import Verif.Spec.Sigproc
import Verif.Model.CandFile

/-! # What a conversion to a binary format has to be, and how numbers are stored -/

namespace Verif.Spec

open Verif.Model

/-- The number `r` of the format is nearest to `q`; of two nearest numbers, it is the one with an even last digit. -/
structure Nearest (f : FloatFormat) (q r : ℚ) : Prop where
  has : f.Has r
  nearest : ∀ s, f.Has s → |q - r| ≤ |q - s|
  even : ∀ s, f.Has s → s ≠ r → |q - s| = |q - r| → ∃ a b e : ℤ, r = 2 * a * 2 ^ e ∧ s = (2 * b + 1) * 2 ^ e

/-- Where the numbers begin that become infinite: halfway between the largest number of the format and the next power of two. -/
def FloatFormat.overflow (f : FloatFormat) : ℚ := (2 ^ (f.prec + 1) - 1) * 2 ^ (f.emin + 2 ^ f.expBits - 4 : ℤ)

/-- `y` is what IEEE 754 prescribes as the number `q` in the format. -/
def RoundsTo (f : FloatFormat) (q : ℚ) : PyFloat → Prop
  | .fin r => |q| < f.overflow ∧ Nearest f q r
  | .inf neg => f.overflow ≤ |q| ∧ (neg = true ↔ q < 0)
  | .nan => False

/-- The numbers of a type. -/
def SampleHas : SampleType → ℚ → Prop
  | .float f, q => f.Has q
  | .int true n, q => ∃ i : ℤ, q = i ∧ -2 ^ (8 * n - 1) ≤ i ∧ i < 2 ^ (8 * n - 1)
  | .int false n, q => ∃ i : ℤ, q = i ∧ 0 ≤ i ∧ i < 2 ^ (8 * n)

/-- The bytes of a number in memory, and in a file written with `array.tofile`. -/
def storeSample : SampleType → ℚ → List UInt8
  | .float f, q => leBytes f.size (floatBits f q)
  | .int _ n, q => leBytes n (q.num % 2 ^ (8 * n)).toNat

/-- The types of numpy. -/
def NumpyType (t : SampleType) : Prop := t = .float binary32 ∨ t = .float binary64 ∨ ∃ signed, ∃ n ∈ [1, 2, 4, 8], t = .int signed n

/-- The name of a type in the header of a `.npy` file: the order of the bytes, the kind of numbers and the number of bytes. -/
def typeCode : SampleType → String
  | .float f => String.ofList ['<', 'f', Nat.digitChar f.size]
  | .int signed n => String.ofList [if n = 1 then '|' else '<', if signed then 'i' else 'u', Nat.digitChar n]

/-- The bytes of an array. -/
def storeSamples (t : SampleType) (l : List ℚ) : List UInt8 := l.flatMap (storeSample t)

end Verif.Spec
