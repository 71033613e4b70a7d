import Verif.Model.Sigproc
import Verif.Model.PyVal
import Mathlib.Data.Int.Log
import Mathlib.Algebra.Order.Floor.Ring

/-!
# Binary formats of floating point numbers

The formats binary32 and binary64 of IEEE 754, and what an array of them holds.
-/

namespace Verif.Spec

open Verif.Model

/-- A binary format: numpy's name of it, the digits of the significand, with the leading one that is not stored, and those of the exponent. -/
structure FloatFormat where
  dtype : String
  prec : ℕ
  expBits : ℕ

/-- `np.float32`. -/
def binary32 : FloatFormat := ⟨"float32", 24, 8⟩

/-- `np.float64`. -/
def binary64 : FloatFormat := ⟨"float64", 53, 11⟩

namespace FloatFormat

variable (f : FloatFormat)

/-- The number of bytes. -/
def size : ℕ := (f.prec + f.expBits) / 8

/-- The exponent of the smallest positive number. -/
def emin : ℤ := 3 - 2 ^ (f.expBits - 1) - f.prec

/-- The finite numbers of the format. -/
def Has (q : ℚ) : Prop := ∃ m e : ℤ, |m| < 2 ^ f.prec ∧ f.emin ≤ e ∧ e ≤ f.emin + 2 ^ f.expBits - 3 ∧ q = m * 2 ^ e

/-- The number with the given bits: sign, exponent and significand, the exponents of only zeros and only ones being special. -/
def value (n : ℕ) : PyFloat :=
  let s := n / 2 ^ (f.prec + f.expBits - 1) % 2
  let k := n / 2 ^ (f.prec - 1) % 2 ^ f.expBits
  let m := n % 2 ^ (f.prec - 1)
  if k = 2 ^ f.expBits - 1 then (if m = 0 then .inf (decide (s = 1)) else .nan)
  else .fin ((if s = 1 then -1 else 1) * ((if k = 0 then m else 2 ^ (f.prec - 1) + m : ℕ) * 2 ^ (f.emin + (k - 1 : ℕ))))

/-- The elements of an array, given the number of elements. -/
def values (a : NdArr) (n : ℕ) : List PyFloat := (List.range n).map fun i => f.value (leNat ((a.bytes.drop (i * f.size)).take f.size))

end FloatFormat

/-- The first bits of 1, of the largest numbers, the smallest ones, infinity. -/
example : binary64.value 0x3FF0000000000000 = .fin 1 ∧ binary32.value 0xC0490FDB = .fin (-13176795 / 2 ^ 22) ∧ binary32.value 1 = .fin (1 / 2 ^ 149) ∧
    binary32.value 0x7F7FFFFF = .fin ((2 ^ 24 - 1) * 2 ^ 104) ∧ binary64.value 0xFFF0000000000000 = .inf true ∧ binary32.value 0x7FC00000 = .nan := by
  simp only [binary64, binary32, FloatFormat.value, FloatFormat.emin]
  norm_num [zpow_neg]

end Verif.Spec
