import Mathlib.Data.Rat.Defs
import Mathlib.Algebra.Field.Rat

/-!
# Numbers in decimal notation

What a person means by `-12`, `0.20`, `5.`, `1e-1` or `2.5E+3`, without any of the functions that read numbers.
-/

namespace Verif.Spec

/-- One of the ten decimal digits. -/
def IsDigit (c : Char) : Prop := 48 ≤ c.toNat ∧ c.toNat ≤ 57

/-- The number written with these digits in base `b`, 0 if there are none. -/
def positional (b : ℕ) (s : List Char) : ℕ := s.foldl (fun a c => b * a + (c.toNat - 48)) 0

/-- A number in decimal notation: an optional sign (`true` for minus), digits, an optional dot with the digits after it, and an optional
exponent, which is the letter (`true` for the capital letter), an optional sign and digits. -/
structure Decimal where
  sign : Option Bool
  whole : List Char
  frac : Option (List Char)
  exp : Option (Bool × Option Bool × List Char)

/-- The sign as text. -/
def signText : Option Bool → List Char
  | none => []
  | some true => ['-']
  | some false => ['+']

/-- The fraction as text. -/
def fracText : Option (List Char) → List Char
  | none => []
  | some s => '.' :: s

/-- The exponent as text. -/
def expText : Option (Bool × Option Bool × List Char) → List Char
  | none => []
  | some (cap, sg, s) => (if cap then 'E' else 'e') :: (signText sg ++ s)

/-- The text. -/
def Decimal.text (d : Decimal) : List Char := signText d.sign ++ (d.whole ++ (fracText d.frac ++ expText d.exp))

/-- There is a digit before the dot, all digits are digits, and the exponent is not empty. -/
def Decimal.OK (d : Decimal) : Prop :=
  d.whole ≠ [] ∧ (∀ c ∈ d.whole, IsDigit c) ∧ (∀ s, d.frac = some s → ∀ c ∈ s, IsDigit c) ∧
    ∀ cap sg s, d.exp = some (cap, sg, s) → s ≠ [] ∧ ∀ c ∈ s, IsDigit c

/-- -1 for a minus sign. -/
def signOf : Option Bool → ℤ
  | some true => -1
  | _ => 1

/-- The digits after the dot. -/
def Decimal.fracDigits (d : Decimal) : List Char := d.frac.getD []

/-- The exponent. -/
def Decimal.exponent (d : Decimal) : ℤ :=
  match d.exp with
  | none => 0
  | some (_, sg, s) => signOf sg * positional 10 s

/-- The number. -/
def Decimal.value (d : Decimal) : ℚ :=
  signOf d.sign * (((positional 10 d.whole : ℚ) + (positional 10 d.fracDigits : ℚ) / 10 ^ d.fracDigits.length) * (10 : ℚ) ^ d.exponent)

/-- Written without dot and exponent. -/
def Decimal.Whole (d : Decimal) : Prop := d.frac = none ∧ d.exp = none

/-- Written with a dot, and with a sign in the exponent if there is an exponent. -/
def Decimal.Dotted (d : Decimal) : Prop :=
  (∃ s, d.frac = some s) ∧ ∀ cap sg s, d.exp = some (cap, sg, s) → ∃ b, sg = some b

/-- No zero in front of other digits. -/
def NoLeadingZero (s : List Char) : Prop := ∀ t, s = '0' :: t → t = []

/-- Written with zeros in front, without dot and exponent, and without the digits 8 and 9. -/
def Decimal.Octal (d : Decimal) : Prop :=
  d.Whole ∧ ∃ s, d.whole = '0' :: s ∧ s ≠ [] ∧ ∀ c ∈ s, c.toNat ≤ 55

end Verif.Spec
