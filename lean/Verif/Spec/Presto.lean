import Verif.Model.Presto
import Mathlib.Data.Nat.Digits.Defs

/-!
# PRESTO `.inf` files

Independent description of the lines of an `.inf` file and of the text of numbers.
-/

namespace Verif.Spec

open Verif.Model

/-- Text without line breaks. -/
def OneLine (s : List Char) : Prop := ∀ c ∈ s, isLineBreak c = false

/-- Only white space. -/
def Blank (s : List Char) : Prop := ∀ c ∈ s, isPySpace c = true

/-- No white space at the ends. -/
def Trimmed (s : List Char) : Prop := (∀ c, s.head? = some c → isPySpace c = false) ∧ (∀ c, s.getLast? = some c → isPySpace c = false)

/-- A line: a label of 40 characters, an equal sign, the value surrounded by white space. -/
structure InfLine where
  label : List Char
  before : List Char
  value : List Char
  after : List Char

def InfLine.text (l : InfLine) : List Char := l.label ++ '=' :: (l.before ++ l.value ++ l.after)

def InfLine.OK (l : InfLine) : Prop :=
  l.label.length = 40 ∧ OneLine l.label ∧ OneLine l.before ∧ OneLine l.value ∧ OneLine l.after ∧ Blank l.before ∧ Blank l.after ∧
    Trimmed l.value

/-- Some lines, each ended by a line feed. -/
def linesText (ls : List InfLine) : List Char := (ls.map (fun l => l.text ++ ['\n'])).flatten

/-- `s` is the number `n` in decimal digits, possibly with zeros in front. -/
def DigitsText (s : List Char) (n : ℕ) : Prop :=
  ∃ ds : List ℕ, ds ≠ [] ∧ (∀ d ∈ ds, d < 10) ∧ s = ds.map Nat.digitChar ∧ n = Nat.ofDigits 10 ds.reverse

/-- An integer with or without a minus sign. -/
def IntText (s : List Char) (i : ℤ) : Prop :=
  ∃ n : ℕ, (DigitsText s n ∧ i = n) ∨ (∃ t, s = '-' :: t ∧ DigitsText t n ∧ i = -n)

/-- The fraction of a decimal number: nothing, or a dot and digits. -/
def FractionText (s : List Char) (x : ℚ) : Prop :=
  (s = [] ∧ x = 0) ∨ ∃ t n, s = '.' :: t ∧ DigitsText t n ∧ x = n / 10 ^ t.length

/-- The exponent of a decimal number: nothing, or `e`, a sign and digits. -/
def ExponentText (s : List Char) (e : ℤ) : Prop :=
  (s = [] ∧ e = 0) ∨ ∃ t n, (s = 'e' :: '+' :: t ∧ DigitsText t n ∧ e = n) ∨ (s = 'e' :: '-' :: t ∧ DigitsText t n ∧ e = -n)

/-- A decimal number, as written by C with `%f`, `%g` or `%e`. -/
def FloatText (s : List Char) (x : ℚ) : Prop :=
  ∃ (neg : Bool) (ip fp ex : List Char) (n : ℕ) (f : ℚ) (e : ℤ), DigitsText ip n ∧ FractionText fp f ∧ ExponentText ex e ∧
    s = (if neg then ['-'] else []) ++ (ip ++ (fp ++ ex)) ∧ x = (if neg then -1 else 1) * ((n + f) * (10 : ℚ) ^ e)

/-- A pair of integers separated by a comma, with white space around the numbers. -/
def PairText (s : List Char) (a b : ℤ) : Prop :=
  ∃ s1 s2 b1 b2 b3 b4, IntText s1 a ∧ IntText s2 b ∧ Blank b1 ∧ Blank b2 ∧ Blank b3 ∧ Blank b4 ∧
    s = b1 ++ s1 ++ b2 ++ ',' :: (b3 ++ s2 ++ b4)

end Verif.Spec
