import Verif.Spec.Presto
import Verif.Model.JsonText

/-!
# The grammar of JSON texts

RFC 8259, with the three numbers that python adds. A text is related to the document that it stands for.
-/

namespace Verif.Spec

open Verif.Model

/-- White space. -/
def JsonWs (s : List Char) : Prop := ∀ c ∈ s, c = ' ' ∨ c = '\t' ∨ c = '\n' ∨ c = '\r'

/-- A hexadecimal digit, small or capital. -/
def HexDigit (c : Char) (d : ℕ) : Prop := d < 16 ∧ (c = Nat.digitChar d ∨ c = (Nat.digitChar d).toUpper)

/-- Four hexadecimal digits. -/
def HexText (s : List Char) (n : ℕ) : Prop :=
  ∃ a b c d w x y z, s = [a, b, c, d] ∧ HexDigit a w ∧ HexDigit b x ∧ HexDigit c y ∧ HexDigit d z ∧ n = ((w * 16 + x) * 16 + y) * 16 + z

/-- What is between the quotation marks of a string, and the characters that it stands for. -/
inductive JsonChars : List Char → List Char → Prop
  | nil : JsonChars [] []
  | plain {c : Char} {s t : List Char} : c ≠ '"' → c ≠ '\\' → 32 ≤ c.toNat → JsonChars s t → JsonChars (c :: s) (c :: t)
  | escape {e c : Char} {s t : List Char} : (e, c) ∈ [('"', '"'), ('\\', '\\'), ('/', '/'), ('b', '\x08'), ('f', '\x0c'), ('n', '\n'), ('r', '\r'),
      ('t', '\t')] → JsonChars s t → JsonChars ('\\' :: e :: s) (c :: t)
  | unicode {h : List Char} {c : Char} {s t : List Char} : HexText h c.toNat → JsonChars s t → JsonChars ('\\' :: 'u' :: (h ++ s)) (c :: t)
  | surrogates {h l : List Char} {hi lo : ℕ} {c : Char} {s t : List Char} : HexText h hi → HexText l lo → 0xD800 ≤ hi → hi < 0xDC00 →
      0xDC00 ≤ lo → lo < 0xE000 → c.toNat = 0x10000 + (hi - 0xD800) * 0x400 + (lo - 0xDC00) → JsonChars s t →
      JsonChars ('\\' :: 'u' :: (h ++ '\\' :: 'u' :: (l ++ s))) (c :: t)

/-- A string with its quotation marks. -/
def JsonString (s : List Char) (t : String) : Prop := ∃ b, s = '"' :: (b ++ ['"']) ∧ JsonChars b t.toList

/-- The whole part of a number: digits, the first of which is only zero if it is the only one. -/
def JsonNat (s : List Char) (n : ℕ) : Prop := DigitsText s n ∧ (s = ['0'] ∨ s.head? ≠ some '0')

/-- The fraction of a number, if any. -/
def JsonFraction (s : List Char) : Prop := s = [] ∨ ∃ t n, s = '.' :: t ∧ DigitsText t n

/-- The exponent of a number, if any. -/
def JsonExponent (s : List Char) : Prop :=
  s = [] ∨ ∃ e sg t n, s = e :: (sg ++ t) ∧ (e = 'e' ∨ e = 'E') ∧ (sg = [] ∨ sg = ['+'] ∨ sg = ['-']) ∧ DigitsText t n

/-- A number with a fraction or an exponent. -/
def JsonReal (s : List Char) : Prop :=
  ∃ sg ip n fp ex, s = sg ++ (ip ++ (fp ++ ex)) ∧ (sg = [] ∨ sg = ['-']) ∧ JsonNat ip n ∧ JsonFraction fp ∧ JsonExponent ex ∧ ¬ (fp = [] ∧ ex = [])

/-- A number without. -/
def JsonInt (s : List Char) (i : ℤ) : Prop := ∃ n : ℕ, (JsonNat s n ∧ i = n) ∨ ∃ t, s = '-' :: t ∧ JsonNat t n ∧ i = -n

mutual

/-- A value; `parse` gives the float for the text of a number with a fraction or an exponent. The last three of the literals are python's. -/
inductive JsonValue (parse : List Char → PyFloat) : List Char → Json → Prop
  | null : JsonValue parse "null".toList .null
  | true : JsonValue parse "true".toList (.bool true)
  | false : JsonValue parse "false".toList (.bool false)
  | nan : JsonValue parse "NaN".toList (.float .nan)
  | inf : JsonValue parse "Infinity".toList (.float (.inf false))
  | negInf : JsonValue parse "-Infinity".toList (.float (.inf true))
  | int {s : List Char} {i : ℤ} : JsonInt s i → JsonValue parse s (.int i)
  | float {s : List Char} : JsonReal s → JsonValue parse s (.float (parse s))
  | str {s : List Char} {t : String} : JsonString s t → JsonValue parse s (.str t)
  | arrNil {w : List Char} : JsonWs w → JsonValue parse ('[' :: (w ++ [']'])) (.arr [])
  | arr {s : List Char} {l : List Json} : JsonItems parse s l → JsonValue parse ('[' :: (s ++ [']'])) (.arr l)
  | objNil {w : List Char} : JsonWs w → JsonValue parse ('{' :: (w ++ ['}'])) (.obj [])
  | obj {s : List Char} {l : List (String × Json)} : JsonPairs parse s l → JsonValue parse ('{' :: (s ++ ['}'])) (.obj l)

/-- One or more values separated by commas. -/
inductive JsonItems (parse : List Char → PyFloat) : List Char → List Json → Prop
  | one {w s w' : List Char} {v : Json} : JsonWs w → JsonValue parse s v → JsonWs w' → JsonItems parse (w ++ (s ++ w')) [v]
  | cons {w s w' r : List Char} {v : Json} {l : List Json} : JsonWs w → JsonValue parse s v → JsonWs w' → JsonItems parse r l →
      JsonItems parse (w ++ (s ++ (w' ++ ',' :: r))) (v :: l)

/-- One or more pairs of a name and a value, separated by commas. -/
inductive JsonPairs (parse : List Char → PyFloat) : List Char → List (String × Json) → Prop
  | one {w k w₁ w₂ s w' : List Char} {key : String} {v : Json} : JsonWs w → JsonString k key → JsonWs w₁ → JsonWs w₂ → JsonValue parse s v →
      JsonWs w' → JsonPairs parse (w ++ (k ++ (w₁ ++ ':' :: (w₂ ++ (s ++ w'))))) [(key, v)]
  | cons {w k w₁ w₂ s w' r : List Char} {key : String} {v : Json} {l : List (String × Json)} : JsonWs w → JsonString k key → JsonWs w₁ → JsonWs w₂ →
      JsonValue parse s v → JsonWs w' → JsonPairs parse r l →
      JsonPairs parse (w ++ (k ++ (w₁ ++ ':' :: (w₂ ++ (s ++ (w' ++ ',' :: r)))))) ((key, v) :: l)

end

/-- A text that is one value, with white space around it. -/
def JsonText (parse : List Char → PyFloat) (text : List Char) (v : Json) : Prop :=
  ∃ w s w', text = w ++ (s ++ w') ∧ JsonWs w ∧ JsonValue parse s v ∧ JsonWs w'

/-- There is no escaped surrogate in a text. -/
def NoSurrogateEscape (s : List Char) : Prop := ∀ a c b, s = a ++ '\\' :: 'u' :: c :: b → c ≠ 'd' ∧ c ≠ 'D'

/-- Printable ASCII characters and line feeds. -/
def PlainText (s : List Char) : Prop := ∀ c ∈ s, c = '\n' ∨ (32 ≤ c.toNat ∧ c.toNat ≤ 126)

/-- The numbers `P` are written as numbers with a fraction or an exponent, and these are read as the same numbers. In python this is so for all finite
values of type `float`. -/
def FloatCode.Faithful (fc : FloatCode) (P : ℚ → Prop) : Prop := ∀ q, P q → JsonReal (fc.repr q) ∧ fc.parse (fc.repr q) = .fin q

mutual

/-- All the finite floats of a document are among the numbers `P`. -/
def FloatsIn (P : ℚ → Prop) : Json → Prop
  | .float (.fin q) => P q
  | .arr l => FloatsInItems P l
  | .obj d => FloatsInPairs P d
  | _ => True

def FloatsInItems (P : ℚ → Prop) : List Json → Prop
  | [] => True
  | j :: l => FloatsIn P j ∧ FloatsInItems P l

def FloatsInPairs (P : ℚ → Prop) : List (String × Json) → Prop
  | [] => True
  | (_, j) :: l => FloatsIn P j ∧ FloatsInPairs P l

end

mutual

/-- All the finite floats of a tree of objects, except for those in arrays, are among the numbers `P`. -/
def ValFloatsIn (P : ℚ → Prop) : PyVal → Prop
  | .float (.fin q) => P q
  | .npFloat (.fin q) => P q
  | .sky ra dec => (∀ q, ra = .fin q → P q) ∧ ∀ q, dec = .fin q → P q
  | .list l => ValFloatsInList P l
  | .dict d => ValFloatsInDict P d
  | .metadata d => ValFloatsInDict P d
  | .object _ _ f => ValFloatsInDict P f
  | _ => True

def ValFloatsInList (P : ℚ → Prop) : List PyVal → Prop
  | [] => True
  | v :: l => ValFloatsIn P v ∧ ValFloatsInList P l

def ValFloatsInDict (P : ℚ → Prop) : List (String × PyVal) → Prop
  | [] => True
  | (_, v) :: l => ValFloatsIn P v ∧ ValFloatsInDict P l

end

/-- An encoding that is ASCII on texts of ASCII characters, as UTF-8, the encodings of ISO 8859 and those of Windows are. -/
def AsciiCompatible (codec : TextCodec) : Prop :=
  (∀ s : List Char, (∀ c ∈ s, c.toNat < 128) → codec.encode s = some (s.map fun c => UInt8.ofNat c.toNat)) ∧
  (∀ b : List UInt8, (∀ x ∈ b, x.toNat < 128) → codec.decode b = some (b.map fun x => Char.ofNat x.toNat))

end Verif.Spec
