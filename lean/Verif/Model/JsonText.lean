import Verif.Model.Presto
import Verif.Model.Products
import Verif.Model.Json

/-!
# Model of the text of JSON files, `riptide/serialization.py` 119-152

`json.dumps` and `json.loads` of python 3.11: the modules `json/encoder.py`, `json/decoder.py` and the scanner `_json.c`. Simplifications: the conversion between
finite floats and their decimal text is a parameter; strings have no lone surrogates (loading a text with an escaped one ends in `unspecified`); the
limits on the number of digits of an integer and on the depth of a document are left out; of the keyword arguments of `to_json`, only
`indent` is modelled.
-/

namespace Verif.Model

/-- `float.__repr__` of finite numbers, and `float` of the text of a number. -/
structure FloatCode where
  repr : ℚ → List Char
  parse : List Char → PyFloat

/-! ## Writing -/

/-- `'{0:04x}'.format(n)` for `n < 65536`. -/
def hex4 (n : ℕ) : List Char :=
  [Nat.digitChar (n / 4096 % 16), Nat.digitChar (n / 256 % 16), Nat.digitChar (n / 16 % 16), Nat.digitChar (n % 16)]

/-- `py_encode_basestring_ascii`, one character. -/
def escapeChar (c : Char) : List Char :=
  if c = '"' then ['\\', '"']
  else if c = '\\' then ['\\', '\\']
  else if c = '\n' then ['\\', 'n']
  else if c = '\r' then ['\\', 'r']
  else if c = '\t' then ['\\', 't']
  else if c = '\x0c' then ['\\', 'f']
  else if c = '\x08' then ['\\', 'b']
  else if 32 ≤ c.toNat ∧ c.toNat ≤ 126 then [c]
  else if c.toNat < 0x10000 then '\\' :: 'u' :: hex4 c.toNat
  else '\\' :: 'u' :: (hex4 (0xD800 + (c.toNat - 0x10000) / 0x400) ++ '\\' :: 'u' :: hex4 (0xDC00 + (c.toNat - 0x10000) % 0x400))

/-- A string with its quotation marks. -/
def jsonString (s : String) : List Char := '"' :: (s.toList.flatMap escapeChar ++ ['"'])

/-- `floatstr`, json/encoder.py. -/
def jsonFloat (fc : FloatCode) : PyFloat → List Char
  | .fin q => fc.repr q
  | .inf false => "Infinity".toList
  | .inf true => "-Infinity".toList
  | .nan => "NaN".toList

/-- The end of a line and the indentation at a depth, nothing if `indent` is `None`. -/
def jsonGap (indent : Option ℕ) (depth : ℕ) : List Char :=
  match indent with
  | none => []
  | some n => '\n' :: List.replicate (n * depth) ' '

/-- The separator of items: `', '` without indentation, otherwise `','` and a new line. -/
def jsonSep (indent : Option ℕ) (depth : ℕ) : List Char :=
  match indent with
  | none => [',', ' ']
  | some n => ',' :: '\n' :: List.replicate (n * depth) ' '

mutual

/-- `json.dumps(obj, indent=indent)` for a tree, at a depth. -/
def writeJson (fc : FloatCode) (indent : Option ℕ) (depth : ℕ) : Json → List Char
  | .null => "null".toList
  | .bool true => "true".toList
  | .bool false => "false".toList
  | .int i => intText i
  | .float x => jsonFloat fc x
  | .str s => jsonString s
  | .arr [] => ['[', ']']
  | .arr (j :: l) => '[' :: (jsonGap indent (depth + 1) ++ (writeJson fc indent (depth + 1) j ++ (writeItems fc indent (depth + 1) l ++
      (jsonGap indent depth ++ [']']))))
  | .obj [] => ['{', '}']
  | .obj ((k, j) :: l) => '{' :: (jsonGap indent (depth + 1) ++ (jsonString k ++ (':' :: ' ' :: (writeJson fc indent (depth + 1) j ++
      (writePairs fc indent (depth + 1) l ++ (jsonGap indent depth ++ ['}']))))))

/-- The items of an array after the first one. -/
def writeItems (fc : FloatCode) (indent : Option ℕ) (depth : ℕ) : List Json → List Char
  | [] => []
  | j :: l => jsonSep indent depth ++ (writeJson fc indent depth j ++ writeItems fc indent depth l)

/-- The entries of an object after the first one. -/
def writePairs (fc : FloatCode) (indent : Option ℕ) (depth : ℕ) : List (String × Json) → List Char
  | [] => []
  | (k, j) :: l => jsonSep indent depth ++ (jsonString k ++ (':' :: ' ' :: (writeJson fc indent depth j ++ writePairs fc indent depth l)))

end

/-! ## Reading -/

def isJsonWs (c : Char) : Bool := c = ' ' || c = '\t' || c = '\n' || c = '\r'

/-- White space is skipped. -/
def skipWs (s : List Char) : List Char := s.dropWhile isJsonWs

/-- The value of a hexadecimal digit. -/
def hexVal (c : Char) : Option ℕ :=
  if 48 ≤ c.toNat ∧ c.toNat ≤ 57 then some (c.toNat - 48)
  else if 97 ≤ c.toNat ∧ c.toNat ≤ 102 then some (c.toNat - 87)
  else if 65 ≤ c.toNat ∧ c.toNat ≤ 70 then some (c.toNat - 55)
  else none

/-- The value of four hexadecimal digits. -/
def hex4Val (a b c d : Char) : Option ℕ :=
  (hexVal a).bind fun w => (hexVal b).bind fun x => (hexVal c).bind fun y => (hexVal d).map fun z => ((w * 16 + x) * 16 + y) * 16 + z

/-- The character for a letter after a backslash. -/
def unescape (e : Char) : Option Char :=
  if e = '"' then some '"' else if e = '\\' then some '\\' else if e = '/' then some '/' else if e = 'b' then some '\x08'
  else if e = 'f' then some '\x0c' else if e = 'n' then some '\n' else if e = 'r' then some '\r' else if e = 't' then some '\t' else none

/-- `scanstring_unicode` of `_json.c` with `strict=True`, after the opening quotation mark: code points, where surrogates are not yet joined, and the rest
behind the closing quotation mark. -/
def readUnits : List Char → Except PyErr (List ℕ × List Char)
  | [] => .error .valueError
  | c :: r =>
    if c = '"' then .ok ([], r)
    else if c = '\\' then
      match r with
      | [] => .error .valueError
      | e :: r =>
        if e = 'u' then
          match r with
          | h₁ :: h₂ :: h₃ :: h₄ :: r =>
            match hex4Val h₁ h₂ h₃ h₄ with
            | none => .error .valueError
            | some u => (readUnits r).map fun q => (u :: q.1, q.2)
          | _ => .error .valueError
        else
          match unescape e with
          | none => .error .valueError
          | some x => (readUnits r).map fun q => (x.toNat :: q.1, q.2)
    else if c.toNat < 32 then .error .valueError
    else (readUnits r).map fun q => (c.toNat :: q.1, q.2)

/-- Pairs of surrogates are joined. -/
def joinUnits : List ℕ → Option (List Char)
  | [] => some []
  | u :: l =>
    if 0xD800 ≤ u ∧ u < 0xDC00 then
      match l with
      | [] => none
      | v :: l => if 0xDC00 ≤ v ∧ v < 0xE000 then (joinUnits l).map fun t => Char.ofNat (0x10000 + (u - 0xD800) * 0x400 + (v - 0xDC00)) :: t else none
    else if 0xDC00 ≤ u ∧ u < 0xE000 then none
    else (joinUnits l).map fun t => Char.ofNat u :: t

/-- A string, after the opening quotation mark. -/
def readString (s : List Char) : Except PyErr (String × List Char) :=
  (readUnits s).bind fun q => match joinUnits q.1 with
    | none => .error .unspecified
    | some t => .ok (String.ofList t, q.2)

def isJsonDigit (c : Char) : Bool := (digitVal c).isSome

/-- The digits of the whole part of a number. -/
def splitWhole (s : List Char) : List Char × List Char :=
  if s.head? = some '0' then (['0'], s.tail) else (s.takeWhile isJsonDigit, s.dropWhile isJsonDigit)

/-- The fraction of a number, if there are digits behind the point. -/
def splitPoint (s : List Char) : List Char × List Char :=
  if s.head? = some '.' ∧ s.tail.takeWhile isJsonDigit ≠ [] then ('.' :: s.tail.takeWhile isJsonDigit, s.tail.dropWhile isJsonDigit) else ([], s)

/-- A sign, if any. -/
def splitPlusMinus : List Char → List Char × List Char
  | [] => ([], [])
  | c :: s => if c = '+' ∨ c = '-' then ([c], s) else ([], c :: s)

/-- The exponent of a number, if there are digits behind the letter. -/
def splitExponent : List Char → List Char × List Char
  | [] => ([], [])
  | c :: s =>
    if (c = 'e' ∨ c = 'E') ∧ (splitPlusMinus s).2.takeWhile isJsonDigit ≠ [] then
      (c :: ((splitPlusMinus s).1 ++ (splitPlusMinus s).2.takeWhile isJsonDigit), (splitPlusMinus s).2.dropWhile isJsonDigit)
    else ([], c :: s)

/-- `_match_number_unicode` of `_json.c`. -/
def readNumber (fc : FloatCode) (s : List Char) : Except PyErr (Json × List Char) :=
  let sign : List Char := if s.head? = some '-' then ['-'] else []
  let whole := splitWhole (if s.head? = some '-' then s.tail else s)
  let point := splitPoint whole.2
  let exponent := splitExponent point.2
  if whole.1 = [] then .error .valueError
  else if point.1 = [] ∧ exponent.1 = [] then
    .ok (.int (if s.head? = some '-' then -(digitsVal0 whole.1 : ℤ) else digitsVal0 whole.1), exponent.2)
  else .ok (.float (fc.parse (sign ++ (whole.1 ++ (point.1 ++ exponent.1)))), exponent.2)

/-- The words that stand for values. -/
def readLiteral (s : List Char) : Option (Json × List Char) :=
  if ['n', 'u', 'l', 'l'].isPrefixOf s then some (.null, s.drop 4)
  else if ['t', 'r', 'u', 'e'].isPrefixOf s then some (.bool true, s.drop 4)
  else if ['f', 'a', 'l', 's', 'e'].isPrefixOf s then some (.bool false, s.drop 5)
  else if ['N', 'a', 'N'].isPrefixOf s then some (.float .nan, s.drop 3)
  else if ['I', 'n', 'f', 'i', 'n', 'i', 't', 'y'].isPrefixOf s then some (.float (.inf false), s.drop 8)
  else if ['-', 'I', 'n', 'f', 'i', 'n', 'i', 't', 'y'].isPrefixOf s then some (.float (.inf true), s.drop 9)
  else none

mutual

/-- `scan_once_unicode` of `_json.c`: a value and the rest of the text. The first argument bounds the number of calls. -/
def scanValue (fc : FloatCode) : ℕ → List Char → Except PyErr (Json × List Char)
  | 0, _ => .error .unspecified
  | _ + 1, [] => .error .valueError
  | n + 1, c :: r =>
    if c = '"' then (readString r).map fun q => (.str q.1, q.2)
    else if c = '{' then
      if (skipWs r).head? = some '}' then .ok (.obj [], (skipWs r).tail)
      else (scanPairs fc n (skipWs r)).map fun q => (.obj q.1, q.2)
    else if c = '[' then
      if (skipWs r).head? = some ']' then .ok (.arr [], (skipWs r).tail)
      else (scanItems fc n (skipWs r)).map fun q => (.arr q.1, q.2)
    else match readLiteral (c :: r) with
      | some q => .ok q
      | none => readNumber fc (c :: r)

/-- `_parse_array_unicode`, from the first item on. -/
def scanItems (fc : FloatCode) : ℕ → List Char → Except PyErr (List Json × List Char)
  | 0, _ => .error .unspecified
  | n + 1, s => (scanValue fc n s).bind fun q =>
    if (skipWs q.2).head? = some ']' then .ok ([q.1], (skipWs q.2).tail)
    else if (skipWs q.2).head? = some ',' then (scanItems fc n (skipWs (skipWs q.2).tail)).map fun p => (q.1 :: p.1, p.2)
    else .error .valueError

/-- `_parse_object_unicode`, from the first name on. -/
def scanPairs (fc : FloatCode) : ℕ → List Char → Except PyErr (List (String × Json) × List Char)
  | 0, _ => .error .unspecified
  | n + 1, s =>
    if s.head? = some '"' then
      (readString s.tail).bind fun k =>
      if (skipWs k.2).head? = some ':' then
        (scanValue fc n (skipWs (skipWs k.2).tail)).bind fun q =>
        if (skipWs q.2).head? = some '}' then .ok ([(k.1, q.1)], (skipWs q.2).tail)
        else if (skipWs q.2).head? = some ',' then (scanPairs fc n (skipWs (skipWs q.2).tail)).map fun p => ((k.1, q.1) :: p.1, p.2)
        else .error .valueError
      else .error .valueError
    else .error .valueError

end

/-- `json.loads(s)` without an object hook. -/
def readJson (fc : FloatCode) (s : List Char) : Except PyErr Json :=
  if s.head? = some (Char.ofNat 0xFEFF) then .error .valueError
  else (scanValue fc (2 * s.length + 2) (skipWs s)).bind fun q => if skipWs q.2 = [] then .ok q.1 else .error .valueError

/-! ## Files -/

/-- `to_json(obj, indent=indent)`, serialization.py 126-135. -/
def toJsonText (fc : FloatCode) (version : String) (indent : Option ℕ) (v : PyVal) : Except PyErr (List Char) :=
  (toJson version v).map fun j => writeJson fc indent 0 j

/-- `from_json(s)`, serialization.py 119-123. -/
def fromJsonText (fc : FloatCode) (version : String) (s : List Char) : Except PyErr PyVal := (readJson fc s).bind (fromJson version)

/-- The encoding of text files: bytes for characters, and characters for bytes; `none` is a `UnicodeError`. -/
structure TextCodec where
  encode : List Char → Option (List UInt8)
  decode : List UInt8 → Option (List Char)

/-- What a text file opened with `'w'` does with the ends of lines; `linesep` is `os.linesep`. -/
def platformNewlines (linesep : List Char) (s : List Char) : List Char := s.flatMap fun c => if c = '\n' then linesep else [c]

/-- What a text file opened with `'r'` does with the ends of lines. The first argument tells whether the last character was a carriage return. -/
def universalNewlines : Bool → List Char → List Char
  | _, [] => []
  | cr, c :: s =>
    if c = '\n' ∧ cr = true then universalNewlines false s
    else if c = '\r' then '\n' :: universalNewlines true s
    else c :: universalNewlines false s

/-- The bytes that `save_json(fname, obj, indent=indent)` writes, serialization.py 146-152; without keyword argument `indent` is 4, 134. -/
def saveJsonFile (fc : FloatCode) (codec : TextCodec) (linesep : List Char) (version : String) (indent : Option ℕ) (v : PyVal) :
    Except PyErr (List UInt8) :=
  (toJsonText fc version indent v).bind fun t =>
  match codec.encode (platformNewlines linesep t) with
  | none => .error .valueError
  | some b => .ok b

/-- `load_json(fname)` for a file with these bytes, serialization.py 138-143. -/
def loadJsonFile (fc : FloatCode) (codec : TextCodec) (version : String) (bytes : List UInt8) : Except PyErr PyVal :=
  match codec.decode bytes with
  | none => .error .valueError
  | some s => fromJsonText fc version (universalNewlines false s)

end Verif.Model
