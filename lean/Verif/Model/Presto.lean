import Mathlib.Data.List.DropRight
import Verif.Model.Metadata

/-!
# Model of `riptide/reading/presto.py` and of `TimeSeries.from_presto_inf`

Text is a list of characters, as obtained from a file opened in text mode (that is, after the translation of line ends).
-/

namespace Verif.Model

/-- The characters at which `str.splitlines` ends a line. -/
def isLineBreak (c : Char) : Bool :=
  c.toNat ∈ [0x0A, 0x0B, 0x0C, 0x0D, 0x1C, 0x1D, 0x1E, 0x85, 0x2028, 0x2029]

/-- The characters removed by `str.strip()`. -/
def isPySpace (c : Char) : Bool :=
  (0x09 ≤ c.toNat ∧ c.toNat ≤ 0x0D) ∨ (0x1C ≤ c.toNat ∧ c.toNat ≤ 0x20) ∨ (0x2000 ≤ c.toNat ∧ c.toNat ≤ 0x200A) ∨
    c.toNat ∈ [0x85, 0xA0, 0x1680, 0x2028, 0x2029, 0x202F, 0x205F, 0x3000]

/-- `s.strip(chars)`. -/
def pyStripWith (p : Char → Bool) (s : List Char) : List Char := (s.dropWhile p).rdropWhile p

/-- `s.strip()`. -/
def pyStrip (s : List Char) : List Char := pyStripWith isPySpace s

/-- Put a character in front of the first line. -/
def consHead (c : Char) : List (List Char) → List (List Char)
  | [] => [[c]]
  | l :: ls => (c :: l) :: ls

/-- `s.splitlines()`; `\r\n` is one line break. -/
def pySplitlines : List Char → List (List Char)
  | [] => []
  | '\r' :: '\n' :: cs => [] :: pySplitlines cs
  | c :: cs => if isLineBreak c then [] :: pySplitlines cs else consHead c (pySplitlines cs)

/-- The digit denoted by a character. -/
def digitVal (c : Char) : Option ℕ := if '0'.toNat ≤ c.toNat ∧ c.toNat ≤ '9'.toNat then some (c.toNat - '0'.toNat) else none

/-- The number denoted by a non-empty list of decimal digits. -/
def digitsVal (s : List Char) : Option ℕ :=
  if s = [] then none else (s.mapM digitVal).map (fun ds => ds.foldl (fun a d => 10 * a + d) 0)

/-- An optional sign: whether it is negative, and the rest. -/
def splitSign : List Char → Bool × List Char
  | '-' :: s => (true, s)
  | '+' :: s => (false, s)
  | s => (false, s)

/-- `int(s)`. Simplification: only ASCII digits, without underscores. -/
def pyInt (s : List Char) : Except PyErr ℤ :=
  let r := splitSign (pyStrip s)
  match digitsVal r.2 with
  | none => .error .valueError
  | some n => .ok (if r.1 then -n else n)

/-- Lower case of an ASCII character. -/
def asciiLower (c : Char) : Char := if 'A'.toNat ≤ c.toNat ∧ c.toNat ≤ 'Z'.toNat then Char.ofNat (c.toNat + 32) else c

/-- The exponent part of a decimal number: nothing, or `e` and an integer. -/
def exponentVal : List Char → Option ℤ
  | [] => some 0
  | c :: s => if asciiLower c = 'e' then
      (digitsVal (splitSign s).2).map fun n => if (splitSign s).1 then -n else n
    else none

/-- The fractional part of a decimal number, if any: its digits and the rest. -/
def splitFraction : List Char → List Char × List Char
  | '.' :: s => s.span fun c => (digitVal c).isSome
  | s => ([], s)

/-- The number denoted by a list of digits, 0 if empty. -/
def digitsVal0 (s : List Char) : ℕ := (digitsVal s).getD 0

/-- An unsigned decimal number with optional fraction and exponent. -/
def decimalVal (s : List Char) : Option ℚ :=
  let r := s.span fun c => (digitVal c).isSome
  let q := splitFraction r.2
  if r.1 = [] ∧ q.1 = [] then none
  else (exponentVal q.2).map fun e => ((digitsVal0 r.1 : ℚ) + (digitsVal0 q.1 : ℚ) / 10 ^ q.1.length) * (10 : ℚ) ^ e

/-- `float(s)`. Simplification: exact, no rounding; only ASCII digits, without underscores. -/
def pyFloat (s : List Char) : Except PyErr PyFloat :=
  let r := splitSign (pyStrip s)
  let w := r.2.map asciiLower
  if w = "inf".toList ∨ w = "infinity".toList then .ok (.inf r.1)
  else if w = "nan".toList then .ok .nan
  else match decimalVal r.2 with
    | none => .error .valueError
    | some q => .ok (.fin (if r.1 then -q else q))

/-- `parse_inf_value(line, vtype)`, presto.py 39-44. -/
def parseInfValue {α : Type} (line : List Char) (vtype : List Char → Except PyErr α) : Except PyErr α :=
  if line[40]? = some '=' then vtype (pyStrip (line.drop 41)) else .error .valueError

/-- `str`. -/
def pyStrType (s : List Char) : Except PyErr PyVal := .ok (.str (String.ofList s))

/-- `float`. -/
def pyFloatType (s : List Char) : Except PyErr PyVal := (pyFloat s).map .float

/-- `int`. -/
def pyIntType (s : List Char) : Except PyErr PyVal := (pyInt s).map .int

/-- `parse_bool(s)`, presto.py 47-49. -/
def parseBool (s : List Char) : Except PyErr PyVal := (pyInt s).map fun i => .bool (decide (i ≠ 0))

/-- `s.split(',')`. -/
def splitComma : List Char → List (List Char)
  | [] => [[]]
  | c :: cs => if c = ',' then [] :: splitComma cs else consHead c (splitComma cs)

/-- `parse_int_pair(s)`, presto.py 52-54. Simplification: tuples are represented like lists. -/
def parseIntPair (s : List Char) : Except PyErr PyVal :=
  match splitComma s with
  | [a, b] => (pyInt a).bind fun x => (pyInt b).map fun y => .list [.int x, .int y]
  | _ => .error .valueError

/-- `p(n, vtype)`, presto.py 60-61. -/
def infField (lines : List (List Char)) (n : ℕ) (vtype : List Char → Except PyErr PyVal) : Except PyErr PyVal :=
  match lines[n]? with
  | none => .error .indexError
  | some line => parseInfValue line vtype

/-- Several entries `key: p(n, vtype)` of a dictionary, in order. -/
def infBlock (lines : List (List Char)) : List (ℕ × String × (List Char → Except PyErr PyVal)) →
    Except PyErr (List (String × PyVal))
  | [] => .ok []
  | (n, key, vtype) :: l => (infField lines n vtype).bind fun v => (infBlock lines l).map fun r => (key, v) :: r

/-- The loop over on/off pairs, presto.py 91-96: it stops at the first line that is not a pair. -/
def onoffPairs : List (List Char) → List PyVal
  | [] => []
  | line :: lines => match parseInfValue line parseIntPair with
    | .ok v => v :: onoffPairs lines
    | .error _ => []

/-- The lines after the first two of the common block, presto.py 74-83. -/
def infCommon : List (ℕ × String × (List Char → Except PyErr PyVal)) :=
  [(2, "instrument", pyStrType), (3, "source_name", pyStrType), (4, "raj", pyStrType), (5, "decj", pyStrType),
    (6, "observer", pyStrType), (7, "mjd", pyFloatType), (8, "barycentered", parseBool), (9, "nsamp", pyIntType),
    (10, "tsamp", pyFloatType), (11, "breaks", parseBool)]

/-- presto.py 104-110. -/
def infRadio : List (ℕ × String × (List Char → Except PyErr PyVal)) :=
  [(1, "fov_arcsec", pyFloatType), (2, "dm", pyFloatType), (3, "fbot", pyFloatType), (4, "bandwidth", pyFloatType),
    (5, "nchan", pyIntType), (6, "cbw", pyFloatType), (7, "analyst", pyStrType)]

/-- presto.py 113-116. -/
def infHighEnergy : List (ℕ × String × (List Char → Except PyErr PyVal)) :=
  [(1, "fov_arcsec", pyFloatType), (2, "central_energy_kev", pyFloatType), (3, "energy_bandpass_kev", pyFloatType),
    (4, "analyst", pyStrType)]

/-- `v == s` for a string `s`. -/
def PyVal.isStr (s : String) : PyVal → Bool
  | .str t => t == s
  | _ => false

/-- `v == True`. -/
def PyVal.isTrue : PyVal → Bool
  | .bool b => b
  | _ => false

/-- presto.py 99-121: the part that depends on the band, given the lines from that of the band on. -/
def infBand (lines : List (List Char)) : Except PyErr (List (String × PyVal)) :=
  (infField lines 0 pyStrType).bind fun v =>
    if v.isStr "Radio" then (infBlock lines infRadio).map fun r => ("em_band", v) :: r
    else if v.isStr "X-ray" ∨ v.isStr "Gamma" then (infBlock lines infHighEnergy).map fun r => ("em_band", v) :: r
    else .error .valueError

/-- presto.py 87-121: what follows the common block. -/
def infRest (lines : List (List Char)) (items : List (String × PyVal)) : Except PyErr (PyDict String PyVal) :=
  let lines := lines.drop 12
  let pairs := if ((dictGet items "breaks").getD .none).isTrue then onoffPairs lines else []
  (infBand (lines.drop pairs.length)).map fun band => items ++ [("onoff_pairs", .list pairs)] ++ band

/-- `inf2dict(text)`, presto.py 57-121. -/
def inf2dict (text : List Char) : Except PyErr (PyDict String PyVal) :=
  let lines := pySplitlines (pyStripWith (· == '\n') text)
  (infBlock lines [(0, "basename", pyStrType), (1, "telescope", pyStrType)]).bind fun head =>
    if ((dictGet head "telescope").getD .none).isStr "None (Artificial Data Set)" then .error .valueError
    else (infBlock lines infCommon).bind fun common => infRest lines (head ++ common)

/-- `s.rsplit('.', maxsplit=1)[0]`: what precedes the last dot, everything if there is none. -/
def beforeLastDot (s : List Char) : List Char :=
  if '.' ∈ s then (s.rdropWhile (· ≠ '.')).dropLast else s

/-- `data_fname`, presto.py 137-140, for the absolute path `fname`. -/
def dataFname (fname : List Char) : List Char := beforeLastDot fname ++ ".dat".toList

/-- `Metadata.from_presto_inf(inf)`, metadata.py 53-71. `parseSky` stands for `SkyCoord(raj, decj, unit=...)`, which is not
modelled. -/
def metadataFromPresto (parseSky : PyVal → PyVal → Except PyErr (PyFloat × PyFloat)) (inf : PyDict String PyVal)
    (fname : List Char) : Except PyErr MetaDict :=
  (dictItem inf "raj").bind fun raj => (dictItem inf "decj").bind fun decj => (parseSky raj decj).bind fun c =>
  (dictItem inf "tsamp").bind fun tsamp => (dictItem inf "nsamp").bind fun nsamp =>
  match tsamp, nsamp with
  | .float t, .int n =>
    let attrs : MetaDict := inf.map fun kv => (DKey.str kv.1, kv.2)
    metadataInit (dictSet (dictSet (dictSet attrs (.str "skycoord") (.sky c.1 c.2)) (.str "fname") (.str (String.ofList fname)))
      (.str "tobs") (.float (t.mulInt n)))
  | _, _ => .error .typeError

/-- `TimeSeries.from_presto_inf(fname)`, time_series.py 284-316: `text` is the content of the file `fname`, and `files` gives the
content of other files. The warning about high-energy bands is not modelled. -/
def timeSeriesFromPresto (parseSky : PyVal → PyVal → Except PyErr (PyFloat × PyFloat)) (files : List Char → Option (List UInt8))
    (text : List Char) (fname : List Char) : Except PyErr LoadedSeries :=
  (inf2dict text).bind fun inf =>
  (metadataFromPresto parseSky inf fname).bind fun md =>
  match files (dataFname fname) with
  | none => .error .fileNotFoundError
  | some bytes =>
    (dictItem inf "tsamp").bind fun tsamp =>
    match tsamp with
    | .float t => (metadataInit md).map fun md =>
      { samples := readFloat32 bytes, tsamp := t,
        metadata := dictSet md (.str "tobs") (.float (t.mulInt (readFloat32 bytes).length)) }
    | _ => .error .typeError

end Verif.Model
