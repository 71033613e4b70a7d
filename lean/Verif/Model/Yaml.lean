import Verif.Model.Config

/-!
# Model of `Pipeline.from_yaml_config`, `riptide/pipeline/pipeline.py` 396-402

The configuration file is read by `yaml.safe_load`, which is not part of the code. Its lexical rules for plain scalars are modelled
here, because they decide the python type of every number of a configuration: the regular expressions of `yaml/resolver.py` and the
constructors of `yaml/constructor.py` of PyYAML (YAML 1.1), written down from memory because the library is not part of the repository.
The layout of a file in lines, indentation, comments, anchors and tags
is not modelled: a file is the tree of its nodes.
-/

namespace Verif.Model

/-! ## Regular expressions -/

/-- A regular expression; a class of characters is a decidable predicate. -/
inductive Rx
  | empty
  | eps
  | cls (p : Char → Bool)
  | seq (a b : Rx)
  | alt (a b : Rx)
  | star (a : Rx)

namespace Rx

/-- Whether the empty text matches. -/
def nullable : Rx → Bool
  | empty => false
  | eps => true
  | cls _ => false
  | seq a b => a.nullable && b.nullable
  | alt a b => a.nullable || b.nullable
  | star _ => true

/-- What has to match after the character `c`. -/
def deriv (c : Char) : Rx → Rx
  | empty => empty
  | eps => empty
  | cls p => if p c then eps else empty
  | seq a b => if a.nullable then alt (seq (a.deriv c) b) (b.deriv c) else seq (a.deriv c) b
  | alt a b => alt (a.deriv c) (b.deriv c)
  | star a => seq (a.deriv c) (star a)

/-- `re.match('^...$', s)`. -/
def accepts (r : Rx) : List Char → Bool
  | [] => r.nullable
  | c :: s => accepts (r.deriv c) s

/-- One of the characters. -/
def chars (l : List Char) : Rx := cls fun c => decide (c ∈ l)

/-- `r?`. -/
def opt (r : Rx) : Rx := alt r eps

/-- `r+`. -/
def plus (r : Rx) : Rx := seq r (star r)

/-- A sequence. -/
def seqs : List Rx → Rx
  | [] => eps
  | r :: l => seq r (seqs l)

/-- Alternatives. -/
def alts : List Rx → Rx
  | [] => empty
  | r :: l => alt r (alts l)

/-- A literal text. -/
def lit (s : List Char) : Rx := seqs (s.map fun c => chars [c])

end Rx

open Rx

/-- `[-+]`. -/
def rxSign : Rx := chars ['-', '+']

/-- `[0-9]`. -/
def rxDigit : Rx := cls fun c => decide (48 ≤ c.toNat ∧ c.toNat ≤ 57)

/-- `[1-9]`. -/
def rxDigit1 : Rx := cls fun c => decide (49 ≤ c.toNat ∧ c.toNat ≤ 57)

/-- `[0-9_]`. -/
def rxDigitU : Rx := cls fun c => decide ((48 ≤ c.toNat ∧ c.toNat ≤ 57) ∨ c = '_')

/-- `[0-7_]`. -/
def rxOctU : Rx := cls fun c => decide ((48 ≤ c.toNat ∧ c.toNat ≤ 55) ∨ c = '_')

/-- `[0-9a-fA-F_]`. -/
def rxHexU : Rx := cls fun c => decide ((48 ≤ c.toNat ∧ c.toNat ≤ 57) ∨ (97 ≤ c.toNat ∧ c.toNat ≤ 102) ∨
  (65 ≤ c.toNat ∧ c.toNat ≤ 70) ∨ c = '_')

/-- `(?::[0-5]?[0-9])+`. -/
def rxSexagesimal : Rx := plus (seqs [chars [':'], opt (cls fun c => decide (48 ≤ c.toNat ∧ c.toNat ≤ 53)), rxDigit])

/-- `(?:[eE][-+][0-9]+)?`. -/
def rxExponent : Rx := opt (seqs [chars ['e', 'E'], rxSign, plus rxDigit])

/-- The resolver of `tag:yaml.org,2002:bool`. -/
def yamlTrue : List (List Char) := ["yes".toList, "Yes".toList, "YES".toList, "true".toList, "True".toList, "TRUE".toList,
  "on".toList, "On".toList, "ON".toList]

/-- The other words of the resolver of `tag:yaml.org,2002:bool`. -/
def yamlFalse : List (List Char) := ["no".toList, "No".toList, "NO".toList, "false".toList, "False".toList, "FALSE".toList,
  "off".toList, "Off".toList, "OFF".toList]

/-- The resolver of `tag:yaml.org,2002:null`. -/
def yamlNull : List (List Char) := ["~".toList, "null".toList, "Null".toList, "NULL".toList, []]

/-- The resolver of `tag:yaml.org,2002:float`. -/
def yamlFloatRx : Rx := alts [
  seqs [opt rxSign, rxDigit, star rxDigitU, chars ['.'], star rxDigitU, rxExponent],
  seqs [chars ['.'], rxDigit, star rxDigitU, rxExponent],
  seqs [opt rxSign, rxDigit, star rxDigitU, rxSexagesimal, chars ['.'], star rxDigitU],
  seqs [opt rxSign, chars ['.'], alts [lit "inf".toList, lit "Inf".toList, lit "INF".toList]],
  seqs [chars ['.'], alts [lit "nan".toList, lit "NaN".toList, lit "NAN".toList]]]

/-- The resolver of `tag:yaml.org,2002:int`. -/
def yamlIntRx : Rx := alts [
  seqs [opt rxSign, lit "0b".toList, plus (chars ['0', '1', '_'])],
  seqs [opt rxSign, lit "0".toList, plus rxOctU],
  seqs [opt rxSign, alt (lit "0".toList) (seq rxDigit1 (star rxDigitU))],
  seqs [opt rxSign, lit "0x".toList, plus rxHexU],
  seqs [opt rxSign, rxDigit1, star rxDigitU, rxSexagesimal]]

/-- `[ \t]`. -/
def rxBlank : Rx := chars [' ', '\t']

/-- The resolver of `tag:yaml.org,2002:timestamp`. -/
def yamlTimestampRx : Rx := alts [
  seqs [rxDigit, rxDigit, rxDigit, rxDigit, chars ['-'], rxDigit, rxDigit, chars ['-'], rxDigit, rxDigit],
  seqs [rxDigit, rxDigit, rxDigit, rxDigit, chars ['-'], rxDigit, opt rxDigit, chars ['-'], rxDigit, opt rxDigit,
    alt (chars ['T', 't']) (plus rxBlank), rxDigit, opt rxDigit, chars [':'], rxDigit, rxDigit, chars [':'], rxDigit, rxDigit,
    opt (seq (chars ['.']) (star rxDigit)),
    opt (seq (star rxBlank) (alt (chars ['Z']) (seqs [rxSign, rxDigit, opt rxDigit, opt (seqs [chars [':'], rxDigit, rxDigit])])))]]

/-! ## Constructors -/

/-- The digit denoted by a character in a base up to 16. -/
def baseDigit (b : ℕ) (c : Char) : Option ℕ :=
  let l := asciiLower c
  let v := if 48 ≤ l.toNat ∧ l.toNat ≤ 57 then l.toNat - 48 else if 97 ≤ l.toNat ∧ l.toNat ≤ 102 then l.toNat - 87 else b
  if v < b then some v else none

/-- `int(s, b)`, for a text of digits only. -/
def intBase (b : ℕ) (s : List Char) : Except PyErr ℤ :=
  if s = [] then .error .valueError
  else match s.mapM (baseDigit b) with
    | none => .error .valueError
    | some ds => .ok (ds.foldl (fun a d => b * a + d) 0 : ℕ)

/-- `value.split(':')`. -/
def splitColon : List Char → List (List Char)
  | [] => [[]]
  | c :: cs => if c = ':' then [] :: splitColon cs else consHead c (splitColon cs)

/-- `SafeConstructor.construct_yaml_int`, after the sign. -/
def yamlMagnitude : List Char → Except PyErr ℤ
  | ['0'] => .ok 0
  | '0' :: 'b' :: s => intBase 2 s
  | '0' :: 'x' :: s => intBase 16 s
  | '0' :: s => intBase 8 ('0' :: s)
  | s => if ':' ∈ s then ((splitColon s).mapM (intBase 10)).map fun (ds : List ℤ) => ds.foldl (fun a d => 60 * a + d) 0
    else intBase 10 s

/-- `SafeConstructor.construct_yaml_int`. -/
def yamlInt (t : List Char) : Except PyErr PyVal :=
  let r := splitSign (t.filter fun c => decide (c ≠ '_'))
  (yamlMagnitude r.2).map fun i => .int ((if r.1 then -1 else 1) * i)

/-- The number denoted by an unsigned decimal text. -/
def yamlDecimal (s : List Char) : Except PyErr ℚ :=
  match decimalVal s with
  | none => .error .valueError
  | some q => .ok q

/-- `SafeConstructor.construct_yaml_float`. Simplification: exact, no rounding. -/
def yamlFloat (t : List Char) : Except PyErr PyVal :=
  let r := splitSign ((t.filter fun c => decide (c ≠ '_')).map asciiLower)
  let sign : ℚ := if r.1 then -1 else 1
  if r.2 = ".inf".toList then .ok (.float (.inf r.1))
  else if r.2 = ".nan".toList then .ok (.float .nan)
  else if ':' ∈ r.2 then ((splitColon r.2).mapM yamlDecimal).map fun (ds : List ℚ) => .float (.fin (sign * ds.foldl (fun a d => 60 * a + d) 0))
  else (yamlDecimal r.2).map fun q => .float (.fin (sign * q))

/-- The days of a month. -/
def daysInMonth (y m : ℕ) : ℕ :=
  if m ∈ [4, 6, 9, 11] then 30
  else if m = 2 then (if y % 4 = 0 ∧ (y % 100 ≠ 0 ∨ y % 400 = 0) then 29 else 28)
  else 31

/-- `SafeConstructor.construct_yaml_timestamp`: a `datetime.date` or `datetime.datetime`, which are objects of no interest here;
`ValueError` for a date that does not exist. Simplification: times that do not exist are not told apart. -/
def yamlTimestamp (t : List Char) : Except PyErr PyVal :=
  let y := t.span fun c => (digitVal c).isSome
  let m := (y.2.drop 1).span fun c => (digitVal c).isSome
  let d := (m.2.drop 1).span fun c => (digitVal c).isSome
  let year := digitsVal0 y.1
  let month := digitsVal0 m.1
  let day := digitsVal0 d.1
  if 1 ≤ year ∧ 1 ≤ month ∧ month ≤ 12 ∧ 1 ≤ day ∧ day ≤ daysInMonth year month then .ok (.other 0) else .error .valueError

/-- A plain scalar: the resolvers in the order in which they are tried. `<<` and `=` have tags without constructors, and everything
else is a string. -/
def yamlScalar (t : List Char) : Except PyErr PyVal :=
  if t ∈ yamlTrue then .ok (.bool true)
  else if t ∈ yamlFalse then .ok (.bool false)
  else if yamlFloatRx.accepts t then yamlFloat t
  else if yamlIntRx.accepts t then yamlInt t
  else if t = "<<".toList then .error .unspecified
  else if t ∈ yamlNull then .ok .none
  else if yamlTimestampRx.accepts t then yamlTimestamp t
  else if t = "=".toList then .error .unspecified
  else .ok (.str (String.ofList t))

/-! ## Nodes -/

/-- A node of a YAML document. Simplification: the keys of mappings are strings; no tags and no aliases. -/
inductive YamlNode
  | plain (t : List Char)
  | quoted (t : List Char)
  | seq (l : List YamlNode)
  | map (m : List (String × YamlNode))

mutual

/-- `yaml.safe_load`: the object of a node. -/
def YamlNode.construct : YamlNode → Except PyErr PyVal
  | .plain t => yamlScalar t
  | .quoted t => .ok (.str (String.ofList t))
  | .seq l => (constructSeq l).map .list
  | .map m => (constructMap m []).map .dict

/-- `SafeConstructor.construct_sequence`. -/
def constructSeq : List YamlNode → Except PyErr (List PyVal)
  | [] => .ok []
  | n :: l => n.construct.bind fun v => (constructSeq l).map fun r => v :: r

/-- `SafeConstructor.construct_mapping`: `mapping[key] = value` for the items in turn. -/
def constructMap : List (String × YamlNode) → PyDict String PyVal → Except PyErr (PyDict String PyVal)
  | [], d => .ok d
  | (k, n) :: m, d => n.construct.bind fun v => constructMap m (dictSet d k v)

end

mutual

/-- Whether `json.dumps` can write the object: dates cannot be written. -/
def jsonPlain : PyVal → Bool
  | .none => true
  | .bool _ => true
  | .int _ => true
  | .float _ => true
  | .str _ => true
  | .list l => jsonPlainList l
  | .dict d => jsonPlainDict d
  | _ => false

def jsonPlainList : List PyVal → Bool
  | [] => true
  | v :: l => jsonPlain v && jsonPlainList l

def jsonPlainDict : List (String × PyVal) → Bool
  | [] => true
  | (_, v) :: l => jsonPlain v && jsonPlainDict l

end

/-- `Pipeline.from_yaml_config(fname)`, pipeline.py 396-402, and `Pipeline.__init__`, lines 65-75: the attribute `config`. The argument
of the log message of line 401 is computed whether or not the message is shown. -/
def fromYamlConfig (file : YamlNode) : Except PyErr PyVal :=
  file.construct.bind fun conf =>
    if jsonPlain conf then validatePipelineConfig conf else .error .typeError

end Verif.Model
