import Verif.Model.Metadata

/-!
# Model of `riptide/serialization.py`

The text of a JSON document is in `Model/JsonText.lean`; here a document is the tree that `json.dumps` writes and `json.loads` reads.
-/

namespace Verif.Model

/-- A JSON document. An object is a list of pairs in the order of the text. -/
inductive Json
  | null
  | bool (b : Bool)
  | int (i : ℤ)
  | float (x : PyFloat)
  | str (s : String)
  | arr (l : List Json)
  | obj (d : List (String × Json))

/-! ## base64 -/

/-- The alphabet of base64. -/
def b64Char (n : ℕ) : Char :=
  if n < 26 then Char.ofNat (65 + n)
  else if n < 52 then Char.ofNat (71 + n)
  else if n < 62 then Char.ofNat (n - 4)
  else if n = 62 then '+' else '/'

/-- The inverse of `b64Char`. -/
def b64Val (c : Char) : Option ℕ :=
  let n := c.toNat
  if 65 ≤ n ∧ n ≤ 90 then some (n - 65)
  else if 97 ≤ n ∧ n ≤ 122 then some (n - 71)
  else if 48 ≤ n ∧ n ≤ 57 then some (n + 4)
  else if c = '+' then some 62
  else if c = '/' then some 63
  else none

/-- `base64.b64encode(data)`. -/
def b64encode : List UInt8 → List Char
  | [] => []
  | [a] => [b64Char (a.toNat / 4), b64Char (a.toNat % 4 * 16), '=', '=']
  | [a, b] => [b64Char (a.toNat / 4), b64Char (a.toNat % 4 * 16 + b.toNat / 16), b64Char (b.toNat % 16 * 4), '=']
  | a :: b :: c :: l =>
    b64Char (a.toNat / 4) :: b64Char (a.toNat % 4 * 16 + b.toNat / 16) :: b64Char (b.toNat % 16 * 4 + c.toNat / 64) ::
      b64Char (c.toNat % 64) :: b64encode l

/-- One group of four characters of `base64.b64decode`. -/
def b64Group (c1 c2 c3 c4 : Char) : Option (List UInt8) :=
  (b64Val c1).bind fun v1 => (b64Val c2).bind fun v2 =>
  if c3 = '=' then (if c4 = '=' then some [UInt8.ofNat (v1 * 4 + v2 / 16)] else none)
  else (b64Val c3).bind fun v3 =>
    if c4 = '=' then some [UInt8.ofNat (v1 * 4 + v2 / 16), UInt8.ofNat (v2 % 16 * 16 + v3 / 4)]
    else (b64Val c4).map fun v4 =>
      [UInt8.ofNat (v1 * 4 + v2 / 16), UInt8.ofNat (v2 % 16 * 16 + v3 / 4), UInt8.ofNat (v3 % 4 * 64 + v4)]

/-- `base64.b64decode(s)`. Simplification: python skips characters that are not in the alphabet, and stops at the padding; here
they make the decoding fail (`none`) and the padding is not required to be at the end. -/
def b64decode : List Char → Option (List UInt8)
  | [] => some []
  | c1 :: c2 :: c3 :: c4 :: l => (b64Group c1 c2 c3 c4).bind fun g => (b64decode l).map fun r => g ++ r
  | _ => none

/-! ## Encoding -/

/-- The bytes of one element, for the names of numpy types that are found in riptide objects, and `object`. Simplification: other
types are not modelled. -/
def itemSize (dtype : String) : Option ℕ :=
  dictGet [("bool", 1), ("int8", 1), ("uint8", 1), ("int16", 2), ("uint16", 2), ("float16", 2), ("int32", 4), ("uint32", 4),
    ("float32", 4), ("int64", 8), ("uint64", 8), ("float64", 8), ("complex64", 8), ("complex128", 16), ("object", 8)] dtype

/-- serialization.py 34-42: an array. -/
def encodeArray (a : NdArr) : Json :=
  .obj [("__type__", .str "numpy.ndarray"), ("data", .str (String.ofList (b64encode a.bytes))), ("dtype", .str a.dtype),
    ("shape", .arr (a.shape.map fun (n : ℕ) => .int n))]

/-- serialization.py 72-76: the version written; `current` is `riptide.__version__`. -/
def writtenVersion (current : String) : Option String → String
  | some v => if v = "" then current else v
  | none => current

mutual

/-- `json.loads(json.dumps(obj, cls=JSONEncoder))` without the object hook, serialization.py 25-79, by riptide version `current`. `dict` and its subclass `Metadata`
are written by the json module itself. -/
def toJson (current : String) : PyVal → Except PyErr Json
  | .none => .ok .null
  | .bool b => .ok (.bool b)
  | .int i => .ok (.int i)
  | .float x => .ok (.float x)
  | .str s => .ok (.str s)
  | .list l => (toJsonList current l).map .arr
  | .dict d => (toJsonDict current d).map .obj
  | .metadata d => (toJsonDict current d).map .obj
  | .ndarray a => .ok (encodeArray a)
  | .npInt i => .ok (.int i)
  | .npFloat x => .ok (.float x)
  | .frame _ values columns =>
    .ok (.obj [("__type__", .str "pandas.DataFrame"), ("values", encodeArray values), ("columns", .arr (columns.map .str))])
  | .sky ra dec => .ok (.obj [("__type__", .str "astropy.SkyCoord"), ("rajd", .float ra), ("decjd", .float dec), ("frame", .str "icrs")])
  | .object cls version fields => (toJsonDict current fields).map fun items =>
    .obj (items ++ [("__type__", .str cls), ("__version__", .str (writtenVersion current version))])
  | .other _ => .error .typeError

def toJsonList (current : String) : List PyVal → Except PyErr (List Json)
  | [] => .ok []
  | v :: l => (toJson current v).bind fun j => (toJsonList current l).map fun r => j :: r

def toJsonDict (current : String) : List (String × PyVal) → Except PyErr (List (String × Json))
  | [] => .ok []
  | (k, v) :: l => (toJson current v).bind fun j => (toJsonDict current l).map fun r => (k, j) :: r

end

/-! ## Decoding -/

/-- A list of natural numbers. -/
def asShape : List PyVal → Option (List ℕ)
  | [] => some []
  | .int i :: l => if 0 ≤ i then (asShape l).map fun r => i.toNat :: r else none
  | _ :: _ => none

/-- A list of strings. -/
def asStrings : List PyVal → Option (List String)
  | [] => some []
  | .str s :: l => (asStrings l).map fun r => s :: r
  | _ :: _ => none

/-- `np.frombuffer(data, dtype).reshape(shape)`: the array is read-only. -/
def fromBuffer (bytes : List UInt8) (dtype : String) (shape : List ℕ) : Except PyErr PyVal :=
  if dtype = "object" then .error .valueError
  else match itemSize dtype with
  | none => .error .typeError
  | some w =>
    if bytes.length % w ≠ 0 ∨ shape.prod ≠ bytes.length / w then .error .valueError
    else .ok (.ndarray { dtype, shape, bytes, writable := false })

/-- serialization.py 88-91. Simplification: entries of other types than those written by the encoder are not modelled. -/
def decodeArray (items : PyDict String PyVal) : Except PyErr PyVal :=
  (dictItem items "data").bind fun data => (dictItem items "dtype").bind fun dtype => (dictItem items "shape").bind fun shape =>
  match data, dtype, shape with
  | .str s, .str t, .list l =>
    match b64decode s.toList, asShape l with
    | some bytes, some sh => fromBuffer bytes t sh
    | none, _ => .error .valueError
    | some _, none => .error .unspecified
  | _, _, _ => .error .unspecified

/-- serialization.py 95-96: `pandas.DataFrame(values, columns=columns)`. All the columns have the type of the array. Simplification:
only two-dimensional arrays and lists of strings. -/
def decodeFrame (items : PyDict String PyVal) : Except PyErr PyVal :=
  (dictItem items "values").bind fun values => (dictItem items "columns").bind fun columns =>
  match values, columns with
  | .ndarray a, .list l =>
    match asStrings l, a.shape with
    | some cols, [_, m] => if m = cols.length then .ok (.frame (cols.map fun _ => a.dtype) a cols) else .error .valueError
    | _, _ => .error .unspecified
  | _, _ => .error .unspecified

/-- serialization.py 98-102. Simplification: `ra * uu.deg` and back is exact. -/
def decodeSky (items : PyDict String PyVal) : Except PyErr PyVal :=
  (dictItem items "rajd").bind fun ra => (dictItem items "decjd").bind fun dec => (dictItem items "frame").bind fun frame =>
  match ra, dec, frame with
  | .float x, .float y, .str f => if f = "icrs" then .ok (.sky x y) else .error .unspecified
  | _, _, _ => .error .unspecified

/-- `Metadata(items)` for a dictionary with keys of type `str`. -/
def metadataOfDict (d : PyDict String PyVal) : Except PyErr (PyDict String PyVal) :=
  (metadataInit (d.map fun kv => (DKey.str kv.1, kv.2))).map fun md =>
    md.filterMap fun kv => match kv.1 with
      | .str k => some (k, kv.2)
      | .nonStr _ => none

/-- `TimeSeries(data, tsamp, metadata, copy=False)`, time_series.py 39-50, as called by `from_dict`, 387-389. Simplification: only arrays
of type `float32`, which are kept as they are. -/
def timeSeriesFields (data tsamp metadata : PyVal) : Except PyErr (PyDict String PyVal) :=
  match data, tsamp, metadata with
  | .ndarray a, .float t, .dict d =>
    if a.dtype = "float32" then (metadataOfDict d).map fun md =>
      [("data", .ndarray a), ("tsamp", .float t), ("metadata", .metadata (dictSet md "tobs" (.float (t.mulInt a.shape.prod))))]
    else .error .unspecified
  | _, _, _ => .error .unspecified

/-- `cls.from_dict(items)`: the attributes of the object, in the order of its `to_dict`; time_series.py 387-389, periodogram.py 29-34 and
55-57, candidate.py 45-49 and 100-103. -/
def fromDict (cls : String) (items : PyDict String PyVal) : Except PyErr (PyDict String PyVal) :=
  if cls = "TimeSeries" then
    (dictItem items "data").bind fun data => (dictItem items "tsamp").bind fun tsamp => (dictItem items "metadata").bind fun md =>
    timeSeriesFields data tsamp md
  else if cls = "Periodogram" then
    (dictItem items "widths").bind fun widths => (dictItem items "periods").bind fun periods =>
    (dictItem items "foldbins").bind fun foldbins => (dictItem items "snrs").bind fun snrs =>
    (dictItem items "metadata").bind fun md =>
    (match md with
      | .none => (metadataOfDict []).map PyVal.metadata
      | _ => .ok md).map fun md =>
    [("widths", widths), ("periods", periods), ("foldbins", foldbins), ("snrs", snrs), ("metadata", md)]
  else if cls = "Candidate" then
    (dictItem items "params").bind fun params => (dictItem items "tsmeta").bind fun tsmeta =>
    (dictItem items "peaks").bind fun peaks => (dictItem items "subints").map fun subints =>
    [("params", params), ("tsmeta", tsmeta), ("peaks", peaks), ("subints", subints)]
  else .error .attributeError

/-- serialization.py 104-116: a riptide object. -/
def decodeObject (current : String) (cls : String) (items : PyDict String PyVal) : Except PyErr PyVal :=
  if cls = "Metadata" then (metadataOfDict items).map .metadata
  else (fromDict cls items).bind fun fields =>
    match dictGet items "__version__" with
    | none => .ok (.object cls (some current) fields)
    | some (.str v) => .ok (.object cls (some v) fields)
    | some _ => .error .unspecified

/-- `object_hook(items)`, serialization.py 82-116. -/
def objectHook (current : String) (items : PyDict String PyVal) : Except PyErr PyVal :=
  match dictGet items "__type__" with
  | none => .ok (.dict items)
  | some (.str t) =>
    if t = "numpy.ndarray" then decodeArray items
    else if t = "pandas.DataFrame" then decodeFrame items
    else if t = "astropy.SkyCoord" then decodeSky items
    else decodeObject current t items
  | some _ => .error .typeError

mutual

/-- `json.loads(s, object_hook=object_hook)`: the hook is applied to the inner objects first; of equal keys the last counts. -/
def fromJson (current : String) : Json → Except PyErr PyVal
  | .null => .ok .none
  | .bool b => .ok (.bool b)
  | .int i => .ok (.int i)
  | .float x => .ok (.float x)
  | .str s => .ok (.str s)
  | .arr l => (fromJsonList current l).map .list
  | .obj d => (fromJsonDict current d).bind fun items => objectHook current (dictOf Prod.fst Prod.snd items)

def fromJsonList (current : String) : List Json → Except PyErr (List PyVal)
  | [] => .ok []
  | j :: l => (fromJson current j).bind fun v => (fromJsonList current l).map fun r => v :: r

def fromJsonDict (current : String) : List (String × Json) → Except PyErr (List (String × PyVal))
  | [] => .ok []
  | (k, j) :: l => (fromJson current j).bind fun v => (fromJsonDict current l).map fun r => (k, v) :: r

end

/-- `save_json(fname, obj)` by riptide version `saver` and then `load_json(fname)` by version `loader`, serialization.py 119-152. -/
def saveLoad (saver loader : String) (v : PyVal) : Except PyErr PyVal := (toJson saver v).bind (fromJson loader)

end Verif.Model
