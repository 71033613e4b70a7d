import Verif.Model.Sigproc

/-!
# Model of `riptide/metadata.py` and of `TimeSeries.from_sigproc`
-/

namespace Verif.Model

/-- A key of a python dictionary: a string or anything else. -/
inductive DKey
  | str (s : String)
  | nonStr (tag : ℕ)
  deriving DecidableEq

/-- The content of a `Metadata` object, or of the dictionary given to its constructor. -/
abbrev MetaDict := PyDict DKey PyVal

mutual

/-- `json.dumps(x)` (with the default encoder) does not raise. It returns a non-empty string, which is true. Simplification: no
reference cycles. -/
def PyVal.jsonable : PyVal → Bool
  | .none => true
  | .bool _ => true
  | .int _ => true
  | .float _ => true
  | .str _ => true
  | .list l => jsonableList l
  | .dict d => jsonableDict d
  | .metadata d => jsonableDict d
  | .ndarray _ => false
  | .npInt _ => false
  | .npFloat _ => false
  | .frame _ _ _ => false
  | .sky _ _ => false
  | .object _ _ _ => false
  | .other _ => false

def jsonableList : List PyVal → Bool
  | [] => true
  | v :: l => v.jsonable && jsonableList l

def jsonableDict : List (String × PyVal) → Bool
  | [] => true
  | (_, v) :: l => v.jsonable && jsonableDict l

end

/-- The reserved keys of the metadata, in the order of metadata.py 11-17. -/
def reservedMetaKeys : List String := ["source_name", "skycoord", "dm", "mjd", "tobs", "fname"]

/-- `Or(str, None)`. -/
def validOptStr : PyVal → Bool
  | .str _ => true
  | .none => true
  | _ => false

/-- `Or(SkyCoord, None)`. -/
def validOptSky : PyVal → Bool
  | .sky _ _ => true
  | .none => true
  | _ => false

/-- `Or(And(float, lambda x: x >= 0), None)`. -/
def validOptNonneg : PyVal → Bool
  | .float x => x.nonneg
  | .none => true
  | _ => false

/-- `Or(And(float, lambda x: x > 0), None)`. -/
def validOptPos : PyVal → Bool
  | .float x => x.pos
  | .none => true
  | _ => false

/-- Validation of one item by `SCHEMA`, metadata.py 11-23. The `schema` library tries literal keys before the type `str`, and
reports the failure of the value for the first key that matches; a key that matches nothing is skipped
(`ignore_extra_keys=True`). -/
def validMetaItem : DKey → PyVal → Bool
  | .nonStr _, _ => true
  | .str k, v =>
    if k = "source_name" then validOptStr v
    else if k = "skycoord" then validOptSky v
    else if k = "dm" then validOptNonneg v
    else if k = "mjd" then validOptNonneg v
    else if k = "tobs" then validOptPos v
    else if k = "fname" then validOptStr v
    else v.jsonable

/-- `self.setdefault(k, None)`. -/
def metaSetDefault (d : MetaDict) (k : String) : MetaDict :=
  match dictGet d (.str k) with
  | some _ => d
  | none => dictSet d (.str k) .none

/-- `Metadata(items)`, metadata.py 45-51. -/
def metadataInit (items : MetaDict) : Except PyErr MetaDict :=
  if items.all (fun kv => validMetaItem kv.1 kv.2) then .ok (reservedMetaKeys.foldl metaSetDefault items)
  else .error .schemaError

/-- `Metadata(items)` where `items` is the object number `ref` of a heap of dictionaries; the new object is put at the end of the
heap. -/
def metadataNew (heap : List MetaDict) (ref : ℕ) : Except PyErr (List MetaDict × ℕ) :=
  match heap[ref]? with
  | none => .error .unspecified
  | some items => (metadataInit items).map fun d => (heap ++ [d], heap.length)

/-- `d[key] = value` on the object number `ref`. -/
def heapSetItem (heap : List MetaDict) (ref : ℕ) (key : DKey) (value : PyVal) : List MetaDict :=
  match heap[ref]? with
  | none => heap
  | some d => heap.set ref (dictSet d key value)

/-- `attrs.get(key, None)`. -/
def getOrNone (d : MetaDict) (key : String) : PyVal := (dictGet d (.str key)).getD .none

/-- The checks of metadata.py 88-97. -/
def sigprocChecks (h : SigHeader) : Except PyErr Unit :=
  (dictItem h.attrs "nchans").bind fun v => v.asInt.bind fun nchans =>
  if nchans > 1 then .error .valueError
  else
    (dictItem h.attrs "nbits").bind fun v => v.asInt.bind fun nbits =>
    if ¬ (nbits = 8 ∨ nbits = 32) then .error .valueError
    else if nbits = 8 ∧ dictGet h.attrs "signed" = none then .error .valueError
    else .ok ()

/-- `Metadata.from_sigproc(sh)`, metadata.py 73-106; `fname` is the path of the file. -/
def metadataFromSigproc (h : SigHeader) (fname : String) : Except PyErr MetaDict :=
  (sigprocChecks h).bind fun _ =>
  let attrs : MetaDict := h.attrs.map (fun kv => (DKey.str kv.1, kv.2.toPy))
  let attrs := dictSet attrs (.str "dm") (getOrNone attrs "refdm")
  h.skycoord.bind fun c =>
  let attrs := dictSet attrs (.str "skycoord") (.sky c.1 c.2)
  let attrs := dictSet attrs (.str "source_name") (getOrNone attrs "source_name")
  let attrs := dictSet attrs (.str "mjd") (getOrNone attrs "tstart")
  let attrs := dictSet attrs (.str "fname") (.str fname)
  h.tobs.bind fun t =>
  metadataInit (dictSet attrs (.str "tobs") (.float t))

/-- A sample as read from a file: an 8-bit integer, converted exactly to `float32`; or the 32 bits of a `float32`. -/
inductive RawSample
  | int8 (i : ℤ)
  | float32 (bits : ℕ)
  deriving DecidableEq

/-- `np.fromfile(fobj, dtype=np.int8)` and `np.uint8`. -/
def readInt8 (signed : Bool) (b : List UInt8) : List RawSample :=
  b.map (fun x => .int8 (if signed ∧ 128 ≤ x.toNat then (x.toNat : ℤ) - 256 else x.toNat))

/-- `np.fromfile(fobj, dtype=np.float32)`: an incomplete item at the end of the file is ignored. -/
def readFloat32 : List UInt8 → List RawSample
  | a :: b :: c :: d :: l => .float32 (leNat [a, b, c, d]) :: readFloat32 l
  | _ => []

/-- The truth value of a python object read from a header. -/
def SigVal.truth : SigVal → Bool
  | .str s => s != ""
  | .int i => i != 0
  | .float bits => decodeDouble bits != .fin 0
  | .bool b => b

/-- time_series.py 352-360: the data. -/
def loadSigproc (f : List UInt8) (h : SigHeader) : Except PyErr (List RawSample) :=
  (dictItem h.attrs "nbits").bind fun v => v.asInt.bind fun nbits =>
  if nbits = 8 then (dictItem h.attrs "signed").map fun s => readInt8 s.truth (f.drop h.bytesize)
  else .ok (readFloat32 (f.drop h.bytesize))

/-- A `TimeSeries` read from a file: the samples, the sampling time and the metadata. -/
structure LoadedSeries where
  samples : List RawSample
  tsamp : PyFloat
  metadata : MetaDict

/-- `TimeSeries.from_sigproc(fname, extra_keys)`, time_series.py 318-361, for a file with content `f`. The `TimeSeries` constructor
validates a copy of the metadata and sets the entry `tobs` (time_series.py 46-50). -/
def timeSeriesFromSigproc (f : List UInt8) (extraKeys : PyDict String SigType) (fname : String) : Except PyErr LoadedSeries :=
  (sigHeader f extraKeys).bind fun h =>
  (metadataFromSigproc h fname).bind fun md =>
  (loadSigproc f h).bind fun samples =>
  (dictItem h.attrs "tsamp").bind fun v => v.asFloat.bind fun tsamp =>
  (metadataInit md).map fun md =>
    { samples, tsamp, metadata := dictSet md (.str "tobs") (.float (tsamp.mulInt samples.length)) }

end Verif.Model
