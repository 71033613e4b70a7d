import Verif.Model.PyVal
import Mathlib.Data.Rat.Floor

/-!
# Model of `riptide/reading/sigproc.py` and of the SIGPROC part of `metadata.py` and `time_series.py`

A file is a list of bytes. Numbers are stored as on a little-endian machine (`struct.unpack` uses the native byte order).
-/

namespace Verif.Model

/-- `fobj.read(n)` at position `pos`: the bytes and the new position. `-1` means everything up to the end of the file; a
buffered reader raises `ValueError` for numbers below. -/
def fileRead (f : List UInt8) (pos : ℕ) (n : ℤ) : Except PyErr (List UInt8 × ℕ) :=
  if n < -1 then .error .valueError
  else if n = -1 then .ok (f.drop pos, pos + (f.drop pos).length)
  else .ok ((f.drop pos).take n.toNat, pos + ((f.drop pos).take n.toNat).length)

/-- The unsigned number with the given bytes, least significant first. -/
def leNat : List UInt8 → ℕ
  | [] => 0
  | b :: l => b.toNat + 256 * leNat l

/-- `struct.unpack('i', b)`. -/
def unpackInt (b : List UInt8) : Except PyErr ℤ :=
  if b.length = 4 then .ok (if leNat b < 2 ^ 31 then (leNat b : ℤ) else (leNat b : ℤ) - 2 ^ 32) else .error .structError

/-- `struct.unpack('d', b)`: the 64 bits of the number. -/
def unpackDouble (b : List UInt8) : Except PyErr ℕ := if b.length = 8 then .ok (leNat b) else .error .structError

/-- `struct.unpack('B', b)`. -/
def unpackUchar (b : List UInt8) : Except PyErr ℕ := if b.length = 1 then .ok (leNat b) else .error .structError

/-- `b.decode()`: UTF-8. -/
def pyDecode (b : List UInt8) : Except PyErr String :=
  match String.fromUTF8? ⟨b.toArray⟩ with
  | some s => .ok s
  | none => .error .unicodeDecodeError

/-- `read_str(fobj)`, sigproc.py 69-77. -/
def readStr (f : List UInt8) (pos : ℕ) : Except PyErr (String × ℕ) :=
  (fileRead f pos 4).bind fun r =>
  (unpackInt r.1).bind fun size =>
  (fileRead f r.2 size).bind fun r =>
  (pyDecode r.1).map fun s => (s, r.2)

/-- The types of header values, sigproc.py 18-60; `unsupported` is any other type given in `extra_keys`. -/
inductive SigType
  | str
  | int
  | float
  | bool
  | unsupported
  deriving DecidableEq

/-- A value of the header; a `float` is given by its bits. -/
inductive SigVal
  | str (s : String)
  | int (i : ℤ)
  | float (bits : ℕ)
  | bool (b : Bool)
  deriving DecidableEq

/-- `sigproc_keydb`, sigproc.py 18-60. -/
def sigprocKeydb : PyDict String SigType := [
  ("filename", .str), ("telescope_id", .int), ("telescope", .str), ("machine_id", .int), ("data_type", .int),
  ("rawdatafile", .str), ("source_name", .str), ("barycentric", .int), ("pulsarcentric", .int), ("az_start", .float),
  ("za_start", .float), ("src_raj", .float), ("src_dej", .float), ("tstart", .float), ("tsamp", .float), ("nbits", .int),
  ("nsamples", .int), ("fch1", .float), ("foff", .float), ("fchannel", .float), ("nchans", .int), ("nifs", .int),
  ("refdm", .float), ("flux", .float), ("period", .float), ("nbeams", .int), ("ibeam", .int), ("hdrlen", .int),
  ("pb", .float), ("ecc", .float), ("asini", .float), ("orig_hdrlen", .int), ("new_hdrlen", .int), ("sampsize", .int),
  ("bandwidth", .float), ("fbottom", .float), ("ftop", .float), ("obs_date", .str), ("obs_time", .str), ("accel", .float),
  ("signed", .bool)]

/-- `HEADER_START`, `HEADER_END`, sigproc.py 64-65. -/
def headerStart : String := "HEADER_START"

def headerEnd : String := "HEADER_END"

/-- sigproc.py 91-102: the value of an attribute. The message of line 101 formats a type with `:s`, which raises `TypeError`. -/
def readValue (f : List UInt8) (pos : ℕ) : SigType → Except PyErr (SigVal × ℕ)
  | .str => (readStr f pos).map fun r => (.str r.1, r.2)
  | .int => (fileRead f pos 4).bind fun r => (unpackInt r.1).map fun v => (.int v, r.2)
  | .float => (fileRead f pos 8).bind fun r => (unpackDouble r.1).map fun v => (.float v, r.2)
  | .bool => (fileRead f pos 1).bind fun r => (unpackUchar r.1).map fun v => (.bool (v != 0), r.2)
  | .unsupported => .error .typeError

/-- `read_attribute(fobj, keydb)`, sigproc.py 80-103: key, value (`none` for the end of the header) and new position. -/
def readAttribute (keydb : PyDict String SigType) (f : List UInt8) (pos : ℕ) : Except PyErr (String × Option SigVal × ℕ) :=
  (readStr f pos).bind fun r =>
    if r.1 = headerEnd then .ok (r.1, none, r.2)
    else match dictGet keydb r.1 with
      | none => .error .keyError
      | some t => (readValue f r.2 t).map fun v => (r.1, some v.1, v.2)

theorem fileRead_pos {f : List UInt8} {pos : ℕ} {n : ℤ} {r : List UInt8 × ℕ} (h : fileRead f pos n = .ok r) :
    r.2 = pos + r.1.length ∧ (r.1.length ≤ f.length - pos) := by
  unfold fileRead at h
  split_ifs at h
  · cases h; exact ⟨rfl, by simp⟩
  · cases h; exact ⟨rfl, by simp⟩

theorem readStr_pos {f : List UInt8} {pos : ℕ} {r : String × ℕ} (h : readStr f pos = .ok r) :
    pos + 4 ≤ f.length ∧ pos + 4 ≤ r.2 ∧ r.2 ≤ f.length := by
  unfold readStr at h
  cases h1 : fileRead f pos 4 with
  | error e => rw [h1] at h; cases h
  | ok r1 =>
    rw [h1] at h
    simp only [Except.bind] at h
    obtain ⟨p1, p2⟩ := fileRead_pos h1
    have hlen : r1.1.length = 4 := by
      by_contra hne
      unfold unpackInt at h
      rw [if_neg hne] at h
      cases h
    cases h2 : unpackInt r1.1 with
    | error e => rw [h2] at h; cases h
    | ok size =>
      rw [h2] at h
      simp only at h
      cases h3 : fileRead f r1.2 size with
      | error e => rw [h3] at h; cases h
      | ok r2 =>
        rw [h3] at h
        simp only at h
        obtain ⟨q1, q2⟩ := fileRead_pos h3
        cases h4 : pyDecode r2.1 with
        | error e => rw [h4] at h; cases h
        | ok s =>
          rw [h4] at h
          cases h
          simp only
          omega

theorem readValue_pos {f : List UInt8} {pos : ℕ} (hpos : pos ≤ f.length) {t : SigType} {r : SigVal × ℕ}
    (h : readValue f pos t = .ok r) : pos ≤ r.2 ∧ r.2 ≤ f.length := by
  have key : ∀ {n : ℤ} {r1 : List UInt8 × ℕ}, fileRead f pos n = .ok r1 → pos ≤ r1.2 ∧ r1.2 ≤ f.length := by
    intro n r1 h1
    have := fileRead_pos h1
    omega
  cases t with
  | str =>
    unfold readValue at h
    cases h1 : readStr f pos with
    | error e => rw [h1] at h; cases h
    | ok r1 =>
      rw [h1] at h; cases h
      have := readStr_pos h1
      simp only; omega
  | int =>
    unfold readValue at h
    cases h1 : fileRead f pos 4 with
    | error e => rw [h1] at h; cases h
    | ok r1 =>
      rw [h1] at h
      simp only [Except.bind] at h
      cases h2 : unpackInt r1.1 with
      | error e => rw [h2] at h; cases h
      | ok v => rw [h2] at h; cases h; exact key h1
  | float =>
    unfold readValue at h
    cases h1 : fileRead f pos 8 with
    | error e => rw [h1] at h; cases h
    | ok r1 =>
      rw [h1] at h
      simp only [Except.bind] at h
      cases h2 : unpackDouble r1.1 with
      | error e => rw [h2] at h; cases h
      | ok v => rw [h2] at h; cases h; exact key h1
  | bool =>
    unfold readValue at h
    cases h1 : fileRead f pos 1 with
    | error e => rw [h1] at h; cases h
    | ok r1 =>
      rw [h1] at h
      simp only [Except.bind] at h
      cases h2 : unpackUchar r1.1 with
      | error e => rw [h2] at h; cases h
      | ok v => rw [h2] at h; cases h; exact key h1
  | unsupported => unfold readValue at h; cases h

/-- Every attribute takes at least four bytes of the file. -/
theorem readAttribute_pos {keydb : PyDict String SigType} {f : List UInt8} {pos : ℕ} {r : String × Option SigVal × ℕ}
    (h : readAttribute keydb f pos = .ok r) : pos + 4 ≤ f.length ∧ pos + 4 ≤ r.2.2 ∧ r.2.2 ≤ f.length := by
  unfold readAttribute at h
  cases h1 : readStr f pos with
  | error e => rw [h1] at h; cases h
  | ok r1 =>
    rw [h1] at h
    simp only [Except.bind] at h
    have hp := readStr_pos h1
    by_cases hk : r1.1 = headerEnd
    · rw [if_pos hk] at h; cases h; exact hp
    · rw [if_neg hk] at h
      cases h2 : dictGet keydb r1.1 with
      | none => rw [h2] at h; cases h
      | some t =>
        rw [h2] at h
        simp only at h
        cases h3 : readValue f r1.2 t with
        | error e => rw [h3] at h; cases h
        | ok v =>
          rw [h3] at h; cases h
          have := readValue_pos hp.2.2 h3
          simp only; omega

/-- The `while True` loop of `read_sigproc_header`, sigproc.py 138-145. -/
def headerLoop (keydb : PyDict String SigType) (f : List UInt8) (pos : ℕ) (attrs : PyDict String SigVal) :
    Except PyErr (PyDict String SigVal × ℕ) :=
  match _h : readAttribute keydb f pos with
  | .error e => .error e
  | .ok (_, none, pos') => .ok (attrs, pos')
  | .ok (key, some val, pos') => headerLoop keydb f pos' (dictSet attrs key val)
termination_by f.length - pos
decreasing_by
  have := readAttribute_pos _h
  simp only at this
  omega

/-- `read_sigproc_header(fobj, extra_keys)`, sigproc.py 106-145: attributes and size of the header. -/
def readSigprocHeader (f : List UInt8) (extraKeys : PyDict String SigType) : Except PyErr (PyDict String SigVal × ℕ) :=
  let keydb := extraKeys.foldl (fun d kv => dictSet d kv.1 kv.2) sigprocKeydb
  (readStr f 0).bind fun r =>
    if ¬ r.1 = headerStart then .error .assertionError
    else headerLoop keydb f r.2 []

/-- `divmod(x, y)` for `x ≥ 0`, `y > 0`. -/
def pyDivmod (x y : ℚ) : ℚ × ℚ := ((⌊x / y⌋ : ℤ), x - y * (⌊x / y⌋ : ℤ))

/-- `numpy.sign`. -/
def npSign (x : ℚ) : ℚ := if x < 0 then -1 else if x = 0 then 0 else 1

/-- `parse_float_coord(f)`, sigproc.py 148-156. Simplification: exact arithmetic. -/
def parseFloatCoord (f : ℚ) : ℚ :=
  let sign := npSign f
  let x := |f|
  let hh := (pyDivmod x 10000).1
  let x := (pyDivmod x 10000).2
  let mm := (pyDivmod x 100).1
  let ss := (pyDivmod x 100).2
  sign * (hh + mm / 60 + ss / 3600)

/-- `d[key]`. -/
def dictItem {ν : Type*} (d : PyDict String ν) (key : String) : Except PyErr ν :=
  match dictGet d key with
  | some v => .ok v
  | none => .error .keyError

/-- A value used as an integer. Simplification: a `bool` or `float`, possible only if `extra_keys` overrides a standard key, is
rejected. -/
def SigVal.asInt : SigVal → Except PyErr ℤ
  | .int i => .ok i
  | _ => .error .typeError

/-- A value used as a floating point number. -/
def SigVal.asFloat : SigVal → Except PyErr PyFloat
  | .float bits => .ok (decodeDouble bits)
  | _ => .error .typeError

/-- `SigprocHeader`, sigproc.py 159-197: the attributes, the size of the header and the size of the file. -/
structure SigHeader where
  attrs : PyDict String SigVal
  bytesize : ℕ
  filesize : ℕ

/-- `SigprocHeader(fname, extra_keys)`, sigproc.py 162-166. -/
def sigHeader (f : List UInt8) (extraKeys : PyDict String SigType) : Except PyErr SigHeader :=
  (readSigprocHeader f extraKeys).map fun r => { attrs := r.1, bytesize := r.2, filesize := f.length }

/-- `a // b` for integers. -/
def pyFloorDiv (a b : ℤ) : Except PyErr ℤ := if b = 0 then .error .zeroDivisionError else .ok (a.fdiv b)

/-- `bytes_per_sample`, sigproc.py 178-180. -/
def SigHeader.bytesPerSample (h : SigHeader) : Except PyErr ℤ :=
  (dictItem h.attrs "nchans").bind fun v => v.asInt.bind fun nchans =>
  (dictItem h.attrs "nbits").bind fun v => v.asInt.bind fun nbits =>
  .ok ((nchans * nbits).fdiv 8)

/-- `nsamp`, sigproc.py 182-185. -/
def SigHeader.nsamp (h : SigHeader) : Except PyErr ℤ :=
  h.bytesPerSample.bind fun b => pyFloorDiv ((h.filesize : ℤ) - h.bytesize) b

/-- `tobs`, sigproc.py 187-190. -/
def SigHeader.tobs (h : SigHeader) : Except PyErr PyFloat :=
  h.nsamp.bind fun n => (dictItem h.attrs "tsamp").bind fun v => v.asFloat.map fun t => t.mulInt n

/-- A coordinate times the number of degrees per unit. -/
def coordDegrees (degPerUnit : ℚ) : PyFloat → PyFloat
  | .fin q => .fin (degPerUnit * parseFloatCoord q)
  | y => y

/-- `skycoord`, sigproc.py 192-197, with both coordinates in degrees: the right ascension is given in hours of 15 degrees.
Simplification: the limits on coordinates imposed by astropy (declination between -90 and 90 degrees) and the reduction of right
ascensions modulo 360 degrees are not modelled, and a `float` that is not finite is passed on. -/
def SigHeader.skycoord (h : SigHeader) : Except PyErr (PyFloat × PyFloat) :=
  (dictItem h.attrs "src_raj").bind fun v => v.asFloat.bind fun ra =>
  (dictItem h.attrs "src_dej").bind fun v => v.asFloat.map fun dec => (coordDegrees 15 ra, coordDegrees 1 dec)

/-- A value as a python object. -/
def SigVal.toPy : SigVal → PyVal
  | .str s => .str s
  | .int i => .int i
  | .float bits => .float (decodeDouble bits)
  | .bool b => .bool b

end Verif.Model
