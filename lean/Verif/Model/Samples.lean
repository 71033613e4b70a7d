import Verif.Model.Float
import Verif.Model.Metadata
import Verif.Model.Products
import Verif.Spec.FloatBits

/-!
# Model of the conversion of samples to `float32`

`TimeSeries.__init__` (time_series.py 40-50) converts everything to `float32`; `from_binary` (242-262) and `from_npy_file` (264-282) read the samples of a file first. Here the samples are numbers as they
are stored, with infinities and NaN, and the conversion rounds as IEEE 754 prescribes. The computers are little-endian.
Simplifications: arrays have one dimension; the two zeros, and the NaN, are not distinguished; types other than integers and the binary formats (complex numbers, text, objects) are not modelled.
-/

namespace Verif.Model

open Verif.Spec

/-- The type of the elements of an array: floating point numbers, or integers of some bytes, with or without a sign. -/
inductive SampleType
  | float (f : FloatFormat)
  | int (signed : Bool) (size : ℕ)

/-- `dtype.itemsize`. -/
def SampleType.size : SampleType → ℕ
  | .float f => f.size
  | .int _ n => n

/-- The number stored in the bytes of one element. -/
def SampleType.decode : SampleType → List UInt8 → PyFloat
  | .float f, b => f.value (leNat b)
  | .int signed n, b => .fin (if signed ∧ 2 ^ (8 * n - 1) ≤ leNat b then (leNat b : ℤ) - 2 ^ (8 * n) else leNat b : ℤ)

/-- The elements of an array of `n` elements with the given bytes. -/
def SampleType.elems (t : SampleType) (n : ℕ) (bytes : List UInt8) : List PyFloat :=
  (List.range n).map fun i => t.decode ((bytes.drop (i * t.size)).take t.size)

/-- `np.fromfile(fname, dtype)`: an incomplete element at the end of the file is ignored. -/
def fromfile (t : SampleType) (bytes : List UInt8) : List PyFloat := t.elems (bytes.length / t.size) bytes

/-- The conversion of a number to a binary format: to nearest, ties to even, infinite if the result is too large for the format. -/
def roundTo (f : FloatFormat) (q : ℚ) : PyFloat :=
  if q = 0 then .fin 0 else
  let u : ℤ := max f.emin (Int.log 2 |q| - (f.prec - 1 : ℕ))
  let a : ℚ := roundHalfEven (|q| / 2 ^ u) * 2 ^ u
  if 2 ^ (f.emin + 2 ^ f.expBits - 3 + f.prec : ℤ) ≤ a then .inf (decide (q < 0)) else .fin (if q < 0 then -a else a)

/-- The conversion of a stored number. -/
def castTo (f : FloatFormat) : PyFloat → PyFloat
  | .fin q => roundTo f q
  | .inf s => .inf s
  | .nan => .nan

/-- A `TimeSeries` with its samples as stored, and the entry `tobs` of its metadata. -/
structure SampleSeries where
  data : List PyFloat
  tsamp : PyFloat
  tobs : PyFloat
  deriving DecidableEq

/-- `TimeSeries(array, tsamp)` and `TimeSeries.from_numpy_array(array, tsamp)`, time_series.py 40-50 and 222-240, for an array with the given elements. That the conversion makes a copy or not is in
`Model/Aliasing.lean`. -/
def seriesOfArray (x : List PyFloat) (tsamp : PyFloat) : SampleSeries :=
  { data := x.map (castTo binary32), tsamp, tobs := tsamp.mulInt x.length }

/-- `TimeSeries.from_binary(fname, tsamp, dtype)`, time_series.py 242-262; the content of the file, if there is one. -/
def fromBinary (file : Option (List UInt8)) (tsamp : PyFloat) (t : SampleType) : Except PyErr SampleSeries :=
  match file with
  | none => .error .fileNotFoundError
  | some bytes => .ok (seriesOfArray (fromfile t bytes) tsamp)

/-! ## `.npy` files

The format written by `np.save` (numpy/lib/format.py): a magic string, the version 1.0, two bytes with the length of the header, the header, the elements. -/

/-- `np.dtype.str`. -/
def npyTypes : List (String × SampleType) :=
  [("<f4", .float binary32), ("<f8", .float binary64), ("|i1", .int true 1), ("|u1", .int false 1), ("<i2", .int true 2), ("<u2", .int false 2),
    ("<i4", .int true 4), ("<u4", .int false 4), ("<i8", .int true 8), ("<u8", .int false 8)]

/-- The first bytes of the file, with the version. -/
def npyMagic : List UInt8 := [0x93, 0x4E, 0x55, 0x4D, 0x50, 0x59, 1, 0]

/-- The header of an array with `n` elements, without the blanks at its end. -/
def npyHeader (descr : String) (n : ℕ) : List Char :=
  "{'descr': '".toList ++ (descr.toList ++ ("', 'fortran_order': False, 'shape': (".toList ++ (natText n ++ ",), }".toList)))

/-- ASCII text as bytes. -/
def asciiBytes (s : List Char) : List UInt8 := s.map fun c => UInt8.ofNat c.toNat

/-- `np.save(fname, array)`: `pad` blanks, whose number depends on the version of numpy, and a line break end the header. -/
def npySave (descr : String) (n : ℕ) (pad : ℕ) (elems : List UInt8) : List UInt8 :=
  let header := asciiBytes (npyHeader descr n ++ (List.replicate pad ' ' ++ ['\n']))
  npyMagic ++ (UInt8.ofNat (header.length % 256) :: UInt8.ofNat (header.length / 256) :: (header ++ elems))

/-- The rest of the text after a prefix. -/
def stripPrefix : List Char → List Char → Option (List Char)
  | [], s => some s
  | _ :: _, [] => none
  | a :: p, b :: s => if a = b then stripPrefix p s else none

/-- `ast.literal_eval(header)`, for headers that `np.save` writes for arrays with one dimension: the type and the number of elements. -/
def readNpyHeader (s : List Char) : Option (String × ℕ) :=
  (stripPrefix "{'descr': '".toList s).bind fun s =>
  let descr := s.takeWhile (· ≠ '\'')
  (stripPrefix "', 'fortran_order': False, 'shape': (".toList (s.drop descr.length)).bind fun s =>
  let digits := s.takeWhile (· ≠ ',')
  (digitsVal digits).bind fun n =>
  (stripPrefix ",), }".toList (s.drop digits.length)).bind fun s =>
  if s.all isPySpace then some (String.ofList descr, n) else none

/-- `np.load(fname)`: the elements. Another beginning of the file, and too few bytes, raise `ValueError`; empty files, archives, other versions,
headers and types are not modelled. The elements are followed by nothing that
matters. -/
def npyLoad (bytes : List UInt8) : Except PyErr (List PyFloat) :=
  if bytes = [] ∨ bytes.take 2 = [0x50, 0x4B] then .error .unspecified
  else if bytes.take 6 ≠ npyMagic.take 6 then .error .valueError
  else if bytes.take 8 ≠ npyMagic then .error .unspecified
  else match bytes.drop 8 with
    | a :: b :: rest =>
      let len := a.toNat + 256 * b.toNat
      if rest.length < len then .error .valueError
      else match readNpyHeader ((rest.take len).map fun x => Char.ofNat x.toNat) with
        | none => .error .unspecified
        | some (descr, n) => match npyTypes.lookup descr with
          | none => .error .unspecified
          | some t => if (rest.drop len).length < n * t.size then .error .valueError else .ok (t.elems n (rest.drop len))
    | _ => .error .valueError

/-- `TimeSeries.from_npy_file(fname, tsamp)`, time_series.py 264-282. -/
def fromNpyFile (file : Option (List UInt8)) (tsamp : PyFloat) : Except PyErr SampleSeries :=
  match file with
  | none => .error .fileNotFoundError
  | some bytes => (npyLoad bytes).map fun x => seriesOfArray x tsamp

/-- A sample of the loaders of SIGPROC and PRESTO files as a number. -/
def RawSample.value : RawSample → PyFloat
  | .int8 i => .fin i
  | .float32 bits => binary32.value bits

end Verif.Model
