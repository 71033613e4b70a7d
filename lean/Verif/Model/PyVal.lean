import Mathlib.Algebra.Order.Field.Rat
import Mathlib.Algebra.Order.Field.Basic
import Verif.Model.Py

/-!
# Python values

Values as they occur in metadata, JSON trees and configurations.
-/

namespace Verif.Model

/-- A python `float`. Simplification: the two zeros are not distinguished. -/
inductive PyFloat
  | fin (q : ℚ)
  | inf (negative : Bool)
  | nan
  deriving DecidableEq

/-- `x >= 0` for a python `float`; a comparison with NaN is `False`. -/
def PyFloat.nonneg : PyFloat → Bool
  | .fin q => decide (0 ≤ q)
  | .inf neg => !neg
  | .nan => false

/-- `x > 0` for a python `float`. -/
def PyFloat.pos : PyFloat → Bool
  | .fin q => decide (0 < q)
  | .inf neg => !neg
  | .nan => false

/-- The number denoted by the 64 bits of a C `double`. -/
def decodeDouble (bits : ℕ) : PyFloat :=
  let negative := decide (bits / 2 ^ 63 % 2 = 1)
  let e : ℕ := bits / 2 ^ 52 % 2 ^ 11
  let m : ℕ := bits % 2 ^ 52
  if e = 2047 then (if m = 0 then .inf negative else .nan)
  else
    let a : ℚ := if e = 0 then (m : ℚ) / 2 ^ 1074 else ((2 ^ 52 + m : ℕ) : ℚ) * 2 ^ e / 2 ^ 1075
    .fin (if negative then -a else a)

/-- `k * x` for an `int` and a `float`. Simplification: exact, no rounding and no overflow. -/
def PyFloat.mulInt (k : ℤ) : PyFloat → PyFloat
  | .fin q => .fin (k * q)
  | .inf neg => if k = 0 then .nan else .inf (decide (k < 0) != neg)
  | .nan => .nan

/-- A numpy array: the bytes are those of the elements in C order. -/
structure NdArr where
  dtype : String
  shape : List ℕ
  bytes : List UInt8
  writable : Bool := true
  deriving DecidableEq

/-- Python objects. `dict` has keys of type `str` only, in insertion order; `metadata` is a `Metadata` object (a subclass of `dict`);
`frame` a pandas `DataFrame` (the types of its columns, the array `df.values`, in the common type of the columns, and `columns`); `sky` a `SkyCoord` (right ascension and declination in degrees);
`object` an instance of one of the riptide classes with a `to_dict` method that is not a `dict`, with the entries of `to_dict()`
and the attribute `version`; `npInt` and `npFloat` are numpy scalars (`np.float64`, a subclass of `float`, counts as `float`); `other`
anything else. -/
inductive PyVal
  | none
  | bool (b : Bool)
  | int (i : ℤ)
  | float (x : PyFloat)
  | str (s : String)
  | list (l : List PyVal)
  | dict (d : List (String × PyVal))
  | metadata (d : List (String × PyVal))
  | ndarray (a : NdArr)
  | npInt (i : ℤ)
  | npFloat (x : PyFloat)
  | frame (dtypes : List String) (values : NdArr) (columns : List String)
  | sky (ra dec : PyFloat)
  | object (cls : String) (version : Option String) (fields : List (String × PyVal))
  | other (tag : ℕ)

end Verif.Model
