import Verif.Model.JsonText
import Verif.Model.Candidate
import Verif.Spec.FloatBits
import Verif.Spec.Sigproc

/-!
# Model of the files of candidates

`save_json` (serialization.py 145-152, called in pipeline.py 49) of a `Candidate`: the attributes of the object as python objects, with the bytes of its arrays. The computers are little-endian.
Simplification: the two zeros are not distinguished; no number is infinite or NaN.
-/

namespace Verif.Model

open Verif.Spec

/-- The bits of a number in a binary format. -/
def floatBits (f : FloatFormat) (q : ℚ) : ℕ :=
  if q = 0 then 0 else
  let u : ℤ := max f.emin (Int.log 2 |q| - (f.prec - 1 : ℕ))
  (if q < 0 then 2 ^ (f.prec + f.expBits - 1) else 0) + ((u - f.emin).toNat * 2 ^ (f.prec - 1) + ⌊|q| / 2 ^ u⌋₊)

/-- `np.asarray(values, dtype).reshape(shape)`. -/
def floatArray (f : FloatFormat) (shape : List ℕ) (values : List ℚ) : NdArr :=
  { dtype := f.dtype, shape, bytes := values.flatMap fun q => leBytes f.size (floatBits f q) }

/-- The numbers in a `Candidate`, candidate.py 45-49: `params` and `peaks` are in double precision, `subints` is an array of single precision numbers with this shape and these elements. Of
a `Peak`, the tag is the width. -/
structure CandNums where
  params : HPeak ℚ
  tsmeta : PyDict String PyVal
  peaks : List (HPeak ℚ)
  shape : List ℕ
  subints : List ℚ

/-- `Peak.summary_dict()`, peak_detection.py 28-34; the types are enforced in lines 210-216. Simplification: `dm` is not `None`. -/
def summaryDict (p : HPeak ℚ) : PyVal :=
  .dict [("period", .float (.fin p.period)), ("freq", .float (.fin p.freq)), ("dm", .float (.fin p.dm)), ("width", .int p.tag),
    ("ducy", .float (.fin p.ducy)), ("snr", .float (.fin p.snr))]

/-- `PeakCluster.summary_dataframe()`, peak_cluster.py 39-47. The array `values` has the common type of the columns. -/
def summaryFrame (peaks : List (HPeak ℚ)) : PyVal :=
  .frame ["float64", "float64", "float64", "int64", "float64", "float64"]
    (floatArray binary64 [peaks.length, 6] (peaks.flatMap fun p => [p.period, p.freq, p.dm, (p.tag : ℚ), p.ducy, p.snr]))
    ["period", "freq", "dm", "width", "ducy", "snr"]

/-- The `Candidate` object, with the entries of `Candidate.to_dict()`, candidate.py 51-58. -/
def CandNums.value (c : CandNums) : PyVal :=
  .object "Candidate" none [("params", summaryDict c.params), ("tsmeta", .metadata c.tsmeta), ("peaks", summaryFrame c.peaks),
    ("subints", .ndarray (floatArray binary32 c.shape c.subints))]

/-- The numbers of a candidate of `Model/Pipeline.lean`, which are real numbers there: rounded by `double` and `single`. -/
def candNums (double single : ℝ → ℚ) (tsmeta : PyDict String PyVal) (x : CandObj ℝ) : CandNums :=
  let peak (p : HPeak ℝ) : HPeak ℚ := { freq := double p.freq, snr := single p.snr, ducy := double p.ducy, dm := double p.dm, period := double p.period, tag := p.tag }
  { params := peak x.params, tsmeta, peaks := x.peaks.map peak
    shape := match x.subints with
      | .d1 y => [y.length]
      | .d2 rows => [rows.length, (rows.headD []).length]
    subints := match x.subints with
      | .d1 y => y.map single
      | .d2 rows => rows.flatten.map single }

end Verif.Model
