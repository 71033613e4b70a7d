import Verif.Spec.FloatBits
import Verif.Model.Harmonics
import Verif.Model.Candidate
import Verif.Model.Json

/-!
# What a `Candidate` object shows

The numbers that are found in the attributes of an object, whether they are python or numpy numbers, and whether arrays can be written to.
-/

namespace Verif.Spec

open Verif.Model

/-- The attribute `name` of an object of the class `Candidate`. -/
def candAttr (v : PyVal) (name : String) : Option PyVal :=
  match v with
  | .object "Candidate" _ f => dictGet f name
  | _ => none

/-- `d[key]`, a finite float. -/
def entryFloat (d : PyDict String PyVal) (key : String) : Option ℚ :=
  match dictGet d key with
  | some (.float (.fin q)) => some q
  | some (.npFloat (.fin q)) => some q
  | _ => none

/-- `d[key]`, a natural number. -/
def entryNat (d : PyDict String PyVal) (key : String) : Option ℕ :=
  match dictGet d key with
  | some (.int i) => if 0 ≤ i then some i.toNat else none
  | some (.npInt i) => if 0 ≤ i then some i.toNat else none
  | _ => none

/-- The dictionary `cand.params`. -/
def paramsShown (v : PyVal) : Option (HPeak ℚ) :=
  match candAttr v "params" with
  | some (.dict d) =>
    (entryFloat d "freq").bind fun freq => (entryFloat d "snr").bind fun snr => (entryFloat d "ducy").bind fun ducy =>
    (entryFloat d "dm").bind fun dm => (entryFloat d "period").bind fun period => (entryNat d "width").map fun width =>
    { freq, snr, ducy, dm, period, tag := width }
  | _ => none

/-- A finite number. -/
def finite : PyFloat → Option ℚ
  | .fin q => some q
  | _ => none

/-- The column `name` of a frame with columns of finite floats. -/
def columnShown (frame : PyVal) (name : String) : Option (List ℚ) :=
  match frame with
  | .frame _ a cols =>
    match a.shape, cols.idxOf? name with
    | [n, m], some j =>
      if a.dtype = "float64" ∧ m = cols.length then (List.range n).mapM fun i =>
        ((binary64.values a (n * m))[i * m + j]?).bind finite
      else none
    | _, _ => none
  | _ => none

/-- The array `cand.subints`, of finite floats in single precision: the shape and the elements. -/
def subintsShown (v : PyVal) : Option (List ℕ × List ℚ) :=
  match candAttr v "subints" with
  | some (.ndarray a) =>
    if a.dtype = "float32" then ((binary32.values a a.shape.prod).mapM finite).map fun l => (a.shape, l)
    else none
  | _ => none

/-- The column `name` of `cand.peaks`. -/
def peaksShown (v : PyVal) (name : String) : Option (List ℚ) := (candAttr v "peaks").bind fun fr => columnShown fr name

/-- The object `v` has the attributes of the candidate `x`, with its real numbers rounded by `double`, or by `single` for the signal-to-noise ratios and the sub-integrations. Row `i` of a
two-dimensional `subints` is sub-integration `i`. -/
structure ShowsObj (double single : ℝ → ℚ) (v : PyVal) (x : CandObj ℝ) : Prop where
  params : ∃ p, paramsShown v = some p ∧ p.period = double x.params.period ∧ p.freq = double x.params.freq ∧ p.dm = double x.params.dm ∧ p.tag = x.params.tag ∧
    p.ducy = double x.params.ducy ∧ p.snr = single x.params.snr
  period : peaksShown v "period" = some (x.peaks.map fun p => double p.period)
  freq : peaksShown v "freq" = some (x.peaks.map fun p => double p.freq)
  dm : peaksShown v "dm" = some (x.peaks.map fun p => double p.dm)
  width : peaksShown v "width" = some (x.peaks.map fun p => (p.tag : ℚ))
  ducy : peaksShown v "ducy" = some (x.peaks.map fun p => double p.ducy)
  snr : peaksShown v "snr" = some (x.peaks.map fun p => single p.snr)
  profile : ∀ y, x.subints = .d1 y → subintsShown v = some ([y.length], y.map single)
  subints : ∀ rows, x.subints = .d2 rows → ∃ n l, subintsShown v = some ([rows.length, n], l) ∧ l.length = rows.length * n ∧
    ∀ (i : ℕ) (row : List ℝ), rows[i]? = some row → row.length = n ∧ ∀ (j : ℕ) (y : ℝ), row[j]? = some y → l[i * n + j]? = some (single y)

end Verif.Spec
