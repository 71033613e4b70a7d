import Mathlib.Algebra.Order.Ring.Defs
import Mathlib.Data.List.Sort
import Verif.Model.Py

/-!
# Model of the search range bookkeeping of the pipeline

`riptide/pipeline/pipeline.py` 77-133 and `riptide/pipeline/config_validation.py` 117-168. Numbers are taken from an arbitrary
ordered ring; only comparisons and products with integers occur.
-/

namespace Verif.Model

/-- The entries of a search range (a nested `dict` in the configuration) that are read by the modelled functions:
`ffa_search.period_min`, `ffa_search.period_max`, `ffa_search.bins_min`, `candidates.bins`. `tag` stands for
everything else in the range. -/
structure SearchRange (K : Type*) where
  pmin : K
  pmax : K
  binsMin : ℕ
  candBins : ℕ
  tag : ℕ := 0

variable {K : Type*} [LinearOrder K]

/-- `Pipeline.get_search_range(period)`, pipeline.py 86-133. `min()` and `max()` of no elements raise `ValueError`; the python
function returns `None` if it reaches its end. `sorted` is stable, and so is `List.mergeSort`. -/
def getSearchRange (config : List (SearchRange K)) (period : K) : Except PyErr (Option (SearchRange K)) :=
  match config.mergeSort (fun a b => decide (a.pmax ≤ b.pmax)) with
  | [] => .error .valueError
  | r :: rs =>
    let pminGlobal := rs.foldl (fun m q => min m q.pmin) r.pmin
    let pmaxGlobal := rs.foldl (fun m q => max m q.pmax) r.pmax
    if period < pminGlobal then .ok (some r)
    else if pmaxGlobal ≤ period then .ok (some (rs.getLastD r))
    else .ok ((r :: rs).find? (fun q => decide (q.pmin ≤ period ∧ period < q.pmax)))

/-- `validate_ranges_contiguity(ranges)`, config_validation.py 140-148. -/
def contiguityLoop : List (SearchRange K) → Except PyErr Unit
  | a :: b :: l => if ¬ a.pmax = b.pmin then .error .invalidSearchRange else contiguityLoop (b :: l)
  | _ => .ok ()

/-- `validate_range(rg, tsamp_max)`, config_validation.py 117-137. -/
def validateRange [NatCast K] [Mul K] (rg : SearchRange K) (tsampMax : K) : Except PyErr Unit :=
  if (rg.binsMin : K) * tsampMax > rg.pmin then .error .invalidSearchRange
  else if (rg.candBins : K) * tsampMax > rg.pmin then .error .invalidSearchRange
  else .ok ()

/-- `for rg in ranges: validate_range(rg, tsamp_max)`, config_validation.py 166-167. -/
def validateRangeLoop [NatCast K] [Mul K] (tsampMax : K) : List (SearchRange K) → Except PyErr Unit
  | [] => .ok ()
  | rg :: l => (validateRange rg tsampMax).bind fun _ => validateRangeLoop tsampMax l

/-- `validate_ranges(ranges, tsamp_max)`, config_validation.py 151-168. -/
def validateRanges [NatCast K] [Mul K] (ranges : List (SearchRange K)) (tsampMax : K) : Except PyErr Unit :=
  (validateRangeLoop tsampMax ranges).bind fun _ => contiguityLoop ranges

end Verif.Model
