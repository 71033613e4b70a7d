import Verif.Model.SearchFloat
import Verif.Model.DereddenF
import Verif.Model.TimeSeries

/-!
# `fold` in floating point

`riptide/folding.py` and `Candidate.profile`. Times, periods and downsampling factors are `double` (Python floats), the samples are
`float32`. NumPy does not promise the order of a summation, so a sum over the rows is any tree of additions in `float32`. What becomes of
`folded *= scalar` depends on the type of the scalar and on the NumPy version: the scalar is cast to `float32`, or the product is computed
in `double` and cast. Both are modelled. Simplifications: no overflow, no subnormal numbers, no NaN; the period is a Python float.
-/

namespace Verif.Model

namespace DArith

variable (A : DArith)

/-- `TimeSeries.length`, time_series.py 369-372, in double precision. -/
def seriesLength (N : ℕ) (tsamp : ℚ) : ℚ := A.fl (N * tsamp)

/-- The checks of folding.py 48-62 in double precision, for a series of `N` samples; `bins` is not negative and `subints` is an
integer or `None`. Python compares an integer and a float exactly. -/
def foldChecks (N : ℕ) (tsamp period : ℚ) (bins : ℕ) (subints : Option ℤ) : Except PyErr Unit :=
  if period > A.seriesLength N tsamp then .error .valueError
  else if bins = 0 then .error .zeroDivisionError
  else if ¬ A.fl (period / bins) > tsamp then .error .valueError
  else match subints with
    | none => .ok ()
    | some s =>
      if ¬ s ≥ 1 then .error .valueError
      else if (s : ℚ) > A.fl (A.seriesLength N tsamp / period) then .error .valueError
      else .ok ()

/-- `factor`, folding.py 51 and 64. -/
def foldFactor (tsamp period : ℚ) (bins : ℕ) : ℚ := A.fl (A.fl (period / bins) / tsamp)

end DArith

/-- `folded *= scale` for one element, folding.py 70; `narrow` says if the scalar is cast to `float32`. -/
noncomputable def FArith.scaleOne (B : FArith) (narrow : Bool) (scale a : ℝ) : ℝ :=
  if narrow then B.fl (a * B.fl scale) else B.fl (B.dbl (a * scale))

/-- `downsample_vertical(X, factor)`, folding.py 6-16, for an array of `float32` with `bins` columns: every column is downsampled, and the
results (of equal length) are the columns of the output. -/
noncomputable def verticalF (A : DArith) (B : FArith) (X : List (List ℝ)) (bins : ℕ) (factor : ℚ) : Except PyErr (List (List ℝ)) :=
  let m := X.length
  if ¬ factor > 1 then .error .valueError
  else if ¬ factor < m then .error .valueError
  else
    ((List.range bins).mapM (fun j => liftCall (A.downsampleCall (B.searchOps A) (column X j) factor))).bind fun out =>
    .ok ((List.range ((out.getD 0 []).length)).map (fun i => out.map (fun c => c.getD i 0)))

/-- The array `folded` after scaling, folding.py 48-70, for the samples `data`. `inv` stands for `** -0.5`; Python raises `ZeroDivisionError`
for `0.0 ** -0.5`. -/
noncomputable def foldRows (A : DArith) (B : FArith) (inv : ℝ → ℝ) (narrow : Bool) (data : List ℝ) (tsamp period : ℚ) (bins : ℕ)
    (subints : Option ℤ) : Except PyErr (List (List ℝ)) :=
  (A.foldChecks data.length tsamp period bins subints).bind fun _ =>
  if tsamp = 0 then .error .zeroDivisionError
  else
    let factor := A.foldFactor tsamp period bins
    (liftCall (A.downsampleCall (B.searchOps A) data factor)).bind fun down =>
    let m := down.length / bins
    if m = 0 then .error .zeroDivisionError
    else
      let scale := inv ((A.fl (m * factor) : ℚ) : ℝ)
      .ok (reshape ((down.take (m * bins)).map (B.scaleOne narrow scale)) m bins)

/-- `X.sum(axis=0)` of an array of `float32` with `bins` columns: `p` is a possible result. -/
def SumsTo (B : FArith) (rows : List (List ℝ)) (bins : ℕ) (p : List ℝ) : Prop :=
  p.length = bins ∧ ∀ j < bins, DSum B.narrowed (column rows j) (p.getD j 0)

/-- What `fold` makes of the scaled array, folding.py 72-81: `r` is a possible outcome. -/
def FoldOutputsTo (A : DArith) (B : FArith) (rows : List (List ℝ)) (bins : ℕ) (subints : Option ℤ) (r : Except PyErr NdArray) : Prop :=
  if subints = some 1 ∨ rows.length = 1 then ∃ p, SumsTo B rows bins p ∧ r = .ok (.d1 p)
  else match subints with
    | none => r = .ok (.d2 rows)
    | some s =>
      if s = rows.length then r = .ok (.d2 rows)
      else
        let vf := A.fl ((rows.length : ℚ) / s)
        r = (verticalF A B rows bins vf).bind fun out => .ok (.d2 out)

/-- `fold(ts, period, bins, subints)`, folding.py 19-81: `r` is a possible outcome. -/
def FoldsTo (A : DArith) (B : FArith) (inv : ℝ → ℝ) (narrow : Bool) (data : List ℝ) (tsamp period : ℚ) (bins : ℕ) (subints : Option ℤ)
    (r : Except PyErr NdArray) : Prop :=
  match foldRows A B inv narrow data tsamp period bins subints with
  | .error e => r = .error e
  | .ok rows => FoldOutputsTo A B rows bins subints r

/-- The number of sub-integrations that `Candidate.from_pipeline_output` asks for, candidate.py 88-95, in double precision. -/
def DArith.candidateSubints (A : DArith) (N : ℕ) (tsamp period : ℚ) : Option ℤ → Option ℤ
  | none => none
  | some s => if A.fl (s * period) ≥ A.seriesLength N tsamp then none else some s

/-- `Candidate.from_pipeline_output(ts, cluster, bins, subints)`, candidate.py 75-98, for a cluster whose centre has the period `period`: `r` is a possible
outcome, for the array `subints` of the candidate. The other attributes are copies. -/
def CandidateTo (A : DArith) (B : FArith) (inv : ℝ → ℝ) (narrow : Bool) (data : List ℝ) (tsamp period : ℚ) (bins : ℕ) (subints : Option ℤ)
    (r : Except PyErr NdArray) : Prop :=
  FoldsTo A B inv narrow data tsamp period bins (A.candidateSubints data.length tsamp period subints) r

/-- `Candidate.profile`, candidate.py 60-64, of an array with `bins` columns: `p` is a possible value. -/
def ProfilesTo (B : FArith) (bins : ℕ) : NdArray → List ℝ → Prop
  | .d1 x, p => p = x
  | .d2 rows, p => SumsTo B rows bins p

end Verif.Model
