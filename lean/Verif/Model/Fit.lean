import Verif.Model.Peaks
import Mathlib.Algebra.Polynomial.Eval.Degree
import Mathlib.Analysis.SpecialFunctions.Log.Basic

/-!
# Model of `fit_threshold`, `riptide/peak_detection.py` 87-108

`numpy.polyfit` is known by what it is for: it returns a polynomial of at most the requested degree with the least sum of squared
residuals. Simplification: exact arithmetic; where several polynomials do equally well (fewer different abscissae than
coefficients) any of them may be returned.
-/

namespace Verif.Model

open Polynomial

/-- Sum of the squared residuals of a polynomial at control points `(x, y)`. -/
noncomputable def fitResidual (pts : List (ℝ × ℝ)) (q : ℝ[X]) : ℝ := (pts.map fun z => (z.2 - q.eval z.1) ^ 2).sum

/-- `q` is what `np.polyfit(x, y, deg)` may return (peak_detection.py 107). -/
def IsPolyfit (deg : ℕ) (pts : List (ℝ × ℝ)) (q : ℝ[X]) : Prop :=
  q.natDegree ≤ deg ∧ ∀ r : ℝ[X], r.natDegree ≤ deg → fitResidual pts q ≤ fitResidual pts r

/-- The control points in `log f`: `np.log(fc)`, `tc` (peak_detection.py 107). -/
noncomputable def logPoints (fc tc : List ℝ) : List (ℝ × ℝ) := (fc.zip tc).map fun z => (Real.log z.1, z.2)

/-- `fit` is `fit_threshold(fc, tc, polydeg)` followed by `poly(np.log(f))`, peak_detection.py 87-108, 124 and 131. -/
def IsFitThreshold (deg : ℕ) (fit : List ℝ → List ℝ → ℝ → ℝ) : Prop :=
  ∀ fc tc, ∃ q : ℝ[X], IsPolyfit deg (logPoints fc tc) q ∧ ∀ f, fit fc tc f = q.eval (Real.log f)

/-- What is known about a comparison sort: its outcome depends on the order of the elements only. -/
def ByOrder (argsort : List ℝ → List ℕ) : Prop :=
  ∀ x y : List ℝ, x.length = y.length →
    (∀ i j, i < x.length → j < x.length → (x.getD i 0 ≤ x.getD j 0 ↔ y.getD i 0 ≤ y.getD j 0)) → argsort x = argsort y

end Verif.Model
