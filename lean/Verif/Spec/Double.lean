import Verif.Model.PeriodogramF
import Mathlib.Analysis.SpecialFunctions.Log.Basic

/-!
# What is assumed of `double` arithmetic

Only facts that IEEE-754 double precision (in every rounding mode for `mono`, `idem`, `nat`; to nearest for
the error bound) and an accurate C library provide. `ieeeDouble` with correctly rounded `log` and `pow` is an instance.
-/

namespace Verif.Spec

open Verif.Model

/-- Unit roundoff. -/
def u53 : ℚ := 1 / 2 ^ 53

/-- Assumptions on rounding, `log` and `pow`. -/
structure Sane (A : DArith) : Prop where
  /-- Rounding is monotone. -/
  mono : ∀ x y, 0 ≤ x → x ≤ y → A.fl x ≤ A.fl y
  /-- Rounded numbers are not rounded again. -/
  idem : ∀ x, 0 ≤ x → A.fl (A.fl x) = A.fl x
  /-- Integers up to 2^53 are exact. -/
  nat : ∀ n : ℕ, n ≤ 2 ^ 53 → A.fl n = n
  /-- Relative error of one operation. -/
  rel : ∀ x, 0 ≤ x → |A.fl x - x| ≤ u53 * x
  /-- `pow` of a base ≥ 1 is ≥ 1. -/
  powOne : ∀ x k, 1 ≤ x → 1 ≤ A.pow x k
  /-- `pow` is accurate to two units of roundoff. -/
  powRel : ∀ x k, 1 ≤ x → |A.pow x k - x ^ k| ≤ 2 * u53 * x ^ k
  /-- `log` has a small relative error. -/
  logRel : ∀ x : ℚ, 1 ≤ x → |(A.log x : ℝ) - Real.log x| ≤ Real.log x / 2 ^ 40

end Verif.Spec
