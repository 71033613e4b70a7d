import Verif.Spec.Double
import Verif.Spec.Float
import Mathlib.Analysis.Real.Sqrt
import Mathlib.Algebra.BigOperators.Intervals

/-!
# Trials of a search in floating point

The trial of a search in terms of numbers of type `double`, and two more facts about this type. `ieeeDouble` has them.
-/

namespace Verif.Spec

open Verif.Model Finset

/-- Rounding errors of numbers of both signs, and no number between 1 and `1 + 2^-52`. -/
structure Grid (A : DArith) : Prop where
  rel : ∀ x, |A.fl x - x| ≤ u53 * |x|
  gap : ∀ x, 1 < A.fl x → 1 + 2 * u53 ≤ A.fl x

/-- A trial: downsampling factor, number of samples after downsampling, number of bins, number of rows, and shift. -/
structure DTrial where
  f : ℚ
  n : ℕ
  b : ℕ
  m : ℕ
  s : ℕ

/-- The trial is one that `N` samples allow: `n` is the number of windows of width `f` in the data, up to rounding. -/
structure DTrial.OK (t : DTrial) (N bmin bmax : ℕ) : Prop where
  factor : 1 ≤ t.f
  bins : bmin ≤ t.b ∧ t.b ≤ bmax
  fits : t.n * t.f ≤ (1 + 1 / 2 ^ 53) * N
  full : (1 - 1 / 2 ^ 53) * N < (t.n + 1) * t.f
  rows : t.m = t.n / t.b
  two : 2 ≤ t.m
  shift : t.s < t.m

/-- Trial period: see `Trial.freq`. -/
def DTrial.period (t : DTrial) (tsamp : ℚ) : ℚ := t.f * tsamp * t.b * t.b / (t.b - t.s / ((t.m : ℚ) - 1))

/-- The noise variance of one sample after downsampling of unit noise that the search assumes: the formulas documented in
downsample.hpp, where `x` is the drift of the sample boundaries over the data. At `x = 1`, up to rounding, both are accepted. -/
def DTrial.IsVariance (t : DTrial) (V : ℚ) : Prop :=
  let x := t.n * (t.f - ⌊t.f⌋)
  V = t.f - 1 / 3 ∧ 1 - 1 / 2 ^ 50 ≤ x ∨ V = (⌊t.f⌋ - 1) ^ 2 + 2 / 3 * x ^ 2 - x + 1 ∧ x ≤ 1 + 1 / 2 ^ 50

open Classical in
/-- The sum of the absolute values of the samples that touch the interval `[a, b]`, widened by 1/4 on both sides. -/
noncomputable def touch (N : ℕ) (x : ℕ → ℝ) (a b : ℝ) : ℝ :=
  ∑ i ∈ range N, if a - 1 / 4 < (i : ℝ) + 1 ∧ (i : ℝ) < b + 1 / 4 then |x i| else 0

end Verif.Spec
