import Verif.Model.SnrF
import Mathlib.Data.List.Perm.Basic

/-!
# `TimeSeries.normalise` in floating point

`riptide/time_series.py` 66-90. The data are `float32`; the mean and the variance are computed by NumPy with a `float64` accumulator.
NumPy does not promise the order of a summation (it is pairwise, in blocks, with several accumulators), so a sum is any tree of
additions in `double`. What becomes of `(data - m) / norm` depends on the NumPy version: up to version 1 the `float64` scalars are cast to
`float32`, from version 2 on the operations are in `float64` and the result is cast to `float32` by `TimeSeries.__init__` (time_series.py
40-44). Both are modelled. Simplifications: no overflow, no subnormal numbers, no NaN (these are in `Nan`).
-/

namespace Verif.Model

/-- `s` is the sum of `l` in `double`, in some order and with some placement of brackets: `umr_sum` of NumPy in time_series.py 83-84. -/
inductive DSum (B : FArith) : List ℝ → ℝ → Prop
  | one (x : ℝ) : DSum B [x] x
  | node {l l₁ l₂ : List ℝ} {a b : ℝ} : l.Perm (l₁ ++ l₂) → DSum B l₁ a → DSum B l₂ b → DSum B l (B.dbl (a + b))

/-- `data.mean(dtype=np.float64)`, time_series.py 83. -/
def IsMeanF (B : FArith) (x : List ℝ) (m : ℝ) : Prop := ∃ s, DSum B x s ∧ m = B.dbl (s / x.length)

/-- `data.var(dtype=np.float64)`, time_series.py 84: NumPy computes the mean once more, subtracts it, squares and sums, all in `double`. -/
def IsVarF (B : FArith) (x : List ℝ) (v : ℝ) : Prop :=
  ∃ m s, IsMeanF B x m ∧ DSum B (x.map fun a => B.dbl (B.dbl (a - m) * B.dbl (a - m))) s ∧ v = B.dbl (s / x.length)

/-- `(data - m) / norm` for one sample, time_series.py 88-90; `narrow` says if the scalars are cast to `float32` (NumPy 1). -/
noncomputable def FArith.normaliseOne (B : FArith) (narrow : Bool) (m norm a : ℝ) : ℝ :=
  if narrow then B.fl (B.fl (a - B.fl m) / B.fl norm) else B.fl (B.dbl (B.dbl (a - m) / norm))

/-- `normalise`, time_series.py 66-90: `y` is a possible result for the data `x`. `root` stands for `** 0.5`. -/
def NormalisesTo (B : FArith) (root : ℝ → ℝ) (narrow : Bool) (x y : List ℝ) : Prop :=
  ∃ m v, IsMeanF B x m ∧ IsVarF B x v ∧ y = x.map (B.normaliseOne narrow m (root v))

end Verif.Model
