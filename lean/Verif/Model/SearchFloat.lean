import Verif.Model.PeriodogramF
import Verif.Model.SnrF

/-!
# The search with single and double precision together

The operations on the samples of `Model/SnrF.lean` (single precision) as operations of the search in double precision of
`Model/PeriodogramF.lean`. Simplifications: as there, no overflow and no subnormal numbers, and expressions are evaluated in source order.
-/

namespace Verif.Model

namespace DArith

variable (A : DArith)

/-- `downsampled_variance(num_samples, f)`, downsample.hpp 29-38, in double precision; `n` is the value of `downsampled_size`. The
product `2.0/3.0 * pow(x, 2)` may be fused with the addition before it. -/
def variance (n : ℕ) (f : ℚ) : ℚ :=
  let k : ℚ := ⌊f⌋
  let r := A.fl (f - k)
  let x := A.fl (A.fl n * r)
  if x > 1 then A.fl (f - A.fl (1 / 3))
  else
    let p := A.fl (A.fl (k - 1) ^ 2)
    let c := A.fl (2 / 3)
    let y := A.fl (x ^ 2)
    let s := if A.fused then A.fl (p + c * y) else A.fl (p + A.fl (c * y))
    A.fl (A.fl (s - x) + 1)

/-- `downsample(x, f)` of the extension module, python_bindings.cpp 163-177: check of the factor, new output array, and the loop, which
checks the factor again. -/
def downsampleCall {V : Type*} (O : VOps V) (data : List V) (f : ℚ) : Except CallErr (List V) :=
  if ¬ (1 < f ∧ f ≤ A.fl data.length) then .error .valueError
  else (A.dsSize data.length f).bind fun n =>
    (A.downsample O 0 data.length f data.length (callMem data n)).bind fun mem =>
      (List.range n).mapM (fun i => orUB (mem.load (data.length + i)))

end DArith

namespace FArith

variable (B : FArith)

/-- `stdnoise`, periodogram.hpp 181: square root in double precision, stored as `float`. -/
noncomputable def stdNoise (A : DArith) (rows size : ℕ) (f : ℚ) : ℝ :=
  B.fl (B.sqrt ((A.fl (A.fl rows * A.variance ⌊A.fl (A.fl size / f)⌋₊ f) : ℚ) : ℝ))

/-- The operations of the search on samples of type `float`: kernels.hpp 9-13, downsample.hpp 75-78 and snr.hpp 37-55. The weights are
converted from `double` to `float`, downsample.hpp 72-73. -/
noncomputable def searchOps (A : DArith) : VOps ℝ where
  add := B.add
  wmul := fun w v => B.fl (B.fl (w : ℝ) * v)
  wadd := fun acc w v => B.fl (acc + B.fused (B.fl (w : ℝ) * v))
  snr := fun bins row widths rows size f k =>
    match B.snr1 bins row widths (B.stdNoise A rows size f) with
    | .ok l => l.getD k 0
    | .error _ => 0

end FArith

end Verif.Model
