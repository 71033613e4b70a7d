import Verif.Model.FFA
import Mathlib.Data.Int.Log

/-!
# IEEE-754 round to nearest, ties to even

Floating point numbers are modelled by the rationals they denote and every operation by the exact operation followed by
`rn p` (`p` = number of significand bits). Simplification: no overflow, no subnormal numbers (all numbers in
`merge` are either 0 or between 2^-26 and 2^25 in magnitude).
-/

namespace Verif.Model

/-- Nearest integer, ties to even. -/
def roundHalfEven (q : ℚ) : ℤ :=
  let f := ⌊q⌋
  if q - f < 1 / 2 then f
  else if 1 / 2 < q - f then f + 1
  else if f % 2 = 0 then f else f + 1

/-- Round to nearest even with `p` significand bits, unbounded exponent. -/
def rn (p : ℕ) (x : ℚ) : ℚ :=
  if x = 0 then 0
  else
    let ulp : ℚ := 2 ^ (Int.log 2 |x| - (p - 1))
    roundHalfEven (x / ulp) * ulp

/-- The index rule of `merge` (transforms.hpp 17-23) in `float` arithmetic (24 bits), separate multiply and add. -/
def float32Idx : IdxRule := mergeIdx (rn 24)

/-- The same with `kh * s + 0.5f` contracted to a fused multiply-add. -/
def float32IdxFma : IdxRule := mergeIdxFma (rn 24)

end Verif.Model
