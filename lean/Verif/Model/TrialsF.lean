import Verif.Model.Trials
import Verif.Model.PeriodogramF

/-!
# `generate_width_trials` in double precision

ffautils.py 3-10. The duty cycle and `wtsp` are floats and the two products are rounded; the rest is done with integers. Simplifications: no overflow; the parameters are not
negative, so that `int` rounds down; `max(w + 1, ...)` compares an integer with a float, which Python does exactly.
-/

namespace Verif.Model

namespace DArith

variable (A : DArith)

theorem width_step (wtsp : ℚ) (w : ℕ) : w + 1 ≤ ⌊max ((w : ℚ) + 1) (A.fl (wtsp * w))⌋₊ := by
  rw [Nat.le_floor_iff (le_max_of_le_left (by positivity))]
  push_cast
  exact le_max_left _ _

/-- The `while` loop, ffautils.py 7-9. -/
def widthLoop (wtsp : ℚ) (wmax w : ℕ) : List ℕ :=
  if w ≤ wmax then w :: widthLoop wtsp wmax ⌊max ((w : ℚ) + 1) (A.fl (wtsp * w))⌋₊ else []
termination_by wmax + 1 - w
decreasing_by
  have := A.width_step wtsp w
  omega

/-- `generate_width_trials(nbins, ducy_max, wtsp)`, ffautils.py 3-10. -/
def widthTrials (nbins : ℕ) (ducyMax wtsp : ℚ) : List ℕ := A.widthLoop wtsp ⌊max 1 (A.fl (ducyMax * nbins))⌋₊ 1

end DArith

end Verif.Model
