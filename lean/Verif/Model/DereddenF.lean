import Verif.Model.NormaliseF
import Verif.Model.PeriodogramF
import Verif.Model.RunningMedian

/-!
# `TimeSeries.deredden` in floating point

`riptide/running_medians.py` 40-83 and `riptide/time_series.py` 93-122 for `float32` data. The compiled running median only compares
and copies, so it is exact. The block means of `scrunch` are `float32` sums in any order, `np.interp` works in `float64`, the difference is taken in
`float32` (no scrunching) or in `float64` and then cast to `float32`. The abscissae of `np.interp` are integers and half-integers below 2^52, hence exact.
Simplifications: no overflow, no subnormal numbers, no NaN; the width is a number of samples.
-/

namespace Verif.Model

/-- The same arithmetic with sums in `float32`. -/
def FArith.narrowed (B : FArith) : FArith := { B with dbl := B.fl }

/-- `int(max(1, width_samples / float(min_points)))`, running_medians.py 75. -/
def DArith.scrunchFactor (A : DArith) (w m : ℕ) : ℕ := ⌊max 1 (A.fl (w / m))⌋₊

/-- `scrunch(data, factor)`, running_medians.py 40-46: `s` is a possible result. -/
def ScrunchesTo (B : FArith) (x : List ℝ) (f : ℕ) (s : List ℝ) : Prop :=
  s.length = x.length / f ∧ ∀ i < x.length / f, ∃ t, DSum B.narrowed ((x.drop (i * f)).take f) t ∧ s[i]? = some (B.fl (t / f))

/-- `numpy.interp(x, xp, fp)` at one abscissa, see `interp`: `y` is a possible result; the product may be fused with the sum. -/
def InterpsTo (B : FArith) (n : ℕ) (xp fp : ℕ → ℝ) (x y : ℝ) : Prop :=
  if x < xp 0 then y = fp 0
  else
    let j := ((List.range n).filter (fun j => xp j ≤ x)).length - 1
    if n - 1 ≤ j then y = fp (n - 1)
    else if x = xp j then y = fp j
    else
      let slope := B.dbl (B.dbl (fp (j + 1) - fp j) / (xp (j + 1) - xp j))
      y = B.dbl (B.dbl (slope * (x - xp j)) + fp j) ∨ y = B.dbl (slope * (x - xp j) + fp j)

/-- `fast_running_median(data, width_samples, min_points)`, running_medians.py 49-83: `r` is a possible result (there is none if it raises). -/
def FastMediansTo (A : DArith) (B : FArith) (x : List ℝ) (w m : ℕ) (r : List ℝ) : Prop :=
  m % 2 = 1 ∧
  if A.scrunchFactor w m = 1 then runningMedian x w = .ok r
  else ∃ s rmed, ScrunchesTo B x (A.scrunchFactor w m) s ∧ runningMedian s m = .ok rmed ∧ r.length = x.length ∧
    ∀ i < x.length, InterpsTo B s.length
      (fun j : ℕ => (j : ℝ) * (A.scrunchFactor w m : ℕ) + 1 / 2 * (((A.scrunchFactor w m : ℕ) : ℝ) - 1)) (fun j => rmed.getD j default) (i : ℝ) (r.getD i 0)

/-- `deredden`, time_series.py 117-122: `y` is a possible content of the series afterwards, `w` the width in samples. -/
def DereddensTo (A : DArith) (B : FArith) (x : List ℝ) (w m : ℕ) (y : List ℝ) : Prop :=
  ∃ r, FastMediansTo A B x w m r ∧
    y = List.zipWith (fun a b => if A.scrunchFactor w m = 1 then B.fl (a - b) else B.fl (B.dbl (a - b))) x r

end Verif.Model
