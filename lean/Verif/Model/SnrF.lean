import Verif.Model.FFA
import Verif.Model.Downsample

/-!
# The arithmetic of the data in floating point

`riptide/cpp/downsample.hpp`, `riptide/cpp/transforms.hpp`, `riptide/cpp/kernels.hpp` and `riptide/cpp/snr.hpp` with every operation on
the samples rounded: `float` for the data, `double` for the accumulator of the prefix sum. Expressions are evaluated in source
order; a product whose result is only added or subtracted may be fused with that operation. Simplifications: functional
level (addresses are in `Memory`, `Downsample` and `Periodogram`), the positions of the windows of `downsample` and the variance of the
noise (both `double`) are exact, no overflow and no subnormal numbers.
-/

namespace Verif.Model

/-- Rounding to `float`, rounding to `double`, what becomes of a product that may be fused, and the square root that is called. -/
structure FArith where
  fl : ℝ → ℝ
  dbl : ℝ → ℝ
  fused : ℝ → ℝ
  sqrt : ℝ → ℝ

namespace FArith

variable (A : FArith)

/-- One output sample of `downsample`, downsample.hpp 54-81: the accumulator `acc` after `t` iterations of the inner loop. -/
noncomputable def dsAcc (x : ℕ → ℝ) (imin : ℕ) (wmin : ℝ) : ℕ → ℝ
  | 0 => A.fl (wmin * x imin)
  | t + 1 => A.fl (dsAcc x imin wmin t + x (imin + 1 + t))

/-- Output sample `k` of `downsample`, downsample.hpp 54-81. -/
noncomputable def downsample (size : ℕ) (x : ℕ → ℝ) (f : ℝ) (k : ℕ) : ℝ :=
  let start : ℝ := k * f
  let stop : ℝ := start + f
  let imin : ℕ := ⌊start⌋₊
  let imax : ℕ := ⌊min (⌊stop⌋ : ℝ) ((size : ℝ) - 1)⌋₊
  let wmin : ℝ := A.fl (((imin : ℝ) + 1) - start)
  let wmax : ℝ := A.fl (stop - imax)
  A.fl (A.dsAcc x imin wmin (imax - (imin + 1)) + A.fused (wmax * x imax))

/-- `add` of kernels.hpp 9-13 for one element. -/
noncomputable def add (a b : ℝ) : ℝ := A.fl (a + b)

/-- The double precision accumulator of `circular_prefix_sum` after `j` iterations, kernels.hpp 76-83. -/
noncomputable def prefixAcc (x : ℕ → ℝ) : ℕ → ℝ
  | 0 => 0
  | j + 1 => A.dbl (prefixAcc x j + x j)

/-- `out[j]` of `circular_prefix_sum(x, size, nsum, out)`, kernels.hpp 73-101, see `circularPrefixSum`. -/
noncomputable def circularPrefixSum (x : ℕ → ℝ) (size nsum : ℕ) : ℕ → Option ℝ := fun j =>
  let jmax := min size nsum
  if j < jmax then some (A.fl (A.prefixAcc x (j + 1)))
  else if nsum ≤ size then none
  else
    let sumx := A.fl (A.prefixAcc x size)
    let q := nsum / size
    let r := nsum % size
    let i := j / size
    if 1 ≤ i ∧ i < q then some (addScalar A.add (fun k => A.fl (A.prefixAcc x (k + 1))) (A.fused (A.fl i * sumx)) (j % size))
    else if i = q ∧ j % size < r then
      some (addScalar A.add (fun k => A.fl (A.prefixAcc x (k + 1))) (A.fused (A.fl q * sumx)) (j % size))
    else none

open Classical in
/-- Loop of `diff_max(x, y, size)`, kernels.hpp 53-58, after `n` iterations. -/
noncomputable def diffMaxLoop (x y : ℕ → ℝ) : ℕ → ℝ
  | 0 => A.fl (x 0 - y 0)
  | n + 1 =>
    let dmax := diffMaxLoop x y n
    let d := A.fl (x (n + 1) - y (n + 1))
    if d > dmax then d else dmax

/-- `diff_max(x, y, size)`, kernels.hpp 50-60. -/
noncomputable def diffMax (x y : ℕ → ℝ) (size : ℕ) : ℝ := A.diffMaxLoop x y (size - 1)

/-- Body of the width loop of `snr1`, snr.hpp 46-52. -/
noncomputable def snrWidth (n : ℕ) (cpf : ℕ → ℝ) (std : ℝ) (w : ℕ) : ℝ :=
  let sum := cpf (n - 1)
  let h := A.fl (A.sqrt (A.fl (A.fl ((n : ℝ) - w) / A.fl ((n : ℝ) * w))))
  let b := A.fl (A.fl (A.fl w / A.fl ((n : ℝ) - w)) * h)
  let dmax := A.diffMax (fun i => cpf (w + i)) cpf n
  A.fl (A.fl (A.fused (A.fl (h + b) * dmax) - A.fused (b * sum)) / std)

/-- `snr1(arr, size, widths, num_widths, stdnoise, out)`, snr.hpp 37-55, see `Model.snr1`. -/
noncomputable def snr1 (n : ℕ) (x : ℕ → ℝ) (widths : List ℕ) (std : ℝ) : Except CallErr (List ℝ) :=
  if widths = [] then .error .undefinedBehaviour
  else
    let wmax := maxWidth widths
    let cpf := A.circularPrefixSum x n (n + wmax)
    if (List.range (n + wmax)).all (fun j => (cpf j).isSome) then
      .ok (widths.map (A.snrWidth n (fun j => (cpf j).getD 0) std))
    else .error .undefinedBehaviour

/-- The data that are folded in a stage with downsampling factor `f`, periodogram.hpp 160-168: `f = 1` uses the input as it is. -/
noncomputable def stageData (size : ℕ) (x : ℕ → ℝ) (f : ℝ) (k : ℕ) : ℝ :=
  open Classical in if f = 1 then x k else A.downsample size x f k

/-- The row of S/N values of one trial of the search, periodogram.hpp 155-187: downsampling, transform of `m` rows of `b` bins, S/N of
row `s`. -/
noncomputable def trialSnr (idx : IdxRule) (size : ℕ) (x : ℕ → ℝ) (widths : List ℕ) (f : ℝ) (m b s : ℕ) : Except CallErr (List ℝ) :=
  let y := transform A.add idx m b (fun r c => A.stageData size x f (r * b + c))
  A.snr1 b (y s) widths (A.fl (A.sqrt (A.dbl (m * downsampledVariance size f))))

end FArith

end Verif.Model
