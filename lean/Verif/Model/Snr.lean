import Verif.Model.Kernels
import Mathlib.Analysis.Real.Sqrt

/-!
# Model of `riptide/cpp/snr.hpp` and the binding `snr2`

Simplification: real arithmetic instead of `float`.
-/

namespace Verif.Model

/-- How a call into the C++ library can go wrong: `std::invalid_argument` (python `ValueError`), or undefined behaviour. -/
inductive CallErr
  | valueError
  | undefinedBehaviour
  deriving DecidableEq, Repr

/-- `*std::max_element(widths, widths + num_widths)` for a non-empty array, snr.hpp 39. -/
def maxWidth (widths : List ℕ) : ℕ := widths.foldl max 0

/-- Body of the width loop of `snr1`, snr.hpp 46-52. `cpf` is the prefix sum array. -/
noncomputable def snrWidth (n : ℕ) (cpf : ℕ → ℝ) (std : ℝ) (w : ℕ) : ℝ :=
  let sum := cpf (n - 1)
  let h := Real.sqrt (((n : ℝ) - w) / ((n : ℝ) * w))
  let b := (w : ℝ) / ((n : ℝ) - w) * h
  let dmax := diffMax (fun i => cpf (w + i)) cpf n
  ((h + b) * dmax - b * sum) / std

/-- `snr1(arr, size, widths, num_widths, stdnoise, out)`, snr.hpp 37-55. An empty `widths` dereferences the end iterator
(line 39) and a cell of the prefix sum array that was not written would be read uninitialised: both are
undefined behaviour. The subtraction `size - w` is not truncated, and a division by zero gives zero: the model is faithful for widths `w < size`
only. The bindings `snr1` and `snr2` check this (python_bindings.cpp 132 and 153); the binding `periodogram` does not, and
the theorems on values of the search assume it. -/
noncomputable def snr1 (n : ℕ) (x : ℕ → ℝ) (widths : List ℕ) (std : ℝ) : Except CallErr (List ℝ) :=
  if widths = [] then .error .undefinedBehaviour
  else
    let wmax := maxWidth widths
    let cpf := circularPrefixSum x n (n + wmax)
    if (List.range (n + wmax)).all (fun j => (cpf j).isSome) then
      .ok (widths.map (snrWidth n (fun j => (cpf j).getD 0) std))
    else .error .undefinedBehaviour

/-- `snr2(block, widths, …)`, snr.hpp 58-65: one call of `snr1` per row. -/
noncomputable def snr2 (rows n : ℕ) (x : ℕ → ℕ → ℝ) (widths : List ℕ) (std : ℝ) :
    Except CallErr (List (List ℝ)) :=
  (List.range rows).mapM (fun i => snr1 n (x i) widths std)

/-- `check_trial_widths`, snr.hpp 21-31. -/
def trialWidthsValid (widths : List ℕ) (bins : ℕ) : Bool := widths.all (fun w => 0 < w && w < bins)

open Classical in
/-- `snr2` binding, python_bindings.cpp 141-160, which is also `boxcar_snr` of libffa.py 194-225 after flattening the leading
axes: `check_stdnoise` (snr.hpp 14-18) then `check_trial_widths`.
Simplification: contiguity check and conversions of dtype are not modelled. -/
noncomputable def boxcarSnr (rows n : ℕ) (x : ℕ → ℕ → ℝ) (widths : List ℕ) (std : ℝ) :
    Except CallErr (List (List ℝ)) :=
  if ¬ std > 0 then .error .valueError
  else if ¬ trialWidthsValid widths n then .error .valueError
  else snr2 rows n x widths std

end Verif.Model
