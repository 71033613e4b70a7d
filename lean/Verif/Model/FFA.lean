import Verif.Model.Kernels
import Mathlib.Data.Rat.Floor
import Mathlib.Algebra.Order.Floor.Semiring

/-!
# Model of `riptide/cpp/transforms.hpp` (functional level)

A block (block.hpp 17-50) is a function `row → column → value`; `head()` are the first `rows >> 1` rows
and `tail()` the remaining ones (block.hpp 30-43).
-/

namespace Verif.Model

variable {α : Type*}

/-- How the row indices `h`, `t` of `merge` are computed from `(rows of the half, m, s)`. -/
abbrev IdxRule := ℕ → ℕ → ℕ → ℕ

/-- `kh = (thead.rows - 1.0f) / (m - 1.0f)` and `kt` alike, transforms.hpp 17-18.
`rnd` is the rounding of every floating point operation (conversion of `size_t` to `float`,
subtraction, division). -/
def mergeCoef (rnd : ℚ → ℚ) (rows m : ℕ) : ℚ := rnd (rnd (rnd rows - 1) / rnd (rnd m - 1))

/-- `size_t h = kh * s + 0.5f`, transforms.hpp 22 (and `t`, line 23): product and sum are rounded
separately, then the value is truncated. -/
def mergeIdx (rnd : ℚ → ℚ) : IdxRule := fun rows m s =>
  ⌊rnd (rnd (mergeCoef rnd rows m * rnd s) + 1 / 2)⌋₊

/-- The same line when the compiler contracts `kh * s + 0.5f` into one fused multiply-add
(gcc's default `-ffp-contract=fast` together with `-march=native`, see setup.py). -/
def mergeIdxFma (rnd : ℚ → ℚ) : IdxRule := fun rows m s =>
  ⌊rnd (mergeCoef rnd rows m * rnd s + 1 / 2)⌋₊

/-- The index rule in exact arithmetic: no rounding. -/
def exactIdx : IdxRule := mergeIdx id

/-- `const size_t b = s - (h + t)` followed by `h + b` (transforms.hpp 24-25) on 64-bit `size_t`, with
wrap-around. -/
def mergeShift (s h t : ℕ) : ℕ :=
  let b := (s + (2 ^ 64 - (h + t) % 2 ^ 64)) % 2 ^ 64
  (h + b) % 2 ^ 64

/-- `merge(thead, ttail, out)`, transforms.hpp 13-27: row `s` of the output. -/
def merge (add : α → α → α) (idx : IdxRule) (m p : ℕ) (thead ttail : ℕ → ℕ → α) : ℕ → ℕ → α :=
  fun s =>
    let h := idx (m / 2) m s
    let t := idx (m - m / 2) m s
    fusedRollbackAdd add p (mergeShift s h t) (thead h) (ttail t)

/-- `transform(input, temp, out)`, transforms.hpp 30-50, as a pure function of the input block with `m`
rows and `p` columns.
Simplifications: the ping-pong of the two buffers is modelled separately in `Verif.Model.Memory`;
for `m = 0` the C++ code recurses forever, the value given here is never used (see `ffa2`). -/
def transform (add : α → α → α) (idx : IdxRule) (m p : ℕ) (input : ℕ → ℕ → α) : ℕ → ℕ → α :=
  if m = 2 then
    fun s => if s = 0 then addArr add (input 0) (input 1)
             else fusedRollbackAdd add p 1 (input 0) (input 1)
  else if m ≤ 1 then input
  else
    merge add idx m p
      (transform add idx (m / 2) p input)
      (transform add idx (m - m / 2) p (fun i => input (m / 2 + i)))
termination_by m

/-- `ffa2(data)`, libffa.py 71-91 and python_bindings.cpp 84-96. `none` = undefined behaviour of the C++
code: zero rows (endless recursion) or zero columns (`shift % 0`). -/
def ffa2 (add : α → α → α) (idx : IdxRule) (m p : ℕ) (input : ℕ → ℕ → α) : Option (ℕ → ℕ → α) :=
  if m = 0 ∨ p = 0 then none else some (transform add idx m p input)

/-- Errors of `ffa1`, libffa.py 119-124 (the type checks of `data.ndim` and `p` are assumed passed). -/
inductive Ffa1Error | pNotPositive | pTooLarge
  deriving DecidableEq, Repr

/-- `ffa1(data, p)`, libffa.py 94-126, for one-dimensional data with `N` samples and an integer `p`:
number of rows and transform. -/
def ffa1 (add : α → α → α) (idx : IdxRule) (N : ℕ) (p : ℤ) (data : ℕ → α) :
    Except Ffa1Error (ℕ × (ℕ → ℕ → α)) :=
  if ¬ 0 < p then .error .pNotPositive
  else if (N : ℤ) < p then .error .pTooLarge
  else
    let q := p.toNat
    let m := N / q
    .ok (m, transform add idx m q (fun i j => data (i * q + j)))

end Verif.Model
