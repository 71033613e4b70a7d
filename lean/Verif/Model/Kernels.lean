import Mathlib.Data.Nat.Notation
import Mathlib.Data.Nat.Cast.Defs
import Mathlib.Order.Defs.LinearOrder

/-!
# Model of `riptide/cpp/kernels.hpp` (functional level)

Arrays are modelled as functions `ℕ → α` of which only the indices below the array size are meaningful.
The memory-level versions of the same loops (pointers, stores, allocation) are in `Verif.Model.Memory`.
-/

namespace Verif.Model

variable {α : Type*}

/-- `add(x, y, size, z)`, kernels.hpp 9-13: `z[i] = x[i] + y[i]`.
The addition is a parameter so that the same model serves exact and rounded arithmetic. -/
def addArr (add : α → α → α) (x y : ℕ → α) : ℕ → α := fun i => add (x i) (y i)

/-- `fused_rollback_add(x, y, size, shift, z)`, kernels.hpp 19-25.
Two calls of `add`: on `x[0..q)` with `y + p`, then on `x + q` with `y[0..p)`.
The caller must have `size ≥ 1`, otherwise `shift % size` is undefined behaviour in C++. -/
def fusedRollbackAdd (add : α → α → α) (size shift : ℕ) (x y : ℕ → α) : ℕ → α :=
  let p := shift % size
  let q := size - p
  fun i => if i < q then addArr add x (fun j => y (j + p)) i
           else addArr add (fun j => x (j + q)) y (i - q)

/-- `rollback(x, size, shift, out)`, kernels.hpp 32-38 (two `memcpy`s). -/
def rollback (size shift : ℕ) (x : ℕ → α) : ℕ → α :=
  let p := shift % size
  let q := size - p
  fun i => if i < q then x (i + p) else x (i - q)

/-- `add_scalar(x, size, a, out)`, kernels.hpp 42-46. -/
def addScalar (add : α → α → α) (x : ℕ → α) (a : α) : ℕ → α := fun i => add (x i) a

/-- Loop of `diff_max(x, y, size)`, kernels.hpp 53-58, after `n` iterations of the loop body
(so the indices `0..n` have been visited). -/
def diffMaxLoop [LinearOrder α] [Sub α] (x y : ℕ → α) : ℕ → α
  | 0 => x 0 - y 0
  | n + 1 =>
    let dmax := diffMaxLoop x y n
    let d := x (n + 1) - y (n + 1)
    if d > dmax then d else dmax

/-- `diff_max(x, y, size)`, kernels.hpp 50-60; `x[0]` is read even if `size = 0`
(callers always have `size ≥ 1`). -/
def diffMax [LinearOrder α] [Sub α] (x y : ℕ → α) (size : ℕ) : α := diffMaxLoop x y (size - 1)

/-- First loop of `circular_prefix_sum`, kernels.hpp 76-83: value of `acc` after `j` iterations.
Simplification: exact arithmetic, the code accumulates in double precision and stores floats. -/
def prefixAcc [Zero α] [Add α] (x : ℕ → α) : ℕ → α
  | 0 => 0
  | j + 1 => prefixAcc x j + x j

/-- `circular_prefix_sum(x, size, nsum, out)`, kernels.hpp 73-101, as the function giving `out[j]`
for `j < nsum`.  Three regions: the first loop (lines 79-83), the full extra wraps `i = 1 .. q-1`
(lines 96-97, `add_scalar(out, size, i * sumx, out + i * size)`), and the last incomplete wrap
(line 100, `add_scalar(out, r, q * sumx, out + q * size)`). `none` marks cells that are not written. -/
def circularPrefixSum [Zero α] [Add α] [Mul α] [NatCast α] (x : ℕ → α) (size nsum : ℕ) :
    ℕ → Option α := fun j =>
  let jmax := min size nsum
  if j < jmax then some (prefixAcc x (j + 1))
  else if nsum ≤ size then none
  else
    let sumx := prefixAcc x size
    let q := nsum / size
    let r := nsum % size
    let i := j / size
    if 1 ≤ i ∧ i < q then some (addScalar (· + ·) (fun k => prefixAcc x (k + 1)) ((i : α) * sumx) (j % size))
    else if i = q ∧ j % size < r then
      some (addScalar (· + ·) (fun k => prefixAcc x (k + 1)) ((q : α) * sumx) (j % size))
    else none

end Verif.Model
