import Verif.Model.FFA

/-!
# Memory-level model of `kernels.hpp`, `block.hpp` and `transforms.hpp`

One flat address space of `float` cells.  A cell is unallocated, allocated but not initialised, or holds a value.
Loading a cell that holds no value, or storing to an unallocated cell, aborts the execution (`none`): this is how
out-of-bounds accesses and reads of stale/uninitialised memory become observable.
-/

namespace Verif.Model

variable {α : Type*}

/-- State of one `float` cell. -/
inductive Cell (α : Type*)
  | unalloc
  | uninit
  | val (a : α)

/-- Memory: one cell per address (addresses are in units of `sizeof(float)`). -/
abbrev Mem (α : Type*) := ℕ → Cell α

/-- Read a cell; fails unless it holds a value. -/
def Mem.load (mem : Mem α) (a : ℕ) : Option α :=
  match mem a with
  | .val v => some v
  | _ => none

/-- Write a cell; fails if it is not allocated. -/
def Mem.store (mem : Mem α) (a : ℕ) (v : α) : Option (Mem α) :=
  match mem a with
  | .unalloc => none
  | _ => some (fun b => if b = a then .val v else mem b)

/-- `for (size_t i = 0; i < n; ++i) body(i)`. -/
def forLoop {σ : Type*} (body : ℕ → σ → Option σ) : ℕ → σ → Option σ
  | 0, st => some st
  | n + 1, st => (forLoop body n st).bind (body n)

/-- `add(x, y, size, z)`, kernels.hpp 9-13. -/
def addMem (add : α → α → α) (x y size z : ℕ) (mem : Mem α) : Option (Mem α) :=
  forLoop (fun i mem =>
    (mem.load (x + i)).bind fun a =>
    (mem.load (y + i)).bind fun b =>
    mem.store (z + i) (add a b)) size mem

/-- `memcpy(dst, src, size * sizeof(float))`. -/
def memcpyMem (dst src size : ℕ) (mem : Mem α) : Option (Mem α) :=
  forLoop (fun i mem => (mem.load (src + i)).bind fun a => mem.store (dst + i) a) size mem

/-- `fused_rollback_add(x, y, size, shift, z)`, kernels.hpp 19-25; `shift % 0` traps. -/
def fusedRollbackAddMem (add : α → α → α) (x y size shift z : ℕ) (mem : Mem α) : Option (Mem α) :=
  if size = 0 then none else
  let p := shift % size
  let q := size - p
  (addMem add x (y + p) q z mem).bind fun mem =>
  addMem add (x + q) y p (z + q) mem

/-- `rollback(x, size, shift, out)`, kernels.hpp 32-38. -/
def rollbackMem (x size shift out : ℕ) (mem : Mem α) : Option (Mem α) :=
  if size = 0 then none else
  let p := shift % size
  let q := size - p
  (memcpyMem out (x + p) q mem).bind fun mem =>
  memcpyMem (out + q) x p mem

/-- `merge(thead, ttail, out)`, transforms.hpp 13-27, on blocks given by their base addresses;
`rowptr(i) = data + i * cols` (block.hpp 33-34). -/
def mergeMem (add : α → α → α) (idx : IdxRule) (m p thead ttail out : ℕ) (mem : Mem α) :
    Option (Mem α) :=
  forLoop (fun s mem =>
    let h := idx (m / 2) m s
    let t := idx (m - m / 2) m s
    fusedRollbackAddMem add (thead + h * p) (ttail + t * p) p (mergeShift s h t) (out + s * p) mem) m mem

/-- `transform(input, temp, out)`, transforms.hpp 30-50, on base addresses, including the exchange of the roles of
`temp` and `out` in the recursive calls. For `m = 0` the C++ code does not return (`none`). -/
def transformMem (add : α → α → α) (idx : IdxRule) (m p input temp out : ℕ) (mem : Mem α) :
    Option (Mem α) :=
  if m = 2 then
    (addMem add (input + 0 * p) (input + 1 * p) p (out + 0 * p) mem).bind fun mem =>
    fusedRollbackAddMem add (input + 0 * p) (input + 1 * p) p 1 (out + 1 * p) mem
  else if m = 1 then
    memcpyMem out input p mem
  else if m = 0 then none
  else
    let h := m / 2
    (transformMem add idx h p input out temp mem).bind fun mem =>
    (transformMem add idx (m - h) p (input + h * p) (out + h * p) (temp + h * p) mem).bind fun mem =>
    mergeMem add idx m p temp (temp + h * p) out mem
termination_by m

/-- `add_scalar(x, size, a, out)`, kernels.hpp 42-46. -/
def addScalarMem (add : α → α → α) (x size : ℕ) (a : α) (out : ℕ) (mem : Mem α) : Option (Mem α) :=
  forLoop (fun i mem => (mem.load (x + i)).bind fun v => mem.store (out + i) (add v a)) size mem

/-- Loop of kernels.hpp 79-83 on the pair (memory, `acc`). -/
def prefixLoopMem [Add α] (x out n : ℕ) (st : Mem α × α) : Option (Mem α × α) :=
  forLoop (fun j st =>
    (st.1.load (x + j)).bind fun v =>
    (st.1.store (out + j) (st.2 + v)).map fun mem => (mem, st.2 + v)) n st

/-- `circular_prefix_sum(x, size, nsum, out)`, kernels.hpp 73-101; `nsum / 0` traps.
Simplification: exact arithmetic instead of a double accumulator and float stores. -/
def circularPrefixSumMem [Zero α] [Add α] [Mul α] [NatCast α] (x size nsum out : ℕ) (mem : Mem α) :
    Option (Mem α) :=
  (prefixLoopMem x out (min size nsum) (mem, 0)).bind fun st =>
  if nsum ≤ size then some st.1
  else if size = 0 then none
  else
    let sumx := st.2
    let q := nsum / size
    let r := nsum % size
    (forLoop (fun i mem => if i = 0 then some mem else   -- the loop starts at i = 1
      addScalarMem (· + ·) out size ((i : α) * sumx) (out + i * size) mem) q st.1).bind fun mem =>
    addScalarMem (· + ·) out r ((q : α) * sumx) (out + q * size) mem

/-- Memory of a python call: the arguments are live arrays placed one after the other from address 0,
followed by a freshly allocated (uninitialised) result array of `nout` elements; nothing else may be touched. -/
def callMem (args : List α) (nout : ℕ) : Mem α := fun a =>
  if h : a < args.length then .val args[a]
  else if a < args.length + nout then .uninit
  else .unalloc

/-- `circular_prefix_sum(arr_x, nsum)` binding, python_bindings.cpp 73-81: result array of `size` elements
(line 78). Returns the memory after the call and the address and length of the returned array. -/
def circularPrefixSumBinding [Zero α] [Add α] [Mul α] [NatCast α] (x : List α) (nsum : ℕ) :
    Option (Mem α × ℕ × ℕ) :=
  let size := x.length
  let nout := size
  (circularPrefixSumMem 0 size nsum size (callMem x nout)).map fun mem => (mem, size, nout)

/-- `rollback(arr_x, shift)` binding, python_bindings.cpp 44-52. -/
def rollbackBinding (x : List α) (shift : ℕ) : Option (Mem α × ℕ × ℕ) :=
  let size := x.length
  (rollbackMem 0 size shift size (callMem x size)).map fun mem => (mem, size, size)

/-- Outcome of a binding call: a python exception, or an execution (`none` = undefined behaviour). -/
inductive CallResult (β : Type*)
  | valueError
  | ran (r : Option β)

/-- `fused_rollback_add(arr_x, arr_y, shift)` binding, python_bindings.cpp 55-70
(contiguity of the arguments is assumed; pybind11 maps `std::invalid_argument` to `ValueError`). -/
def fusedRollbackAddBinding (add : α → α → α) (x y : List α) (shift : ℕ) :
    CallResult (Mem α × ℕ × ℕ) :=
  if x.length ≠ y.length then .valueError
  else
    let size := x.length
    .ran ((fusedRollbackAddMem add 0 size size shift (size + size) (callMem (x ++ y) size)).map
      fun mem => (mem, size + size, size))

end Verif.Model
