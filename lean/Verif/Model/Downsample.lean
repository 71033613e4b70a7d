import Verif.Model.Memory
import Verif.Model.Snr
import Mathlib.Algebra.Order.Floor.Semiring

/-!
# Model of `riptide/cpp/downsample.hpp` and the `downsample` binding

Simplification: real arithmetic instead of `double`/`float`.
-/

namespace Verif.Model

variable {σ β : Type*}

/-- An execution without result is undefined behaviour. -/
def orUB : Option β → Except CallErr β
  | some b => .ok b
  | none => .error .undefinedBehaviour

/-- `for (size_t i = 0; i < n; ++i) body(i)` where the body may throw. -/
def forE (body : ℕ → σ → Except CallErr σ) : ℕ → σ → Except CallErr σ
  | 0, st => .ok st
  | n + 1, st => (forE body n st).bind (body n)

/-- `check_downsampling_factor(size, f)`, downsample.hpp 11-16. -/
def DownsamplingFactorValid (size : ℕ) (f : ℝ) : Prop := 1 < f ∧ f ≤ size

/-- `downsampled_size(num_samples, f)`, downsample.hpp 21-24. -/
noncomputable def downsampledSize (size : ℕ) (f : ℝ) : ℕ := ⌊(size : ℝ) / f⌋₊

open Classical in
/-- `downsampled_variance(num_samples, f)`, downsample.hpp 29-38. -/
noncomputable def downsampledVariance (size : ℕ) (f : ℝ) : ℝ :=
  let k : ℝ := (⌊f⌋ : ℝ)
  let r := f - k
  let x := (downsampledSize size f : ℝ) * r
  if x > 1 then f - 1 / 3
  else (k - 1) ^ 2 + 2 / 3 * x ^ 2 - x + 1

/-- Body of the output sample loop of `downsample`, downsample.hpp 54-81, on memory; `inp` and `out` are base addresses. -/
noncomputable def downsampleBody (inp size : ℕ) (f : ℝ) (out k : ℕ) (mem : Mem ℝ) : Except CallErr (Mem ℝ) :=
  let start : ℝ := k * f
  let stop : ℝ := start + f
  let imin : ℕ := ⌊start⌋₊
  let imax : ℕ := ⌊min (⌊stop⌋ : ℝ) ((size : ℝ) - 1)⌋₊
  let wmin : ℝ := ((imin : ℝ) + 1) - start
  let wmax : ℝ := stop - imax
  (orUB (mem.load (inp + imin))).bind fun a =>
  (forE (fun t acc => (orUB (mem.load (inp + (imin + 1 + t)))).bind fun v => .ok (acc + v))
    (imax - (imin + 1)) (wmin * a)).bind fun acc =>
  (orUB (mem.load (inp + imax))).bind fun b =>
  orUB (mem.store (out + k) (acc + wmax * b))

open Classical in
/-- `downsample(in, size, f, out)`, downsample.hpp 44-82. -/
noncomputable def downsampleMem (inp size : ℕ) (f : ℝ) (out : ℕ) (mem : Mem ℝ) : Except CallErr (Mem ℝ) :=
  if ¬ DownsamplingFactorValid size f then .error .valueError
  else forE (downsampleBody inp size f out) (downsampledSize size f) mem

/-- The content of an array of `n` elements at address `a`, as seen by the python caller.
Returning cells that were never written is counted as undefined behaviour. -/
def readArray (mem : Mem β) (a n : ℕ) : Except CallErr (List β) :=
  (List.range n).mapM (fun i => orUB (mem.load (a + i)))

open Classical in
/-- `downsample(arr_x, f)` binding, python_bindings.cpp 163-177 (and libffa.py 228-243, which only forwards to it). -/
noncomputable def downsampleBinding (x : List ℝ) (f : ℝ) : Except CallErr (List ℝ) :=
  let size := x.length
  if ¬ DownsamplingFactorValid size f then .error .valueError
  else
    let outsize := downsampledSize size f
    (downsampleMem 0 size f size (callMem x outsize)).bind fun mem => readArray mem size outsize

end Verif.Model
