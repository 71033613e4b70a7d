import Verif.Model.Downsample
import Mathlib.Order.Defs.LinearOrder
import Mathlib.Algebra.Order.Field.Basic

/-!
# Model of `riptide/cpp/running_median.hpp`, its binding, and `riptide/running_medians.py`

The comparison `<` of the elements is any relation (with NaN the comparison of floats is not an order), where the theorems are about
medians it is a linear order. Simplification: `fast_running_median` is in exact arithmetic.
-/

namespace Verif.Model

variable {α : Type*}

/-- `std::vector<T>` / array argument with all elements initialised. -/
structure Buf (α : Type*) where
  size : ℕ
  val : ℕ → α

/-- `data[i]`; fails out of bounds. -/
def Buf.get (d : Buf α) (i : ℕ) : Option α := if i < d.size then some (d.val i) else none

/-- `data[i] = v`; fails out of bounds. -/
def Buf.set (d : Buf α) (i : ℕ) (v : α) : Option (Buf α) :=
  if i < d.size then some { d with val := fun k => if k = i then v else d.val k } else none

/-- `std::swap(data[i], data[j])`. -/
def Buf.swap (d : Buf α) (i j : ℕ) : Option (Buf α) :=
  (d.get i).bind fun x => (d.get j).bind fun y => (d.set i y).bind fun d => d.set j x

section

variable [LT α] [DecidableLT α]

/-- Loop of `partition`, running_median.hpp 22-30: `r` iterations left, the next one for index `i`. -/
def partLoop (pivot : α) : ℕ → ℕ → ℕ → Buf α → Option (Buf α × ℕ)
  | 0, _, j, d => some (d, j)
  | r + 1, i, j, d =>
    (d.get i).bind fun x =>
    if x < pivot then (d.swap i j).bind fun d => partLoop pivot r (i + 1) (j + 1) d
    else partLoop pivot r (i + 1) j d

/-- `partition(data, start, end, ipiv)`, running_median.hpp 13-35. -/
def partition (d : Buf α) (start stop ipiv : ℕ) : Option (Buf α × ℕ) :=
  (d.get ipiv).bind fun pivot =>
  (d.swap ipiv stop).bind fun d =>
  (partLoop pivot (stop - start) start start d).bind fun (d, j) =>
  (d.swap j stop).bind fun d => some (d, j)

/-- `nth_element(data, start, end, n)`, running_median.hpp 38-56; returns the value and the rearranged data. At most `fuel`
nested calls are followed, `none` if that is not enough. `j - 1` is unsigned, a wrap around is `none`. -/
def nthLoop : ℕ → Buf α → ℕ → ℕ → ℕ → Option (α × Buf α)
  | 0, _, _, _, _ => none
  | fuel + 1, d, start, stop, n =>
    if start = stop then (d.get start).bind fun v => some (v, d)
    else
      (partition d start stop stop).bind fun (d, j) =>
      if j = n then (d.get j).bind fun v => some (v, d)
      else if j < n then nthLoop fuel d (j + 1) stop n
      else if j = 0 then none
      else nthLoop fuel d start (j - 1) n

/-- `nth_element(data, start, end, n)` with as many nested calls as there are elements. -/
def nthElement (d : Buf α) (start stop n : ℕ) : Option (α × Buf α) := nthLoop (stop - start + 1) d start stop n

/-- State of `RunningMedian`, running_median.hpp 60-70. -/
structure RingState (α : Type*) where
  ring : Buf α
  writepos : ℕ

/-- `RunningMedian::push(val)`, running_median.hpp 72-95, `width` is the constructor argument. -/
def ringPush (width : ℕ) (st : RingState α) (val : α) : Option (α × RingState α) :=
  (st.ring.set st.writepos val).bind fun ring =>
  let writepos := if st.writepos + 1 ≥ width then 0 else st.writepos + 1
  let buffer := ring
  if width = 0 then none else
  (nthElement buffer 0 (width - 1) (width / 2)).bind fun (v, _) => some (v, { ring, writepos })

/-- `running_median(data, size, width, out)`, running_median.hpp 100-132, and the binding, python_bindings.cpp 212-222
(running_medians.py 5-37 only forwards to it). `std::vector` elements are value-initialised (`default`). -/
def runningMedian [Inhabited α] (x : List α) (width : ℕ) : Except CallErr (List α) :=
  let size := x.length
  if width % 2 = 0 then .error .valueError
  else if ¬ width < size then .error .valueError
  else
    let half := width / 2
    let data : Buf α := { size, val := fun i => x.getD i default }
    let st : RingState α := { ring := { size := width, val := fun _ => default }, writepos := 0 }
    let push := fun (i : ℕ) (st : RingState α) =>
      (orUB (data.get i)).bind fun v => orUB (ringPush width st v)
    let collect := fun (i k : ℕ) (s : RingState α × Mem α) =>
      (push i s.1).bind fun (v, st) => (orUB (s.2.store k v)).bind fun out => .ok (st, out)
    (forE (fun _ st => (push 0 st).map Prod.snd) (half + 1) st).bind fun st =>
    (forE (fun i st => (push (1 + i) st).map Prod.snd) (half - 1) st).bind fun st =>
    (forE (fun i s => collect (half + i) (half + i - half) s) (size - half)
      (st, fun i => if i < size then .uninit else .unalloc)).bind fun s =>
    (forE (fun i s => collect (size - 1) (size - half + i) s) half s).bind fun s =>
    readArray s.2 0 size

end

section

variable {K : Type*} [Field K] [LinearOrder K] [FloorSemiring K] [Inhabited K]

/-- `scrunch(data, factor)`, running_medians.py 40-46, for `factor ≥ 1`. -/
def scrunch (x : List K) (factor : ℕ) : List K :=
  (List.range (x.length / factor)).map (fun i => ((x.drop (i * factor)).take factor).sum / factor)

/-- `numpy.interp(x, xp, fp)` at one abscissa, for increasing `xp` of the same length `n ≥ 1` as `fp`: constant outside
`[xp[0], xp[n-1]]`, otherwise on the straight line through the points `j` and `j + 1` with `xp[j] ≤ x < xp[j+1]`. -/
def interp (n : ℕ) (xp fp : ℕ → K) (x : K) : K :=
  if x < xp 0 then fp 0
  else
    let j := ((List.range n).filter (fun j => xp j ≤ x)).length - 1
    if n - 1 ≤ j then fp (n - 1)
    else (fp (j + 1) - fp j) / (xp (j + 1) - xp j) * (x - xp j) + fp j

/-- `fast_running_median(data, width_samples, min_points)`, running_medians.py 49-83, for non-negative arguments
(`int` of a number ≥ 1 rounds down). -/
def fastRunningMedian (x : List K) (width minPoints : ℕ) : Except CallErr (List K) :=
  if minPoints % 2 = 0 then .error .valueError
  else
    let scrunchFactor := ⌊max 1 ((width : K) / minPoints)⌋₊
    if scrunchFactor = 1 then runningMedian x width
    else
      let scrunched := scrunch x scrunchFactor
      (runningMedian scrunched minPoints).bind fun rmed =>
      let xLores := fun j : ℕ => (j : K) * scrunchFactor + 1 / 2 * ((scrunchFactor : K) - 1)
      .ok ((List.range x.length).map (fun i : ℕ => interp scrunched.length xLores (fun j => rmed.getD j default) (i : K)))

end

end Verif.Model
