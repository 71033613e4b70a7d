import Verif.Model.Snr
import Mathlib.Algebra.Order.Floor.Semiring
import Mathlib.Algebra.Order.Field.Basic

/-!
# Model of `riptide/ffautils.py` and of `ffafreq`, `ffaprd` in `riptide/libffa.py`

Simplification: exact arithmetic in an ordered field instead of floating point.
-/

namespace Verif.Model

variable {K : Type*} [Field K] [LinearOrder K] [IsStrictOrderedRing K] [FloorSemiring K]

theorem width_step (wtsp : K) (w : ℕ) : w + 1 ≤ ⌊max ((w : K) + 1) (wtsp * w)⌋₊ := by
  rw [Nat.le_floor_iff (le_max_of_le_left (by positivity))]
  push_cast
  exact le_max_left _ _

/-- The `while` loop of `generate_width_trials`, ffautils.py 7-9 (`int` of a number ≥ 1 rounds down). -/
def widthLoop {K : Type*} [Field K] [LinearOrder K] [IsStrictOrderedRing K] [FloorSemiring K] (wtsp : K) (wmax w : ℕ) : List ℕ :=
  if w ≤ wmax then w :: widthLoop wtsp wmax ⌊max ((w : K) + 1) (wtsp * w)⌋₊ else []
termination_by wmax + 1 - w
decreasing_by
  have := width_step wtsp w
  omega

/-- `generate_width_trials(nbins, ducy_max, wtsp)`, ffautils.py 3-10. -/
def generateWidthTrials (nbins : ℕ) (ducyMax wtsp : K) : List ℕ :=
  let wmax := ⌊max 1 (ducyMax * nbins)⌋₊
  widthLoop wtsp wmax 1

/-- `ffafreq(N, p, dt)`, libffa.py 129-169, for integer `N` and `p` (other types are rejected by lines 149-153,
not modelled). -/
def ffafreq (N p : ℤ) (dt : K) : Except CallErr (List K) :=
  if ¬ N > 0 then .error .valueError
  else if ¬ p > 1 then .error .valueError
  else if ¬ N ≥ p then .error .valueError
  else if ¬ dt > 0 then .error .valueError
  else
    let f0 : K := 1 / p
    let m := (N / p).toNat
    let f := if m = 1 then [f0] else (List.range m).map (fun s : ℕ => f0 - s / ((m : K) - 1) * f0 ^ 2)
    .ok (f.map (· / dt))

/-- `ffaprd(N, p, dt)`, libffa.py 172-191. -/
def ffaprd (N p : ℤ) (dt : K) : Except CallErr (List K) :=
  (ffafreq N p dt).map (List.map (1 / ·))

end Verif.Model
