import Verif.Model.Dm
import Verif.Model.HarmonicsF

/-!
# `select_dms` in double precision

dmiter.py 15-80. The trial DMs and the parameters are floats; every operation is rounded. Simplifications as in `Model/Dm.lean` (no division by zero, logging omitted), no
overflow, no subnormal numbers, no NaN.
-/

namespace Verif.Model

namespace HArith

variable (h : HArith)

/-- `KDM = 1.0 / 2.41e-4`, dmiter.py 12: the decimal number is rounded, then the quotient. -/
def kdm : ℚ := h.A.fl (1 / h.A.fl (241 / 1000000))

/-- `kdisp`, dmiter.py 44. -/
def kdisp (fmin fmax : ℚ) : ℚ := h.A.fl (h.kdm * h.A.fl (h.invSq fmin - h.invSq fmax))

/-- `cw / 2`, dmiter.py 45 and 49. -/
def halfChannel (fmin fmax : ℚ) (nchans : ℕ) : ℚ := h.A.fl (h.A.fl (h.A.fl (fmax - fmin) / nchans) / 2)

/-- `fmid`, dmiter.py 46. -/
def fmid (fmin fmax : ℚ) : ℚ := h.A.fl (h.A.fl (fmax + fmin) / 2)

/-- `ksmear`, dmiter.py 49. -/
def ksmear (fmin fmax : ℚ) (nchans : ℕ) : ℚ :=
  let lo := h.A.fl (h.fmid fmin fmax - h.halfChannel fmin fmax nchans)
  let hi := h.A.fl (h.fmid fmin fmax + h.halfChannel fmin fmax nchans)
  h.A.fl (h.kdm * h.A.fl (h.invSq lo - h.invSq hi))

/-- Entry of `radii` for a trial DM, dmiter.py 53. -/
def radius (fmin fmax : ℚ) (nchans : ℕ) (wmin dm : ℚ) : ℚ :=
  h.A.fl (max wmin (h.A.fl (h.ksmear fmin fmax nchans * dm)) / h.kdisp fmin fmax)

/-- `dm_gap(i, j)`, dmiter.py 55-56. -/
def dmGap (d : List ℚ) (radius : ℚ → ℚ) (i j : ℕ) : ℚ :=
  h.A.fl (h.A.fl (d.getD j 0 - radius (d.getD j 0)) - h.A.fl (d.getD i 0 + radius (d.getD i 0)))

/-- `largest_in_range(i)`, dmiter.py 58-62, for `i < trial_dms.size`. -/
def largestInRange (d : List ℚ) (radius : ℚ → ℚ) (i : ℕ) : ℕ :=
  match (List.range' i (d.length - i)).find? (fun j => h.dmGap d radius i j > 0) with
  | some j => max (j - 1) (i + 1)
  | none => max (d.length - 1) (i + 1)

theorem lt_largestInRange (d : List ℚ) (radius : ℚ → ℚ) (i : ℕ) : i < h.largestInRange d radius i := by
  unfold largestInRange
  split <;> omega

/-- The `while True` loop, dmiter.py 67-79: what is appended to `selected` from `icur = i` on. -/
def selectLoop (d : List ℚ) (radius : ℚ → ℚ) (i : ℕ) : List ℚ :=
  if _h : h.largestInRange d radius i < d.length then
    d.getD (h.largestInRange d radius i) 0 :: selectLoop d radius (h.largestInRange d radius i)
  else []
termination_by d.length - i
decreasing_by
  have := h.lt_largestInRange d radius i
  omega

/-- `select_dms(trial_dms, dm_start, dm_end, fmin, fmax, nchans, wmin)`, dmiter.py 15-80. -/
def selectDms (trialDms : List ℚ) (dmStart dmEnd fmin fmax : ℚ) (nchans : ℕ) (wmin : ℚ) : Except PyErr (List ℚ) :=
  let d := (trialDms.filter (fun x => dmStart ≤ x ∧ x ≤ dmEnd)).mergeSort (· ≤ ·)
  if d.length = 0 then .error .valueError
  else .ok (d.getD 0 0 :: h.selectLoop d (h.radius fmin fmax nchans wmin) 0)

end HArith

end Verif.Model
