import Mathlib.Algebra.Order.Field.Rat
import Mathlib.Analysis.Real.Sqrt
import Verif.Model.Py

/-!
# Model of `riptide/pipeline/harmonic_testing.py` and of `fractions.Fraction.limit_denominator`

Floating point numbers are rationals, and the arithmetic is exact (in python, `fast.freq / slow.freq` etc. are rounded; the
conversion of the quotient to a `Fraction` is exact). Square roots are real numbers.
-/

namespace Verif.Model

/-- The loop of `Fraction.limit_denominator` (python 3.11 standard library, `Lib/fractions.py`):
`while True: a = n//d; q2 = q0+a*q1; if q2 > max_denominator: break; p0, q0, p1, q1 = p1, q1, p0+a*p1, q2; n, d = d, n-a*d`.
Returns `(p0, q0, p1, q1)`. -/
def ldLoop (M p0 q0 p1 q1 n d : ℤ) : Except PyErr (ℤ × ℤ × ℤ × ℤ) :=
  if _h : d = 0 then .error .zeroDivisionError
  else
    let a := n / d
    let q2 := q0 + a * q1
    if q2 > M then .ok (p0, q0, p1, q1)
    else ldLoop M p1 q1 (p0 + a * p1) q2 d (n - a * d)
termination_by d.natAbs
decreasing_by
  have h1 : n - n / d * d = n % d := by rw [Int.emod_def, mul_comm]
  have h2 := Int.emod_nonneg n _h
  have h3 := Int.emod_lt_abs n _h
  rw [Int.abs_eq_natAbs] at h3
  rw [h1]
  omega

/-- `Fraction(p, q)`. -/
def mkFraction (p q : ℤ) : Except PyErr ℚ := if q = 0 then .error .zeroDivisionError else .ok ((p : ℚ) / (q : ℚ))

/-- End of `Fraction.limit_denominator`: the choice between the two bounds. -/
def ldChoose (x : ℚ) (M : ℤ) (s : ℤ × ℤ × ℤ × ℤ) : Except PyErr ℚ :=
  if s.2.2.2 = 0 then .error .zeroDivisionError
  else
    let k := (M - s.2.1) / s.2.2.2
    (mkFraction (s.1 + k * s.2.2.1) (s.2.1 + k * s.2.2.2)).bind fun bound1 =>
      (mkFraction s.2.2.1 s.2.2.2).bind fun bound2 => .ok (if |bound2 - x| ≤ |bound1 - x| then bound2 else bound1)

/-- `Fraction.limit_denominator(max_denominator)`, python 3.11 standard library. A `Fraction` is a rational number in lowest
terms with positive denominator. -/
def limitDenominator (x : ℚ) (M : ℤ) : Except PyErr ℚ :=
  if M < 1 then .error .valueError
  else if (x.den : ℤ) ≤ M then .ok x
  else (ldLoop M 0 1 1 0 x.num x.den).bind (ldChoose x M)

/-- `Peak`, peak_detection.py 14-26. `tag` stands for the attributes that are not named here (`width`, `iw`, `ip`), which matter
only for the comparison `H == slow`. -/
structure HPeak (K : Type*) where
  freq : K
  snr : K
  ducy : K
  dm : K
  period : K
  tag : ℕ := 0
deriving DecidableEq

/-- Division of python floats. -/
def pyDiv {K : Type*} [Field K] [DecidableEq K] (a b : K) : Except PyErr K := if b = 0 then .error .zeroDivisionError else .ok (a / b)

/-- The dictionary returned by `hdiag`, harmonic_testing.py 78-87. -/
structure HDiag where
  fraction : ℚ
  phaseAbsdiffTurns : ℚ
  phaseDistance : ℚ
  dmAbsdiff : ℚ
  dmDelayAbsdiff : ℚ
  dmDistance : ℚ
  snrExpected : ℝ
  snrDistance : ℝ

/-- `sorted((F, H), key=freq)`, harmonic_testing.py 52: `(slow, fast)`. -/
def slowFast (F H : HPeak ℚ) : HPeak ℚ × HPeak ℚ := if H.freq < F.freq then (H, F) else (F, H)

/-- harmonic_testing.py 65-66. -/
def orientFraction (H slow : HPeak ℚ) (fraction : ℚ) : Except PyErr ℚ :=
  if H = slow then pyDiv 1 fraction else .ok fraction

/-- harmonic_testing.py 71: `dm_absdiff * kdm * abs(fmin**-2 - fmax**-2)`. -/
def dmDelay (dmAbsdiff fmin fmax : ℚ) : Except PyErr ℚ :=
  (pyDiv 1 (fmin ^ 2)).bind fun a => (pyDiv 1 (fmax ^ 2)).bind fun b => .ok (dmAbsdiff * 4150 * |a - b|)

/-- harmonic_testing.py 72: `dm_delay_absdiff / min(width(F), width(H))`. -/
def dmDistance (F H : HPeak ℚ) (delay : ℚ) : Except PyErr ℚ :=
  (pyDiv F.ducy F.freq).bind fun wF => (pyDiv H.ducy H.freq).bind fun wH => pyDiv delay (min wF wH)

/-- harmonic_testing.py 75. Simplification: the square root of a negative integer (python: a complex number) is not
modelled. -/
noncomputable def snrExpected (F : HPeak ℚ) (fraction : ℚ) : Except PyErr ℝ :=
  if fraction.num * fraction.den < 0 then .error .unspecified
  else if fraction.num * fraction.den = 0 then .error .zeroDivisionError
  else .ok ((F.snr : ℝ) / Real.sqrt (fraction.num * fraction.den))

/-- `hdiag(F, H, tobs, fmin, fmax, denom_max)`, harmonic_testing.py 9-87. -/
noncomputable def hdiag (F H : HPeak ℚ) (tobs fmin fmax : ℚ) (denomMax : ℤ) : Except PyErr HDiag :=
  if ¬ fmax > fmin then .error .valueError
  else if ¬ tobs > 0 then .error .valueError
  else
    let slow := (slowFast F H).1
    let fast := (slowFast F H).2
    (pyDiv fast.freq slow.freq).bind fun ratio =>
    (limitDenominator ratio denomMax).bind fun fraction0 =>
    let phaseAbsdiffTurns := |fraction0 * slow.freq - fast.freq| * tobs
    (pyDiv phaseAbsdiffTurns fast.ducy).bind fun phaseDistance =>
    (orientFraction H slow fraction0).bind fun fraction =>
    let dmAbsdiff := |F.dm - H.dm|
    (dmDelay dmAbsdiff fmin fmax).bind fun dmDelayAbsdiff =>
    (dmDistance F H dmDelayAbsdiff).bind fun dmDist =>
    (snrExpected F fraction).bind fun snrExp =>
    .ok { fraction := fraction, phaseAbsdiffTurns := phaseAbsdiffTurns, phaseDistance := phaseDistance,
          dmAbsdiff := dmAbsdiff, dmDelayAbsdiff := dmDelayAbsdiff, dmDistance := dmDist,
          snrExpected := snrExp, snrDistance := |(H.snr : ℝ) - snrExp| }

/-- Keyword arguments of `htest`, harmonic_testing.py 90. -/
structure HTestArgs where
  denomMax : ℤ := 100
  phaseDistanceMax : ℚ := 1
  dmDistanceMax : ℚ := 3
  snrDistanceMax : ℚ := 3

open Classical in
/-- `htest(F, H, tobs, fmin, fmax, **kwargs)`, harmonic_testing.py 90-155. -/
noncomputable def htest (F H : HPeak ℚ) (tobs fmin fmax : ℚ) (a : HTestArgs) : Except PyErr (Bool × ℚ) :=
  (hdiag F H tobs fmin fmax a.denomMax).bind fun d =>
    .ok (decide (d.phaseDistance ≤ a.phaseDistanceMax) && decide (d.dmDistance ≤ a.dmDistanceMax)
      && decide (d.snrDistance ≤ (a.snrDistanceMax : ℝ)), d.fraction)

end Verif.Model
