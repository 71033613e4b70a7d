import Verif.Model.Harmonics
import Verif.Model.PeriodogramF

/-!
# The harmonic test in double precision

`riptide/pipeline/harmonic_testing.py`. The attributes of a peak are Python floats (peak_detection.py 212-215), so every operation is rounded to double
precision, but for those on a `Fraction`, which is exact until it is converted to a float. Simplifications: no overflow, no subnormal numbers, no NaN.
-/

namespace Verif.Model

/-- Double precision with the two uses of `**` in harmonic_testing.py: `invSq x` is `x ** -2` and `root x` is `x ** 0.5`. -/
structure HArith where
  A : DArith
  invSq : ℚ → ℚ
  root : ℚ → ℚ

namespace HArith

variable (h : HArith)

/-- Division of floats, rounded. -/
def div (a b : ℚ) : Except PyErr ℚ := if b = 0 then .error .zeroDivisionError else .ok (h.A.fl (a / b))

/-- `abs(fraction * slow.freq - fast.freq) * tobs`, harmonic_testing.py 59: the `Fraction` is converted to a float for the product. -/
def phaseTurns (fraction slow fast tobs : ℚ) : ℚ :=
  h.A.fl (|h.A.fl (h.A.fl (h.A.fl fraction * slow) - fast)| * tobs)

/-- `dm_absdiff * kdm * abs(fmin**-2 - fmax**-2)`, harmonic_testing.py 69-71; Python raises `ZeroDivisionError` for `0.0 ** -2`. -/
def dmDelay (dmAbsdiff fmin fmax : ℚ) : Except PyErr ℚ :=
  if fmin = 0 ∨ fmax = 0 then .error .zeroDivisionError
  else .ok (h.A.fl (h.A.fl (dmAbsdiff * 4150) * |h.A.fl (h.invSq fmin - h.invSq fmax)|))

/-- `dm_delay_absdiff / min(width(F), width(H))`, harmonic_testing.py 47-48 and 72. -/
def dmDistance (F H : HPeak ℚ) (delay : ℚ) : Except PyErr ℚ :=
  (h.div F.ducy F.freq).bind fun wF => (h.div H.ducy H.freq).bind fun wH => h.div delay (min wF wH)

/-- `F.snr / (fraction.numerator * fraction.denominator) ** 0.5`, harmonic_testing.py 75; the integer is converted to a float. As in `snrExpected`,
the root of a negative number is not modelled. -/
def snrExpected (F : HPeak ℚ) (fraction : ℚ) : Except PyErr ℚ :=
  if fraction.num * fraction.den < 0 then .error .unspecified
  else h.div F.snr (h.root (h.A.fl ((fraction.num * fraction.den : ℤ) : ℚ)))

/-- `hdiag`, harmonic_testing.py 9-87: the fraction and the three distances. -/
def hdiag (F H : HPeak ℚ) (tobs fmin fmax : ℚ) (denomMax : ℤ) : Except PyErr (ℚ × ℚ × ℚ × ℚ) :=
  if ¬ fmax > fmin then .error .valueError
  else if ¬ tobs > 0 then .error .valueError
  else
    let slow := (slowFast F H).1
    let fast := (slowFast F H).2
    (h.div fast.freq slow.freq).bind fun ratio =>
    (limitDenominator ratio denomMax).bind fun fraction0 =>
    (h.div (h.phaseTurns fraction0 slow.freq fast.freq tobs) fast.ducy).bind fun phaseDistance =>
    (orientFraction H slow fraction0).bind fun fraction =>
    (h.dmDelay |h.A.fl (F.dm - H.dm)| fmin fmax).bind fun delay =>
    (h.dmDistance F H delay).bind fun dmDist =>
    (h.snrExpected F fraction).bind fun snrExp =>
    .ok (fraction, phaseDistance, dmDist, |h.A.fl (H.snr - snrExp)|)

/-- `htest(F, H, tobs, fmin, fmax, **kwargs)`, harmonic_testing.py 90-155. -/
def htest (F H : HPeak ℚ) (tobs fmin fmax : ℚ) (a : HTestArgs) : Except PyErr (Bool × ℚ) :=
  (h.hdiag F H tobs fmin fmax a.denomMax).bind fun d =>
    .ok (decide (d.2.1 ≤ a.phaseDistanceMax) && decide (d.2.2.1 ≤ a.dmDistanceMax) && decide (d.2.2.2 ≤ a.snrDistanceMax), d.1)

end HArith

end Verif.Model
