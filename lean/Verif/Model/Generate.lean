import Mathlib.Analysis.SpecialFunctions.Log.Basic
import Mathlib.Analysis.SpecialFunctions.Trigonometric.Basic
import Verif.Model.TimeSeries

/-!
# Model of `generate_signal`, `riptide/libffa.py`, and `TimeSeries.generate`, `riptide/time_series.py`

Simplifications: real arithmetic, without NaN and infinity. A `period` of zero or a `ducy` with `sin(pi * ducy / 2) == 0` gives
NaN or infinity in numpy and has no meaning here; the theorems exclude them where the values matter. The numbers drawn from
the random generator of numpy are a parameter.
-/

namespace Verif.Model

/-- The parameter of the von Mises pulse, libffa.py 51. -/
noncomputable def vonMisesKappa (ducy : ℝ) : ℝ := Real.log 2 / (2 * Real.sin (Real.pi * ducy / 2) ^ 2)

/-- Entry `i` of `phase_radians`, libffa.py 54. -/
noncomputable def phaseRadians (period phi0 : ℝ) (i : ℕ) : ℝ := ((i : ℝ) / period - phi0) * (2 * Real.pi)

/-- The pulse train before normalisation, libffa.py 53-55. -/
noncomputable def pulseTrain (nsamp : ℕ) (period phi0 ducy : ℝ) : List ℝ :=
  (List.range nsamp).map (fun i => Real.exp (vonMisesKappa ducy * (Real.cos (phaseRadians period phi0 i) - 1)))

/-- `generate_signal(nsamp, period, phi0, ducy, amplitude, stdnoise)`, libffa.py 15-68. `gauss i` is the `i`-th number
drawn from the standard normal distribution: `np.random.normal(loc=0, scale=stdnoise)` is `stdnoise` times such a number.
`np.arange` of a negative number is empty, `np.random.normal` rejects a negative size. -/
noncomputable def generateSignal (gauss : ℕ → ℝ) (nsamp : ℤ) (period phi0 ducy amplitude stdnoise : ℝ) :
    Except PyErr (List ℝ) :=
  let signal := pulseTrain nsamp.toNat period phi0 ducy
  let scaleFactor := amplitude * (Real.sqrt (signal.map (fun v => v ^ 2)).sum)⁻¹
  let signal := signal.map (· * scaleFactor)
  if stdnoise > 0 then
    if nsamp < 0 then .error .valueError
    else .ok (List.zipWith (· + ·) signal ((List.range nsamp.toNat).map (fun i => stdnoise * gauss i)))
  else .ok signal

/-- The value `'fake'` and the value `'Von Mises'` of the metadata. -/
def fakeName : MVal := .other 0

/-- See `fakeName`. -/
def vonMisesName : MVal := .other 1

/-- `TimeSeries.generate(length, tsamp, period, phi0, ducy, amplitude, stdnoise)`, time_series.py 170-218. Returns the reference of the
new object. -/
noncomputable def tsGenerate (gauss : ℕ → ℝ) (w : World) (length tsamp period phi0 ducy amplitude stdnoise : ℝ) :
    Except PyErr (World × ℕ) :=
  if tsamp = 0 then .error .zeroDivisionError
  else
    let nsamp := pyRound (length / tsamp)
    let periodSamples := period / tsamp
    (generateSignal gauss nsamp periodSamples phi0 ducy amplitude stdnoise).bind fun data =>
    tsNew w data tsamp
      [("source_name", fakeName), ("signal_shape", vonMisesName), ("signal_period", .num period),
       ("signal_initial_phase", .num phi0), ("signal_duty_cycle", .num ducy)]

end Verif.Model
