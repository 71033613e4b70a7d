import Verif.Spec.FFA
import Verif.Spec.Downsample
import Mathlib.Algebra.Order.Floor.Semiring
import Mathlib.Algebra.Order.Archimedean.Real.Basic

/-! # Specification vocabulary for the periodogram (independent of the model) -/

namespace Verif.Spec

/-- Downsampling factor of stage `i`: the first one makes `bmin` bins span `pmin`, each further one continues where `bmax`
bins ended. -/
noncomputable def stageFactor (tsamp pmin : ℝ) (bmin bmax i : ℕ) : ℝ :=
  pmin / (tsamp * bmin) * (((bmax : ℝ) + 1) / bmin) ^ i

/-- A trial: data downsampled by `f`, folded at `b` bins into `m` rows, shift `s` over the full data. -/
structure Trial where
  f : ℝ
  b : ℕ
  m : ℕ
  s : ℕ

/-- Trial frequency: the fold at `b` bins has frequency `1/(b τ)`, each unit of shift lowers it by `1/(τ b² (m-1))`,
where `τ = f tsamp`. -/
noncomputable def Trial.step (t : Trial) (tsamp : ℝ) : ℝ := 1 / (t.f * tsamp * t.b ^ 2 * ((t.m : ℝ) - 1))

noncomputable def Trial.freq (t : Trial) (tsamp : ℝ) : ℝ := 1 / (t.f * tsamp * t.b) - t.s * t.step tsamp

/-- The downsampled series as a function of the output sample index. -/
noncomputable def downsampled (N : ℕ) (x : ℕ → ℝ) (f : ℝ) (k : ℕ) : ℝ :=
  stepIntegral N x ((k : ℝ) * f) (((k : ℝ) + 1) * f)

/-- The trial is admissible for `N` samples and the given search parameters. -/
structure Trial.OK (t : Trial) (N : ℕ) (tsamp pmin : ℝ) (bmin bmax : ℕ) : Prop where
  factor : ∃ i, t.f = stageFactor tsamp pmin bmin bmax i
  bins : bmin ≤ t.b ∧ t.b ≤ bmax
  rows : t.m = ⌊(N : ℝ) / t.f⌋₊ / t.b
  two : 2 ≤ t.m
  shift : t.s < t.m

end Verif.Spec
