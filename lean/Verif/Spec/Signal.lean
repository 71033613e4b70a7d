import Mathlib.Data.Real.Basic
import Mathlib.Tactic.Ring

/-! # Periodic signals (independent of the model) -/

namespace Verif.Spec

/-- `f` repeats after `P`. -/
def HasPeriod {β : Type*} (f : ℝ → β) (P : ℝ) : Prop := ∀ t, f (t + P) = f t

/-- Phase at time `t` of a signal with period `P`, counted in units of 1/`b` turn. -/
noncomputable def phaseBins (b : ℕ) (P t : ℝ) : ℝ := b * (t / P)

theorem HasPeriod.nat {β : Type*} {f : ℝ → β} {P : ℝ} (h : HasPeriod f P) (n : ℕ) (t : ℝ) :
    f (t + n * P) = f t := by
  induction n with
  | zero => simp
  | succ n ih =>
    rw [show t + ((n + 1 : ℕ) : ℝ) * P = (t + n * P) + P by push_cast; ring, h, ih]

end Verif.Spec
