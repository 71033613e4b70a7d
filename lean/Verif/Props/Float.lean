import Verif.Lemmas.FloatOK
import Verif.Lemmas.Memory
import Verif.Spec.Memory

/-!
# Property theorems with IEEE single precision index arithmetic: C06
-/

namespace Verif.Props

open Verif.Model Verif.Spec Verif.Lemmas Finset

/-- C06. For every number of rows for which `merge` is called (`m ≥ 3`) up to 2^22 and every `s < m`, the head and tail
row indices computed in `float` are inside the head and the tail, and they split `s` with a remainder of 0 or 1
(so that `s - (h + t)` does not wrap around). Both with and without fused multiply-add. -/
theorem C06_float_index_in_range (m : ℕ) (hm : 3 ≤ m) (hm2 : m ≤ 2 ^ 22) (idx : IdxRule)
    (hidx : idx = float32Idx ∨ idx = float32IdxFma) (s : ℕ) (hs : s < m) :
    idx (m / 2) m s < m / 2 ∧ idx (m - m / 2) m s < m - m / 2 ∧
      idx (m / 2) m s + idx (m - m / 2) m s ≤ s ∧ s ≤ idx (m / 2) m s + idx (m - m / 2) m s + 1 := by
  have ok : IdxOK idx m := by
    rcases hidx with rfl | rfl
    · exact sandwich_ok hm hm2 (sandwich_float hm hm2)
    · exact sandwich_ok hm hm2 (sandwich_fma hm hm2)
  exact ⟨ok.h_lt s hs, ok.t_lt s hs, ok.le s hs, ok.ge s hs⟩

/-- The hypotheses are met at the upper end of the range, and single precision differs from exact arithmetic inside the range
(so the theorem is not a corollary of the exact case). -/
example : 3 ≤ 2 ^ 22 ∧ 8195 ≤ 2 ^ 22 ∧ float32Idx (8195 / 2) 8195 4098 ≠ exactIdx (8195 / 2) 8195 4098 := by
  refine ⟨by norm_num, by norm_num, ?_⟩
  decide +kernel

/-- C06. Consequence: with single precision indices the transform is still a shifted stack of all rows, with shifts
from 0 to `s` growing by 0 or 1, and the shifts are within `(1/2 + m/2^23)(⌈log2 m⌉ - 1)` bins of the straight line. -/
theorem C06_float_transform_is_shifted_stack (m : ℕ) (hm : 2 ≤ m) (hm2 : m ≤ 2 ^ 22) (idx : IdxRule)
    (hidx : idx = float32Idx ∨ idx = float32IdxFma) :
    ∃ σ : ℕ → ℕ → ℕ, ShiftTable m σ ∧
      (∀ (α : Type) [AddCommMonoid α] (p : ℕ) (x : ℕ → ℕ → α), 1 ≤ p →
        ∃ y, ffa2 (· + ·) idx m p x = some y ∧ ∀ s < m, ∀ c < p, y s c = stack m p σ x s c) ∧
      ∀ s < m, ∀ i < m,
        |(σ s i : ℚ) - (s : ℚ) * i / ((m : ℚ) - 1)| ≤ (1 / 2 + (m : ℚ) / 2 ^ 23) * ((Nat.clog 2 m : ℚ) - 1) := by
  have sw : ∀ m' ≤ m, 3 ≤ m' → Sandwich idx m' := by
    intro m' h1 h2
    rcases hidx with rfl | rfl
    · exact sandwich_float h2 (by omega)
    · exact sandwich_fma h2 (by omega)
  have ok : ∀ m' ≤ m, 3 ≤ m' → IdxOK idx m' := fun m' h1 h2 => sandwich_ok h2 (by omega) (sw m' h1 h2)
  refine ⟨sigma idx m, sigma_table _ m (by omega) ok, ?_, ?_⟩
  · intro α _ p x hp
    refine ⟨_, by unfold ffa2; rw [if_neg (by omega)], ?_⟩
    intro s hs c hc
    exact transform_eq_stack idx p m (by omega) (by omega) ok x s c hs hc
  · apply sigma_deviation idx _ (by positivity) m hm ok
    intro m' h1 h2 s hs
    have := sandwich_near h2 (by omega) (sw m' h1 h2) s hs
    have hmm : (m' : ℚ) ≤ m := by exact_mod_cast h1
    exact ⟨this.1.trans (by linarith), this.2.trans (by linarith)⟩

/-- C06. Memory safety of the whole recursion with single precision indices: no invalid load or store, the output block
holds the transform, nothing outside the two work areas changes. -/
theorem C06_float_transform_memory_safe {α : Type} (add : α → α → α) (m : ℕ) (hm : 1 ≤ m) (hm2 : m ≤ 2 ^ 22)
    (idx : IdxRule) (hidx : idx = float32Idx ∨ idx = float32IdxFma) (p input temp out : ℕ) (hp : 1 ≤ p)
    (mem : Mem α) (x : ℕ → ℕ → α) (hx : HoldsBlock mem input m p x) (ht : Alloc mem temp (m * p))
    (ho : Alloc mem out (m * p)) (d1 : Disj input (m * p) temp (m * p))
    (d2 : Disj input (m * p) out (m * p)) (d3 : Disj temp (m * p) out (m * p)) :
    ∃ mem' y, transformMem add idx m p input temp out mem = some mem' ∧ ffa2 add idx m p x = some y ∧
      HoldsBlock mem' out m p y ∧ Frame mem mem' temp out (m * p) := by
  have ok : ∀ m' ≤ m, 3 ≤ m' → IdxOK idx m' := by
    intro m' h1 h2
    rcases hidx with rfl | rfl
    · exact sandwich_ok h2 (by omega) (sandwich_float h2 (by omega))
    · exact sandwich_ok h2 (by omega) (sandwich_fma h2 (by omega))
  obtain ⟨mem', e, h, f⟩ := transformMem_spec add idx p hp m hm ok input temp out mem x hx ht ho d1 d2 d3
  exact ⟨mem', _, e, by unfold ffa2; rw [if_neg (by omega)], h, f⟩

/-- C06. The restriction on `m` is needed: with 2^24 + 1 rows, output row 2^24 reads a head row and a tail row
that do not exist (both variants). -/
theorem C06_out_of_range_above :
    ∀ idx, (idx = float32Idx ∨ idx = float32IdxFma) →
      ¬ (idx ((2 ^ 24 + 1) / 2) (2 ^ 24 + 1) (2 ^ 24) < (2 ^ 24 + 1) / 2) ∧
      ¬ (idx ((2 ^ 24 + 1) - (2 ^ 24 + 1) / 2) (2 ^ 24 + 1) (2 ^ 24) < (2 ^ 24 + 1) - (2 ^ 24 + 1) / 2) := by
  intro idx hidx
  rcases hidx with rfl | rfl
  · constructor <;> decide +kernel
  · constructor <;> decide +kernel

/-- Non-vacuity: three rows of two bins in the memory of a call. -/
example : let mem := callMem [(1 : ℤ), 2, 3, 4, 5, 6] 12
    HoldsBlock mem 0 3 2 (fun r c => (2 * r + c + 1 : ℕ)) ∧ Alloc mem 6 (3 * 2) ∧ Alloc mem 12 (3 * 2) ∧ Disj 0 (3 * 2) 6 (3 * 2) ∧ Disj 0 (3 * 2) 12 (3 * 2) ∧ Disj 6 (3 * 2) 12 (3 * 2) := by
  refine ⟨?_, ?_, ?_, ?_, ?_, ?_⟩
  · intro r hr c hc
    interval_cases r <;> interval_cases c <;> rfl
  all_goals first | (intro i hi; interval_cases i <;> simp [callMem]) | (unfold Disj; omega)

end Verif.Props
