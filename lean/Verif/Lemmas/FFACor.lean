import Verif.Lemmas.FFA

/-! # Consequences of the stacking equation -/

namespace Verif.Lemmas

open Verif.Model Verif.Spec Finset

theorem sum_rotate {α : Type*} [AddCommMonoid α] (p k : ℕ) (f : ℕ → α) :
    ∑ c ∈ range p, f ((c + k) % p) = ∑ c ∈ range p, f c := by
  rcases Nat.eq_zero_or_pos p with rfl | hp
  · simp
  apply Finset.sum_nbij' (fun c => (c + k) % p) (fun c => (c + (p - k % p)) % p)
  · intro a _; simp [Nat.mod_lt _ hp]
  · intro a _; simp [Nat.mod_lt _ hp]
  · intro a ha
    have ha := Finset.mem_range.mp ha
    simp only [Nat.mod_add_mod]
    have hk : k % p < p := Nat.mod_lt _ hp
    have := Nat.div_add_mod k p
    rw [show a + k + (p - k % p) = a + p * (k / p + 1) by rw [Nat.mul_add]; omega]
    rw [Nat.add_mul_mod_self_left, Nat.mod_eq_of_lt ha]
  · intro a ha
    have ha := Finset.mem_range.mp ha
    simp only [Nat.mod_add_mod]
    have hk : k % p < p := Nat.mod_lt _ hp
    have := Nat.div_add_mod k p
    rw [show a + (p - k % p) + k = a + p * (k / p + 1) by rw [Nat.mul_add]; omega]
    rw [Nat.add_mul_mod_self_left, Nat.mod_eq_of_lt ha]
  · intro a _; rfl

theorem stack_sum {α : Type*} [AddCommMonoid α] (m p : ℕ) (σ : ℕ → ℕ → ℕ) (x : ℕ → ℕ → α) (s : ℕ) :
    ∑ c ∈ range p, stack m p σ x s c = ∑ i ∈ range m, ∑ c ∈ range p, x i c := by
  unfold stack
  rw [Finset.sum_comm]
  apply Finset.sum_congr rfl
  intro i _
  exact sum_rotate p (σ s i) (x i)

theorem shiftTable_mono {m : ℕ} {σ : ℕ → ℕ → ℕ} (h : ShiftTable m σ) {s : ℕ} (hs : s < m) :
    ∀ j i, i ≤ j → j < m → σ s i ≤ σ s j := by
  intro j
  induction j with
  | zero => intro i hi _; obtain rfl : i = 0 := by omega
            exact le_rfl
  | succ j ih =>
    intro i hi hj
    rcases Nat.lt_or_ge i (j + 1) with h1 | h1
    · exact (ih i (by omega) (by omega)).trans (h.mono s hs j hj)
    · obtain rfl : i = j + 1 := by omega
      exact le_rfl

theorem shiftTable_le {m : ℕ} {σ : ℕ → ℕ → ℕ} (h : ShiftTable m σ) {s i : ℕ} (hs : s < m) (hi : i < m) :
    σ s i ≤ s := by
  have := shiftTable_mono h hs (m - 1) i (by omega) (by omega)
  rwa [h.last s hs] at this

theorem shiftTable_zero {m : ℕ} {σ : ℕ → ℕ → ℕ} (h : ShiftTable m σ) (hm : 0 < m) (i : ℕ) (hi : i < m) :
    σ 0 i = 0 := by
  have := shiftTable_le h hm hi
  omega

/-- A table of shifts below `p` is determined by the stacks of all inputs. -/
theorem stack_table_unique {m p : ℕ} (_hm : 1 ≤ m) (hp : m ≤ p) {σ τ : ℕ → ℕ → ℕ}
    (hσ : ShiftTable m σ) (hτ : ShiftTable m τ)
    (h : ∀ (x : ℕ → ℕ → ℕ), ∀ s < m, ∀ c < p, stack m p τ x s c = stack m p σ x s c) :
    ∀ s < m, ∀ i < m, σ s i = τ s i := by
  intro s hs i hi
  have hs1 := shiftTable_le hσ hs hi
  have ht1 := shiftTable_le hτ hs hi
  have key := h (fun i' j => if i' = i ∧ j = τ s i then 1 else 0) s hs 0 (by omega)
  unfold stack at key
  rw [Finset.sum_eq_single i, Finset.sum_eq_single i] at key
  · simp only [Nat.zero_add, true_and] at key
    rw [Nat.mod_eq_of_lt (by omega), Nat.mod_eq_of_lt (by omega)] at key
    simp only [if_true] at key
    by_contra hne
    rw [if_neg hne] at key
    omega
  · intro b _ hb; simp [hb]
  · intro hn; exact absurd (Finset.mem_range.mpr hi) hn
  · intro b _ hb; simp [hb]
  · intro hn; exact absurd (Finset.mem_range.mpr hi) hn

end Verif.Lemmas
