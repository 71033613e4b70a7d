import Verif.Lemmas.FFA
import Verif.Lemmas.FFACor
import Verif.Spec.Signal
import Mathlib.Algebra.Module.Defs
import Mathlib.Algebra.BigOperators.GroupWithZero.Action
import Mathlib.Data.Real.Basic

/-!
# Property theorems for the FFA transform in exact arithmetic: C01, C02, C03, C04, C07, C22
-/

namespace Verif.Props

open Verif.Model Verif.Spec Verif.Lemmas Finset

/-- C01. `ffa2` is defined on every block with at least one row and one column, and there is one
table of shifts, depending on the number of rows only, such that every output row is the stack of all input rows
shifted according to the table. -/
theorem C01_ffa_is_shifted_stack (m : ℕ) (hm : 1 ≤ m) (hm64 : m ≤ 2 ^ 64) :
    ∃ σ : ℕ → ℕ → ℕ, ShiftTable m σ ∧
      ∀ (α : Type) [AddCommMonoid α] (p : ℕ) (x : ℕ → ℕ → α), 1 ≤ p →
        ∃ y, ffa2 (· + ·) exactIdx m p x = some y ∧
          ∀ s < m, ∀ c < p, y s c = stack m p σ x s c := by
  refine ⟨sigma exactIdx m, sigma_table _ m hm (fun m' _ h => exactIdx_ok h), ?_⟩
  intro α _ p x hp
  refine ⟨_, by unfold ffa2; rw [if_neg (by omega)], ?_⟩
  intro s hs c hc
  exact transform_eq_stack exactIdx p m hm hm64 (fun m' _ h => exactIdx_ok h) x s c hs hc

/-- The hypotheses are met by a 3 × 4 block, and the transform is not trivial there. -/
example : ∃ y, ffa2 (· + ·) exactIdx 3 4 (fun i j => ((10 * i + j : ℕ) : ℤ)) = some y ∧
    1 ≤ 3 ∧ 3 ≤ 2 ^ 64 ∧ y 2 3 = (3 : ℤ) + 10 + 21 := by
  refine ⟨_, rfl, by norm_num, by norm_num, ?_⟩
  rw [transform_ge_three _ _ (le_refl 3)]
  unfold merge
  simp only [exactIdx_eq (rows := 3 / 2) (m := 3) (by norm_num) (by norm_num),
    exactIdx_eq (rows := 3 - 3 / 2) (m := 3) (by norm_num) (by norm_num)]
  norm_num [mergeShift, transform_le_one, transform_two, fusedRollbackAdd, addArr]

/-- C01, one-dimensional interface: `ffa1(data, p)` fails exactly if `p` is not in `1..N`, and otherwise returns
`N / p` rows which are the shifted stacks of the consecutive chunks of `p` samples. -/
theorem C01_ffa1_is_shifted_stack (N : ℕ) (hN : N ≤ 2 ^ 64) (p : ℤ) :
    ((p ≤ 0 → ∀ (α : Type) [AddCommMonoid α] (x : ℕ → α),
        ffa1 (· + ·) exactIdx N p x = .error .pNotPositive) ∧
      ((N : ℤ) < p → 0 < p → ∀ (α : Type) [AddCommMonoid α] (x : ℕ → α),
        ffa1 (· + ·) exactIdx N p x = .error .pTooLarge)) ∧
    (0 < p → p ≤ N → ∃ σ : ℕ → ℕ → ℕ, ShiftTable (N / p.toNat) σ ∧ 1 ≤ N / p.toNat ∧
      ∀ (α : Type) [AddCommMonoid α] (x : ℕ → α),
        ∃ y, ffa1 (· + ·) exactIdx N p x = .ok (N / p.toNat, y) ∧
          ∀ s < N / p.toNat, ∀ c < p.toNat,
            y s c = stack (N / p.toNat) p.toNat σ (fun i j => x (i * p.toNat + j)) s c) := by
  refine ⟨⟨?_, ?_⟩, ?_⟩
  · intro h α _ x
    unfold ffa1
    rw [if_pos (by omega)]
  · intro h h0 α _ x
    unfold ffa1
    rw [if_neg (by omega), if_pos h]
  · intro h0 h1
    have hm : 1 ≤ N / p.toNat := by
      rw [Nat.one_le_div_iff (by omega)]; omega
    have hm2 : N / p.toNat ≤ N := Nat.div_le_self _ _
    refine ⟨sigma exactIdx _, sigma_table _ _ hm (fun m' _ h => exactIdx_ok h), hm, ?_⟩
    intro α _ x
    refine ⟨_, by unfold ffa1; rw [if_neg (by omega), if_neg (by omega)], ?_⟩
    intro s hs c hc
    exact transform_eq_stack exactIdx p.toNat _ hm (by omega) (fun m' _ h => exactIdx_ok h) _ s c hs hc

example : (0 : ℤ) < 4 ∧ (4 : ℤ) ≤ (13 : ℕ) ∧ 13 / (4 : ℤ).toNat = 3 := by decide

/-- C02. The table of shifts in C01 can be taken within `(⌈log2 m⌉ - 1)/2` bins of the straight line
`s·i/(m-1)`. -/
theorem C02_shift_deviation_logarithmic (m : ℕ) (hm : 2 ≤ m) (hm64 : m ≤ 2 ^ 64) :
    ∃ σ : ℕ → ℕ → ℕ, ShiftTable m σ ∧
      (∀ (α : Type) [AddCommMonoid α] (p : ℕ) (x : ℕ → ℕ → α), 1 ≤ p →
        ∃ y, ffa2 (· + ·) exactIdx m p x = some y ∧
          ∀ s < m, ∀ c < p, y s c = stack m p σ x s c) ∧
      ∀ s < m, ∀ i < m,
        |(σ s i : ℚ) - (s : ℚ) * i / ((m : ℚ) - 1)| ≤ ((Nat.clog 2 m : ℚ) - 1) / 2 := by
  refine ⟨sigma exactIdx m, sigma_table _ m (by omega) (fun m' _ h => exactIdx_ok h), ?_, ?_⟩
  · intro α _ p x hp
    refine ⟨_, by unfold ffa2; rw [if_neg (by omega)], ?_⟩
    intro s hs c hc
    exact transform_eq_stack exactIdx p m (by omega) hm64 (fun m' _ h => exactIdx_ok h) x s c hs hc
  · intro s hs i hi
    have := sigma_deviation exactIdx (1 / 2) (by norm_num) m hm (fun m' _ h => exactIdx_ok h)
      (fun m' _ h => exactIdx_nearM h) s hs i hi
    calc _ ≤ _ := this
      _ = _ := by ring

example : (2 ≤ 7) ∧ (7 ≤ 2 ^ 64) ∧ (((Nat.clog 2 7 : ℕ) : ℚ) - 1) / 2 = 1 := by
  refine ⟨by norm_num, by norm_num, ?_⟩
  rw [show Nat.clog 2 7 = 3 by decide]; norm_num

/-- C02, the table in C01 is the only one: for blocks wider than the number of rows any table that reproduces the output for
all inputs has the same entries, so the deviation bound is a statement about the code and not about a choice
of table. -/
theorem C02_every_shift_table_deviation (m p : ℕ) (hm : 2 ≤ m) (hm64 : m ≤ 2 ^ 64) (hp : m ≤ p)
    (σ : ℕ → ℕ → ℕ) (hσ : ShiftTable m σ)
    (hst : ∀ x : ℕ → ℕ → ℕ, ∀ y, ffa2 (· + ·) exactIdx m p x = some y →
      ∀ s < m, ∀ c < p, y s c = stack m p σ x s c) :
    ∀ s < m, ∀ i < m,
      |(σ s i : ℚ) - (s : ℚ) * i / ((m : ℚ) - 1)| ≤ ((Nat.clog 2 m : ℚ) - 1) / 2 := by
  intro s hs i hi
  have ht := sigma_table exactIdx m (by omega) (fun m' _ h => exactIdx_ok h)
  have key : σ s i = sigma exactIdx m s i := by
    apply stack_table_unique (by omega : 1 ≤ m) hp hσ ht ?_ s hs i hi
    intro x s hs c hc
    rw [← hst x _ (by unfold ffa2; rw [if_neg (by omega)]) s hs c hc]
    exact (transform_eq_stack exactIdx p m (by omega) hm64 (fun m' _ h => exactIdx_ok h) x s c hs hc).symm
  rw [key]
  have := sigma_deviation exactIdx (1 / 2) (by norm_num) m hm (fun m' _ h => exactIdx_ok h)
    (fun m' _ h => exactIdx_nearM h) s hs i hi
  calc _ ≤ _ := this
    _ = _ := by ring

/-- C03. Every output row has the same total as the whole input. -/
theorem C03_flux_conserved {α : Type} [AddCommMonoid α] (m p : ℕ) (hm : 1 ≤ m) (hm64 : m ≤ 2 ^ 64)
    (hp : 1 ≤ p) (x : ℕ → ℕ → α) :
    ∃ y, ffa2 (· + ·) exactIdx m p x = some y ∧
      ∀ s < m, ∑ c ∈ range p, y s c = ∑ i ∈ range m, ∑ c ∈ range p, x i c := by
  obtain ⟨σ, _, h⟩ := C01_ffa_is_shifted_stack m hm hm64
  obtain ⟨y, e, hy⟩ := h α p x hp
  refine ⟨y, e, ?_⟩
  intro s hs
  rw [Finset.sum_congr rfl (fun c hc => hy s hs c (Finset.mem_range.mp hc))]
  exact stack_sum m p σ x s

/-- C03. Row 0 is the plain fold (column-wise sum). -/
theorem C03_row_zero_is_fold {α : Type} [AddCommMonoid α] (m p : ℕ) (hm : 1 ≤ m) (hm64 : m ≤ 2 ^ 64)
    (hp : 1 ≤ p) (x : ℕ → ℕ → α) :
    ∃ y, ffa2 (· + ·) exactIdx m p x = some y ∧ ∀ c < p, y 0 c = ∑ i ∈ range m, x i c := by
  obtain ⟨σ, hσ, h⟩ := C01_ffa_is_shifted_stack m hm hm64
  obtain ⟨y, e, hy⟩ := h α p x hp
  refine ⟨y, e, ?_⟩
  intro c hc
  rw [hy 0 (by omega) c hc]
  unfold stack
  apply Finset.sum_congr rfl
  intro i hi
  rw [shiftTable_zero hσ (by omega) i (Finset.mem_range.mp hi), Nat.add_zero, Nat.mod_eq_of_lt hc]

example : (1 ≤ 5) ∧ (5 ≤ 2 ^ 64) ∧ (1 ≤ 3) := by norm_num

/-- C04. Linearity over any commutative ring of scalars (or any module of samples). -/
theorem C04_linear {R α : Type} [CommRing R] [AddCommGroup α] [Module R α] (m p : ℕ) (hm : 1 ≤ m)
    (hm64 : m ≤ 2 ^ 64) (hp : 1 ≤ p) (a b : R) (x y : ℕ → ℕ → α) :
    ∃ tx ty tz, ffa2 (· + ·) exactIdx m p x = some tx ∧ ffa2 (· + ·) exactIdx m p y = some ty ∧
      ffa2 (· + ·) exactIdx m p (fun i j => a • x i j + b • y i j) = some tz ∧
      ∀ s < m, ∀ c < p, tz s c = a • tx s c + b • ty s c := by
  obtain ⟨σ, hσ, h⟩ := C01_ffa_is_shifted_stack m hm hm64
  obtain ⟨tx, ex, hx⟩ := h α p x hp
  obtain ⟨ty, ey, hy⟩ := h α p y hp
  obtain ⟨tz, ez, hz⟩ := h α p (fun i j => a • x i j + b • y i j) hp
  refine ⟨tx, ty, tz, ex, ey, ez, ?_⟩
  intro s hs c hc
  rw [hz s hs c hc, hx s hs c hc, hy s hs c hc]
  unfold stack
  rw [Finset.smul_sum, Finset.smul_sum, ← Finset.sum_add_distrib]

/-- C04. Rotating every input row by `k` bins rotates every output row by `k` bins. -/
theorem C04_commutes_with_rotation {α : Type} [AddCommMonoid α] (m p : ℕ) (hm : 1 ≤ m)
    (hm64 : m ≤ 2 ^ 64) (hp : 1 ≤ p) (k : ℕ) (x : ℕ → ℕ → α) :
    ∃ tx tr, ffa2 (· + ·) exactIdx m p x = some tx ∧
      ffa2 (· + ·) exactIdx m p (fun i j => x i ((j + k) % p)) = some tr ∧
      ∀ s < m, ∀ c < p, tr s c = tx s ((c + k) % p) := by
  obtain ⟨σ, hσ, h⟩ := C01_ffa_is_shifted_stack m hm hm64
  obtain ⟨tx, ex, hx⟩ := h α p x hp
  obtain ⟨tr, er, hr⟩ := h α p (fun i j => x i ((j + k) % p)) hp
  refine ⟨tx, tr, ex, er, ?_⟩
  intro s hs c hc
  rw [hr s hs c hc, hx s hs _ (Nat.mod_lt _ (by omega))]
  unfold stack
  apply Finset.sum_congr rfl
  intro i _
  simp only [Nat.mod_add_mod]
  rw [Nat.add_right_comm]

/-- C07. With an addition of relative error at most `u`, every output sample is within
`((1+u)^⌈log2 m⌉ - 1)` times the stack of absolute values of the exact stack; the same shifts apply. -/
theorem C07_rounding_error {K : Type} [Field K] [LinearOrder K] [IsStrictOrderedRing K]
    (m : ℕ) (hm : 1 ≤ m) (hm64 : m ≤ 2 ^ 64) :
    ∃ σ : ℕ → ℕ → ℕ, ShiftTable m σ ∧
      ∀ (u : K) (_ : 0 ≤ u) (add : K → K → K) (_ : ∀ a b, |add a b - (a + b)| ≤ u * |a + b|)
        (p : ℕ) (_ : 1 ≤ p) (x : ℕ → ℕ → K),
        ∃ y, ffa2 add exactIdx m p x = some y ∧ ∀ s < m, ∀ c < p,
          |y s c - stack m p σ x s c| ≤
            ((1 + u) ^ (Nat.clog 2 m) - 1) * stack m p σ (fun i j => |x i j|) s c := by
  refine ⟨sigma exactIdx m, sigma_table _ m hm (fun m' _ h => exactIdx_ok h), ?_⟩
  intro u hu add hadd p hp x
  refine ⟨_, by unfold ffa2; rw [if_neg (by omega)], ?_⟩
  intro s hs c hc
  exact transform_error hu hadd exactIdx p m hm hm64 (fun m' _ h => exactIdx_ok h) x s c hs hc

/-- The hypothesis on the addition is met by a genuinely inexact addition (relative error 1/100). -/
example : (0 : ℚ) ≤ 1 / 100 ∧ ∀ a b : ℚ, |(101 / 100 * (a + b)) - (a + b)| ≤ 1 / 100 * |a + b| := by
  refine ⟨by norm_num, fun a b => le_of_eq ?_⟩
  rw [← abs_of_pos (by norm_num : (0 : ℚ) < 1 / 100), ← abs_mul]
  congr 1
  ring

/-- C22. Any signal `f` with the period written next to output row `s`, `P = b²/(b - s/(m-1))`, sampled at times
`i·b + j`: row `i` shows at every column the profile of row 0 delayed by exactly `i·s/(m-1)` profile bins of `P/b`. -/
theorem C22_labelled_period_drift {β : Type} (m b s i : ℕ) (hm : 2 ≤ m)
    (hs : (s : ℝ) / ((m : ℝ) - 1) < b) (f : ℝ → β)
    (hf : HasPeriod f ((b : ℝ) ^ 2 / ((b : ℝ) - s / ((m : ℝ) - 1)))) (c : ℝ) :
    f ((i : ℝ) * b + c) =
      f (c - (i : ℝ) * ((s : ℝ) / ((m : ℝ) - 1)) *
        (((b : ℝ) ^ 2 / ((b : ℝ) - s / ((m : ℝ) - 1))) / b)) := by
  have hm' : (2 : ℝ) ≤ m := by exact_mod_cast hm
  have hd : 0 ≤ (s : ℝ) / ((m : ℝ) - 1) := div_nonneg (Nat.cast_nonneg _) (by linarith)
  generalize (s : ℝ) / ((m : ℝ) - 1) = δ at *
  have hb : (0 : ℝ) < b := lt_of_le_of_lt hd hs
  have hbd : (b : ℝ) - δ ≠ 0 := by linarith
  rw [← hf.nat i (c - _)]
  congr 1
  field_simp
  ring

/-- C22. All samples that the transform adds into column `c` of output row `s` have, for a signal with the labelled period,
the same phase up to whole turns and at most `(⌈log2 m⌉ - 1)/2 + s/(m-1)` bins, over the whole
length of the data. -/
theorem C22_fold_tracks_signal (m b : ℕ) (hm : 2 ≤ m) (hm64 : m ≤ 2 ^ 64) (hb : 1 ≤ b) :
    ∃ σ : ℕ → ℕ → ℕ,
      (∀ (α : Type) [AddCommMonoid α] (x : ℕ → ℕ → α), ∃ y, ffa2 (· + ·) exactIdx m b x = some y ∧
          ∀ s < m, ∀ c < b, y s c = stack m b σ x s c) ∧
      ∀ s < m, (s : ℝ) / ((m : ℝ) - 1) < b → ∀ c < b, ∀ i < m,
        ∃ k : ℤ, |phaseBins b ((b : ℝ) ^ 2 / ((b : ℝ) - s / ((m : ℝ) - 1)))
              ((i : ℝ) * b + ((c + σ s i) % b : ℕ)) -
            phaseBins b ((b : ℝ) ^ 2 / ((b : ℝ) - s / ((m : ℝ) - 1))) c - k * b| ≤
          ((Nat.clog 2 m : ℝ) - 1) / 2 + (s : ℝ) / ((m : ℝ) - 1) := by
  obtain ⟨σ, hσ, hst, hdev⟩ := C02_shift_deviation_logarithmic m hm hm64
  refine ⟨σ, fun α _ x => hst α b x hb, ?_⟩
  intro s hs hsb c hc i hi
  have hm' : (2 : ℝ) ≤ m := by exact_mod_cast hm
  have hd : 0 ≤ (s : ℝ) / ((m : ℝ) - 1) := div_nonneg (Nat.cast_nonneg _) (by linarith)
  have hb' : (0 : ℝ) < b := by exact_mod_cast hb
  have hdev' : |(σ s i : ℝ) - i * ((s : ℝ) / ((m : ℝ) - 1))| ≤ ((Nat.clog 2 m : ℝ) - 1) / 2 := by
    have := hdev s hs i hi
    have h2 : (((|(σ s i : ℚ) - (s : ℚ) * i / ((m : ℚ) - 1)| : ℚ)) : ℝ) ≤
        ((((Nat.clog 2 m : ℚ) - 1) / 2 : ℚ) : ℝ) := by exact_mod_cast this
    push_cast at h2
    calc _ = |(σ s i : ℝ) - (s : ℝ) * i / ((m : ℝ) - 1)| := by congr 1; ring
      _ ≤ _ := h2
  generalize (s : ℝ) / ((m : ℝ) - 1) = δ at *
  have hbd : (b : ℝ) - δ ≠ 0 := by linarith
  refine ⟨(i : ℤ) - ((c + σ s i) / b : ℕ), ?_⟩
  have hdm : (((c + σ s i) % b : ℕ) : ℝ) = c + σ s i - b * ((c + σ s i) / b : ℕ) := by
    have := Nat.div_add_mod (c + σ s i) b
    have h2 : ((b * ((c + σ s i) / b) + (c + σ s i) % b : ℕ) : ℝ) = ((c + σ s i : ℕ) : ℝ) := by rw [this]
    push_cast at h2
    linarith
  have hjlt : (((c + σ s i) % b : ℕ) : ℝ) < b := by exact_mod_cast Nat.mod_lt _ (by omega)
  have hj0 : (0 : ℝ) ≤ (((c + σ s i) % b : ℕ) : ℝ) := Nat.cast_nonneg _
  have hclt : (c : ℝ) < b := by exact_mod_cast hc
  have hc0 : (0 : ℝ) ≤ c := Nat.cast_nonneg _
  generalize (((c + σ s i) % b : ℕ) : ℝ) = j at *
  generalize ((c + σ s i) / b : ℕ) = w at *
  have key : phaseBins b ((b : ℝ) ^ 2 / ((b : ℝ) - δ)) ((i : ℝ) * b + j) -
      phaseBins b ((b : ℝ) ^ 2 / ((b : ℝ) - δ)) c - (((i : ℤ) - (w : ℕ) : ℤ) : ℝ) * b =
      ((σ s i : ℝ) - i * δ) + δ * ((c - j) / b) := by
    have hσe : (σ s i : ℝ) = j - c + b * w := by linarith
    rw [hσe]
    unfold phaseBins
    push_cast
    field_simp
    ring
  rw [key]
  refine (abs_add_le _ _).trans (add_le_add hdev' ?_)
  rw [abs_mul, abs_of_nonneg hd]
  have : |(c - j) / b| ≤ 1 := by
    rw [abs_div, abs_of_pos hb', div_le_one hb', abs_le]
    constructor <;> linarith
  calc δ * |(c - j) / b| ≤ δ * 1 := mul_le_mul_of_nonneg_left this hd
    _ = δ := mul_one _

/-- A concrete case: 8 rows of 10 bins, output row 3. -/
example : (2 ≤ 8) ∧ (3 < 8) ∧ ((3 : ℕ) : ℝ) / (((8 : ℕ) : ℝ) - 1) < (10 : ℕ) := by norm_num

end Verif.Props
