import Verif.Lemmas.Snr
import Mathlib.Tactic.LinearCombination

/-! # Property theorems for the boxcar S/N: C11, C12, C13 -/

namespace Verif.Props

open Verif.Model Verif.Spec Verif.Lemmas Finset

/-- C11. For widths between 1 and `n - 1` the S/N reported for each width is the best matched filter output over all
starting phases (zero mean, unit square sum, circular boxcar), in units of `std`. -/
theorem C11_snr_is_matched_filter (n : ℕ) (x : ℕ → ℝ) (widths : List ℕ) (hne : widths ≠ [])
    (hw : ∀ w ∈ widths, 0 < w ∧ w < n) (std : ℝ) (hstd : 0 < std) :
    ∃ out, snr1 n x widths std = .ok out ∧ out.length = widths.length ∧
      ∀ k (h : k < widths.length) (h' : k < out.length), IsMatchedSnr n widths[k] x std out[k] := by
  have hn : 1 ≤ n := by
    obtain ⟨w, hwm⟩ := List.exists_mem_of_ne_nil _ hne
    have := hw w hwm
    omega
  refine ⟨_, snr1_ok n hn x widths hne std, by simp, ?_⟩
  intro k h h'
  have hm : widths[k] ∈ widths := List.getElem_mem h
  obtain ⟨h0, h1⟩ := hw _ hm
  rw [List.getElem_map]
  obtain ⟨D, e, hD, hub⟩ := snrWidth_spec n widths[k] hn x std _
    (snr1_cpf n hn x (maxWidth widths) widths[k] (maxWidth_ge _ _ hm))
  rw [e]
  exact matched_of_max h0 h1 x hstd hD hub

/-- The matched filter output is determined by the specification: there is exactly one such number. -/
theorem C11_matched_filter_unique (n w : ℕ) (h0 : 0 < w) (h1 : w < n) (x : ℕ → ℝ) (std : ℝ) (hstd : 0 < std) :
    ∃! v, IsMatchedSnr n w x std v := by
  obtain ⟨D, hD, hub⟩ := winMax_exists n w (by omega) x
  exact ⟨_, matched_of_max h0 h1 x hstd hD hub, fun v hv => matched_unique hv (matched_of_max h0 h1 x hstd hD hub)⟩

example : ([1, 2, 4] : List ℕ) ≠ [] ∧ (∀ w ∈ ([1, 2, 4] : List ℕ), 0 < w ∧ w < 10) ∧ (0 : ℝ) < 1 := by
  refine ⟨by decide, by decide, by norm_num⟩

/-- C12. Rotating the profile in phase does not change the S/N. -/
theorem C12_rotation_invariant (n : ℕ) (hn : 1 ≤ n) (x : ℕ → ℝ) (widths : List ℕ) (hne : widths ≠ [])
    (std : ℝ) (k : ℕ) :
    snr1 n (fun i => x ((i + k) % n)) widths std = snr1 n x widths std := by
  rw [snr1_transfer n hn x (fun i => x ((i + k) % n)) widths hne std std id (fun _ D => D) ?_]
  · cases snr1 n x widths std <;> simp [Except.map]
  · intro w _ D hD hub
    have hw : ∀ φ, winSum n w (fun i => x ((i + k) % n)) φ = winSum n w x ((φ + k) % n) := by
      intro φ
      rw [winSum_mod]
      unfold winSum
      apply Finset.sum_congr rfl
      intro j _
      simp only [Nat.mod_add_mod]
      rw [Nat.add_right_comm]
    refine ⟨?_, ?_, ?_⟩
    · obtain ⟨φ, hφ, e⟩ := hD
      refine ⟨(φ + (n - k % n)) % n, Nat.mod_lt _ (by omega), ?_⟩
      rw [hw, e]
      congr 1
      have hk : k % n < n := Nat.mod_lt _ (by omega)
      have := Nat.div_add_mod k n
      rw [Nat.mod_add_mod, show φ + (n - k % n) + k = φ + n * (k / n + 1) by rw [Nat.mul_add]; omega,
        Nat.add_mul_mod_self_left, Nat.mod_eq_of_lt hφ]
    · intro φ _
      rw [hw]
      exact hub _ (Nat.mod_lt _ (by omega))
    · rw [sum_rotate n k x]
      rfl

/-- C12. Adding a constant baseline does not change the S/N. -/
theorem C12_baseline_invariant (n : ℕ) (x : ℕ → ℝ) (widths : List ℕ) (hne : widths ≠ [])
    (hw : ∀ w ∈ widths, 0 < w ∧ w < n) (std c : ℝ) :
    snr1 n (fun i => x i + c) widths std = snr1 n x widths std := by
  have hn : 1 ≤ n := by
    obtain ⟨w, hwm⟩ := List.exists_mem_of_ne_nil _ hne
    have := hw w hwm
    omega
  rw [snr1_transfer n hn x (fun i => x i + c) widths hne std std id (fun w D => D + w * c) ?_]
  · cases snr1 n x widths std <;> simp [Except.map]
  · intro w hwm D hD hub
    have hw' : ∀ φ, winSum n w (fun i => x i + c) φ = winSum n w x φ + w * c := by
      intro φ
      unfold winSum
      rw [Finset.sum_add_distrib]
      simp
    refine ⟨?_, ?_, ?_⟩
    · obtain ⟨φ, hφ, e⟩ := hD
      exact ⟨φ, hφ, by rw [hw', e]⟩
    · intro φ hφ
      rw [hw']
      have := hub φ hφ
      linarith
    · rw [Finset.sum_add_distrib]
      simp only [Finset.sum_const, Finset.card_range, nsmul_eq_mul, id]
      congr 1
      have := boxB_mul (hw w hwm).2
      linear_combination (-c) * this

/-- C12. A positive gain applied to the profile multiplies the S/N. -/
theorem C12_gain (n : ℕ) (hn : 1 ≤ n) (x : ℕ → ℝ) (widths : List ℕ) (hne : widths ≠ []) (std g : ℝ) (hg : 0 < g) :
    snr1 n (fun i => g * x i) widths std = (snr1 n x widths std).map (List.map (fun v => g * v)) := by
  apply snr1_transfer n hn x (fun i => g * x i) widths hne std std _ (fun _ D => g * D)
  intro w hwm D hD hub
  have hw' : ∀ φ, winSum n w (fun i => g * x i) φ = g * winSum n w x φ := by
    intro φ
    unfold winSum
    rw [Finset.mul_sum]
  refine ⟨?_, ?_, ?_⟩
  · obtain ⟨φ, hφ, e⟩ := hD
    exact ⟨φ, hφ, by rw [hw', e]⟩
  · intro φ hφ
    rw [hw']
    exact mul_le_mul_of_nonneg_left (hub φ hφ) hg.le
  · rw [← Finset.mul_sum]
    ring

/-- C12. The S/N is inversely proportional to `std`; with the same factor on the data it is unchanged. -/
theorem C12_stdnoise (n : ℕ) (hn : 1 ≤ n) (x : ℕ → ℝ) (widths : List ℕ) (hne : widths ≠ []) (std g : ℝ) (hg : 0 < g) :
    snr1 n x widths (g * std) = (snr1 n x widths std).map (List.map (fun v => v / g)) ∧
    snr1 n (fun i => g * x i) widths (g * std) = snr1 n x widths std := by
  have h1 : ∀ y : ℕ → ℝ, snr1 n y widths (g * std) = (snr1 n y widths std).map (List.map (fun v => v / g)) := by
    intro y
    apply snr1_transfer n hn y y widths hne std (g * std) _ (fun _ D => D)
    intro w hwm D hD hub
    refine ⟨hD, hub, ?_⟩
    rw [div_div, mul_comm g std]
  refine ⟨h1 x, ?_⟩
  rw [h1, C12_gain n hn x widths hne std g hg]
  cases snr1 n x widths std with
  | error e => rfl
  | ok l =>
    simp only [Except.map, List.map_map]
    congr 1
    conv_rhs => rw [← List.map_id l]
    apply List.map_congr_left
    intro v _
    simp only [Function.comp_apply, id]
    rw [mul_comm, mul_div_assoc, div_self hg.ne', mul_one]

example : (0 : ℝ) < 3 ∧ (1 ≤ 10) ∧ ([1, 3] : List ℕ) ≠ [] := by
  refine ⟨by norm_num, by norm_num, by decide⟩

/-- C13. `boxcar_snr` raises `ValueError` exactly if `std` is not positive or a width is out of range, and otherwise (given at
least one width) returns one row per profile and one entry per width; each entry is what the single profile function
gives for that profile and that width alone. -/
theorem C13_boxcar_snr_validation (rows n : ℕ) (x : ℕ → ℕ → ℝ) (widths : List ℕ) (hne : widths ≠ []) (std : ℝ) :
    (boxcarSnr rows n x widths std = .error .valueError ↔ ¬ 0 < std ∨ ∃ w ∈ widths, w = 0 ∨ n ≤ w) ∧
    (0 < std → (∀ w ∈ widths, 0 < w ∧ w < n) → ∃ out, boxcarSnr rows n x widths std = .ok out ∧
      out.length = rows ∧ ∀ i (hi : i < out.length), out[i].length = widths.length ∧
        ∀ k (hk : k < out[i].length) (hk' : k < widths.length),
          snr1 n (x i) [widths[k]] std = .ok [out[i][k]]) := by
  have hvalid : trialWidthsValid widths n = true ↔ ∀ w ∈ widths, 0 < w ∧ w < n := by
    unfold trialWidthsValid
    rw [List.all_eq_true]
    constructor
    · intro h w hw; simpa using h w hw
    · intro h w hw; simpa using h w hw
  have hok : 0 < std → (∀ w ∈ widths, 0 < w ∧ w < n) → boxcarSnr rows n x widths std =
      .ok ((List.range rows).map (fun i => widths.map (snrWidth n
        (fun j => (circularPrefixSum (x i) n (n + maxWidth widths) j).getD 0) std))) := by
    intro hstd hw
    have hn : 1 ≤ n := by
      obtain ⟨w, hwm⟩ := List.exists_mem_of_ne_nil _ hne
      have := hw w hwm
      omega
    unfold boxcarSnr
    rw [if_neg (by simpa using hstd), if_neg (by simp [hvalid.mpr hw])]
    unfold snr2
    exact mapM_ok _ _ _ (fun i _ => snr1_ok n hn (x i) widths hne std)
  constructor
  · constructor
    · intro h
      by_contra hc
      push Not at hc
      have := hok hc.1 (fun w hw => ⟨Nat.pos_of_ne_zero (hc.2 w hw).1, (hc.2 w hw).2⟩)
      rw [this] at h
      cases h
    · rintro (h | ⟨w, hw, h⟩)
      · unfold boxcarSnr; rw [if_pos h]
      · unfold boxcarSnr
        split_ifs with h1 h2
        · exfalso
          have := hvalid.mp (by simpa using h2) w hw
          omega
        all_goals rfl
  · intro hstd hw
    have hn : 1 ≤ n := by
      obtain ⟨w, hwm⟩ := List.exists_mem_of_ne_nil _ hne
      have := hw w hwm
      omega
    refine ⟨_, hok hstd hw, by simp, ?_⟩
    intro i hi
    simp only [List.length_map, List.length_range] at hi
    refine ⟨by simp, ?_⟩
    intro k hk hk'
    simp only [List.getElem_map, List.getElem_range]
    exact snr1_single n hn (x i) (maxWidth widths) widths[k] (maxWidth_ge _ _ (List.getElem_mem hk')) std

/-- C13, the excluded case: an empty list of widths passes the checks and is undefined behaviour as soon as there is a
profile (`*std::max_element` of an empty range). -/
theorem C13_empty_widths_undefined (rows n : ℕ) (hr : 1 ≤ rows) (x : ℕ → ℕ → ℝ) (std : ℝ) (hstd : 0 < std) :
    boxcarSnr rows n x [] std = .error .undefinedBehaviour := by
  unfold boxcarSnr
  rw [if_neg (by simpa using hstd), if_neg (by simp [trialWidthsValid])]
  unfold snr2
  obtain ⟨r, rfl⟩ : ∃ r, rows = r + 1 := ⟨rows - 1, by omega⟩
  rw [List.range_succ_eq_map, List.mapM_cons]
  simp [snr1]
  rfl

example : ∀ w ∈ ([1, 2, 3] : List ℕ), 0 < w ∧ w < 4 := by decide

end Verif.Props
