import Verif.Model.FoldF
import Verif.Props.SearchFloat
import Verif.Props.Fold
import Verif.Props.DereddenF

/-!
# C123, C124: folding in floating point
-/

namespace Verif.Props

open Verif.Model Verif.Lemmas Verif.Spec Finset

/-! ## The arrays -/

/-- Element `(r, j)` of the array `folded` after scaling. -/
noncomputable def foldCell (A : DArith) (B : FArith) (narrow : Bool) (data : List ℝ) (f : ℚ) (bins : ℕ) (scale : ℝ) (r j : ℕ) : ℝ :=
  B.scaleOne narrow scale (dSample A (B.searchOps A) data.length (fun i => data.getD i default) f (r * bins + j))

/-- An array given by a function. -/
def table {V : Type*} (m bins : ℕ) (g : ℕ → ℕ → V) : List (List V) := (List.range m).map (fun i => (List.range bins).map (fun j => g i j))

theorem table_length {V : Type*} (m bins : ℕ) (g : ℕ → ℕ → V) : (table m bins g).length = m := by simp [table]

theorem foldRows_ok {A : DArith} (hA : Sane A) (B : FArith) (inv : ℝ → ℝ) (narrow : Bool) (data : List ℝ) (hN : data.length ≤ 2 ^ 50) {tsamp period : ℚ}
    (hts : tsamp ≠ 0) {bins : ℕ} {subints : Option ℤ} (hc : A.foldChecks data.length tsamp period bins subints = .ok ()) {m : ℕ}
    (h1 : 1 < A.foldFactor tsamp period bins) (h2 : A.foldFactor tsamp period bins ≤ data.length)
    (hm : ⌊A.fl (A.fl data.length / A.foldFactor tsamp period bins)⌋₊ / bins = m) :
    foldRows A B inv narrow data tsamp period bins subints =
      if m = 0 then .error .zeroDivisionError
      else .ok (table m bins (foldCell A B narrow data (A.foldFactor tsamp period bins) bins
        (inv ((A.fl (m * A.foldFactor tsamp period bins) : ℚ) : ℝ)))) := by
  unfold foldRows
  rw [hc]
  simp only [Except.bind]
  rw [if_neg hts, call_eq hA _ data hN h1 h2]
  simp only [liftCall, List.length_map, List.length_range]
  rw [hm]
  by_cases h0 : m = 0
  · rw [if_pos h0, if_pos h0]
  rw [if_neg h0, if_neg h0]
  congr 1
  have hn : m * bins ≤ ⌊A.fl (A.fl data.length / A.foldFactor tsamp period bins)⌋₊ := by
    rw [← hm]; exact Nat.div_mul_le_self _ _
  rw [reshape_eq _ _ _ (by simp; exact hn)]
  unfold table
  apply List.map_congr_left
  intro i hi
  apply List.map_congr_left
  intro j hj
  rw [List.mem_range] at hi hj
  have hk : i * bins + j < m * bins := by
    have : (i + 1) * bins ≤ m * bins := Nat.mul_le_mul_right _ hi
    linarith
  have hk2 : i * bins + j < ⌊A.fl (A.fl data.length / A.foldFactor tsamp period bins)⌋₊ := by omega
  unfold foldCell
  rw [List.getD_eq_getElem?_getD, List.getElem?_map, List.getElem?_take_of_lt hk, List.getElem?_map, List.getElem?_range hk2]
  rfl

theorem verticalF_ok {A : DArith} (hA : Sane A) (B : FArith) {m : ℕ} (hm : m ≤ 2 ^ 50) {bins : ℕ} (hb : 0 < bins) (g : ℕ → ℕ → ℝ) {vf : ℚ} (h1 : 1 < vf)
    (h2 : vf < m) : verticalF A B (table m bins g) bins vf =
      .ok (table ⌊A.fl (A.fl m / vf)⌋₊ bins (fun i j => dSample A (B.searchOps A) m (fun r => ((List.range m).map fun i => g i j).getD r default) vf i)) := by
  unfold verticalF
  simp only [table_length]
  rw [if_neg (by simpa using h1), if_neg (by simpa using h2)]
  have hcol : ∀ j ∈ List.range bins, liftCall (A.downsampleCall (B.searchOps A) (column (table m bins g) j) vf) =
      .ok ((List.range ⌊A.fl (A.fl m / vf)⌋₊).map
        (dSample A (B.searchOps A) m (fun r => ((List.range m).map fun i => g i j).getD r default) vf)) := by
    intro j hj
    rw [List.mem_range] at hj
    unfold table
    rw [column_eq m bins g hj, call_eq hA _ _ (by simpa using hm) h1 (by simpa using h2.le)]
    simp only [List.length_map, List.length_range, liftCall]
  rw [Lemmas.mapM_ok _ _ _ hcol]
  simp only [Except.bind]
  congr 1
  have h0 : (((List.range bins).map (fun j => (List.range ⌊A.fl (A.fl m / vf)⌋₊).map
        (dSample A (B.searchOps A) m (fun r => ((List.range m).map fun i => g i j).getD r default) vf))).getD 0 []).length = ⌊A.fl (A.fl m / vf)⌋₊ := by
    simp [List.getD, hb]
  rw [h0]
  unfold table
  apply List.map_congr_left
  intro k hk
  rw [List.mem_range] at hk
  rw [List.map_map]
  apply List.map_congr_left
  intro j _
  simp [List.getD, hk]

/-! ## Rounding of the factors -/

/-- The downsampling factor. -/
theorem foldFactor_near {A : DArith} (hA : Sane A) {tsamp period : ℚ} (hts : 0 < tsamp) (hp : 0 < period) (bins : ℕ) :
    (1 - u53) ^ 2 * (period / bins / tsamp) ≤ A.foldFactor tsamp period bins ∧
      A.foldFactor tsamp period bins ≤ (1 + u53) ^ 2 * (period / bins / tsamp) := by
  unfold DArith.foldFactor
  have h0 : 0 ≤ period / bins := by positivity
  have a1 := Dbl.fl_le hA h0
  have a2 := Dbl.fl_ge hA h0
  have h1 : 0 ≤ A.fl (period / bins) / tsamp := div_nonneg (Dbl.fl_nonneg hA h0) hts.le
  have b1 := Dbl.fl_le hA h1
  have b2 := Dbl.fl_ge hA h1
  have c1 := div_le_div_of_nonneg_right a1 hts.le
  have c2 := div_le_div_of_nonneg_right a2 hts.le
  rw [mul_div_assoc] at c1 c2
  have u0 : (0 : ℚ) ≤ 1 + u53 := by norm_num [u53]
  have u1 : (0 : ℚ) ≤ 1 - u53 := by norm_num [u53]
  constructor
  · calc (1 - u53) ^ 2 * (period / bins / tsamp) = (1 - u53) * ((1 - u53) * (period / bins / tsamp)) := by ring
      _ ≤ (1 - u53) * (A.fl (period / bins) / tsamp) := mul_le_mul_of_nonneg_left c2 u1
      _ ≤ _ := b2
  · calc _ ≤ (1 + u53) * (A.fl (period / bins) / tsamp) := b1
      _ ≤ (1 + u53) * ((1 + u53) * (period / bins / tsamp)) := mul_le_mul_of_nonneg_left c1 u0
      _ = _ := by ring

/-- The relative margin that makes up for rounding. -/
def slack : ℚ := 1 + 1 / 2 ^ 50

/-- With room for rounding, the factor passes the checks of `downsample`, and the number of periods is that of exact arithmetic. -/
theorem fold_counts {A : DArith} (hA : Sane A) {N bins m : ℕ} (hN : N ≤ 2 ^ 50) {tsamp period : ℚ} (hts : 0 < tsamp) (hb : 0 < bins) (hm : 1 ≤ m)
    (h1 : (m : ℚ) * period * slack ≤ N * tsamp) (h2 : N * tsamp * slack < (m + 1) * period) (h3 : bins * tsamp * slack ≤ period) :
    1 < A.foldFactor tsamp period bins ∧ A.foldFactor tsamp period bins ≤ N ∧
      ⌊A.fl (A.fl N / A.foldFactor tsamp period bins)⌋₊ / bins = m := by
  have hbq : (0 : ℚ) < bins := by exact_mod_cast hb
  have hb1 : (1 : ℚ) ≤ bins := by exact_mod_cast hb
  have hmq : (1 : ℚ) ≤ m := by exact_mod_cast hm
  have hs1 : (1 : ℚ) < slack := by norm_num [slack]
  have hbt : 0 < bins * tsamp := by positivity
  have hp : 0 < period := by nlinarith
  obtain ⟨f1, f2⟩ := foldFactor_near hA hts hp bins
  generalize hf : A.foldFactor tsamp period bins = f at f1 f2
  set φ : ℚ := period / bins / tsamp with hφ
  have eφ : φ * (bins * tsamp) = period := by rw [hφ]; field_simp
  have hφ1 : slack ≤ φ := by
    have : slack * (bins * tsamp) ≤ φ * (bins * tsamp) := by rw [eφ]; linarith
    exact le_of_mul_le_mul_right this hbt
  have gN : (m : ℚ) * bins * φ * slack ≤ N := by
    have : (m : ℚ) * bins * φ * slack * tsamp ≤ N * tsamp := by
      calc (m : ℚ) * bins * φ * slack * tsamp = m * (φ * (bins * tsamp)) * slack := by ring
        _ ≤ _ := by rw [eφ]; exact h1
    exact le_of_mul_le_mul_right this hts
  have gN2 : (N : ℚ) * slack < (m + 1) * bins * φ := by
    have : (N : ℚ) * slack * tsamp < (m + 1) * bins * φ * tsamp := by
      calc (N : ℚ) * slack * tsamp = N * tsamp * slack := by ring
        _ < (m + 1) * period := h2
        _ = (m + 1) * bins * φ * tsamp := by rw [← eφ]; ring
    exact lt_of_mul_lt_mul_right this hts.le
  have k1 : (1 : ℚ) < (1 - u53) ^ 2 * slack := by norm_num [u53, slack]
  have k2 : (1 + u53 : ℚ) ^ 2 ≤ slack := by norm_num [u53, slack]
  have k3 : (1 + u53 : ℚ) ≤ (1 - u53) ^ 2 * slack := by norm_num [u53, slack]
  have u1 : (0 : ℚ) ≤ (1 - u53) ^ 2 := by positivity
  have hφ0 : 0 < φ := by linarith
  have hf1 : 1 < f := by
    have := mul_le_mul_of_nonneg_left hφ1 u1
    linarith
  have hf0 : 0 < f := by linarith
  have hfm : (m : ℚ) * bins * f ≤ N := by
    have e1 : (m : ℚ) * bins * f ≤ m * bins * ((1 + u53) ^ 2 * φ) := mul_le_mul_of_nonneg_left f2 (by positivity)
    have e2 : (m : ℚ) * bins * ((1 + u53) ^ 2 * φ) ≤ m * bins * (slack * φ) :=
      mul_le_mul_of_nonneg_left (mul_le_mul_of_nonneg_right k2 hφ0.le) (by positivity)
    have e3 : (m : ℚ) * bins * (slack * φ) = m * bins * φ * slack := by ring
    linarith
  have hmb : (1 : ℚ) ≤ m * bins := by nlinarith
  have hfN : f ≤ N := by
    have : 1 * f ≤ (m : ℚ) * bins * f := mul_le_mul_of_nonneg_right hmb hf0.le
    linarith
  refine ⟨hf1, hfN, ?_⟩
  have eN := hA.nat N (by omega)
  rw [eN]
  have hlow : m * bins ≤ ⌊A.fl ((N : ℚ) / f)⌋₊ := by
    apply Nat.le_floor
    have hle : ((m * bins : ℕ) : ℚ) ≤ (N : ℚ) / f := by
      rw [le_div_iff₀ hf0]
      push_cast
      exact hfm
    refine Dbl.fl_ge_nat hA ?_ hle
    have : ((m * bins : ℕ) : ℚ) ≤ N := by
      have : ((m * bins : ℕ) : ℚ) * 1 ≤ m * bins * f := by
        push_cast
        exact mul_le_mul_of_nonneg_left hf1.le (by positivity)
      linarith
    have : m * bins ≤ N := by exact_mod_cast this
    omega
  have hhigh : ⌊A.fl ((N : ℚ) / f)⌋₊ < (m + 1) * bins := by
    have q0 : (0 : ℚ) ≤ (N : ℚ) / f := by positivity
    have e1 := (Nat.floor_le (Dbl.fl_nonneg hA q0)).trans (Dbl.fl_le hA q0)
    have e2 : (1 + u53) * ((N : ℚ) / f) < (m + 1) * bins := by
      rw [← mul_div_assoc, div_lt_iff₀ hf0]
      have i1 : (m + 1 : ℚ) * bins * ((1 - u53) ^ 2 * φ) ≤ (m + 1) * bins * f := mul_le_mul_of_nonneg_left f1 (by positivity)
      have i2 : (1 + u53) * (N : ℚ) ≤ (1 - u53) ^ 2 * slack * N := mul_le_mul_of_nonneg_right k3 (by positivity)
      have i3 : (1 - u53) ^ 2 * ((N : ℚ) * slack) < (1 - u53) ^ 2 * ((m + 1) * bins * φ) :=
        mul_lt_mul_of_pos_left gN2 (by norm_num [u53])
      linarith
    have e3 : ((⌊A.fl ((N : ℚ) / f)⌋₊ : ℕ) : ℚ) < (((m + 1) * bins : ℕ) : ℚ) := by
      push_cast
      linarith
    exact_mod_cast e3
  rw [Nat.div_eq_iff hb]
  rw [add_mul, one_mul] at hhigh
  omega

/-- The vertical factor and the number of sub-integrations. -/
theorem vertical_counts {A : DArith} (hA : Sane A) {m s : ℕ} (hm : m ≤ 2 ^ 50) (hs : 2 ≤ s) (hsm : s < m) :
    1 < A.fl ((m : ℚ) / s) ∧ A.fl ((m : ℚ) / s) < m ∧ ⌊A.fl (A.fl m / A.fl ((m : ℚ) / s))⌋₊ ≤ s ∧
      s - 1 ≤ ⌊A.fl (A.fl m / A.fl ((m : ℚ) / s))⌋₊ ∧
      (A.fl ((m : ℚ) / s) ≤ (m : ℚ) / s → ⌊A.fl (A.fl m / A.fl ((m : ℚ) / s))⌋₊ = s) := by
  have hs0 : (0 : ℚ) < s := by
    have : 0 < s := by omega
    exact_mod_cast this
  have hs2 : (2 : ℚ) ≤ s := by exact_mod_cast hs
  have hm0 : (0 : ℚ) < m := by
    have : 0 < m := by omega
    exact_mod_cast this
  have hm50 : (m : ℚ) ≤ 2 ^ 50 := by exact_mod_cast hm
  have hsm' : (s : ℚ) + 1 ≤ m := by exact_mod_cast hsm
  set q : ℚ := (m : ℚ) / s with hq
  have hq0 : 0 < q := by positivity
  have eq1 : q * s = m := by rw [hq]; field_simp
  have g1 := Dbl.fl_le hA hq0.le
  have g2 := Dbl.fl_ge hA hq0.le
  have em := hA.nat m (by omega)
  have w1 : (0 : ℚ) < 1 - u53 := by norm_num [u53]
  have w2 : (0 : ℚ) < 1 + u53 := by norm_num [u53]
  have hv1 : 1 < A.fl q := by
    have h1 : q ≥ 1 + 1 / s := by
      rw [ge_iff_le, hq, le_div_iff₀ hs0, add_mul, one_mul, one_div, inv_mul_cancel₀ hs0.ne']
      exact hsm'
    have h2 : (1 : ℚ) / 2 ^ 50 ≤ 1 / s := one_div_le_one_div_of_le hs0 (by linarith)
    have h3 : (1 : ℚ) < (1 - u53) * (1 + 1 / 2 ^ 50) := by norm_num [u53]
    have h4 : (1 - u53) * (1 + 1 / 2 ^ 50) ≤ (1 - u53) * q := mul_le_mul_of_nonneg_left (by linarith) w1.le
    linarith
  have hv2 : A.fl q < m := by
    have h1 : q ≤ m / 2 := by
      rw [hq]
      exact div_le_div_of_nonneg_left hm0.le (by norm_num) hs2
    have h2 : (1 + u53) * q ≤ (1 + u53) * (m / 2) := mul_le_mul_of_nonneg_left h1 w2.le
    have h3 : (1 + u53) * ((m : ℚ) / 2) < m := by
      have : (1 + u53 : ℚ) < 2 := by norm_num [u53]
      nlinarith
    linarith
  have hv0 : 0 < A.fl q := by linarith
  have z0 : (0 : ℚ) ≤ (m : ℚ) / A.fl q := by positivity
  have z1 : (m : ℚ) / A.fl q ≤ s / (1 - u53) := by
    rw [div_le_div_iff₀ hv0 w1]
    have := mul_le_mul_of_nonneg_left g2 hs0.le
    have e : (s : ℚ) * ((1 - u53) * q) = m * (1 - u53) := by rw [← eq1]; ring
    linarith
  have z2 : s / (1 + u53) ≤ (m : ℚ) / A.fl q := by
    rw [div_le_div_iff₀ w2 hv0]
    have := mul_le_mul_of_nonneg_left g1 hs0.le
    have e : (s : ℚ) * ((1 + u53) * q) = m * (1 + u53) := by rw [← eq1]; ring
    linarith
  have hs50 : (s : ℚ) < 2 ^ 50 := by linarith
  rw [em]
  have hle : ⌊A.fl ((m : ℚ) / A.fl q)⌋₊ ≤ s := by
    have h1 := (Nat.floor_le (Dbl.fl_nonneg hA z0)).trans (Dbl.fl_le hA z0)
    have h2 : (1 + u53) * ((m : ℚ) / A.fl q) ≤ (1 + u53) * (s / (1 - u53)) := mul_le_mul_of_nonneg_left z1 w2.le
    have h3 : (1 + u53) * ((s : ℚ) / (1 - u53)) < s + 1 := by
      rw [← mul_div_assoc, div_lt_iff₀ w1]
      have : 2 * u53 * (s : ℚ) ≤ 2 * u53 * 2 ^ 50 := mul_le_mul_of_nonneg_left hs50.le (by norm_num [u53])
      have : 2 * u53 * 2 ^ 50 < 1 - u53 := by norm_num [u53]
      linarith
    have h4 : ((⌊A.fl ((m : ℚ) / A.fl q)⌋₊ : ℕ) : ℚ) < ((s + 1 : ℕ) : ℚ) := by
      push_cast
      linarith
    have : ⌊A.fl ((m : ℚ) / A.fl q)⌋₊ < s + 1 := by exact_mod_cast h4
    omega
  refine ⟨hv1, hv2, hle, ?_, ?_⟩
  · apply Nat.le_floor
    refine Dbl.fl_ge_nat hA (by omega) ?_
    refine le_trans ?_ z2
    rw [le_div_iff₀ w2, Nat.cast_sub (by omega), Nat.cast_one]
    have : u53 * (s : ℚ) ≤ u53 * 2 ^ 50 := mul_le_mul_of_nonneg_left hs50.le (by norm_num [u53])
    have : u53 * 2 ^ 50 < 1 := by norm_num [u53]
    have : (0 : ℚ) ≤ u53 := by norm_num [u53]
    linarith
  · intro hdown
    apply le_antisymm hle
    apply Nat.le_floor
    refine Dbl.fl_ge_nat hA (by omega) ?_
    rw [le_div_iff₀ hv0]
    calc (s : ℚ) * A.fl q ≤ s * q := mul_le_mul_of_nonneg_left hdown hs0.le
      _ = m := by rw [mul_comm]; exact eq1

/-! ## What `fold` accepts and the shape of the result -/

theorem fold_accepts {A : DArith} (hA : Sane A) {N bins : ℕ} {tsamp period : ℚ} (hts : 0 < tsamp) (hb : 0 < bins) {subints : Option ℤ}
    (h1 : period * slack ≤ N * tsamp) (h3 : bins * tsamp * slack ≤ period)
    (hs : ∀ s, subints = some s → 1 ≤ s ∧ (s : ℚ) * period * slack ≤ N * tsamp) :
    A.foldChecks N tsamp period bins subints = .ok () := by
  have hbq : (0 : ℚ) < bins := by exact_mod_cast hb
  have hs1 : (1 : ℚ) < slack := by norm_num [slack]
  have hp : 0 < period := by
    have : 0 < bins * tsamp := by positivity
    nlinarith
  have hL0 : 0 ≤ (N : ℚ) * tsamp := by positivity
  have L1 := Dbl.fl_ge hA hL0
  have w1 : (0 : ℚ) < 1 - u53 := by norm_num [u53]
  have c1 : ¬ period > A.seriesLength N tsamp := by
    unfold DArith.seriesLength
    rw [not_lt]
    have k : (1 : ℚ) ≤ (1 - u53) * slack := by norm_num [u53, slack]
    have := mul_le_mul_of_nonneg_left h1 w1.le
    have := mul_le_mul_of_nonneg_left k hp.le
    linarith
  have c2 : tsamp < A.fl (period / bins) := by
    have h0 : 0 ≤ period / bins := by positivity
    have g := Dbl.fl_ge hA h0
    have e : tsamp * slack ≤ period / bins := by
      rw [le_div_iff₀ hbq]; linarith
    have k : (1 : ℚ) < (1 - u53) * slack := by norm_num [u53, slack]
    have e2 := mul_le_mul_of_nonneg_left e w1.le
    have e3 := mul_lt_mul_of_pos_left k hts
    linarith
  unfold DArith.foldChecks
  rw [if_neg c1, if_neg (by omega), if_neg (by simpa using c2)]
  cases subints with
  | none => rfl
  | some s =>
    obtain ⟨s1, s2⟩ := hs s rfl
    simp only
    rw [if_neg (by simpa using s1), if_neg]
    rw [not_lt]
    unfold DArith.seriesLength
    have q0 : 0 ≤ A.fl (N * tsamp) / period := div_nonneg (Dbl.fl_nonneg hA hL0) hp.le
    have g := Dbl.fl_ge hA q0
    refine le_trans ?_ g
    rw [← mul_div_assoc, le_div_iff₀ hp]
    have hsq : (0 : ℚ) ≤ s := by
      have : (0 : ℤ) ≤ s := by omega
      exact_mod_cast this
    have k : (1 : ℚ) ≤ (1 - u53) * ((1 - u53) * slack) := by norm_num [u53, slack]
    have i1 := mul_le_mul_of_nonneg_left L1 w1.le
    have i2 := mul_le_mul_of_nonneg_left (mul_le_mul_of_nonneg_left s2 w1.le) w1.le
    have i3 := mul_le_mul_of_nonneg_right k (mul_nonneg hsq hp.le)
    linarith

theorem sumsTo_exists (B : FArith) {rows : List (List ℝ)} (h : rows ≠ []) (bins : ℕ) : ∃ p, SumsTo B rows bins p := by
  have hne : ∀ j, column rows j ≠ [] := by
    intro j
    simpa [column] using h
  choose p hp using fun j => dsum_exists B.narrowed (column rows j) (hne j)
  refine ⟨(List.range bins).map p, by simp, ?_⟩
  intro j hj
  have : ((List.range bins).map p).getD j 0 = p j := by simp [List.getD, hj]
  rw [this]
  exact hp j

/-- C123. `fold` in floating point, for up to 2^50 samples, with a relative margin of `2^-50` between the requested values and the limits: `m` is the number
of full periods in the data, with no rounding able to change it. Every call succeeds. The result has one dimension and `bins` elements if `m = 1` or one sub-integration is
requested. Otherwise it has `m` rows by default, and for `s` sub-integrations `s` or `s - 1` rows; it has `s` rows if `s = m` or if the quotient `m / s` is not rounded up.
Missing: the calls within the margin, and the exact number of rows (see `C123_rows_false`, `C123_rejected` and `C123_zero`). -/
theorem C123_shape_partial {A : DArith} (hA : Sane A) (B : FArith) (inv : ℝ → ℝ) (narrow : Bool) (data : List ℝ) (hN : data.length ≤ 2 ^ 50) (tsamp period : ℚ)
    (hts : 0 < tsamp) (bins : ℕ) (hb : 0 < bins) (m : ℕ) (hm : 1 ≤ m) (h1 : (m : ℚ) * period * slack ≤ data.length * tsamp)
    (h2 : data.length * tsamp * slack < (m + 1) * period) (h3 : bins * tsamp * slack ≤ period) (subints : Option ℤ)
    (hs : ∀ s, subints = some s → 1 ≤ s ∧ s ≤ m) :
    (∃ r, FoldsTo A B inv narrow data tsamp period bins subints r) ∧
    ∀ r, FoldsTo A B inv narrow data tsamp period bins subints r →
      (subints = some 1 ∨ m = 1 → ∃ p, r = .ok (.d1 p) ∧ p.length = bins) ∧
      (subints ≠ some 1 → m ≠ 1 → ∃ rows, r = .ok (.d2 rows) ∧ (∀ row ∈ rows, row.length = bins) ∧
        (subints = none → rows.length = m) ∧
        ∀ s : ℕ, subints = some (s : ℤ) → (s = m → rows.length = s) ∧ s - 1 ≤ rows.length ∧ rows.length ≤ s ∧
          (A.fl ((m : ℚ) / s) ≤ (m : ℚ) / s → rows.length = s)) := by
  have hp : 0 < period := by
    have hs1 : (1 : ℚ) < slack := by norm_num [slack]
    have hbq : (0 : ℚ) < bins := by exact_mod_cast hb
    have : 0 < bins * tsamp := by positivity
    nlinarith
  have hmq : (1 : ℚ) ≤ m := by exact_mod_cast hm
  have hs0 : (0 : ℚ) < slack := by norm_num [slack]
  have hps : 0 < period * slack := by positivity
  have hc : A.foldChecks data.length tsamp period bins subints = .ok () := by
    refine fold_accepts hA hts hb ?_ h3 ?_
    · nlinarith
    · intro s e
      obtain ⟨s1, s2⟩ := hs s e
      refine ⟨s1, le_trans ?_ h1⟩
      have : (s : ℚ) ≤ m := by exact_mod_cast s2
      rw [mul_assoc, mul_assoc]
      exact mul_le_mul_of_nonneg_right this hps.le
  obtain ⟨c1, c2, c3⟩ := fold_counts hA hN hts hb hm h1 h2 h3
  have hrows := foldRows_ok hA B inv narrow data hN hts.ne' hc c1 c2 c3
  rw [if_neg (by omega)] at hrows
  generalize hg : foldCell A B narrow data (A.foldFactor tsamp period bins) bins (inv ((A.fl (m * A.foldFactor tsamp period bins) : ℚ) : ℝ)) = g at hrows
  have hmN : m ≤ 2 ^ 50 := by
    have h5 : ((m * bins : ℕ) : ℚ) * tsamp ≤ data.length * tsamp := by
      have h6 : bins * tsamp ≤ period * slack := by
        have : (1 : ℚ) ≤ slack * slack := by norm_num [slack]
        have hb0 : 0 ≤ bins * tsamp := by positivity
        have := mul_le_mul_of_nonneg_right h3 hs0.le
        nlinarith
      have h7 := mul_le_mul_of_nonneg_left h6 (by linarith : (0 : ℚ) ≤ m)
      push_cast
      linarith
    have h8 : ((m * bins : ℕ) : ℚ) ≤ data.length := le_of_mul_le_mul_right h5 hts
    have h9 : m * bins ≤ data.length := by exact_mod_cast h8
    have : m * 1 ≤ m * bins := Nat.mul_le_mul_left _ hb
    omega
  have hrow : ∀ (n : ℕ) (g : ℕ → ℕ → ℝ), ∀ row ∈ table n bins g, row.length = bins := by
    intro n g row hr
    unfold table at hr
    obtain ⟨i, -, rfl⟩ := List.mem_map.mp hr
    simp
  have hne : table m bins g ≠ [] := by
    intro e
    have := congrArg List.length e
    rw [table_length] at this
    simp at this
    omega
  unfold FoldsTo
  rw [hrows]
  simp only
  unfold FoldOutputsTo
  rw [table_length]
  by_cases hone : subints = some 1 ∨ m = 1
  · simp only [if_pos hone]
    refine ⟨?_, ?_⟩
    · obtain ⟨p, hp⟩ := sumsTo_exists B hne bins
      exact ⟨_, p, hp, rfl⟩
    · rintro r ⟨p, hp, rfl⟩
      exact ⟨fun _ => ⟨p, rfl, hp.1⟩, fun a b => absurd hone (by tauto)⟩
  · simp only [if_neg hone]
    cases subints with
    | none =>
      refine ⟨⟨_, rfl⟩, ?_⟩
      rintro r rfl
      exact ⟨fun h => absurd h hone, fun _ _ => ⟨_, rfl, hrow _ _, fun _ => table_length _ _ _, fun s e => nomatch e⟩⟩
    | some s =>
      obtain ⟨s1, s2⟩ := hs s rfl
      obtain ⟨n, rfl⟩ : ∃ n : ℕ, s = n := ⟨s.toNat, by omega⟩
      by_cases hsm : (n : ℤ) = m
      · simp only [if_pos hsm]
        refine ⟨⟨_, rfl⟩, ?_⟩
        rintro r rfl
        have hnm : n = m := by exact_mod_cast hsm
        refine ⟨fun h => absurd h hone, fun _ _ => ⟨_, rfl, hrow _ _, (fun h => nomatch h), ?_⟩⟩
        intro t ht
        have : n = t := by
          have := Option.some.inj ht
          exact_mod_cast this
        subst this
        rw [table_length]
        exact ⟨fun h => h.symm, by omega, by omega, fun _ => hnm.symm⟩
      · simp only [if_neg hsm]
        have n2 : 2 ≤ n := by
          rcases Nat.lt_or_ge n 2 with h | h
          · have : n = 1 := by omega
            subst this
            exact absurd (Or.inl rfl) hone
          · exact h
        have nm : n < m := by omega
        obtain ⟨v1, v2, v3, v4, v5⟩ := vertical_counts hA hmN n2 nm
        have e : A.fl ((m : ℚ) / ((n : ℤ) : ℚ)) = A.fl ((m : ℚ) / n) := by rw [Int.cast_natCast]
        rw [e, verticalF_ok hA B hmN hb g v1 v2]
        simp only [Except.bind]
        refine ⟨⟨_, rfl⟩, ?_⟩
        rintro r rfl
        refine ⟨fun h => absurd h hone, fun _ _ => ⟨_, rfl, hrow _ _, (fun h => nomatch h), ?_⟩⟩
        intro t ht
        have : n = t := by
          have := Option.some.inj ht
          exact_mod_cast this
        subst this
        rw [table_length]
        exact ⟨fun h => absurd h (by omega), v4, v3, v5⟩

/-- C123. In IEEE double precision, the number of rows is the number of sub-integrations if that is a power of two (with the same margin). -/
theorem C123_power_of_two {A : DArith} (hA : Sane A) (hfl : A.fl = rn 53) (B : FArith) (inv : ℝ → ℝ) (narrow : Bool) (data : List ℝ)
    (hN : data.length ≤ 2 ^ 50) (tsamp period : ℚ) (hts : 0 < tsamp) (bins : ℕ) (hb : 0 < bins) (m : ℕ) (hm : 2 ≤ m)
    (h1 : (m : ℚ) * period * slack ≤ data.length * tsamp) (h2 : data.length * tsamp * slack < (m + 1) * period) (h3 : bins * tsamp * slack ≤ period) (k : ℕ)
    (hk : 1 ≤ k) (hkm : 2 ^ k ≤ m) (r : Except PyErr NdArray) (hr : FoldsTo A B inv narrow data tsamp period bins (some (2 ^ k : ℕ)) r) :
    ∃ rows, r = .ok (.d2 rows) ∧ rows.length = 2 ^ k ∧ ∀ row ∈ rows, row.length = bins := by
  have hpow : 2 ≤ 2 ^ k := by
    calc 2 = 2 ^ 1 := rfl
      _ ≤ 2 ^ k := Nat.pow_le_pow_right (by norm_num) hk
  have hne : some (((2 ^ k : ℕ) : ℤ)) ≠ some (1 : ℤ) := by
    intro e
    have : ((2 ^ k : ℕ) : ℤ) = 1 := Option.some.inj e
    have : 2 ^ k = 1 := by exact_mod_cast this
    omega
  obtain ⟨-, hall⟩ := C123_shape_partial hA B inv narrow data hN tsamp period hts bins hb m (by omega) h1 h2 h3 (some (2 ^ k : ℕ)) (by
    intro s e
    have := Option.some.inj e
    subst this
    constructor
    · have : 1 ≤ 2 ^ k := by omega
      exact_mod_cast this
    · exact_mod_cast hkm)
  obtain ⟨rows, e1, e2, -, e4⟩ := (hall r hr).2 hne (by omega)
  refine ⟨rows, e1, (e4 (2 ^ k) rfl).2.2.2 ?_, e2⟩
  rw [hfl]
  have hm50 : m < 2 ^ 53 := by
    have h5 : ((m * bins : ℕ) : ℚ) * tsamp ≤ data.length * tsamp := by
      have hs0 : (0 : ℚ) < slack := by norm_num [slack]
      have h6 : bins * tsamp ≤ period * slack := by
        have : (1 : ℚ) ≤ slack * slack := by norm_num [slack]
        have hb0 : 0 ≤ bins * tsamp := by positivity
        have := mul_le_mul_of_nonneg_right h3 hs0.le
        nlinarith
      have h7 := mul_le_mul_of_nonneg_left h6 (Nat.cast_nonneg (α := ℚ) m)
      push_cast
      linarith
    have h8 : ((m * bins : ℕ) : ℚ) ≤ data.length := le_of_mul_le_mul_right h5 hts
    have h9 : m * bins ≤ data.length := by exact_mod_cast h8
    have : m * 1 ≤ m * bins := Nat.mul_le_mul_left _ hb
    have : (2 : ℕ) ^ 50 < 2 ^ 53 := by norm_num
    omega
  refine le_of_eq (rn_rep (by norm_num) ⟨m, -k, ?_, ?_⟩ (by positivity))
  · exact_mod_cast hm50
  · push_cast
    rw [zpow_neg, zpow_natCast]
    rfl

/-! ## Where rounding changes the outcome -/

theorem dSample_congr {V : Type*} {A : DArith} (O : VOps V) {N k : ℕ} {f : ℚ} {x y : ℕ → V} (h : dImin A f k < dImax A N f k)
    (hxy : ∀ i ≤ dImax A N f k, x i = y i) : dSample A O N x f k = dSample A O N y f k := by
  have hacc : ∀ t ≤ dImax A N f k - (dImin A f k + 1), dAcc A O x f k t = dAcc A O y f k t := by
    intro t
    induction t with
    | zero => intro _; rw [dAcc, dAcc, hxy _ h.le]
    | succ t ih => intro ht; rw [dAcc, dAcc, ih (by omega), hxy _ (by omega)]
  rw [dSample, dSample, hacc _ le_rfl, hxy _ le_rfl]

/-- The samples that an output sample of `downsample` depends on. -/
theorem dSample_local {A : DArith} (hA : Sane A) {V : Type*} (O : VOps V) {N k c : ℕ} {f : ℚ} (hN : N ≤ 2 ^ 25) (hf : 1 + 2 * u53 ≤ f)
    (hk : k < ⌊A.fl (A.fl N / f)⌋₊) (hc : ((k : ℚ) + 1) * f + 1 / 4 < c) {x y : ℕ → V} (hxy : ∀ i < c, x i = y i) :
    dSample A O N x f k = dSample A O N y f k := by
  obtain ⟨w1, -, -, -, w5, -, -, w8, -⟩ := d_window hA hN hf hk
  refine dSample_congr O w1 fun i hi => hxy i ?_
  have h1 := (abs_le.mp w8).2
  have h2 : ((dImax A N f k : ℕ) : ℚ) < c := by linarith
  have h3 : dImax A N f k < c := by exact_mod_cast h2
  omega

theorem fold_90 {A : DArith} (hA : Sane A) (hfl : A.fl = rn 53) (B : FArith) (inv : ℝ → ℝ) (narrow : Bool) (data : List ℝ) (hd : data.length = 90)
    (r : Except PyErr NdArray) : FoldsTo A B inv narrow data 1 10 5 (some 7) r ↔
      r = .ok (.d2 (table 6 5 (fun i j => dSample A (B.searchOps A) 9
        (fun r => ((List.range 9).map fun i => foldCell A B narrow data 2 5 (inv ((A.fl (9 * 2) : ℚ) : ℝ)) i j).getD r default) (A.fl (9 / 7)) i))) := by
  have ef : A.foldFactor 1 10 5 = 2 := by
    unfold DArith.foldFactor
    rw [hfl]
    decide +kernel
  have e90 : A.fl ((90 : ℕ) : ℚ) = (90 : ℕ) := hA.nat 90 (by norm_num)
  have e45 : A.fl (((90 : ℕ) : ℚ) / 2) = ((45 : ℕ) : ℚ) := by
    have := hA.nat 45 (by norm_num)
    rw [← this]
    congr 1
    norm_num
  have eL : A.seriesLength 90 1 = 90 := by
    unfold DArith.seriesLength
    rw [mul_one, e90]
    norm_num
  have hc : A.foldChecks data.length 1 10 5 (some 7) = .ok () := by
    unfold DArith.foldChecks
    rw [hd, eL]
    have e1 : A.fl (10 / ((5 : ℕ) : ℚ)) = 2 := by rw [hfl]; decide +kernel
    have e2 : A.fl (90 / 10) = 9 := by rw [hfl]; decide +kernel
    rw [if_neg (by norm_num), if_neg (by norm_num), e1, if_neg (by norm_num)]
    simp only
    rw [if_neg (by norm_num), e2, if_neg (by norm_num)]
  have hrows := foldRows_ok hA B inv narrow data (by omega) (one_ne_zero) hc (m := 9) (by rw [ef]; norm_num) (by rw [ef, hd]; norm_num) (by
    rw [ef, hd, e90, e45, Nat.floor_natCast])
  rw [if_neg (by norm_num), ef] at hrows
  unfold FoldsTo
  rw [hrows]
  simp only
  unfold FoldOutputsTo
  rw [table_length]
  obtain ⟨v1, v2, v3, v4, -⟩ := vertical_counts hA (m := 9) (s := 7) (by norm_num) (by norm_num) (by norm_num)
  have ev : A.fl (((9 : ℕ) : ℚ) / ((7 : ℤ) : ℚ)) = A.fl (((9 : ℕ) : ℚ) / ((7 : ℕ) : ℚ)) := by norm_num
  have e6 : ⌊A.fl (A.fl ((9 : ℕ) : ℚ) / A.fl (((9 : ℕ) : ℚ) / ((7 : ℕ) : ℚ)))⌋₊ = 6 := by
    have h7 : ⌊A.fl (A.fl ((9 : ℕ) : ℚ) / A.fl (((9 : ℕ) : ℚ) / ((7 : ℕ) : ℚ)))⌋₊ < 7 := by
      rw [Nat.floor_lt' (by norm_num), hfl]
      decide +kernel
    omega
  rw [if_neg (by decide)]
  simp only
  rw [if_neg (by norm_num), ev, verticalF_ok hA B (by norm_num) (by norm_num) _ v1 v2, e6]
  simp only [Except.bind]
  norm_num

/-- C123 is false without the conditions of `C123_shape_partial`: nine periods of ten samples, folded into seven sub-integrations of five bins, give six rows in double
precision, because `9 / (9 / 7)` is rounded to a number below 7. The samples after the first 81 have no influence on the result. -/
theorem C123_rows_false {A : DArith} (hA : Sane A) (hfl : A.fl = rn 53) (B : FArith) (inv : ℝ → ℝ) (narrow : Bool) (data : List ℝ) (hd : data.length = 90) :
    (∃ r, FoldsTo A B inv narrow data 1 10 5 (some 7) r) ∧
    (∀ r, FoldsTo A B inv narrow data 1 10 5 (some 7) r → ∃ rows, r = .ok (.d2 rows) ∧ rows.length = 6) ∧
    ∀ other : List ℝ, other.length = 90 → (∀ i < 81, other[i]? = data[i]?) →
      ∀ r, FoldsTo A B inv narrow other 1 10 5 (some 7) r ↔ FoldsTo A B inv narrow data 1 10 5 (some 7) r := by
  refine ⟨⟨_, (fold_90 hA hfl B inv narrow data hd _).mpr rfl⟩, ?_, ?_⟩
  · intro r hr
    rw [fold_90 hA hfl B inv narrow data hd] at hr
    exact ⟨_, hr, table_length _ _ _⟩
  · intro other ho hsame r
    rw [fold_90 hA hfl B inv narrow data hd, fold_90 hA hfl B inv narrow other ho]
    obtain ⟨v1, v2, v3, v4, -⟩ := vertical_counts hA (m := 9) (s := 7) (by norm_num) (by norm_num) (by norm_num)
    have e : table 6 5 (fun i j => dSample A (B.searchOps A) 9
        (fun r => ((List.range 9).map fun i => foldCell A B narrow other 2 5 (inv ((A.fl (9 * 2) : ℚ) : ℝ)) i j).getD r default) (A.fl (9 / 7)) i) =
      table 6 5 (fun i j => dSample A (B.searchOps A) 9
        (fun r => ((List.range 9).map fun i => foldCell A B narrow data 2 5 (inv ((A.fl (9 * 2) : ℚ) : ℝ)) i j).getD r default) (A.fl (9 / 7)) i) := by
      unfold table
      apply List.map_congr_left
      intro i hi
      apply List.map_congr_left
      intro j hj
      rw [List.mem_range] at hi hj
      have hvf : (1 : ℚ) + 2 * u53 ≤ A.fl (9 / 7) := by rw [hfl]; decide +kernel
      have hvf2 : A.fl (9 / 7) ≤ 129 / 100 := by rw [hfl]; decide +kernel
      refine dSample_local hA _ (c := 8) (by norm_num) hvf ?_ ?_ ?_
      · have : 6 ≤ ⌊A.fl (A.fl ((9 : ℕ) : ℚ) / A.fl (9 / 7))⌋₊ := by simpa using v4
        omega
      · have : (i : ℚ) + 1 ≤ 6 := by exact_mod_cast hi
        have h0 : 0 ≤ A.fl (9 / 7) := by linarith [show (0 : ℚ) ≤ u53 by norm_num [u53]]
        have := mul_le_mul this hvf2 h0 (by norm_num)
        push_cast
        linarith
      · intro t ht
        have ht9 : t < 9 := by omega
        have g : ∀ l : List ℝ, ((List.range 9).map fun i => foldCell A B narrow l 2 5 (inv ((A.fl (9 * 2) : ℚ) : ℝ)) i j).getD t default =
            foldCell A B narrow l 2 5 (inv ((A.fl (9 * 2) : ℚ) : ℝ)) t j := by
          intro l
          simp [List.getD, ht9]
        rw [g, g]
        unfold foldCell
        rw [ho, hd]
        congr 1
        refine dSample_local hA _ (c := 81) (by norm_num) (by norm_num [u53]) ?_ ?_ ?_
        · have : A.fl (A.fl ((90 : ℕ) : ℚ) / 2) = ((45 : ℕ) : ℚ) := by
            rw [hA.nat 90 (by norm_num), ← hA.nat 45 (by norm_num)]
            congr 1
            norm_num
          rw [this, Nat.floor_natCast]
          omega
        · have : t * 5 + j ≤ 39 := by omega
          have : ((t * 5 + j : ℕ) : ℚ) ≤ 39 := by exact_mod_cast this
          push_cast at this ⊢
          linarith
        · intro i hi
          rw [List.getD_eq_getElem?_getD, List.getD_eq_getElem?_getD, hsame i hi]
    rw [e]

/-- C123 is false at the limit: five periods of seven samples fill 35 samples exactly, but `fold` with three bins and five sub-integrations raises
`ValueError` in double precision, because `35 / (7 / 3)` is rounded to a number below 15. -/
theorem C123_rejected {A : DArith} (hA : Sane A) (hfl : A.fl = rn 53) (B : FArith) (inv : ℝ → ℝ) (narrow : Bool) (data : List ℝ) (hd : data.length = 35)
    (r : Except PyErr NdArray) : FoldsTo A B inv narrow data 1 7 3 (some 5) r ↔ r = .error .valueError := by
  have e35 : A.fl ((35 : ℕ) : ℚ) = (35 : ℕ) := hA.nat 35 (by norm_num)
  have eL : A.seriesLength 35 1 = 35 := by
    unfold DArith.seriesLength
    rw [mul_one, e35]
    norm_num
  have hc : A.foldChecks data.length 1 7 3 (some 5) = .ok () := by
    unfold DArith.foldChecks
    rw [hd, eL]
    have e1 : (1 : ℚ) < A.fl (7 / ((3 : ℕ) : ℚ)) := by rw [hfl]; decide +kernel
    have e2 : A.fl (35 / 7) = 5 := by rw [hfl]; decide +kernel
    rw [if_neg (by norm_num), if_neg (by norm_num), if_neg (by simpa using e1)]
    simp only
    rw [if_neg (by norm_num), e2, if_neg (by norm_num)]
  have hrows := foldRows_ok hA B inv narrow data (by omega) (one_ne_zero) hc (m := 4) (by unfold DArith.foldFactor; rw [hfl]; decide +kernel)
    (by rw [hd]; unfold DArith.foldFactor; rw [hfl]; decide +kernel) (by
    have h1 : ⌊A.fl (A.fl (data.length : ℚ) / A.foldFactor 1 7 3)⌋₊ = 14 := by
      rw [hd, Nat.floor_eq_iff' (by norm_num)]
      unfold DArith.foldFactor
      rw [hfl]
      decide +kernel
    rw [h1])
  rw [if_neg (by norm_num)] at hrows
  unfold FoldsTo
  rw [hrows]
  simp only
  unfold FoldOutputsTo
  rw [table_length, if_neg (by decide)]
  simp only
  rw [if_neg (by norm_num)]
  unfold verticalF
  simp only
  rw [if_pos (by rw [hfl]; decide +kernel)]
  rfl

/-- C123 is false at the limit: nine samples folded at a period of nine samples with seven bins raise `ZeroDivisionError` in double precision, because
`9 / (9 / 7)` is rounded to a number below 7. -/
theorem C123_zero {A : DArith} (hA : Sane A) (hfl : A.fl = rn 53) (B : FArith) (inv : ℝ → ℝ) (narrow : Bool) (data : List ℝ) (hd : data.length = 9)
    (r : Except PyErr NdArray) : FoldsTo A B inv narrow data 1 9 7 none r ↔ r = .error .zeroDivisionError := by
  have e9 : A.fl ((9 : ℕ) : ℚ) = (9 : ℕ) := hA.nat 9 (by norm_num)
  have eL : A.seriesLength 9 1 = 9 := by
    unfold DArith.seriesLength
    rw [mul_one, e9]
    norm_num
  have hc : A.foldChecks data.length 1 9 7 none = .ok () := by
    unfold DArith.foldChecks
    rw [hd, eL]
    have e1 : (1 : ℚ) < A.fl (9 / ((7 : ℕ) : ℚ)) := by rw [hfl]; decide +kernel
    rw [if_neg (by norm_num), if_neg (by norm_num), if_neg (by simpa using e1)]
  have hrows := foldRows_ok hA B inv narrow data (by omega) (one_ne_zero) hc (m := 0) (by unfold DArith.foldFactor; rw [hfl]; decide +kernel)
    (by rw [hd]; unfold DArith.foldFactor; rw [hfl]; decide +kernel) (by
    have h1 : ⌊A.fl (A.fl (data.length : ℚ) / A.foldFactor 1 9 7)⌋₊ = 6 := by
      rw [hd, Nat.floor_eq_iff' (by norm_num)]
      unfold DArith.foldFactor
      rw [hfl]
      decide +kernel
    rw [h1])
  rw [if_pos rfl] at hrows
  unfold FoldsTo
  rw [hrows]

/-! ## Candidates -/

/-- C123. With the margin of `C123_shape_partial`, building a candidate succeeds whatever number of sub-integrations is requested: if they are too many,
the candidate gets all full periods. Missing: the candidates within the margin, see `C123_candidate_false`. -/
theorem C123_candidate_partial {A : DArith} (hA : Sane A) (B : FArith) (inv : ℝ → ℝ) (narrow : Bool) (data : List ℝ) (hN : data.length ≤ 2 ^ 50) (tsamp period : ℚ)
    (hts : 0 < tsamp) (bins : ℕ) (hb : 0 < bins) (m : ℕ) (hm : 1 ≤ m) (h1 : (m : ℚ) * period * slack ≤ data.length * tsamp)
    (h2 : data.length * tsamp * slack < (m + 1) * period) (h3 : bins * tsamp * slack ≤ period) (subints : Option ℤ)
    (hs : ∀ s, subints = some s → 1 ≤ s) :
    (∃ r, CandidateTo A B inv narrow data tsamp period bins subints r) ∧
    ∀ r, CandidateTo A B inv narrow data tsamp period bins subints r → ∃ out, r = .ok out ∧
      ((subints = none ∨ ∃ s, subints = some s ∧ (m : ℤ) < s) → 1 < m → ∃ rows, out = .d2 rows ∧ rows.length = m) := by
  have hp : 0 < period := by
    have hs1 : (1 : ℚ) < slack := by norm_num [slack]
    have hbq : (0 : ℚ) < bins := by exact_mod_cast hb
    have : 0 < bins * tsamp := by positivity
    nlinarith
  have hL0 : 0 ≤ (data.length : ℚ) * tsamp := by positivity
  have hlarge : ∀ s : ℤ, (m : ℤ) < s → A.candidateSubints data.length tsamp period (some s) = none := by
    intro s hms
    unfold DArith.candidateSubints
    simp only
    rw [if_pos]
    unfold DArith.seriesLength
    have e1 : ((m : ℚ) + 1) * period ≤ s * period := by
      refine mul_le_mul_of_nonneg_right ?_ hp.le
      have : (m : ℤ) + 1 ≤ s := hms
      exact_mod_cast this
    have g0 : (0 : ℚ) ≤ s * period := le_trans (by positivity) e1
    have g1 := Dbl.fl_ge hA g0
    have g2 := Dbl.fl_le hA hL0
    have k : (1 + u53 : ℚ) ≤ (1 - u53) * slack := by norm_num [u53, slack]
    have w1 : (0 : ℚ) < 1 - u53 := by norm_num [u53]
    have i1 := mul_le_mul_of_nonneg_right k hL0
    have i2 := mul_le_mul_of_nonneg_left (h2.le.trans e1) w1.le
    rw [ge_iff_le]
    linarith
  have hle : ∀ s, A.candidateSubints data.length tsamp period subints = some s → 1 ≤ s ∧ s ≤ m := by
    intro s e
    cases subints with
    | none => exact nomatch e
    | some t =>
      have ht := hs t rfl
      rcases lt_or_ge (m : ℤ) t with h | h
      · rw [hlarge t h] at e; exact nomatch e
      · unfold DArith.candidateSubints at e
        simp only at e
        split_ifs at e
        have := Option.some.inj e
        omega
  obtain ⟨a1, a2⟩ := C123_shape_partial hA B inv narrow data hN tsamp period hts bins hb m hm h1 h2 h3 _ hle
  refine ⟨a1, ?_⟩
  intro r hr
  obtain ⟨b1, b2⟩ := a2 r hr
  by_cases hone : A.candidateSubints data.length tsamp period subints = some 1 ∨ m = 1
  · obtain ⟨p, e, -⟩ := b1 hone
    refine ⟨_, e, ?_⟩
    rintro hq hm1
    exfalso
    rcases hone with h | h
    · rcases hq with rfl | ⟨s, rfl, hms⟩
      · exact nomatch h
      · rw [hlarge s hms] at h; exact nomatch h
    · omega
  · rw [not_or] at hone
    obtain ⟨rows, e, -, c, -⟩ := b2 hone.1 hone.2
    refine ⟨_, e, ?_⟩
    rintro hq -
    refine ⟨rows, rfl, c ?_⟩
    rcases hq with rfl | ⟨s, rfl, hms⟩
    · rfl
    · exact hlarge s hms

/-- C123 is false at the limit for candidates as well: 36 samples of 1 ms, a period of 7.2 ms, seven bins and five sub-integrations pass the guard of
`from_pipeline_output`, and five periods fit in the data, but building the candidate raises `ValueError`. -/
theorem C123_candidate_false {A : DArith} (hA : Sane A) (hfl : A.fl = rn 53) (B : FArith) (inv : ℝ → ℝ) (narrow : Bool) (data : List ℝ) (hd : data.length = 36) :
    5 * rn 53 (72 / 10000) ≤ 36 * rn 53 (1 / 1000) ∧ A.candidateSubints 36 (rn 53 (1 / 1000)) (rn 53 (72 / 10000)) (some 5) = some 5 ∧
    ∀ r, CandidateTo A B inv narrow data (rn 53 (1 / 1000)) (rn 53 (72 / 10000)) 7 (some 5) r ↔ r = .error .valueError := by
  have hsub : A.candidateSubints 36 (rn 53 (1 / 1000)) (rn 53 (72 / 10000)) (some 5) = some 5 := by
    unfold DArith.candidateSubints DArith.seriesLength
    simp only
    rw [if_neg]
    rw [hfl]
    decide +kernel
  refine ⟨by decide +kernel, hsub, ?_⟩
  intro r
  unfold CandidateTo
  rw [hd, hsub]
  have hc : A.foldChecks data.length (rn 53 (1 / 1000)) (rn 53 (72 / 10000)) 7 (some 5) = .ok () := by
    unfold DArith.foldChecks DArith.seriesLength
    rw [hd, hfl, if_neg (by decide +kernel), if_neg (by norm_num), if_neg (by decide +kernel)]
    simp only
    rw [if_neg (by norm_num), if_neg (by decide +kernel)]
  have hts : rn 53 (1 / 1000) ≠ 0 := by decide +kernel
  have hrows := foldRows_ok hA B inv narrow data (by omega) hts hc (m := 4) (by unfold DArith.foldFactor; rw [hfl]; decide +kernel)
    (by rw [hd]; unfold DArith.foldFactor; rw [hfl]; decide +kernel) (by
    have h1 : ⌊A.fl (A.fl (data.length : ℚ) / A.foldFactor (rn 53 (1 / 1000)) (rn 53 (72 / 10000)) 7)⌋₊ = 34 := by
      rw [hd, Nat.floor_eq_iff' (by norm_num)]
      unfold DArith.foldFactor
      rw [hfl]
      decide +kernel
    rw [h1])
  rw [if_neg (by norm_num)] at hrows
  unfold FoldsTo
  rw [hrows]
  simp only
  unfold FoldOutputsTo
  rw [table_length, if_neg (by decide)]
  simp only
  rw [if_neg (by norm_num)]
  unfold verticalF
  simp only
  rw [if_pos (by rw [hfl]; decide +kernel)]
  rfl

/-! ## Calls that are refused -/

/-- C123. With the margin, `fold` raises `ValueError` exactly as documented: period longer than the data, bins narrower than a sample, no or too many
sub-integrations. -/
theorem C123_refused {A : DArith} (hA : Sane A) (B : FArith) (inv : ℝ → ℝ) (narrow : Bool) (data : List ℝ) (tsamp period : ℚ) (hts : 0 < tsamp) (hp : 0 < period)
    (bins : ℕ) (hb : 0 < bins) (subints : Option ℤ)
    (h : data.length * tsamp * slack < period ∨ period * slack ≤ bins * tsamp ∨
      ∃ s, subints = some s ∧ (s < 1 ∨ data.length * tsamp * slack < s * period)) (r : Except PyErr NdArray) :
    FoldsTo A B inv narrow data tsamp period bins subints r ↔ r = .error .valueError := by
  have hL0 : 0 ≤ (data.length : ℚ) * tsamp := by positivity
  have hbq : (0 : ℚ) < bins := by exact_mod_cast hb
  have hL := Dbl.fl_le hA hL0
  have w2 : (0 : ℚ) < 1 + u53 := by norm_num [u53]
  have hc : A.foldChecks data.length tsamp period bins subints = .error .valueError := by
    unfold DArith.foldChecks
    by_cases c1 : period > A.seriesLength data.length tsamp
    · rw [if_pos c1]
    rw [if_neg c1, if_neg (by omega)]
    by_cases c2 : ¬ A.fl (period / bins) > tsamp
    · rw [if_pos c2]
    rw [if_neg c2]
    rcases h with h | h | ⟨s, rfl, h⟩
    · exfalso
      apply c1
      unfold DArith.seriesLength
      have k : (1 + u53 : ℚ) ≤ slack := by norm_num [u53, slack]
      have := mul_le_mul_of_nonneg_right k hL0
      rw [gt_iff_lt]
      linarith
    · exfalso
      apply c2
      rw [not_lt]
      have h0 : 0 ≤ period / bins := by positivity
      have g := Dbl.fl_le hA h0
      have k : (1 + u53 : ℚ) ≤ slack := by norm_num [u53, slack]
      have i1 := mul_le_mul_of_nonneg_right k h0
      have i2 : slack * (period / bins) ≤ tsamp := by
        rw [← mul_div_assoc, div_le_iff₀ hbq]
        linarith
      linarith
    · simp only
      by_cases c3 : ¬ s ≥ 1
      · rw [if_pos c3]
      rw [if_neg c3]
      rw [if_pos]
      rcases h with h | h
      · omega
      unfold DArith.seriesLength
      have q0 : 0 ≤ A.fl (data.length * tsamp) / period := div_nonneg (Dbl.fl_nonneg hA hL0) hp.le
      have g := Dbl.fl_le hA q0
      refine lt_of_le_of_lt g ?_
      rw [← mul_div_assoc, div_lt_iff₀ hp]
      have k : (1 + u53 : ℚ) * (1 + u53) ≤ slack := by norm_num [u53, slack]
      have i1 := mul_le_mul_of_nonneg_right k hL0
      have i2 := mul_le_mul_of_nonneg_left hL w2.le
      linarith
  unfold FoldsTo foldRows
  rw [hc]
  simp only [Except.bind]

/-! ## Non-vacuity -/

/-- 1000 samples of 1/1024 s, a period of 0.3 s (3 full periods, margin included), 16 bins and two sub-integrations, and seven sub-integrations that do not fit. -/
example : (1 : ℕ) ≤ 3 ∧ ((3 : ℕ) : ℚ) * (3 / 10) * slack ≤ ((List.replicate 1000 (1 : ℝ)).length : ℚ) * (1 / 1024) ∧
    ((List.replicate 1000 (1 : ℝ)).length : ℚ) * (1 / 1024) * slack < ((3 : ℕ) + 1) * (3 / 10) ∧ ((16 : ℕ) : ℚ) * (1 / 1024) * slack ≤ 3 / 10 ∧
    ((List.replicate 1000 (1 : ℝ)).length : ℚ) * (1 / 1024) * slack < ((7 : ℤ) : ℚ) * (3 / 10) ∧
    Sane (ieeeDouble someLog (fun x k => rn 53 (x ^ k)) true) ∧ (ieeeDouble someLog (fun x k => rn 53 (x ^ k)) true).fl = rn 53 := by
  refine ⟨by norm_num, ?_, ?_, ?_, ?_, sane_some true, rfl⟩ <;> rw [slack] <;> try rw [List.length_replicate]
  all_goals norm_num

end Verif.Props
