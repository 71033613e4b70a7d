import Verif.Model.Snr
import Verif.Spec.Snr
import Verif.Lemmas.FFACor
import Verif.Lemmas.Memory

/-! # Helper lemmas for the boxcar S/N -/

namespace Verif.Lemmas

open Verif.Model Verif.Spec Finset

theorem prefixAcc_eq {α : Type*} [AddCommMonoid α] (x : ℕ → α) (j : ℕ) :
    prefixAcc x j = ∑ k ∈ range j, x k := by
  induction j with
  | zero => rfl
  | succ j ih => rw [prefixAcc, ih, Finset.sum_range_succ]

/-- The functional model of the circular prefix sum. -/
theorem circularPrefixSum_eq {α : Type*} [Semiring α] (x : ℕ → α) (n nsum : ℕ) (hn : 0 < n) (j : ℕ) (hj : j < nsum) :
    circularPrefixSum x n nsum j = some (∑ k ∈ range (j + 1), x (k % n)) := by
  unfold circularPrefixSum
  simp only [prefixAcc_eq, addScalar]
  by_cases h1 : j < min n nsum
  · rw [if_pos h1]
    congr 1
    apply Finset.sum_congr rfl
    intro k hk
    have := Finset.mem_range.mp hk
    rw [Nat.mod_eq_of_lt (by omega)]
  · rw [if_neg h1, if_neg (by omega)]
    have hdm := Nat.div_add_mod j n
    have hjn : j % n < n := Nat.mod_lt _ hn
    have key : ∑ k ∈ range (j + 1), x (k % n) =
        ∑ k ∈ range (j % n + 1), x k + ((j / n : ℕ) : α) * ∑ k ∈ range n, x k := by
      rw [← sum_wraps x n hn (j / n) (j % n + 1) (by omega)]
      congr 2
      rw [Nat.mul_comm]
      omega
    have hq : 1 ≤ j / n := by
      rw [Nat.one_le_div_iff hn]; omega
    have hle : j / n ≤ nsum / n := Nat.div_le_div_right (by omega)
    rcases Nat.lt_or_ge (j / n) (nsum / n) with h2 | h2
    · rw [if_pos ⟨hq, h2⟩, key]
    · have he : j / n = nsum / n := by omega
      have hdm2 := Nat.div_add_mod nsum n
      rw [if_neg (by omega), if_pos ⟨he, by rw [← he] at hdm2; omega⟩, key, he]

theorem diffMax_spec {α : Type*} [LinearOrder α] [Sub α] (x y : ℕ → α) (n : ℕ) (hn : 1 ≤ n) :
    (∃ i < n, diffMax x y n = x i - y i) ∧ ∀ i < n, x i - y i ≤ diffMax x y n := by
  unfold diffMax
  obtain ⟨k, rfl⟩ : ∃ k, n = k + 1 := ⟨n - 1, by omega⟩
  simp only [Nat.add_sub_cancel]
  clear hn
  induction k with
  | zero =>
    refine ⟨⟨0, by omega, rfl⟩, ?_⟩
    intro i hi
    obtain rfl : i = 0 := by omega
    exact le_rfl
  | succ k ih =>
    obtain ⟨⟨i, hi, e⟩, hub⟩ := ih
    rw [diffMaxLoop]
    split_ifs with h
    · refine ⟨⟨k + 1, by omega, rfl⟩, ?_⟩
      intro j hj
      rcases Nat.lt_or_ge j (k + 1) with hc | hc
      · exact (hub j hc).trans (le_of_lt h)
      · obtain rfl : j = k + 1 := by omega
        exact le_rfl
    · refine ⟨⟨i, by omega, e⟩, ?_⟩
      intro j hj
      rcases Nat.lt_or_ge j (k + 1) with hc | hc
      · exact hub j hc
      · obtain rfl : j = k + 1 := by omega
        exact not_lt.mp h

/-- Sum over the circular window of `w` bins from `φ`. -/
def winSum (n w : ℕ) (x : ℕ → ℝ) (φ : ℕ) : ℝ := ∑ j ∈ range w, x ((φ + j) % n)

theorem maxWidth_ge (widths : List ℕ) (w : ℕ) (hw : w ∈ widths) : w ≤ maxWidth widths := by
  unfold maxWidth
  have aux : ∀ (l : List ℕ) (a : ℕ), a ≤ l.foldl max a ∧ ∀ w ∈ l, w ≤ l.foldl max a := by
    intro l
    induction l with
    | nil => intro a; simp
    | cons b l ih =>
      intro a
      obtain ⟨h1, h2⟩ := ih (max a b)
      simp only [List.foldl_cons]
      refine ⟨by omega, ?_⟩
      intro w hw
      rcases List.mem_cons.mp hw with rfl | hw
      · omega
      · exact h2 w hw
  exact (aux widths 0).2 w hw

theorem cps_diff (n w : ℕ) (x : ℕ → ℝ) (i : ℕ) :
    ∑ k ∈ range (w + i + 1), x (k % n) - ∑ k ∈ range (i + 1), x (k % n) = winSum n w x (i + 1) := by
  rw [show w + i + 1 = (i + 1) + w by omega, Finset.sum_range_add]
  unfold winSum
  ring

/-- Height and (negated) baseline of the boxcar. -/
noncomputable def boxH (n w : ℕ) : ℝ := Real.sqrt (((n : ℝ) - w) / ((n : ℝ) * w))
noncomputable def boxB (n w : ℕ) : ℝ := (w : ℝ) / ((n : ℝ) - w) * boxH n w

theorem winSum_mod (n w : ℕ) (x : ℕ → ℝ) (φ : ℕ) : winSum n w x (φ % n) = winSum n w x φ := by
  unfold winSum
  simp only [Nat.mod_add_mod]

/-- What `snr1` computes for one width. -/
theorem snrWidth_spec (n w : ℕ) (hn : 1 ≤ n) (x : ℕ → ℝ) (std : ℝ) (cpf : ℕ → ℝ)
    (hcpf : ∀ j < n + w, cpf j = ∑ k ∈ range (j + 1), x (k % n)) :
    ∃ D, snrWidth n cpf std w = ((boxH n w + boxB n w) * D - boxB n w * ∑ i ∈ range n, x i) / std ∧
      (∃ φ < n, D = winSum n w x φ) ∧ ∀ φ < n, winSum n w x φ ≤ D := by
  refine ⟨diffMax (fun i => cpf (w + i)) cpf n, ?_, ?_, ?_⟩
  · unfold snrWidth boxB boxH
    simp only
    congr 3
    rw [hcpf (n - 1) (by omega), show n - 1 + 1 = n by omega]
    apply Finset.sum_congr rfl
    intro k hk
    rw [Nat.mod_eq_of_lt (Finset.mem_range.mp hk)]
  · obtain ⟨i, hi, e⟩ := (diffMax_spec (fun i => cpf (w + i)) cpf n hn).1
    refine ⟨(i + 1) % n, Nat.mod_lt _ (by omega), ?_⟩
    rw [e, winSum_mod, hcpf _ (by omega), hcpf _ (by omega), cps_diff]
  · intro φ hφ
    have hub := (diffMax_spec (fun i => cpf (w + i)) cpf n hn).2
    obtain ⟨i, hi, e⟩ : ∃ i < n, (i + 1) % n = φ := by
      rcases Nat.eq_zero_or_pos φ with rfl | hp
      · exact ⟨n - 1, by omega, by rw [show n - 1 + 1 = n by omega, Nat.mod_self]⟩
      · exact ⟨φ - 1, by omega, by rw [show φ - 1 + 1 = φ by omega, Nat.mod_eq_of_lt hφ]⟩
    have := hub i hi
    rw [hcpf _ (by omega), hcpf _ (by omega), cps_diff, ← winSum_mod, e] at this
    exact this

theorem snr1_ok (n : ℕ) (hn : 1 ≤ n) (x : ℕ → ℝ) (widths : List ℕ) (hw : widths ≠ []) (std : ℝ) :
    snr1 n x widths std =
      .ok (widths.map (snrWidth n (fun j => (circularPrefixSum x n (n + maxWidth widths) j).getD 0) std)) := by
  unfold snr1
  rw [if_neg hw]
  simp only
  rw [if_pos]
  rw [List.all_eq_true]
  intro j hj
  rw [circularPrefixSum_eq x n _ (by omega) j (List.mem_range.mp hj)]
  rfl

theorem snr1_cpf (n : ℕ) (hn : 1 ≤ n) (x : ℕ → ℝ) (wmax w : ℕ) (hw : w ≤ wmax) :
    ∀ j < n + w, (circularPrefixSum x n (n + wmax) j).getD 0 = ∑ k ∈ range (j + 1), x (k % n) := by
  intro j hj
  rw [circularPrefixSum_eq x n _ (by omega) j (by omega)]
  rfl

/-! ### Boxcar templates -/

theorem inWindow_sum (n w φ : ℕ) (hw : w ≤ n) (hφ : φ < n) (f : ℕ → ℝ) [DecidablePred (InWindow n w φ)] :
    ∑ i ∈ range n, (if InWindow n w φ i then f i else 0) = winSum n w f φ := by
  have e1 := sum_rotate n φ (fun i => if InWindow n w φ i then f i else 0)
  rw [← e1]
  have e2 : ∀ c ∈ range n, (if InWindow n w φ ((c + φ) % n) then f ((c + φ) % n) else 0) =
      if c < w then f ((c + φ) % n) else 0 := by
    intro c hc
    have hc := Finset.mem_range.mp hc
    have : InWindow n w φ ((c + φ) % n) ↔ c < w := by
      unfold InWindow
      rw [Nat.mod_add_mod, show c + φ + (n - φ) = c + n by omega, Nat.add_mod_right,
        Nat.mod_eq_of_lt hc]
    simp only [this]
  rw [Finset.sum_congr rfl e2, ← Finset.sum_filter]
  unfold winSum
  apply Finset.sum_congr
  · ext c
    simp only [Finset.mem_filter, Finset.mem_range]
    omega
  · intro c _
    rw [Nat.add_comm]

theorem winSum_one (n w φ : ℕ) : winSum n w (fun _ => 1) φ = w := by
  simp [winSum]

theorem template_dot (n w φ : ℕ) (hw : w ≤ n) (hφ : φ < n) (x : ℕ → ℝ) (hi lo : ℝ) (t : ℕ → ℝ)
    [DecidablePred (InWindow n w φ)] (ht : ∀ i < n, t i = if InWindow n w φ i then hi else lo) :
    ∑ i ∈ range n, x i * t i = (hi - lo) * winSum n w x φ + lo * ∑ i ∈ range n, x i := by
  have : ∀ i ∈ range n, x i * t i =
      (hi - lo) * (if InWindow n w φ i then x i else 0) + lo * x i := by
    intro i hi'
    rw [ht i (Finset.mem_range.mp hi')]
    split_ifs <;> ring
  rw [Finset.sum_congr rfl this, Finset.sum_add_distrib, ← Finset.mul_sum, ← Finset.mul_sum,
    inWindow_sum n w φ hw hφ]

theorem template_sq (n w φ : ℕ) (hw : w ≤ n) (hφ : φ < n) (hi lo : ℝ) (t : ℕ → ℝ)
    [DecidablePred (InWindow n w φ)] (ht : ∀ i < n, t i = if InWindow n w φ i then hi else lo) :
    ∑ i ∈ range n, t i = w * hi + (n - w) * lo ∧
    ∑ i ∈ range n, t i ^ 2 = w * hi ^ 2 + (n - w) * lo ^ 2 := by
  constructor
  · have := template_dot n w φ hw hφ (fun _ => 1) hi lo t ht
    simp only [one_mul, winSum_one, Finset.sum_const, Finset.card_range, nsmul_eq_mul, mul_one] at this
    rw [this]; ring
  · have := template_dot n w φ hw hφ (fun _ => 1) (hi ^ 2) (lo ^ 2) (fun i => t i ^ 2)
      (fun i h => by
        show t i ^ 2 = _
        rw [ht i h]; split_ifs <;> rfl)
    simp only [one_mul, winSum_one, Finset.sum_const, Finset.card_range, nsmul_eq_mul, mul_one] at this
    rw [this]; ring

theorem boxH_pos {n w : ℕ} (h0 : 0 < w) (h1 : w < n) : 0 < boxH n w := by
  unfold boxH
  apply Real.sqrt_pos.mpr
  have a : (0 : ℝ) < w := by exact_mod_cast h0
  have b : (w : ℝ) < n := by exact_mod_cast h1
  have c : (0 : ℝ) < n := by linarith
  apply div_pos (by linarith) (by positivity)

theorem boxB_pos {n w : ℕ} (h0 : 0 < w) (h1 : w < n) : 0 < boxB n w := by
  unfold boxB
  have a : (0 : ℝ) < w := by exact_mod_cast h0
  have b : (w : ℝ) < n := by exact_mod_cast h1
  exact mul_pos (div_pos a (by linarith)) (boxH_pos h0 h1)

theorem boxH_sq {n w : ℕ} (h1 : w < n) : boxH n w ^ 2 = ((n : ℝ) - w) / (n * w) := by
  unfold boxH
  have b : (w : ℝ) < n := by exact_mod_cast h1
  rw [Real.sq_sqrt]
  apply div_nonneg (by linarith)
  positivity

/-- The constraints determine the two values of a boxcar template. -/
theorem boxcar_values {n w : ℕ} (h0 : 0 < w) (h1 : w < n) {hi lo : ℝ} (hlt : lo < hi)
    (hz : (w : ℝ) * hi + (n - w) * lo = 0) (hs : (w : ℝ) * hi ^ 2 + (n - w) * lo ^ 2 = 1) :
    hi = boxH n w ∧ lo = - boxB n w := by
  have a : (0 : ℝ) < w := by exact_mod_cast h0
  have b : (w : ℝ) < n := by exact_mod_cast h1
  have c : (0 : ℝ) < n := by linarith
  have d : (0 : ℝ) < n - w := by linarith
  have hlo : lo = - (w / (n - w) * hi) := by
    field_simp
    linarith
  have hpos : 0 < hi := by
    by_contra hc
    have hc := not_lt.mp hc
    have : 0 ≤ lo := by
      rw [hlo, neg_nonneg]
      exact mul_nonpos_of_nonneg_of_nonpos (div_pos a d).le hc
    linarith
  have hsq : hi ^ 2 = boxH n w ^ 2 := by
    rw [boxH_sq h1]
    rw [hlo] at hs
    field_simp at hs ⊢
    nlinarith
  have he : hi = boxH n w := by
    have := boxH_pos h0 h1
    nlinarith [sq_nonneg (hi - boxH n w), sq_nonneg (hi + boxH n w)]
  exact ⟨he, by rw [hlo, he]; rfl⟩

theorem boxcar_exists {n w φ : ℕ} (h0 : 0 < w) (h1 : w < n) (hφ : φ < n) :
    ∃ t, IsBoxcar n w φ t := by
  classical
  have a : (0 : ℝ) < w := by exact_mod_cast h0
  have b : (w : ℝ) < n := by exact_mod_cast h1
  have c : (0 : ℝ) < n := by linarith
  have d : (0 : ℝ) < n - w := by linarith
  refine ⟨fun i => if InWindow n w φ i then boxH n w else - boxB n w, boxH n w, - boxB n w, ?_,
    fun i _ => by congr, ?_⟩
  · have := boxH_pos h0 h1
    have := boxB_pos h0 h1
    linarith
  · obtain ⟨e1, e2⟩ := template_sq n w φ h1.le hφ (boxH n w) (- boxB n w)
      (fun i => if InWindow n w φ i then boxH n w else - boxB n w) (fun i _ => rfl)
    rw [e1, e2]
    unfold boxB
    constructor
    · field_simp
      ring
    · have := boxH_sq h1
      rw [neg_sq, mul_pow, this]
      field_simp
      ring

theorem boxcar_dot {n w φ : ℕ} (h0 : 0 < w) (h1 : w < n) (hφ : φ < n) {t : ℕ → ℝ} (ht : IsBoxcar n w φ t)
    (x : ℕ → ℝ) : ∑ i ∈ range n, x i * t i =
      (boxH n w + boxB n w) * winSum n w x φ - boxB n w * ∑ i ∈ range n, x i := by
  classical
  obtain ⟨hi, lo, hlt, hv, hz, hs⟩ := ht
  have hv' : ∀ i < n, t i = if InWindow n w φ i then hi else lo := fun i h => by rw [hv i h]
  obtain ⟨e1, e2⟩ := template_sq n w φ h1.le hφ hi lo t hv'
  rw [e1] at hz
  rw [e2] at hs
  obtain ⟨rfl, rfl⟩ := boxcar_values h0 h1 hlt hz hs
  rw [template_dot n w φ h1.le hφ x _ _ t hv']
  ring

theorem matched_of_max {n w : ℕ} (h0 : 0 < w) (h1 : w < n) (x : ℕ → ℝ) {std : ℝ} (hstd : 0 < std) {D : ℝ}
    (hD : ∃ φ < n, D = winSum n w x φ) (hub : ∀ φ < n, winSum n w x φ ≤ D) :
    IsMatchedSnr n w x std (((boxH n w + boxB n w) * D - boxB n w * ∑ i ∈ range n, x i) / std) := by
  constructor
  · obtain ⟨φ, hφ, rfl⟩ := hD
    obtain ⟨t, ht⟩ := boxcar_exists h0 h1 hφ
    exact ⟨φ, hφ, t, ht, by rw [boxcar_dot h0 h1 hφ ht]⟩
  · intro φ hφ t ht
    rw [boxcar_dot h0 h1 hφ ht]
    apply div_le_div_of_nonneg_right _ hstd.le
    have := mul_le_mul_of_nonneg_left (hub φ hφ)
      (add_pos (boxH_pos h0 h1) (boxB_pos h0 h1)).le
    linarith

/-- The matched filter S/N is unique. -/
theorem matched_unique {n w : ℕ} {x : ℕ → ℝ} {std u v : ℝ}
    (hu : IsMatchedSnr n w x std u) (hv : IsMatchedSnr n w x std v) : u = v := by
  obtain ⟨⟨φ, hφ, t, ht, e⟩, ub⟩ := hu
  obtain ⟨⟨φ', hφ', t', ht', e'⟩, ub'⟩ := hv
  apply le_antisymm
  · rw [e]; exact ub' φ hφ t ht
  · rw [e']; exact ub φ' hφ' t' ht'

theorem winMax_exists (n w : ℕ) (hn : 1 ≤ n) (x : ℕ → ℝ) :
    ∃ D, (∃ φ < n, D = winSum n w x φ) ∧ ∀ φ < n, winSum n w x φ ≤ D := by
  obtain ⟨D, _, h1, h2⟩ := snrWidth_spec n w hn x 1 _ (fun j _ => rfl)
  exact ⟨D, h1, h2⟩

theorem snrWidth_eq (n w : ℕ) (hn : 1 ≤ n) (x : ℕ → ℝ) (std : ℝ) (cpf : ℕ → ℝ)
    (hcpf : ∀ j < n + w, cpf j = ∑ k ∈ range (j + 1), x (k % n)) (D : ℝ)
    (hD : ∃ φ < n, D = winSum n w x φ) (hub : ∀ φ < n, winSum n w x φ ≤ D) :
    snrWidth n cpf std w = ((boxH n w + boxB n w) * D - boxB n w * ∑ i ∈ range n, x i) / std := by
  obtain ⟨D', e, ⟨φ', hφ', e1⟩, hub'⟩ := snrWidth_spec n w hn x std cpf hcpf
  obtain ⟨φ, hφ, e2⟩ := hD
  have : D' = D := le_antisymm (by rw [e1]; exact hub φ' hφ') (by rw [e2]; exact hub' φ hφ)
  rw [e, this]

/-- Transfer principle: `snr1` of two profiles whose window maxima and totals are related. -/
theorem snr1_transfer (n : ℕ) (hn : 1 ≤ n) (x x' : ℕ → ℝ) (widths : List ℕ) (hne : widths ≠ []) (std std' : ℝ)
    (f : ℝ → ℝ) (g : ℕ → ℝ → ℝ)
    (hD : ∀ w ∈ widths, ∀ D, (∃ φ < n, D = winSum n w x φ) → (∀ φ < n, winSum n w x φ ≤ D) →
      (∃ φ < n, g w D = winSum n w x' φ) ∧ (∀ φ < n, winSum n w x' φ ≤ g w D) ∧
      ((boxH n w + boxB n w) * g w D - boxB n w * ∑ i ∈ range n, x' i) / std' =
        f (((boxH n w + boxB n w) * D - boxB n w * ∑ i ∈ range n, x i) / std)) :
    snr1 n x' widths std' = (snr1 n x widths std).map (List.map f) := by
  rw [snr1_ok n hn x' widths hne, snr1_ok n hn x widths hne]
  simp only [Except.map, List.map_map]
  congr 1
  apply List.map_congr_left
  intro w hw
  have hle := maxWidth_ge widths w hw
  obtain ⟨D, h1, h2⟩ := winMax_exists n w hn x
  obtain ⟨h3, h4, h5⟩ := hD w hw D h1 h2
  rw [Function.comp_apply, snrWidth_eq n w hn x std _ (snr1_cpf n hn x _ w hle) D h1 h2,
    snrWidth_eq n w hn x' std' _ (snr1_cpf n hn x' _ w hle) (g w D) h3 h4, h5]

theorem mapM_ok {α β ε : Type*} (l : List α) (f : α → Except ε β) (g : α → β)
    (h : ∀ a ∈ l, f a = .ok (g a)) : l.mapM f = .ok (l.map g) := by
  induction l with
  | nil => rfl
  | cons a l ih =>
    rw [List.mapM_cons, h a (by simp), ih (fun b hb => h b (by simp [hb]))]
    rfl

theorem snr1_single (n : ℕ) (hn : 1 ≤ n) (x : ℕ → ℝ) (wmax w : ℕ) (hw : w ≤ wmax) (std : ℝ) :
    snr1 n x [w] std = .ok [snrWidth n (fun j => (circularPrefixSum x n (n + wmax) j).getD 0) std w] := by
  rw [snr1_ok n hn x [w] (by simp)]
  obtain ⟨D, h1, h2⟩ := winMax_exists n w hn x
  simp only [List.map_cons, List.map_nil]
  rw [snrWidth_eq n w hn x std _ (snr1_cpf n hn x _ w (maxWidth_ge [w] w (by simp))) D h1 h2,
    snrWidth_eq n w hn x std _ (snr1_cpf n hn x _ w hw) D h1 h2]

theorem boxB_mul {n w : ℕ} (h1 : w < n) : boxB n w * ((n : ℝ) - w) = w * boxH n w := by
  unfold boxB
  have b : (w : ℝ) < n := by exact_mod_cast h1
  have d : (n : ℝ) - w ≠ 0 := by linarith
  field_simp

end Verif.Lemmas
