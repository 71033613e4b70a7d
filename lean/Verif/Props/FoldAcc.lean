import Verif.Props.FoldF
import Verif.Lemmas.Energy

/-!
# C124: accuracy of the folded data
-/

namespace Verif.Props

open Verif.Model Verif.Lemmas Verif.Spec Finset

/-- What rounding errors of phase bin `j` of period `i` are compared with: the integral of the absolute value of the data over the bin plus half the sum of the
absolute values of the samples that touch it (widened by 1/4 sample), times `1 / sqrt(m f)`. -/
noncomputable def foldSize (x : List ℝ) (f : ℝ) (bins m i j : ℕ) : ℝ :=
  (stepIntegral x.length (fun k => |x.getD k 0|) (((i * bins + j : ℕ) : ℝ) * f) ((((i * bins + j : ℕ) : ℝ) + 1) * f) +
    1 / 2 * touch x.length (fun k => x.getD k 0) (((i * bins + j : ℕ) : ℝ) * f) ((((i * bins + j : ℕ) : ℝ) + 1) * f)) / Real.sqrt (m * f)

theorem Close.trans {q : ℝ} (hq : 1 ≤ q) {j k : ℕ} {x y z M W : ℝ} (h1 : Close q j x y M) (h2 : Close q k y z W) (hM : M ≤ q ^ k * W) :
    Close q (j + k) x z W := by
  refine ⟨?_, h2.2⟩
  have p := pow_ge_one hq j
  have e : x - z = (x - y) + (y - z) := by ring
  rw [e]
  refine (abs_add_le _ _).trans ?_
  have s := mul_le_mul_of_nonneg_left hM (by linarith : 0 ≤ q ^ j - 1)
  rw [pow_add]
  nlinarith [h1.1, h2.1]

theorem Close.sum {q : ℝ} {k : ℕ} {x y M : ℕ → ℝ} (s : Finset ℕ) (h : ∀ i ∈ s, Close q k (x i) (y i) (M i)) :
    Close q k (∑ i ∈ s, x i) (∑ i ∈ s, y i) (∑ i ∈ s, M i) := by
  constructor
  · rw [← Finset.sum_sub_distrib, Finset.mul_sum]
    exact (Finset.abs_sum_le_sum_abs _ _).trans (Finset.sum_le_sum fun i hi => (h i hi).1)
  · exact (Finset.abs_sum_le_sum_abs _ _).trans (Finset.sum_le_sum fun i hi => (h i hi).2)

theorem Close.integral {q : ℝ} {k N : ℕ} {x y M : ℕ → ℝ} (h : ∀ i < N, Close q k (x i) (y i) (M i)) (a b : ℝ) :
    Close q k (stepIntegral N x a b) (stepIntegral N y a b) (stepIntegral N M a b) := by
  unfold stepIntegral
  refine Close.sum _ fun i hi => ?_
  have c := h i (Finset.mem_range.mp hi)
  have o : 0 ≤ overlap i a b := le_max_left _ _
  constructor
  · rw [← sub_mul, abs_mul, abs_of_nonneg o, ← mul_assoc]
    exact mul_le_mul_of_nonneg_right c.1 o
  · rw [abs_mul, abs_of_nonneg o]
    exact mul_le_mul_of_nonneg_right c.2 o

/-- Downsampling of values that are known up to rounding errors. -/
theorem dSample_approx {A : DArith} {B : FArith} {u v : ℝ} (hA : Sane A) (h : Rounds B u v) (hu : 1 / 2 ^ 24 ≤ u) {N k K : ℕ} {f : ℚ} {x y M : ℕ → ℝ}
    (hN : N ≤ 2 ^ 25) (hf : 1 + 2 * u53 ≤ f) (hk : k < ⌊A.fl (A.fl N / f)⌋₊) (hx : ∀ i < N, Close (grow u) K (x i) (y i) (M i)) :
    Close (grow u) (⌈f⌉₊ + 5 + K) (dSample A (B.searchOps A) N x f k) (downsampled N y f k)
      (downsampled N M f k + 1 / 2 * touch N M ((k : ℝ) * f) (((k : ℝ) + 1) * f)) := by
  have hq := (grow_facts h).1
  have hT := touch_nonneg N M ((k : ℝ) * f) (((k : ℝ) + 1) * f)
  have c2 : Close (grow u) K (downsampled N x f k) (downsampled N y f k) (downsampled N M f k) := Close.integral hx _ _
  refine Close.trans hq (dSample_close hA h hu x hN hf hk) (c2.mono hq le_rfl (by linarith)) ?_
  have hM : ∀ i < N, |x i| ≤ grow u ^ K * M i := fun i hi => (hx i hi).abs_le
  have e1 : downsampled N (fun i => |x i|) f k ≤ grow u ^ K * downsampled N M f k := by
    unfold downsampled stepIntegral
    rw [Finset.mul_sum]
    refine Finset.sum_le_sum fun i hi => ?_
    rw [← mul_assoc]
    exact mul_le_mul_of_nonneg_right (hM i (Finset.mem_range.mp hi)) (le_max_left _ _)
  have e2 : touch N x ((k : ℝ) * f) (((k : ℝ) + 1) * f) ≤ grow u ^ K * touch N M ((k : ℝ) * f) (((k : ℝ) + 1) * f) := by
    unfold touch
    rw [Finset.mul_sum]
    refine Finset.sum_le_sum fun i hi => ?_
    have := (hx i (Finset.mem_range.mp hi)).nonneg
    split_ifs
    · rw [abs_of_nonneg this]
      exact hM i (Finset.mem_range.mp hi)
    · simp
  rw [mul_add]
  linarith

/-- The scale factor. -/
theorem scale_near {A : DArith} {B : FArith} {u v : ℝ} (hA : Sane A) (h : Rounds B u v) (hu : 1 / 2 ^ 24 ≤ u) (hu3 : u ≤ 1 / 3) {inv : ℝ → ℝ}
    (hinv : ∀ a, 0 < a → |inv a - (Real.sqrt a)⁻¹| ≤ 2 * v * (Real.sqrt a)⁻¹) {m : ℕ} (hm : 1 ≤ m) {f : ℚ} (hf : 0 < f) :
    NearR (grow u) 4 (inv ((A.fl (m * f) : ℚ) : ℝ)) (Real.sqrt (m * f))⁻¹ := by
  have hq := (grow_facts h).1
  have hmq : (0 : ℚ) < m := by exact_mod_cast hm
  have h0 : (0 : ℚ) < m * f := by positivity
  have hf0 : (0 : ℚ) < A.fl (m * f) := Dbl.fl_pos hA h0
  have r0 : (0 : ℝ) < ((m * f : ℚ) : ℝ) := by exact_mod_cast h0
  have r1 : (0 : ℝ) < ((A.fl (m * f) : ℚ) : ℝ) := by exact_mod_cast hf0
  have n1 := near_double hA h hu h0.le (NearR.refl (q := grow u) _)
  have n2 := (n1.sqrt hq (j := 1) (by norm_num) r1.le r0.le).inv (Real.sqrt_pos.mpr r1) (Real.sqrt_pos.mpr r0)
  have e : ((m * f : ℚ) : ℝ) = (m : ℝ) * f := by push_cast; rfl
  rw [e] at n2
  have hi := hinv _ r1
  set a := (Real.sqrt ((A.fl (m * f) : ℚ) : ℝ))⁻¹ with ha
  have ha0 : 0 < a := by rw [ha]; exact inv_pos.mpr (Real.sqrt_pos.mpr r1)
  have n3 : NearR (grow u) 3 (inv ((A.fl (m * f) : ℚ) : ℝ)) a := by
    have hi := abs_le.mp hi
    have hv := h.v_le
    have hv0 := h.v_nonneg
    have h1 : 0 < 1 - u := by linarith
    have p : 0 < (1 - u) ^ 3 := by positivity
    have hu0 := h.u_nonneg
    have ex : (1 - u) ^ 3 = 1 - 3 * u + 3 * u ^ 2 - u ^ 3 := by ring
    have k1 : (1 - u) ^ 3 ≤ 1 - 2 * v := by
      rw [ex]
      have : 0 ≤ u * (1 - 3 * u) := by apply mul_nonneg hu0; linarith
      have : 0 ≤ u ^ 3 := by positivity
      linarith
    have k2 : (1 + 2 * v) * (1 - u) ^ 3 ≤ 1 := by
      have e1 : (1 + 2 * v) * (1 - u) ^ 3 ≤ (1 + 2 * v) * (1 - 2 * v) := mul_le_mul_of_nonneg_left k1 (by linarith)
      nlinarith
    constructor
    · unfold grow
      rw [div_pow, one_pow, mul_one_div, le_div_iff₀ p]
      have := mul_le_mul_of_nonneg_left k1 ha0.le
      linarith
    · unfold grow
      rw [div_pow, one_pow, mul_one_div, le_div_iff₀ p]
      have := mul_le_mul_of_nonneg_left k2 ha0.le
      have := mul_le_mul_of_nonneg_right (by linarith : inv ((A.fl (m * f) : ℚ) : ℝ) ≤ a * (1 + 2 * v)) p.le
      linarith
  exact n3.trans hq n2

/-- One element of the folded array. -/
theorem foldCell_close {A : DArith} {B : FArith} {u v : ℝ} (hA : Sane A) (h : Rounds B u v) (hu : 1 / 2 ^ 24 ≤ u) (hu3 : u ≤ 1 / 3) {inv : ℝ → ℝ}
    (hinv : ∀ a, 0 < a → |inv a - (Real.sqrt a)⁻¹| ≤ 2 * v * (Real.sqrt a)⁻¹) (narrow : Bool) {data : List ℝ} (hN : data.length ≤ 2 ^ 25) {f : ℚ}
    (hf : 1 + 2 * u53 ≤ f) {m bins r j : ℕ} (hm : 1 ≤ m) (hk : r * bins + j < ⌊A.fl (A.fl data.length / f)⌋₊) :
    Close (grow u) (⌈f⌉₊ + 11) (foldCell A B narrow data f bins (inv ((A.fl (m * f) : ℚ) : ℝ)) r j) (foldValue data f bins m r j) (foldSize data f bins m r j) := by
  have hq := (grow_facts h).1
  have hu0 : (0 : ℚ) ≤ u53 := by norm_num [u53]
  have hf0 : 0 < f := by linarith
  have ns := scale_near hA h hu hu3 hinv hm hf0
  have hs0 : 0 ≤ (Real.sqrt ((m : ℝ) * f))⁻¹ := inv_nonneg.mpr (Real.sqrt_nonneg _)
  have hi0 := ns.nonneg hq hs0
  have c := dSample_close hA h hu (fun i => data.getD i default) hN hf hk
  unfold foldCell FArith.scaleOne foldValue foldSize
  rw [div_eq_inv_mul, div_eq_inv_mul]
  generalize inv ((A.fl (m * f) : ℚ) : ℝ) = t at *
  change Close (grow u) (⌈f⌉₊ + 5) _ (stepIntegral data.length (fun k => data.getD k 0) (((r * bins + j : ℕ) : ℝ) * f) ((((r * bins + j : ℕ) : ℝ) + 1) * f))
    (stepIntegral data.length (fun k => |data.getD k 0|) (((r * bins + j : ℕ) : ℝ) * f) ((((r * bins + j : ℕ) : ℝ) + 1) * f) +
    1 / 2 * touch data.length (fun k => data.getD k 0) (((r * bins + j : ℕ) : ℝ) * f) ((((r * bins + j : ℕ) : ℝ) + 1) * f)) at c
  generalize dSample A (B.searchOps A) data.length (fun i => data.getD i default) f (r * bins + j) = y at *
  split_ifs
  · have := close_fl h (Close.mul hq hs0 (near_fl32 h hi0 ns) c)
    rw [mul_comm] at this
    exact this.mono hq (by omega) le_rfl
  · have c1 := Close.mul hq hs0 ns c
    rw [mul_comm] at c1
    have c2 := c1.round h.u_nonneg (grow_facts h).2.1 ((h.dbl _).trans (mul_le_mul_of_nonneg_right h.v_le (abs_nonneg _)))
    exact (close_fl h c2).mono hq (by omega) le_rfl

theorem foldRows_inv {A : DArith} (hA : Sane A) {B : FArith} {inv : ℝ → ℝ} {narrow : Bool} {data : List ℝ} (hN : data.length ≤ 2 ^ 50) {tsamp period : ℚ}
    {bins : ℕ} {subints : Option ℤ} {rows : List (List ℝ)} (hr : foldRows A B inv narrow data tsamp period bins subints = .ok rows) :
    ∃ m, 1 ≤ m ∧ 0 < bins ∧ 1 < A.foldFactor tsamp period bins ∧ A.foldFactor tsamp period bins ≤ data.length ∧
      ⌊A.fl (A.fl data.length / A.foldFactor tsamp period bins)⌋₊ / bins = m ∧
      rows = table m bins (foldCell A B narrow data (A.foldFactor tsamp period bins) bins (inv ((A.fl (m * A.foldFactor tsamp period bins) : ℚ) : ℝ))) := by
  have hc : A.foldChecks data.length tsamp period bins subints = .ok () := by
    unfold foldRows at hr
    cases e : A.foldChecks data.length tsamp period bins subints with
    | error e' => rw [e] at hr; simp [Except.bind] at hr
    | ok _ => rfl
  have hb : 0 < bins := by
    by_contra h0
    unfold DArith.foldChecks at hc
    have : bins = 0 := by omega
    by_cases c1 : period > A.seriesLength data.length tsamp
    · rw [if_pos c1] at hc; exact nomatch hc
    · rw [if_neg c1, if_pos this] at hc; exact nomatch hc
  have hts : tsamp ≠ 0 := by
    intro h0
    unfold foldRows at hr
    rw [hc] at hr
    simp only [Except.bind] at hr
    rw [if_pos h0] at hr
    exact nomatch hr
  have hf : 1 < A.foldFactor tsamp period bins ∧ A.foldFactor tsamp period bins ≤ data.length := by
    by_contra h0
    unfold foldRows at hr
    rw [hc] at hr
    simp only [Except.bind] at hr
    rw [if_neg hts, (C113_downsample_safe A hA (B.searchOps A) data _ hN).1 h0] at hr
    simp [liftCall] at hr
  have h1 := foldRows_ok hA B inv narrow data hN hts hc hf.1 hf.2 rfl
  rw [h1] at hr
  split_ifs at hr with h0
  exact ⟨_, Nat.one_le_iff_ne_zero.mpr h0, hb, hf.1, hf.2, rfl, (Except.ok.inj hr).symm⟩

theorem table_getD {V : Type*} {m bins : ℕ} (g : ℕ → ℕ → V) {i j : ℕ} (hi : i < m) (hj : j < bins) (d : V) : ((table m bins g).getD i []).getD j d = g i j := by
  simp [table, List.getD, hi, hj]

/-- The sum over the rows of an array whose elements are known up to rounding errors. -/
theorem sumsTo_close {B : FArith} {u v : ℝ} (h : Rounds B u v) {m bins K : ℕ} {g y M : ℕ → ℕ → ℝ} {p : List ℝ} (hp : SumsTo B (table m bins g) bins p)
    {j : ℕ} (hj : j < bins) (hg : ∀ i < m, Close (grow u) K (g i j) (y i j) (M i j)) :
    Close (grow u) (K + m) (p.getD j 0) (∑ i ∈ range m, y i j) (∑ i ∈ range m, M i j) := by
  have hq := (grow_facts h).1
  have d := hp.2 j hj
  unfold table at d
  rw [column_eq m bins g hj] at d
  have c1 := d.close (narrowed_rounds h)
  rw [List.length_map, List.length_range, list_sum_map_range, List.map_map, show ((fun a : ℝ => |a|) ∘ fun i => g i j) = fun i => |g i j| from rfl,
    list_sum_map_range] at c1
  have c2 : Close (grow u) K (∑ i ∈ range m, g i j) (∑ i ∈ range m, y i j) (∑ i ∈ range m, M i j) :=
    Close.sum _ fun i hi => hg i (mem_range.mp hi)
  refine (Close.trans hq c1 c2 ?_).mono hq (by omega) le_rfl
  rw [Finset.mul_sum]
  exact Finset.sum_le_sum fun i hi => (hg i (mem_range.mp hi)).abs_le

/-- C124. The period that is folded differs from the requested one by a relative error of at most `2^-51`. -/
theorem C124_period {A : DArith} (hA : Sane A) {tsamp period : ℚ} (hts : 0 < tsamp) (hp : 0 < period) {bins : ℕ} (hb : 0 < bins) :
    |A.foldFactor tsamp period bins * (bins * tsamp) - period| ≤ 1 / 2 ^ 51 * period := by
  obtain ⟨h1, h2⟩ := foldFactor_near hA hts hp bins
  have hbq : (0 : ℚ) < bins := by exact_mod_cast hb
  have hbt : 0 < bins * tsamp := by positivity
  have e : period / bins / tsamp * (bins * tsamp) = period := by field_simp
  have i1 := mul_le_mul_of_nonneg_right h1 hbt.le
  have i2 := mul_le_mul_of_nonneg_right h2 hbt.le
  rw [mul_assoc, e] at i1 i2
  have k1 : (1 - 1 / 2 ^ 51 : ℚ) ≤ (1 - u53) ^ 2 := by norm_num [u53]
  have k2 : (1 + u53 : ℚ) ^ 2 ≤ 1 + 1 / 2 ^ 51 := by norm_num [u53]
  have j1 := mul_le_mul_of_nonneg_right k1 hp.le
  have j2 := mul_le_mul_of_nonneg_right k2 hp.le
  rw [abs_le]
  constructor <;> linarith

/-- What a successful call of `fold` has computed before line 72. -/
theorem fold_core {A : DArith} {B : FArith} {u v : ℝ} (hA : Sane A) (hG : Grid A) (h : Rounds B u v) (hu : 1 / 2 ^ 24 ≤ u) (hu3 : u ≤ 1 / 3) {inv : ℝ → ℝ}
    (hinv : ∀ a, 0 < a → |inv a - (Real.sqrt a)⁻¹| ≤ 2 * v * (Real.sqrt a)⁻¹) {narrow : Bool} {data : List ℝ} (hN : data.length ≤ 2 ^ 25) {tsamp period : ℚ}
    {bins : ℕ} {subints : Option ℤ} {out : NdArray} (hr : FoldsTo A B inv narrow data tsamp period bins subints (.ok out)) :
    ∃ (f : ℚ) (m : ℕ) (g : ℕ → ℕ → ℝ), f = A.foldFactor tsamp period bins ∧ 1 < f ∧ 0 < bins ∧ 1 ≤ m ∧ m ≤ 2 ^ 25 ∧
      ((m * bins : ℕ) : ℚ) * f ≤ (1 + 1 / 2 ^ 53) * data.length ∧ (1 - 1 / 2 ^ 53) * (data.length : ℚ) < (((m + 1) * bins : ℕ) : ℚ) * f ∧
      FoldOutputsTo A B (table m bins g) bins subints (.ok out) ∧
      ∀ r < m, ∀ j < bins, Close (grow u) (⌈f⌉₊ + 11) (g r j) (foldValue data f bins m r j) (foldSize data f bins m r j) := by
  have hq := (grow_facts h).1
  unfold FoldsTo at hr
  cases e : foldRows A B inv narrow data tsamp period bins subints with
  | error e' => rw [e] at hr; exact nomatch hr
  | ok rows0 =>
  rw [e] at hr
  simp only at hr
  obtain ⟨m, hm, hb, f1, f2, hmm, rfl⟩ := foldRows_inv hA (by omega) e
  have hgap : 1 + 2 * u53 ≤ A.foldFactor tsamp period bins := hG.gap _ f1
  obtain ⟨n1, n2⟩ := count_bounds hA (N := data.length) (by omega) f1.le
  generalize A.foldFactor tsamp period bins = f at *
  have hf0 : 0 < f := by linarith
  refine ⟨f, m, _, rfl, f1, hb, hm, ?_, ?_, ?_, hr, ?_⟩
  · have i1 : m ≤ ⌊A.fl (A.fl data.length / f)⌋₊ := by rw [← hmm]; exact Nat.div_le_self _ _
    have i2 : ⌊A.fl (A.fl data.length / f)⌋₊ ≤ data.length := by
      rw [hA.nat data.length (by omega)]
      have q0 : (0 : ℚ) ≤ (data.length : ℚ) / f := by positivity
      have : A.fl ((data.length : ℚ) / f) ≤ data.length := Dbl.fl_le_nat hA (by omega) q0 (div_le_self (by positivity) f1.le)
      exact Nat.floor_le_of_le this
    omega
  · refine le_trans (mul_le_mul_of_nonneg_right ?_ hf0.le) n1
    have : m * bins ≤ ⌊A.fl (A.fl data.length / f)⌋₊ := by rw [← hmm]; exact Nat.div_mul_le_self _ _
    exact_mod_cast this
  · refine lt_of_lt_of_le n2 (mul_le_mul_of_nonneg_right ?_ hf0.le)
    have : ⌊A.fl (A.fl data.length / f)⌋₊ + 1 ≤ (m + 1) * bins := by
      rw [← hmm, Nat.succ_le_iff, mul_comm]
      exact Nat.lt_mul_div_succ _ hb
    exact_mod_cast this
  · intro r hr j hj
    refine foldCell_close hA h hu hu3 hinv narrow hN hgap hm ?_
    have i1 : (r + 1) * bins ≤ m * bins := Nat.mul_le_mul_right _ hr
    have i2 : m * bins ≤ ⌊A.fl (A.fl data.length / f)⌋₊ := by rw [← hmm]; exact Nat.div_mul_le_self _ _
    have i3 : (r + 1) * bins = r * bins + bins := by ring
    omega

/-- C124. Accuracy of `fold` for up to 2^25 samples, whenever it succeeds. `f` is the downsampling factor and `m` the number of periods that are folded. An integrated profile
is within `γ_{⌈f⌉ + m + 11}` of the sum over the periods of the scaled integrals of the data over the phase bin, an array of all periods within `γ_{⌈f⌉ + 11}` of those integrals,
and `s` sub-integrations within `γ_{⌈f⌉ + ⌈vf⌉ + 16}` of the integrals of the periods over intervals of `vf = m / s` rows, relative to the same
quantities for the absolute values of the data. -/
theorem C124_accuracy {A : DArith} {B : FArith} {u v : ℝ} (hA : Sane A) (hG : Grid A) (h : Rounds B u v) (hu : 1 / 2 ^ 24 ≤ u) (hu3 : u ≤ 1 / 3) {inv : ℝ → ℝ}
    (hinv : ∀ a, 0 < a → |inv a - (Real.sqrt a)⁻¹| ≤ 2 * v * (Real.sqrt a)⁻¹) (narrow : Bool) (data : List ℝ) (hN : data.length ≤ 2 ^ 25) (tsamp period : ℚ)
    (bins : ℕ) (subints : Option ℤ) (out : NdArray) (hr : FoldsTo A B inv narrow data tsamp period bins subints (.ok out)) :
    ∃ (f : ℚ) (m : ℕ), f = A.foldFactor tsamp period bins ∧ 1 < f ∧ 1 ≤ m ∧ ((m * bins : ℕ) : ℚ) * f ≤ (1 + 1 / 2 ^ 53) * data.length ∧
      (1 - 1 / 2 ^ 53) * (data.length : ℚ) < (((m + 1) * bins : ℕ) : ℚ) * f ∧
      (∀ p, out = .d1 p → (subints = some 1 ∨ m = 1) ∧ p.length = bins ∧ ((⌈f⌉₊ + 11 + m : ℕ) * u < 1 → ∀ j < bins,
        |p.getD j 0 - ∑ r ∈ range m, foldValue data f bins m r j| ≤ gam u (⌈f⌉₊ + 11 + m) * ∑ r ∈ range m, foldSize data f bins m r j)) ∧
      ∀ rows, out = .d2 rows → m ≠ 1 ∧ subints ≠ some 1 ∧
        (subints = none ∨ subints = some (m : ℤ) → rows.length = m ∧ ((⌈f⌉₊ + 11 : ℕ) * u < 1 → ∀ r < m, ∀ j < bins,
          |(rows.getD r []).getD j 0 - foldValue data f bins m r j| ≤ gam u (⌈f⌉₊ + 11) * foldSize data f bins m r j)) ∧
        ∀ s : ℤ, subints = some s → s ≠ m → ∃ vf : ℚ, vf = A.fl ((m : ℚ) / s) ∧ 1 < vf ∧ ((⌈vf⌉₊ + ⌈f⌉₊ + 16 : ℕ) * u < 1 →
          ∀ i < rows.length, ∀ j < bins, |(rows.getD i []).getD j 0 -
            stepIntegral m (fun r => foldValue data f bins m r j) ((i : ℝ) * vf) (((i : ℝ) + 1) * vf)| ≤ gam u (⌈vf⌉₊ + ⌈f⌉₊ + 16) *
            (stepIntegral m (fun r => foldSize data f bins m r j) ((i : ℝ) * vf) (((i : ℝ) + 1) * vf) +
              1 / 2 * touch m (fun r => foldSize data f bins m r j) ((i : ℝ) * vf) (((i : ℝ) + 1) * vf))) := by
  have hq := (grow_facts h).1
  obtain ⟨f, m, g, ef, f1, hb, hm, hmN, n1, n2, hr, hcell⟩ := fold_core hA hG h hu hu3 hinv hN hr
  refine ⟨f, m, ef, f1, hm, n1, n2, ?_, ?_⟩
  · rintro p rfl
    unfold FoldOutputsTo at hr
    rw [table_length] at hr
    split_ifs at hr with hone
    · obtain ⟨p', hp, e'⟩ := hr
      obtain rfl : p = p' := by
        have := Except.ok.inj e'
        injection this
      refine ⟨hone, hp.1, ?_⟩
      intro hγ j hj
      have c := sumsTo_close h hp hj (y := fun r j => foldValue data f bins m r j) (M := fun r j => foldSize data f bins m r j) (fun r hr => hcell r hr j hj)
      exact c.1.trans (mul_le_mul_of_nonneg_right (grow_le_gam h _ hγ) c.nonneg)
    · exfalso
      cases subints with
      | none => have := Except.ok.inj hr; exact nomatch this
      | some s =>
        simp only at hr
        split_ifs at hr
        · have := Except.ok.inj hr; exact nomatch this
        · cases hv : verticalF A B (table m bins g) bins (A.fl ((m : ℚ) / s)) with
          | error _ => rw [hv] at hr; exact nomatch hr
          | ok _ => rw [hv] at hr; have := Except.ok.inj hr; exact nomatch this
  · rintro rows rfl
    unfold FoldOutputsTo at hr
    rw [table_length] at hr
    split_ifs at hr with hone
    · obtain ⟨p', hp, e'⟩ := hr
      have := Except.ok.inj e'
      exact nomatch this
    · rw [not_or] at hone
      refine ⟨hone.2, hone.1, ?_, ?_⟩
      · intro hfull
        have hrows : rows = table m bins g := by
          rcases hfull with rfl | rfl
          · have := Except.ok.inj hr
            injection this
          · simp only [if_true] at hr
            have := Except.ok.inj hr
            injection this
        subst hrows
        refine ⟨table_length _ _ _, ?_⟩
        intro hγ r hrm j hj
        rw [table_getD _ hrm hj]
        have c := hcell r hrm j hj
        exact c.1.trans (mul_le_mul_of_nonneg_right (grow_le_gam h _ hγ) c.nonneg)
      · rintro s rfl hsm
        simp only [if_neg hsm] at hr
        by_cases hv : 1 < A.fl ((m : ℚ) / s) ∧ A.fl ((m : ℚ) / s) < m
        · rw [verticalF_ok hA B (by omega) hb _ hv.1 hv.2] at hr
          have hrows := Except.ok.inj hr
          injection hrows with hrows
          refine ⟨_, rfl, hv.1, ?_⟩
          have vgap : 1 + 2 * u53 ≤ A.fl ((m : ℚ) / s) := hG.gap _ hv.1
          generalize A.fl ((m : ℚ) / s) = vf at *
          intro hγ i hi j hj
          rw [hrows, table_length] at hi
          rw [hrows, table_getD _ hi hj]
          have c := dSample_approx hA h hu hmN vgap hi (K := ⌈f⌉₊ + 11)
            (x := fun r => ((List.range m).map fun i => g i j).getD r default)
            (y := fun r => foldValue data f bins m r j) (M := fun r => foldSize data f bins m r j) (by
              intro r hrm
              have : ((List.range m).map fun i => g i j).getD r default = g r j := by simp [List.getD, hrm]
              rw [this]
              exact hcell r hrm j hj)
          have ek : ⌈vf⌉₊ + 5 + (⌈f⌉₊ + 11) = ⌈vf⌉₊ + ⌈f⌉₊ + 16 := by omega
          rw [ek] at c
          exact c.1.trans (mul_le_mul_of_nonneg_right (grow_le_gam h _ hγ) c.nonneg)
        · exfalso
          unfold verticalF at hr
          simp only [table_length] at hr
          rw [not_and_or] at hv
          by_cases h1 : 1 < A.fl ((m : ℚ) / s)
          · have h2 : ¬ A.fl ((m : ℚ) / s) < m := by tauto
            rw [if_neg (by simpa using h1), if_pos h2] at hr
            exact nomatch hr
          · rw [if_pos h1] at hr
            exact nomatch hr

/-- C124. The profile of a candidate that was folded into one or into the default number of sub-integrations. -/
theorem C124_profile {A : DArith} {B : FArith} {u v : ℝ} (hA : Sane A) (hG : Grid A) (h : Rounds B u v) (hu : 1 / 2 ^ 24 ≤ u) (hu3 : u ≤ 1 / 3) {inv : ℝ → ℝ}
    (hinv : ∀ a, 0 < a → |inv a - (Real.sqrt a)⁻¹| ≤ 2 * v * (Real.sqrt a)⁻¹) (narrow : Bool) (data : List ℝ) (hN : data.length ≤ 2 ^ 25) (tsamp period : ℚ)
    (bins : ℕ) (subints : Option ℤ) (hsub : ∀ s, subints = some s → s = 1) (out : NdArray) (p : List ℝ)
    (hr : FoldsTo A B inv narrow data tsamp period bins subints (.ok out)) (hp : ProfilesTo B bins out p) :
    ∃ (f : ℚ) (m : ℕ), f = A.foldFactor tsamp period bins ∧ 1 ≤ m ∧ ((m * bins : ℕ) : ℚ) * f ≤ (1 + 1 / 2 ^ 53) * data.length ∧
      (1 - 1 / 2 ^ 53) * (data.length : ℚ) < (((m + 1) * bins : ℕ) : ℚ) * f ∧
      p.length = bins ∧ ((⌈f⌉₊ + 11 + m : ℕ) * u < 1 → ∀ j < bins,
        |p.getD j 0 - ∑ r ∈ range m, foldValue data f bins m r j| ≤ gam u (⌈f⌉₊ + 11 + m) * ∑ r ∈ range m, foldSize data f bins m r j) := by
  obtain ⟨f, m, g, ef, f1, hb, hm, hmN, n1, n2, hr, hcell⟩ := fold_core hA hG h hu hu3 hinv hN hr
  have hsums : SumsTo B (table m bins g) bins p := by
    unfold FoldOutputsTo at hr
    rw [table_length] at hr
    split_ifs at hr with hone
    · obtain ⟨p', hp', e'⟩ := hr
      have e2 := Except.ok.inj e'
      subst e2
      have : p = p' := hp
      rw [this]
      exact hp'
    · cases subints with
      | some s => exact absurd (Or.inl (by rw [hsub s rfl])) hone
      | none =>
        have e2 := Except.ok.inj hr
        subst e2
        exact hp
  refine ⟨f, m, ef, hm, n1, n2, hsums.1, ?_⟩
  intro hγ j hj
  have c := sumsTo_close h hsums hj (y := fun r j => foldValue data f bins m r j) (M := fun r j => foldSize data f bins m r j) (fun r hr => hcell r hr j hj)
  exact c.1.trans (mul_le_mul_of_nonneg_right (grow_le_gam h _ hγ) c.nonneg)

theorem overlap_outputs (i n : ℕ) {f : ℝ} (hf : 0 ≤ f) : ∑ k ∈ range n, overlap i ((k : ℝ) * f) (((k : ℝ) + 1) * f) = overlap i 0 (n * f) := by
  induction n with
  | zero =>
    simp only [range_zero, sum_empty, Nat.cast_zero, zero_mul]
    exact (overlap_zero (Or.inr (Nat.cast_nonneg i))).symm
  | succ n ih =>
    have hn : (0 : ℝ) ≤ n := Nat.cast_nonneg n
    rw [sum_range_succ, ih, overlap_add i (by positivity) (by nlinarith)]
    push_cast
    rfl

/-- All windows of a downsampled array of `m` rows together miss at most the end of the array. -/
theorem windows_total {m R : ℕ} {vf ε : ℝ} (hv : 0 ≤ vf) (hε : 0 ≤ ε) (hR : (m : ℝ) - ε ≤ R * vf) (y : ℕ → ℝ) :
    |∑ i ∈ range R, stepIntegral m y ((i : ℝ) * vf) (((i : ℝ) + 1) * vf) - ∑ r ∈ range m, y r| ≤ ε * ∑ r ∈ range m, |y r| := by
  unfold stepIntegral
  rw [sum_comm, ← sum_sub_distrib, mul_sum]
  refine (abs_sum_le_sum_abs _ _).trans (sum_le_sum fun r hr => ?_)
  have hrm := mem_range.1 hr
  have hrm' : (r : ℝ) + 1 ≤ m := by exact_mod_cast hrm
  have h0 : (0 : ℝ) ≤ r := Nat.cast_nonneg r
  have hone : overlap r 0 m = 1 := by
    unfold overlap
    rw [min_eq_left hrm', max_eq_left h0, add_sub_cancel_left]
    norm_num
  have hl := overlap_lip r 0 (min ((R : ℝ) * vf) m) 0 m
  rw [overlap_clip hrm, hone, sub_self, abs_zero, zero_add] at hl
  have hd : |min ((R : ℝ) * vf) m - m| ≤ ε := by
    rw [abs_le]
    constructor
    · rcases min_choice ((R : ℝ) * vf) m with h | h <;> rw [h] <;> linarith
    · have := min_le_right ((R : ℝ) * vf) (m : ℝ)
      linarith
  rw [← mul_sum, overlap_outputs r R hv, ← mul_sub_one, abs_mul, mul_comm]
  exact mul_le_mul_of_nonneg_right (hl.trans hd) (abs_nonneg _)

/-- C124. The profile of a candidate that was folded into `s` sub-integrations, as in a run of the pipeline with the option `subints`. If no row was lost (C123), it is
that of all full periods, up to rounding. -/
theorem C124_subints {A : DArith} {B : FArith} {u v : ℝ} (hA : Sane A) (hG : Grid A) (h : Rounds B u v) (hu : 1 / 2 ^ 24 ≤ u) (hu3 : u ≤ 1 / 3) {inv : ℝ → ℝ}
    (hinv : ∀ a, 0 < a → |inv a - (Real.sqrt a)⁻¹| ≤ 2 * v * (Real.sqrt a)⁻¹) (narrow : Bool) (data : List ℝ) (hN : data.length ≤ 2 ^ 25) (tsamp period : ℚ)
    (bins : ℕ) (s : ℕ) (rows : List (List ℝ)) (hs : rows.length = s) (p : List ℝ)
    (hr : FoldsTo A B inv narrow data tsamp period bins (some (s : ℤ)) (.ok (.d2 rows))) (hp : ProfilesTo B bins (.d2 rows) p) :
    ∃ (f : ℚ) (m : ℕ), f = A.foldFactor tsamp period bins ∧ 1 ≤ s ∧ s ≤ m ∧ m ≤ data.length ∧ ((m * bins : ℕ) : ℚ) * f ≤ (1 + 1 / 2 ^ 53) * data.length ∧
      (1 - 1 / 2 ^ 53) * (data.length : ℚ) < (((m + 1) * bins : ℕ) : ℚ) * f ∧
      p.length = bins ∧ ∀ K : ℕ, K = ⌈A.fl ((m : ℚ) / s)⌉₊ + ⌈f⌉₊ + 16 + s → (K : ℝ) * u < 1 → ∀ j < bins,
        |p.getD j 0 - ∑ r ∈ range m, foldValue data f bins m r j| ≤ (5 / 2 * gam u K + 1 / 2 ^ 28) * ∑ r ∈ range m, foldSize data f bins m r j := by
  have hq := (grow_facts h).1
  obtain ⟨f, m, g, ef, f1, hb, hm, hmN, n1, n2, hr, hcell⟩ := fold_core hA hG h hu hu3 hinv hN hr
  have hp' : SumsTo B rows bins p := hp
  have hml : m ≤ data.length := by
    by_contra hlt
    have k1 : (data.length : ℚ) + 1 ≤ m := by exact_mod_cast (by omega : data.length + 1 ≤ m)
    have k2 : (1 : ℚ) ≤ bins := by exact_mod_cast hb
    have k3 : (1 : ℚ) ≤ bins * f := by nlinarith
    have k4 := mul_le_mul_of_nonneg_left k3 (show (0 : ℚ) ≤ m by positivity)
    have k5 : (data.length : ℚ) ≤ 2 ^ 25 := by exact_mod_cast hN
    push_cast at n1
    linarith
  have hsz : ∀ r < m, ∀ j < bins, 0 ≤ foldSize data f bins m r j := fun r hr j hj => (hcell r hr j hj).nonneg
  unfold FoldOutputsTo at hr
  rw [table_length] at hr
  split_ifs at hr with hone
  · obtain ⟨p', _, e'⟩ := hr
    have := Except.ok.inj e'
    exact nomatch this
  · simp only at hr
    split_ifs at hr with hsm
    · have hrows := Except.ok.inj hr
      injection hrows with hrows
      have hsm' : s = m := by exact_mod_cast hsm
      subst hrows
      refine ⟨f, m, ef, by omega, hsm'.le, hml, n1, n2, hp'.1, ?_⟩
      intro K hK hγ j hj
      have c := sumsTo_close h hp' hj (y := fun r j => foldValue data f bins m r j) (M := fun r j => foldSize data f bins m r j) (fun r hr => hcell r hr j hj)
      have c' := c.mono hq (by omega : ⌈f⌉₊ + 11 + m ≤ K) le_rfl
      refine c'.1.trans (mul_le_mul_of_nonneg_right ?_ c.nonneg)
      have g1 := grow_le_gam h K hγ
      have g2 : 1 ≤ grow u ^ K := pow_ge_one hq K
      have : (0 : ℝ) ≤ 1 / 2 ^ 28 := by norm_num
      linarith
    · have hsm' : s ≠ m := fun e => hsm (by rw [e])
      by_cases hv : 1 < A.fl ((m : ℚ) / (s : ℤ)) ∧ A.fl ((m : ℚ) / (s : ℤ)) < m
      · rw [verticalF_ok hA B (by omega) hb _ hv.1 hv.2] at hr
        have hrows := Except.ok.inj hr
        injection hrows with hrows
        have hvs : (((s : ℤ)) : ℚ) = (s : ℚ) := by push_cast; rfl
        rw [hvs] at hv hrows
        have vgap : 1 + 2 * u53 ≤ A.fl ((m : ℚ) / s) := hG.gap _ hv.1
        have hmq : (0 : ℚ) < m := by exact_mod_cast hm
        have hs0 : 0 < s := by
          rcases Nat.eq_zero_or_pos s with e | e
          · exfalso
            have h0 := hA.nat 0 (by norm_num)
            rw [Nat.cast_zero] at h0
            rw [e, Nat.cast_zero, div_zero, h0] at hv
            linarith [hv.1]
          · exact e
        have hsq : (0 : ℚ) < s := by exact_mod_cast hs0
        have hlow := Dbl.fl_ge hA (div_nonneg hmq.le hsq.le)
        have hup := Dbl.fl_le hA (div_nonneg hmq.le hsq.le)
        have hms : s ≤ m := by
          by_contra hlt
          have : (m : ℚ) / s ≤ 1 := by
            rw [div_le_one hsq]
            exact_mod_cast (by omega : m ≤ s)
          have : A.fl ((m : ℚ) / s) ≤ ((1 : ℕ) : ℚ) := Dbl.fl_le_nat hA (by norm_num) (div_nonneg hmq.le hsq.le) (by push_cast; exact this)
          push_cast at this
          linarith [hv.1]
        refine ⟨f, m, ef, hs0, hms, hml, n1, n2, hp'.1, ?_⟩
        intro K hK hγ j hj
        generalize A.fl ((m : ℚ) / s) = vf at *
        have hRs : ⌊A.fl (A.fl m / vf)⌋₊ = s := by
          rw [← hs, hrows, table_length]
        rw [hRs] at hrows
        rw [hrows] at hp'
        have c := sumsTo_close h hp' hj (K := ⌈vf⌉₊ + 5 + (⌈f⌉₊ + 11))
          (y := fun i j => downsampled m (fun r => foldValue data f bins m r j) vf i)
          (M := fun i j => downsampled m (fun r => foldSize data f bins m r j) vf i +
            1 / 2 * touch m (fun r => foldSize data f bins m r j) ((i : ℝ) * vf) (((i : ℝ) + 1) * vf)) (by
            intro i hi
            refine dSample_approx hA h hu hmN vgap (by rw [hRs]; exact hi) (by
              intro r hrm
              have : ((List.range m).map fun i => g i j).getD r default = g r j := by simp [List.getD, hrm]
              rw [this]
              exact hcell r hrm j hj))
        have ek : ⌈vf⌉₊ + 5 + (⌈f⌉₊ + 11) + s = K := by omega
        rw [ek] at c
        have hvr : (1 : ℝ) ≤ vf := by exact_mod_cast hv.1.le
        have hM : ∑ i ∈ range s, (downsampled m (fun r => foldSize data f bins m r j) vf i +
            1 / 2 * touch m (fun r => foldSize data f bins m r j) ((i : ℝ) * vf) (((i : ℝ) + 1) * vf)) ≤ 5 / 2 * ∑ r ∈ range m, foldSize data f bins m r j := by
          rw [sum_add_distrib, ← mul_sum]
          have t1 := touch_sum m (fun r => foldSize data f bins m r j) vf hvr s
          have t2 : ∑ r ∈ range m, |foldSize data f bins m r j| = ∑ r ∈ range m, foldSize data f bins m r j :=
            sum_congr rfl fun r hr => abs_of_nonneg (hsz r (mem_range.1 hr) j hj)
          rw [t2] at t1
          have t3 : ∑ i ∈ range s, downsampled m (fun r => foldSize data f bins m r j) vf i ≤ ∑ r ∈ range m, foldSize data f bins m r j := by
            unfold downsampled stepIntegral
            rw [sum_comm]
            refine sum_le_sum fun r hr => ?_
            rw [← mul_sum]
            have := mul_le_mul_of_nonneg_left (overlap_outputs_le r s (f := (vf : ℝ)) (by linarith)) (hsz r (mem_range.1 hr) j hj)
            linarith
          linarith
        have hmr : (m : ℝ) ≤ 2 ^ 25 := by exact_mod_cast hmN
        have hw := windows_total (m := m) (R := s) (vf := (vf : ℝ)) (ε := 1 / 2 ^ 28) (by linarith) (by norm_num) (by
          have e1 : (m : ℚ) / s * s = m := div_mul_cancel₀ _ hsq.ne'
          have e2 := mul_le_mul_of_nonneg_right hlow hsq.le
          rw [mul_assoc, e1] at e2
          unfold u53 at e2
          have e3 := (Rat.cast_le (K := ℝ)).2 e2
          push_cast at e3
          rw [mul_comm (s : ℝ)]
          linarith) (fun r => foldValue data f bins m r j)
        have hval : ∑ r ∈ range m, |foldValue data f bins m r j| ≤ ∑ r ∈ range m, foldSize data f bins m r j :=
          sum_le_sum fun r hr => (hcell r (mem_range.1 hr) j hj).2
        have hsum0 : 0 ≤ ∑ r ∈ range m, foldSize data f bins m r j := sum_nonneg fun r hr => hsz r (mem_range.1 hr) j hj
        have hγ1 := grow_le_gam h K hγ
        have hg1 : 1 ≤ grow u ^ K := pow_ge_one hq K
        have d1 := c.1
        have d2 := mul_le_mul hγ1 hM c.nonneg (by linarith : 0 ≤ gam u K)
        have d3 := mul_le_mul_of_nonneg_left hval (by norm_num : (0 : ℝ) ≤ 1 / 2 ^ 28)
        have d4 := abs_sub_le (p.getD j 0) (∑ i ∈ range s, downsampled m (fun r => foldValue data f bins m r j) vf i) (∑ r ∈ range m, foldValue data f bins m r j)
        have d5 : |∑ i ∈ range s, downsampled m (fun r => foldValue data f bins m r j) vf i - ∑ r ∈ range m, foldValue data f bins m r j| ≤ _ := hw
        linarith
      · exfalso
        unfold verticalF at hr
        simp only [table_length] at hr
        rw [not_and_or] at hv
        by_cases h1 : 1 < A.fl ((m : ℚ) / (s : ℤ))
        · have h2 : ¬ A.fl ((m : ℚ) / (s : ℤ)) < m := by tauto
          rw [if_neg (by simpa using h1), if_pos h2] at hr
          exact nomatch hr
        · rw [if_pos h1] at hr
          exact nomatch hr

theorem gam_mono {u : ℝ} (hu : 0 ≤ u) {k K : ℕ} (h : k ≤ K) (hK : (K : ℝ) * u < 1) : 0 ≤ gam u k ∧ gam u k ≤ gam u K := by
  have hk : (k : ℝ) * u ≤ K * u := mul_le_mul_of_nonneg_right (by exact_mod_cast h) hu
  have hk0 : 0 ≤ (k : ℝ) * u := by positivity
  unfold gam
  exact ⟨div_nonneg hk0 (by linarith), div_le_div₀ (by linarith) hk (by linarith) (by linarith)⟩

/-- The rounded quotient, rounded up, and the divisor. -/
theorem ceil_add_le {A : DArith} (hA : Sane A) {m s : ℕ} (hm : m ≤ 2 ^ 25) (hs : 1 ≤ s) (hsm : s ≤ m) : ⌈A.fl ((m : ℚ) / s)⌉₊ + s ≤ m + 1 := by
  have hsq : (0 : ℚ) < s := by exact_mod_cast hs
  have hmq : (0 : ℚ) ≤ m := by positivity
  obtain ⟨q, hq⟩ : ∃ q, q = ⌈(m : ℚ) / s⌉₊ := ⟨_, rfl⟩
  have h1 : (m : ℚ) / s ≤ q := by rw [hq]; exact Nat.le_ceil _
  have hq1 : 1 ≤ q := by
    rw [hq, Nat.one_le_ceil_iff]
    have : (0 : ℚ) < m := by exact_mod_cast (by omega : 0 < m)
    positivity
  have h2 : (q - 1) * s + 1 ≤ m := by
    have : ((q - 1 : ℕ) : ℚ) < (m : ℚ) / s := by
      rw [← Nat.lt_ceil, ← hq]
      omega
    rw [lt_div_iff₀ hsq] at this
    have : (q - 1) * s < m := by exact_mod_cast this
    omega
  have hqm : q ≤ m := by
    rw [hq]
    refine Nat.ceil_le.2 (div_le_self hmq (by exact_mod_cast hs))
  have h3 : ⌈A.fl ((m : ℚ) / s)⌉₊ ≤ q := Nat.ceil_le.2 (Dbl.fl_le_nat hA (by omega) (div_nonneg hmq hsq.le) h1)
  obtain ⟨a, rfl⟩ : ∃ a, q = a + 1 := ⟨q - 1, by omega⟩
  obtain ⟨b, rfl⟩ : ∃ b, s = b + 1 := ⟨s - 1, by omega⟩
  rw [Nat.add_sub_cancel] at h2
  rcases Nat.eq_zero_or_pos a with rfl | ha
  · omega
  · have : b ≤ a * b := Nat.le_mul_of_pos_left b ha
    have e : a * (b + 1) = a * b + a := by ring
    omega

/-- C124. The profile of a candidate for any number of sub-integrations, if no row was lost (C123). -/
theorem C124_candidate {A : DArith} {B : FArith} {u v : ℝ} (hA : Sane A) (hG : Grid A) (h : Rounds B u v) (hu : 1 / 2 ^ 24 ≤ u) (hu3 : u ≤ 1 / 3) {inv : ℝ → ℝ}
    (hinv : ∀ a, 0 < a → |inv a - (Real.sqrt a)⁻¹| ≤ 2 * v * (Real.sqrt a)⁻¹) (narrow : Bool) (data : List ℝ) (hN : data.length ≤ 2 ^ 25) (tsamp period : ℚ)
    (bins : ℕ) (subints : Option ℤ) (out : NdArray) (p : List ℝ) (hr : FoldsTo A B inv narrow data tsamp period bins subints (.ok out)) (hp : ProfilesTo B bins out p)
    (hrow : ∀ rows, out = .d2 rows → ∀ s, subints = some s → (rows.length : ℤ) = s) :
    ∃ (f : ℚ) (m : ℕ), f = A.foldFactor tsamp period bins ∧ 1 ≤ m ∧ ((m * bins : ℕ) : ℚ) * f ≤ (1 + 1 / 2 ^ 53) * data.length ∧
      (1 - 1 / 2 ^ 53) * (data.length : ℚ) < (((m + 1) * bins : ℕ) : ℚ) * f ∧
      p.length = bins ∧ ((⌈f⌉₊ + 17 + m : ℕ) * u < 1 → ∀ j < bins,
        |p.getD j 0 - ∑ r ∈ range m, foldValue data f bins m r j| ≤ (5 / 2 * gam u (⌈f⌉₊ + 17 + m) + 1 / 2 ^ 28) * ∑ r ∈ range m, foldSize data f bins m r j) := by
  have hu0 : 0 ≤ u := le_trans (by norm_num) hu
  by_cases hd : (∀ s, subints = some s → s = 1) ∨ ∃ p', out = .d1 p'
  · obtain ⟨f, m, g, ef, f1, hb, hm, hmN, n1, n2, hr, hcell⟩ := fold_core hA hG h hu hu3 hinv hN hr
    have hsums : SumsTo B (table m bins g) bins p := by
      unfold FoldOutputsTo at hr
      rw [table_length] at hr
      split_ifs at hr with hone
      · obtain ⟨p', hp', e'⟩ := hr
        have e2 := Except.ok.inj e'
        subst e2
        have : p = p' := hp
        rw [this]
        exact hp'
      · cases subints with
        | some s =>
          exfalso
          rcases hd with hd | ⟨p', rfl⟩
          · exact hone (Or.inl (by rw [hd s rfl]))
          · simp only at hr
            split_ifs at hr
            · have := Except.ok.inj hr; exact nomatch this
            · cases hv : verticalF A B (table m bins g) bins (A.fl ((m : ℚ) / s)) with
              | error _ => rw [hv] at hr; exact nomatch hr
              | ok _ => rw [hv] at hr; have := Except.ok.inj hr; exact nomatch this
        | none =>
          have e2 := Except.ok.inj hr
          subst e2
          exact hp
    refine ⟨f, m, ef, hm, n1, n2, hsums.1, ?_⟩
    intro hγ j hj
    have c := sumsTo_close h hsums hj (y := fun r j => foldValue data f bins m r j) (M := fun r j => foldSize data f bins m r j) (fun r hr => hcell r hr j hj)
    have c' := c.mono (grow_facts h).1 (by omega : ⌈f⌉₊ + 11 + m ≤ ⌈f⌉₊ + 17 + m) le_rfl
    refine c'.1.trans (mul_le_mul_of_nonneg_right ?_ c.nonneg)
    have g1 := grow_le_gam h _ hγ
    have g2 := (gam_mono hu0 le_rfl hγ).1
    have : (0 : ℝ) ≤ 1 / 2 ^ 28 := by norm_num
    linarith
  · rw [not_or] at hd
    obtain ⟨h1, h2⟩ := hd
    cases out with
    | d1 p' => exact absurd ⟨p', rfl⟩ h2
    | d2 rows =>
      cases subints with
      | none => exact absurd (fun s e => nomatch e) h1
      | some s =>
        have hs := hrow rows rfl s rfl
        rw [← hs] at hr
        obtain ⟨f, m, ef, hs1, hsm, hmN, n1, n2, hpl, hacc⟩ := C124_subints hA hG h hu hu3 hinv narrow data hN tsamp period bins rows.length rows rfl p hr hp
        refine ⟨f, m, ef, by omega, n1, n2, hpl, ?_⟩
        intro hγ j hj
        have hK := ceil_add_le hA (hmN.trans hN) hs1 hsm
        obtain ⟨g0, g1⟩ := gam_mono hu0 (by omega : ⌈A.fl ((m : ℚ) / rows.length)⌉₊ + ⌈f⌉₊ + 16 + rows.length ≤ ⌈f⌉₊ + 17 + m) hγ
        have hlt : ((⌈A.fl ((m : ℚ) / rows.length)⌉₊ + ⌈f⌉₊ + 16 + rows.length : ℕ) : ℝ) * u < 1 :=
          lt_of_le_of_lt (mul_le_mul_of_nonneg_right (by exact_mod_cast (by omega : ⌈A.fl ((m : ℚ) / rows.length)⌉₊ + ⌈f⌉₊ + 16 + rows.length ≤ ⌈f⌉₊ + 17 + m)) hu0) hγ
        refine (hacc _ rfl hlt j hj).trans (mul_le_mul_of_nonneg_right (by linarith) ?_)
        refine sum_nonneg fun r _ => ?_
        unfold foldSize
        have t := touch_nonneg data.length (fun k => data.getD k 0) (((r * bins + j : ℕ) : ℝ) * f) ((((r * bins + j : ℕ) : ℝ) + 1) * f)
        have t2 : 0 ≤ stepIntegral data.length (fun k => |data.getD k 0|) (((r * bins + j : ℕ) : ℝ) * f) ((((r * bins + j : ℕ) : ℝ) + 1) * f) := by
          unfold stepIntegral
          exact sum_nonneg fun i _ => mul_nonneg (abs_nonneg _) (le_max_left _ _)
        exact div_nonneg (by linarith) (Real.sqrt_nonneg _)

/-! ## Bounded data -/

theorem touch_le {N : ℕ} {x : ℕ → ℝ} {X a b : ℝ} (hX : 0 ≤ X) (hx : ∀ i < N, |x i| ≤ X) (hab : a ≤ b) : touch N x a b ≤ X * (b - a + 5 / 2) := by
  unfold touch
  rw [← Finset.sum_filter]
  set s := (range N).filter (fun i : ℕ => a - 1 / 4 < (i : ℝ) + 1 ∧ (i : ℝ) < b + 1 / 4) with hs
  have h1 : ∑ i ∈ s, |x i| ≤ s.card • X := Finset.sum_le_card_nsmul _ _ _ fun i hi => hx i (mem_range.mp (mem_filter.mp hi).1)
  have h2 : (s.card : ℝ) ≤ b - a + 5 / 2 := by
    rcases s.eq_empty_or_nonempty with e | hne
    · rw [e, card_empty, Nat.cast_zero]
      linarith
    · obtain ⟨i0, hi0, hmin⟩ := s.exists_min_image id hne
      obtain ⟨i1, hi1, hmax⟩ := s.exists_max_image id hne
      have hsub : s ⊆ Icc i0 i1 := fun i hi => mem_Icc.mpr ⟨hmin i hi, hmax i hi⟩
      have hc := card_le_card hsub
      rw [Nat.card_Icc] at hc
      have a1 := (mem_filter.mp hi0).2.1
      have a2 := (mem_filter.mp hi1).2.2
      have h01 : i0 ≤ i1 := hmin i1 hi1
      have h3 : (s.card : ℝ) ≤ ((i1 + 1 - i0 : ℕ) : ℝ) := by exact_mod_cast hc
      rw [Nat.cast_sub (by omega)] at h3
      push_cast at h3
      linarith
  rw [nsmul_eq_mul] at h1
  have := mul_le_mul_of_nonneg_right h2 hX
  linarith

theorem foldSize_le {x : List ℝ} {X : ℝ} (hx : ∀ a ∈ x, |a| ≤ X) {f : ℝ} (hf : 1 ≤ f) {bins m i j : ℕ} (hX : 0 ≤ X) :
    foldSize x f bins m i j ≤ 3 * f * X / Real.sqrt (m * f) := by
  have hb : ∀ k < x.length, |x.getD k 0| ≤ X := by
    intro k hk
    rw [List.getD_eq_getElem?_getD, List.getElem?_eq_getElem hk]
    exact hx _ (List.getElem_mem hk)
  unfold foldSize
  apply div_le_div_of_nonneg_right _ (Real.sqrt_nonneg _)
  set a : ℝ := ((i * bins + j : ℕ) : ℝ) * f with ha
  have e : (((i * bins + j : ℕ) : ℝ) + 1) * f = a + f := by rw [ha]; ring
  rw [e]
  have ha0 : 0 ≤ a := by rw [ha]; positivity
  have t := touch_le (a := a) (b := a + f) hX hb (by linarith)
  have s1 : stepIntegral x.length (fun k => |x.getD k 0|) a (a + f) ≤ X * f := by
    have o := overlap_total_le x.length ha0 (by linarith : a ≤ a + f)
    unfold stepIntegral
    calc ∑ i ∈ range x.length, |x.getD i 0| * overlap i a (a + f) ≤ ∑ i ∈ range x.length, X * overlap i a (a + f) :=
          Finset.sum_le_sum fun i hi => mul_le_mul_of_nonneg_right (hb i (mem_range.mp hi)) (le_max_left _ _)
      _ = X * ∑ i ∈ range x.length, overlap i a (a + f) := by rw [Finset.mul_sum]
      _ ≤ X * f := mul_le_mul_of_nonneg_left (by linarith) hX
  have : X * (5 / 4) ≤ X * (3 / 2 * f) := mul_le_mul_of_nonneg_left (by linarith) hX
  nlinarith

/-- C124. For samples of absolute value at most `X`, the error of the profile is at most `3 γ_{⌈f⌉ + m + 11} X sqrt(m f)`, where `m f` is the number of samples per phase bin. -/
theorem C124_bounded {A : DArith} {B : FArith} {u v : ℝ} (hA : Sane A) (hG : Grid A) (h : Rounds B u v) (hu : 1 / 2 ^ 24 ≤ u) (hu3 : u ≤ 1 / 3) {inv : ℝ → ℝ}
    (hinv : ∀ a, 0 < a → |inv a - (Real.sqrt a)⁻¹| ≤ 2 * v * (Real.sqrt a)⁻¹) (narrow : Bool) (data : List ℝ) (hN : data.length ≤ 2 ^ 25) (tsamp period : ℚ)
    (bins : ℕ) (subints : Option ℤ) (hsub : ∀ s, subints = some s → s = 1) (out : NdArray) (p : List ℝ) {X : ℝ} (hX : ∀ a ∈ data, |a| ≤ X)
    (hr : FoldsTo A B inv narrow data tsamp period bins subints (.ok out)) (hp : ProfilesTo B bins out p) :
    ∃ (f : ℚ) (m : ℕ), f = A.foldFactor tsamp period bins ∧ 1 ≤ m ∧ ((m * bins : ℕ) : ℚ) * f ≤ (1 + 1 / 2 ^ 53) * data.length ∧
      ((⌈f⌉₊ + 11 + m : ℕ) * u < 1 → ∀ j < bins,
        |p.getD j 0 - ∑ r ∈ range m, foldValue data f bins m r j| ≤ 3 * gam u (⌈f⌉₊ + 11 + m) * X * Real.sqrt (m * f)) := by
  obtain ⟨f, m, ef, f1, -⟩ := C124_accuracy hA hG h hu hu3 hinv narrow data hN tsamp period bins subints out hr
  clear m
  obtain ⟨f', m, ef', hm, n1, -, -, hacc⟩ := C124_profile hA hG h hu hu3 hinv narrow data hN tsamp period bins subints hsub out p hr hp
  obtain rfl : f = f' := ef.trans ef'.symm
  refine ⟨f, m, ef, hm, n1, ?_⟩
  intro hγ j hj
  refine (hacc hγ j hj).trans ?_
  have hfr : (1 : ℝ) ≤ f := by exact_mod_cast f1.le
  have hmr : (1 : ℝ) ≤ m := by exact_mod_cast hm
  have hne : data ≠ [] := by
    rintro rfl
    simp only [List.length_nil, Nat.cast_zero, mul_zero] at n1
    have hb : (0 : ℚ) < ((m * bins : ℕ) : ℚ) := by
      have : 0 < m * bins := Nat.mul_pos hm (by omega)
      exact_mod_cast this
    have : 0 < ((m * bins : ℕ) : ℚ) * f := mul_pos hb (by linarith)
    linarith
  have hX0 : 0 ≤ X := by
    obtain ⟨a, ha⟩ := List.exists_mem_of_ne_nil _ hne
    exact (abs_nonneg a).trans (hX a ha)
  have hγ0 : 0 ≤ gam u (⌈f⌉₊ + 11 + m) := by
    have := grow_le_gam h _ hγ
    have := pow_ge_one (grow_facts h).1 (⌈f⌉₊ + 11 + m)
    linarith
  have hs : ∑ r ∈ range m, foldSize data f bins m r j ≤ 3 * X * Real.sqrt (m * f) := by
    have h1 : ∑ r ∈ range m, foldSize data f bins m r j ≤ (range m).card • (3 * f * X / Real.sqrt (m * f)) :=
      Finset.sum_le_card_nsmul _ _ _ fun r _ => foldSize_le hX hfr hX0
    rw [card_range, nsmul_eq_mul] at h1
    refine h1.trans (le_of_eq ?_)
    have hp : 0 < (m : ℝ) * f := by positivity
    have hsq := Real.mul_self_sqrt hp.le
    have hs0 := Real.sqrt_pos.mpr hp
    rw [mul_div_assoc', div_eq_iff hs0.ne']
    calc (m : ℝ) * (3 * f * X) = 3 * X * (m * f) := by ring
      _ = 3 * X * (Real.sqrt (m * f) * Real.sqrt (m * f)) := by rw [hsq]
      _ = _ := by ring
  have := mul_le_mul_of_nonneg_left hs hγ0
  linarith

/-- Non-vacuity: 1000 samples of 1/1024 s folded at a period of 0.3 s with 16 bins in IEEE arithmetic. -/
example : ∃ r, FoldsTo (ieeeDouble someLog (fun x k => rn 53 (x ^ k)) true) single (fun a => (Real.sqrt a)⁻¹) true (List.replicate 1000 (1 : ℝ)) (1 / 1024) (3 / 10) 16
      (some 2) r ∧ (∃ out, r = .ok out) ∧ Grid (ieeeDouble someLog (fun x k => rn 53 (x ^ k)) true) ∧ Rounds single (1 / 2 ^ 24) (1 / 2 ^ 53) ∧
      (1 / 2 ^ 24 : ℝ) ≤ 1 / 3 ∧ ((20 + 11 + 3 : ℕ) : ℝ) * (1 / 2 ^ 24) < 1 := by
  obtain ⟨⟨r, hr⟩, hall⟩ := C123_shape_partial (sane_some true) single (fun a => (Real.sqrt a)⁻¹) true (List.replicate 1000 (1 : ℝ))
    (by rw [List.length_replicate]; norm_num) (1 / 1024) (3 / 10) (by norm_num) 16 (by norm_num) 3 (by norm_num)
    (by rw [List.length_replicate, slack]; norm_num) (by rw [List.length_replicate, slack]; norm_num) (by rw [slack]; norm_num) (some 2) (by
      intro s e
      have := Option.some.inj e
      omega)
  refine ⟨r, hr, ?_, grid_ieee _ _ _, single_rounds, by norm_num, by norm_num⟩
  obtain ⟨rows, e, -⟩ := (hall r hr).2 (by decide) (by norm_num)
  exact ⟨_, e⟩

/-- Non-vacuity of C124_subints: three periods in two sub-integrations. -/
example : ∃ rows p, rows.length = 2 ∧ FoldsTo (ieeeDouble someLog (fun x k => rn 53 (x ^ k)) true) single (fun a => (Real.sqrt a)⁻¹) true (List.replicate 1000 (1 : ℝ)) (1 / 1024) (3 / 10) 16
      (some ((2 : ℕ) : ℤ)) (.ok (.d2 rows)) ∧ ProfilesTo single 16 (.d2 rows) p := by
  obtain ⟨⟨r, hr⟩, -⟩ := C123_shape_partial (sane_some true) single (fun a => (Real.sqrt a)⁻¹) true (List.replicate 1000 (1 : ℝ))
    (by rw [List.length_replicate]; norm_num) (1 / 1024) (3 / 10) (by norm_num) 16 (by norm_num) 3 (by norm_num)
    (by rw [List.length_replicate, slack]; norm_num) (by rw [List.length_replicate, slack]; norm_num) (by rw [slack]; norm_num) (some ((2 : ℕ) : ℤ)) (by
      intro s e
      have := Option.some.inj e
      omega)
  obtain ⟨rows, e, hl, -⟩ := C123_power_of_two (sane_some true) rfl single (fun a => (Real.sqrt a)⁻¹) true (List.replicate 1000 (1 : ℝ))
    (by rw [List.length_replicate]; norm_num) (1 / 1024) (3 / 10) (by norm_num) 16 (by norm_num) 3 (by norm_num)
    (by rw [List.length_replicate, slack]; norm_num) (by rw [List.length_replicate, slack]; norm_num) (by rw [slack]; norm_num) 1 le_rfl (by norm_num) r hr
  obtain ⟨p, hp⟩ := sumsTo_exists single (rows := rows) (by
    intro h
    rw [h] at hl
    simp at hl) 16
  rw [e] at hr
  exact ⟨rows, p, hl, hr, hp⟩

end Verif.Props
