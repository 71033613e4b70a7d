import Verif.Spec.Samples
import Verif.Props.CandFile
import Verif.Props.Sigproc
import Verif.Props.Presto
import Verif.Props.Products
import Verif.Lemmas.Float

/-!
# C131: the samples of a `TimeSeries` are the nearest single precision numbers

`TimeSeries.from_numpy_array`, `from_binary`, `from_npy_file` (time_series.py 222-282).
-/

namespace Verif.Props

open Verif.Model Verif.Spec Verif.Lemmas

/-! ## Rounding -/

/-- The nearest integer, and ties. -/
theorem rhe_nearest (x : ℚ) (k : ℤ) : |x - roundHalfEven x| ≤ |x - k| := by
  by_contra hc
  push Not at hc
  have h1 := rhe_err x
  rw [abs_sub_comm] at h1
  have h2 : |((roundHalfEven x - k : ℤ) : ℚ)| < 1 := by
    push_cast
    calc |(roundHalfEven x : ℚ) - k| = |(x - k) - (x - roundHalfEven x)| := by congr 1; ring
      _ ≤ |x - k| + |x - roundHalfEven x| := abs_sub _ _
      _ < 1 := by linarith
  have h3 : |roundHalfEven x - k| < 1 := by exact_mod_cast h2
  have h4 : roundHalfEven x = k := by
    rw [Int.abs_lt_one_iff] at h3
    omega
  rw [h4] at hc
  exact lt_irrefl _ hc

theorem rhe_tie {x : ℚ} {k : ℤ} (hk : k ≠ roundHalfEven x) (h : |x - k| = |x - roundHalfEven x|) : (∃ a, roundHalfEven x = 2 * a) ∧ ∃ b, k = 2 * b + 1 := by
  have h1 := rhe_err x
  rw [abs_sub_comm] at h1
  rcases abs_eq_abs.1 h with h2 | h2
  · exfalso
    apply hk
    have : (k : ℚ) = roundHalfEven x := by linarith
    exact_mod_cast this
  · -- x is halfway
    have h3 : |((roundHalfEven x - k : ℤ) : ℚ)| ≤ 1 := by
      push_cast
      calc |(roundHalfEven x : ℚ) - k| = |(x - k) - (x - roundHalfEven x)| := by congr 1; ring
        _ ≤ |x - k| + |x - roundHalfEven x| := abs_sub _ _
        _ ≤ 1 := by rw [h]; linarith
    have h4 : |roundHalfEven x - k| ≤ 1 := by exact_mod_cast h3
    have h5 : roundHalfEven x = k + 1 ∨ roundHalfEven x = k - 1 := by
      rw [abs_le] at h4
      omega
    have heven : roundHalfEven x % 2 = 0 := by
      have hf := Int.floor_le x
      have hf2 := Int.lt_floor_add_one x
      rcases h5 with h5 | h5
      · have hx : x = k + 1 / 2 := by rw [h5] at h2; push_cast at h2; linarith
        have hfl : ⌊x⌋ = k := by
          rw [Int.floor_eq_iff]
          constructor <;> linarith
        unfold roundHalfEven at h5 ⊢
        simp only [hfl] at h5 ⊢
        rw [if_neg (by rw [hx]; linarith), if_neg (by rw [hx]; linarith)] at h5 ⊢
        split_ifs at h5 ⊢ <;> omega
      · have hx : x = k - 1 / 2 := by rw [h5] at h2; push_cast at h2; linarith
        have hfl : ⌊x⌋ = k - 1 := by
          rw [Int.floor_eq_iff]
          push_cast
          constructor <;> linarith
        unfold roundHalfEven at h5 ⊢
        simp only [hfl] at h5 ⊢
        rw [if_neg (by rw [hx]; push_cast; linarith), if_neg (by rw [hx]; push_cast; linarith)] at h5 ⊢
        split_ifs at h5 ⊢ <;> omega
    refine ⟨⟨roundHalfEven x / 2, by omega⟩, ⟨(k - 1) / 2, by omega⟩⟩

/-- The exponent of the last digit, and the position of a number between the powers of two. -/
theorem ulp_facts (f : FloatFormat) (hf : FormatOK f) {q : ℚ} (h0 : q ≠ 0) :
    let u : ℤ := max f.emin (Int.log 2 |q| - (f.prec - 1 : ℕ))
    f.emin ≤ u ∧ |q| < 2 ^ (u + f.prec) ∧ (u = f.emin ∨ (2 : ℚ) ^ (u + f.prec - 1) ≤ |q|) := by
  intro u
  have hp := hf.prec
  have hpos : 0 < |q| := abs_pos.2 h0
  have hlo : (2 : ℚ) ^ Int.log 2 |q| ≤ |q| := by
    have := Int.zpow_log_le_self (b := 2) (by norm_num) hpos
    exact_mod_cast this
  have hhi : |q| < (2 : ℚ) ^ (Int.log 2 |q| + 1) := by
    have := Int.lt_zpow_succ_log_self (b := 2) (by norm_num) |q|
    exact_mod_cast this
  have hc : ((f.prec - 1 : ℕ) : ℤ) = f.prec - 1 := by
    push_cast [Nat.cast_sub (by omega : 1 ≤ f.prec)]
    ring
  refine ⟨le_max_left _ _, hhi.trans_le (zpow_le_zpow_right₀ (by norm_num) ?_), ?_⟩
  · have : Int.log 2 |q| - (f.prec - 1 : ℕ) ≤ u := le_max_right _ _
    omega
  · rcases le_or_gt (Int.log 2 |q| - (f.prec - 1 : ℕ)) f.emin with h | h
    · exact .inl (max_eq_left h)
    · right
      have hu : u = Int.log 2 |q| - (f.prec - 1 : ℕ) := max_eq_right h.le
      rw [show u + f.prec - 1 = Int.log 2 |q| by omega]
      exact hlo

/-- The magnitude of the rounded number, if there were no limit. -/
def roundMag (f : FloatFormat) (a : ℚ) : ℚ :=
  let u : ℤ := max f.emin (Int.log 2 a - (f.prec - 1 : ℕ))
  roundHalfEven (a / 2 ^ u) * 2 ^ u

/-- The greatest exponent of the last digit. -/
def FloatFormatEmax (f : FloatFormat) : ℤ := f.emin + 2 ^ f.expBits - 3

theorem roundTo_eq (f : FloatFormat) {q : ℚ} (h0 : q ≠ 0) :
    roundTo f q = if 2 ^ (FloatFormatEmax f + f.prec : ℤ) ≤ roundMag f |q| then .inf (decide (q < 0)) else .fin (if q < 0 then -roundMag f |q| else roundMag f |q|) := by
  unfold roundTo roundMag FloatFormatEmax
  rw [if_neg h0]

theorem emin_le_emax {f : FloatFormat} (hf : FormatOK f) : f.emin + 1 ≤ FloatFormatEmax f := by
  have hE : 4 ≤ 2 ^ f.expBits := by
    calc 4 = 2 ^ 2 := by norm_num
      _ ≤ 2 ^ f.expBits := Nat.pow_le_pow_right (by norm_num) hf.exp
  have : (4 : ℤ) ≤ 2 ^ f.expBits := by exact_mod_cast hE
  unfold FloatFormatEmax
  omega

/-- The rounded number is nearest among all multiples of the last digit and all smaller numbers of the format. -/
theorem roundMag_nearest {f : FloatFormat} (hf : FormatOK f) {q s : ℚ} (h0 : q ≠ 0) (hs : f.Has s) :
    abs (|q| - roundMag f |q|) ≤ abs (|q| - s) ∧ (s ≠ roundMag f |q| → abs (|q| - s) = abs (|q| - roundMag f |q|) →
      ∃ a b e : ℤ, roundMag f |q| = 2 * a * 2 ^ e ∧ s = (2 * b + 1) * 2 ^ e) := by
  obtain ⟨hu1, hu2, hu3⟩ := ulp_facts f hf h0
  unfold roundMag
  set u : ℤ := max f.emin (Int.log 2 |q| - (f.prec - 1 : ℕ)) with hu
  simp only
  have hU : (0 : ℚ) < 2 ^ u := by positivity
  have hx : |q| = |q| / 2 ^ u * 2 ^ u := by field_simp
  have hmul : ∀ k : ℤ, abs (|q| - k * 2 ^ u) = abs (|q| / 2 ^ u - k) * 2 ^ u := by
    intro k
    conv_lhs => rw [hx]
    rw [← sub_mul, abs_mul, abs_of_pos hU]
  obtain ⟨m, e, hm, he1, he2, rfl⟩ := hs
  rcases le_or_gt u e with he | he
  · -- a multiple of the last digit
    have hk : (m : ℚ) * 2 ^ e = ((m * 2 ^ (e - u).toNat : ℤ) : ℚ) * 2 ^ u := by
      push_cast
      rw [mul_assoc, ← zpow_natCast, ← zpow_add₀ (by norm_num)]
      congr 2
      omega
    rw [hk, hmul, hmul]
    refine ⟨mul_le_mul_of_nonneg_right (rhe_nearest _ _) hU.le, fun hne heq => ?_⟩
    have h1 := mul_right_cancel₀ hU.ne' heq
    obtain ⟨⟨a, ha⟩, b, hb⟩ := rhe_tie (x := |q| / 2 ^ u) (k := m * 2 ^ (e - u).toNat) (fun h => hne (by rw [h])) h1
    refine ⟨a, b, u, ?_, ?_⟩
    · rw [ha]; push_cast; ring
    · rw [hb]; push_cast; ring
  · -- smaller than the power of two below the number
    have hlo : (2 : ℚ) ^ (u + f.prec - 1) ≤ |q| := by
      rcases hu3 with h | h
      · omega
      · exact h
    have hsm : |(m : ℚ) * 2 ^ e| < 2 ^ (u + f.prec - 1) := by
      rw [abs_mul, abs_of_pos (show (0 : ℚ) < 2 ^ e by positivity)]
      calc |(m : ℚ)| * 2 ^ e < 2 ^ f.prec * 2 ^ e := by
            refine mul_lt_mul_of_pos_right ?_ (by positivity)
            exact_mod_cast hm
        _ = 2 ^ (f.prec + e : ℤ) := by rw [zpow_add₀ (by norm_num), zpow_natCast]
        _ ≤ _ := zpow_le_zpow_right₀ (by norm_num) (by omega)
    have hB : (2 : ℚ) ^ (u + f.prec - 1) = ((2 ^ (f.prec - 1) : ℤ) : ℚ) * 2 ^ u := by
      push_cast
      rw [← zpow_natCast, ← zpow_add₀ (by norm_num)]
      congr 1
      have := hf.prec
      push_cast [Nat.cast_sub (by omega : 1 ≤ f.prec)]
      ring
    have h1 : abs (|q| - roundHalfEven (|q| / 2 ^ u) * 2 ^ u) ≤ |q| - 2 ^ (u + f.prec - 1) := by
      calc _ ≤ abs (|q| - ((2 ^ (f.prec - 1) : ℤ) : ℚ) * 2 ^ u) := by
            rw [hmul, hmul]
            exact mul_le_mul_of_nonneg_right (rhe_nearest _ _) hU.le
        _ = _ := by
            rw [← hB, abs_of_nonneg (by linarith)]
    have h2 : |q| - 2 ^ (u + f.prec - 1) < abs (|q| - (m : ℚ) * 2 ^ e) := by
      calc |q| - 2 ^ (u + f.prec - 1) < |q| - |(m : ℚ) * 2 ^ e| := by linarith
        _ ≤ abs (|q| - (m : ℚ) * 2 ^ e) := (sub_le_sub_left (le_abs_self _) _).trans (le_abs_self _)
    exact ⟨(h1.trans_lt h2).le, fun _ heq => absurd heq (by linarith)⟩

theorem roundMag_nonneg (f : FloatFormat) {a : ℚ} (h : 0 ≤ a) : 0 ≤ roundMag f a := by
  unfold roundMag
  refine mul_nonneg ?_ (by positivity)
  have : (0 : ℤ) ≤ roundHalfEven (a / 2 ^ max f.emin (Int.log 2 a - (f.prec - 1 : ℕ))) := by
    apply rhe_ge
    have : 0 ≤ a / 2 ^ max f.emin (Int.log 2 a - (f.prec - 1 : ℕ)) := by positivity
    push_cast
    linarith
  exact_mod_cast this

/-- Below the limit the rounded number is one of the format. -/
theorem roundMag_has {f : FloatFormat} (hf : FormatOK f) {q : ℚ} (h0 : q ≠ 0) (h : roundMag f |q| < 2 ^ (FloatFormatEmax f + f.prec : ℤ)) : f.Has (roundMag f |q|) := by
  obtain ⟨hu1, hu2, hu3⟩ := ulp_facts f hf h0
  have hnn := roundMag_nonneg f (abs_nonneg q)
  have hp := hf.prec
  have hee := emin_le_emax hf
  unfold roundMag at h hnn ⊢
  set u : ℤ := max f.emin (Int.log 2 |q| - (f.prec - 1 : ℕ)) with hu
  simp only at h hnn ⊢
  have hU : (0 : ℚ) < 2 ^ u := by positivity
  generalize hn : roundHalfEven (|q| / 2 ^ u) = n at *
  have hle : n ≤ 2 ^ f.prec := by
    rw [← hn]
    apply rhe_le
    rw [div_lt_iff₀ hU]
    have : |q| < 2 ^ f.prec * 2 ^ u := by
      rw [← zpow_natCast, ← zpow_add₀ (by norm_num), add_comm]
      exact hu2
    push_cast
    nlinarith
  have hn0 : 0 ≤ n := by
    have : (0 : ℚ) ≤ n := nonneg_of_mul_nonneg_left hnn hU
    exact_mod_cast this
  rcases lt_or_eq_of_le hle with hlt | heq
  · refine ⟨n, u, by rw [abs_of_nonneg hn0]; exact hlt, hu1, ?_, rfl⟩
    by_contra hc
    push Not at hc
    have hc' : FloatFormatEmax f < u := hc
    rcases hu3 with h3 | h3
    · omega
    · have hge : 2 ^ (f.prec - 1) ≤ n := by
        rw [← hn]
        apply rhe_ge
        have : (2 : ℚ) ^ (f.prec - 1) ≤ |q| / 2 ^ u := by
          rw [le_div_iff₀ hU, ← zpow_natCast, ← zpow_add₀ (by norm_num)]
          refine (le_of_eq ?_).trans h3
          congr 1
          push_cast [Nat.cast_sub (by omega : 1 ≤ f.prec)]
          ring
        push_cast
        linarith
      have : (2 : ℚ) ^ (FloatFormatEmax f + f.prec : ℤ) ≤ n * 2 ^ u := by
        calc (2 : ℚ) ^ (FloatFormatEmax f + f.prec : ℤ) ≤ 2 ^ (((f.prec - 1 : ℕ) : ℤ) + u) := by
              apply zpow_le_zpow_right₀ (by norm_num)
              push_cast [Nat.cast_sub (by omega : 1 ≤ f.prec)]
              omega
          _ = 2 ^ (f.prec - 1) * 2 ^ u := by rw [zpow_add₀ (by norm_num), zpow_natCast]
          _ ≤ n * 2 ^ u := by
              refine mul_le_mul_of_nonneg_right ?_ hU.le
              exact_mod_cast hge
      linarith
  · -- the next power of two
    have hval : (n : ℚ) * 2 ^ u = ((2 ^ (f.prec - 1) : ℤ) : ℚ) * 2 ^ (u + 1) := by
      rw [heq]
      push_cast
      rw [← zpow_natCast, ← zpow_natCast, ← zpow_add₀ (by norm_num), ← zpow_add₀ (by norm_num)]
      congr 1
      push_cast [Nat.cast_sub (by omega : 1 ≤ f.prec)]
      ring
    refine ⟨2 ^ (f.prec - 1), u + 1, ?_, by omega, ?_, hval⟩
    · rw [abs_of_nonneg (by positivity)]
      exact pow_lt_pow_right₀ (by norm_num) (by omega)
    · have h1 : (2 : ℚ) ^ (u + f.prec : ℤ) < 2 ^ (FloatFormatEmax f + f.prec : ℤ) := by
        refine lt_of_eq_of_lt ?_ h
        rw [heq]
        push_cast
        rw [add_comm, zpow_add₀ (by norm_num), zpow_natCast]
      have := (zpow_lt_zpow_iff_right₀ (by norm_num : (1 : ℚ) < 2)).1 h1
      change u + 1 ≤ FloatFormatEmax f
      omega

theorem overflow_eq (f : FloatFormat) : f.overflow = 2 ^ (FloatFormatEmax f + f.prec : ℤ) - 2 ^ (FloatFormatEmax f - 1 : ℤ) := by
  unfold FloatFormat.overflow FloatFormatEmax
  rw [show f.emin + 2 ^ f.expBits - 3 + f.prec = ((f.prec + 1 : ℕ) : ℤ) + (f.emin + 2 ^ f.expBits - 4) by push_cast; ring, zpow_add₀ (by norm_num), zpow_natCast]
  rw [show f.emin + 2 ^ f.expBits - 3 - 1 = f.emin + 2 ^ f.expBits - 4 by ring]
  ring

/-- Which numbers are too large. -/
theorem roundMag_overflow {f : FloatFormat} (hf : FormatOK f) {q : ℚ} (h0 : q ≠ 0) : 2 ^ (FloatFormatEmax f + f.prec : ℤ) ≤ roundMag f |q| ↔ f.overflow ≤ |q| := by
  obtain ⟨hu1, hu2, hu3⟩ := ulp_facts f hf h0
  have hp := hf.prec
  have hee := emin_le_emax hf
  rw [overflow_eq]
  unfold roundMag
  set u : ℤ := max f.emin (Int.log 2 |q| - (f.prec - 1 : ℕ)) with hu
  simp only
  generalize FloatFormatEmax f = E at *
  have hU : (0 : ℚ) < 2 ^ u := by positivity
  have hhalf : (2 : ℚ) ^ (E - 1) * 2 = 2 ^ E := by
    rw [← zpow_add_one₀ (by norm_num)]
    congr 1
    ring
  have hEp : (2 : ℚ) ^ (E + f.prec : ℤ) = 2 ^ f.prec * 2 ^ E := by rw [add_comm, zpow_add₀ (by norm_num), zpow_natCast]
  have hP : (4 : ℚ) ≤ 2 ^ f.prec := by
    calc (4 : ℚ) = 2 ^ 2 := by norm_num
      _ ≤ 2 ^ f.prec := pow_le_pow_right₀ (by norm_num) hp
  have hE0 : (0 : ℚ) < 2 ^ (E - 1) := by positivity
  rcases lt_trichotomy u E with hlt | heq | hgt
  · -- both false
    have h1 : |q| < 2 ^ (E + f.prec - 1 : ℤ) := hu2.trans_le (zpow_le_zpow_right₀ (by norm_num) (by omega))
    have h2 : (2 : ℚ) ^ (E + f.prec : ℤ) = 2 * 2 ^ (E + f.prec - 1 : ℤ) := by
      rw [mul_comm, ← zpow_add_one₀ (by norm_num)]
      congr 1
      ring
    have h3 : (2 : ℚ) ^ (E - 1) ≤ 2 ^ (E + f.prec - 1 : ℤ) := zpow_le_zpow_right₀ (by norm_num) (by omega)
    refine iff_of_false ?_ (by rw [h2]; linarith)
    rw [not_le]
    have hle : roundHalfEven (|q| / 2 ^ u) ≤ 2 ^ f.prec := by
      apply rhe_le
      rw [div_lt_iff₀ hU]
      have : |q| < 2 ^ f.prec * 2 ^ u := by
        rw [← zpow_natCast, ← zpow_add₀ (by norm_num), add_comm]
        exact hu2
      push_cast
      nlinarith
    have hle' : (roundHalfEven (|q| / 2 ^ u) : ℚ) ≤ 2 ^ f.prec := by exact_mod_cast hle
    calc (roundHalfEven (|q| / 2 ^ u) : ℚ) * 2 ^ u ≤ 2 ^ f.prec * 2 ^ u := mul_le_mul_of_nonneg_right hle' hU.le
      _ < 2 ^ f.prec * 2 ^ E := by
          refine mul_lt_mul_of_pos_left ?_ (by positivity)
          exact zpow_lt_zpow_right₀ (by norm_num) hlt
      _ = _ := hEp.symm
  · subst heq
    rw [hEp]
    constructor
    · intro h
      by_contra hc
      push Not at hc
      have hlt : roundHalfEven (|q| / 2 ^ u) ≤ 2 ^ f.prec - 1 := by
        apply rhe_le
        rw [div_lt_iff₀ hU]
        push_cast
        nlinarith
      have hlt' : (roundHalfEven (|q| / 2 ^ u) : ℚ) ≤ 2 ^ f.prec - 1 := by exact_mod_cast hlt
      have := le_of_mul_le_mul_right h hU
      linarith
    · intro h
      refine mul_le_mul_of_nonneg_right ?_ hU.le
      have hge : (2 : ℚ) ^ f.prec - 1 / 2 ≤ |q| / 2 ^ u := by
        rw [le_div_iff₀ hU]
        nlinarith
      have : 2 ^ f.prec ≤ roundHalfEven (|q| / 2 ^ u) := by
        rcases hge.lt_or_eq with hg | hg
        · apply rhe_ge
          push_cast
          exact hg
        · -- halfway, the even neighbour
          rw [← hg]
          have hfl : ⌊(2 : ℚ) ^ f.prec - 1 / 2⌋ = 2 ^ f.prec - 1 := by
            rw [Int.floor_eq_iff]
            push_cast
            constructor <;> linarith
          unfold roundHalfEven
          simp only [hfl]
          push_cast
          rw [if_neg (by linarith), if_neg (by linarith), if_neg]
          · linarith
          · have : (2 : ℤ) ^ f.prec = 2 * 2 ^ (f.prec - 1) := by
              rw [← pow_succ']
              congr 1
              omega
            omega
      exact_mod_cast this
  · -- both true
    rcases hu3 with h3 | h3
    · omega
    have hbig : (2 : ℚ) ^ (E + f.prec : ℤ) ≤ 2 ^ (u + f.prec - 1 : ℤ) := zpow_le_zpow_right₀ (by norm_num) (by omega)
    refine iff_of_true ?_ (by linarith)
    have hge : 2 ^ (f.prec - 1) ≤ roundHalfEven (|q| / 2 ^ u) := by
      apply rhe_ge
      have : (2 : ℚ) ^ (f.prec - 1) ≤ |q| / 2 ^ u := by
        rw [le_div_iff₀ hU, ← zpow_natCast, ← zpow_add₀ (by norm_num)]
        refine (le_of_eq ?_).trans h3
        congr 1
        push_cast [Nat.cast_sub (by omega : 1 ≤ f.prec)]
        ring
      push_cast
      linarith
    have hge' : (2 : ℚ) ^ (f.prec - 1) ≤ roundHalfEven (|q| / 2 ^ u) := by exact_mod_cast hge
    calc (2 : ℚ) ^ (E + f.prec : ℤ) ≤ 2 ^ (u + f.prec - 1 : ℤ) := hbig
      _ = 2 ^ (f.prec - 1) * 2 ^ u := by
          rw [← zpow_natCast, ← zpow_add₀ (by norm_num)]
          congr 1
          push_cast [Nat.cast_sub (by omega : 1 ≤ f.prec)]
          ring
      _ ≤ _ := mul_le_mul_of_nonneg_right hge' hU.le

theorem has_neg {f : FloatFormat} {q : ℚ} (h : f.Has q) : f.Has (-q) := by
  obtain ⟨m, e, hm, h1, h2, rfl⟩ := h
  exact ⟨-m, e, by rwa [abs_neg], h1, h2, by push_cast; ring⟩

theorem has_zero {f : FloatFormat} (hf : FormatOK f) : f.Has 0 := by
  have := emin_le_emax hf
  unfold FloatFormatEmax at this
  exact ⟨0, f.emin, by simp, le_rfl, by omega, by simp⟩

/-- The conversion is the one prescribed. -/
theorem roundTo_spec {f : FloatFormat} (hf : FormatOK f) (q : ℚ) : RoundsTo f q (roundTo f q) := by
  have hE := emin_le_emax hf
  by_cases h0 : q = 0
  · subst h0
    have hov : 0 < f.overflow := by
      rw [overflow_eq, sub_pos]
      apply zpow_lt_zpow_right₀ (by norm_num)
      have := hf.prec
      omega
    unfold roundTo
    rw [if_pos rfl]
    refine ⟨by simpa using hov, has_zero hf, by simp, fun s _ hne heq => ?_⟩
    simp at heq
    exact absurd heq hne
  rw [roundTo_eq f h0]
  by_cases hb : 2 ^ (FloatFormatEmax f + f.prec : ℤ) ≤ roundMag f |q|
  · rw [if_pos hb]
    exact ⟨(roundMag_overflow hf h0).1 hb, by simp⟩
  · rw [if_neg hb]
    have hov : |q| < f.overflow := by
      rw [← not_le, ← roundMag_overflow hf h0]
      exact hb
    have hhas := roundMag_has hf h0 (not_le.1 hb)
    by_cases hneg : q < 0
    · rw [if_pos hneg]
      have hq : q = -|q| := by rw [abs_of_neg hneg]; ring
      have habs : ∀ s : ℚ, |q - s| = abs (|q| - -s) := by
        intro s
        conv_lhs => rw [hq]
        rw [show -|q| - s = -(|q| - -s) by ring, abs_neg]
      refine ⟨hov, has_neg hhas, fun s hs => ?_, fun s hs hne heq => ?_⟩
      · rw [habs, habs, neg_neg]
        exact (roundMag_nearest hf h0 (has_neg hs)).1
      · rw [habs, habs, neg_neg] at heq
        obtain ⟨a, b, e, ha, hb'⟩ := (roundMag_nearest hf h0 (has_neg hs)).2 (fun h => hne (by rw [← h, neg_neg])) heq
        refine ⟨-a, -b - 1, e, by rw [ha]; push_cast; ring, ?_⟩
        rw [show s = -(-s) by ring, hb']
        push_cast
        ring
    · rw [if_neg hneg]
      have hq : |q| = q := abs_of_nonneg (not_lt.1 hneg)
      refine ⟨hov, hhas, fun s hs => ?_, fun s hs hne heq => ?_⟩
      · have := (roundMag_nearest hf h0 hs).1
        rwa [hq] at this ⊢
      · have := (roundMag_nearest hf h0 hs).2 hne
        rw [hq] at this heq ⊢
        exact this heq

/-- A multiple of twice a power of two is an odd multiple of a greater one only. -/
theorem even_odd {a b e e' : ℤ} (h : (2 * a * 2 ^ e : ℚ) = (2 * b + 1) * 2 ^ e') : e < e' := by
  by_contra hc
  push Not at hc
  have h1 : (2 * a * 2 ^ (e - e').toNat : ℚ) = 2 * b + 1 := by
    have h2 : (2 : ℚ) ^ e = 2 ^ (e - e').toNat * 2 ^ e' := by
      rw [← zpow_natCast, ← zpow_add₀ (by norm_num)]
      congr 1
      omega
    rw [h2, ← mul_assoc] at h
    exact mul_right_cancel₀ (by positivity) h
  have h3 : 2 * (a * 2 ^ (e - e').toNat) = 2 * b + 1 := by
    have : ((2 * a * 2 ^ (e - e').toNat : ℤ) : ℚ) = ((2 * b + 1 : ℤ) : ℚ) := by push_cast; exact h1
    have := Int.cast_injective this
    rw [← this]
    ring
  omega

/-- **C131**: there is only one such number. -/
theorem C131_unique {f : FloatFormat} {q : ℚ} {y z : PyFloat} (hy : RoundsTo f q y) (hz : RoundsTo f q z) : y = z := by
  cases y with
  | nan => exact absurd hy id
  | inf s =>
    cases z with
    | nan => exact absurd hz id
    | fin r => exact absurd hy.1 (not_le.2 hz.1)
    | inf s' =>
      congr 1
      have := hy.2.trans hz.2.symm
      cases s <;> cases s' <;> simp_all
  | fin r =>
    cases z with
    | nan => exact absurd hz id
    | inf s => exact absurd hz.1 (not_le.2 hy.1)
    | fin r' =>
      congr 1
      by_contra hne
      have h1 := hy.2.nearest r' hz.2.has
      have h2 := hz.2.nearest r hy.2.has
      obtain ⟨a, b, e, ha, hb⟩ := hy.2.even r' hz.2.has (Ne.symm hne) (le_antisymm h2 h1)
      obtain ⟨a', b', e', ha', hb'⟩ := hz.2.even r hy.2.has hne (le_antisymm h1 h2)
      have h3 := even_odd (ha.symm.trans hb')
      have h4 := even_odd (ha'.symm.trans hb)
      omega

/-- The limit is above the numbers of the format. -/
theorem has_below {f : FloatFormat} {q : ℚ} (h : f.Has q) : |q| < f.overflow := by
  obtain ⟨m, e, hm, h1, h2, rfl⟩ := h
  rw [abs_mul, abs_of_pos (show (0 : ℚ) < 2 ^ e by positivity)]
  have hm1 : |(m : ℚ)| ≤ 2 ^ f.prec - 1 := by
    have : |m| ≤ 2 ^ f.prec - 1 := by omega
    exact_mod_cast this
  have h3 : (2 : ℚ) ^ e ≤ 2 ^ (f.emin + 2 ^ f.expBits - 3 : ℤ) := zpow_le_zpow_right₀ (by norm_num) h2
  have h4 : (2 : ℚ) ^ (f.emin + 2 ^ f.expBits - 3 : ℤ) = 2 * 2 ^ (f.emin + 2 ^ f.expBits - 4 : ℤ) := by
    rw [mul_comm, ← zpow_add_one₀ (by norm_num)]
    congr 1
    ring
  have h5 : (0 : ℚ) < 2 ^ (f.emin + 2 ^ f.expBits - 4 : ℤ) := by positivity
  have h6 : (1 : ℚ) ≤ 2 ^ f.prec := one_le_pow₀ (by norm_num)
  unfold FloatFormat.overflow
  calc |(m : ℚ)| * 2 ^ e ≤ (2 ^ f.prec - 1) * (2 * 2 ^ (f.emin + 2 ^ f.expBits - 4 : ℤ)) := by
        rw [← h4]
        exact mul_le_mul hm1 h3 (by positivity) (by linarith)
    _ = (2 ^ (f.prec + 1) - 2) * 2 ^ (f.emin + 2 ^ f.expBits - 4 : ℤ) := by ring
    _ < _ := by nlinarith

/-- **C131**: a number of the format is kept. -/
theorem C131_kept {f : FloatFormat} (hf : FormatOK f) {q : ℚ} (h : f.Has q) : roundTo f q = .fin q := by
  refine C131_unique (roundTo_spec hf q) ⟨has_below h, h, by simp, fun s _ hne heq => ?_⟩
  rw [sub_self, abs_zero, abs_eq_zero, sub_eq_zero] at heq
  exact absurd heq.symm hne

/-- **C131**: the conversion does not change the order of numbers. -/
theorem C131_order {f : FloatFormat} {q q' r r' : ℚ} (h : RoundsTo f q (.fin r)) (h' : RoundsTo f q' (.fin r')) (hle : q ≤ q') : r ≤ r' := by
  by_contra hc
  push Not at hc
  have h1 := h.2.nearest r' h'.2.has
  have h2 := h'.2.nearest r h.2.has
  have h3 : (r + r') / 2 ≤ q := by
    rcases abs_cases (q - r) with ⟨a, b⟩ | ⟨a, b⟩ <;> rcases abs_cases (q - r') with ⟨c, d⟩ | ⟨c, d⟩ <;> rw [a, c] at h1 <;> linarith
  have h4 : q' ≤ (r + r') / 2 := by
    rcases abs_cases (q' - r) with ⟨a, b⟩ | ⟨a, b⟩ <;> rcases abs_cases (q' - r') with ⟨c, d⟩ | ⟨c, d⟩ <;> rw [a, c] at h2 <;> linarith
  have h5 : q = q' := by linarith
  subst h5
  have := C131_unique h h'
  rw [PyFloat.fin.injEq] at this
  linarith

/-- **C131**: the error of the conversion is at most half a unit of the last digit: `2⁻²⁴` of the number, or `2⁻¹⁵⁰` near zero. -/
theorem C131_error {q r : ℚ} (h : RoundsTo binary32 q (.fin r)) : |r - q| ≤ max (|q| / 2 ^ 24) (1 / 2 ^ 150) := by
  have h1 := C131_unique h (roundTo_spec binary32_ok q)
  by_cases h0 : q = 0
  · subst h0
    unfold roundTo at h1
    rw [if_pos rfl, PyFloat.fin.injEq] at h1
    rw [h1]
    simp
  rw [roundTo_eq _ h0] at h1
  split_ifs at h1 with hb hneg
  all_goals rw [PyFloat.fin.injEq] at h1
  all_goals
    have h2 : |r - q| = abs (|q| - roundMag binary32 |q|) := by
      first
      | (rw [h1, abs_of_neg hneg, show -roundMag binary32 (-q) - q = -q - roundMag binary32 (-q) by ring])
      | (rw [h1, abs_of_nonneg (not_lt.1 hneg), abs_sub_comm])
    rw [h2]
    obtain ⟨hu1, hu2, hu3⟩ := ulp_facts binary32 binary32_ok h0
    unfold roundMag
    set u : ℤ := max binary32.emin (Int.log 2 |q| - (binary32.prec - 1 : ℕ)) with hu
    simp only
    have hU : (0 : ℚ) < 2 ^ u := by positivity
    have h3 : abs (|q| - roundHalfEven (|q| / 2 ^ u) * 2 ^ u) ≤ 2 ^ u / 2 := by
      have e : |q| - roundHalfEven (|q| / 2 ^ u) * 2 ^ u = (|q| / 2 ^ u - roundHalfEven (|q| / 2 ^ u)) * 2 ^ u := by field_simp
      rw [e, abs_mul, abs_of_pos hU]
      have := rhe_err (|q| / 2 ^ u)
      rw [abs_sub_comm] at this
      nlinarith
    refine h3.trans ?_
    rcases hu3 with h4 | h4
    · refine le_max_of_le_right ?_
      rw [h4, show binary32.emin = -149 by decide]
      norm_num
    · refine le_max_of_le_left ?_
      rw [show u + (binary32.prec : ℤ) - 1 = u + (23 : ℕ) by simp [binary32]; ring, zpow_add₀ (by norm_num), zpow_natCast] at h4
      rw [div_le_div_iff₀ (by norm_num) (by norm_num)]
      nlinarith

/-! ## Samples in files -/

/-- The types that are modelled. -/
def TypeOK : SampleType → Prop
  | .float f => FormatOK f
  | .int _ n => 1 ≤ n

theorem type_size_pos {t : SampleType} (h : TypeOK t) : 0 < t.size := by
  cases t with
  | float f =>
    have := h.size
    have := h.prec
    simp only [SampleType.size]
    omega
  | int s n => exact h

theorem storeSample_length (t : SampleType) (q : ℚ) : (storeSample t q).length = t.size := by
  cases t <;> exact leBytes_length _ _

/-- A stored number is read again. -/
theorem decode_store {t : SampleType} (ht : TypeOK t) {q : ℚ} (h : SampleHas t q) : t.decode (storeSample t q) = .fin q := by
  cases t with
  | float f =>
    obtain ⟨h3, h4⟩ := value_floatBits ht h
    simp only [SampleType.decode, storeSample]
    rw [leNat_leBytes _ _ h4, h3]
  | int signed n =>
    have hn : 1 ≤ n := ht
    have h256 : (256 : ℕ) ^ n = 2 ^ (8 * n) := by rw [show (256 : ℕ) = 2 ^ 8 by norm_num, ← pow_mul]
    have hpp : (2 : ℤ) ^ (8 * n) = 2 * 2 ^ (8 * n - 1) := by
      rw [← pow_succ']
      congr 1
      omega
    have hP : (0 : ℤ) < 2 ^ (8 * n - 1) := by positivity
    have key : ∀ i : ℤ, leNat (leBytes n (i % 2 ^ (8 * n)).toNat) = (i % 2 ^ (8 * n)).toNat := by
      intro i
      apply leNat_leBytes
      rw [h256]
      have h1 := Int.emod_lt_of_pos i (show (0 : ℤ) < 2 ^ (8 * n) by positivity)
      have h2 := Int.emod_nonneg i (show (2 : ℤ) ^ (8 * n) ≠ 0 by positivity)
      zify
      rw [Int.toNat_of_nonneg h2]
      exact h1
    have hcast : ((2 ^ (8 * n - 1) : ℕ) : ℤ) = 2 ^ (8 * n - 1) := by push_cast; rfl
    cases signed with
    | true =>
      obtain ⟨i, rfl, h1, h2⟩ := h
      simp only [SampleType.decode, storeSample, Rat.num_intCast, key, true_and]
      congr 2
      rcases lt_or_ge i 0 with hi | hi
      · have hm : i % 2 ^ (8 * n) = i + 2 ^ (8 * n) := by
          rw [← Int.add_emod_right, Int.emod_eq_of_lt] <;> omega
        rw [hm, if_pos (by zify; rw [Int.toNat_of_nonneg (by omega)]; omega), Int.toNat_of_nonneg (by omega)]
        ring
      · rw [Int.emod_eq_of_lt hi (by omega), if_neg (by zify; rw [Int.toNat_of_nonneg hi]; omega), Int.toNat_of_nonneg hi]
    | false =>
      obtain ⟨i, rfl, h1, h2⟩ := h
      simp only [SampleType.decode, storeSample, Rat.num_intCast, key, Bool.false_eq_true, false_and, if_false]
      rw [Int.emod_eq_of_lt h1 h2, Int.toNat_of_nonneg h1]

theorem elems_cons (t : SampleType) (n : ℕ) {chunk : List UInt8} (hc : chunk.length = t.size) (l : List UInt8) :
    t.elems (n + 1) (chunk ++ l) = t.decode chunk :: t.elems n l := by
  unfold SampleType.elems
  rw [List.range_succ_eq_map, List.map_cons, List.map_map, zero_mul, List.drop_zero, List.take_left' hc]
  congr 1
  apply List.map_congr_left
  intro i _
  simp only [Function.comp_apply]
  congr 2
  rw [show (i + 1) * t.size = chunk.length + i * t.size by rw [hc]; ring, List.drop_length_add_append]

/-- The elements of stored numbers. -/
theorem elems_store {t : SampleType} (ht : TypeOK t) (tail : List UInt8) : ∀ l : List ℚ, (∀ q ∈ l, SampleHas t q) → t.elems l.length (storeSamples t l ++ tail) = l.map .fin
  | [], _ => rfl
  | q :: l, h => by
    unfold storeSamples
    rw [List.flatMap_cons, List.append_assoc, List.length_cons, elems_cons _ _ (storeSample_length _ _), decode_store ht (h q (by simp)), List.map_cons]
    congr 1
    exact elems_store ht tail l fun q hq => h q (by simp [hq])

theorem storeSamples_length (t : SampleType) (l : List ℚ) : (storeSamples t l).length = l.length * t.size := by
  unfold storeSamples
  induction l with
  | nil => simp
  | cons a l ih => rw [List.flatMap_cons, List.length_append, ih, storeSample_length, List.length_cons]; ring

theorem fromfile_store {t : SampleType} (ht : TypeOK t) {tail : List UInt8} (htail : tail.length < t.size) {l : List ℚ} (h : ∀ q ∈ l, SampleHas t q) :
    fromfile t (storeSamples t l ++ tail) = l.map .fin := by
  unfold fromfile
  rw [List.length_append, storeSamples_length, mul_comm, Nat.mul_add_div (type_size_pos ht), Nat.div_eq_of_lt htail, add_zero]
  exact elems_store ht tail l h

/-- A series has the nearest single precision numbers. -/
theorem series_rounds (l : List ℚ) (tsamp : PyFloat) : List.Forall₂ (RoundsTo binary32) l (seriesOfArray (l.map .fin) tsamp).data := by
  unfold seriesOfArray
  simp only [List.map_map]
  rw [List.forall₂_map_right_iff, List.forall₂_same]
  intro q _
  exact roundTo_spec binary32_ok q

/-- **C131**: `from_binary` of a file with numbers of a type makes a series with as many samples, each the single precision number nearest to the number in the file; the duration is that of the samples.
An incomplete number at the end of the file does no harm. -/
theorem C131_binary {t : SampleType} (ht : TypeOK t) {tail : List UInt8} (htail : tail.length < t.size) {l : List ℚ} (h : ∀ q ∈ l, SampleHas t q) (tsamp : PyFloat) :
    ∃ s, fromBinary (some (storeSamples t l ++ tail)) tsamp t = .ok s ∧ List.Forall₂ (RoundsTo binary32) l s.data ∧ s.tsamp = tsamp ∧ s.tobs = tsamp.mulInt l.length := by
  refine ⟨_, rfl, ?_, rfl, ?_⟩
  · rw [fromfile_store ht htail h]
    exact series_rounds l tsamp
  · rw [fromfile_store ht htail h]
    simp [seriesOfArray]

/-- **C131**: numbers that single precision can hold are kept, whatever the type of the file. -/
theorem C131_exact {t : SampleType} (ht : TypeOK t) {tail : List UInt8} (htail : tail.length < t.size) {l : List ℚ} (h : ∀ q ∈ l, SampleHas t q) (hs : ∀ q ∈ l, binary32.Has q)
    (tsamp : PyFloat) : ∃ s, fromBinary (some (storeSamples t l ++ tail)) tsamp t = .ok s ∧ s.data = l.map .fin := by
  refine ⟨_, rfl, ?_⟩
  rw [fromfile_store ht htail h]
  unfold seriesOfArray
  simp only [List.map_map]
  apply List.map_congr_left
  intro q hq
  exact C131_kept binary32_ok (hs q hq)

/-- **C131**: among them are the whole numbers up to 2²⁴, hence all numbers of 8 and 16 bits. -/
theorem C131_whole {i : ℤ} (h : |i| ≤ 2 ^ 24) : binary32.Has (i : ℚ) := by
  have e1 : binary32.emin = -149 := by decide
  rcases h.lt_or_eq with hlt | heq
  · exact ⟨i, 0, hlt, by rw [e1]; norm_num, by rw [e1]; norm_num [binary32], by simp⟩
  · rcases abs_eq (by norm_num) |>.1 heq with rfl | rfl
    · exact ⟨2 ^ 23, 1, by norm_num [binary32], by rw [e1]; norm_num, by rw [e1]; norm_num [binary32], by norm_num⟩
    · exact ⟨-2 ^ 23, 1, by norm_num [binary32], by rw [e1]; norm_num, by rw [e1]; norm_num [binary32], by norm_num⟩

theorem C131_short {signed : Bool} {n : ℕ} (hn : n ≤ 2) {q : ℚ} (h : SampleHas (.int signed n) q) : binary32.Has q := by
  have h1 : (2 : ℤ) ^ (8 * n) ≤ 2 ^ 16 := pow_le_pow_right₀ (by norm_num) (by omega)
  have h2 : (2 : ℤ) ^ (8 * n - 1) ≤ 2 ^ 16 := pow_le_pow_right₀ (by norm_num) (by omega)
  cases signed with
  | true =>
    obtain ⟨i, rfl, ha, hb⟩ := h
    exact C131_whole (by rw [abs_le]; constructor <;> omega)
  | false =>
    obtain ⟨i, rfl, ha, hb⟩ := h
    exact C131_whole (by rw [abs_le]; constructor <;> omega)

/-- The bits of a format stand for a number of the format, or are special. -/
theorem value_has {f : FloatFormat} (hf : FormatOK f) {n : ℕ} {q : ℚ} (h : f.value n = .fin q) : f.Has q := by
  have hp := hf.prec
  have hw := hf.exp
  have hE : 4 ≤ 2 ^ f.expBits := by
    calc 4 = 2 ^ 2 := by norm_num
      _ ≤ 2 ^ f.expBits := Nat.pow_le_pow_right (by norm_num) hw
  have hEz : (4 : ℤ) ≤ 2 ^ f.expBits := by exact_mod_cast hE
  have hPP : 2 ^ f.prec = 2 * 2 ^ (f.prec - 1) := by
    rw [← pow_succ']
    congr 1
    omega
  unfold FloatFormat.value at h
  simp only at h
  have hk := Nat.mod_lt (n / 2 ^ (f.prec - 1)) (show 0 < 2 ^ f.expBits by positivity)
  have hm := Nat.mod_lt n (show 0 < 2 ^ (f.prec - 1) by positivity)
  generalize n / 2 ^ (f.prec - 1) % 2 ^ f.expBits = k at *
  generalize n % 2 ^ (f.prec - 1) = m at *
  by_cases hk1 : k = 2 ^ f.expBits - 1
  · rw [if_pos hk1] at h
    split_ifs at h
  · rw [if_neg hk1, PyFloat.fin.injEq] at h
    have hb : ((if k = 0 then m else 2 ^ (f.prec - 1) + m : ℕ) : ℤ) < 2 ^ f.prec := by
      have : (if k = 0 then m else 2 ^ (f.prec - 1) + m : ℕ) < 2 ^ f.prec := by split_ifs <;> omega
      exact_mod_cast this
    have hkz : ((k - 1 : ℕ) : ℤ) ≤ 2 ^ f.expBits - 3 := by
      have : k - 1 + 3 ≤ 2 ^ f.expBits := by omega
      have h3 : ((k - 1 + 3 : ℕ) : ℤ) ≤ ((2 ^ f.expBits : ℕ) : ℤ) := by exact_mod_cast this
      push_cast at h3 ⊢
      omega
    generalize (if k = 0 then m else 2 ^ (f.prec - 1) + m : ℕ) = c at *
    split_ifs at h
    · exact ⟨-c, f.emin + (k - 1 : ℕ), by simpa using hb, by omega, by omega, by rw [← h]; push_cast; ring⟩
    · exact ⟨c, f.emin + (k - 1 : ℕ), by simpa using hb, by omega, by omega, by rw [← h]; push_cast; ring⟩

theorem cast_value {f : FloatFormat} (hf : FormatOK f) (n : ℕ) : castTo f (f.value n) = f.value n := by
  cases h : f.value n with
  | fin q => exact C131_kept hf (value_has hf h)
  | inf s => rfl
  | nan => rfl

/-- **C131**: with the default type every sample is the number that the four bytes stand for, be it infinite or NaN, whatever is in the file. -/
theorem C131_bits (bytes : List UInt8) (tsamp : PyFloat) :
    ∃ s, fromBinary (some bytes) tsamp (.float binary32) = .ok s ∧ s.data.length = bytes.length / 4 ∧
      ∀ i, i < bytes.length / 4 → s.data[i]? = some (binary32.value (leNat ((bytes.drop (i * 4)).take 4))) := by
  refine ⟨_, rfl, by simp [seriesOfArray, fromfile, SampleType.elems]; rfl, fun i hi => ?_⟩
  have hs : (SampleType.float binary32).size = 4 := rfl
  simp only [seriesOfArray, fromfile, SampleType.elems, hs, List.map_map]
  rw [List.getElem?_map, List.getElem?_range hi, Option.map_some, Function.comp_apply]
  simp only [SampleType.decode]
  rw [cast_value binary32_ok]

/-! ## `.npy` files -/

theorem stripPrefix_append (p s : List Char) : stripPrefix p (p ++ s) = some s := by
  induction p with
  | nil => rfl
  | cons a p ih => simp [stripPrefix, ih]

theorem takeWhile_append_stop {p : Char → Bool} {a : List Char} {c : Char} {s : List Char} (ha : ∀ x ∈ a, p x = true) (hc : p c = false) : (a ++ c :: s).takeWhile p = a := by
  induction a with
  | nil => simp [hc]
  | cons x a ih => simp [ha x (by simp), ih fun y hy => ha y (by simp [hy])]

theorem natText_digits (n : ℕ) : ∀ c ∈ natText n, c ≠ ',' ∧ c.toNat < 128 := by
  obtain ⟨ds, -, hd, hs, -⟩ := padDigits_text 1 n one_pos
  intro c hc
  rw [show natText n = ds.map Nat.digitChar from hs, List.mem_map] at hc
  obtain ⟨d, hd', rfl⟩ := hc
  have := hd d hd'
  interval_cases d <;> decide

/-- The header that is written is read. -/
theorem readNpyHeader_ok {descr : String} (hd : ∀ c ∈ descr.toList, c ≠ '\'') (n pad : ℕ) :
    readNpyHeader (npyHeader descr n ++ (List.replicate pad ' ' ++ ['\n'])) = some (descr, n) := by
  have hdig : digitsVal (natText n) = some n := (padDigits_text 1 n one_pos).val
  unfold readNpyHeader npyHeader
  rw [List.append_assoc, stripPrefix_append, Option.bind_some]
  have e1 : (descr.toList ++ ("', 'fortran_order': False, 'shape': (".toList ++ (natText n ++ ",), }".toList)) ++ (List.replicate pad ' ' ++ ['\n'])).takeWhile (· ≠ '\'') = descr.toList := by
    rw [List.append_assoc]
    exact takeWhile_append_stop (c := '\'') (fun x hx => by simpa using hd x hx) (by simp)
  simp only [e1]
  rw [List.append_assoc, List.drop_left, List.append_assoc, stripPrefix_append, Option.bind_some]
  have e2 : (natText n ++ ",), }".toList ++ (List.replicate pad ' ' ++ ['\n'])).takeWhile (· ≠ ',') = natText n := by
    rw [List.append_assoc]
    exact takeWhile_append_stop (c := ',') (fun x hx => by simpa using (natText_digits n x hx).1) (by simp)
  simp only [e2, hdig, Option.bind_some]
  rw [List.append_assoc, List.drop_left, stripPrefix_append, Option.bind_some, if_pos]
  · simp
  · rw [List.all_append, Bool.and_eq_true]
    refine ⟨?_, by decide⟩
    rw [List.all_eq_true]
    intro c hc
    rw [List.eq_of_mem_replicate hc]
    decide

theorem asciiBytes_back {s : List Char} (h : ∀ c ∈ s, c.toNat < 128) : (asciiBytes s).map (fun x => Char.ofNat x.toNat) = s := by
  unfold asciiBytes
  rw [List.map_map]
  conv_rhs => rw [← List.map_id s]
  apply List.map_congr_left
  intro c hc
  have := h c hc
  simp only [Function.comp_apply, id_eq]
  rw [UInt8.toNat_ofNat', Nat.mod_eq_of_lt (by omega), Char.ofNat_toNat]

theorem header_ascii {descr : String} (hd : ∀ c ∈ descr.toList, c.toNat < 128) (n pad : ℕ) : ∀ c ∈ npyHeader descr n ++ (List.replicate pad ' ' ++ ['\n']), c.toNat < 128 := by
  intro c hc
  unfold npyHeader at hc
  simp only [List.mem_append] at hc
  have h1 : ∀ c ∈ "{'descr': '".toList, c.toNat < 128 := by decide
  have h2 : ∀ c ∈ "', 'fortran_order': False, 'shape': (".toList, c.toNat < 128 := by decide
  have h3 : ∀ c ∈ ",), }".toList, c.toNat < 128 := by decide
  rcases hc with (h | h | h | h | h) | h | h
  · exact h1 c h
  · exact hd c h
  · exact h2 c h
  · exact (natText_digits n c h).2
  · exact h3 c h
  · rw [List.eq_of_mem_replicate h]; decide
  · rw [List.mem_singleton.1 h]; decide

theorem npyTypes_ok : ∀ x ∈ npyTypes, TypeOK x.2 ∧ npyTypes.lookup x.1 = some x.2 ∧ (∀ c ∈ x.1.toList, c ≠ '\'' ∧ c.toNat < 128) := by
  intro x hx
  simp only [npyTypes, List.mem_cons, List.not_mem_nil, or_false] at hx
  rcases hx with rfl | rfl | rfl | rfl | rfl | rfl | rfl | rfl | rfl | rfl
  all_goals refine ⟨?_, by rfl, by decide⟩
  · exact binary32_ok
  · exact binary64_ok
  all_goals simp [TypeOK]

theorem npyTypes_mem {t : SampleType} (h : NumpyType t) : (typeCode t, t) ∈ npyTypes := by
  rcases h with rfl | rfl | ⟨s, n, hn, rfl⟩
  · exact .head _
  · exact .tail _ (.head _)
  · simp only [List.mem_cons, List.not_mem_nil, or_false] at hn
    have e : ∀ (a : String) (x : SampleType), (a, x) ∈ npyTypes → ∀ b : String, b = a → (b, x) ∈ npyTypes := by
      rintro a x h b rfl
      exact h
    rcases hn with rfl | rfl | rfl | rfl <;> cases s
    · exact e "|u1" _ (by unfold npyTypes; simp only [List.mem_cons, true_or, or_true]) _ (by decide +kernel)
    · exact e "|i1" _ (by unfold npyTypes; simp only [List.mem_cons, true_or, or_true]) _ (by decide +kernel)
    · exact e "<u2" _ (by unfold npyTypes; simp only [List.mem_cons, true_or, or_true]) _ (by decide +kernel)
    · exact e "<i2" _ (by unfold npyTypes; simp only [List.mem_cons, true_or, or_true]) _ (by decide +kernel)
    · exact e "<u4" _ (by unfold npyTypes; simp only [List.mem_cons, true_or, or_true]) _ (by decide +kernel)
    · exact e "<i4" _ (by unfold npyTypes; simp only [List.mem_cons, true_or, or_true]) _ (by decide +kernel)
    · exact e "<u8" _ (by unfold npyTypes; simp only [List.mem_cons, true_or, or_true]) _ (by decide +kernel)
    · exact e "<i8" _ (by unfold npyTypes; simp only [List.mem_cons, true_or, or_true]) _ (by decide +kernel)

/-- What the file is read as, up to the elements. -/
theorem npyLoad_save {descr : String} {t : SampleType} (ht : (descr, t) ∈ npyTypes) {n pad : ℕ} (hpad : (npyHeader descr n).length + pad < 65535) (elems : List UInt8) :
    npyLoad (npySave descr n pad elems) = if elems.length < n * t.size then .error .valueError else .ok (t.elems n elems) := by
  obtain ⟨h1, h2, h3⟩ := npyTypes_ok _ ht
  simp only at h2 h3
  have hlen : (asciiBytes (npyHeader descr n ++ (List.replicate pad ' ' ++ ['\n']))).length = (npyHeader descr n).length + pad + 1 := by
    simp [asciiBytes, add_assoc]
  have hback := asciiBytes_back (header_ascii (fun c hc => (h3 c hc).2) n pad)
  have hread := readNpyHeader_ok (fun c hc => (h3 c hc).1) n pad
  unfold npySave npyLoad
  simp only
  generalize asciiBytes (npyHeader descr n ++ (List.replicate pad ' ' ++ ['\n'])) = header at *
  have hm : ∀ l : List UInt8, (npyMagic ++ l) ≠ [] ∧ (npyMagic ++ l).take 2 ≠ [0x50, 0x4B] ∧ (npyMagic ++ l).take 6 = npyMagic.take 6 ∧ (npyMagic ++ l).take 8 = npyMagic ∧
      (npyMagic ++ l).drop 8 = l := by
    intro l
    refine ⟨by simp [npyMagic], by simp [npyMagic], rfl, rfl, rfl⟩
  obtain ⟨a1, a2, a3, a4, a5⟩ := hm (UInt8.ofNat (header.length % 256) :: UInt8.ofNat (header.length / 256) :: (header ++ elems))
  rw [if_neg (by tauto), if_neg (by simpa using a3), if_neg (by simpa using a4), a5]
  simp only
  have hl : (UInt8.ofNat (header.length % 256)).toNat + 256 * (UInt8.ofNat (header.length / 256)).toNat = header.length := by
    rw [UInt8.toNat_ofNat', UInt8.toNat_ofNat']
    norm_num
    omega
  rw [hl, if_neg (by simp), List.take_left, List.drop_left, hback, hread]
  simp only [h2]

/-- **C131**: `from_npy_file` of a file saved with `np.save` makes the series that the array itself makes. -/
theorem C131_npy {t : SampleType} (ht : NumpyType t) {pad : ℕ} {l : List ℚ} (hl : ∀ q ∈ l, SampleHas t q)
    (hpad : (npyHeader (typeCode t) l.length).length + pad < 65535) (tsamp : PyFloat) :
    ∃ s, fromNpyFile (some (npySave (typeCode t) l.length pad (storeSamples t l))) tsamp = .ok s ∧ s = seriesOfArray (l.map .fin) tsamp ∧
      List.Forall₂ (RoundsTo binary32) l s.data ∧ s.tsamp = tsamp ∧ s.tobs = tsamp.mulInt l.length := by
  refine ⟨seriesOfArray (l.map .fin) tsamp, ?_, rfl, series_rounds l tsamp, rfl, by simp [seriesOfArray]⟩
  unfold fromNpyFile
  simp only
  rw [npyLoad_save (npyTypes_mem ht) hpad, if_neg (by rw [storeSamples_length]; omega)]
  have := elems_store (npyTypes_ok _ (npyTypes_mem ht)).1 [] l hl
  rw [List.append_nil] at this
  simp only at this
  rw [this]
  rfl

/-- **C131**: a `.npy` file that lacks bytes at its end is refused, while a raw file is read up to its end. -/
theorem C131_npy_cut {t : SampleType} (ht : NumpyType t) {n pad : ℕ} (hpad : (npyHeader (typeCode t) n).length + pad < 65535) {elems : List UInt8}
    (h : elems.length < n * t.size) (tsamp : PyFloat) : fromNpyFile (some (npySave (typeCode t) n pad elems)) tsamp = .error .valueError := by
  unfold fromNpyFile
  simp only
  rw [npyLoad_save (npyTypes_mem ht) hpad, if_pos h]
  rfl

/-! ## The other loaders -/

theorem fromfile_cons {t : SampleType} {chunk : List UInt8} (hc : chunk.length = t.size) (h0 : 0 < t.size) (l : List UInt8) :
    fromfile t (chunk ++ l) = t.decode chunk :: fromfile t l := by
  unfold fromfile
  rw [List.length_append, hc, Nat.add_div_left _ h0]
  exact elems_cons t _ hc l

theorem readFloat32_values : ∀ (n : ℕ) (b : List UInt8), b.length = n → (readFloat32 b).map RawSample.value = fromfile (.float binary32) b := by
  intro n
  induction n using Nat.strong_induction_on with
  | _ n ih =>
    intro l hl
    match l, hl with
    | [], hl => rfl
    | [_], hl => simp [readFloat32, fromfile, SampleType.elems, SampleType.size, FloatFormat.size, binary32]
    | [_, _], hl => simp [readFloat32, fromfile, SampleType.elems, SampleType.size, FloatFormat.size, binary32]
    | [_, _, _], hl => simp [readFloat32, fromfile, SampleType.elems, SampleType.size, FloatFormat.size, binary32]
    | a :: b :: c :: d :: l, hl =>
      simp only [List.length_cons] at hl
      simp only [readFloat32, List.map_cons]
      have := fromfile_cons (t := .float binary32) (chunk := [a, b, c, d]) (by simp [SampleType.size, FloatFormat.size, binary32]) (by simp [SampleType.size, FloatFormat.size, binary32]) l
      rw [show a :: b :: c :: d :: l = [a, b, c, d] ++ l from rfl, this, ih l.length (by omega) l rfl]
      rfl

theorem readInt8_values (signed : Bool) (b : List UInt8) : (readInt8 signed b).map RawSample.value = fromfile (.int signed 1) b := by
  induction b with
  | nil => simp [readInt8, fromfile, SampleType.elems, SampleType.size]
  | cons a l ih =>
    have := fromfile_cons (t := .int signed 1) (chunk := [a]) rfl (by simp [SampleType.size]) l
    rw [show a :: l = [a] ++ l from rfl, this, ← ih]
    simp [readInt8, SampleType.decode, leNat, RawSample.value]

theorem decode_short {signed : Bool} (b : List UInt8) (hb : b.length ≤ 1) : ∃ i : ℤ, (SampleType.int signed 1).decode b = .fin i ∧ |i| ≤ 2 ^ 24 := by
  refine ⟨_, rfl, ?_⟩
  have h : leNat b < 256 := by
    match b, hb with
    | [], _ => decide
    | [a], _ => simpa [leNat] using a.toNat_lt
  rw [abs_le]
  constructor <;> split_ifs <;> omega

theorem cast_fromfile_float (b : List UInt8) : (fromfile (.float binary32) b).map (castTo binary32) = fromfile (.float binary32) b := by
  conv_rhs => rw [← List.map_id (fromfile (.float binary32) b)]
  apply List.map_congr_left
  intro y hy
  unfold fromfile SampleType.elems at hy
  obtain ⟨i, -, rfl⟩ := List.mem_map.1 hy
  exact cast_value binary32_ok _

theorem cast_fromfile_int (signed : Bool) (b : List UInt8) : (fromfile (.int signed 1) b).map (castTo binary32) = fromfile (.int signed 1) b := by
  conv_rhs => rw [← List.map_id (fromfile (.int signed 1) b)]
  apply List.map_congr_left
  intro y hy
  unfold fromfile SampleType.elems at hy
  obtain ⟨i, -, rfl⟩ := List.mem_map.1 hy
  obtain ⟨j, hj, hj2⟩ := decode_short (signed := signed) ((b.drop (i * 1)).take 1) (by simp)
  simp only [SampleType.size, id_eq]
  rw [hj]
  exact C131_kept binary32_ok (C131_whole hj2)

/-- **C131**: the series of a PRESTO file has the samples that `from_binary` reads from the data file. -/
theorem C131_presto {parseSky : PyVal → PyVal → Except PyErr (PyFloat × PyFloat)} {files : List Char → Option (List UInt8)} {text fname : List Char} {ts : LoadedSeries}
    (h : timeSeriesFromPresto parseSky files text fname = .ok ts) :
    ∃ s, fromBinary (files (dataFname fname)) ts.tsamp (.float binary32) = .ok s ∧ ts.samples.map RawSample.value = s.data ∧
      dictGet ts.metadata (.str "tobs") = some (.float s.tobs) := by
  obtain ⟨inf, bytes, -, h1, h2, -, h3⟩ := C53_loads h
  rw [h1]
  refine ⟨_, rfl, ?_, ?_⟩
  · rw [h2, readFloat32_values _ _ rfl]
    exact (cast_fromfile_float bytes).symm
  · rw [h3, h2]
    have := congrArg List.length (readFloat32_values _ bytes rfl)
    rw [List.length_map] at this
    simp only [seriesOfArray, this]

/-- **C131**: the series of a SIGPROC file has the samples that `from_binary` reads from the part of the file after the header, as single precision numbers or as integers of 8 bits with or without a
sign. -/
theorem C131_sigproc {f : List UInt8} {extraKeys : PyDict String SigType} {fname : String} {ts : LoadedSeries} (h : timeSeriesFromSigproc f extraKeys fname = .ok ts) :
    ∃ hd s, sigHeader f extraKeys = .ok hd ∧
      ((∃ v, dictGet hd.attrs "nbits" = some v ∧ v.asInt = .ok 8 ∧ ∃ sg, dictGet hd.attrs "signed" = some sg ∧
          fromBinary (some (f.drop hd.bytesize)) ts.tsamp (.int sg.truth 1) = .ok s) ∨
        (∃ v n, dictGet hd.attrs "nbits" = some v ∧ v.asInt = .ok n ∧ n ≠ 8 ∧ fromBinary (some (f.drop hd.bytesize)) ts.tsamp (.float binary32) = .ok s)) ∧
      ts.samples.map RawSample.value = s.data := by
  unfold timeSeriesFromSigproc at h
  obtain ⟨hd, hhd, h⟩ := bind_ok_inv h
  obtain ⟨md, -, h⟩ := bind_ok_inv h
  obtain ⟨samples, hs, h⟩ := bind_ok_inv h
  obtain ⟨v, -, h⟩ := bind_ok_inv h
  obtain ⟨tsamp, -, h⟩ := bind_ok_inv h
  obtain ⟨md', -, h⟩ := map_ok_inv h
  have hsamp : ts.samples = samples := by rw [← h]
  unfold loadSigproc at hs
  obtain ⟨nb, hnb, hs⟩ := bind_ok_inv hs
  obtain ⟨n, hn, hs⟩ := bind_ok_inv hs
  split_ifs at hs with h8
  · subst h8
    obtain ⟨sg, hsg, hs⟩ := map_ok_inv hs
    refine ⟨hd, _, hhd, .inl ⟨nb, dictItem_ok hnb, hn, sg, dictItem_ok hsg, rfl⟩, ?_⟩
    rw [hsamp, ← hs, readInt8_values]
    exact (cast_fromfile_int _ _).symm
  · refine ⟨hd, _, hhd, .inr ⟨nb, n, dictItem_ok hnb, hn, h8, rfl⟩, ?_⟩
    rw [hsamp, ← Except.ok.inj hs, readFloat32_values _ _ rfl]
    exact (cast_fromfile_float _).symm

/-! ## Numbers that are not kept -/

/-- **C131**: single precision cannot hold every number of the other types: of the integers of 32 bits, 16777217 becomes 16777216; of the double precision numbers, 2¹²⁸ becomes infinite. -/
theorem C131_not_kept (tsamp : PyFloat) :
    fromBinary (some (storeSamples (.int true 4) [16777217, -3])) tsamp (.int true 4) = .ok { data := [.fin 16777216, .fin (-3)], tsamp, tobs := tsamp.mulInt 2 } ∧
    SampleHas (.int true 4) 16777217 ∧ binary64.Has (2 ^ 128) ∧ castTo binary32 (.fin (2 ^ 128)) = .inf false := by
  have h1 : SampleHas (.int true 4) 16777217 := ⟨16777217, by norm_num, by norm_num, by norm_num⟩
  have h2 : SampleHas (.int true 4) (-3) := ⟨-3, by norm_num, by norm_num, by norm_num⟩
  refine ⟨?_, h1, ⟨1, 128, by norm_num [binary64], by norm_num [binary64, FloatFormat.emin], by norm_num [binary64, FloatFormat.emin], by norm_num⟩, by decide +kernel⟩
  have h := fromfile_store (t := .int true 4) (tail := []) (by norm_num [TypeOK]) (by norm_num [SampleType.size]) (l := [16777217, -3]) (by simp [h1, h2])
  rw [List.append_nil] at h
  simp only [fromBinary, seriesOfArray, h]
  have e1 : castTo binary32 (.fin 16777217) = .fin 16777216 := by decide +kernel
  have e2 : castTo binary32 (.fin (-3)) = .fin (-3) := by decide +kernel
  simp [e1, e2]

/-- A double precision number between two single precision numbers, and a number that is exactly between two: the nearer one, and the even one. -/
example : binary64.Has (1 + 1 / 2 ^ 24 + 1 / 2 ^ 52) ∧ castTo binary32 (.fin (1 + 1 / 2 ^ 24 + 1 / 2 ^ 52)) = .fin (1 + 1 / 2 ^ 23) ∧ castTo binary32 (.fin (1 + 1 / 2 ^ 24)) = .fin 1 ∧
    castTo binary32 (.fin (1 + 3 / 2 ^ 24)) = .fin (1 + 2 / 2 ^ 23) ∧ castTo binary32 (.fin (-5 / 2 ^ 150)) = .fin (-2 / 2 ^ 149) := by
  refine ⟨⟨2 ^ 52 + 2 ^ 28 + 1, -52, by norm_num [binary64], by norm_num [binary64, FloatFormat.emin], by norm_num [binary64, FloatFormat.emin], by norm_num⟩, ?_, ?_, ?_, ?_⟩ <;> decide +kernel

/-- The types and the numbers of `C131_binary` and `C131_npy`. -/
example : TypeOK (.float binary64) ∧ ([] : List UInt8).length < (SampleType.float binary64).size ∧ (∀ q ∈ [(1 : ℚ), -3 / 4], SampleHas (.float binary64) q) ∧
    (∀ q ∈ [(1 : ℚ), -3 / 4], binary32.Has q) ∧ NumpyType (.float binary64) ∧ (npyHeader (typeCode (.float binary64)) 2).length + 61 < 65535 := by
  have h (q : ℚ) (hq : q ∈ [(1 : ℚ), -3 / 4]) : binary32.Has q ∧ binary64.Has q := by
    simp only [List.mem_cons, List.not_mem_nil, or_false] at hq
    rcases hq with rfl | rfl
    · exact has_small 1024 (by norm_num) (by norm_num)
    · exact has_small (-768) (by norm_num) (by norm_num)
  refine ⟨binary64_ok, by decide, fun q hq => (h q hq).2, fun q hq => (h q hq).1, .inr (.inl rfl), by decide +kernel⟩

/-- The first bytes of a file. -/
example : npySave "<f4" 12 0 [] = [0x93, 0x4E, 0x55, 0x4D, 0x50, 0x59, 1, 0, 59, 0] ++ asciiBytes "{'descr': '<f4', 'fortran_order': False, 'shape': (12,), }\n".toList := by
  decide +kernel

end Verif.Props
