import Verif.Lemmas.GridF
import Verif.Props.SearchFloat
import Verif.Props.AnyPeriod

/-!
# C114 and C115: the compiled search has no holes, and finds pulses of any period
-/

namespace Verif.Spec

/-- A period in reach of a trial: not below the trial period, and, up to rounding, within one step of the trial frequencies. -/
structure DTrial.Reaches (t : DTrial) (tsamp : ℚ) (P : ℝ) : Prop where
  below : (t.period tsamp : ℝ) ≤ P
  step : 1 / (t.period tsamp : ℝ) - 1 / P ≤ (1 + 1 / 2 ^ 20) * (1 / (t.f * tsamp * (t.b : ℝ) ^ 2 * ((t.m : ℝ) - 1)))

/-- See `smearing`. -/
noncomputable def DTrial.smearing (t : DTrial) : ℝ :=
  (if t.f = 1 then 2 else 4) + 1 / 2 ^ 18 + (1 + (t.m : ℝ) / 2 ^ 22) * ((Nat.clog 2 t.m : ℝ) - 1)

end Verif.Spec

namespace Verif.Props

open Verif.Model Verif.Spec Verif.Lemmas Finset

/-- Frequencies in terms of drifts. -/
theorem reach_of_drift {t : DTrial} {tsamp : ℚ} {P δ : ℝ} (hf : 0 < t.f) (ht : 0 < tsamp) (hP : 0 < P) (hb : 2 ≤ t.b) (hm : 2 ≤ t.m)
    (hs : t.s < t.m) (hδ : δ = t.b - t.b * t.b * ((t.f : ℝ) * tsamp) / P) (h1 : (t.s : ℝ) ≤ ((t.m : ℝ) - 1) * δ)
    (h2 : ((t.m : ℝ) - 1) * δ ≤ t.s + 1 + 1 / 2 ^ 20) : t.Reaches tsamp P := by
  have hτ : (0 : ℝ) < (t.f : ℝ) * tsamp := by exact_mod_cast mul_pos hf ht
  have hb0 : (2 : ℝ) ≤ t.b := by exact_mod_cast hb
  have hm0 : (2 : ℝ) ≤ t.m := by exact_mod_cast hm
  have hm1 : (0 : ℝ) < (t.m : ℝ) - 1 := by linarith
  have hsm : (t.s : ℝ) / ((t.m : ℝ) - 1) ≤ 1 := by
    rw [div_le_one hm1]
    have : t.s + 1 ≤ t.m := hs
    have : ((t.s + 1 : ℕ) : ℝ) ≤ t.m := by exact_mod_cast this
    push_cast at this
    linarith
  have hden : 0 < (t.b : ℝ) - t.s / ((t.m : ℝ) - 1) := by linarith
  have ep : (t.period tsamp : ℝ) = (t.f : ℝ) * tsamp * t.b * t.b / (t.b - t.s / ((t.m : ℝ) - 1)) := by
    unfold DTrial.period
    push_cast
    rfl
  have hp0 : 0 < (t.period tsamp : ℝ) := by
    rw [ep]
    apply div_pos _ hden
    have : 0 < (t.b : ℝ) := by linarith
    positivity
  have hC : 0 < 1 / ((t.f : ℝ) * tsamp * (t.b : ℝ) ^ 2 * ((t.m : ℝ) - 1)) := by
    have : 0 < (t.b : ℝ) := by linarith
    positivity
  have e1 : 1 / (t.period tsamp : ℝ) - 1 / P =
      (((t.m : ℝ) - 1) * δ - t.s) * (1 / ((t.f : ℝ) * tsamp * (t.b : ℝ) ^ 2 * ((t.m : ℝ) - 1))) := by
    rw [ep, hδ, one_div_div]
    have : (t.f : ℝ) ≠ 0 := by
      have : (0 : ℝ) < t.f := by exact_mod_cast hf
      linarith
    have : (tsamp : ℝ) ≠ 0 := by
      have : (0 : ℝ) < tsamp := by exact_mod_cast ht
      linarith
    have : (t.b : ℝ) ≠ 0 := by linarith
    field_simp
    ring
  constructor
  · have : 0 ≤ 1 / (t.period tsamp : ℝ) - 1 / P := by
      rw [e1]
      exact mul_nonneg (by linarith) hC.le
    exact (one_div_le_one_div hP hp0).mp (by linarith)
  · rw [e1]
    exact mul_le_mul_of_nonneg_right (by linarith) hC.le

section search

variable {A : DArith} (hA : Sane A) {n : ℕ} {tsamp pmin pmax : ℚ} {bmin bmax : ℕ} (hN : n ≤ 2 ^ 25) (hbins : bmax < 2 ^ 32)
  (ht : 0 < tsamp) (hp : 0 < pmin) (hpp : pmin < pmax) (hb2 : 2 ≤ bmin) (hbb : bmin ≤ bmax)
  (hbp : A.fl (tsamp * bmin) ≤ pmin) (h2 : 2 * pmax ≤ n * tsamp)
include hA hN hbins ht hp hpp hb2 hbb hbp h2

theorem range_of : InRange A ⟨n, tsamp, pmin, pmax, bmin, bmax⟩ := by
  refine ⟨⟨ht, hp, hpp, hb2, hbb, ?_⟩, hN.trans (by norm_num), by simp only; omega, ?_⟩
  · simp only
    rw [hA.nat bmin (by omega)]
    exact hbp
  · have h3 : (n : ℚ) ≤ 2 ^ 25 := by exact_mod_cast hN
    have h4 := mul_le_mul_of_nonneg_right h3 ht.le
    simp only
    linarith

theorem search_ok {V : Type*} [Inhabited V] (O : VOps V) (idx : IdxRule) (widths : List ℕ) (hne : widths ≠ []) (hidx : IdxFor idx (n / bmin))
    (data : List V) (hd : data.length = n) : A.binding O idx data tsamp widths pmin pmax bmin bmax =
      .ok ((dTrials A ⟨n, tsamp, pmin, pmax, bmin, bmax⟩).map (dPer A ⟨n, tsamp, pmin, pmax, bmin, bmax⟩),
        (dTrials A ⟨n, tsamp, pmin, pmax, bmin, bmax⟩).map (fun t => t.2.1 % 2 ^ 32),
        (dTrials A ⟨n, tsamp, pmin, pmax, bmin, bmax⟩).map (fun t => (List.range widths.length).map
          (dSnr A ⟨n, tsamp, pmin, pmax, bmin, bmax⟩ O idx (fun i => data.getD i default) widths t))) := by
  have hr := range_of hA hN hbins ht hp hpp hb2 hbb hbp h2
  refine (d_binding hA O idx data tsamp widths hne pmin pmax bmin bmax _ (by rw [hd]) hr (by rw [hd]; exact hidx.ok)).2 ?_
  intro i hi
  exact Or.inr ((d_factor_le hA hr hN h2).2 i hi)

end search

/-- C114. The trial periods in double precision have no holes. If two periods of `pmax` fit in the data, the compiled search succeeds,
and for every period `P` of the range, but for a relative 2^-48 at its beginning and 2^-30 at its end, the output has an entry whose trial
has a period at most `P`, and a frequency that exceeds `1/P` by at most one step of the trial frequencies (and a 2^-20 of a step). The
stored period is the period of the trial to 2^-50. -/
theorem C114_no_holes (A : DArith) (hA : Sane A) {V : Type*} [Inhabited V] (O : VOps V) (idx : IdxRule) (data : List V) (tsamp : ℚ)
    (widths : List ℕ) (hne : widths ≠ []) (pmin pmax : ℚ) (bmin bmax : ℕ) (hidx : IdxFor idx (data.length / bmin))
    (hN : data.length ≤ 2 ^ 25) (hbins : bmax < 2 ^ 32) (ht : 0 < tsamp) (hp : 0 < pmin) (hpp : pmin < pmax) (hb2 : 2 ≤ bmin)
    (hbb : bmin ≤ bmax) (hbp : A.fl (tsamp * bmin) ≤ pmin) (h2 : 2 * pmax ≤ data.length * tsamp) :
    ∃ (per : List ℚ) (fb : List ℕ) (snr : List (List V)), A.binding O idx data tsamp widths pmin pmax bmin bmax = .ok (per, fb, snr) ∧
      fb.length = per.length ∧ snr.length = per.length ∧
      ∀ P : ℝ, (1 + 1 / 2 ^ 48) * pmin ≤ P → P ≤ (1 - 1 / 2 ^ 30) * pmax →
        ∃ (j : ℕ) (p : ℚ) (t : DTrial), per[j]? = some p ∧ fb[j]? = some t.b ∧ t.OK data.length bmin bmax ∧
          |p - t.period tsamp| ≤ 1 / 2 ^ 50 * t.period tsamp ∧ t.Reaches tsamp P := by
  have hr := range_of hA hN hbins ht hp hpp hb2 hbb hbp h2
  refine ⟨_, _, _, search_ok hA hN hbins ht hp hpp hb2 hbb hbp h2 O idx widths hne hidx data rfl, by simp, by simp, ?_⟩
  intro P hP1 hP2
  obtain ⟨i, b, s, hm, c1, _, c3, c4⟩ := d_cover hA hr hN h2 hP1 hP2
  obtain ⟨j, hj⟩ := List.getElem?_of_mem hm
  have hok := toTrial_ok hA hr hm
  have hpR : (0 : ℝ) < pmin := by exact_mod_cast hp
  have hP0 : 0 < P := by
    have : (0 : ℝ) < (1 + 1 / 2 ^ 48) * pmin := by positivity
    linarith
  refine ⟨j, _, toTrial A _ (i, b, s), by rw [List.getElem?_map, hj]; rfl, ?_, hok, toTrial_period hA hr hm, ?_⟩
  · rw [List.getElem?_map, hj, Option.map_some, Nat.mod_eq_of_lt]
    · rfl
    · exact lt_of_le_of_lt hok.bins.2 hbins
  · have hf := d_f_ge_one hA hr i
    exact reach_of_drift (t := toTrial A _ (i, b, s)) (by simp only [toTrial]; linarith) ht hP0 (hb2.trans hok.bins.1) hok.two hok.shift rfl c3 c4

/-- Non-vacuity: 1000 samples, periods of 32 to 40 samples; the period 100/3. -/
example : ∃ (per : List ℚ) (fb : List ℕ) (snr : List (List ℝ)) (j : ℕ) (p : ℚ) (t : DTrial),
    (ieeeDouble someLog (fun x k => rn 53 (x ^ k)) true).binding (single.searchOps (ieeeDouble someLog (fun x k => rn 53 (x ^ k)) true))
      float32Idx (List.replicate 1000 (1 : ℝ)) 1 [1, 2] 32 40 32 39 = .ok (per, fb, snr) ∧
    per[j]? = some p ∧ t.OK 1000 32 39 ∧ |p - t.period 1| ≤ 1 / 2 ^ 50 * t.period 1 ∧ t.Reaches 1 (100 / 3) := by
  have hA := sane_some true
  have e32 : (ieeeDouble someLog (fun x k => rn 53 (x ^ k)) true).fl (1 * ((32 : ℕ) : ℚ)) ≤ 32 := by
    rw [one_mul, hA.nat 32 (by norm_num)]
    norm_num
  obtain ⟨per, fb, snr, e, _, _, key⟩ := C114_no_holes _ hA
    (single.searchOps (ieeeDouble someLog (fun x k => rn 53 (x ^ k)) true)) float32Idx (List.replicate 1000 (1 : ℝ)) 1 [1, 2]
    (by simp) 32 40 32 39 (by rw [List.length_replicate]; exact Or.inr ⟨Or.inl rfl, by norm_num⟩)
    (by rw [List.length_replicate]; norm_num) (by norm_num) (by norm_num) (by norm_num) (by norm_num) (by norm_num) (by norm_num) e32
    (by rw [List.length_replicate]; norm_num)
  obtain ⟨j, p, t, h1, _, h3, h4, h5⟩ := key (100 / 3) (by norm_num) (by norm_num)
  rw [List.length_replicate] at h3
  exact ⟨per, fb, snr, j, p, t, e, h1, h3, h4, h5⟩

/-! ## Pulses of any period -/

/-- The columns into which the fold puts samples with phases in an interval of `B` bins lie in a window. -/
theorem fold_window_tol {b m w s : ℕ} {σ : ℕ → ℕ} {δ A B E ε : ℝ} (hε : 0 < ε) (hb : 0 < b) (hm : 2 ≤ m) (h1 : (s : ℝ) ≤ (m - 1) * δ)
    (h2 : ((m : ℝ) - 1) * δ ≤ s + 1 + ε) (h3 : δ ≤ 1 + ε) (hσ : ∀ r < m, |(σ r : ℝ) - s * r / ((m : ℝ) - 1)| ≤ E)
    (hL : B + 2 * E + 2 + 3 * ε ≤ w) (hw : w < b) :
    ∃ φ < b, ∀ c < b, ∀ r < m, ∀ k : ℤ, A ≤ ((r * b + (c + σ r) % b : ℕ) : ℝ) * (1 - δ / b) - k * b →
      ((r * b + (c + σ r) % b : ℕ) : ℝ) * (1 - δ / b) - k * b ≤ A + B → InWindow b w φ c := by
  have hb0 : (0 : ℝ) < b := by exact_mod_cast hb
  have hbz : (0 : ℤ) < b := by exact_mod_cast hb
  have hm1 : (0 : ℝ) < (m : ℝ) - 1 := by
    have : (2 : ℝ) ≤ m := by exact_mod_cast hm
    linarith
  have hδ : 0 ≤ δ := by
    have : (0 : ℝ) ≤ s := Nat.cast_nonneg _
    by_contra hc
    push Not at hc
    nlinarith
  obtain ⟨x, hx⟩ : ∃ x : ℤ, x = ⌈A - E⌉ := ⟨_, rfl⟩
  have hx1 : A - E ≤ x := by rw [hx]; exact Int.le_ceil _
  refine ⟨(x % b).toNat, ?_, ?_⟩
  · have h := Int.emod_lt_of_pos x hbz
    have h' := Int.emod_nonneg x hbz.ne'
    omega
  intro c hc r hr k g1 g2
  have hr' : (r : ℝ) ≤ (m : ℝ) - 1 := by
    have : r + 1 ≤ m := hr
    have : ((r + 1 : ℕ) : ℝ) ≤ m := by exact_mod_cast this
    push_cast at this
    linarith
  have hr0 : (0 : ℝ) ≤ r := Nat.cast_nonneg _
  have hdev := abs_le.mp (hσ r hr)
  have hj : (((c + σ r) % b : ℕ) : ℝ) < b := by exact_mod_cast Nat.mod_lt _ hb
  have hj0 : (0 : ℝ) ≤ (((c + σ r) % b : ℕ) : ℝ) := Nat.cast_nonneg _
  have hdm : (((c + σ r) % b : ℕ) : ℝ) = c + σ r - b * ((c + σ r) / b : ℕ) := by
    have := Nat.div_add_mod (c + σ r) b
    have h2 : ((b * ((c + σ r) / b) + (c + σ r) % b : ℕ) : ℝ) = ((c + σ r : ℕ) : ℝ) := by rw [this]
    push_cast at h2
    linarith
  push_cast at g1 g2
  generalize hjj : (((c + σ r) % b : ℕ) : ℝ) = j at *
  generalize (c + σ r) / b = q at *
  -- the drift over the rows and within a row
  have hdr : 0 ≤ r * (δ - s / ((m : ℝ) - 1)) ∧ r * (δ - s / ((m : ℝ) - 1)) ≤ 1 + ε := by
    have e1 : 0 ≤ δ - s / ((m : ℝ) - 1) := by
      rw [sub_nonneg, div_le_iff₀ hm1]
      linarith
    have e2 : δ - s / ((m : ℝ) - 1) ≤ (1 + ε) / ((m : ℝ) - 1) := by
      rw [sub_le_iff_le_add, ← add_div, le_div_iff₀ hm1]
      linarith
    refine ⟨mul_nonneg hr0 e1, ?_⟩
    calc r * (δ - s / ((m : ℝ) - 1)) ≤ ((m : ℝ) - 1) * (δ - s / ((m : ℝ) - 1)) := mul_le_mul_of_nonneg_right hr' e1
      _ ≤ ((m : ℝ) - 1) * ((1 + ε) / ((m : ℝ) - 1)) := mul_le_mul_of_nonneg_left e2 hm1.le
      _ = 1 + ε := by field_simp
  have hin : 0 ≤ j * δ / b ∧ j * δ / b ≤ 1 + ε := by
    refine ⟨by positivity, ?_⟩
    rw [div_le_iff₀ hb0]
    nlinarith
  have hph : ((r : ℝ) * b + j) * (1 - δ / b) - k * b =
      (c + ((r : ℤ) - q - k : ℤ) * b : ℝ) + ((σ r : ℝ) - s * r / ((m : ℝ) - 1)) - r * (δ - s / ((m : ℝ) - 1)) - j * δ / b := by
    have hσe : (σ r : ℝ) = j - c + b * q := by linarith
    rw [hσe]
    push_cast
    field_simp
    ring
  rw [hph] at g1 g2
  -- the integer `u = c + (r - q - k) b` lies in the window that begins at `x`
  obtain ⟨u, hu⟩ : ∃ u : ℤ, u = c + ((r : ℤ) - q - k) * b := ⟨_, rfl⟩
  have hur : (c + ((r : ℤ) - q - k : ℤ) * b : ℝ) = (u : ℝ) := by rw [hu]; push_cast; ring
  rw [hur] at g1 g2
  have l1 : x ≤ u := by
    rw [hx, Int.ceil_le]
    linarith [hdev.2, hdr.1, hin.1]
  have l2 : u < x + w := by
    have : (u : ℝ) < x + w := by linarith [hdev.1, hdr.2, hin.2]
    exact_mod_cast this
  unfold InWindow
  have hxm := Int.emod_lt_of_pos x hbz
  have hxm' := Int.emod_nonneg x hbz.ne'
  have hxd := Int.emod_add_mul_ediv x b
  have e : ((c + (b - (x % b).toNat) : ℕ) : ℤ) = (u - x) + b * (1 + x / b - ((r : ℤ) - q - k)) := by
    have : (((b - (x % b).toNat : ℕ)) : ℤ) = b - x % b := by omega
    push_cast [this]
    rw [hu]
    linear_combination -hxd
  have e2 : ((c + (b - (x % b).toNat) : ℕ) : ℤ) % b = u - x := by
    rw [e, Int.add_mul_emod_self_left]
    exact Int.emod_eq_of_lt (by omega) (by omega)
  have e3 : (((c + (b - (x % b).toNat)) % b : ℕ) : ℤ) = u - x := by rw [← e2]; push_cast; rfl
  omega

/-- S/N of a profile whose signal lies in a window of the width of the boxcar, with an error in the profile. -/
theorem matched_confined_tol {n w φ : ℕ} {x y d : ℕ → ℝ} {c0 base std v : ℝ} (h0 : 0 < w) (h1 : w < n) (hφ : φ < n) (hstd : 0 < std)
    (hx : ∀ c < n, x c ≠ 0 → InWindow n w φ c) (hy : ∀ c < n, y c = c0 + x c - base * d c) (hd : ∀ c < n, 0 ≤ d c)
    (h : IsMatchedSnr n w y std v) :
    (Real.sqrt (((n : ℝ) - w) / (n * w)) * (∑ c ∈ range n, x c) - |base| * ∑ c ∈ range n, d c) / std ≤ v := by
  classical
  obtain ⟨t, ht⟩ := boxcar_exists h0 h1 hφ
  have e := h.2 φ hφ t ht
  refine le_trans (div_le_div_of_nonneg_right ?_ hstd.le) e
  have hz : ∑ i ∈ range n, t i = 0 := by obtain ⟨_, _, _, _, hz, _⟩ := ht; exact hz
  have hs : ∑ i ∈ range n, t i ^ 2 = 1 := by obtain ⟨_, _, _, _, _, hs⟩ := ht; exact hs
  have e1 : ∑ i ∈ range n, y i * t i = ∑ i ∈ range n, x i * t i - base * ∑ i ∈ range n, d i * t i := by
    have : ∀ i ∈ range n, y i * t i = c0 * t i + x i * t i - base * (d i * t i) := by
      intro i hi
      rw [hy i (mem_range.mp hi)]
      ring
    rw [sum_congr rfl this, sum_sub_distrib, sum_add_distrib, ← mul_sum, ← mul_sum, hz, mul_zero, zero_add]
  have e2 : winSum n w x φ = ∑ i ∈ range n, x i := by
    rw [← inWindow_sum n w φ h1.le hφ]
    refine sum_congr rfl (fun i hi => ?_)
    split_ifs with hc
    · rfl
    · by_contra hne
      exact hc (hx i (mem_range.mp hi) (fun h => hne h.symm))
  have e3 : |∑ i ∈ range n, d i * t i| ≤ ∑ i ∈ range n, d i := by
    refine (abs_sum_le_sum_abs _ _).trans (sum_le_sum ?_)
    intro i hi
    have hi' := hd i (mem_range.mp hi)
    rw [abs_mul, abs_of_nonneg hi']
    have h4 : t i ^ 2 ≤ 1 := by
      rw [← hs]
      exact single_le_sum (f := fun i => t i ^ 2) (fun j _ => sq_nonneg _) hi
    have h5 : |t i| ≤ 1 := by
      rw [← sq_abs] at h4
      nlinarith [abs_nonneg (t i)]
    nlinarith
  have e4 : base * ∑ i ∈ range n, d i * t i ≤ |base| * ∑ i ∈ range n, d i := by
    calc base * ∑ i ∈ range n, d i * t i ≤ |base * ∑ i ∈ range n, d i * t i| := le_abs_self _
      _ = |base| * |∑ i ∈ range n, d i * t i| := abs_mul _ _
      _ ≤ _ := mul_le_mul_of_nonneg_left e3 (abs_nonneg _)
  rw [e1, boxcar_dot h0 h1 hφ ht, e2]
  unfold boxH boxB boxH
  linarith

/-- Windows that reach past the end of the data. -/
theorem window_deficit {N n : ℕ} {f : ℝ} (hf : 0 < f) (hN : N ≤ 2 ^ 25) (h : n * f ≤ (1 + 1 / 2 ^ 53) * N) :
    (∀ k, 0 ≤ f - downsampled N (fun _ => 1) f k) ∧
    ∑ k ∈ range n, (f - downsampled N (fun _ => 1) f k) ≤ 1 / 2 ^ 28 := by
  constructor
  · intro k
    unfold downsampled stepIntegral
    simp only [one_mul]
    have := overlap_total_le N (a := (k : ℝ) * f) (b := ((k : ℝ) + 1) * f) (by positivity) (by nlinarith)
    linarith
  · have e : ∀ k : ℕ, downsampled N (fun _ => 1) f k = stepIntegral N (fun _ => 1) ((k : ℝ) * f) ((k : ℝ) * f + f) :=
      fun k => by unfold downsampled; congr 1; ring
    rw [sum_sub_distrib, sum_congr rfl (fun k _ => e k), stepIntegral_sum N _ hf.le, sum_const, card_range, nsmul_eq_mul]
    unfold stepIntegral
    simp only [one_mul]
    have hNR : (N : ℝ) ≤ 2 ^ 25 := by exact_mod_cast hN
    rcases le_total ((n : ℝ) * f) N with hc | hc
    · rw [overlap_total N le_rfl (by positivity) hc]
      norm_num
    · have h1 : (N : ℝ) ≤ ∑ i ∈ range N, overlap i 0 (n * f) := by
        have : ∀ i ∈ range N, (1 : ℝ) ≤ overlap i 0 (n * f) := by
          intro i hi
          have hi' : ((i + 1 : ℕ) : ℝ) ≤ N := by exact_mod_cast mem_range.mp hi
          push_cast at hi'
          rw [overlap_inner (Nat.cast_nonneg _) (by linarith)]
        have := sum_le_sum this
        simpa using this
      linarith

/-- One trial: pulses of a period in its reach. -/
theorem dtrial_pulses {idx : IdxRule} {N : ℕ} {t : DTrial} {tsamp P φ D base V : ℝ} {bmin bmax w : ℕ} {x pulse : ℕ → ℝ} {v : ℝ}
    (hok : t.OK N bmin bmax) (hN : N ≤ 2 ^ 25) (ht : 0 < tsamp) (hP : 0 < P) (hb2 : 2 ≤ bmin)
    (hbP : (t.b : ℝ) * (t.f * tsamp) ≤ P) (hPb : P < ((t.b : ℝ) + 1) * (t.f * tsamp) * (1 + 1 / 2 ^ 46))
    (d1 : (t.s : ℝ) ≤ ((t.m : ℝ) - 1) * (t.b - t.b * t.b * (t.f * tsamp) / P))
    (d2 : ((t.m : ℝ) - 1) * (t.b - t.b * t.b * (t.f * tsamp) / P) ≤ t.s + 1 + 1 / 2 ^ 20)
    (hσ : ∀ s < t.m, ∀ i < t.m, |(sigma idx t.m s i : ℚ) - (s : ℚ) * i / ((t.m : ℚ) - 1)| ≤
          (1 / 2 + (t.m : ℚ) / 2 ^ 23) * ((Nat.clog 2 t.m : ℚ) - 1))
    (hV : 0 < V) (h0 : 0 < w) (h1 : w < t.b)
    (hpul : Pulsed pulse tsamp P φ D) (hx : ∀ n < N, x n = base + pulse n) (hw : D / P * t.b + t.smearing ≤ w)
    (hmat : IsMatchedSnr t.b w (stack t.m t.b (sigma idx t.m) (fun r c => downsampled N x t.f (r * t.b + c)) t.s)
      (Real.sqrt (t.m * V)) v) {K : ℕ} (hK : (K + 1) * tsamp + P + t.f * tsamp ≤ N * tsamp) :
    ((∑ n ∈ range K, pulse n) * Real.sqrt (((t.b : ℝ) - w) / (t.b * w)) - |base| / 2 ^ 28) / Real.sqrt (t.m * V) ≤ v := by
  obtain ⟨fq, nn, b, m, s⟩ := t
  obtain ⟨o1, o2, o3, o4, o5, o6, o7⟩ := hok
  simp only at *
  have hif : (fq = 1) = ((fq : ℝ) = 1) := by
    apply propext
    constructor
    · rintro rfl; norm_num
    · intro h; exact_mod_cast h
  have hf1 : (1 : ℝ) ≤ fq := by exact_mod_cast o1
  have o3R : (nn : ℝ) * fq ≤ (1 + 1 / 2 ^ 53) * N := by
    have := (Rat.cast_le (K := ℝ)).mpr o3
    push_cast at this
    exact this
  have o4R : (1 - 1 / 2 ^ 53) * (N : ℝ) < ((nn : ℝ) + 1) * fq := by
    have := (Rat.cast_lt (K := ℝ)).mpr o4
    push_cast at this
    exact this
  unfold DTrial.smearing at hw
  simp only [hif] at hw
  generalize (fq : ℝ) = f at *
  have hb : 2 ≤ b := by omega
  have hb0 : (0 : ℝ) < b := by exact_mod_cast (by omega : 0 < b)
  have hf0 : 0 < f := by linarith
  have hmR : (2 : ℝ) ≤ m := by exact_mod_cast o6
  have hm1 : (0 : ℝ) < (m : ℝ) - 1 := by linarith
  have hτ : 0 < f * tsamp := by positivity
  have hNR : (N : ℝ) ≤ 2 ^ 25 := by exact_mod_cast hN
  have hmn : m * b ≤ nn := by rw [o5]; exact Nat.div_mul_le_self _ _
  have hmnR : ((m * b : ℕ) : ℝ) ≤ nn := by exact_mod_cast hmn
  have hmbN : ((m * b : ℕ) : ℝ) * f ≤ (1 + 1 / 2 ^ 53) * N := (mul_le_mul_of_nonneg_right hmnR hf0.le).trans o3R
  -- the drift
  obtain ⟨δ, hδ⟩ : ∃ δ : ℝ, δ = b - b * b * (f * tsamp) / P := ⟨_, rfl⟩
  rw [← hδ] at d1 d2
  have d4 : b * (f * tsamp) / P = 1 - δ / b := by
    rw [hδ]
    field_simp
    ring
  have d5 : b * (f * tsamp) / P ≤ 1 := (div_le_one hP).mpr hbP
  have hb24 : (b : ℝ) ≤ 2 ^ 24 := by
    have e1 : (2 : ℝ) * b ≤ ((m * b : ℕ) : ℝ) := by
      push_cast
      exact mul_le_mul_of_nonneg_right hmR hb0.le
    have e2 : ((m * b : ℕ) : ℝ) * 1 ≤ ((m * b : ℕ) : ℝ) * f := mul_le_mul_of_nonneg_left hf1 (Nat.cast_nonneg _)
    have e3 : (2 * b : ℝ) < ((2 ^ 25 + 1 : ℕ) : ℝ) := by
      push_cast
      linarith
    have e4 : 2 * b < 2 ^ 25 + 1 := by exact_mod_cast e3
    have e5 : b ≤ 2 ^ 24 := by omega
    exact_mod_cast e5
  have d3 : δ ≤ 1 + 1 / 2 ^ 20 := by
    have e1 : (b : ℝ) / (b + 1) - 1 / 2 ^ 46 ≤ b * (f * tsamp) / P := by
      rw [le_div_iff₀ hP]
      have e2 := mul_le_mul_of_nonneg_left hPb.le (by positivity : (0 : ℝ) ≤ b / (b + 1))
      have e3 : b / (b + 1) * (((b : ℝ) + 1) * (f * tsamp) * (1 + 1 / 2 ^ 46)) = b * (f * tsamp) * (1 + 1 / 2 ^ 46) := by
        field_simp
      linarith
    have e4 : 1 - (b : ℝ) / (b + 1) = 1 / (b + 1) := by field_simp; ring
    have e5 : δ = b * (1 - b * (f * tsamp) / P) := by rw [hδ]; ring
    have e6 : b * (1 / ((b : ℝ) + 1)) ≤ 1 := by
      rw [mul_one_div, div_le_one (by positivity)]
      linarith
    rw [e5]
    have e7 := mul_le_mul_of_nonneg_left (by linarith : 1 - b * (f * tsamp) / P ≤ 1 / ((b : ℝ) + 1) + 1 / 2 ^ 46) hb0.le
    linarith
  -- the window
  have hσ' : ∀ r < m, |(sigma idx m s r : ℝ) - s * r / ((m : ℝ) - 1)| ≤
      (1 / 2 + (m : ℝ) / 2 ^ 23) * ((Nat.clog 2 m : ℝ) - 1) := by
    intro r hr
    have h2 : (((|(sigma idx m s r : ℚ) - (s : ℚ) * r / ((m : ℚ) - 1)| : ℚ)) : ℝ) ≤
        (((1 / 2 + (m : ℚ) / 2 ^ 23) * ((Nat.clog 2 m : ℚ) - 1) : ℚ) : ℝ) := by exact_mod_cast hσ s o7 r hr
    push_cast at h2
    exact h2
  obtain ⟨g, hg, hgg, hgB⟩ : ∃ g h : ℝ, (∀ q : ℕ, downsampled N pulse f q ≠ 0 → q < m * b → ∃ k : ℤ,
      φ - g ≤ q * (f * tsamp) - k * P ∧ q * (f * tsamp) - k * P ≤ φ + D + h) ∧
      b / P * (g + h) ≤ (if f = 1 then 2 else 4) - 2 := by
    by_cases h : f = 1
    · refine ⟨0, 0, ?_, by simp [h]⟩
      intro q hq hqm
      subst h
      have hqN : q < N := by
        have e3 : ((m * b : ℕ) : ℝ) < ((N + 1 : ℕ) : ℝ) := by
          push_cast at hmbN ⊢
          linarith
        have e4 : m * b < N + 1 := by exact_mod_cast e3
        omega
      rw [window_int N pulse q hqN] at hq
      obtain ⟨k, e1, e2⟩ := hpul.on q hq
      exact ⟨k, by linarith, by linarith⟩
    · refine ⟨f * tsamp, tsamp, fun q hq _ => downsampled_on ht hpul hq, ?_⟩
      rw [if_neg h]
      have e : b / P * (f * tsamp + tsamp) ≤ 2 * (b * (f * tsamp) / P) := by
        have : b / P * tsamp ≤ b / P * (f * tsamp) := by
          apply mul_le_mul_of_nonneg_left _ (by positivity)
          nlinarith
        have e2 : b * (f * tsamp) / P = b / P * (f * tsamp) := by ring
        rw [e2]
        linarith
      linarith
  have hsmear : b / P * (D + g + hg) + 2 * ((1 / 2 + (m : ℝ) / 2 ^ 23) * ((Nat.clog 2 m : ℝ) - 1)) + 2 + 3 * (1 / 2 ^ 20) ≤ w := by
    refine le_trans ?_ hw
    have e : b / P * (D + g + hg) = D / P * b + b / P * (g + hg) := by ring
    have e2 : (1 + (m : ℝ) / 2 ^ 22) = 2 * (1 / 2 + (m : ℝ) / 2 ^ 23) := by ring
    rw [e, e2]
    linarith
  obtain ⟨φ0, hφ0, hwin⟩ := fold_window_tol (A := b / P * (φ - g)) (by norm_num : (0 : ℝ) < 1 / 2 ^ 20) (by omega : 0 < b) o6 d1 d2 d3
    hσ' hsmear h1
  have hidx : ∀ r < m, ∀ c, r * b + (c + sigma idx m s r) % b < m * b := by
    intro r hr c
    have a1 : (c + sigma idx m s r) % b < b := Nat.mod_lt _ (by omega)
    have a2 : (r + 1) * b ≤ m * b := Nat.mul_le_mul_right _ hr
    rw [Nat.succ_mul] at a2
    omega
  obtain ⟨w1, w2⟩ := window_deficit hf0 hN hmbN
  have hstd : 0 < Real.sqrt (m * V) := Real.sqrt_pos.mpr (mul_pos (by linarith) hV)
  -- the S/N
  have key := matched_confined_tol (x := stack m b (sigma idx m) (fun r c => downsampled N pulse f (r * b + c)) s)
    (d := stack m b (sigma idx m) (fun r c => f - downsampled N (fun _ => 1) f (r * b + c)) s) (base := base)
    (c0 := m * (base * f)) h0 h1 hφ0 hstd ?_ ?_ ?_ hmat
  · rw [stack_sum, stack_sum, sum_blocks (fun q => f - downsampled N (fun _ => 1) f q)] at key
    have hKm : (K : ℝ) ≤ ((m * b : ℕ) : ℝ) * f := by
      have h2 : nn < m * b + b := by
        rw [o5]
        have := Nat.div_add_mod nn b
        have := Nat.mod_lt nn (by omega : 0 < b)
        have : nn / b * b = b * (nn / b) := Nat.mul_comm _ _
        omega
      have h3 : ((nn + 1 : ℕ) : ℝ) ≤ ((m * b + b : ℕ) : ℝ) := by exact_mod_cast h2
      push_cast at h3
      have h5 : ((nn : ℝ) + 1) * (f * tsamp) ≤ (m * b + b) * (f * tsamp) := mul_le_mul_of_nonneg_right h3 hτ.le
      have h6 := mul_lt_mul_of_pos_right o4R ht
      have h8 := mul_le_mul_of_nonneg_right hNR ht.le
      have h7 : (K : ℝ) * tsamp ≤ ((m * b : ℕ) : ℝ) * f * tsamp := by
        push_cast
        linarith
      exact le_of_mul_le_mul_right h7 ht
    have hKN : K ≤ N := by
      have : (K : ℝ) * tsamp ≤ N * tsamp := by nlinarith
      have := le_of_mul_le_mul_right this ht
      exact_mod_cast this
    have htot := pulse_total (N := N) (m := m) (b := b) hf0 hpul.nonneg hKm hKN
    refine le_trans (div_le_div_of_nonneg_right ?_ hstd.le) key
    have q1 := mul_le_mul_of_nonneg_left htot (Real.sqrt_nonneg (((b : ℝ) - w) / (b * w)))
    have q2 := mul_le_mul_of_nonneg_left w2 (abs_nonneg base)
    linarith
  · intro c hc hne
    unfold stack at hne
    obtain ⟨r, hr, hd⟩ := exists_ne_zero_of_sum_ne_zero hne
    have hr' := mem_range.mp hr
    obtain ⟨k, e1, e2⟩ := hgg _ hd (hidx r hr' c)
    have hconv : ((r * b + (c + sigma idx m s r) % b : ℕ) : ℝ) * (1 - δ / b) - k * b =
        b / P * (((r * b + (c + sigma idx m s r) % b : ℕ) : ℝ) * (f * tsamp) - k * P) := by
      rw [← d4]
      field_simp
    have hbP' : 0 ≤ b / P := by positivity
    refine hwin c hc r hr' k ?_ ?_
    · rw [hconv]
      exact mul_le_mul_of_nonneg_left e1 hbP'
    · rw [hconv]
      refine (mul_le_mul_of_nonneg_left e2 hbP').trans (le_of_eq ?_)
      ring
  · intro c hc
    unfold stack
    have hd : ∀ r ∈ range m, downsampled N x f (r * b + (c + sigma idx m s r) % b) =
        base * f + downsampled N pulse f (r * b + (c + sigma idx m s r) % b) -
          base * (f - downsampled N (fun _ => 1) f (r * b + (c + sigma idx m s r) % b)) := by
      intro r hr
      unfold downsampled stepIntegral
      rw [sum_congr rfl (fun i hi => by rw [hx i (mem_range.mp hi), add_mul]), sum_add_distrib, ← mul_sum]
      simp only [one_mul]
      ring
    rw [sum_congr rfl hd, sum_sub_distrib, sum_add_distrib, sum_const, card_range, nsmul_eq_mul, mul_sum]
  · intro c hc
    unfold stack
    exact sum_nonneg (fun r _ => w1 _)

/-- C115. Pulses of any period in the compiled search, with its bookkeeping in double precision and the samples in single precision. Let the
samples be a constant plus pulses that come with any period `P` of the searched range and last at most `D`. Then the search succeeds and
has a trial that reaches `P` (C114), such that for each boxcar width `w` of at least `(D/P) b + smearing` bins the stored S/N is at least
`(G √((b - w)/(b w)) - |base|/2^28 - e) / √(m V)`. Here `G` is the total of the pulses in all samples but those of the last period, the last
downsampled sample and one more, `V` is the documented noise variance, and `e` the bound on the rounding errors of C113. -/
theorem C115_any_period {A : DArith} {B : FArith} {u v : ℝ} (hA : Sane A) (hG : Grid A) (h : Rounds B u v) (hu : 1 / 2 ^ 24 ≤ u) (idx : IdxRule)
    (data : List ℝ) (tsamp : ℚ) (widths : List ℕ) (hne : widths ≠ []) (pmin pmax : ℚ) (bmin bmax : ℕ) (hb : bmax * v ≤ u)
    (hidx : IdxFor idx (data.length / bmin)) (hN : data.length ≤ 2 ^ 25) (hbins : bmax < 2 ^ 32) (hw : ∀ w ∈ widths, 0 < w ∧ w < bmin)
    (ht : 0 < tsamp) (hp : 0 < pmin) (hpp : pmin < pmax) (hb2 : 2 ≤ bmin) (hbb : bmin ≤ bmax) (hbp : A.fl (tsamp * bmin) ≤ pmin)
    (h2 : 2 * pmax ≤ data.length * tsamp) (P φ D base : ℝ) (hP1 : (1 + 1 / 2 ^ 48) * pmin ≤ P) (hP2 : P ≤ (1 - 1 / 2 ^ 30) * pmax)
    (pulse : ℕ → ℝ) (hpul : Pulsed pulse tsamp P φ D) (hdata : ∀ n < data.length, data.getD n 0 = base + pulse n) :
    ∃ (per : List ℚ) (fb : List ℕ) (snr : List (List ℝ)) (j : ℕ) (p : ℚ) (row : List ℝ) (t : DTrial) (V : ℚ),
      A.binding (B.searchOps A) idx data tsamp widths pmin pmax bmin bmax = .ok (per, fb, snr) ∧
      per[j]? = some p ∧ fb[j]? = some t.b ∧ snr[j]? = some row ∧ t.OK data.length bmin bmax ∧ t.IsVariance V ∧ 1 / 2 ≤ V ∧
      |p - t.period tsamp| ≤ 1 / 2 ^ 50 * t.period tsamp ∧ t.Reaches tsamp P ∧
      ((26 + ⌈t.f⌉₊ + Nat.clog 2 t.m : ℕ) * u < 1 → ∀ (k w : ℕ), widths[k]? = some w → D / P * t.b + t.smearing ≤ w →
        ∃ S, row[k]? = some S ∧ ∀ K : ℕ, (K + 1) * tsamp + P + t.f * tsamp ≤ data.length * tsamp →
          ((∑ n ∈ range K, pulse n) * Real.sqrt (((t.b : ℝ) - w) / (t.b * w)) - |base| / 2 ^ 28 -
            gam u (26 + ⌈t.f⌉₊ + Nat.clog 2 t.m) * (10 * Real.sqrt ((t.b : ℝ) / (w * (t.b - w))) * ∑ i ∈ range data.length, |data.getD i 0|)) /
            Real.sqrt (t.m * V) ≤ S) := by
  have hr := range_of hA hN hbins ht hp hpp hb2 hbb hbp h2
  obtain ⟨i, b, s, hm, c1, c2, c3, c4⟩ := d_cover hA hr hN h2 hP1 hP2
  obtain ⟨j, hj⟩ := List.getElem?_of_mem hm
  have hok := toTrial_ok hA hr hm
  have hpR : (0 : ℝ) < pmin := by exact_mod_cast hp
  have htR : (0 : ℝ) < tsamp := by exact_mod_cast ht
  have hP0 : 0 < P := by
    have : (0 : ℝ) < (1 + 1 / 2 ^ 48) * pmin := by positivity
    linarith
  obtain ⟨V, v1, v2, v3⟩ := trial_close hA hG h hu hr hN idx widths hne hidx hb hw hm
  have hf := d_f_ge_one hA hr i
  refine ⟨_, _, _, j, _, _, toTrial A _ (i, b, s), V, search_ok hA hN hbins ht hp hpp hb2 hbb hbp h2 (B.searchOps A) idx widths hne hidx
    data rfl, by rw [List.getElem?_map, hj]; rfl, ?_, by rw [List.getElem?_map, hj]; rfl, hok, v1, v2, toTrial_period hA hr hm, ?_, ?_⟩
  · rw [List.getElem?_map, hj, Option.map_some, Nat.mod_eq_of_lt]
    · rfl
    · exact lt_of_le_of_lt hok.bins.2 hbins
  · exact reach_of_drift (t := toTrial A _ (i, b, s)) (by simp only [toTrial]; linarith) ht hP0 (hb2.trans hok.bins.1) hok.two hok.shift rfl c3 c4
  intro hK k w hk hwide
  obtain ⟨hk', rfl⟩ := List.getElem?_eq_some_iff.mp hk
  obtain ⟨w0, w1⟩ := hw _ (List.getElem_mem hk')
  obtain ⟨e, e1, e2⟩ := v3 data rfl hK k hk'
  refine ⟨_, by rw [List.getElem?_map, List.getElem?_range hk']; rfl, ?_⟩
  intro K hKK
  have hM : (toTrial A ⟨data.length, tsamp, pmin, pmax, bmin, bmax⟩ (i, b, s)).m ≤ data.length / bmin := by
    refine (Nat.div_le_div_right (d_n_le_size hA hr i)).trans (Nat.div_le_div_left hok.bins.1 (by omega))
  have hVR : (0 : ℝ) < V := by
    have : (0 : ℚ) < V := by linarith
    exact_mod_cast this
  have low := dtrial_pulses (P := P) (D := D) (φ := φ) (base := base) (x := fun i => data.getD i 0) hok hN htR hP0 hb2 c1 c2 c3 c4
    (shifts_for hidx hok.two hM).2 hVR w0 (w1.trans_le hok.bins.1) hpul hdata hwide e1 hKK
  have e3 := (abs_le.mp e2).1
  have e4 : gam u (trialOps (toTrial A ⟨data.length, tsamp, pmin, pmax, bmin, bmax⟩ (i, b, s))) *
          (10 * Real.sqrt ((b : ℝ) / (widths[k] * (b - widths[k]))) * (∑ i ∈ range data.length, |data.getD i 0|) /
            Real.sqrt ((toTrial A ⟨data.length, tsamp, pmin, pmax, bmin, bmax⟩ (i, b, s)).m * V)) =
        gam u (trialOps (toTrial A ⟨data.length, tsamp, pmin, pmax, bmin, bmax⟩ (i, b, s))) *
          (10 * Real.sqrt ((b : ℝ) / (widths[k] * (b - widths[k]))) * (∑ i ∈ range data.length, |data.getD i 0|)) /
            Real.sqrt ((toTrial A ⟨data.length, tsamp, pmin, pmax, bmin, bmax⟩ (i, b, s)).m * V) := by ring
  rw [sub_div]
  change _ - gam u (trialOps (toTrial A ⟨data.length, tsamp, pmin, pmax, bmin, bmax⟩ (i, b, s))) *
          (10 * Real.sqrt ((b : ℝ) / (widths[k] * (b - widths[k]))) * (∑ i ∈ range data.length, |data.getD i 0|)) /
            Real.sqrt ((toTrial A ⟨data.length, tsamp, pmin, pmax, bmin, bmax⟩ (i, b, s)).m * V) ≤ _
  rw [← e4]
  simp only at e3 ⊢
  linarith

theorem exists_data (N : ℕ) (x : ℕ → ℝ) : ∃ data : List ℝ, data.length = N ∧ ∀ n < N, data.getD n 0 = x n := by
  refine ⟨(List.range N).map x, by simp, ?_⟩
  intro n hn
  rw [List.getD_eq_getElem?_getD, List.getElem?_map, List.getElem?_range hn]
  rfl

/-- Non-vacuity: the pulses of `pulsed_example` in 1000 samples, searched in single and double precision with a boxcar of 12 bins. All
conditions on the trial hold. -/
example : ∃ (per : List ℚ) (fb : List ℕ) (snr : List (List ℝ)) (j : ℕ) (row : List ℝ) (t : DTrial) (V : ℚ) (S : ℝ) (data : List ℝ),
    (∀ n < 1000, data.getD n 0 = 0 + if 3 * n % 100 ≤ 9 then 10 else 0) ∧
    (ieeeDouble someLog (fun x k => rn 53 (x ^ k)) true).binding (single.searchOps (ieeeDouble someLog (fun x k => rn 53 (x ^ k)) true))
      float32Idx data 1 [12] 32 40 32 39 = .ok (per, fb, snr) ∧
    snr[j]? = some row ∧ row[0]? = some S ∧ t.OK 1000 32 39 ∧ t.IsVariance V ∧ t.Reaches 1 (100 / 3) ∧
    ((∑ n ∈ range 940, if 3 * n % 100 ≤ 9 then (10 : ℝ) else 0) * Real.sqrt (((t.b : ℝ) - (12 : ℕ)) / (t.b * (12 : ℕ))) - |(0 : ℝ)| / 2 ^ 28 -
            gam (1 / 2 ^ 24) (26 + ⌈t.f⌉₊ + Nat.clog 2 t.m) *
              (10 * Real.sqrt ((t.b : ℝ) / ((12 : ℕ) * (t.b - (12 : ℕ)))) * ∑ i ∈ range data.length, |data.getD i 0|)) /
            Real.sqrt (t.m * V) ≤ S := by
  have hA := sane_some true
  have e32 : (ieeeDouble someLog (fun x k => rn 53 (x ^ k)) true).fl (1 * ((32 : ℕ) : ℚ)) ≤ 32 := by
    rw [one_mul, hA.nat 32 (by norm_num)]
    norm_num
  obtain ⟨data, hl, hd⟩ := exists_data 1000 (fun n => 0 + if 3 * n % 100 ≤ 9 then (10 : ℝ) else 0)
  have hpul := pulsed_example
  obtain ⟨per, fb, snr, j, p, row, t, V, e, _, _, e3, hok, hV, _, _, hre, key⟩ := C115_any_period hA (grid_ieee _ _ _) single_rounds
    (le_refl _) float32Idx data 1 [12] (by simp) 32 40 32 39 (by norm_num) (by rw [hl]; exact Or.inr ⟨Or.inl rfl, by norm_num⟩)
    (by rw [hl]; norm_num) (by norm_num) (by intro w hw; simp at hw; omega) (by norm_num) (by norm_num) (by norm_num) (by norm_num)
    (by norm_num) e32 (by rw [hl]; norm_num) (100 / 3) 0 3 0 (by norm_num) (by norm_num)
    (fun n => if 3 * n % 100 ≤ 9 then 10 else 0) (by rw [Rat.cast_one]; exact hpul) (fun n hn => hd n (by rwa [hl] at hn))
  rw [hl] at hok
  obtain ⟨o1, o2, o3, o4, o5, o6, o7⟩ := hok
  have hmb : t.m * t.b ≤ t.n := by rw [o5]; exact Nat.div_mul_le_self _ _
  have h64 : 64 ≤ t.n := by nlinarith
  have hf16 : t.f ≤ 16 := by
    have h1 : ((64 : ℕ) : ℚ) ≤ t.n := by exact_mod_cast h64
    have h2 := mul_le_mul_of_nonneg_right h1 (by linarith : 0 ≤ t.f)
    push_cast at h2 o3
    norm_num at o3
    linarith
  have hn : t.n ≤ 1000 := by
    have h1 := mul_le_mul_of_nonneg_left o1 (Nat.cast_nonneg t.n : (0 : ℚ) ≤ t.n)
    have h2 : (t.n : ℚ) < ((1001 : ℕ) : ℚ) := by
      push_cast at o3 ⊢
      norm_num at o3
      linarith
    have : t.n < 1001 := by exact_mod_cast h2
    omega
  have hm : t.m ≤ 31 := by
    rw [o5]
    calc t.n / t.b ≤ 1000 / 32 := Nat.div_le_div hn o2.1 (by norm_num)
      _ = 31 := by norm_num
  have hcl : Nat.clog 2 t.m ≤ 5 := (Nat.clog_mono_right 2 hm).trans (by decide)
  have hcl1 : 1 ≤ Nat.clog 2 t.m := Nat.clog_pos (by norm_num) o6
  have hce : ⌈t.f⌉₊ ≤ 16 := Nat.ceil_le.mpr (by exact_mod_cast hf16)
  have hKR : ((26 + ⌈t.f⌉₊ + Nat.clog 2 t.m : ℕ) : ℝ) ≤ ((47 : ℕ) : ℝ) := by exact_mod_cast (by omega)
  obtain ⟨S, s1, s2⟩ := key (by push_cast at hKR ⊢; linarith) 0 12 rfl (by
    unfold DTrial.smearing
    have h1 : (t.b : ℝ) ≤ 39 := by exact_mod_cast o2.2
    have h2 : (t.m : ℝ) ≤ 31 := by exact_mod_cast hm
    have h3 : (Nat.clog 2 t.m : ℝ) ≤ 5 := by exact_mod_cast hcl
    have h3' : (1 : ℝ) ≤ Nat.clog 2 t.m := by exact_mod_cast hcl1
    have h4 : (if t.f = 1 then (2 : ℝ) else 4) ≤ 4 := by split_ifs <;> norm_num
    have h5 : (1 + (t.m : ℝ) / 2 ^ 22) * ((Nat.clog 2 t.m : ℝ) - 1) ≤ (1 + 31 / 2 ^ 22) * (5 - 1) := by
      apply mul_le_mul
      · linarith
      · linarith
      · linarith
      · norm_num
    push_cast
    norm_num at h5 ⊢
    linarith)
  refine ⟨per, fb, snr, j, row, t, V, S, data, hd, e, e3, s1, ⟨o1, o2, o3, o4, o5, o6, o7⟩, hV, hre, s2 940 ?_⟩
  rw [hl]
  have : (t.f : ℝ) ≤ 16 := by exact_mod_cast hf16
  push_cast
  linarith

/-! ## Noise -/

/-- The noise variance is at least half the number of samples in a window. -/
theorem dtrial_variance_half {t : DTrial} {V : ℚ} (h : t.IsVariance V) (hf : 1 ≤ t.f) (hn : 4 ≤ t.n) : t.f ≤ 2 * V := by
  have hfl := Int.floor_le t.f
  have hfu := Int.lt_floor_add_one t.f
  have hk : 1 ≤ ⌊t.f⌋ := by rw [Int.le_floor]; exact_mod_cast hf
  have hn4 : (4 : ℚ) ≤ t.n := by exact_mod_cast hn
  have hx4 : 4 * (t.f - ⌊t.f⌋) ≤ (t.n : ℚ) * (t.f - ⌊t.f⌋) := mul_le_mul_of_nonneg_right hn4 (by linarith)
  rcases h with ⟨rfl, _⟩ | ⟨rfl, _⟩
  · linarith
  · generalize (t.n : ℚ) * (t.f - ⌊t.f⌋) = x at *
    rcases hk.eq_or_lt with hk | hk
    · have hk1 : (⌊t.f⌋ : ℚ) = 1 := by exact_mod_cast hk.symm
      rw [hk1] at hx4 ⊢
      nlinarith [sq_nonneg (x - 27 / 32)]
    · have hk2 : (2 : ℚ) ≤ ⌊t.f⌋ := by exact_mod_cast hk
      generalize (⌊t.f⌋ : ℚ) = k at *
      nlinarith [sq_nonneg (x - 3 / 4), sq_nonneg (k - 2)]

theorem noise_exp {f V x : ℝ} (hf : 0 < f) (hV : 0 < V) (h : f ≤ 2 * V) : Real.exp (-x ^ 2 / (2 * (f / V))) ≤ Real.exp (-x ^ 2 / 4) := by
  apply Real.exp_le_exp.mpr
  rw [neg_div, neg_div, neg_le_neg_iff]
  apply div_le_div_of_nonneg_left (sq_nonneg x) (by positivity)
  have : f / V ≤ 2 := by rwa [div_le_iff₀ hV]
  linarith

theorem dtrial_count {t : DTrial} {N bmin bmax : ℕ} (hok : t.OK N bmin bmax) (hb2 : 2 ≤ bmin) : 4 ≤ t.n := by
  have h1 := hok.two
  have h2 := hok.bins.1
  have h3 : t.m * t.b ≤ t.n := by rw [hok.rows]; exact Nat.div_mul_le_self _ _
  nlinarith

open MeasureTheory ProbabilityTheory in
/-- C115, in noise: if independent noise of at most unit standard deviation is added to the samples, the stored S/N falls short of the
bound of `C115_any_period` by `x` or more with probability at most `exp(-x²/4)`. -/
theorem C115_in_noise {A : DArith} {B : FArith} {u v : ℝ} (hA : Sane A) (hG : Grid A) (h : Rounds B u v) (hu : 1 / 2 ^ 24 ≤ u) (idx : IdxRule)
    (N : ℕ) (tsamp : ℚ) (widths : List ℕ) (hne : widths ≠ []) (pmin pmax : ℚ) (bmin bmax : ℕ) (hb : bmax * v ≤ u)
    (hidx : IdxFor idx (N / bmin)) (hN : N ≤ 2 ^ 25) (hbins : bmax < 2 ^ 32) (hw : ∀ w ∈ widths, 0 < w ∧ w < bmin)
    (ht : 0 < tsamp) (hp : 0 < pmin) (hpp : pmin < pmax) (hb2 : 2 ≤ bmin) (hbb : bmin ≤ bmax) (hbp : A.fl (tsamp * bmin) ≤ pmin)
    (h2 : 2 * pmax ≤ N * tsamp) (P φ D base : ℝ) (hP1 : (1 + 1 / 2 ^ 48) * pmin ≤ P) (hP2 : P ≤ (1 - 1 / 2 ^ 30) * pmax)
    (pulse : ℕ → ℝ) (hpul : Pulsed pulse tsamp P φ D)
    {Ω : Type*} [MeasurableSpace Ω] (μ : Measure Ω) [IsProbabilityMeasure μ] (ξ : ℕ → Ω → ℝ) (hind : iIndepFun ξ μ)
    (hsub : ∀ i, HasSubgaussianMGF (ξ i) 1 μ) (X : Ω → List ℝ) (hlen : ∀ ω, (X ω).length = N)
    (hX : ∀ ω, ∀ n < N, (X ω).getD n 0 = base + pulse n + ξ n ω) :
    ∃ (per : List ℚ) (fb : List ℕ) (S : Ω → List (List ℝ)) (j : ℕ) (p : ℚ) (t : DTrial) (V : ℚ),
      (∀ ω, A.binding (B.searchOps A) idx (X ω) tsamp widths pmin pmax bmin bmax = .ok (per, fb, S ω)) ∧
      per[j]? = some p ∧ fb[j]? = some t.b ∧ t.OK N bmin bmax ∧ t.IsVariance V ∧ 1 / 2 ≤ V ∧
      |p - t.period tsamp| ≤ 1 / 2 ^ 50 * t.period tsamp ∧ t.Reaches tsamp P ∧
      ((26 + ⌈t.f⌉₊ + Nat.clog 2 t.m : ℕ) * u < 1 → ∀ (k w : ℕ), widths[k]? = some w → D / P * t.b + t.smearing ≤ w →
        ∃ W : Ω → ℝ, (∀ ω, (S ω)[j]?.bind (·[k]?) = some (W ω)) ∧
        ∀ K : ℕ, (K + 1) * tsamp + P + t.f * tsamp ≤ N * tsamp → ∀ x, 0 ≤ x →
          μ.real {ω | W ω ≤ ((∑ n ∈ range K, pulse n) * Real.sqrt (((t.b : ℝ) - w) / (t.b * w)) - |base| / 2 ^ 28 -
            gam u (26 + ⌈t.f⌉₊ + Nat.clog 2 t.m) * (10 * Real.sqrt ((t.b : ℝ) / (w * (t.b - w))) * ∑ i ∈ range N, |(X ω).getD i 0|)) /
            Real.sqrt (t.m * V) - x} ≤ Real.exp (-x ^ 2 / 4)) := by
  have hr := range_of hA hN hbins ht hp hpp hb2 hbb hbp h2
  obtain ⟨i, b, s, hm, c1, c2, c3, c4⟩ := d_cover hA hr hN h2 hP1 hP2
  obtain ⟨j, hj⟩ := List.getElem?_of_mem hm
  have hok := toTrial_ok hA hr hm
  have hpR : (0 : ℝ) < pmin := by exact_mod_cast hp
  have htR : (0 : ℝ) < tsamp := by exact_mod_cast ht
  have hP0 : 0 < P := by
    have : (0 : ℝ) < (1 + 1 / 2 ^ 48) * pmin := by positivity
    linarith
  obtain ⟨V, v1, v2, v3⟩ := trial_close hA hG h hu hr hN idx widths hne hidx hb hw hm
  have hf := d_f_ge_one hA hr i
  refine ⟨_, _, _, j, _, toTrial A ⟨N, tsamp, pmin, pmax, bmin, bmax⟩ (i, b, s), V,
    fun ω => search_ok hA hN hbins ht hp hpp hb2 hbb hbp h2 (B.searchOps A) idx widths hne hidx (X ω) (hlen ω),
    by rw [List.getElem?_map, hj]; rfl, ?_, hok, v1, v2, toTrial_period hA hr hm, ?_, ?_⟩
  · rw [List.getElem?_map, hj, Option.map_some, Nat.mod_eq_of_lt]
    · rfl
    · exact lt_of_le_of_lt hok.bins.2 hbins
  · exact reach_of_drift (t := toTrial A _ (i, b, s)) (by simp only [toTrial]; linarith) ht hP0 (hb2.trans hok.bins.1) hok.two hok.shift rfl c3 c4
  intro hK k w hk hwide
  obtain ⟨hk', rfl⟩ := List.getElem?_eq_some_iff.mp hk
  obtain ⟨w0, w1⟩ := hw _ (List.getElem_mem hk')
  have hwb := w1.trans_le hok.bins.1
  refine ⟨fun ω => dSnr A ⟨N, tsamp, pmin, pmax, bmin, bmax⟩ (B.searchOps A) idx (fun i => (X ω).getD i default) widths (i, b, s) k, ?_, ?_⟩
  · intro ω
    rw [List.getElem?_map, hj, Option.map_some, Option.bind_some, List.getElem?_map, List.getElem?_range hk']
    rfl
  intro K hKK x hx
  have hVR : (0 : ℝ) < V := by
    have : (0 : ℚ) < V := by linarith
    exact_mod_cast this
  have hfR : (0 : ℝ) < ((toTrial A ⟨N, tsamp, pmin, pmax, bmin, bmax⟩ (i, b, s)).f : ℝ) := by
    have : (0 : ℚ) < (toTrial A ⟨N, tsamp, pmin, pmax, bmin, bmax⟩ (i, b, s)).f := by have := hok.factor; linarith
    exact_mod_cast this
  have hmR : (0 : ℝ) < ((toTrial A ⟨N, tsamp, pmin, pmax, bmin, bmax⟩ (i, b, s)).m : ℝ) := by exact_mod_cast (by have := hok.two; omega : 0 < (toTrial A ⟨N, tsamp, pmin, pmax, bmin, bmax⟩ (i, b, s)).m)
  have hstd : 0 < Real.sqrt ((toTrial A ⟨N, tsamp, pmin, pmax, bmin, bmax⟩ (i, b, s)).m * V) := Real.sqrt_pos.mpr (by positivity)
  have hM : (toTrial A ⟨N, tsamp, pmin, pmax, bmin, bmax⟩ (i, b, s)).m ≤ N / bmin := by
    refine (Nat.div_le_div_right (d_n_le_size hA hr i)).trans (Nat.div_le_div_left hok.bins.1 (by omega))
  -- without noise
  obtain ⟨e0, he0, _⟩ := C11_matched_filter_unique b widths[k] w0 hwb
    (stack (toTrial A ⟨N, tsamp, pmin, pmax, bmin, bmax⟩ (i, b, s)).m b (sigma idx (toTrial A ⟨N, tsamp, pmin, pmax, bmin, bmax⟩ (i, b, s)).m)
      (fun r c => downsampled N (fun n => base + pulse n) (toTrial A ⟨N, tsamp, pmin, pmax, bmin, bmax⟩ (i, b, s)).f (r * b + c)) s) _ hstd
  have low := dtrial_pulses (P := P) (D := D) (φ := φ) (base := base) (x := fun n => base + pulse n) hok hN htR hP0 hb2 c1 c2 c3 c4
    (shifts_for hidx hok.two hM).2 hVR w0 hwb hpul (fun _ _ => rfl) hwide he0 hKK
  -- with noise
  have hall : ∀ ω, ∃ e, IsMatchedSnr b widths[k] (stack (toTrial A ⟨N, tsamp, pmin, pmax, bmin, bmax⟩ (i, b, s)).m b (sigma idx (toTrial A ⟨N, tsamp, pmin, pmax, bmin, bmax⟩ (i, b, s)).m)
      (fun r c => downsampled N (fun n => (X ω).getD n 0) (toTrial A ⟨N, tsamp, pmin, pmax, bmin, bmax⟩ (i, b, s)).f (r * b + c)) s)
        (Real.sqrt ((toTrial A ⟨N, tsamp, pmin, pmax, bmin, bmax⟩ (i, b, s)).m * V)) e ∧
      |dSnr A ⟨N, tsamp, pmin, pmax, bmin, bmax⟩ (B.searchOps A) idx (fun i => (X ω).getD i default) widths (i, b, s) k - e| ≤ gam u (trialOps (toTrial A ⟨N, tsamp, pmin, pmax, bmin, bmax⟩ (i, b, s))) *
          (10 * Real.sqrt ((b : ℝ) / (widths[k] * (b - widths[k]))) * (∑ i ∈ range N, |(X ω).getD i 0|) /
            Real.sqrt ((toTrial A ⟨N, tsamp, pmin, pmax, bmin, bmax⟩ (i, b, s)).m * V)) := by
    intro ω
    obtain ⟨e, e1, e2⟩ := v3 (X ω) (hlen ω) hK k hk'
    unfold exactProfile at e1
    rw [hlen ω] at e1 e2
    exact ⟨e, e1, e2⟩
  choose e e1 e2 using hall
  have hn := (trial_noise hind hsub w0 hwb hfR.le hVR (by have := hok.two; omega) hX he0 e1 hx).1
  have hhalf : ((toTrial A ⟨N, tsamp, pmin, pmax, bmin, bmax⟩ (i, b, s)).f : ℝ) ≤ 2 * V := by exact_mod_cast dtrial_variance_half v1 hok.factor (dtrial_count hok hb2)
  refine (measureReal_mono ?_ (measure_ne_top _ _)).trans (hn.trans (noise_exp hfR hVR hhalf))
  intro ω hω
  simp only [Set.mem_ofPred_eq] at hω ⊢
  have e3 := (abs_le.mp (e2 ω)).1
  rw [sub_div] at hω
  change _ ≤ _ - gam u (trialOps (toTrial A ⟨N, tsamp, pmin, pmax, bmin, bmax⟩ (i, b, s))) *
          (10 * Real.sqrt ((b : ℝ) / (widths[k] * (b - widths[k]))) * (∑ i ∈ range N, |(X ω).getD i 0|)) /
            Real.sqrt ((toTrial A ⟨N, tsamp, pmin, pmax, bmin, bmax⟩ (i, b, s)).m * V) - x at hω
  have e4 : gam u (trialOps (toTrial A ⟨N, tsamp, pmin, pmax, bmin, bmax⟩ (i, b, s))) *
          (10 * Real.sqrt ((b : ℝ) / (widths[k] * (b - widths[k]))) * (∑ i ∈ range N, |(X ω).getD i 0|) /
            Real.sqrt ((toTrial A ⟨N, tsamp, pmin, pmax, bmin, bmax⟩ (i, b, s)).m * V)) =
        gam u (trialOps (toTrial A ⟨N, tsamp, pmin, pmax, bmin, bmax⟩ (i, b, s))) *
          (10 * Real.sqrt ((b : ℝ) / (widths[k] * (b - widths[k]))) * (∑ i ∈ range N, |(X ω).getD i 0|)) /
            Real.sqrt ((toTrial A ⟨N, tsamp, pmin, pmax, bmin, bmax⟩ (i, b, s)).m * V) := by ring
  rw [e4] at e3
  have low' : ((∑ n ∈ range K, pulse n) * Real.sqrt (((b : ℝ) - widths[k]) / (b * widths[k])) - |base| / 2 ^ 28) /
      Real.sqrt ((toTrial A ⟨N, tsamp, pmin, pmax, bmin, bmax⟩ (i, b, s)).m * V) ≤ e0 := low
  simp only [toTrial] at hω low' e3 ⊢
  linarith

open MeasureTheory ProbabilityTheory in
/-- C115, false alarms: a search of pure noise stores an S/N above `x` plus the bound on the rounding errors with probability at most
`(number of widths) · (sum of the numbers of phase bins of all trials) · exp(-x²/4)`. -/
theorem C115_false_alarms {A : DArith} {B : FArith} {u v : ℝ} (hA : Sane A) (hG : Grid A) (h : Rounds B u v) (hu : 1 / 2 ^ 24 ≤ u) (idx : IdxRule)
    (N : ℕ) (tsamp : ℚ) (widths : List ℕ) (hne : widths ≠ []) (pmin pmax : ℚ) (bmin bmax : ℕ) (hb : bmax * v ≤ u)
    (hidx : IdxFor idx (N / bmin)) (hN : N ≤ 2 ^ 25) (hbins : bmax < 2 ^ 32) (hw : ∀ w ∈ widths, 0 < w ∧ w < bmin)
    (ht : 0 < tsamp) (hp : 0 < pmin) (hpp : pmin < pmax) (hb2 : 2 ≤ bmin) (hbb : bmin ≤ bmax) (hbp : A.fl (tsamp * bmin) ≤ pmin)
    (h2 : 2 * pmax ≤ N * tsamp)
    {Ω : Type*} [MeasurableSpace Ω] (μ : Measure Ω) [IsProbabilityMeasure μ] (ξ : ℕ → Ω → ℝ) (hind : iIndepFun ξ μ)
    (hsub : ∀ i, HasSubgaussianMGF (ξ i) 1 μ) (X : Ω → List ℝ) (hlen : ∀ ω, (X ω).length = N)
    (hX : ∀ ω, ∀ n < N, (X ω)[n]? = some (ξ n ω)) :
    ∃ (per : List ℚ) (fb : List ℕ) (S : Ω → List (List ℝ)) (ts : List (DTrial × ℚ)),
      (∀ ω, A.binding (B.searchOps A) idx (X ω) tsamp widths pmin pmax bmin bmax = .ok (per, fb, S ω)) ∧ ts.length = per.length ∧
      (∀ ω, (S ω).length = per.length ∧ ∀ row ∈ S ω, row.length = widths.length) ∧
      (∀ (j : ℕ) t V, ts[j]? = some (t, V) → fb[j]? = some t.b ∧ t.OK N bmin bmax ∧ t.IsVariance V ∧ 1 / 2 ≤ V ∧
        ∃ p, per[j]? = some p ∧ |p - t.period tsamp| ≤ 1 / 2 ^ 50 * t.period tsamp) ∧
      ∀ x, 0 ≤ x → μ.real {ω | ∃ (j k w : ℕ) (t : DTrial) (V : ℚ) (W : ℝ), ts[j]? = some (t, V) ∧ widths[k]? = some w ∧
        (S ω)[j]?.bind (·[k]?) = some W ∧ (26 + ⌈t.f⌉₊ + Nat.clog 2 t.m : ℕ) * u < 1 ∧
        x + gam u (26 + ⌈t.f⌉₊ + Nat.clog 2 t.m) * (10 * Real.sqrt ((t.b : ℝ) / (w * (t.b - w))) * ∑ i ∈ range N, |(X ω).getD i 0|) /
            Real.sqrt (t.m * V) ≤ W} ≤ widths.length * fb.sum * Real.exp (-x ^ 2 / 4) := by
  have hr := range_of hA hN hbins ht hp hpp hb2 hbb hbp h2
  have hall : ∀ q ∈ dTrials A ⟨N, tsamp, pmin, pmax, bmin, bmax⟩, ∃ V : ℚ, _ := fun q hq =>
    trial_close hA hG h hu hr hN idx widths hne hidx hb hw hq
  choose! V v1 v2 v3 using hall
  refine ⟨_, _, _, (dTrials A ⟨N, tsamp, pmin, pmax, bmin, bmax⟩).map (fun q => (toTrial A ⟨N, tsamp, pmin, pmax, bmin, bmax⟩ q, V q)),
    fun ω => search_ok hA hN hbins ht hp hpp hb2 hbb hbp h2 (B.searchOps A) idx widths hne hidx (X ω) (hlen ω), by simp, ?_, ?_, ?_⟩
  · intro ω
    refine ⟨by simp, ?_⟩
    intro row hrow
    obtain ⟨q, _, rfl⟩ := List.mem_map.mp hrow
    simp
  · intro j t V' ht'
    rw [List.getElem?_map, Option.map_eq_some_iff] at ht'
    obtain ⟨q, hq, e⟩ := ht'
    have hm := List.mem_of_getElem? hq
    simp only [Prod.mk.injEq] at e
    obtain ⟨rfl, rfl⟩ := e
    have hok := toTrial_ok hA hr hm
    refine ⟨?_, hok, v1 q hm, v2 q hm, _, by rw [List.getElem?_map, hq]; rfl, toTrial_period hA hr hm⟩
    rw [List.getElem?_map, hq, Option.map_some, Nat.mod_eq_of_lt]
    · rfl
    · exact lt_of_le_of_lt hok.bins.2 hbins
  intro x hx
  -- one entry
  have hentry : ∀ q ∈ dTrials A ⟨N, tsamp, pmin, pmax, bmin, bmax⟩, ∀ (k : ℕ) (hk : k < widths.length),
      μ.real {ω | (26 + ⌈(toTrial A ⟨N, tsamp, pmin, pmax, bmin, bmax⟩ q).f⌉₊ +
          Nat.clog 2 (toTrial A ⟨N, tsamp, pmin, pmax, bmin, bmax⟩ q).m : ℕ) * u < 1 ∧
        x + gam u (26 + ⌈(toTrial A ⟨N, tsamp, pmin, pmax, bmin, bmax⟩ q).f⌉₊ +
          Nat.clog 2 (toTrial A ⟨N, tsamp, pmin, pmax, bmin, bmax⟩ q).m) * (10 * Real.sqrt ((q.2.1 : ℝ) / (widths[k] * (q.2.1 - widths[k]))) *
            ∑ i ∈ range N, |(X ω).getD i 0|) / Real.sqrt ((toTrial A ⟨N, tsamp, pmin, pmax, bmin, bmax⟩ q).m * V q) ≤
          dSnr A ⟨N, tsamp, pmin, pmax, bmin, bmax⟩ (B.searchOps A) idx (fun i => (X ω).getD i default) widths q k} ≤
        q.2.1 * Real.exp (-x ^ 2 / 4) := by
    intro q hm k hk
    obtain ⟨i, b, s⟩ := q
    have hok := toTrial_ok hA hr hm
    obtain ⟨w0, w1⟩ := hw _ (List.getElem_mem hk)
    have hwb := w1.trans_le hok.bins.1
    by_cases hK : (26 + ⌈(toTrial A ⟨N, tsamp, pmin, pmax, bmin, bmax⟩ (i, b, s)).f⌉₊ +
          Nat.clog 2 (toTrial A ⟨N, tsamp, pmin, pmax, bmin, bmax⟩ (i, b, s)).m : ℕ) * u < 1
    swap
    · simp only [hK, false_and]
      rw [show {ω : Ω | False} = ∅ from rfl, measureReal_empty]
      positivity
    simp only [hK, true_and]
    have hVR : (0 : ℝ) < V (i, b, s) := by
      have : (0 : ℚ) < V (i, b, s) := by have := v2 _ hm; linarith
      exact_mod_cast this
    have hfR : (0 : ℝ) < ((toTrial A ⟨N, tsamp, pmin, pmax, bmin, bmax⟩ (i, b, s)).f : ℝ) := by
      have : (0 : ℚ) < (toTrial A ⟨N, tsamp, pmin, pmax, bmin, bmax⟩ (i, b, s)).f := by have := hok.factor; linarith
      exact_mod_cast this
    have hmR : (0 : ℝ) < ((toTrial A ⟨N, tsamp, pmin, pmax, bmin, bmax⟩ (i, b, s)).m : ℝ) := by
      exact_mod_cast (by have := hok.two; omega : 0 < (toTrial A ⟨N, tsamp, pmin, pmax, bmin, bmax⟩ (i, b, s)).m)
    have hstd : 0 < Real.sqrt ((toTrial A ⟨N, tsamp, pmin, pmax, bmin, bmax⟩ (i, b, s)).m * V (i, b, s)) := Real.sqrt_pos.mpr (by positivity)
    have he0 : IsMatchedSnr b widths[k] (stack (toTrial A ⟨N, tsamp, pmin, pmax, bmin, bmax⟩ (i, b, s)).m b
        (sigma idx (toTrial A ⟨N, tsamp, pmin, pmax, bmin, bmax⟩ (i, b, s)).m)
        (fun r c => downsampled N (fun _ => 0) (toTrial A ⟨N, tsamp, pmin, pmax, bmin, bmax⟩ (i, b, s)).f (r * b + c)) s)
        (Real.sqrt ((toTrial A ⟨N, tsamp, pmin, pmax, bmin, bmax⟩ (i, b, s)).m * V (i, b, s))) 0 := by
      have hz : stack (toTrial A ⟨N, tsamp, pmin, pmax, bmin, bmax⟩ (i, b, s)).m b
        (sigma idx (toTrial A ⟨N, tsamp, pmin, pmax, bmin, bmax⟩ (i, b, s)).m)
        (fun r c => downsampled N (fun _ => 0) (toTrial A ⟨N, tsamp, pmin, pmax, bmin, bmax⟩ (i, b, s)).f (r * b + c)) s = fun _ => 0 := by
        funext c
        simp [stack, downsampled, stepIntegral]
      rw [hz]
      obtain ⟨e, he, _⟩ := C11_matched_filter_unique b widths[k] w0 hwb (fun _ => 0) _ hstd
      have : e = 0 := by
        obtain ⟨⟨φ, _, τ, _, e'⟩, _⟩ := he
        rw [e']
        simp
      rwa [this] at he
    have hall : ∀ ω, ∃ e, IsMatchedSnr b widths[k] (stack (toTrial A ⟨N, tsamp, pmin, pmax, bmin, bmax⟩ (i, b, s)).m b
        (sigma idx (toTrial A ⟨N, tsamp, pmin, pmax, bmin, bmax⟩ (i, b, s)).m)
        (fun r c => downsampled N (fun n => (X ω).getD n 0) (toTrial A ⟨N, tsamp, pmin, pmax, bmin, bmax⟩ (i, b, s)).f (r * b + c)) s)
          (Real.sqrt ((toTrial A ⟨N, tsamp, pmin, pmax, bmin, bmax⟩ (i, b, s)).m * V (i, b, s))) e ∧
        |dSnr A ⟨N, tsamp, pmin, pmax, bmin, bmax⟩ (B.searchOps A) idx (fun i => (X ω).getD i default) widths (i, b, s) k - e| ≤
          gam u (trialOps (toTrial A ⟨N, tsamp, pmin, pmax, bmin, bmax⟩ (i, b, s))) *
            (10 * Real.sqrt ((b : ℝ) / (widths[k] * (b - widths[k]))) * (∑ i ∈ range N, |(X ω).getD i 0|) /
              Real.sqrt ((toTrial A ⟨N, tsamp, pmin, pmax, bmin, bmax⟩ (i, b, s)).m * V (i, b, s))) := by
      intro ω
      obtain ⟨e, e1, e2⟩ := v3 _ hm (X ω) (hlen ω) hK k hk
      unfold exactProfile at e1
      rw [hlen ω] at e1 e2
      exact ⟨e, e1, e2⟩
    choose e e1 e2 using hall
    have hn := (trial_noise hind hsub w0 hwb hfR.le hVR (by have := hok.two; omega)
      (by intro ω n hn; rw [zero_add, List.getD_eq_getElem?_getD, hX ω n hn]; rfl) he0 e1 hx).2
    have hhalf : ((toTrial A ⟨N, tsamp, pmin, pmax, bmin, bmax⟩ (i, b, s)).f : ℝ) ≤ 2 * V (i, b, s) := by
      exact_mod_cast dtrial_variance_half (v1 _ hm) hok.factor (dtrial_count hok hb2)
    refine (measureReal_mono ?_ (measure_ne_top _ _)).trans (hn.trans (mul_le_mul_of_nonneg_left (noise_exp hfR hVR hhalf) (Nat.cast_nonneg _)))
    intro ω hω
    simp only [Set.mem_ofPred_eq] at hω ⊢
    have e3 := (abs_le.mp (e2 ω)).2
    have e4 : gam u (trialOps (toTrial A ⟨N, tsamp, pmin, pmax, bmin, bmax⟩ (i, b, s))) *
            (10 * Real.sqrt ((b : ℝ) / (widths[k] * (b - widths[k]))) * (∑ i ∈ range N, |(X ω).getD i 0|) /
              Real.sqrt ((toTrial A ⟨N, tsamp, pmin, pmax, bmin, bmax⟩ (i, b, s)).m * V (i, b, s))) =
          gam u (26 + ⌈(toTrial A ⟨N, tsamp, pmin, pmax, bmin, bmax⟩ (i, b, s)).f⌉₊ +
            Nat.clog 2 (toTrial A ⟨N, tsamp, pmin, pmax, bmin, bmax⟩ (i, b, s)).m) *
            (10 * Real.sqrt ((b : ℝ) / (widths[k] * (b - widths[k]))) * (∑ i ∈ range N, |(X ω).getD i 0|)) /
              Real.sqrt ((toTrial A ⟨N, tsamp, pmin, pmax, bmin, bmax⟩ (i, b, s)).m * V (i, b, s)) := by
      unfold trialOps
      ring
    rw [e4] at e3
    linarith
  have hsubset : ∀ L : List (ℕ × ℕ × ℕ), (∀ q ∈ L, q ∈ dTrials A ⟨N, tsamp, pmin, pmax, bmin, bmax⟩) →
      μ.real {ω | ∃ q ∈ L, ∃ (k : ℕ) (hk : k < widths.length), (26 + ⌈(toTrial A ⟨N, tsamp, pmin, pmax, bmin, bmax⟩ q).f⌉₊ +
          Nat.clog 2 (toTrial A ⟨N, tsamp, pmin, pmax, bmin, bmax⟩ q).m : ℕ) * u < 1 ∧
        x + gam u (26 + ⌈(toTrial A ⟨N, tsamp, pmin, pmax, bmin, bmax⟩ q).f⌉₊ +
          Nat.clog 2 (toTrial A ⟨N, tsamp, pmin, pmax, bmin, bmax⟩ q).m) * (10 * Real.sqrt ((q.2.1 : ℝ) / (widths[k] * (q.2.1 - widths[k]))) *
            ∑ i ∈ range N, |(X ω).getD i 0|) / Real.sqrt ((toTrial A ⟨N, tsamp, pmin, pmax, bmin, bmax⟩ q).m * V q) ≤
          dSnr A ⟨N, tsamp, pmin, pmax, bmin, bmax⟩ (B.searchOps A) idx (fun i => (X ω).getD i default) widths q k} ≤
        widths.length * (L.map (fun q => q.2.1)).sum * Real.exp (-x ^ 2 / 4) := by
    intro L
    induction L with
    | nil =>
      intro _
      have : {ω : Ω | ∃ q ∈ ([] : List (ℕ × ℕ × ℕ)), ∃ (k : ℕ) (hk : k < widths.length), (26 + ⌈(toTrial A ⟨N, tsamp, pmin, pmax, bmin, bmax⟩ q).f⌉₊ +
          Nat.clog 2 (toTrial A ⟨N, tsamp, pmin, pmax, bmin, bmax⟩ q).m : ℕ) * u < 1 ∧
        x + gam u (26 + ⌈(toTrial A ⟨N, tsamp, pmin, pmax, bmin, bmax⟩ q).f⌉₊ +
          Nat.clog 2 (toTrial A ⟨N, tsamp, pmin, pmax, bmin, bmax⟩ q).m) * (10 * Real.sqrt ((q.2.1 : ℝ) / (widths[k] * (q.2.1 - widths[k]))) *
            ∑ i ∈ range N, |(X ω).getD i 0|) / Real.sqrt ((toTrial A ⟨N, tsamp, pmin, pmax, bmin, bmax⟩ q).m * V q) ≤
          dSnr A ⟨N, tsamp, pmin, pmax, bmin, bmax⟩ (B.searchOps A) idx (fun i => (X ω).getD i default) widths q k} = ∅ := by
        ext ω
        simp
      rw [this, measureReal_empty]
      positivity
    | cons q L ih =>
      intro hL
      have h1 : μ.real (⋃ k ∈ (univ : Finset (Fin widths.length)),
          {ω | (26 + ⌈(toTrial A ⟨N, tsamp, pmin, pmax, bmin, bmax⟩ q).f⌉₊ +
          Nat.clog 2 (toTrial A ⟨N, tsamp, pmin, pmax, bmin, bmax⟩ q).m : ℕ) * u < 1 ∧
        x + gam u (26 + ⌈(toTrial A ⟨N, tsamp, pmin, pmax, bmin, bmax⟩ q).f⌉₊ +
          Nat.clog 2 (toTrial A ⟨N, tsamp, pmin, pmax, bmin, bmax⟩ q).m) * (10 * Real.sqrt ((q.2.1 : ℝ) / (widths[k] * (q.2.1 - widths[k]))) *
            ∑ i ∈ range N, |(X ω).getD i 0|) / Real.sqrt ((toTrial A ⟨N, tsamp, pmin, pmax, bmin, bmax⟩ q).m * V q) ≤
          dSnr A ⟨N, tsamp, pmin, pmax, bmin, bmax⟩ (B.searchOps A) idx (fun i => (X ω).getD i default) widths q k}) ≤
          widths.length * (q.2.1 * Real.exp (-x ^ 2 / 4)) := by
        refine (measureReal_biUnion_finset_le _ _).trans ?_
        refine (sum_le_sum (fun (k : Fin widths.length) _ => hentry q (hL q (by simp)) k k.2)).trans (le_of_eq ?_)
        rw [sum_const, card_univ, Fintype.card_fin, nsmul_eq_mul]
      have h2 := ih (fun q' hq' => hL q' (List.mem_cons_of_mem _ hq'))
      refine (measureReal_mono ?_ (measure_ne_top _ _)).trans ((measureReal_union_le _ _).trans (add_le_add h1 h2) |>.trans (le_of_eq ?_))
      · rintro ω ⟨q', hq', k, hk, hh⟩
        rcases List.mem_cons.mp hq' with rfl | hq'
        · left
          simp only [Set.mem_iUnion]
          exact ⟨⟨k, hk⟩, mem_univ _, hh⟩
        · right
          exact ⟨q', hq', k, hk, hh⟩
      · rw [List.map_cons, List.sum_cons]
        push_cast
        ring
  have hsum : ((dTrials A ⟨N, tsamp, pmin, pmax, bmin, bmax⟩).map (fun q => q.2.1)) =
      ((dTrials A ⟨N, tsamp, pmin, pmax, bmin, bmax⟩).map (fun q => q.2.1 % 2 ^ 32)) := by
    apply List.map_congr_left
    intro q hq
    rw [Nat.mod_eq_of_lt]
    exact lt_of_le_of_lt (toTrial_ok hA hr hq).bins.2 hbins
  have hfin := hsubset _ (fun q hq => hq)
  rw [hsum] at hfin
  refine (measureReal_mono ?_ (measure_ne_top _ _)).trans hfin
  rintro ω ⟨j, k, w, t, V', W, g1, g2, g3, g4, g5⟩
  rw [List.getElem?_map, Option.map_eq_some_iff] at g1
  obtain ⟨q, hq, eq⟩ := g1
  simp only [Prod.mk.injEq] at eq
  obtain ⟨rfl, rfl⟩ := eq
  obtain ⟨hk, rfl⟩ := List.getElem?_eq_some_iff.mp g2
  rw [List.getElem?_map, hq, Option.map_some, Option.bind_some, List.getElem?_map, List.getElem?_range hk] at g3
  cases g3
  exact ⟨q, List.mem_of_getElem? hq, k, hk, g4, g5⟩

open MeasureTheory ProbabilityTheory in
/-- Non-vacuity of `C115_in_noise` and `C115_false_alarms`: 1000 samples of normal noise, with and without the pulses of `pulsed_example`. -/
example : ∃ (Ω : Type) (_ : MeasurableSpace Ω) (μ : Measure Ω) (ξ : ℕ → Ω → ℝ) (X Y : Ω → List ℝ) (per per' : List ℚ) (fb fb' : List ℕ)
    (S S' : Ω → List (List ℝ)) (j : ℕ) (t : DTrial) (ts : List (DTrial × ℚ)), IsProbabilityMeasure μ ∧ iIndepFun ξ μ ∧
    (∀ i, HasSubgaussianMGF (ξ i) 1 μ) ∧ (∀ ω, ∀ n < 1000, (X ω).getD n 0 = 0 + (if 3 * n % 100 ≤ 9 then 10 else 0) + ξ n ω) ∧
    (∀ ω, ∀ n < 1000, (Y ω)[n]? = some (ξ n ω)) ∧
    (∀ ω, (ieeeDouble someLog (fun x k => rn 53 (x ^ k)) true).binding (single.searchOps (ieeeDouble someLog (fun x k => rn 53 (x ^ k)) true))
      float32Idx (X ω) 1 [12] 32 40 32 39 = .ok (per, fb, S ω)) ∧ fb[j]? = some t.b ∧ t.Reaches 1 (100 / 3) ∧
    (∀ ω, (ieeeDouble someLog (fun x k => rn 53 (x ^ k)) true).binding (single.searchOps (ieeeDouble someLog (fun x k => rn 53 (x ^ k)) true))
      float32Idx (Y ω) 1 [12] 32 40 32 39 = .ok (per', fb', S' ω)) ∧ ts.length = per'.length := by
  have hA := sane_some true
  have e32 : (ieeeDouble someLog (fun x k => rn 53 (x ^ k)) true).fl (1 * ((32 : ℕ) : ℚ)) ≤ 32 := by
    rw [one_mul, hA.nat 32 (by norm_num)]
    norm_num
  obtain ⟨Ω, mΩ, μ, ξ, hp, hind, hsub, _⟩ := exists_noise
  choose X hX1 hX2 using fun ω => exists_data 1000 (fun n => 0 + (if 3 * n % 100 ≤ 9 then (10 : ℝ) else 0) + ξ n ω)
  have hpul := pulsed_example
  obtain ⟨per, fb, S, j, p, t, V, e, _, e2, _, _, _, _, hre, _⟩ := C115_in_noise hA (grid_ieee _ _ _) single_rounds
    (le_refl _) float32Idx 1000 1 [12] (by simp) 32 40 32 39 (by norm_num) (Or.inr ⟨Or.inl rfl, by norm_num⟩)
    (by norm_num) (by norm_num) (by intro w hw; simp at hw; omega) (by norm_num) (by norm_num) (by norm_num) (by norm_num)
    (by norm_num) e32 (by norm_num) (100 / 3) 0 3 0 (by norm_num) (by norm_num)
    (fun n => if 3 * n % 100 ≤ 9 then 10 else 0) (by rw [Rat.cast_one]; exact hpul) μ ξ hind hsub X hX1 hX2
  obtain ⟨Y, hY⟩ : ∃ Y : Ω → List ℝ, Y = fun ω => (List.range 1000).map (fun i => ξ i ω) := ⟨_, rfl⟩
  have hY1 : ∀ ω, (Y ω).length = 1000 := by intro ω; rw [hY, List.length_map, List.length_range]
  have hY2 : ∀ ω, ∀ n < 1000, (Y ω)[n]? = some (ξ n ω) := by
    intro ω n hn
    rw [hY, List.getElem?_map, List.getElem?_range hn]
    rfl
  obtain ⟨per', fb', S', ts, e', l', _⟩ := C115_false_alarms hA (grid_ieee _ _ _) single_rounds
    (le_refl _) float32Idx 1000 1 [12] (by simp) 32 40 32 39 (by norm_num) (Or.inr ⟨Or.inl rfl, by norm_num⟩)
    (by norm_num) (by norm_num) (by intro w hw; simp at hw; omega) (by norm_num) (by norm_num) (by norm_num) (by norm_num)
    (by norm_num) e32 (by norm_num) μ ξ hind hsub Y hY1 hY2
  exact ⟨Ω, mΩ, μ, ξ, X, Y, per, per', fb, fb', S, S', j, t, ts, hp, hind, hsub, hX2, hY2, e, e2, hre, e', l'⟩

end Verif.Props
