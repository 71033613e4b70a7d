import Verif.Props.Breakdown
import Verif.Props.AnyPeriod
import Verif.Props.Rseek

/-! # From the samples to the table of `rseek`: property C97 -/

namespace Verif.Spec

/-- Samples of a baseline between `lo` and `hi` and of pulses with period `P` and duration `D`, one of which stands out by more than twice the range of
the baseline. -/
structure PulsedData (x : List ℝ) (tsamp P φ D lo hi : ℝ) (pulse : ℕ → ℝ) : Prop where
  pulsed : Pulsed pulse tsamp P φ D
  base : ∀ i < x.length, lo ≤ x.getD i 0 - pulse i ∧ x.getD i 0 - pulse i ≤ hi
  contrast : ∃ i < x.length, 2 * (hi - lo) < pulse i

/-- The pulses are narrow compared to a running median over `n` samples with at least `m` points, in `N` samples: no pulse in the first nor the last block
of `n / m` samples, and pulses in fewer than half of the blocks of any window. A pulse lasts `⌊D/tsamp⌋ + 1` samples, pulses begin `⌊P/tsamp⌋` samples
apart. -/
structure NarrowPulses (N n m : ℕ) (tsamp P D : ℝ) (pulse : ℕ → ℝ) : Prop where
  ends : ∀ i, pulse i ≠ 0 → i / max 1 (n / m) ≠ 0 ∧ i / max 1 (n / m) + 1 ≠ N / max 1 (n / m)
  few : ((⌊D / tsamp⌋₊ + 1 + max 1 (n / m) - 2) / max 1 (n / m) + 1) *
      (((if n < 2 * m then n else m) * max 1 (n / m) + (⌊D / tsamp⌋₊ + 1) - 2) / ⌊P / tsamp⌋₊ + 1) ≤ (if n < 2 * m then n else m) / 2

end Verif.Spec

namespace Verif.Props

open Verif.Model Verif.Spec Verif.Lemmas Finset

/-- In samples, pulses of a period `P` begin at least `⌊P / tsamp⌋` samples apart. -/
theorem pulsed_in_pulses {pulse : ℕ → ℝ} {tsamp P φ D : ℝ} (ht : 0 < tsamp) (h : Pulsed pulse tsamp P φ D) (hP : 0 ≤ P) :
    InPulses (fun n => pulse n ≠ 0) ⌊P / tsamp⌋₊ (⌊D / tsamp⌋₊ + 1) := by
  refine ⟨fun k => ⌈(φ + k * P) / tsamp⌉, ?_, ?_⟩
  · intro k
    have h1 := Int.ceil_lt_add_one ((φ + k * P) / tsamp)
    have h2 := Int.le_ceil ((φ + ((k + 1 : ℤ) : ℝ) * P) / tsamp)
    have h3 := Nat.floor_le (div_nonneg hP ht.le)
    have h4 : (φ + ((k + 1 : ℤ) : ℝ) * P) / tsamp = (φ + k * P) / tsamp + P / tsamp := by
      push_cast
      ring
    rw [h4] at h2
    have h5 : ((⌈(φ + k * P) / tsamp⌉ + (⌊P / tsamp⌋₊ : ℤ) : ℤ) : ℝ) < ((⌈(φ + ((k + 1 : ℤ) : ℝ) * P) / tsamp⌉ + 1 : ℤ) : ℝ) := by
      rw [h4]
      push_cast
      linarith
    have h6 := Int.cast_lt.mp h5
    show ⌈(φ + k * P) / tsamp⌉ + (⌊P / tsamp⌋₊ : ℤ) ≤ ⌈(φ + ((k + 1 : ℤ) : ℝ) * P) / tsamp⌉
    omega
  · intro n hn
    obtain ⟨k, h1, h2⟩ := h.on n hn
    refine ⟨k, ?_, ?_⟩
    · rw [Int.ceil_le, div_le_iff₀ ht]
      exact_mod_cast h1
    · have hD : 0 ≤ D / tsamp := div_nonneg (by linarith) ht.le
      have h3 := Nat.lt_floor_add_one (D / tsamp)
      have h4 := Int.le_ceil ((φ + k * P) / tsamp)
      have h5 : (n : ℝ) ≤ (φ + k * P) / tsamp + D / tsamp := by
        rw [← add_div, le_div_iff₀ ht]
        exact h2
      have h6 : ((n : ℤ) : ℝ) < ((⌈(φ + k * P) / tsamp⌉ + ((⌊D / tsamp⌋₊ + 1 : ℕ) : ℤ) : ℤ) : ℝ) := by
        push_cast
        linarith
      exact Int.cast_lt.mp h6

theorem runningMedianOf_inv {x rmed : List ℝ} {tsamp width : ℝ} {minpts n : ℕ} (hr : runningMedianOf x tsamp width minpts = .ok rmed)
    (hn : |width / tsamp - n| < 1 / 2) : fastRunningMedian x n minpts = .ok rmed := by
  have hp := pyRound_nearest (width / tsamp)
  unfold runningMedianOf at hr
  simp only at hr
  split_ifs at hr with h1 h2
  obtain ⟨n', hn'⟩ := Int.eq_ofNat_of_zero_le h2
  rw [hn'] at hr hp
  have he : n' = n := by
    have h8 : |(n' : ℝ) - n| < 1 := by
      have := hp.1
      rw [abs_lt] at hn ⊢
      rw [abs_le] at this
      push_cast at this
      constructor <;> linarith
    have h9 : |(n' : ℤ) - n| < 1 := by exact_mod_cast h8
    rw [Int.abs_lt_one_iff] at h9
    omega
  subst he
  simp only [Int.toNat_natCast] at hr
  exact liftCall_ok hr

theorem sum_map_range (x : List ℝ) (g : ℝ → ℝ) : (x.map g).sum = ∑ i ∈ range x.length, g (x.getD i 0) := by
  induction x with
  | nil => simp
  | cons v x ih =>
    rw [List.map_cons, List.sum_cons, ih, List.length_cons, Finset.sum_range_succ']
    simp only [List.getD_cons_succ, List.getD_cons_zero]
    ring

/-- The variance is at most the mean of the squares. -/
theorem var_le (y : List ℝ) (hy : y ≠ []) : varOf y * y.length ≤ ∑ i ∈ range y.length, y.getD i 0 ^ 2 := by
  have hl : (0 : ℝ) < y.length := by exact_mod_cast List.length_pos_of_ne_nil hy
  unfold varOf
  rw [div_mul_cancel₀ _ hl.ne', sum_map_range]
  have hs : meanOf y * y.length = ∑ i ∈ range y.length, y.getD i 0 := by
    have := sum_map_range y id
    rw [List.map_id] at this
    unfold meanOf
    rw [div_mul_cancel₀ _ hl.ne', this]
    rfl
  have h1 : ∑ i ∈ range y.length, (y.getD i 0 - meanOf y) ^ 2 =
      ∑ i ∈ range y.length, y.getD i 0 ^ 2 - 2 * meanOf y * ∑ i ∈ range y.length, y.getD i 0 + y.length * meanOf y ^ 2 := by
    rw [mul_sum, ← sum_sub_distrib, ← nsmul_eq_mul, ← card_range y.length, ← sum_const, card_range, ← sum_add_distrib]
    exact sum_congr rfl (fun i _ => by ring)
  rw [h1, ← hs]
  nlinarith [mul_nonneg hl.le (sq_nonneg (meanOf y))]

/-- The standard deviation of pulses and a disturbance. -/
theorem std_le {y : List ℝ} (hy : y ≠ []) {pulse : ℕ → ℝ} {δ : ℝ} (hδ : 0 ≤ δ) (h : ∀ i < y.length, |y.getD i 0 - pulse i| ≤ δ) :
    Real.sqrt (varOf y) ≤ Real.sqrt ((∑ i ∈ range y.length, pulse i ^ 2) / y.length) + δ := by
  have hl : (0 : ℝ) < y.length := by exact_mod_cast List.length_pos_of_ne_nil hy
  rw [Real.sqrt_le_iff]
  refine ⟨by positivity, ?_⟩
  obtain ⟨A, hA⟩ : ∃ A, A = ∑ i ∈ range y.length, pulse i ^ 2 := ⟨_, rfl⟩
  obtain ⟨E, hE⟩ : ∃ E, E = ∑ i ∈ range y.length, (y.getD i 0 - pulse i) ^ 2 := ⟨_, rfl⟩
  have hA0 : 0 ≤ A := by rw [hA]; exact sum_nonneg fun i _ => sq_nonneg _
  have hEb : E ≤ y.length * δ ^ 2 := by
    rw [hE]
    refine (sum_le_sum (g := fun _ => δ ^ 2) fun i hi => ?_).trans (by simp)
    rw [← sq_abs]
    exact pow_le_pow_left₀ (abs_nonneg _) (h i (mem_range.mp hi)) 2
  have hE2 : Real.sqrt E ≤ Real.sqrt y.length * δ := by
    rw [Real.sqrt_le_iff]
    refine ⟨by positivity, ?_⟩
    rw [mul_pow, Real.sq_sqrt hl.le]
    exact hEb
  have hc : ∑ i ∈ range y.length, pulse i * (y.getD i 0 - pulse i) ≤ Real.sqrt A * Real.sqrt E := by
    rw [hA, hE]
    exact Real.sum_mul_le_sqrt_mul_sqrt _ _ _
  have hsum : ∑ i ∈ range y.length, y.getD i 0 ^ 2 = A + 2 * ∑ i ∈ range y.length, pulse i * (y.getD i 0 - pulse i) + E := by
    rw [hA, hE, mul_sum, ← sum_add_distrib, ← sum_add_distrib]
    exact sum_congr rfl (fun i _ => by ring)
  have hv := var_le y hy
  rw [hsum] at hv
  rw [← hA]
  obtain ⟨a, ha⟩ : ∃ a, a = Real.sqrt (A / y.length) := ⟨_, rfl⟩
  have ha2 : a ^ 2 * y.length = A := by rw [ha, Real.sq_sqrt (by positivity), div_mul_cancel₀ _ hl.ne']
  have haA : Real.sqrt A = a * Real.sqrt y.length := by
    rw [ha, ← Real.sqrt_mul (by positivity), div_mul_cancel₀ _ hl.ne']
  have h3 : Real.sqrt A * Real.sqrt E ≤ a * δ * y.length := by
    calc Real.sqrt A * Real.sqrt E ≤ Real.sqrt A * (Real.sqrt y.length * δ) := mul_le_mul_of_nonneg_left hE2 (Real.sqrt_nonneg _)
      _ = a * δ * (Real.sqrt y.length * Real.sqrt y.length) := by rw [haA]; ring
      _ = _ := by rw [Real.mul_self_sqrt hl.le]
  rw [← ha]
  have h4 : varOf y * y.length ≤ (a + δ) ^ 2 * y.length := by nlinarith
  exact le_of_mul_le_mul_right h4 hl

/-- Pulses with a disturbance, after normalisation. With the trial of C95, the S/N is what C95 gives for the pulses alone, less `√(2 N) δ`, divided by
the standard deviation of the data. -/
theorem pulses_normalised (idx : IdxRule) (y : List ℝ) (tsamp : ℝ) (widths : List ℕ) (hne : widths ≠ [])
    (pmin pmax : ℝ) (bmin bmax : ℕ) (hidx : IdxFor idx (y.length / bmin)) (hN : y.length ≤ 2 ^ 64)
    (hw : ∀ w ∈ widths, 0 < w ∧ w < bmin)
    (hv : PgArgs.Valid ⟨y.length, tsamp, pmin, pmax, bmin, bmax⟩) (h2 : 2 * pmax ≤ y.length * tsamp)
    (P φ D δ : ℝ) (hP1 : pmin ≤ P) (hP2 : P < pmax) (pulse : ℕ → ℝ) (hp : Pulsed pulse tsamp P φ D) (hδ : 0 ≤ δ)
    (hy : ∀ i < y.length, |y.getD i 0 - pulse i| ≤ δ) (hvar : 0 < varOf y)
    (per : List ℝ) (fb : List ℕ) (snr : List (List ℝ))
    (hpg : periodogramBinding idx (normalised y) tsamp widths pmin pmax bmin bmax = .ok (per, fb, snr)) :
    ∃ (j : ℕ) (p : ℝ) (row : List ℝ) (t : Trial),
      per[j]? = some p ∧ fb[j]? = some t.b ∧ snr[j]? = some row ∧ t.OK y.length tsamp pmin bmin bmax ∧ 1 ≤ t.f ∧
      1 / p = t.freq tsamp ∧ 0 < p ∧ p ≤ P ∧ 1 / p - 1 / P < t.step tsamp ∧
      ∀ (k w : ℕ), widths[k]? = some w → D / P * t.b + smearing t ≤ w → ∃ v, row[k]? = some v ∧
        ∀ (K : ℕ) (L : ℝ), K * tsamp + P + t.f * tsamp ≤ y.length * tsamp →
          (L ≤ (∑ n ∈ range K, pulse n) * Real.sqrt (((t.b : ℝ) - w) / (t.b * w)) /
              Real.sqrt (t.m * downsampledVariance y.length t.f) ∨
            (downsampledVariance y.length t.f ≤ t.f ∧
              L ≤ (∑ n ∈ range K, pulse n) * Real.sqrt (((t.b : ℝ) - w) / w) / Real.sqrt y.length)) →
          (L - Real.sqrt (2 * y.length) * δ) / Real.sqrt (varOf y) ≤ v := by
  obtain ⟨s, hs⟩ : ∃ s, s = Real.sqrt (varOf y) := ⟨_, rfl⟩
  have hs0 : 0 < s := by rw [hs]; exact Real.sqrt_pos.mpr hvar
  obtain ⟨z, hz⟩ : ∃ z : List ℝ, z = (List.range y.length).map fun i => -meanOf y / s + pulse i / s := ⟨_, rfl⟩
  have hzl : z.length = y.length := by rw [hz]; simp
  have hzi : ∀ n < z.length, z.getD n 0 = -meanOf y / s + pulse n / s := by
    intro n hn
    rw [hzl] at hn
    rw [hz, List.getD_eq_getElem?_getD, List.getElem?_map, List.getElem?_range hn]
    rfl
  have hp' : Pulsed (fun n => pulse n / s) tsamp P φ D :=
    ⟨fun n => div_nonneg (hp.nonneg n) hs0.le, fun n hn => hp.on n (fun h0 => hn (by simp [h0]))⟩
  obtain ⟨per', fb', snr', j, p, row, t, e, e1, e2, e3, hok, hf, hfr, hp0, hle, hst, key⟩ :=
    C95_any_period idx z tsamp widths hne pmin pmax bmin bmax (by rw [hzl]; exact hidx) (by rw [hzl]; exact hN) hw (by rw [hzl]; exact hv)
      (by rw [hzl]; exact h2) P φ D (-meanOf y / s) hP1 hP2 _ hp' hzi
  have hnl : (normalised y).length = z.length := by rw [hzl]; simp [normalised]
  obtain ⟨snr'', h', hl, hdist⟩ := C87_stable idx z (normalised y) hnl tsamp widths hne pmin pmax bmin bmax (by rw [hzl]; exact hidx)
    (by rw [hzl]; exact hN) hw per' fb' snr' e
  rw [hpg] at h'
  simp only [Except.ok.injEq, Prod.mk.injEq] at h'
  obtain ⟨rfl, rfl, rfl⟩ := h'
  obtain ⟨hj, _⟩ := List.getElem?_eq_some_iff.mp e1
  obtain ⟨hj3, _⟩ := List.getElem?_eq_some_iff.mp e3
  refine ⟨j, p, snr[j]'(by omega), t, e1, e2, List.getElem?_eq_getElem _, by rw [← hzl]; exact hok, hf, hfr, hp0, hle, hst, ?_⟩
  intro k w hkw hwide
  obtain ⟨hk, _⟩ := List.getElem?_eq_some_iff.mp hkw
  obtain ⟨v, ev, hlow⟩ := key k w hkw hwide
  obtain ⟨row1, row2, v1, v2, d1, d2, d3, d4, d5⟩ := hdist j k hj hk
  rw [e3] at d1
  cases d1
  rw [ev] at d3
  cases d3
  rw [List.getElem?_eq_getElem (by omega)] at d2
  cases d2
  refine ⟨v2, d4, ?_⟩
  intro K L hK hL
  obtain ⟨q1, q2⟩ := hlow K (by rw [hzl]; exact hK)
  rw [hzl] at q1 q2
  have hsum : ∑ n ∈ range K, pulse n / s = (∑ n ∈ range K, pulse n) / s := by rw [sum_div]
  rw [hsum] at q1 q2
  have hLv : L / s ≤ v := by
    rcases hL with hL | ⟨hvf, hL⟩
    · refine le_trans ?_ q1
      calc L / s ≤ _ / s := div_le_div_of_nonneg_right hL hs0.le
        _ = _ := by ring
    · refine le_trans ?_ (q2 hvf)
      calc L / s ≤ _ / s := div_le_div_of_nonneg_right hL hs0.le
        _ = _ := by ring
  have hds : Real.sqrt (2 * ∑ i ∈ range z.length, (z.getD i 0 - (normalised y).getD i 0) ^ 2) ≤ Real.sqrt (2 * y.length) * δ / s := by
    have hb : ∑ i ∈ range z.length, (z.getD i 0 - (normalised y).getD i 0) ^ 2 ≤ y.length * (δ / s) ^ 2 := by
      refine (sum_le_sum (g := fun _ => (δ / s) ^ 2) fun i hi => ?_).trans (by simp [hzl])
      rw [mem_range] at hi
      have hiy : i < y.length := by omega
      have e5 : (normalised y).getD i 0 = (y.getD i 0 - meanOf y) / s := by
        rw [normalised, List.getD_eq_getElem?_getD, List.getElem?_map, List.getElem?_eq_getElem hiy, List.getD_eq_getElem?_getD,
          List.getElem?_eq_getElem hiy, hs]
        rfl
      rw [hzi i hi, e5, ← sq_abs]
      refine pow_le_pow_left₀ (abs_nonneg _) ?_ 2
      rw [show -meanOf y / s + pulse i / s - (y.getD i 0 - meanOf y) / s = -((y.getD i 0 - pulse i) / s) by ring, abs_neg, abs_div,
        abs_of_pos hs0]
      exact div_le_div_of_nonneg_right (hy i hiy) hs0.le
    rw [Real.sqrt_le_iff]
    refine ⟨by positivity, ?_⟩
    rw [div_pow, mul_pow, Real.sq_sqrt (by positivity)]
    calc _ ≤ 2 * (y.length * (δ / s) ^ 2) := by linarith
      _ = _ := by ring
  have h9 := abs_le.mp d5
  rw [← hs, sub_div]
  linarith

/-- Dereddening leaves the pulses, up to the range of the baseline. -/
theorem pulses_dereddened {x r : List ℝ} {tsamp P φ D lo hi width : ℝ} {pulse : ℕ → ℝ} {n m : ℕ} (ht : 0 < tsamp) (hP : tsamp ≤ P)
    (hx : PulsedData x tsamp P φ D lo hi pulse) (hnar : NarrowPulses x.length n m tsamp P D pulse)
    (hn : |width / tsamp - n| < 1 / 2) (hr : runningMedianOf x tsamp width m = .ok r) :
    (subtractArrays x r).length = x.length ∧ lo ≤ hi ∧
      (∀ i < x.length, |(subtractArrays x r).getD i 0 - pulse i| ≤ hi - lo) ∧ 0 < varOf (subtractArrays x r) := by
  have hQ : 0 < ⌊P / tsamp⌋₊ := Nat.floor_pos.mpr ((one_le_div ht).mpr hP)
  have hrl := runningMedianOf_length hr
  have hl := subtract_length hrl
  have hin := (C96_fast (runningMedianOf_inv hr hn) (pulses_mostly (on := fun n => pulse n ≠ 0) hQ (Nat.succ_pos _) (by omega)
    (pulsed_in_pulses ht hx.pulsed (ht.le.trans hP)) (lo := lo) (hi := hi) (fun i hi' hoff => by
      have h0 : pulse i = 0 := by simpa using hoff
      have h1 := hx.base i hi'
      rw [h0, sub_zero, List.getD_eq_getElem?_getD, List.getElem?_eq_getElem hi'] at h1
      exact h1) hnar.ends hnar.few)).2
  have hget : ∀ i < x.length, ∃ q, lo ≤ q ∧ q ≤ hi ∧ (subtractArrays x r).getD i 0 = x.getD i 0 - q := by
    intro i hi'
    obtain ⟨b1, b2⟩ := hin _ (List.getElem_mem (show i < r.length by omega))
    refine ⟨_, b1, b2, ?_⟩
    rw [List.getD_eq_getElem?_getD, List.getElem?_eq_getElem (by omega), List.getD_eq_getElem?_getD, List.getElem?_eq_getElem hi']
    simp [subtractArrays]
  obtain ⟨i0, hi0, hcon⟩ := hx.contrast
  have hlo : lo ≤ hi := (hx.base i0 hi0).1.trans (hx.base i0 hi0).2
  refine ⟨hl, hlo, ?_, ?_⟩
  · intro i hi'
    obtain ⟨q, q1, q2, e⟩ := hget i hi'
    have h1 := hx.base i hi'
    rw [e, abs_le]
    constructor <;> linarith
  · have hzero : pulse 0 = 0 := by
      by_contra hc
      exact (hnar.ends 0 hc).1 (Nat.zero_div _)
    have h0 : 0 < x.length := by omega
    obtain ⟨q, q1, q2, e⟩ := hget i0 hi0
    obtain ⟨q', q1', q2', e'⟩ := hget 0 h0
    have h1 := hx.base i0 hi0
    have h2 := hx.base 0 h0
    have hmem : ∀ i < x.length, (subtractArrays x r).getD i 0 ∈ subtractArrays x r := by
      intro i hi'
      rw [List.getD_eq_getElem?_getD, List.getElem?_eq_getElem (by omega)]
      exact List.getElem_mem _
    refine varOf_pos (hmem i0 hi0) (hmem 0 h0) ?_
    rw [e, e']
    rw [hzero] at h2
    intro hc
    linarith

/-- C97. From the samples to the table. `rseek` is run on a series that has a baseline between two bounds and narrow pulses of any searched period `P`.
Then there is a period trial at most `P` and less than one frequency step from `P`, and for each width trial `w` of at least `(D/P) b + smearing` bins the
S/N is at least `(L - √(2N) (hi - lo)) / (R + hi - lo)`. Here `L` is the bound of C95 for the pulses alone, and `R` the root mean square of the pulses.
If this exceeds the thresholds, the program returns a table, and a row of it has at least this S/N and is linked to the trial by a chain of significant
points with steps within the clustering radius. -/
theorem C97_rseek (idx : IdxRule) (argsort : List ℝ → List ℕ) (hsort : IsArgsort argsort) (fit : List ℝ → List ℝ → ℝ → ℝ)
    (a : RseekArgs) (w : World) (id : ℕ) (o : TsObj) (ho : w.objs[id]? = some o) (hg : GoodSeries w o)
    (hidx : IdxFor idx ((w.dataOf o).length / a.bmin)) (hcl : 0 ≤ a.clrad) (out : Option (List (Peak ℝ)))
    (h : rseekRun idx argsort fit a w id = .ok out) (hN : (w.dataOf o).length ≤ 2 ^ 64) (h2 : 2 * a.pmax ≤ w.lengthOf o)
    (m n : ℕ) (hm : a.rmedMinpts = .int m) (hn : |a.rmedWidth / o.tsamp - n| < 1 / 2)
    (P φ D lo hi : ℝ) (hP1 : a.pmin ≤ P) (hP2 : P < a.pmax) (pulse : ℕ → ℝ)
    (hx : PulsedData (w.dataOf o) o.tsamp P φ D lo hi pulse) (hnar : NarrowPulses (w.dataOf o).length n m o.tsamp P D pulse) :
    ∃ (g : Pgram ℝ) (thr : ℕ → ℝ → ℝ) (j : ℕ) (p : ℝ) (t : Trial),
      g.widths = generateWidthTrials a.bmin (3 / 10) a.wtsp ∧ (∀ iw < g.widths.length, thresholdOf fit a.peaks g iw = .ok (thr iw)) ∧
      g.periods[j]? = some p ∧ g.foldbins[j]? = some t.b ∧ t.OK (w.dataOf o).length o.tsamp a.pmin a.bmin a.bmax ∧ 1 ≤ t.f ∧
      1 / p = t.freq o.tsamp ∧ 0 < p ∧ p ≤ P ∧ 1 / p - 1 / P < t.step o.tsamp ∧
      ∀ (k wd : ℕ), g.widths[k]? = some wd → D / P * t.b + smearing t ≤ wd →
        ∀ (K : ℕ) (L S : ℝ), K * o.tsamp + P + t.f * o.tsamp ≤ w.lengthOf o →
          (L ≤ (∑ i ∈ range K, pulse i) * Real.sqrt (((t.b : ℝ) - wd) / (t.b * wd)) /
              Real.sqrt (t.m * downsampledVariance (w.dataOf o).length t.f) ∨
            (downsampledVariance (w.dataOf o).length t.f ≤ t.f ∧
              L ≤ (∑ i ∈ range K, pulse i) * Real.sqrt (((t.b : ℝ) - wd) / wd) / Real.sqrt (w.dataOf o).length)) →
          0 ≤ S → S * (Real.sqrt ((∑ i ∈ range (w.dataOf o).length, pulse i ^ 2) / (w.dataOf o).length) + (hi - lo)) ≤
            L - Real.sqrt (2 * (w.dataOf o).length) * (hi - lo) →
          S ≤ snrAt g k j ∧
          (a.smin < S → thr k (1 / p) < S → ∃ table, out = some table ∧ ∃ row ∈ table, S ≤ row.snr ∧ row.freq = 1 / row.period ∧
            Linked (SignificantAny g thr a.smin) (fun k => freqAt g k.2) (a.clrad / w.lengthOf o) (row.iw, row.ip) (k, j)) := by
  obtain ⟨r, g, thr, hr, gw, gt, hpg, hthr, hnone, htab⟩ := C80_rseek idx argsort hsort fit a w id o ho hg hidx hcl out h
  rw [hm, runningMedianNum_int] at hr
  have hlen : (normalised (subtractArrays (w.dataOf o) r)).length = (w.dataOf o).length := by
    rw [normalised, List.length_map, subtract_length (runningMedianOf_length hr)]
  have hne : g.widths ≠ [] := by
    rw [gw]
    intro hc
    have := (C24_width_trials a.bmin (3 / 10) a.wtsp).2.1
    rw [hc] at this
    simp at this
  obtain ⟨pa, hpa, hv, _⟩ := pg_ok_inv hne (by rw [hlen]; exact hidx) hpg
  rw [hpa, hlen] at hv
  have hts : 0 < o.tsamp := hv.1
  have hb2 : 1 < a.bmin := hv.2.2.2.1
  have hP0 : o.tsamp ≤ P := by
    have h3 := hv.2.2.2.2.2
    simp only at h3
    have h4 : (1 : ℝ) ≤ a.bmin := by exact_mod_cast hb2.le
    nlinarith
  obtain ⟨hl, hlo, hdist, hvar⟩ := pulses_dereddened hts hP0 hx hnar hn hr
  have hwv : ∀ wd ∈ g.widths, 0 < wd ∧ wd < a.bmin := by
    rw [gw]; exact C24_widths_valid a.bmin hb2 (3 / 10) a.wtsp (by norm_num) a.bmin le_rfl
  obtain ⟨j, p, row, t, e1, e2, e3, hok, hf, hfr, hp0, hle, hst, key⟩ := pulses_normalised idx (subtractArrays (w.dataOf o) r) o.tsamp g.widths hne
    a.pmin a.pmax a.bmin a.bmax (by rw [hl]; exact hidx) (by rw [hl]; exact hN) hwv (by rw [hl]; exact hv) (by rw [hl]; exact h2)
    P φ D (hi - lo) hP1 hP2 pulse hx.pulsed (by linarith) (by rw [hl]; exact hdist) hvar g.periods g.foldbins g.snrs hpg
  rw [hl] at hok key
  refine ⟨g, thr, j, p, t, gw, hthr, e1, e2, hok, hf, hfr, hp0, hle, hst, ?_⟩
  intro k wd hk hwide K L S hK hL hS0 hS
  obtain ⟨v, ev, hv'⟩ := key k wd hk hwide
  have hb := hv' K L hK hL
  have hsnr : snrAt g k j = v := by simp [snrAt, List.getD, e3, ev]
  have hs0 := Real.sqrt_pos.mpr hvar
  have hstd := std_le (y := subtractArrays (w.dataOf o) r) (by
    intro hc
    rw [hc] at hs0
    simp [varOf] at hs0) (δ := hi - lo) (by linarith) (by rw [hl]; exact hdist)
  rw [hl] at hstd
  have hSv : S ≤ v := by
    refine le_trans ?_ hb
    rw [le_div_iff₀ hs0]
    exact (mul_le_mul_of_nonneg_left hstd hS0).trans hS
  refine ⟨by rw [hsnr]; exact hSv, ?_⟩
  intro hsm hth
  have hf' : freqAt g j = 1 / p := by simp [freqAt, List.getD, e1]
  have hsig : SignificantAny g thr a.smin (k, j) := by
    refine ⟨(List.getElem?_eq_some_iff.mp hk).1, (List.getElem?_eq_some_iff.mp e1).1, ?_, ?_⟩
    · simp only; rw [hf', hsnr]; linarith
    · simp only; rw [hsnr]; linarith
  cases hout : out with
  | none => exact absurd hsig (hnone.mp hout (k, j))
  | some table =>
    obtain ⟨_, c2, _, c4⟩ := htab table hout
    obtain ⟨row', hrow, hs, hlink⟩ := c4 _ hsig
    simp only [hsnr] at hs
    exact ⟨table, rfl, row', hrow, hSv.trans hs, (c2 row' hrow).2.2.2.1, hlink⟩

theorem forall₂_mem_left {α β : Type*} {R : α → β → Prop} {l : List α} {r : List β} (h : List.Forall₂ R l r) {a : α}
    (ha : a ∈ l) : ∃ b ∈ r, R a b := by
  induction h with
  | nil => cases ha
  | cons h _ ih =>
    rcases List.mem_cons.mp ha with rfl | ha
    · exact ⟨_, by simp, h⟩
    · obtain ⟨b, hb, hab⟩ := ih ha
      exact ⟨b, by simp [hb], hab⟩

/-- C97, for a file of the pipeline: if the period is inside one of the searched ranges, the S/N in the search of this range has the same lower bound,
and if it exceeds the thresholds, `process_fname` returns a peak with the DM of the file and at least this S/N, linked to the trial. -/
theorem C97_worker (idx : IdxRule) (argsort : List ℝ → List ℕ) (hsort : IsArgsort argsort) (fit : List ℝ → List ℝ → ℝ → ℝ)
    (rmedWidth : ℝ) (m : ℕ) (confs : List RangeConf) (w : World) (id : ℕ) (o : TsObj) (ho : w.objs[id]? = some o)
    (hg : GoodSeries w o) (dm : ℝ) (hdm : dictGet (w.metaOf o) "dm" = some (.num dm)) (peaks : List (Peak ℝ × ℝ))
    (h : processLoaded idx argsort fit rmedWidth m confs w id = .ok peaks) (hN : (w.dataOf o).length ≤ 2 ^ 64)
    (c : RangeConf) (hc : c ∈ confs) (hidx : IdxFor idx ((w.dataOf o).length / c.search.binsMin)) (hdc : c.search.ducyMax < 1)
    (h2 : 2 * c.search.periodMax ≤ w.lengthOf o) (n : ℕ) (hn : |rmedWidth / o.tsamp - n| < 1 / 2)
    (P φ D lo hi : ℝ) (hP1 : c.search.periodMin ≤ P) (hP2 : P < c.search.periodMax) (pulse : ℕ → ℝ)
    (hx : PulsedData (w.dataOf o) o.tsamp P φ D lo hi pulse) (hnar : NarrowPulses (w.dataOf o).length n m o.tsamp P D pulse) :
    ∃ (g : Pgram ℝ) (j : ℕ) (p : ℝ) (t : Trial),
      g.widths = generateWidthTrials c.search.binsMin c.search.ducyMax c.search.wtsp ∧ g.tobs = w.lengthOf o ∧
      g.periods[j]? = some p ∧ g.foldbins[j]? = some t.b ∧
      t.OK (w.dataOf o).length o.tsamp c.search.periodMin c.search.binsMin c.search.binsMax ∧ 1 ≤ t.f ∧
      1 / p = t.freq o.tsamp ∧ 0 < p ∧ p ≤ P ∧ 1 / p - 1 / P < t.step o.tsamp ∧
      ∀ (k wd : ℕ), g.widths[k]? = some wd → D / P * t.b + smearing t ≤ wd → ∃ thr, thresholdOf fit c.peaks g k = .ok thr ∧
        ∀ (K : ℕ) (L S : ℝ), K * o.tsamp + P + t.f * o.tsamp ≤ w.lengthOf o →
          (L ≤ (∑ i ∈ range K, pulse i) * Real.sqrt (((t.b : ℝ) - wd) / (t.b * wd)) /
              Real.sqrt (t.m * downsampledVariance (w.dataOf o).length t.f) ∨
            (downsampledVariance (w.dataOf o).length t.f ≤ t.f ∧
              L ≤ (∑ i ∈ range K, pulse i) * Real.sqrt (((t.b : ℝ) - wd) / wd) / Real.sqrt (w.dataOf o).length)) →
          0 ≤ S → S * (Real.sqrt ((∑ i ∈ range (w.dataOf o).length, pulse i ^ 2) / (w.dataOf o).length) + (hi - lo)) ≤
            L - Real.sqrt (2 * (w.dataOf o).length) * (hi - lo) →
          S ≤ snrAt g k j ∧
          (c.peaks.smin < S → thr (1 / p) < S → ∃ q, (q, dm) ∈ peaks ∧ S ≤ q.snr ∧ q.iw = k ∧ q.freq = freqAt g q.ip ∧
            Linked (Significant g thr c.peaks.smin k) (freqAt g) (c.peaks.clrad / w.lengthOf o) q.ip j) := by
  rw [processLoaded_eq idx argsort fit rmedWidth m confs w id o ho hg dm hdm] at h
  obtain ⟨ls, h3, h4⟩ := map_ok_inv h
  obtain ⟨r, hr, h3⟩ := bind_ok_inv h3
  obtain ⟨pk, hpk, h5⟩ := forall₂_mem_left (mapM_ok_inv _ _ _ h3) hc
  have hmem : ∀ q ∈ pk, (q, dm) ∈ peaks := by
    intro q hq
    rw [← h4, List.mem_map]
    exact ⟨q, List.mem_flatten.mpr ⟨pk, hpk, hq⟩, rfl⟩
  obtain ⟨⟨per, fb, snr⟩, h6, h7⟩ := bind_ok_inv h5
  have h6 := liftCall_ok h6
  have hlen : (normalised (subtractArrays (w.dataOf o) r)).length = (w.dataOf o).length := by
    rw [normalised, List.length_map, subtract_length (runningMedianOf_length hr)]
  rw [hlen] at h7
  obtain ⟨g, hgd⟩ : ∃ g : Pgram ℝ, g = ⟨generateWidthTrials c.search.binsMin c.search.ducyMax c.search.wtsp, per, fb, snr, w.lengthOf o⟩ :=
    ⟨_, rfl⟩
  have hne : generateWidthTrials c.search.binsMin c.search.ducyMax c.search.wtsp ≠ [] := by
    intro hc
    have := (C24_width_trials c.search.binsMin c.search.ducyMax c.search.wtsp).2.1
    rw [hc] at this
    simp at this
  have hidx' : IdxFor idx ((normalised (subtractArrays (w.dataOf o) r)).length / c.search.binsMin) := by rw [hlen]; exact hidx
  obtain ⟨_, k2, k3, k4⟩ := (C17_outputs_filled_exactly idx _ o.tsamp _ hne _ _ _ _ hidx').2 per fb snr h6
  have hok' : PgramOK g := by rw [hgd]; exact ⟨k2, k3, k4⟩
  obtain ⟨pa, hpa, hv, _⟩ := pg_ok_inv hne hidx' h6
  rw [hpa, hlen] at hv
  have hts : 0 < o.tsamp := hv.1
  have hb2 : 1 < c.search.binsMin := hv.2.2.2.1
  have hP0 : o.tsamp ≤ P := by
    have h3 := hv.2.2.2.2.2
    simp only at h3
    have h4 : (1 : ℝ) ≤ c.search.binsMin := by exact_mod_cast hb2.le
    nlinarith
  obtain ⟨hl, hlo, hdist, hvar⟩ := pulses_dereddened hts hP0 hx hnar hn hr
  have hwv := C24_widths_valid c.search.binsMin hb2 c.search.ducyMax c.search.wtsp hdc c.search.binsMin le_rfl
  obtain ⟨j, p, row, t, e1, e2, e3, hok, hf, hfr, hp0, hle, hst, key⟩ := pulses_normalised idx (subtractArrays (w.dataOf o) r) o.tsamp _ hne
    c.search.periodMin c.search.periodMax c.search.binsMin c.search.binsMax (by rw [hl]; exact hidx) (by rw [hl]; exact hN) hwv
    (by rw [hl]; exact hv) (by rw [hl]; exact h2)
    P φ D (hi - lo) hP1 hP2 pulse hx.pulsed (by linarith) (by rw [hl]; exact hdist) hvar per fb snr h6
  rw [hl] at hok key
  refine ⟨g, j, p, t, by rw [hgd], by rw [hgd], by rw [hgd]; exact e1, by rw [hgd]; exact e2, hok, hf, hfr, hp0, hle, hst, ?_⟩
  have gt : g.tobs = w.lengthOf o := by rw [hgd]
  have gp : g.periods[j]? = some p := by rw [hgd]; exact e1
  have gs : g.snrs[j]? = some row := by rw [hgd]; exact e3
  intro k wd hk hwide
  have h7 : findPeaks argsort fit c.peaks g = .ok pk := by rw [hgd]; exact h7
  obtain ⟨thr, hthr, hlost⟩ := C31_none_lost argsort hsort fit c.peaks g hok' pk h7 k (List.getElem?_eq_some_iff.mp hk).1
  refine ⟨thr, hthr, ?_⟩
  intro K L S hK hL hS0 hS
  obtain ⟨v, ev, hv'⟩ := key k wd (by rw [hgd] at hk; exact hk) hwide
  have hb := hv' K L hK hL
  have hsnr : snrAt g k j = v := by simp [snrAt, List.getD, gs, ev]
  have hs0 := Real.sqrt_pos.mpr hvar
  have hstd := std_le (y := subtractArrays (w.dataOf o) r) (by
    intro hc
    rw [hc] at hs0
    simp [varOf] at hs0) (δ := hi - lo) (by linarith) (by rw [hl]; exact hdist)
  rw [hl] at hstd
  have hSv : S ≤ v := by
    refine le_trans ?_ hb
    rw [le_div_iff₀ hs0]
    exact (mul_le_mul_of_nonneg_left hstd hS0).trans hS
  refine ⟨by rw [hsnr]; exact hSv, ?_⟩
  intro hsm hth
  have hf' : freqAt g j = 1 / p := by simp [freqAt, List.getD, gp]
  obtain ⟨q, ⟨⟨q1, q2, q3⟩, q4⟩, _⟩ := hlost j ⟨(List.getElem?_eq_some_iff.mp gp).1, by rw [hf', hsnr]; linarith, by rw [hsnr]; linarith⟩
  rw [hsnr] at q4
  rw [gt] at q3
  obtain ⟨P', nb, row', b1, _, _, _, _, _, b7, _⟩ := (C30_peaks_genuine argsort hsort fit c.peaks g hok' pk h7).1 q q1
  exact ⟨q, hmem q q1, hSv.trans q4, q2, by rw [b7]; simp [freqAt, List.getD, b1], q3⟩

/-- Pulses of height 10 every 100/3 samples, 3 or 4 samples long, the first at sample 17. -/
theorem pulsed_example' : Pulsed (fun n => if (3 * n + 50) % 100 ≤ 9 then 10 else 0) 1 (100 / 3) (-50 / 3) 3 := by
  refine ⟨fun n => by split_ifs <;> norm_num, fun n hn => ?_⟩
  have h : (3 * n + 50) % 100 ≤ 9 := by
    by_contra hc
    simp [hc] at hn
  refine ⟨((3 * n + 50) / 100 : ℕ), ?_⟩
  have e := Nat.div_add_mod (3 * n + 50) 100
  have e' : (100 : ℝ) * ((3 * n + 50) / 100 : ℕ) + ((3 * n + 50) % 100 : ℕ) = 3 * n + 50 := by exact_mod_cast e
  have h' : (((3 * n + 50) % 100 : ℕ) : ℝ) ≤ 9 := by exact_mod_cast h
  have h0 : (0 : ℝ) ≤ (((3 * n + 50) % 100 : ℕ) : ℝ) := Nat.cast_nonneg _
  rw [Int.cast_natCast]
  constructor <;> linarith

theorem widths_example : (generateWidthTrials 32 (3 / 10 : ℝ) (3 / 2))[5]? = some 9 := by
  obtain ⟨⟨k, e, _, h2, h3⟩, _⟩ := C24_width_trials 32 (3 / 10 : ℝ) (3 / 2)
  have h9 : ⌊(3 / 10 : ℝ) * (32 : ℕ)⌋₊ = 9 := by rw [Nat.floor_eq_iff (by norm_num)]; norm_num
  have e5 : widthSeq (3 / 2 : ℝ) 5 = 9 := by
    norm_num [widthSeq]
  have hk : 5 < k := by
    by_contra hc
    rw [h9] at h3
    rcases Nat.eq_or_lt_of_le (not_lt.mp hc) with hk | hk
    · rw [hk, e5] at h3; simp at h3
    · have := widthSeq_mono (3 / 2 : ℝ) hk
      rw [e5] at this
      simp at h3
      omega
  rw [e, List.getElem?_map, List.getElem?_range hk]
  simp [e5]

/-- The hypotheses are met by 1000 samples with these pulses on a baseline that alternates between 0 and 1/10: `rseek` returns a table with a row of an
S/N of at least 10, linked to a trial period within one step of 100/3. -/
example : ∃ (w : World) (o : TsObj) (table : List (Peak ℝ)), w.objs[0]? = some o ∧
    (∀ i < 1000, (w.dataOf o)[i]? = some ((if i % 2 = 1 then 1 / 10 else 0) + if (3 * i + 50) % 100 ≤ 9 then 10 else 0)) ∧
    rseekRun float32Idx insArgsort (fun _ _ _ => 7) ⟨32, 34, 32, 33, 7, 3 / 2, 33, .int 33, 1 / 5⟩ w 0 = .ok (some table) ∧
    ∃ row ∈ table, 10 ≤ row.snr := by
  generalize hnn : 1000 = nn
  obtain ⟨z, hz⟩ : ∃ z : List ℝ, z = (List.range nn).map
    (fun i => (if i % 2 = 1 then 1 / 10 else 0) + if (3 * i + 50) % 100 ≤ 9 then 10 else 0) := ⟨_, rfl⟩
  subst hnn
  obtain ⟨w, hw⟩ : ∃ w : World, w = ⟨[z], [[("tobs", .num 1000)]], [⟨0, 1, 0⟩]⟩ := ⟨_, rfl⟩
  obtain ⟨a, ha⟩ : ∃ a : RseekArgs, a = ⟨32, 34, 32, 33, 7, 3 / 2, 33, .int 33, 1 / 5⟩ := ⟨_, rfl⟩
  have hdata : w.dataOf ⟨0, 1, 0⟩ = z := by rw [hw]; rfl
  have hzl : z.length = 1000 := by rw [hz]; simp
  have hzi : ∀ i < 1000, z[i]? = some ((if i % 2 = 1 then 1 / 10 else 0) + if (3 * i + 50) % 100 ≤ 9 then 10 else 0) := by
    intro i hi
    rw [hz, List.getElem?_map, List.getElem?_range hi]
    rfl
  have hlen : w.lengthOf ⟨0, 1, 0⟩ = 1000 := by
    unfold World.lengthOf
    rw [hdata, hzl]
    norm_num
  have hg : GoodSeries w ⟨0, 1, 0⟩ := by
    refine ⟨by simp [hw], by rw [hlen]; norm_num, ?_⟩
    rw [hlen, hw]
    simp [World.metaOf, List.getD, dictGet]
  have ho : w.objs[0]? = some ⟨0, 1, 0⟩ := by rw [hw]; rfl
  have hidx : IdxFor float32Idx ((w.dataOf ⟨0, 1, 0⟩).length / a.bmin) := by
    rw [hdata, hzl, ha]
    exact Or.inr ⟨Or.inl rfl, by norm_num⟩
  obtain ⟨r, hr⟩ := C27_partial z 33 33 (by norm_num) (by norm_num) (by rw [hzl]; norm_num)
  have hrn : pyRound ((33 : ℝ) / 1) = 33 := by
    have hfl : ⌊((33 : ℝ) / 1)⌋ = 33 := by rw [Int.floor_eq_iff]; norm_num
    unfold pyRound
    rw [hfl]
    norm_num
  have hrm : runningMedianNum (w.dataOf ⟨0, 1, 0⟩) 1 a.rmedWidth a.rmedMinpts = .ok r := by
    rw [hdata, ha, runningMedianNum_int]
    unfold runningMedianOf
    rw [if_neg one_ne_zero]
    simp only [hrn]
    rw [if_pos (by norm_num), show (33 : ℤ).toNat = 33 from rfl, hr]
    rfl
  obtain ⟨out, hout⟩ := C81_rseek_succeeds float32Idx insArgsort (fun _ _ _ => 7) a w 0 ⟨0, 1, 0⟩ ho hg hidx
    (by rw [hdata, hzl, ha]; refine ⟨?_, ?_, ?_, ?_, ?_, ?_⟩ <;> norm_num) (by rw [hlen, ha]; norm_num) (by rw [hlen, ha]; norm_num) r hrm
  obtain ⟨g, thr, j, p, t, gw, hthr, _, _, hok, hf, hfr, hp0, hle, _, key⟩ := C97_rseek float32Idx insArgsort insArgsort_ok (fun _ _ _ => 7) a w 0
    ⟨0, 1, 0⟩ ho hg hidx (by rw [ha]; norm_num) out hout (by rw [hdata, hzl]; norm_num) (by rw [hlen, ha]; norm_num) 33 33
    (by rw [ha]) (by rw [ha]; norm_num) (100 / 3) (-50 / 3) 3 0 (1 / 10) (by rw [ha]; norm_num) (by rw [ha]; norm_num)
    (fun n => if (3 * n + 50) % 100 ≤ 9 then 10 else 0)
    (by
      refine ⟨pulsed_example', ?_, 17, by rw [hdata, hzl]; norm_num, by norm_num⟩
      intro i hi
      rw [hdata, hzl] at hi
      rw [hdata, List.getD_eq_getElem?_getD, hzi i hi, Option.getD_some]
      split_ifs <;> norm_num)
    (by
      rw [hdata, hzl]
      refine ⟨?_, ?_⟩
      · intro i hi
        have h : (3 * i + 50) % 100 ≤ 9 := by
          by_contra hc
          simp [hc] at hi
        norm_num
        omega
      · have f1 : ⌊(3 : ℝ) / 1⌋₊ = 3 := by norm_num
        have f2 : ⌊(100 / 3 : ℝ) / 1⌋₊ = 33 := by rw [Nat.floor_eq_iff (by norm_num)]; norm_num
        simp only [f1, f2]
        decide)
  rw [ha] at hok
  simp only [hlen, hdata, hzl] at hok key
  have hf1 := first_stage hok hf one_pos (by norm_num) hp0 hfr (by norm_num) (by norm_num; linarith)
  have hb := hok.bins
  have hm : t.m ≤ 31 ∧ 30 ≤ t.m := by
    rw [hok.rows, hf1, div_one, Nat.floor_natCast]
    constructor
    · exact (Nat.div_le_div_left hb.1 (by norm_num)).trans (by norm_num)
    · exact le_trans (by norm_num) (Nat.div_le_div_left hb.2 (by omega))
  have hclog : Nat.clog 2 t.m = 5 := by
    apply le_antisymm
    · exact (Nat.clog_mono_right 2 hm.1).trans (by decide +kernel)
    · exact le_trans (by decide +kernel) (Nat.clog_mono_right 2 hm.2)
  have hbR : (32 : ℝ) ≤ t.b ∧ (t.b : ℝ) ≤ 33 := ⟨by exact_mod_cast hb.1, by exact_mod_cast hb.2⟩
  have hsum : ∑ n ∈ range 960, (if (3 * n + 50) % 100 ≤ 9 then (10 : ℝ) else 0) = 970 := by
    have hc : ∑ n ∈ range 960, (if (3 * n + 50) % 100 ≤ 9 then 10 else 0) = 970 := by decide +kernel
    exact_mod_cast congrArg (Nat.cast (R := ℝ)) hc
  have hsq : ∑ n ∈ range 1000, (if (3 * n + 50) % 100 ≤ 9 then (10 : ℝ) else 0) ^ 2 = 10000 := by
    have hc : ∑ n ∈ range 1000, (if (3 * n + 50) % 100 ≤ 9 then 10 else 0) ^ 2 = 10000 := by decide +kernel
    exact_mod_cast congrArg (Nat.cast (R := ℝ)) hc
  have hgw5 : g.widths[5]? = some 9 := by rw [gw, ha]; exact widths_example
  have h1 : (15 / 10 : ℝ) ≤ Real.sqrt (((t.b : ℝ) - (9 : ℕ)) / (9 : ℕ)) := by
    apply Real.le_sqrt_of_sq_le
    push_cast
    linarith [hbR.1]
  have h2 : Real.sqrt ((1000 : ℕ) : ℝ) ≤ 32 := by
    rw [Real.sqrt_le_left (by norm_num)]
    norm_num
  obtain ⟨_, k2⟩ := key 5 9 hgw5 (by
    unfold smearing
    rw [if_pos hf1, hclog]
    have hmR : (t.m : ℝ) ≤ 31 := by exact_mod_cast hm.1
    push_cast
    linarith [hbR.2]) 960 45 10 (by rw [hf1]; norm_num) (Or.inr ⟨by rw [hf1, variance_one], by
      rw [hsum, le_div_iff₀ (Real.sqrt_pos.mpr (by norm_num))]
      calc 45 * Real.sqrt ((1000 : ℕ) : ℝ) ≤ 45 * 32 := mul_le_mul_of_nonneg_left h2 (by norm_num)
        _ ≤ 970 * (15 / 10) := by norm_num
        _ ≤ _ := mul_le_mul_of_nonneg_left h1 (by norm_num)⟩) (by norm_num) (by
      rw [hsq]
      have h3 : Real.sqrt ((10000 : ℝ) / (1000 : ℕ)) ≤ 32 / 10 := by
        rw [Real.sqrt_le_left (by norm_num)]
        norm_num
      have h4 : Real.sqrt (2 * ((1000 : ℕ) : ℝ)) ≤ 45 := by
        rw [Real.sqrt_le_left (by norm_num)]
        norm_num
      calc 10 * (Real.sqrt ((10000 : ℝ) / (1000 : ℕ)) + (1 / 10 - 0)) ≤ 10 * (32 / 10 + (1 / 10 - 0)) :=
            mul_le_mul_of_nonneg_left (add_le_add_left h3 _) (by norm_num)
        _ ≤ 45 - 45 * (1 / 10 - 0) := by norm_num
        _ ≤ _ := sub_le_sub_left (mul_le_mul_of_nonneg_right h4 (by norm_num)) _)
  have hthr5 : thr 5 (1 / p) = 7 := by
    have ht := hthr 5 (List.getElem?_eq_some_iff.mp hgw5).1
    unfold thresholdOf dynThreshold at ht
    obtain ⟨⟨fc, smed, sstd⟩, _, h3⟩ := map_ok_inv ht
    rw [← h3]
    simp only
    split_ifs
    · rfl
    · rw [ha]; rfl
  obtain ⟨table, ht, row, hrow, hs, _⟩ := k2 (by rw [ha]; norm_num) (by rw [hthr5]; norm_num)
  exact ⟨w, ⟨0, 1, 0⟩, table, ho, by rw [hdata]; exact hzi, by rw [← ha, hout, ht], row, hrow, hs⟩

end Verif.Props
