import Verif.Spec.HarmonicsF
import Verif.Props.Harmonics
import Verif.Lemmas.SearchFloat

/-!
# C125: the harmonic test in double precision
-/

namespace Verif.Props

open Verif.Model Verif.Spec Verif.Lemmas

/-- `x` is `x0` up to a relative error `α` and an absolute error `β E`. -/
def Apx (α β E x0 x : ℚ) : Prop := |x - x0| ≤ α * x0 + β * E

theorem Apx.round {α β E x0 x y : ℚ} (h : Apx α β E x0 x) (hx0 : 0 ≤ x0) (hy : |y - x| ≤ u53 * |x|) :
    Apx (α + u53 * (1 + α)) (β + u53 * β) E x0 y := by
  unfold Apx at *
  have hu : (0 : ℚ) ≤ u53 := by norm_num [u53]
  have h1 : |x| ≤ x0 + (α * x0 + β * E) := by
    have := abs_add_le (x - x0) x0
    rw [sub_add_cancel, abs_of_nonneg hx0] at this
    linarith
  have h2 := mul_le_mul_of_nonneg_left h1 hu
  have h3 : |y - x0| ≤ |y - x| + |x - x0| := abs_sub_le y x x0
  linarith

theorem Apx.scale {α β E x0 x k : ℚ} (h : Apx α β E x0 x) (hk : 0 ≤ k) : Apx α β (E * k) (x0 * k) (x * k) := by
  unfold Apx at *
  rw [← sub_mul, abs_mul, abs_of_nonneg hk]
  have := mul_le_mul_of_nonneg_right h hk
  linarith

theorem Apx.weaken {α β E x0 x α' β' : ℚ} (h : Apx α β E x0 x) (hx0 : 0 ≤ x0) (hE : 0 ≤ E) (ha : α ≤ α') (hb : β ≤ β') : Apx α' β' E x0 x := by
  unfold Apx at *
  have := mul_le_mul_of_nonneg_right ha hx0
  have := mul_le_mul_of_nonneg_right hb hE
  linarith

theorem Apx.mul {α α' β E x0 x y0 y : ℚ} (h : Apx α 0 0 x0 x) (h' : Apx α' β E y0 y) (hx0 : 0 ≤ x0) (hy0 : 0 ≤ y0) (ha : 0 ≤ α) :
    Apx (α * (1 + α') + α') (α * β + β) (x0 * E) (x0 * y0) (x * y) := by
  unfold Apx at *
  have e : x * y - x0 * y0 = (x - x0) * y + x0 * (y - y0) := by ring
  have h1 : |y| ≤ y0 + (α' * y0 + β * E) := by
    have := abs_add_le (y - y0) y0
    rw [sub_add_cancel, abs_of_nonneg hy0] at this
    linarith
  have h2 : |x - x0| * |y| ≤ (α * x0) * (y0 + (α' * y0 + β * E)) :=
    mul_le_mul (by linarith) h1 (abs_nonneg _) (mul_nonneg ha hx0)
  have h3 := mul_le_mul_of_nonneg_left h' hx0
  have h4 := abs_add_le ((x - x0) * y) (x0 * (y - y0))
  rw [abs_mul, abs_mul x0, abs_of_nonneg hx0] at h4
  rw [e]
  linarith

theorem abs_close {x y : ℚ} : |(|x| - |y|)| ≤ |x - y| := abs_abs_sub_abs_le x y

/-! ## The phase distance -/

/-- The closest fraction to a rounded ratio is nearly as close to the exact ratio as any. -/
theorem closest_rounded {x x' r r' : ℚ} {M : ℤ} (hx' : |x' - x| ≤ u53 * x) (h : IsClosestFraction x M r) (h' : IsClosestFraction x' M r') :
    |r - x| ≤ |r' - x| ∧ |r' - x| ≤ |r - x| + 2 * u53 * x := by
  refine ⟨h.2 r' h'.1, ?_⟩
  have h1 := h'.2 r h.1
  have h2 := abs_sub_le r' x' x
  have h3 := abs_sub_le r x x'
  rw [abs_sub_comm x x'] at h3
  linarith

theorem closest_le_two {x r : ℚ} {M : ℤ} (hM : 1 ≤ M) (hx : 1 ≤ x) (h : IsClosestFraction x M r) : r ≤ 2 * x := by
  have h1 := h.2 1 (by simpa using hM)
  have h2 := le_abs_self (r - x)
  rw [abs_of_nonpos (by linarith : (1 : ℚ) - x ≤ 0)] at h1
  linarith

/-- The computed phase distance. -/
theorem phase_near {h : HArith} (hs : HSane h) {slow fast tobs ducy r r' : ℚ} {M : ℤ} (hM : 1 ≤ M) (h0 : 0 < slow) (hle : slow ≤ fast) (ht : 0 < tobs)
    (hd : 0 < ducy) (hr : IsClosestFraction (fast / slow) M r) (hr' : IsClosestFraction (h.A.fl (fast / slow)) M r') :
    Apx (4 * u53) (8 * u53) (fast * tobs / ducy) (|r * slow - fast| * tobs / ducy) (h.A.fl (h.phaseTurns r' slow fast tobs / ducy)) := by
  have hu : (0 : ℚ) ≤ u53 := by norm_num [u53]
  have hfast : 0 < fast := h0.trans_le hle
  have hx1 : 1 ≤ fast / slow := by rwa [le_div_iff₀ h0, one_mul]
  have hxr := hs.rel (fast / slow)
  rw [abs_of_pos (div_pos hfast h0)] at hxr
  have hx'1 : 1 ≤ h.A.fl (fast / slow) := by
    have h1 := hs.double.mono 1 _ zero_le_one hx1
    have h2 := hs.double.nat 1 (by norm_num)
    rw [Nat.cast_one] at h2
    linarith
  have hr'1 := closest_one_le hM hx'1 hr'
  have hr'2 := closest_le_two hM hx'1 hr'
  obtain ⟨c1, c2⟩ := closest_rounded hxr hr hr'
  have ex : fast / slow * slow = fast := div_mul_cancel₀ _ h0.ne'
  -- distances as products
  have hP : ∀ t : ℚ, |t * slow - fast| = |t - fast / slow| * slow := by
    intro t
    rw [← abs_of_pos h0, ← abs_mul, abs_of_pos h0, sub_mul, ex]
  have hPr : |r' * slow - fast| ≤ |r * slow - fast| + 2 * u53 * fast := by
    rw [hP, hP]
    have := mul_le_mul_of_nonneg_right c2 h0.le
    have e : (|r - fast / slow| + 2 * u53 * (fast / slow)) * slow = |r - fast / slow| * slow + 2 * u53 * (fast / slow * slow) := by ring
    rw [e, ex] at this
    exact this
  have hPl : |r * slow - fast| ≤ |r' * slow - fast| := by
    rw [hP, hP]; exact mul_le_mul_of_nonneg_right c1 h0.le
  -- the product with the fraction
  have hr's : r' * slow ≤ 2 * (1 + u53) * fast := by
    have h1 : h.A.fl (fast / slow) ≤ (1 + u53) * (fast / slow) := by have := (abs_le.1 hxr).2; linarith
    have h2 : r' ≤ 2 * ((1 + u53) * (fast / slow)) := by linarith
    have h3 := mul_le_mul_of_nonneg_right h2 h0.le
    have e : 2 * ((1 + u53) * (fast / slow)) * slow = 2 * (1 + u53) * (fast / slow * slow) := by ring
    rw [e, ex] at h3; exact h3
  have hr's0 : 0 ≤ r' * slow := mul_nonneg (by linarith) h0.le
  have a1 := hs.rel r'
  rw [abs_of_nonneg (by linarith : (0 : ℚ) ≤ r')] at a1
  have p1 : Apx u53 0 0 r' (h.A.fl r') := by unfold Apx; linarith
  have p2 := (p1.scale h0.le).round hr's0 (hs.rel (h.A.fl r' * slow))
  have b1 : |h.A.fl (h.A.fl r' * slow) - r' * slow| ≤ 5 * u53 * fast := by
    unfold Apx at p2
    have h1 := mul_le_mul_of_nonneg_left hr's (by norm_num [u53] : (0 : ℚ) ≤ u53 + u53 * (1 + u53))
    have h2 : (u53 + u53 * (1 + u53)) * (2 * (1 + u53) * fast) ≤ 5 * u53 * fast := by
      have : (u53 + u53 * (1 + u53)) * (2 * (1 + u53)) ≤ 5 * u53 := by norm_num [u53]
      have := mul_le_mul_of_nonneg_right this hfast.le
      linarith
    linarith
  have p3 : Apx 0 (7 * u53) fast |r * slow - fast| |h.A.fl (h.A.fl r' * slow) - fast| := by
    unfold Apx
    have h1 : |(|h.A.fl (h.A.fl r' * slow) - fast| - |r' * slow - fast|)| ≤ 5 * u53 * fast := by
      refine abs_close.trans ?_
      rw [sub_sub_sub_cancel_right]; exact b1
    rw [abs_le] at h1 ⊢
    have hf0 : 0 ≤ u53 * fast := mul_nonneg hu hfast.le
    constructor <;> linarith [h1.1, h1.2]
  have p4 : Apx (0 + u53 * (1 + 0)) (7 * u53 + u53 * (7 * u53)) fast |r * slow - fast| |h.A.fl (h.A.fl (h.A.fl r' * slow) - fast)| := by
    refine p3.round (abs_nonneg _) ?_
    rw [abs_abs]
    exact abs_close.trans (hs.rel _)
  have p5 := (p4.scale ht.le).round (mul_nonneg (abs_nonneg _) ht.le) (hs.rel _)
  have p6 := (p5.scale (inv_pos.2 hd).le).round (mul_nonneg (mul_nonneg (abs_nonneg _) ht.le) (inv_pos.2 hd).le) (hs.rel _)
  have p7 := p6.weaken (α' := 4 * u53) (β' := 8 * u53) (mul_nonneg (mul_nonneg (abs_nonneg _) ht.le) (inv_pos.2 hd).le)
    (mul_nonneg (mul_nonneg hfast.le ht.le) (inv_pos.2 hd).le) (by norm_num [u53]) (by norm_num [u53])
  rw [div_eq_mul_inv, div_eq_mul_inv, div_eq_mul_inv]
  exact p7

/-! ## The DM distance -/

theorem Apx.div {α β E x0 x m m' : ℚ} (h : Apx α β E x0 x) (hx0 : 0 ≤ x0) (hE : 0 ≤ E) (ha : 0 ≤ α) (hb : 0 ≤ β) (hm : 0 < m) (hm' : |m' - m| ≤ u53 * m) :
    0 < m' ∧ Apx (α * (1 + 2 * u53) + 2 * u53) (β * (1 + 2 * u53)) (E / m) (x0 / m) (x / m') := by
  obtain ⟨h1, h2⟩ := abs_le.1 hm'
  have hu : (0 : ℚ) < u53 := by norm_num [u53]
  have hu1 : (u53 : ℚ) ≤ 1 / 4 := by norm_num [u53]
  have hpos : 0 < m' := by nlinarith
  refine ⟨hpos, ?_⟩
  unfold Apx at *
  have h3 : |1 / m' - 1 / m| ≤ 2 * u53 * (1 / m) := by
    have e : 1 / m' - 1 / m = (m - m') / (m' * m) := by field_simp
    rw [e, abs_div, abs_of_pos (mul_pos hpos hm), div_le_iff₀ (mul_pos hpos hm), abs_sub_comm]
    have e2 : 2 * u53 * (1 / m) * (m' * m) = 2 * u53 * m' := by field_simp
    rw [e2]
    nlinarith
  have h4 : 1 / m' ≤ (1 + 2 * u53) * (1 / m) := by have := (abs_le.1 h3).2; linarith
  have e : x / m' - x0 / m = (x - x0) * (1 / m') + x0 * (1 / m' - 1 / m) := by ring
  have h5 := abs_add_le ((x - x0) * (1 / m')) (x0 * (1 / m' - 1 / m))
  rw [abs_mul, abs_mul x0, abs_of_nonneg hx0, abs_of_pos (one_div_pos.2 hpos)] at h5
  have h6 : |x - x0| * (1 / m') ≤ (α * x0 + β * E) * ((1 + 2 * u53) * (1 / m)) :=
    mul_le_mul h h4 (one_div_pos.2 hpos).le (by positivity)
  have h7 := mul_le_mul_of_nonneg_left h3 hx0
  rw [e]
  have e3 : (α * (1 + 2 * u53) + 2 * u53) * (x0 / m) + β * (1 + 2 * u53) * (E / m)
      = (α * x0 + β * E) * ((1 + 2 * u53) * (1 / m)) + x0 * (2 * u53 * (1 / m)) := by ring
  rw [e3]
  linarith

theorem min_near {a b a' b' u : ℚ} (h : |a' - a| ≤ u * a) (h' : |b' - b| ≤ u * b) (hu1 : u ≤ 1) :
    |min a' b' - min a b| ≤ u * min a b := by
  have m1 := min_le_left a b
  have m2 := min_le_right a b
  rw [abs_le] at *
  constructor
  · have : (1 - u) * min a b ≤ min a' b' := by
      refine le_min ?_ ?_
      · nlinarith
      · nlinarith
    linarith
  · rcases min_choice a b with hm | hm
    · have := min_le_left a' b'; rw [hm]; linarith
    · have := min_le_right a' b'; rw [hm]; linarith

/-- The computed DM distance. -/
theorem dm_near {h : HArith} (hs : HSane h) {F H : HPeak ℚ} {fmin fmax : ℚ} (hF : 0 < F.freq) (hH : 0 < H.freq) (hFd : 0 < F.ducy) (hHd : 0 < H.ducy)
    (h0 : 0 < fmin) (hf : fmin < fmax) :
    ∃ d, ((h.dmDelay |h.A.fl (F.dm - H.dm)| fmin fmax).bind fun delay => h.dmDistance F H delay) = .ok d ∧
      Apx (8 * u53) (3 * u53) (|F.dm - H.dm| * 4150 * (1 / fmin ^ 2 + 1 / fmax ^ 2) / min (F.ducy / F.freq) (H.ducy / H.freq))
        (|F.dm - H.dm| * 4150 * (1 / fmin ^ 2 - 1 / fmax ^ 2) / min (F.ducy / F.freq) (H.ducy / H.freq)) d := by
  have hfmax : 0 < fmax := h0.trans hf
  have hu : (0 : ℚ) ≤ u53 := by norm_num [u53]
  have hwF : 0 < F.ducy / F.freq := div_pos hFd hF
  have hwH : 0 < H.ducy / H.freq := div_pos hHd hH
  have i1 := hs.invSq fmin h0
  have i2 := hs.invSq fmax hfmax
  have hB : 0 ≤ 1 / fmin ^ 2 - 1 / fmax ^ 2 := by
    rw [sub_nonneg]; exact one_div_le_one_div_of_le (pow_pos h0 2) (pow_le_pow_left₀ h0.le hf.le 2)
  have hS : 0 ≤ 1 / fmin ^ 2 + 1 / fmax ^ 2 := by positivity
  have p1 : Apx (u53 + u53 * (1 + u53)) 0 0 (|F.dm - H.dm| * 4150) (h.A.fl (|h.A.fl (F.dm - H.dm)| * 4150)) := by
    have q1 : Apx u53 0 0 |F.dm - H.dm| |h.A.fl (F.dm - H.dm)| := by
      unfold Apx
      have := abs_close.trans (hs.rel (F.dm - H.dm))
      linarith
    have q2 := (q1.scale (by norm_num : (0 : ℚ) ≤ 4150)).round (mul_nonneg (abs_nonneg _) (by norm_num)) (hs.rel _)
    simpa using q2
  have p2 : Apx 0 (2 * u53) (1 / fmin ^ 2 + 1 / fmax ^ 2) (1 / fmin ^ 2 - 1 / fmax ^ 2) |h.invSq fmin - h.invSq fmax| := by
    unfold Apx
    have h1 : |(h.invSq fmin - h.invSq fmax) - (1 / fmin ^ 2 - 1 / fmax ^ 2)| ≤ 2 * u53 * (1 / fmin ^ 2 + 1 / fmax ^ 2) := by
      have e : (h.invSq fmin - h.invSq fmax) - (1 / fmin ^ 2 - 1 / fmax ^ 2) = (h.invSq fmin - 1 / fmin ^ 2) - (h.invSq fmax - 1 / fmax ^ 2) := by ring
      rw [e]
      have := abs_sub (h.invSq fmin - 1 / fmin ^ 2) (h.invSq fmax - 1 / fmax ^ 2)
      linarith
    have h2 := abs_close.trans h1
    rw [abs_of_nonneg hB] at h2
    linarith
  have p3 : Apx (0 + u53 * (1 + 0)) (2 * u53 + u53 * (2 * u53)) (1 / fmin ^ 2 + 1 / fmax ^ 2) (1 / fmin ^ 2 - 1 / fmax ^ 2)
      |h.A.fl (h.invSq fmin - h.invSq fmax)| := by
    refine p2.round hB ?_
    rw [abs_abs]
    exact abs_close.trans (hs.rel _)
  have hD0 : 0 ≤ |F.dm - H.dm| * 4150 := mul_nonneg (abs_nonneg _) (by norm_num)
  have p4 := (p1.mul p3 hD0 hB (by norm_num [u53])).round (mul_nonneg hD0 hB) (hs.rel _)
  have wF := hs.rel (F.ducy / F.freq)
  have wH := hs.rel (H.ducy / H.freq)
  rw [abs_of_pos hwF] at wF
  rw [abs_of_pos hwH] at wH
  have hmin := min_near wF wH (by norm_num [u53])
  have hm0 : 0 < min (F.ducy / F.freq) (H.ducy / H.freq) := lt_min hwF hwH
  obtain ⟨hm', p5⟩ := p4.div (mul_nonneg hD0 hB) (mul_nonneg hD0 hS) (by norm_num [u53]) (by norm_num [u53]) hm0 hmin
  have p6 := p5.round (div_nonneg (mul_nonneg hD0 hB) hm0.le) (hs.rel _)
  have p7 := p6.weaken (α' := 8 * u53) (β' := 3 * u53) (div_nonneg (mul_nonneg hD0 hB) hm0.le) (div_nonneg (mul_nonneg hD0 hS) hm0.le)
    (by norm_num [u53]) (by norm_num [u53])
  refine ⟨_, ?_, p7⟩
  unfold HArith.dmDelay HArith.dmDistance HArith.div
  rw [if_neg (by rintro (h | h) <;> linarith), if_neg hF.ne', if_neg hH.ne']
  simp only [Except.bind]
  rw [if_neg hm'.ne']

/-! ## The S/N distance -/

/-- The computed S/N distance. -/
theorem snr_near {h : HArith} (hs : HSane h) {F H : HPeak ℚ} {fr : ℚ} (hfr : 0 < fr) :
    ∃ e, h.snrExpected F fr = .ok e ∧
      |((|h.A.fl (H.snr - e)| : ℚ) : ℝ) - (|(H.snr : ℝ) - F.snr / Real.sqrt (fr.num * fr.den)|)| ≤
        u53 * |(H.snr : ℝ) - F.snr / Real.sqrt (fr.num * fr.den)| + 8 * u53 * (|(F.snr : ℝ)| / Real.sqrt (fr.num * fr.den)) := by
  have hu0 : (0 : ℝ) < ((u53 : ℚ) : ℝ) := by norm_num [u53]
  have hu1 : ((u53 : ℚ) : ℝ) ≤ 1 / 1000 := by norm_num [u53]
  set u : ℝ := ((u53 : ℚ) : ℝ) with hu
  have hn : 1 ≤ fr.num * (fr.den : ℤ) := by
    have h1 := Rat.num_pos.2 hfr
    have h2 : 0 < (fr.den : ℤ) := by exact_mod_cast fr.den_pos
    have := mul_pos h1 h2
    omega
  set n : ℤ := fr.num * (fr.den : ℤ) with hndef
  have hnq : (1 : ℚ) ≤ (n : ℚ) := by exact_mod_cast hn
  have hnr : (1 : ℝ) ≤ (n : ℝ) := by exact_mod_cast hn
  have hcast : ((fr.num : ℝ) * (fr.den : ℝ)) = (n : ℝ) := by rw [hndef]; push_cast; rfl
  rw [hcast]
  have hfl1 : 1 ≤ h.A.fl (n : ℚ) := by
    have h1 := hs.double.mono 1 _ zero_le_one hnq
    have h2 := hs.double.nat 1 (by norm_num)
    rw [Nat.cast_one] at h2
    linarith
  have hfl := hs.rel (n : ℚ)
  rw [abs_of_pos (by linarith : (0 : ℚ) < n)] at hfl
  have hflr : |((h.A.fl (n : ℚ) : ℚ) : ℝ) - n| ≤ u * n := by rw [hu]; exact_mod_cast hfl
  set s := Real.sqrt n with hsdef
  set s' := Real.sqrt ((h.A.fl (n : ℚ) : ℚ) : ℝ) with hs'def
  have hflr1 : (1 : ℝ) ≤ ((h.A.fl (n : ℚ) : ℚ) : ℝ) := by exact_mod_cast hfl1
  have hs1 : 1 ≤ s := Real.one_le_sqrt.2 hnr
  have hs'1 : 1 ≤ s' := Real.one_le_sqrt.2 hflr1
  have hss : s * s = n := Real.mul_self_sqrt (by linarith)
  have hss' : s' * s' = ((h.A.fl (n : ℚ) : ℚ) : ℝ) := Real.mul_self_sqrt (by linarith)
  have d1 : |s' - s| ≤ u * s := by
    have e : (s' - s) * (s' + s) = ((h.A.fl (n : ℚ) : ℚ) : ℝ) - n := by rw [← hss, ← hss']; ring
    have h1 : |s' - s| * (s' + s) ≤ u * (s * s) := by
      rw [← abs_of_pos (by linarith : 0 < s' + s), ← abs_mul, e, hss]; exact hflr
    have h2 : |s' - s| * s ≤ |s' - s| * (s' + s) := mul_le_mul_of_nonneg_left (by linarith) (abs_nonneg _)
    have h3 : |s' - s| * s ≤ (u * s) * s := by linarith
    exact le_of_mul_le_mul_right h3 (by linarith)
  have d2 := hs.root _ hfl1
  have d3 : |(h.root (h.A.fl (n : ℚ)) : ℝ) - s| ≤ 4 * u * s := by
    have h1 := abs_sub_le (h.root (h.A.fl (n : ℚ)) : ℝ) s' s
    have h2 := (abs_le.1 d1).2
    have h3 : 2 * u * s' ≤ 2 * u * ((1 + u) * s) := mul_le_mul_of_nonneg_left (by linarith) (by linarith)
    have h4 : u * u * s ≤ u * (1 / 1000) * s := by
      have := mul_le_mul_of_nonneg_left hu1 hu0.le
      exact mul_le_mul_of_nonneg_right this (by linarith)
    have h5 : 0 ≤ u * s := mul_nonneg hu0.le (by linarith)
    have e : 2 * u * ((1 + u) * s) = 2 * (u * s) + 2 * (u * u * s) := by ring
    have d2' : |(h.root (h.A.fl (n : ℚ)) : ℝ) - s'| ≤ 2 * u * s' := d2
    linarith
  have hroot : 0 < (h.root (h.A.fl (n : ℚ)) : ℝ) := by
    have := (abs_le.1 d3).1
    have h1 : 4 * u * s ≤ 4 * (1 / 1000) * s := mul_le_mul_of_nonneg_right (by linarith) (by linarith)
    linarith
  have hrootq : h.root (h.A.fl (n : ℚ)) ≠ 0 := by
    intro e; rw [e] at hroot; simp at hroot
  set ρ : ℝ := (h.root (h.A.fl (n : ℚ)) : ℝ) with hρ
  -- the quotient
  have d4 : |(F.snr : ℝ) / ρ - F.snr / s| ≤ 5 * u * (|(F.snr : ℝ)| / s) := by
    have hs0 : 0 < s := by linarith
    have e : (F.snr : ℝ) / ρ - F.snr / s = F.snr * ((s - ρ) / (ρ * s)) := by field_simp
    rw [e, abs_mul, abs_div, abs_of_pos (mul_pos hroot hs0), abs_sub_comm]
    have h1 : |ρ - s| / (ρ * s) ≤ 5 * u / s := by
      rw [div_le_div_iff₀ (mul_pos hroot hs0) hs0]
      have h2 := (abs_le.1 d3).1
      have h3 : |ρ - s| * s ≤ 4 * u * s * s := mul_le_mul_of_nonneg_right d3 hs0.le
      have h4 : 4 * u * s ≤ 5 * u * ρ := by
        have h5 : u * (s - 4 * u * s) ≤ u * ρ := mul_le_mul_of_nonneg_left (by linarith) hu0.le
        have h6 : u * u * s ≤ u * (1 / 1000) * s := by
          have := mul_le_mul_of_nonneg_left hu1 hu0.le
          exact mul_le_mul_of_nonneg_right this (by linarith)
        have h7 : 0 ≤ u * s := mul_nonneg hu0.le hs0.le
        have e2 : u * (s - 4 * u * s) = u * s - 4 * (u * u * s) := by ring
        linarith
      have h5 := mul_le_mul_of_nonneg_right h4 hs0.le
      linarith
    have := mul_le_mul_of_nonneg_left h1 (abs_nonneg (F.snr : ℝ))
    have e3 : |(F.snr : ℝ)| * (5 * u / s) = 5 * u * (|(F.snr : ℝ)| / s) := by ring
    linarith
  set e := h.A.fl (F.snr / h.root (h.A.fl (n : ℚ))) with hedef
  have d5 : |(e : ℝ) - F.snr / ρ| ≤ u * |(F.snr : ℝ) / ρ| := by
    have := hs.rel (F.snr / h.root (h.A.fl (n : ℚ)))
    rw [hu, hρ]; exact_mod_cast this
  have hE0 : 0 ≤ |(F.snr : ℝ)| / s := div_nonneg (abs_nonneg _) (by linarith)
  have hEabs : |(F.snr : ℝ) / s| = |(F.snr : ℝ)| / s := by rw [abs_div, abs_of_pos (by linarith : 0 < s)]
  have d6 : |(e : ℝ) - F.snr / s| ≤ 7 * u * (|(F.snr : ℝ)| / s) := by
    have h1 := abs_sub_le (e : ℝ) (F.snr / ρ) (F.snr / s)
    have h2 : |(F.snr : ℝ) / ρ| ≤ |(F.snr : ℝ)| / s + 5 * u * (|(F.snr : ℝ)| / s) := by
      have := abs_add_le ((F.snr : ℝ) / ρ - F.snr / s) (F.snr / s)
      rw [sub_add_cancel, hEabs] at this
      linarith
    have h3 := mul_le_mul_of_nonneg_left h2 hu0.le
    have h4 : u * (5 * u * (|(F.snr : ℝ)| / s)) ≤ 5 * (1 / 1000) * u * (|(F.snr : ℝ)| / s) := by
      have := mul_le_mul_of_nonneg_right (mul_le_mul_of_nonneg_left hu1 hu0.le) hE0
      linarith
    have h5 : 0 ≤ u * (|(F.snr : ℝ)| / s) := mul_nonneg hu0.le hE0
    linarith
  have d7 : |((h.A.fl (H.snr - e) : ℚ) : ℝ) - ((H.snr : ℝ) - e)| ≤ u * |(H.snr : ℝ) - e| := by
    have := hs.rel (H.snr - e)
    rw [hu]; exact_mod_cast this
  refine ⟨e, ?_, ?_⟩
  · unfold HArith.snrExpected HArith.div
    rw [if_neg (by rw [← hndef]; omega), ← hndef, if_neg hrootq]
  · push_cast
    have h1 : |(H.snr : ℝ) - e| ≤ |(H.snr : ℝ) - F.snr / s| + 7 * u * (|(F.snr : ℝ)| / s) := by
      have := abs_sub_le (H.snr : ℝ) (F.snr / s) e
      rw [abs_sub_comm ((F.snr : ℝ) / s) (e : ℝ)] at this
      linarith
    have h2 : |(|((h.A.fl (H.snr - e) : ℚ) : ℝ)| - |(H.snr : ℝ) - F.snr / s|)| ≤
        |((h.A.fl (H.snr - e) : ℚ) : ℝ) - ((H.snr : ℝ) - e)| + |(e : ℝ) - F.snr / s| := by
      refine (abs_abs_sub_abs_le _ _).trans ?_
      have := abs_sub_le ((h.A.fl (H.snr - e) : ℚ) : ℝ) ((H.snr : ℝ) - e) ((H.snr : ℝ) - F.snr / s)
      rw [sub_sub_sub_cancel_left, abs_sub_comm ((F.snr : ℝ) / s) (e : ℝ)] at this
      exact this
    have h3 := mul_le_mul_of_nonneg_left h1 hu0.le
    have h4 : u * (7 * u * (|(F.snr : ℝ)| / s)) ≤ 7 * (1 / 1000) * u * (|(F.snr : ℝ)| / s) := by
      have := mul_le_mul_of_nonneg_right (mul_le_mul_of_nonneg_left hu1 hu0.le) hE0
      linarith
    have h5 : 0 ≤ u * (|(F.snr : ℝ)| / s) := mul_nonneg hu0.le hE0
    linarith

/-! ## The test -/

/-- Phase distance for the fraction `r` of the higher to the lower frequency: the difference in phase over the observation, in pulse widths. -/
def harmPhase (F H : HPeak ℚ) (tobs r : ℚ) : ℚ :=
  |r * min F.freq H.freq - max F.freq H.freq| * tobs / (if H.freq < F.freq then F.ducy else H.ducy)

/-- Length of the observation in pulse widths of the faster candidate. -/
def harmWidths (F H : HPeak ℚ) (tobs : ℚ) : ℚ := max F.freq H.freq * tobs / (if H.freq < F.freq then F.ducy else H.ducy)

/-- DM distance for the difference `b` of the inverse squares of the frequencies. -/
def harmDm (F H : HPeak ℚ) (b : ℚ) : ℚ := |F.dm - H.dm| * 4150 * b / min (F.ducy / F.freq) (H.ducy / H.freq)

/-- S/N distance for the fraction `r`. -/
noncomputable def harmSnr (F H : HPeak ℚ) (r : ℚ) : ℝ := |(H.snr : ℝ) - F.snr / Real.sqrt (r.num * r.den)|

/-- C125. The test in double precision never fails on valid arguments. The fraction is the closest one to the rounded ratio of frequencies, and the decision compares
with the thresholds three numbers that are the exact distances up to rounding errors. -/
theorem C125_htest {h : HArith} (hs : HSane h) (F H : HPeak ℚ) (tobs fmin fmax : ℚ) (a : HTestArgs) (hF : 0 < F.freq) (hH : 0 < H.freq)
    (hFd : 0 < F.ducy) (hHd : 0 < H.ducy) (ht : 0 < tobs) (h0 : 0 < fmin) (hf : fmin < fmax) (hM : 1 ≤ a.denomMax) :
    ∃ (related : Bool) (r' Dp Dd Ds : ℚ), IsClosestFraction (h.A.fl (max F.freq H.freq / min F.freq H.freq)) a.denomMax r' ∧ 1 ≤ r' ∧
      h.htest F H tobs fmin fmax a = .ok (related, if H.freq < F.freq then 1 / r' else r') ∧
      (related = true ↔ Dp ≤ a.phaseDistanceMax ∧ Dd ≤ a.dmDistanceMax ∧ Ds ≤ a.snrDistanceMax) ∧
      (∀ r, IsClosestFraction (max F.freq H.freq / min F.freq H.freq) a.denomMax r →
        |Dp - harmPhase F H tobs r| ≤ 4 * u53 * harmPhase F H tobs r + 8 * u53 * harmWidths F H tobs) ∧
      |Dd - harmDm F H (1 / fmin ^ 2 - 1 / fmax ^ 2)| ≤ 8 * u53 * harmDm F H (1 / fmin ^ 2 - 1 / fmax ^ 2) + 3 * u53 * harmDm F H (1 / fmin ^ 2 + 1 / fmax ^ 2) ∧
      |(Ds : ℝ) - harmSnr F H r'| ≤ u53 * harmSnr F H r' + 8 * u53 * (|(F.snr : ℝ)| / Real.sqrt (r'.num * r'.den)) := by
  have hs' : (slowFast F H).1.freq = min F.freq H.freq ∧ (slowFast F H).2.freq = max F.freq H.freq ∧
      (slowFast F H).2.ducy = (if H.freq < F.freq then F.ducy else H.ducy) := by
    unfold slowFast
    split_ifs with h
    · exact ⟨(min_eq_right h.le).symm, (max_eq_left h.le).symm, rfl⟩
    · exact ⟨(min_eq_left (not_lt.1 h)).symm, (max_eq_right (not_lt.1 h)).symm, rfl⟩
  obtain ⟨hs1, hs2, hs3⟩ := hs'
  have hmin : 0 < min F.freq H.freq := lt_min hF hH
  have hducy : 0 < (if H.freq < F.freq then F.ducy else H.ducy) := by split_ifs <;> assumption
  have hratio : 1 ≤ max F.freq H.freq / min F.freq H.freq := by rw [le_div_iff₀ hmin, one_mul]; exact min_le_max
  have hratio' : 1 ≤ h.A.fl (max F.freq H.freq / min F.freq H.freq) := by
    have h1 := hs.double.mono 1 _ zero_le_one hratio
    have h2 := hs.double.nat 1 (by norm_num)
    rw [Nat.cast_one] at h2
    linarith
  obtain ⟨r, hr, hclose⟩ := limitDenominator_spec (h.A.fl (max F.freq H.freq / min F.freq H.freq)) a.denomMax hM
  have hr1 := closest_one_le hM hratio' hclose
  have hr0 : 0 < r := by linarith
  have horient : orientFraction H (slowFast F H).1 r = .ok (if H.freq < F.freq then 1 / r else r) := by
    unfold orientFraction slowFast pyDiv
    split_ifs with h1 h2 h3
    · exact absurd h3 hr0.ne'
    · rfl
    · exact absurd rfl h2
    · exact absurd ‹r = 0› hr0.ne'
    · have he : H = F := by assumption
      have hx : h.A.fl (max F.freq H.freq / min F.freq H.freq) = 1 := by
        rw [he, max_self, min_self, div_self hF.ne']
        have h2 := hs.double.nat 1 (by norm_num)
        rwa [Nat.cast_one] at h2
      rw [hx] at hclose
      have h1 := hclose.2 1 (by simpa using hM)
      rw [sub_self, abs_zero] at h1
      have h2 := abs_eq_zero.1 (le_antisymm h1 (abs_nonneg _))
      have h3 : r = 1 := by linarith
      rw [h3]; norm_num
    · rfl
  have hprod : ((if H.freq < F.freq then 1 / r else r : ℚ).num * (if H.freq < F.freq then 1 / r else r : ℚ).den : ℤ)
      = r.num * r.den := by
    split_ifs with h
    · have hnum : 0 < r.num := Rat.num_pos.2 hr0
      rw [one_div, Rat.num_inv, Rat.den_inv_of_ne_zero hr0.ne', Int.sign_eq_one_of_pos hnum, one_mul,
        Int.natAbs_of_nonneg hnum.le, mul_comm]
    · rfl
  have hsnr : h.snrExpected F (if H.freq < F.freq then 1 / r else r) = h.snrExpected F r := by
    unfold HArith.snrExpected
    rw [hprod]
  obtain ⟨e, he, hsn⟩ := snr_near (F := F) (H := H) hs hr0
  obtain ⟨d, hd, hdm⟩ := dm_near (F := F) (H := H) hs hF hH hFd hHd h0 hf
  refine ⟨decide (h.A.fl (h.phaseTurns r (min F.freq H.freq) (max F.freq H.freq) tobs / (if H.freq < F.freq then F.ducy else H.ducy)) ≤ a.phaseDistanceMax) &&
      decide (d ≤ a.dmDistanceMax) && decide (|h.A.fl (H.snr - e)| ≤ a.snrDistanceMax), r,
    h.A.fl (h.phaseTurns r (min F.freq H.freq) (max F.freq H.freq) tobs / (if H.freq < F.freq then F.ducy else H.ducy)), d, |h.A.fl (H.snr - e)|,
    hclose, hr1, ?_, ?_, ?_, hdm, hsn⟩
  · unfold HArith.htest HArith.hdiag
    rw [if_neg (not_not.2 hf), if_neg (not_not.2 ht)]
    simp only
    rw [hs1, hs2, hs3]
    have e1 : h.div (max F.freq H.freq) (min F.freq H.freq) = .ok (h.A.fl (max F.freq H.freq / min F.freq H.freq)) := by
      unfold HArith.div; rw [if_neg hmin.ne']
    rw [e1]
    simp only [Except.bind]
    rw [hr]
    simp only
    have e2 : ∀ z, h.div z (if H.freq < F.freq then F.ducy else H.ducy)
        = .ok (h.A.fl (z / (if H.freq < F.freq then F.ducy else H.ducy))) := by
      intro z; unfold HArith.div; rw [if_neg hducy.ne']
    rw [e2]
    simp only
    rw [horient]
    simp only
    rw [hsnr, he]
    cases hdel : h.dmDelay |h.A.fl (F.dm - H.dm)| fmin fmax with
    | error _ => rw [hdel] at hd; exact nomatch hd
    | ok delay =>
      rw [hdel] at hd
      simp only [Except.bind] at hd
      simp only
      rw [hd]
  · simp only [Bool.and_eq_true, decide_eq_true_eq, and_assoc]
  · intro r0 hr0'
    exact phase_near hs hM hmin min_le_max ht hducy hr0' hclose

/-- A fraction so close to the ratio of frequencies that rounding the ratio does not matter. -/
theorem fraction_rounded {h : HArith} (hs : HSane h) {x y r' : ℚ} {M : ℤ} (hx : 0 ≤ x) (hM : 1 ≤ M) (hy : (y.den : ℤ) ≤ M)
    (hclose : |y - x| + u53 * x < 1 / (2 * (M : ℚ) ^ 2)) (hr' : IsClosestFraction (h.A.fl x) M r') : r' = y := by
  have h1 := hs.rel x
  rw [abs_of_nonneg hx] at h1
  have h2 : |y - h.A.fl x| < 1 / (2 * (M : ℚ) ^ 2) := by
    have := abs_sub_le y x (h.A.fl x)
    rw [abs_sub_comm x] at this
    linarith
  have h3 := C43_unique_if_close _ M hM y hy h2
  obtain ⟨r, hr, hspec⟩ := limitDenominator_spec (h.A.fl x) M hM
  rw [h3] at hr
  have hry : y = r := Except.ok.inj hr
  by_contra hne
  -- both are closest; two fractions at less than 1 / (2 M^2) coincide
  have h4 := hr'.2 y hy
  have h5 : |r' - h.A.fl x| < 1 / (2 * (M : ℚ) ^ 2) := lt_of_le_of_lt h4 h2
  have h6 := C43_unique_if_close _ M hM r' hr'.1 h5
  rw [h3] at h6
  exact hne (Except.ok.inj h6).symm

/-- `d` is further from `lim` than `margin`. -/
def ClearOf (d lim margin : ℝ) : Prop := d + margin ≤ lim ∨ lim + margin < d

theorem clear_iff {d d' lim margin : ℝ} (hc : ClearOf d lim margin) (h : |d' - d| ≤ margin) : d' ≤ lim ↔ d ≤ lim := by
  obtain ⟨h1, h2⟩ := abs_le.1 h
  have hm : 0 ≤ margin := (abs_nonneg _).trans h
  rcases hc with hc | hc
  · exact ⟨fun _ => by linarith, fun _ => by linarith⟩
  · exact ⟨fun _ => by linarith, fun _ => by linarith⟩

/-- C125. If there is a fraction close to the ratio of frequencies and no distance is within a rounding error of its threshold, the test in double precision returns
exactly what it would return in exact arithmetic. -/
theorem C125_agree {h : HArith} (hs : HSane h) (F H : HPeak ℚ) (tobs fmin fmax : ℚ) (a : HTestArgs) (hF : 0 < F.freq) (hH : 0 < H.freq)
    (hFd : 0 < F.ducy) (hHd : 0 < H.ducy) (ht : 0 < tobs) (h0 : 0 < fmin) (hf : fmin < fmax) (hM : 1 ≤ a.denomMax) {y : ℚ} (hy : (y.den : ℤ) ≤ a.denomMax)
    (hclose : |y - max F.freq H.freq / min F.freq H.freq| + u53 * (max F.freq H.freq / min F.freq H.freq) < 1 / (2 * (a.denomMax : ℚ) ^ 2))
    (hp : ClearOf (harmPhase F H tobs y : ℚ) (a.phaseDistanceMax : ℚ) ((4 * u53 * harmPhase F H tobs y + 8 * u53 * harmWidths F H tobs : ℚ) : ℝ))
    (hd : ClearOf (harmDm F H (1 / fmin ^ 2 - 1 / fmax ^ 2) : ℚ) (a.dmDistanceMax : ℚ)
      ((8 * u53 * harmDm F H (1 / fmin ^ 2 - 1 / fmax ^ 2) + 3 * u53 * harmDm F H (1 / fmin ^ 2 + 1 / fmax ^ 2) : ℚ) : ℝ))
    (hn : ClearOf (harmSnr F H y) (a.snrDistanceMax : ℚ) (u53 * harmSnr F H y + 8 * u53 * (|(F.snr : ℝ)| / Real.sqrt (y.num * y.den)))) :
    h.htest F H tobs fmin fmax a = htest F H tobs fmin fmax a ∧
      ∃ related, htest F H tobs fmin fmax a = .ok (related, if H.freq < F.freq then 1 / y else y) := by
  obtain ⟨rel, r, hcl, -, hrun, hiff⟩ := C42_htest F H tobs fmin fmax a hF hH hFd hHd ht h0 hf hM
  obtain ⟨rel', r', Dp, Dd, Ds, hcl', -, hrun', hiff', b1, b2, b3⟩ := C125_htest hs F H tobs fmin fmax a hF hH hFd hHd ht h0 hf hM
  have hmin : 0 < min F.freq H.freq := lt_min hF hH
  have hmax : 0 < max F.freq H.freq := lt_max_of_lt_left hF
  have hx0 : 0 ≤ max F.freq H.freq / min F.freq H.freq := (div_pos hmax hmin).le
  have hu : (0 : ℚ) ≤ u53 := by norm_num [u53]
  have e' : r' = y := fraction_rounded hs hx0 hM hy hclose hcl'
  have e : r = y := by
    have h2 : |y - max F.freq H.freq / min F.freq H.freq| < 1 / (2 * (a.denomMax : ℚ) ^ 2) := by
      have := mul_nonneg hu hx0
      linarith
    have h3 := C43_unique_if_close _ a.denomMax hM y hy h2
    have h6 := C43_unique_if_close _ a.denomMax hM r hcl.1 (lt_of_le_of_lt (hcl.2 y hy) h2)
    rw [h3] at h6
    exact (Except.ok.inj h6).symm
  subst e'
  subst e
  have hb : rel' = rel := by
    rw [Bool.eq_iff_iff, hiff, hiff']
    have i1 : Dp ≤ a.phaseDistanceMax ↔ harmPhase F H tobs r ≤ a.phaseDistanceMax := by
      have := clear_iff (d' := (Dp : ℝ)) hp (by exact_mod_cast b1 r hcl)
      exact_mod_cast this
    have i2 : Dd ≤ a.dmDistanceMax ↔ harmDm F H (1 / fmin ^ 2 - 1 / fmax ^ 2) ≤ a.dmDistanceMax := by
      have := clear_iff (d' := (Dd : ℝ)) hd (by exact_mod_cast b2)
      exact_mod_cast this
    have i3 : Ds ≤ a.snrDistanceMax ↔ harmSnr F H r ≤ (a.snrDistanceMax : ℝ) := by
      have := clear_iff (d' := (Ds : ℝ)) hn b3
      rw [← this]
      exact_mod_cast Iff.rfl
    rw [i1, i2, i3]
    rfl
  rw [hrun, hrun', hb]
  exact ⟨rfl, rel, rfl⟩

/-- C125. A candidate whose frequency is within a factor `1 ± ε` of `p/q` times that of another, for small `p` and `q`, is tested as the `p/q`-th harmonic, and it is
flagged if the distances leave room for the rounding errors. -/
theorem C125_harmonic {h : HArith} (hs : HSane h) (F H : HPeak ℚ) (tobs fmin fmax : ℚ) (a : HTestArgs) (fr ε : ℚ) (hF : 0 < F.freq) (hH : 0 < H.freq)
    (hFd : 0 < F.ducy) (hHd : 0 < H.ducy) (ht : 0 < tobs) (h0 : 0 < fmin) (hf : fmin < fmax) (hfr : 0 < fr)
    (hnum : fr.num ≤ a.denomMax) (hden : (fr.den : ℤ) ≤ a.denomMax) (hε2 : ε ≤ 1 / 2) (he : |fr * F.freq - H.freq| ≤ ε * H.freq)
    (hsmall : 4 * (ε + u53) * max fr (1 / fr) * (a.denomMax : ℚ) ^ 2 < 1) :
    ∃ related, h.htest F H tobs fmin fmax a = .ok (related, fr) ∧
      (harmPhase F H tobs (if H.freq < F.freq then 1 / fr else fr) * (1 + 4 * u53) + 8 * u53 * harmWidths F H tobs ≤ a.phaseDistanceMax →
        harmDm F H (1 / fmin ^ 2 - 1 / fmax ^ 2) * (1 + 8 * u53) + 3 * u53 * harmDm F H (1 / fmin ^ 2 + 1 / fmax ^ 2) ≤ a.dmDistanceMax →
        harmSnr F H fr * (1 + u53) + 8 * u53 * (|(F.snr : ℝ)| / Real.sqrt (fr.num * fr.den)) ≤ (a.snrDistanceMax : ℝ) → related = true) := by
  have hM : 1 ≤ a.denomMax := le_trans (by exact_mod_cast fr.den_pos) hden
  have hMq : (0 : ℚ) < (a.denomMax : ℚ) := by exact_mod_cast (by omega : 0 < a.denomMax)
  obtain ⟨rel', r', Dp, Dd, Ds, hcl', -, hrun', hiff', b1, b2, b3⟩ := C125_htest hs F H tobs fmin fmax a hF hH hFd hHd ht h0 hf hM
  have hu : (0 : ℚ) < u53 := by norm_num [u53]
  have hu1 : (u53 : ℚ) ≤ 1 / 2 := by norm_num [u53]
  have hε : 0 ≤ ε := by
    have := (abs_nonneg _).trans he
    exact nonneg_of_mul_nonneg_left this hH
  set X := max fr (1 / fr) with hX
  have hX0 : 0 < X := lt_max_of_lt_left hfr
  have hnp : 0 < fr.num := Rat.num_pos.2 hfr
  set y : ℚ := if H.freq < F.freq then 1 / fr else fr with hydef
  have hyden : (y.den : ℤ) ≤ a.denomMax := by
    rw [hydef]
    split_ifs
    · rw [one_div, Rat.den_inv_of_ne_zero hfr.ne', Int.natAbs_of_nonneg hnp.le]; exact hnum
    · exact hden
  set x := max F.freq H.freq / min F.freq H.freq with hx
  have hxy : |y - x| ≤ 2 * ε * X ∧ x ≤ 2 * X ∧ 0 ≤ x := by
    rw [hydef, hx]
    obtain ⟨e1, e2⟩ := abs_le.1 he
    split_ifs with hlt
    · rw [max_eq_left hlt.le, min_eq_right hlt.le]
      have hk : 1 / fr ≤ X := le_max_right _ _
      have e3 : |1 / fr - F.freq / H.freq| ≤ ε * (1 / fr) := by
        have e4 : 1 / fr - F.freq / H.freq = (1 / fr) * ((H.freq - fr * F.freq) / H.freq) := by field_simp
        rw [e4, abs_mul, abs_of_pos (one_div_pos.2 hfr), abs_div, abs_of_pos hH, abs_sub_comm, mul_comm]
        exact mul_le_mul_of_nonneg_right (by rw [div_le_iff₀ hH]; exact he) (one_div_pos.2 hfr).le
      have e5 := mul_le_mul_of_nonneg_left hk hε
      have e6 := (abs_le.1 e3).1
      have e7 : ε * X ≤ 1 / 2 * X := mul_le_mul_of_nonneg_right hε2 hX0.le
      have e8 : 0 ≤ ε * X := mul_nonneg hε hX0.le
      exact ⟨by linarith, by linarith, (div_pos hF hH).le⟩
    · rw [max_eq_right (not_lt.1 hlt), min_eq_left (not_lt.1 hlt)]
      have hk : fr ≤ X := le_max_left _ _
      have hx0 : 0 < H.freq / F.freq := div_pos hH hF
      have e3 : |fr - H.freq / F.freq| ≤ ε * (H.freq / F.freq) := by
        have e4 : fr - H.freq / F.freq = (fr * F.freq - H.freq) / F.freq := by field_simp
        rw [e4, abs_div, abs_of_pos hF, div_le_iff₀ hF, mul_assoc, div_mul_cancel₀ _ hF.ne']
        exact he
      have e6 := (abs_le.1 e3).1
      have e7 : ε * (H.freq / F.freq) ≤ 1 / 2 * (H.freq / F.freq) := mul_le_mul_of_nonneg_right hε2 hx0.le
      have e8 : H.freq / F.freq ≤ 2 * X := by linarith
      have e9 := mul_le_mul_of_nonneg_left e8 hε
      exact ⟨by linarith, e8, hx0.le⟩
  obtain ⟨hy1, hy2, hx0⟩ := hxy
  have hclose : |y - x| + u53 * x < 1 / (2 * (a.denomMax : ℚ) ^ 2) := by
    have h1 := mul_le_mul_of_nonneg_left hy2 hu.le
    have h2 : 2 * ε * X + u53 * (2 * X) < 1 / (2 * (a.denomMax : ℚ) ^ 2) := by
      rw [lt_div_iff₀ (by positivity)]
      linarith
    linarith
  have e' : r' = y := fraction_rounded hs hx0 hM hyden hclose hcl'
  have hclx : IsClosestFraction x a.denomMax y := by
    have h2 : |y - x| < 1 / (2 * (a.denomMax : ℚ) ^ 2) := by
      have := mul_nonneg hu.le hx0
      linarith
    have h3 := C43_unique_if_close _ a.denomMax hM y hyden h2
    obtain ⟨r, hr, hspec⟩ := limitDenominator_spec x a.denomMax hM
    rw [h3] at hr
    rw [Except.ok.inj hr]; exact hspec
  subst e'
  have hback : (if H.freq < F.freq then 1 / y else y) = fr := by
    rw [hydef]; split_ifs
    · rw [one_div_one_div]
    · rfl
  have hprod : (y.num : ℝ) * (y.den : ℝ) = (fr.num : ℝ) * (fr.den : ℝ) := by
    have : y.num * (y.den : ℤ) = fr.num * (fr.den : ℤ) := by
      rw [hydef]
      split_ifs
      · rw [one_div, Rat.num_inv, Rat.den_inv_of_ne_zero hfr.ne', Int.sign_eq_one_of_pos hnp, one_mul, Int.natAbs_of_nonneg hnp.le, mul_comm]
      · rfl
    exact_mod_cast this
  have hsnr : harmSnr F H y = harmSnr F H fr := by unfold harmSnr; rw [hprod]
  rw [hback] at hrun'
  refine ⟨rel', hrun', fun g1 g2 g3 => hiff'.2 ⟨?_, ?_, ?_⟩⟩
  · have := (abs_le.1 (b1 y hclx)).2
    linarith
  · have := (abs_le.1 b2).2
    linarith
  · have := (abs_le.1 b3).2
    rw [hsnr, hprod] at this
    have : (Ds : ℝ) ≤ (a.snrDistanceMax : ℝ) := by linarith
    exact_mod_cast this

/-! ## Non-vacuity -/

theorem exists_root (x : ℚ) : ∃ r : ℚ, 1 ≤ x → |(r : ℝ) - Real.sqrt x| ≤ 2 * u53 * Real.sqrt x := by
  by_cases hx : 1 ≤ x
  · have h1 : (1 : ℝ) ≤ Real.sqrt x := Real.one_le_sqrt.2 (by exact_mod_cast hx)
    obtain ⟨r, hr1, hr2⟩ := exists_rat_btwn (show Real.sqrt x < Real.sqrt x + 2 * u53 * Real.sqrt x by
      have : (0 : ℝ) < 2 * ((u53 : ℚ) : ℝ) * Real.sqrt x := by
        have : (0 : ℝ) < ((u53 : ℚ) : ℝ) := by norm_num [u53]
        positivity
      linarith)
    exact ⟨r, fun _ => by rw [abs_of_pos (by linarith)]; linarith⟩
  · exact ⟨0, fun h => absurd h hx⟩

/-- IEEE double precision with a correctly rounded `x ** -2` and some accurate `x ** 0.5`. -/
noncomputable def ieeeHarm : HArith where
  A := ieeeDouble someLog (fun x k => rn 53 (x ^ k)) true
  invSq x := rn 53 (1 / x ^ 2)
  root x := Classical.choose (exists_root x)

theorem ieeeHarm_sane : HSane ieeeHarm where
  double := sane_some true
  rel := (grid_ieee _ _ _).rel
  invSq := fun x hx => by
    have h1 := rn_rel (p := 53) (x := 1 / x ^ 2) (by positivity)
    have h2 : (0 : ℚ) < 1 / x ^ 2 := by positivity
    have h3 : (0 : ℚ) ≤ u53 := by norm_num [u53]
    have h4 := mul_nonneg h3 h2.le
    have h5 : |rn 53 (1 / x ^ 2) - 1 / x ^ 2| ≤ u53 * (1 / x ^ 2) := h1
    show |rn 53 (1 / x ^ 2) - 1 / x ^ 2| ≤ 2 * u53 * (1 / x ^ 2)
    linarith
  root := fun x hx => Classical.choose_spec (exists_root x) hx

theorem peak_snr : harmSnr peakF peakH 2 + (u53 * harmSnr peakF peakH 2 + 8 * u53 * (|(peakF.snr : ℝ)| / Real.sqrt (((2 : ℚ).num : ℝ) * ((2 : ℚ).den : ℝ)))) ≤ 3 := by
  have h1 : (1.4 : ℝ) ≤ Real.sqrt (((2 : ℚ).num : ℝ) * ((2 : ℚ).den : ℝ)) := Real.le_sqrt_of_sq_le (by
    have e1 : (2 : ℚ).num = 2 := rfl
    have e2 : (2 : ℚ).den = 1 := rfl
    rw [e1, e2]; norm_num)
  have h2 : Real.sqrt (((2 : ℚ).num : ℝ) * ((2 : ℚ).den : ℝ)) ≤ 1.5 := by
    have e1 : (2 : ℚ).num = 2 := rfl
    have e2 : (2 : ℚ).den = 1 := rfl
    rw [e1, e2]
    exact Real.sqrt_le_iff.2 ⟨by norm_num, by norm_num⟩
  unfold harmSnr
  generalize Real.sqrt (((2 : ℚ).num : ℝ) * ((2 : ℚ).den : ℝ)) = s at h1 h2 ⊢
  have hs : 0 < s := by linarith
  have e1 : (peakH.snr : ℝ) = 20 := by norm_num [peakH]
  have e2 : (peakF.snr : ℝ) = 30 := by norm_num [peakF]
  rw [e1, e2]
  have h3 : 30 / s ≤ 22 := by rw [div_le_iff₀ hs]; linarith
  have h4 : 20 ≤ 30 / s := by rw [le_div_iff₀ hs]; linarith
  rw [abs_of_nonpos (by linarith), abs_of_pos (by norm_num : (0 : ℝ) < 30)]
  have e3 : (((u53 : ℚ)) : ℝ) ≤ 1 / 1000 := by norm_num [u53]
  have e4 : (0 : ℝ) ≤ (((u53 : ℚ)) : ℝ) := by norm_num [u53]
  nlinarith

/-- The second harmonic is flagged in double precision: an observation of ten minutes between 1200 and 1500 MHz. -/
example : ieeeHarm.htest peakF peakH 600 1200 1500 {} = .ok (true, 2) := by
  obtain ⟨related, hrun, hrel⟩ := C125_harmonic ieeeHarm_sane peakF peakH 600 1200 1500 {} 2 0 (by norm_num [peakF]) (by norm_num [peakH]) (by norm_num [peakF])
    (by norm_num [peakH]) (by norm_num) (by norm_num) (by norm_num) (by norm_num) (by decide +kernel) (by decide +kernel) (by norm_num)
    (by norm_num [peakF, peakH]) (by norm_num [u53])
  rw [hrun]
  have hp : ¬ peakH.freq < peakF.freq := by norm_num [peakF, peakH]
  rw [hrel]
  · rw [if_neg hp]
    norm_num [harmPhase, harmWidths, peakF, peakH, u53]
  · norm_num [harmDm, peakF, peakH]
  · have e5 : ((({} : HTestArgs).snrDistanceMax : ℚ) : ℝ) = 3 := by norm_num
    rw [e5]
    have := peak_snr
    linarith

/-- The hypotheses of `C125_agree` hold for the same peaks. -/
example : ieeeHarm.htest peakF peakH 600 1200 1500 {} = htest peakF peakH 600 1200 1500 {} :=
  (C125_agree ieeeHarm_sane peakF peakH 600 1200 1500 {} (y := 2) (by norm_num [peakF]) (by norm_num [peakH]) (by norm_num [peakF])
    (by norm_num [peakH]) (by norm_num) (by norm_num) (by norm_num) (by norm_num) (by decide +kernel) (by norm_num [peakF, peakH, u53])
    (Or.inl (by norm_num [harmPhase, harmWidths, peakF, peakH, u53])) (Or.inl (by norm_num [harmDm, peakF, peakH]))
    (Or.inl (by
      have e5 : ((({} : HTestArgs).snrDistanceMax : ℚ) : ℝ) = 3 := by norm_num
      rw [e5]; exact peak_snr))).1

end Verif.Props
