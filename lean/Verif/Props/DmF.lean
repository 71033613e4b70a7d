import Verif.Model.DmF
import Verif.Props.Dm
import Verif.Props.HarmonicsF

/-!
# C126: selection of trial DMs in double precision
-/

namespace Verif.Props

open Verif.Model Verif.Spec Verif.Lemmas

/-! ## Relative errors -/

/-- `x` is `x0` up to a relative error `ε`. -/
def RelErr (ε x0 x : ℚ) : Prop := |x - x0| ≤ ε * x0

theorem RelErr.round {h : HArith} (hs : HSane h) {ε x0 x : ℚ} (hx : RelErr ε x0 x) (h0 : 0 ≤ x0) : RelErr (ε + u53 * (1 + ε)) x0 (h.A.fl x) := by
  have := Apx.round (α := ε) (E := 0) (β := 0) (x0 := x0) (by unfold Apx; unfold RelErr at hx; linarith) h0 (hs.rel x)
  unfold Apx at this; unfold RelErr; linarith

theorem RelErr.weaken {ε ε' x0 x : ℚ} (hx : RelErr ε x0 x) (h0 : 0 ≤ x0) (h : ε ≤ ε') : RelErr ε' x0 x :=
  le_trans hx (mul_le_mul_of_nonneg_right h h0)

theorem RelErr.mul {ε ε' x0 x y0 y : ℚ} (hx : RelErr ε x0 x) (hy : RelErr ε' y0 y) (h0 : 0 ≤ x0) (h0' : 0 ≤ y0) (he : 0 ≤ ε) :
    RelErr (ε * (1 + ε') + ε') (x0 * y0) (x * y) := by
  have := Apx.mul (α := ε) (α' := ε') (x0 := x0) (x := x) (y0 := y0) (y := y) (E := 0) (β := 0) (by unfold Apx; unfold RelErr at hx; linarith) (by unfold Apx; unfold RelErr at hy; linarith) h0 h0' he
  unfold Apx at this; unfold RelErr; linarith

theorem RelErr.pos {ε x0 x : ℚ} (hx : RelErr ε x0 x) (h0 : 0 < x0) (he : ε < 1) : 0 < x := by
  have := (abs_le.1 hx).1
  nlinarith

theorem RelErr.div {a b x0 x m m' : ℚ} (hx : RelErr a x0 x) (hm : RelErr b m m') (h0 : 0 ≤ x0) (hm0 : 0 < m) (ha : 0 ≤ a) (hb : 0 ≤ b) (hb2 : b ≤ 1 / 2) :
    RelErr (a * (1 + 2 * b) + 2 * b) (x0 / m) (x / m') := by
  have hpos : 0 < m' := hm.pos hm0 (by linarith)
  unfold RelErr at *
  obtain ⟨h1, h2⟩ := abs_le.1 hm
  have h3 : |1 / m' - 1 / m| ≤ 2 * b * (1 / m) := by
    have e : 1 / m' - 1 / m = (m - m') / (m' * m) := by field_simp
    rw [e, abs_div, abs_of_pos (mul_pos hpos hm0), div_le_iff₀ (mul_pos hpos hm0), abs_sub_comm]
    have e2 : 2 * b * (1 / m) * (m' * m) = 2 * b * m' := by field_simp
    rw [e2]
    nlinarith [mul_nonneg hb (mul_nonneg hb hm0.le)]
  have h4 : 1 / m' ≤ (1 + 2 * b) * (1 / m) := by have := (abs_le.1 h3).2; linarith
  have e : x / m' - x0 / m = (x - x0) * (1 / m') + x0 * (1 / m' - 1 / m) := by ring
  have h5 := abs_add_le ((x - x0) * (1 / m')) (x0 * (1 / m' - 1 / m))
  rw [abs_mul, abs_mul x0, abs_of_nonneg h0, abs_of_pos (one_div_pos.2 hpos)] at h5
  have h6 : |x - x0| * (1 / m') ≤ (a * x0) * ((1 + 2 * b) * (1 / m)) :=
    mul_le_mul hx h4 (one_div_pos.2 hpos).le (by positivity)
  have h7 := mul_le_mul_of_nonneg_left h3 h0
  rw [e]
  have e3 : (a * (1 + 2 * b) + 2 * b) * (x0 / m) = (a * x0) * ((1 + 2 * b) * (1 / m)) + x0 * (2 * b * (1 / m)) := by ring
  rw [e3]
  linarith

/-- `x ** -2` of a number known up to a relative error. -/
theorem invSq_near {h : HArith} (hs : HSane h) {a a' ε : ℚ} (ha : 0 < a) (he : 0 ≤ ε) (he2 : ε ≤ 1 / 16) (hx : RelErr ε a a') :
    |h.invSq a' - 1 / a ^ 2| ≤ (3 * ε + 3 * u53) * (1 / a ^ 2) := by
  have hpos : 0 < a' := hx.pos ha (by linarith)
  have hu : (0 : ℚ) < u53 := by norm_num [u53]
  have h1 := hs.invSq a' hpos
  obtain ⟨l, r⟩ := abs_le.1 hx
  have hk : 0 < 1 / a ^ 2 := by positivity
  have h2 : |1 / a' ^ 2 - 1 / a ^ 2| ≤ 3 * ε * (1 / a ^ 2) := by
    have e : 1 / a' ^ 2 - 1 / a ^ 2 = (a - a') * (a + a') / (a' ^ 2 * a ^ 2) := by field_simp; ring
    rw [e, abs_div, abs_of_pos (by positivity : 0 < a' ^ 2 * a ^ 2), div_le_iff₀ (by positivity), abs_mul, abs_of_pos (by linarith : 0 < a + a'), abs_sub_comm]
    have e2 : 3 * ε * (1 / a ^ 2) * (a' ^ 2 * a ^ 2) = 3 * ε * a' ^ 2 := by field_simp
    rw [e2]
    have h3 : |a' - a| * (a + a') ≤ ε * a * (a + a') := mul_le_mul_of_nonneg_right hx (by linarith)
    have h4 : a * (a + a') ≤ 3 * a' ^ 2 := by
      have h5 : 15 / 16 * a ≤ a' := by nlinarith
      nlinarith
    have := mul_le_mul_of_nonneg_left h4 he
    linarith
  have h3 : 1 / a' ^ 2 ≤ (1 + 3 * ε) * (1 / a ^ 2) := by have := (abs_le.1 h2).2; linarith
  have h4 := mul_le_mul_of_nonneg_left h3 (by linarith : 0 ≤ 2 * u53)
  have h5 := abs_sub_le (h.invSq a') (1 / a' ^ 2) (1 / a ^ 2)
  have h6 : 2 * u53 * ((1 + 3 * ε) * (1 / a ^ 2)) ≤ 3 * u53 * (1 / a ^ 2) := by
    have : 2 * u53 * (1 + 3 * ε) ≤ 3 * u53 := by nlinarith
    have := mul_le_mul_of_nonneg_right this hk.le
    linarith
  linarith

/-- The difference of two inverse squares, rounded; `κ` is the condition number. -/
theorem band_near {h : HArith} (hs : HSane h) {a b a' b' ε κ : ℚ} (ha : 0 < a) (hab : a < b) (he : 0 ≤ ε) (he2 : ε ≤ 1 / 16)
    (hxa : RelErr ε a a') (hxb : RelErr ε b b') (hκ : 1 / a ^ 2 + 1 / b ^ 2 ≤ κ * (1 / a ^ 2 - 1 / b ^ 2)) :
    RelErr ((3 * ε + 3 * u53) * κ + u53 * (1 + (3 * ε + 3 * u53) * κ)) (1 / a ^ 2 - 1 / b ^ 2) (h.A.fl (h.invSq a' - h.invSq b')) := by
  have hb : 0 < b := ha.trans hab
  have h1 := invSq_near hs ha he he2 hxa
  have h2 := invSq_near hs hb he he2 hxb
  have hB : 0 ≤ 1 / a ^ 2 - 1 / b ^ 2 := by
    rw [sub_nonneg]; exact one_div_le_one_div_of_le (pow_pos ha 2) (pow_le_pow_left₀ ha.le hab.le 2)
  refine RelErr.round hs ?_ hB
  unfold RelErr
  have e : h.invSq a' - h.invSq b' - (1 / a ^ 2 - 1 / b ^ 2) = (h.invSq a' - 1 / a ^ 2) - (h.invSq b' - 1 / b ^ 2) := by ring
  rw [e]
  have h3 := abs_sub (h.invSq a' - 1 / a ^ 2) (h.invSq b' - 1 / b ^ 2)
  have hu : (0 : ℚ) < u53 := by norm_num [u53]
  have h4 := mul_le_mul_of_nonneg_left hκ (by linarith : 0 ≤ 3 * ε + 3 * u53)
  linarith

theorem kdm_near {h : HArith} (hs : HSane h) : RelErr (4 * u53) (KDM : ℚ) h.kdm := by
  unfold HArith.kdm KDM
  have h1 := hs.rel (241 / 1000000)
  rw [abs_of_pos (by norm_num : (0 : ℚ) < 241 / 1000000)] at h1
  have h2 : RelErr 0 1 1 := by unfold RelErr; norm_num
  have h3 := RelErr.div h2 (show RelErr u53 (241 / 1000000) (h.A.fl (241 / 1000000)) from h1) zero_le_one (by norm_num) le_rfl
    (by norm_num [u53]) (by norm_num [u53])
  have h4 := h3.round hs (by norm_num)
  exact h4.weaken (by norm_num) (by norm_num [u53])

/-! ## The coverage radius -/

/-- Condition number of the channel width: the centre of the band in channel widths, times two. -/
def bandCond (fmin fmax : ℚ) (nchans : ℕ) : ℚ := nchans * (fmax + fmin) / (fmax - fmin)

section Band

variable {fmin fmax : ℚ} {nchans : ℕ}

theorem bandCond_one (h0 : 0 < fmin) (hf : fmin < fmax) (hn : 1 ≤ nchans) : (fmax + fmin) / (fmax - fmin) ≤ bandCond fmin fmax nchans ∧ 1 ≤ bandCond fmin fmax nchans := by
  have hd : 0 < fmax - fmin := by linarith
  have hnq : (1 : ℚ) ≤ nchans := by exact_mod_cast hn
  have h1 : (fmax + fmin) / (fmax - fmin) ≤ bandCond fmin fmax nchans := by
    unfold bandCond
    apply div_le_div_of_nonneg_right _ hd.le
    nlinarith
  refine ⟨h1, le_trans ?_ h1⟩
  rw [le_div_iff₀ hd]; linarith

theorem kdisp_near {h : HArith} (hs : HSane h) (h0 : 0 < fmin) (hf : fmin < fmax) (hn : 1 ≤ nchans) (hκ : bandCond fmin fmax nchans ≤ 2 ^ 40) :
    RelErr (10 * u53 * bandCond fmin fmax nchans) (kdisp fmin fmax) (h.kdisp fmin fmax) := by
  obtain ⟨c1, c2⟩ := bandCond_one h0 hf hn
  set κ := bandCond fmin fmax nchans with hκdef
  have hd : 0 < fmax - fmin := by linarith
  have hfm : 0 < fmax := by linarith
  have hr : ∀ x : ℚ, RelErr 0 x x := fun x => by unfold RelErr; simp
  have hB : 0 ≤ 1 / fmin ^ 2 - 1 / fmax ^ 2 := by
    rw [sub_nonneg]; exact one_div_le_one_div_of_le (pow_pos h0 2) (pow_le_pow_left₀ h0.le hf.le 2)
  have hcond : 1 / fmin ^ 2 + 1 / fmax ^ 2 ≤ κ * (1 / fmin ^ 2 - 1 / fmax ^ 2) := by
    have h1 := mul_le_mul_of_nonneg_right c1 hB
    refine le_trans ?_ h1
    have e : (fmax + fmin) / (fmax - fmin) * (1 / fmin ^ 2 - 1 / fmax ^ 2) = (fmax + fmin) ^ 2 / (fmin ^ 2 * fmax ^ 2) := by
      field_simp; ring
    rw [e]
    have e2 : 1 / fmin ^ 2 + 1 / fmax ^ 2 = (fmax ^ 2 + fmin ^ 2) / (fmin ^ 2 * fmax ^ 2) := by field_simp
    rw [e2]
    apply div_le_div_of_nonneg_right _ (by positivity)
    nlinarith
  have h1 := band_near hs h0 hf le_rfl (by norm_num) (hr fmin) (hr fmax) hcond
  have h2 := (RelErr.mul (kdm_near hs) h1 (by unfold KDM; norm_num) hB (by norm_num [u53])).round hs (mul_nonneg (by unfold KDM; norm_num) hB)
  refine h2.weaken (mul_nonneg (by unfold KDM; norm_num) hB) ?_
  have hx : u53 * κ ≤ 1 / 2 ^ 13 := by
    have : u53 * κ ≤ u53 * 2 ^ 40 := mul_le_mul_of_nonneg_left hκ (by norm_num [u53])
    have e : u53 * 2 ^ 40 = 1 / 2 ^ 13 := by norm_num [u53]
    linarith
  have hy : u53 ≤ u53 * κ := le_mul_of_one_le_right (by norm_num [u53]) c2
  have e : (10 : ℚ) * u53 * κ = 10 * (u53 * κ) := by ring
  have e' : (3 * 0 + 3 * u53) * κ = 3 * (u53 * κ) := by ring
  rw [e, e']
  generalize u53 * κ = y at *
  have hu0 : (0 : ℚ) < u53 := by norm_num [u53]
  have hu1 : (u53 : ℚ) ≤ 1 / 2 ^ 53 := le_of_eq rfl
  generalize (u53 : ℚ) = u at *
  nlinarith [mul_nonneg hu0.le (by linarith : 0 ≤ y), mul_nonneg hu0.le hu0.le, mul_nonneg hu0.le (mul_nonneg hu0.le (by linarith : 0 ≤ y))]

theorem ksmear_near {h : HArith} (hs : HSane h) (h0 : 0 < fmin) (hf : fmin < fmax) (hn : 1 ≤ nchans) (hn2 : 2 ≤ nchans ∨ fmax ≤ 3 * fmin)
    (hκ : bandCond fmin fmax nchans ≤ 2 ^ 40) :
    RelErr (46 * u53 * bandCond fmin fmax nchans) (ksmear fmin fmax (nchans : ℚ)) (h.ksmear fmin fmax nchans) := by
  obtain ⟨c1, c2⟩ := bandCond_one h0 hf hn
  have hd : 0 < fmax - fmin := by linarith
  have hfm : 0 < fmax := by linarith
  have hnq : (1 : ℚ) ≤ nchans := by exact_mod_cast hn
  have hu0 : (0 : ℚ) < u53 := by norm_num [u53]
  -- centre of the band and half a channel
  set mid := (fmax + fmin) / 2 with hmid
  set half := (fmax - fmin) / nchans / 2 with hhalf
  have hmid0 : 0 < mid := by rw [hmid]; linarith
  have hhalf0 : 0 < half := by rw [hhalf]; positivity
  have hlo : fmin ≤ mid - half ∧ half ≤ mid - half ∧ mid ≤ 2 * (mid - half) := by
    have hk : half ≤ (fmax - fmin) / 2 := by
      rw [hhalf]; exact div_le_div_of_nonneg_right (div_le_self hd.le hnq) (by norm_num)
    rcases hn2 with h2 | h2
    · have h2q : (2 : ℚ) ≤ nchans := by exact_mod_cast h2
      have hk2 : half ≤ (fmax - fmin) / 4 := by
        have : (fmax - fmin) / nchans ≤ (fmax - fmin) / 2 := div_le_div_of_nonneg_left hd.le (by norm_num) h2q
        rw [hhalf]; linarith
      exact ⟨by linarith, by linarith, by linarith⟩
    · exact ⟨by linarith, by linarith, by linarith⟩
  obtain ⟨hlo1, hlo2, hlo3⟩ := hlo
  have hmidE : RelErr (3 * u53) mid (h.fmid fmin fmax) := by
    unfold HArith.fmid
    have h1 : RelErr 0 (fmax + fmin) (fmax + fmin) := by unfold RelErr; simp
    have h2 : RelErr 0 2 2 := by unfold RelErr; simp
    have h3 := (RelErr.div (h1.round hs (by linarith)) h2 (by linarith) (by norm_num) (by norm_num [u53]) le_rfl (by norm_num)).round hs (by linarith)
    exact h3.weaken (by linarith) (by norm_num [u53])
  have hhalfE : RelErr (4 * u53) half (h.halfChannel fmin fmax nchans) := by
    unfold HArith.halfChannel
    have h1 : RelErr 0 (fmax - fmin) (fmax - fmin) := by unfold RelErr; simp
    have h2 : RelErr 0 2 2 := by unfold RelErr; simp
    have h2' : RelErr 0 (nchans : ℚ) (nchans : ℚ) := by unfold RelErr; simp
    have q0 : 0 ≤ (fmax - fmin) / nchans := by positivity
    have h3 := (RelErr.div (h1.round hs hd.le) h2' hd.le (by linarith) (by norm_num [u53]) le_rfl (by norm_num)).round hs q0
    have h4 := (RelErr.div h3 h2 q0 (by norm_num) (by norm_num [u53]) le_rfl (by norm_num)).round hs hhalf0.le
    exact h4.weaken hhalf0.le (by norm_num [u53])
  have hloE : RelErr (12 * u53) (mid - half) (h.A.fl (h.fmid fmin fmax - h.halfChannel fmin fmax nchans)) := by
    have h1 : RelErr (10 * u53) (mid - half) (h.fmid fmin fmax - h.halfChannel fmin fmax nchans) := by
      unfold RelErr at *
      have e : h.fmid fmin fmax - h.halfChannel fmin fmax nchans - (mid - half) = (h.fmid fmin fmax - mid) - (h.halfChannel fmin fmax nchans - half) := by ring
      rw [e]
      have := abs_sub (h.fmid fmin fmax - mid) (h.halfChannel fmin fmax nchans - half)
      nlinarith
    exact (h1.round hs (by linarith)).weaken (by linarith) (by norm_num [u53])
  have hhiE : RelErr (12 * u53) (mid + half) (h.A.fl (h.fmid fmin fmax + h.halfChannel fmin fmax nchans)) := by
    have h1 : RelErr (10 * u53) (mid + half) (h.fmid fmin fmax + h.halfChannel fmin fmax nchans) := by
      unfold RelErr at *
      have e : h.fmid fmin fmax + h.halfChannel fmin fmax nchans - (mid + half) = (h.fmid fmin fmax - mid) + (h.halfChannel fmin fmax nchans - half) := by ring
      rw [e]
      have := abs_add_le (h.fmid fmin fmax - mid) (h.halfChannel fmin fmax nchans - half)
      nlinarith
    exact (h1.round hs (by linarith)).weaken (by linarith) (by norm_num [u53])
  have hκe : bandCond fmin fmax nchans = mid / half := by
    unfold bandCond; rw [hmid, hhalf]; field_simp
  set κ := bandCond fmin fmax nchans with hκdef
  have ha : 0 < mid - half := by linarith
  have hab : mid - half < mid + half := by linarith
  have hB : 0 ≤ 1 / (mid - half) ^ 2 - 1 / (mid + half) ^ 2 := by
    rw [sub_nonneg]; exact one_div_le_one_div_of_le (pow_pos ha 2) (pow_le_pow_left₀ ha.le hab.le 2)
  have hcond : 1 / (mid - half) ^ 2 + 1 / (mid + half) ^ 2 ≤ κ * (1 / (mid - half) ^ 2 - 1 / (mid + half) ^ 2) := by
    have hb : 0 < mid + half := by linarith
    have e : mid / half * (1 / (mid - half) ^ 2 - 1 / (mid + half) ^ 2) = 4 * mid ^ 2 / ((mid - half) ^ 2 * (mid + half) ^ 2) := by
      have := ha.ne'
      field_simp; ring
    have e2 : 1 / (mid - half) ^ 2 + 1 / (mid + half) ^ 2 = (2 * mid ^ 2 + 2 * half ^ 2) / ((mid - half) ^ 2 * (mid + half) ^ 2) := by
      have := ha.ne'
      field_simp; ring
    rw [hκe, e, e2]
    apply div_le_div_of_nonneg_right _ (by positivity)
    nlinarith
  have h1 := band_near hs ha hab (by norm_num [u53]) (by norm_num [u53]) hloE hhiE hcond
  have h2 := (RelErr.mul (kdm_near hs) h1 (by unfold KDM; norm_num) hB (by norm_num [u53])).round hs (mul_nonneg (by unfold KDM; norm_num) hB)
  have hval : ksmear fmin fmax (nchans : ℚ) = KDM * (1 / (mid - half) ^ 2 - 1 / (mid + half) ^ 2) := rfl
  rw [hval]
  refine h2.weaken (mul_nonneg (by unfold KDM; norm_num) hB) ?_
  have hx : u53 * κ ≤ 1 / 2 ^ 13 := by
    have : u53 * κ ≤ u53 * 2 ^ 40 := mul_le_mul_of_nonneg_left hκ (by norm_num [u53])
    have e : u53 * 2 ^ 40 = 1 / 2 ^ 13 := by norm_num [u53]
    linarith
  have hy : u53 ≤ u53 * κ := le_mul_of_one_le_right (by norm_num [u53]) c2
  have e : (46 : ℚ) * u53 * κ = 46 * (u53 * κ) := by ring
  have e' : (3 * (12 * u53) + 3 * u53) * κ = 39 * (u53 * κ) := by ring
  rw [e, e']
  generalize u53 * κ = y at *
  have hu1 : (u53 : ℚ) ≤ 1 / 2 ^ 53 := le_of_eq rfl
  generalize (u53 : ℚ) = u at *
  nlinarith [mul_nonneg hu0.le (by linarith : 0 ≤ y), mul_nonneg hu0.le hu0.le, mul_nonneg hu0.le (mul_nonneg hu0.le (by linarith : 0 ≤ y))]

theorem max_near {w x x' e : ℚ} (h : |x' - x| ≤ e) : |max w x' - max w x| ≤ e := (abs_max_sub_max_le_max w x' w x).trans (max_le (by simpa using (abs_nonneg _).trans h) h)

/-- C126. The coverage radius of a trial DM in double precision. -/
theorem C126_radius {h : HArith} (hs : HSane h) (h0 : 0 < fmin) (hf : fmin < fmax) (hn : 1 ≤ nchans) (hn2 : 2 ≤ nchans ∨ fmax ≤ 3 * fmin)
    (hκ : bandCond fmin fmax nchans ≤ 2 ^ 40) {wmin : ℚ} (hw : 0 ≤ wmin) (dm : ℚ) :
    |h.radius fmin fmax nchans wmin dm - dmRadius fmin fmax (nchans : ℚ) wmin dm| ≤
      72 * u53 * bandCond fmin fmax nchans * dmRadius fmin fmax (nchans : ℚ) wmin dm := by
  obtain ⟨c1, c2⟩ := bandCond_one h0 hf hn
  have hd := kdisp_near hs h0 hf hn hκ
  have hk := ksmear_near hs h0 hf hn hn2 hκ
  have hk0 := (ksmear_bounds fmin fmax (nchans : ℚ) h0 hf (by exact_mod_cast hn)).1
  have hd0 := kdisp_pos fmin fmax h0 hf
  unfold HArith.radius dmRadius
  set κ := bandCond fmin fmax nchans with hκdef
  set ks := ksmear fmin fmax (nchans : ℚ) with hks
  set kd := kdisp fmin fmax with hkd
  have hx : u53 * κ ≤ 1 / 2 ^ 13 := by
    have : u53 * κ ≤ u53 * 2 ^ 40 := mul_le_mul_of_nonneg_left hκ (by norm_num [u53])
    have e : u53 * 2 ^ 40 = 1 / 2 ^ 13 := by norm_num [u53]
    linarith
  have hy : u53 ≤ u53 * κ := le_mul_of_one_le_right (by norm_num [u53]) c2
  have hu0 : (0 : ℚ) < u53 := by norm_num [u53]
  have hm0 : 0 ≤ max wmin (ks * dm) := le_max_of_le_left hw
  have hm : RelErr (48 * (u53 * κ)) (max wmin (ks * dm)) (max wmin (h.A.fl (h.ksmear fmin fmax nchans * dm))) := by
    have hksp : 0 < h.ksmear fmin fmax nchans := hk.pos hk0 (by linarith)
    rcases le_total 0 dm with hdm | hdm
    · have h1 : RelErr 0 dm dm := by unfold RelErr; simp
      have hp : 0 ≤ ks * dm := mul_nonneg hk0.le hdm
      have h2 := (RelErr.mul hk h1 hk0.le hdm (by positivity)).round hs hp
      have h3 : RelErr (48 * (u53 * κ)) (ks * dm) (h.A.fl (h.ksmear fmin fmax nchans * dm)) := by
        refine h2.weaken hp ?_
        have e : (46 : ℚ) * u53 * κ = 46 * (u53 * κ) := by ring
        rw [e]
        generalize u53 * κ = y at *
        have hu1 : (u53 : ℚ) ≤ 1 / 2 ^ 53 := le_of_eq rfl
        generalize (u53 : ℚ) = u at *
        nlinarith
      unfold RelErr at h3 ⊢
      refine (max_near h3).trans (mul_le_mul_of_nonneg_left (le_max_right _ _) (by positivity))
    · have h1 : ks * dm ≤ 0 := mul_nonpos_of_nonneg_of_nonpos hk0.le hdm
      have h2 : h.ksmear fmin fmax nchans * dm ≤ 0 := mul_nonpos_of_nonneg_of_nonpos hksp.le hdm
      have h3 : h.A.fl (h.ksmear fmin fmax nchans * dm) ≤ 0 := by
        have h4 := (abs_le.1 (hs.rel (h.ksmear fmin fmax nchans * dm))).2
        rw [abs_of_nonpos h2] at h4
        have : u53 ≤ 1 := by norm_num [u53]
        nlinarith
      rw [max_eq_left (h1.trans hw), max_eq_left (h3.trans hw)]
      unfold RelErr
      rw [sub_self, abs_zero]
      positivity
  have e : (10 : ℚ) * u53 * κ = 10 * (u53 * κ) := by ring
  rw [e] at hd
  have h5 := (RelErr.div hm hd hm0 hd0 (by positivity) (by positivity) (by linarith)).round hs (div_nonneg hm0 hd0.le)
  have h6 := h5.weaken (ε' := 72 * u53 * κ) (div_nonneg hm0 hd0.le) (by
    have e : (72 : ℚ) * u53 * κ = 72 * (u53 * κ) := by ring
    rw [e]
    generalize u53 * κ = y at *
    have hu1 : (u53 : ℚ) ≤ 1 / 2 ^ 53 := le_of_eq rfl
    generalize (u53 : ℚ) = u at *
    have hy0 : 0 ≤ y := by linarith
    have ha : y * y ≤ 1 / 2 ^ 13 * y := mul_le_mul_of_nonneg_right hx hy0
    have hb : 48 * y * (1 + 2 * (10 * y)) + 2 * (10 * y) ≤ 1 / 100 := by
      have : 48 * y * (1 + 2 * (10 * y)) = 48 * y + 960 * (y * y) := by ring
      rw [this]; linarith
    have hc : u * (1 + (48 * y * (1 + 2 * (10 * y)) + 2 * (10 * y))) ≤ y * (1 + 1 / 100) :=
      mul_le_mul hy (by linarith) (by positivity) hy0
    have hd' : 48 * y * (1 + 2 * (10 * y)) = 48 * y + 960 * (y * y) := by ring
    linarith)
  exact h6

end Band

/-! ## Gaps -/

/-- Exact gap between the coverage intervals of two DMs `a ≤ b`. -/
def gapOf (radius : ℚ → ℚ) (a b : ℚ) : ℚ := (b - radius b) - (a + radius a)

/-- Rounding error of a gap. -/
def gapTol (κ : ℚ) (radius : ℚ → ℚ) (a b : ℚ) : ℚ := 74 * u53 * κ * (radius a + radius b) + u53 * (|a| + |b|)

theorem fl_nonpos {h : HArith} (hs : HSane h) {x : ℚ} : h.A.fl x ≤ 0 ↔ x ≤ 0 := by
  have h1 := abs_le.1 (hs.rel x)
  have hu : (u53 : ℚ) ≤ 1 / 2 := by norm_num [u53]
  constructor
  · intro hx
    by_contra hn
    rw [abs_of_pos (not_le.1 hn)] at h1
    nlinarith [h1.1, not_le.1 hn]
  · intro hx
    rw [abs_of_nonpos hx] at h1
    nlinarith [h1.2]

/-- The computed gap has the sign of the exact gap up to the tolerance. -/
theorem gap_sign {h : HArith} (hs : HSane h) {κ : ℚ} (hκ1 : 1 ≤ κ) (hκ : κ ≤ 2 ^ 40) {r ρ : ℚ → ℚ} {a b : ℚ} (ha0 : 0 ≤ r a) (hb0 : 0 ≤ r b)
    (ha : |ρ a - r a| ≤ 72 * u53 * κ * r a) (hb : |ρ b - r b| ≤ 72 * u53 * κ * r b) :
    (h.A.fl (h.A.fl (b - ρ b) - h.A.fl (a + ρ a)) ≤ 0 → gapOf r a b ≤ gapTol κ r a b) ∧
    (gapOf r a b ≤ -gapTol κ r a b → h.A.fl (h.A.fl (b - ρ b) - h.A.fl (a + ρ a)) ≤ 0) ∧
    (gapTol κ r a b < gapOf r a b → 0 < h.A.fl (h.A.fl (b - ρ b) - h.A.fl (a + ρ a))) := by
  have hu0 : (0 : ℚ) < u53 := by norm_num [u53]
  have hx : u53 * κ ≤ 1 / 2 ^ 13 := by
    have : u53 * κ ≤ u53 * 2 ^ 40 := mul_le_mul_of_nonneg_left hκ (by norm_num [u53])
    have e : u53 * 2 ^ 40 = 1 / 2 ^ 13 := by norm_num [u53]
    linarith
  have hy : u53 ≤ u53 * κ := le_mul_of_one_le_right (by norm_num [u53]) hκ1
  have near : ∀ {x y : ℚ}, 0 ≤ x → |y - x| ≤ 72 * u53 * κ * x → |y| ≤ 2 * x := by
    intro x y hx0 hxy
    have h1 := abs_add_le (y - x) x
    rw [sub_add_cancel, abs_of_nonneg hx0] at h1
    have h2 : 72 * u53 * κ * x ≤ 1 * x := mul_le_mul_of_nonneg_right (by linarith) hx0
    linarith
  have e1 := hs.rel (b - ρ b)
  have e2 := hs.rel (a + ρ a)
  have e3 : |b - ρ b| ≤ |b| + 2 * r b := (abs_sub _ _).trans (by linarith [near hb0 hb])
  have e4 : |a + ρ a| ≤ |a| + 2 * r a := (abs_add_le _ _).trans (by linarith [near ha0 ha])
  have e5 := mul_le_mul_of_nonneg_left e3 hu0.le
  have e6 := mul_le_mul_of_nonneg_left e4 hu0.le
  have e7 : u53 * (r a + r b) ≤ u53 * κ * (r a + r b) := mul_le_mul_of_nonneg_right hy (by linarith)
  have key : |(h.A.fl (b - ρ b) - h.A.fl (a + ρ a)) - gapOf r a b| ≤ gapTol κ r a b := by
    unfold gapOf gapTol
    have e : (h.A.fl (b - ρ b) - h.A.fl (a + ρ a)) - ((b - r b) - (a + r a))
        = ((h.A.fl (b - ρ b) - (b - ρ b)) - (ρ b - r b)) - ((h.A.fl (a + ρ a) - (a + ρ a)) + (ρ a - r a)) := by ring
    rw [e]
    have q1 := abs_sub ((h.A.fl (b - ρ b) - (b - ρ b)) - (ρ b - r b)) ((h.A.fl (a + ρ a) - (a + ρ a)) + (ρ a - r a))
    have q2 := abs_sub (h.A.fl (b - ρ b) - (b - ρ b)) (ρ b - r b)
    have q3 := abs_add_le (h.A.fl (a + ρ a) - (a + ρ a)) (ρ a - r a)
    linarith
  obtain ⟨k1, k2⟩ := abs_le.1 key
  refine ⟨fun hg => ?_, fun hg => ?_, fun hg => ?_⟩
  · have := (fl_nonpos hs).1 hg
    linarith
  · exact (fl_nonpos hs).2 (by linarith)
  · rw [← not_le, fl_nonpos hs, not_le]
    linarith

/-! ## The selection -/

theorem largestF_cases (h : HArith) (d : List ℚ) (ρ : ℚ → ℚ) (i : ℕ) (hi : i < d.length) :
    (i + 1 < d.length → h.largestInRange d ρ i < d.length) ∧
    (h.largestInRange d ρ i = i + 1 ∨ h.dmGap d ρ i (h.largestInRange d ρ i) ≤ 0) := by
  unfold HArith.largestInRange
  split
  · rename_i j hj
    obtain ⟨hp, h1, h2, h3⟩ := range'_find_some hj
    refine ⟨by omega, ?_⟩
    by_cases h : j - 1 ≤ i + 1
    · left; omega
    · right
      rw [max_eq_left (by omega)]
      have := h3 (j - 1) (by omega) (by omega)
      simpa using this
  · rename_i hj
    have h3 := range'_find_none hj
    refine ⟨by omega, ?_⟩
    by_cases h : d.length - 1 ≤ i + 1
    · left; omega
    · right
      rw [max_eq_left (by omega)]
      have := h3 (d.length - 1) (by omega) (by omega)
      simpa using this

/-- What the loop appends, for any relation `P` that holds across computed gaps that are not positive. -/
theorem selectLoopF_spec (h : HArith) (d : List ℚ) (hd : d.Pairwise (· ≤ ·)) (ρ : ℚ → ℚ) (P : ℚ → ℚ → Prop)
    (hP : ∀ i j, i < d.length → j < d.length → h.dmGap d ρ i j ≤ 0 → P (d.getD i 0) (d.getD j 0)) (n : ℕ) : ∀ i, d.length - i = n → i < d.length →
    (∀ x ∈ h.selectLoop d ρ i, x ∈ d) ∧
    (d.getD i 0 :: h.selectLoop d ρ i).IsChain (fun a b => a ≤ b ∧ (P a b ∨ ∀ c ∈ d, c ≤ a ∨ b ≤ c)) ∧
    (d.getD i 0 :: h.selectLoop d ρ i).getLast? = some (d.getD (d.length - 1) 0) ∧
    (d.Pairwise (· < ·) → (d.getD i 0 :: h.selectLoop d ρ i).IsChain (· < ·)) := by
  induction n using Nat.strong_induction_on with
  | _ n ih =>
    intro i hn hi
    have hlt := h.lt_largestInRange d ρ i
    obtain ⟨hc1, hc2⟩ := largestF_cases h d ρ i hi
    rw [HArith.selectLoop]
    split_ifs with hg
    · obtain ⟨h1, h2, h3, h4⟩ := ih (d.length - h.largestInRange d ρ i) (by omega) (h.largestInRange d ρ i) rfl hg
      refine ⟨?_, ?_, ?_, ?_⟩
      · intro x hx
        rcases List.mem_cons.mp hx with hx | hx
        · rw [hx]; exact getD_mem d hg
        · exact h1 x hx
      · rw [List.isChain_cons_cons]
        refine ⟨⟨getD_mono hd hlt.le hg, ?_⟩, h2⟩
        rcases hc2 with hc | hc
        · right
          intro c hc'
          obtain ⟨k, hk, rfl⟩ := List.mem_iff_getElem.mp hc'
          rw [hc] at hg ⊢
          by_cases hki : k ≤ i
          · left; rw [← getD_of_lt d hk]; exact getD_mono hd hki hi
          · right; rw [← getD_of_lt d hk]; exact getD_mono hd (by omega) hk
        · left
          exact hP i _ hi hg hc
      · rw [List.getLast?_cons_cons]; exact h3
      · intro hs
        rw [List.isChain_cons_cons]
        exact ⟨getD_strict hs hlt hg, h4 hs⟩
    · have : i + 1 = d.length := by
        by_contra hne
        exact hg (hc1 (by omega))
      refine ⟨by simp, by simp, ?_, by simp⟩
      rw [show d.length - 1 = i by omega]
      rfl

/-- The computed selection stays ahead of any other whose steps have a margin: `Q a b` is what such a step satisfies, and computed gaps that it bounds are not positive. -/
theorem greedyF_ahead (h : HArith) (d : List ℚ) (hd : d.Pairwise (· < ·)) (ρ : ℚ → ℚ) (Q : ℚ → ℚ → Prop)
    (hQ : ∀ p i k q, p ≤ i → k ≤ q → i < d.length → q < d.length → Q (d.getD p 0) (d.getD q 0) → h.dmGap d ρ i k ≤ 0) :
    ∀ (t : List ℚ) (p i : ℕ), p ≤ i → i < d.length →
    (∀ x ∈ t, x ∈ d) → (d.getD p 0 :: t).IsChain (fun a b => a < b ∧ (Q a b ∨ ∀ c ∈ d, c ≤ a ∨ b ≤ c)) →
    (d.getD p 0 :: t).getLast? = some (d.getD (d.length - 1) 0) → (h.selectLoop d ρ i).length ≤ t.length := by
  have hd' : d.Pairwise (· ≤ ·) := hd.imp (fun h => le_of_lt h)
  intro t
  induction t with
  | nil =>
    intro p i hpi hi _ _ hlast
    have hp : p = d.length - 1 := by
      by_contra hne
      have := getD_strict hd (show p < d.length - 1 by omega) (by omega)
      simp only [List.getLast?_singleton, Option.some.injEq] at hlast
      rw [hlast] at this
      exact lt_irrefl _ this
    have hlt := h.lt_largestInRange d ρ i
    rw [HArith.selectLoop, dif_neg (by omega)]
  | cons b t ih =>
    intro p i hpi hi hmem hch hlast
    rw [List.isChain_cons_cons] at hch
    obtain ⟨⟨hpb, hst⟩, hch⟩ := hch
    obtain ⟨q, hq, hqb⟩ := List.mem_iff_getElem.mp (hmem b List.mem_cons_self)
    have hqb' : b = d.getD q 0 := by rw [getD_of_lt d hq, hqb]
    have hpq : p < q := by
      by_contra hn
      have := getD_mono hd' (not_lt.mp hn) (lt_of_le_of_lt hpi hi)
      rw [← hqb'] at this
      exact absurd hpb (not_lt.mpr this)
    by_cases hilast : i = d.length - 1
    · have hlt := h.lt_largestInRange d ρ i
      rw [HArith.selectLoop, dif_neg (by omega)]
      simp
    have hg := (largestF_cases h d ρ i hi).1 (by omega)
    rw [HArith.selectLoop, dif_pos hg, List.length_cons, List.length_cons]
    have hqg : q ≤ h.largestInRange d ρ i := by
      have hlt := h.lt_largestInRange d ρ i
      by_cases hqi : q ≤ i + 1
      · omega
      rcases hst with hst | hst
      · rw [hqb'] at hst
        have hgap : ∀ k, k ≤ q → h.dmGap d ρ i k ≤ 0 := fun k hk => hQ p i k q hpi hk hi hq hst
        unfold HArith.largestInRange
        split
        · rename_i j hj
          obtain ⟨hpj, h1, h2, h3⟩ := range'_find_some hj
          have : q < j := by
            by_contra hn
            have := hgap j (by omega)
            simp only [gt_iff_lt, decide_eq_true_eq] at hpj
            exact absurd this (not_le.mpr hpj)
          omega
        · omega
      · rcases hst _ (getD_mem d (show p + 1 < d.length by omega)) with h' | h'
        · exact absurd h' (not_le.mpr (getD_strict hd (Nat.lt_succ_self p) (by omega)))
        · rw [hqb'] at h'
          by_contra _
          exact absurd h' (not_le.mpr (getD_strict hd (show p + 1 < q by omega) hq))
    rw [hqb'] at hch
    rw [List.getLast?_cons_cons, hqb'] at hlast
    have := ih q (h.largestInRange d ρ i) hqg hg (fun x hx => hmem x (List.mem_cons_of_mem _ hx)) hch hlast
    omega

theorem dmRadius_nonneg {fmin fmax nchans wmin : ℚ} (h0 : 0 < fmin) (hf : fmin < fmax) (hw : 0 ≤ wmin) (x : ℚ) : 0 ≤ dmRadius fmin fmax nchans wmin x :=
  div_nonneg (le_max_of_le_left hw) (kdisp_pos fmin fmax h0 hf).le

/-- C126. `select_dms` in double precision raises `ValueError` exactly if no trial is in range. -/
theorem C126_error_iff (h : HArith) (t : List ℚ) (dmStart dmEnd fmin fmax : ℚ) (nchans : ℕ) (wmin : ℚ) :
    (h.selectDms t dmStart dmEnd fmin fmax nchans wmin = .error .valueError ↔ ∀ x ∈ t, ¬ (dmStart ≤ x ∧ x ≤ dmEnd)) ∧
    ((∃ x ∈ t, dmStart ≤ x ∧ x ≤ dmEnd) → ∃ sel, h.selectDms t dmStart dmEnd fmin fmax nchans wmin = .ok sel) := by
  unfold HArith.selectDms
  simp only
  have h0 : ((t.filter (fun x => dmStart ≤ x ∧ x ≤ dmEnd)).mergeSort (· ≤ ·)).length = 0 ↔
      ∀ x ∈ t, ¬ (dmStart ≤ x ∧ x ≤ dmEnd) := by
    rw [List.length_mergeSort, List.length_eq_zero_iff, List.filter_eq_nil_iff]
    simp
  constructor
  · split_ifs with h
    · simp only [true_iff]; exact h0.mp h
    · exact ⟨(fun hh => nomatch hh), fun hh => absurd (h0.mpr hh) h⟩
  · rintro ⟨x, hx, hr⟩
    rw [if_neg (fun hh => h0.mp hh x hx hr)]
    exact ⟨_, rfl⟩

/-- C126. Coverage: the selected DMs are available trials in range, in order, from the lowest to the highest available one, and the coverage intervals of consecutive
ones leave no gap beyond the rounding error, unless there is no trial in between. -/
theorem C126_coverage {h : HArith} (hs : HSane h) {t : List ℚ} {dmStart dmEnd fmin fmax : ℚ} {nchans : ℕ} {wmin : ℚ} (h0 : 0 < fmin) (hf : fmin < fmax)
    (hn : 1 ≤ nchans) (hn2 : 2 ≤ nchans ∨ fmax ≤ 3 * fmin) (hκ : bandCond fmin fmax nchans ≤ 2 ^ 40) (hw : 0 ≤ wmin) {sel : List ℚ}
    (hrun : h.selectDms t dmStart dmEnd fmin fmax nchans wmin = .ok sel) :
    let avail := t.filter (fun x => dmStart ≤ x ∧ x ≤ dmEnd)
    let r := dmRadius fmin fmax (nchans : ℚ) wmin
    (∀ x ∈ sel, x ∈ t ∧ dmStart ≤ x ∧ x ≤ dmEnd) ∧
    (∃ lo, sel.head? = some lo ∧ ∀ x ∈ avail, lo ≤ x) ∧ (∃ hi, sel.getLast? = some hi ∧ ∀ x ∈ avail, x ≤ hi) ∧
    sel.IsChain (fun a b => a ≤ b ∧ (gapOf r a b ≤ gapTol (bandCond fmin fmax nchans) r a b ∨ ∀ c ∈ avail, c ≤ a ∨ b ≤ c)) ∧
    (t.Nodup → sel.Pairwise (· < ·)) := by
  intro avail r
  have hmem : ∀ x, x ∈ avail ↔ x ∈ availDms t dmStart dmEnd := by
    intro x; unfold availDms; rw [List.mem_mergeSort]
  unfold HArith.selectDms at hrun
  simp only at hrun
  split_ifs at hrun with h0'
  simp only [Except.ok.injEq] at hrun
  change (availDms t dmStart dmEnd).length ≠ 0 at h0'
  change (availDms t dmStart dmEnd).getD 0 0 :: h.selectLoop (availDms t dmStart dmEnd) (h.radius fmin fmax nchans wmin) 0 = sel at hrun
  have hsort := availDms_sorted t dmStart dmEnd
  have hnd := availDms_nodup t dmStart dmEnd
  have hm := availDms_mem t dmStart dmEnd
  set d := availDms t dmStart dmEnd with hd
  have hr0 : ∀ x, 0 ≤ r x := dmRadius_nonneg h0 hf hw
  have hc1 := (bandCond_one h0 hf hn).2
  obtain ⟨h1, h2, h3, h4⟩ := selectLoopF_spec h d hsort (h.radius fmin fmax nchans wmin) (fun a b => gapOf r a b ≤ gapTol (bandCond fmin fmax nchans) r a b)
    (fun i j _ _ hg => (gap_sign hs hc1 hκ (hr0 _) (hr0 _) (C126_radius hs h0 hf hn hn2 hκ hw _) (C126_radius hs h0 hf hn hn2 hκ hw _)).1 hg) d.length 0 (by omega) (by omega)
  rw [hrun] at h2 h3 h4
  refine ⟨?_, ?_, ?_, ?_, ?_⟩
  · intro x hx
    rw [← hrun] at hx
    rcases List.mem_cons.mp hx with hx | hx
    · rw [hx]; exact (hm _).mp (getD_mem d (by omega))
    · exact (hm x).mp (h1 x hx)
  · refine ⟨d.getD 0 0, by rw [← hrun]; rfl, ?_⟩
    intro x hx
    obtain ⟨k, hk, rfl⟩ := List.mem_iff_getElem.mp ((hmem x).mp hx)
    rw [← getD_of_lt d hk]
    exact getD_mono hsort (Nat.zero_le _) hk
  · refine ⟨_, h3, ?_⟩
    intro x hx
    obtain ⟨k, hk, rfl⟩ := List.mem_iff_getElem.mp ((hmem x).mp hx)
    rw [← getD_of_lt d hk]
    exact getD_mono hsort (by omega) (by omega)
  · refine h2.imp ?_
    rintro a b ⟨hab, hst⟩
    exact ⟨hab, hst.imp id (fun hst c hc => hst c ((hmem c).mp hc))⟩
  · intro ht
    exact List.isChain_iff_pairwise.mp (h4 (hnd ht))

/-- C126. Minimality: a selection of distinct available DMs with the same ends, whose coverage intervals overlap by more than the rounding error where trials are
skipped, is at least as long. `R` bounds the radii and `D` the DMs. -/
theorem C126_minimal {h : HArith} (hs : HSane h) {t : List ℚ} (ht : t.Nodup) {dmStart dmEnd fmin fmax : ℚ} {nchans : ℕ} {wmin : ℚ} (h0 : 0 < fmin)
    (hf : fmin < fmax) (hn : 1 ≤ nchans) (hn2 : 2 ≤ nchans ∨ fmax ≤ 3 * fmin) (hκ : bandCond fmin fmax nchans ≤ 2 ^ 40) (hw : 0 ≤ wmin) {sel : List ℚ}
    (hrun : h.selectDms t dmStart dmEnd fmin fmax nchans wmin = .ok sel) (other : List ℚ) {R D : ℚ} :
    let avail := t.filter (fun x => dmStart ≤ x ∧ x ≤ dmEnd)
    let r := dmRadius fmin fmax (nchans : ℚ) wmin
    (∀ x ∈ avail, r x ≤ R ∧ |x| ≤ D) →
    (∀ x ∈ other, x ∈ avail) → other.head? = sel.head? → other.getLast? = sel.getLast? →
    other.IsChain (fun a b => a < b ∧ (gapOf r a b ≤ -(148 * u53 * bandCond fmin fmax nchans * R + 2 * u53 * D) ∨ ∀ c ∈ avail, c ≤ a ∨ b ≤ c)) →
    sel.length ≤ other.length := by
  intro avail r hR hsub hhead hlast hch
  have hmem : ∀ x, x ∈ avail ↔ x ∈ availDms t dmStart dmEnd := by
    intro x; unfold availDms; rw [List.mem_mergeSort]
  unfold HArith.selectDms at hrun
  simp only at hrun
  split_ifs at hrun with h0'
  simp only [Except.ok.injEq] at hrun
  change (availDms t dmStart dmEnd).length ≠ 0 at h0'
  change (availDms t dmStart dmEnd).getD 0 0 :: h.selectLoop (availDms t dmStart dmEnd) (h.radius fmin fmax nchans wmin) 0 = sel at hrun
  have hsort := availDms_nodup t dmStart dmEnd ht
  set d := availDms t dmStart dmEnd with hd
  have hd' : d.Pairwise (· ≤ ·) := hsort.imp (fun h => le_of_lt h)
  have hr0 : ∀ x, 0 ≤ r x := dmRadius_nonneg h0 hf hw
  have hc1 := (bandCond_one h0 hf hn).2
  have hu0 : (0 : ℚ) < u53 := by norm_num [u53]
  obtain ⟨-, -, h3, -⟩ := selectLoopF_spec h d hd' (h.radius fmin fmax nchans wmin) (fun _ _ => True) (fun _ _ _ _ _ => trivial) d.length 0 (by omega) (by omega)
  have hnq : (1 : ℚ) ≤ nchans := by exact_mod_cast hn
  cases other with
  | nil => rw [← hrun] at hhead; simp at hhead
  | cons a other =>
    rw [← hrun] at hhead hlast ⊢
    simp only [List.head?_cons, Option.some.injEq] at hhead
    subst hhead
    rw [h3] at hlast
    have := greedyF_ahead h d hsort (h.radius fmin fmax nchans wmin)
      (fun a b => gapOf r a b ≤ -(148 * u53 * bandCond fmin fmax nchans * R + 2 * u53 * D))
      (fun p i k q hpi hkq hi hq hg => by
        refine (gap_sign hs hc1 hκ (hr0 _) (hr0 _) (C126_radius hs h0 hf hn hn2 hκ hw _) (C126_radius hs h0 hf hn hn2 hκ hw _)).2.1 ?_
        have m1 := dmRadius_mono fmin fmax (nchans : ℚ) wmin h0 hf hnq _ _ (getD_mono hd' hpi hi)
        have m2 := dmRadius_mono fmin fmax (nchans : ℚ) wmin h0 hf hnq _ _ (getD_mono hd' hkq hq)
        have g1 := getD_mono hd' hpi hi
        obtain ⟨b1, b2⟩ := hR _ ((hmem _).2 (getD_mem d hi))
        obtain ⟨b3, b4⟩ := hR _ ((hmem _).2 (getD_mem d (lt_of_le_of_lt hkq hq)))
        have hg' : gapOf r (d.getD i 0) (d.getD k 0) ≤ gapOf r (d.getD p 0) (d.getD q 0) := by
          unfold gapOf
          have m1' : r (d.getD p 0) ≤ r (d.getD i 0) := m1.1
          have m2' : d.getD k 0 - r (d.getD k 0) ≤ d.getD q 0 - r (d.getD q 0) := m2.2
          linarith
        have ht' : gapTol (bandCond fmin fmax nchans) r (d.getD i 0) (d.getD k 0) ≤ 148 * u53 * bandCond fmin fmax nchans * R + 2 * u53 * D := by
          unfold gapTol
          have hk0 : 0 ≤ u53 * bandCond fmin fmax nchans := by positivity
          have c1 : u53 * bandCond fmin fmax nchans * (r (d.getD i 0) + r (d.getD k 0)) ≤ u53 * bandCond fmin fmax nchans * (2 * R) :=
            mul_le_mul_of_nonneg_left (by linarith) hk0
          have c2 : u53 * (|d.getD i 0| + |d.getD k 0|) ≤ u53 * (2 * D) := mul_le_mul_of_nonneg_left (by linarith) hu0.le
          linarith
        linarith) other 0 0 le_rfl (by omega)
      (fun x hx => (hmem x).mp (hsub x (List.mem_cons_of_mem _ hx)))
      (hch.imp (fun a b ⟨hab, hst⟩ => ⟨hab, hst.imp id (fun h c hc => h c ((hmem c).mpr hc))⟩)) hlast
    simp only [List.length_cons]
    omega

/-- C126. If no gap between two available trials is within the rounding error of zero, the selection is that of exact arithmetic. -/
theorem C126_equal {h : HArith} (hs : HSane h) {t : List ℚ} {dmStart dmEnd fmin fmax : ℚ} {nchans : ℕ} {wmin : ℚ} (h0 : 0 < fmin) (hf : fmin < fmax)
    (hn : 1 ≤ nchans) (hn2 : 2 ≤ nchans ∨ fmax ≤ 3 * fmin) (hκ : bandCond fmin fmax nchans ≤ 2 ^ 40) (hw : 0 ≤ wmin)
    (hclear : ∀ a ∈ t, ∀ b ∈ t, dmStart ≤ a → a ≤ b → b ≤ dmEnd →
      gapTol (bandCond fmin fmax nchans) (dmRadius fmin fmax (nchans : ℚ) wmin) a b < |gapOf (dmRadius fmin fmax (nchans : ℚ) wmin) a b|) :
    h.selectDms t dmStart dmEnd fmin fmax nchans wmin = selectDms t dmStart dmEnd fmin fmax (nchans : ℚ) wmin := by
  set r := dmRadius fmin fmax (nchans : ℚ) wmin with hr
  have hr0 : ∀ x, 0 ≤ r x := dmRadius_nonneg h0 hf hw
  have hc1 := (bandCond_one h0 hf hn).2
  have hsort := availDms_sorted t dmStart dmEnd
  have hm := availDms_mem t dmStart dmEnd
  have hloop : ∀ d : List ℚ, d = availDms t dmStart dmEnd → ∀ n i, d.length - i = n → i < d.length →
      h.selectLoop d (h.radius fmin fmax nchans wmin) i = selectLoop d r i := by
    intro d hd
    rw [← hd] at hsort hm
    have hlarge : ∀ i, i < d.length → h.largestInRange d (h.radius fmin fmax nchans wmin) i = largestInRange d r i := by
      intro i hi
      unfold HArith.largestInRange largestInRange
      have : ∀ l : List ℕ, (∀ j ∈ l, i ≤ j ∧ j < d.length) → l.find? (fun j => decide (h.dmGap d (h.radius fmin fmax nchans wmin) i j > 0))
          = l.find? (fun j => decide (dmGap d r i j > 0)) := by
        intro l
        induction l with
        | nil => intro _; rfl
        | cons j l ih =>
          intro hl
          obtain ⟨hij, hj⟩ := hl j List.mem_cons_self
          have hb : decide (h.dmGap d (h.radius fmin fmax nchans wmin) i j > 0) = decide (dmGap d r i j > 0) := by
            have hai := (hm _).1 (getD_mem d hi)
            have haj := (hm _).1 (getD_mem d hj)
            have hcl := hclear _ hai.1 _ haj.1 hai.2.1 (getD_mono hsort hij hj) haj.2.2
            have hg : dmGap d r i j = gapOf r (d.getD i 0) (d.getD j 0) := rfl
            obtain ⟨s1, s2, s3⟩ := gap_sign hs hc1 hκ (hr0 (d.getD i 0)) (hr0 (d.getD j 0)) (C126_radius hs h0 hf hn hn2 hκ hw _) (C126_radius hs h0 hf hn hn2 hκ hw _)
            rw [decide_eq_decide, gt_iff_lt, gt_iff_lt, hg]
            rcases le_total 0 (gapOf r (d.getD i 0) (d.getD j 0)) with hp | hp
            · rw [abs_of_nonneg hp] at hcl
              refine ⟨fun _ => ?_, fun _ => s3 hcl⟩
              refine lt_of_le_of_ne hp (fun e => ?_)
              rw [← e] at hcl
              have : 0 ≤ gapTol (bandCond fmin fmax nchans) r (d.getD i 0) (d.getD j 0) := by
                unfold gapTol
                have := hr0 (d.getD i 0)
                have := hr0 (d.getD j 0)
                have : (0 : ℚ) < u53 := by norm_num [u53]
                positivity
              linarith
            · rw [abs_of_nonpos hp] at hcl
              exact ⟨fun hh => absurd (s2 (by linarith)) (not_le.2 hh), fun hh => absurd hp (not_le.2 hh)⟩
          rw [List.find?_cons, List.find?_cons, hb, ih (fun k hk => hl k (List.mem_cons_of_mem _ hk))]
      rw [this _ (fun j hj => by rw [List.mem_range'_1] at hj; omega)]
      rfl
    intro n
    induction n using Nat.strong_induction_on with
    | _ n ih =>
      intro i hn hi
      rw [HArith.selectLoop, selectLoop, hlarge i hi]
      have hlt := lt_largestInRange d r i
      split_ifs with hg
      · rw [ih (d.length - largestInRange d r i) (by omega) _ rfl hg]
      · rfl
  unfold HArith.selectDms selectDms
  simp only
  split_ifs with hl
  · rfl
  · exact congrArg (fun l => Except.ok ((availDms t dmStart dmEnd).getD 0 0 :: l)) (hloop _ rfl _ 0 rfl (Nat.pos_of_ne_zero hl))

/-- The hypotheses hold for trials every 5 units of DM between 1182 and 1582 MHz with 400 channels. -/
example : ∃ sel, ieeeHarm.selectDms [0, 5, 10, 15] 0 100 1182 1582 400 (1 / 1000) = .ok sel ∧ bandCond 1182 1582 400 ≤ 2 ^ 40 ∧ sel.head? = some 0 := by
  obtain ⟨sel, hsel⟩ := (C126_error_iff ieeeHarm [0, 5, 10, 15] 0 100 1182 1582 400 (1 / 1000)).2 ⟨0, by simp, by norm_num⟩
  have hκ : bandCond 1182 1582 400 ≤ 2 ^ 40 := by norm_num [bandCond]
  obtain ⟨c1, ⟨lo, c2, c3⟩, -⟩ := C126_coverage ieeeHarm_sane (by norm_num) (by norm_num) (by norm_num) (Or.inl (by norm_num)) hκ (by norm_num) hsel
  refine ⟨sel, hsel, hκ, ?_⟩
  have h1 := c3 0 (by simp)
  have h2 := (c1 lo (List.mem_of_head? c2)).2.1
  rw [c2, le_antisymm h1 h2]

/-- For these trials no gap is close to zero, so the selection is the exact one; the intervals of 0 and 15 overlap. -/
example : ieeeHarm.selectDms [0, 5, 10, 15, 100] 0 100 1182 1582 400 (1 / 100) = selectDms [0, 5, 10, 15, 100] 0 100 1182 1582 ((400 : ℕ) : ℚ) (1 / 100) ∧
    gapOf (dmRadius 1182 1582 ((400 : ℕ) : ℚ) (1 / 100)) 0 15 < 0 := by
  refine ⟨C126_equal ieeeHarm_sane (by norm_num) (by norm_num) (by norm_num) (Or.inl (by norm_num)) (by norm_num [bandCond]) (by norm_num) ?_, ?_⟩
  · have key : ∀ a ∈ [0, 5, 10, 15, (100 : ℚ)], ∀ b ∈ [0, 5, 10, 15, (100 : ℚ)], 0 ≤ a → a ≤ b → b ≤ 100 →
        gapTol (bandCond 1182 1582 400) (dmRadius 1182 1582 ((400 : ℕ) : ℚ) (1 / 100)) a b < |gapOf (dmRadius 1182 1582 ((400 : ℕ) : ℚ) (1 / 100)) a b| := by
      decide +kernel
    exact key
  · decide +kernel

end Verif.Props
