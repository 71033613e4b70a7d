import Verif.Model.PipelineConf
import Verif.Props.PipelineRun
import Verif.Props.Harmonics

/-!
# C102: a run of the pipeline with its configuration and its harmonic test
-/

namespace Verif.Props

open Verif.Model Verif.Lemmas Verif.Spec

/-! ## The harmonic test on real numbers -/

/-- What is assumed of the conversion of the ratio of two frequencies to a `Fraction`, including the rounding of the ratio to a `float`: it
does not go below one, and one is one. -/
def FracOK (frac : ℝ → ℚ) : Prop := frac 1 = 1 ∧ ∀ x, 1 ≤ x → 1 ≤ frac x

/-- Rounding to 52 binary digits after the point. -/
theorem fracOK_floor : FracOK fun x => (⌊x * 2 ^ 52⌋ : ℚ) / 2 ^ 52 := by
  constructor
  · have : (⌊(1 : ℝ) * 2 ^ 52⌋ : ℤ) = 2 ^ 52 := by
      rw [Int.floor_eq_iff]
      push_cast
      constructor <;> norm_num
    simp only [this]
    norm_num
  · intro x hx
    rw [le_div_iff₀ (by positivity), one_mul]
    have : ((2 ^ 52 : ℤ)) ≤ ⌊x * 2 ^ 52⌋ := by
      rw [Int.le_floor]
      push_cast
      nlinarith
    exact_mod_cast this

/-- The distances of the harmonic test are within their bounds; `r` is the fraction of the larger to the smaller frequency. -/
def WithinBounds (F H : HPeak ℝ) (tobs fmin fmax : ℝ) (a : HarmConf) (r : ℚ) : Prop :=
  |r * min F.freq H.freq - max F.freq H.freq| * tobs / (if H.freq < F.freq then F.ducy else H.ducy) ≤ a.phaseDistanceMax ∧
  |F.dm - H.dm| * 4150 * (1 / fmin ^ 2 - 1 / fmax ^ 2) / min (F.ducy / F.freq) (H.ducy / H.freq) ≤ a.dmDistanceMax ∧
  |H.snr - F.snr / Real.sqrt (r.num * r.den)| ≤ a.snrDistanceMax

/-- `C42_htest` for real numbers and any conversion to a fraction. -/
theorem htestReal_ok (frac : ℝ → ℚ) (hfr : FracOK frac) (F H : HPeak ℝ) (tobs fmin fmax : ℝ) (a : HarmConf) (hF : 0 < F.freq) (hH : 0 < H.freq)
    (hFd : 0 < F.ducy) (hHd : 0 < H.ducy) (ht : 0 < tobs) (h0 : 0 < fmin) (hf : fmin < fmax) (hM : 1 ≤ a.denomMax) :
    ∃ (related : Bool) (r : ℚ), IsClosestFraction (frac (max F.freq H.freq / min F.freq H.freq)) a.denomMax r ∧ 1 ≤ r ∧
      htestReal frac F H tobs fmin fmax a = .ok (related, if H.freq < F.freq then 1 / r else r) ∧
      (related = true ↔ WithinBounds F H tobs fmin fmax a r) := by
  have hfmax : 0 < fmax := h0.trans hf
  have hs : (slowFastReal F H).1.freq = min F.freq H.freq ∧ (slowFastReal F H).2.freq = max F.freq H.freq ∧
      (slowFastReal F H).2.ducy = (if H.freq < F.freq then F.ducy else H.ducy) := by
    unfold slowFastReal
    split_ifs with h
    · exact ⟨(min_eq_right h.le).symm, (max_eq_left h.le).symm, rfl⟩
    · exact ⟨(min_eq_left (not_lt.1 h)).symm, (max_eq_right (not_lt.1 h)).symm, rfl⟩
  obtain ⟨hs1, hs2, hs3⟩ := hs
  have hmin : 0 < min F.freq H.freq := lt_min hF hH
  have hducy : 0 < (if H.freq < F.freq then F.ducy else H.ducy) := by split_ifs <;> assumption
  have hratio : 1 ≤ max F.freq H.freq / min F.freq H.freq := by rw [le_div_iff₀ hmin, one_mul]; exact min_le_max
  obtain ⟨r, hr, hclose⟩ := limitDenominator_spec (frac (max F.freq H.freq / min F.freq H.freq)) a.denomMax hM
  have hr1 := closest_one_le hM (hfr.2 _ hratio) hclose
  have hr0 : 0 < r := by linarith
  have horient : orientReal H (slowFastReal F H).1 r = .ok (if H.freq < F.freq then 1 / r else r) := by
    unfold orientReal slowFastReal pyDiv
    split_ifs with h1 h2 h3
    · exact absurd h3 hr0.ne'
    · rfl
    · exact absurd rfl h2
    · exact absurd ‹r = 0› hr0.ne'
    · have he : H = F := by assumption
      have hx : max F.freq H.freq / min F.freq H.freq = 1 := by rw [he, max_self, min_self, div_self hF.ne']
      rw [hx, hfr.1] at hclose
      have h1 := hclose.2 1 (by simpa using hM)
      rw [sub_self, abs_zero] at h1
      have h2 := abs_eq_zero.1 (le_antisymm h1 (abs_nonneg _))
      have h3 : r = 1 := by linarith
      rw [h3]; norm_num
    · rfl
  have hprod : ((if H.freq < F.freq then 1 / r else r : ℚ).num * (if H.freq < F.freq then 1 / r else r : ℚ).den : ℤ)
      = r.num * r.den := by
    split_ifs with h
    · have hnum : 0 < r.num := Rat.num_pos.2 hr0
      rw [one_div, Rat.num_inv, Rat.den_inv_of_ne_zero hr0.ne', Int.sign_eq_one_of_pos hnum, one_mul,
        Int.natAbs_of_nonneg hnum.le, mul_comm]
    · rfl
  have hpos : 0 < r.num * (r.den : ℤ) := mul_pos (Rat.num_pos.2 hr0) (by exact_mod_cast r.den_pos)
  have hsnr : snrExpectedReal F (if H.freq < F.freq then 1 / r else r) = .ok (F.snr / Real.sqrt (r.num * r.den)) := by
    unfold snrExpectedReal
    rw [hprod, if_neg (not_lt.2 hpos.le), if_neg hpos.ne']
    have h2 : (((if H.freq < F.freq then 1 / r else r : ℚ).num : ℝ) * (((if H.freq < F.freq then 1 / r else r : ℚ).den : ℕ) : ℝ))
        = (r.num : ℝ) * (r.den : ℝ) := by exact_mod_cast hprod
    rw [h2]
  have hband : dmDelayReal |F.dm - H.dm| fmin fmax = .ok (|F.dm - H.dm| * 4150 * (1 / fmin ^ 2 - 1 / fmax ^ 2)) := by
    unfold dmDelayReal pyDiv
    rw [if_neg (pow_pos h0 2).ne', if_neg (pow_pos hfmax 2).ne']
    simp only [Except.bind]
    have : 0 ≤ 1 / fmin ^ 2 - 1 / fmax ^ 2 := by
      rw [sub_nonneg]
      exact one_div_le_one_div_of_le (pow_pos h0 2) (pow_le_pow_left₀ h0.le hf.le 2)
    rw [abs_of_nonneg this]
  have hwF : 0 < F.ducy / F.freq := div_pos hFd hF
  have hwH : 0 < H.ducy / H.freq := div_pos hHd hH
  have hdist : ∀ delay, dmDistanceReal F H delay = .ok (delay / min (F.ducy / F.freq) (H.ducy / H.freq)) := by
    intro delay
    unfold dmDistanceReal pyDiv
    rw [if_neg hF.ne', if_neg hH.ne']
    simp only [Except.bind]
    rw [if_neg (lt_min hwF hwH).ne']
  refine ⟨decide (|r * min F.freq H.freq - max F.freq H.freq| * tobs / (if H.freq < F.freq then F.ducy else H.ducy) ≤ a.phaseDistanceMax) &&
      decide (|F.dm - H.dm| * 4150 * (1 / fmin ^ 2 - 1 / fmax ^ 2) / min (F.ducy / F.freq) (H.ducy / H.freq) ≤ a.dmDistanceMax) &&
      decide (|H.snr - F.snr / Real.sqrt (r.num * r.den)| ≤ a.snrDistanceMax), r, hclose, hr1, ?_, ?_⟩
  · unfold htestReal
    rw [if_neg (not_not.2 hf), if_neg (not_not.2 ht)]
    rw [hs1, hs2, hs3]
    have e1 : pyDiv (max F.freq H.freq) (min F.freq H.freq) = .ok (max F.freq H.freq / min F.freq H.freq) := by
      unfold pyDiv; rw [if_neg hmin.ne']
    rw [e1]
    simp only [Except.bind]
    rw [hr]
    simp only
    have e2 : ∀ z, pyDiv z (if H.freq < F.freq then F.ducy else H.ducy)
        = .ok (z / (if H.freq < F.freq then F.ducy else H.ducy)) := by
      intro z; unfold pyDiv; rw [if_neg hducy.ne']
    rw [e2]
    simp only
    rw [horient]
    simp only
    rw [hband]
    simp only
    rw [hdist]
    simp only
    rw [hsnr]
  · unfold WithinBounds
    simp only [Bool.and_eq_true, decide_eq_true_eq, and_assoc]

/-- A frequency band that is not in order is an error of the test. -/
theorem htestReal_band (frac : ℝ → ℚ) (F H : HPeak ℝ) (tobs fmin fmax : ℝ) (a : HarmConf) (hf : fmax ≤ fmin) :
    htestReal frac F H tobs fmin fmax a = .error .valueError := by
  unfold htestReal
  rw [if_pos (not_lt.mpr hf)]

/-- A peak with rational numbers as one with real numbers. -/
def realPeak (p : HPeak ℚ) : HPeak ℝ := ⟨p.freq, p.snr, p.ducy, p.dm, p.period, p.tag⟩

theorem realPeak_inj {p q : HPeak ℚ} : realPeak p = realPeak q ↔ p = q := by
  cases p; cases q
  simp [realPeak]

theorem pyDiv_cast (a b : ℚ) : pyDiv (a : ℝ) (b : ℝ) = (pyDiv a b).map (fun x : ℚ => (x : ℝ)) := by
  unfold pyDiv
  by_cases h : b = 0
  · subst h; simp [Except.map]
  · have : (b : ℝ) ≠ 0 := by exact_mod_cast h
    rw [if_neg h, if_neg this]; simp [Except.map]

/-- C102. The two models of the harmonic test, on real numbers in the run of the pipeline and on rational numbers in C42, agree: also in the exceptions. -/
theorem C102_htest_rational (frac : ℝ → ℚ) (hfr : ∀ q : ℚ, frac q = q) (F H : HPeak ℚ) (tobs fmin fmax : ℚ) (a : HTestArgs) :
    htestReal frac (realPeak F) (realPeak H) tobs fmin fmax ⟨a.denomMax, a.phaseDistanceMax, a.dmDistanceMax, a.snrDistanceMax⟩ =
      htest F H tobs fmin fmax a := by
  have hsf : slowFastReal (realPeak F) (realPeak H) = (realPeak (slowFast F H).1, realPeak (slowFast F H).2) := by
    unfold slowFastReal slowFast
    have : (realPeak H).freq < (realPeak F).freq ↔ H.freq < F.freq := by simp [realPeak]
    by_cases h : H.freq < F.freq
    · rw [if_pos h, if_pos (this.2 h)]
    · rw [if_neg h, if_neg (fun h' => h (this.1 h'))]
  unfold htestReal htest hdiag
  rw [hsf]
  generalize slowFast F H = sf
  simp only [gt_iff_lt, Rat.cast_lt, Rat.cast_pos]
  by_cases h1 : fmin < fmax
  swap
  · simp only [h1, not_false_iff, if_true]; rfl
  by_cases h2 : 0 < tobs
  swap
  · simp only [h1, h2, not_true, not_false_iff, if_true, if_false]; rfl
  simp only [h1, h2, not_true, if_false]
  change ((pyDiv (sf.2.freq : ℝ) (sf.1.freq : ℝ)).bind _) = _
  rw [pyDiv_cast]
  rcases pyDiv sf.2.freq sf.1.freq with e | ratio
  · rfl
  simp only [Except.bind, Except.map]
  rw [hfr]
  rcases limitDenominator ratio a.denomMax with e | r
  · rfl
  simp only
  have e1 : (|(r : ℝ) * (realPeak sf.1).freq - (realPeak sf.2).freq| * (tobs : ℝ)) = ((|r * sf.1.freq - sf.2.freq| * tobs : ℚ) : ℝ) := by
    simp [realPeak]
  rw [e1, show (realPeak sf.2).ducy = ((sf.2.ducy : ℚ) : ℝ) from rfl, pyDiv_cast]
  rcases pyDiv (|r * sf.1.freq - sf.2.freq| * tobs) sf.2.ducy with e | phase
  · rfl
  simp only [Except.map]
  have e2 : orientReal (realPeak H) (realPeak sf.1) r = orientFraction H sf.1 r := by
    unfold orientReal orientFraction
    by_cases h : H = sf.1
    · rw [if_pos h, if_pos (realPeak_inj.2 h)]
    · rw [if_neg h, if_neg (fun h' => h (realPeak_inj.1 h'))]
  rw [e2]
  rcases orientFraction H sf.1 r with e | fr
  · rfl
  simp only
  have e3 : dmDelayReal |(realPeak F).dm - (realPeak H).dm| fmin fmax = (dmDelay |F.dm - H.dm| fmin fmax).map (fun x : ℚ => (x : ℝ)) := by
    unfold dmDelayReal dmDelay
    rw [show (1 : ℝ) = ((1 : ℚ) : ℝ) by simp, show (fmin : ℝ) ^ 2 = ((fmin ^ 2 : ℚ) : ℝ) by simp,
      show (fmax : ℝ) ^ 2 = ((fmax ^ 2 : ℚ) : ℝ) by simp, pyDiv_cast, pyDiv_cast]
    rcases pyDiv 1 (fmin ^ 2) with e | x
    · rfl
    rcases pyDiv 1 (fmax ^ 2) with e | y
    · rfl
    simp [Except.bind, Except.map, realPeak]
  rw [e3]
  rcases dmDelay |F.dm - H.dm| fmin fmax with e | delay
  · rfl
  simp only [Except.map]
  have e4 : dmDistanceReal (realPeak F) (realPeak H) (delay : ℝ) = (dmDistance F H delay).map (fun x : ℚ => (x : ℝ)) := by
    unfold dmDistanceReal dmDistance
    change ((pyDiv ((F.ducy : ℚ) : ℝ) ((F.freq : ℚ) : ℝ)).bind fun wF => (pyDiv ((H.ducy : ℚ) : ℝ) ((H.freq : ℚ) : ℝ)).bind fun wH => _) = _
    rw [pyDiv_cast, pyDiv_cast]
    rcases pyDiv F.ducy F.freq with e | x
    · rfl
    rcases pyDiv H.ducy H.freq with e | y
    · rfl
    simp only [Except.bind, Except.map]
    rw [← Rat.cast_min, pyDiv_cast]
    rfl
  rw [e4]
  rcases dmDistance F H delay with e | dist
  · rfl
  simp only [Except.map]
  have e5 : snrExpectedReal (realPeak F) fr = snrExpected F fr := rfl
  rw [e5]
  rcases snrExpected F fr with e | s
  · rfl
  simp only [Rat.cast_le]
  rfl
open Classical in
/-- There are conversions to a fraction that are exact for rational numbers. -/
theorem exact_frac : ∃ frac : ℝ → ℚ, FracOK frac ∧ ∀ q : ℚ, frac q = q := by
  have hq : ∀ q : ℚ, (if h : ∃ p : ℚ, (p : ℝ) = q then h.choose else ⌈(q : ℝ)⌉) = q := by
    intro q
    have h : ∃ p : ℚ, (p : ℝ) = q := ⟨q, rfl⟩
    rw [dif_pos h]
    exact_mod_cast h.choose_spec
  refine ⟨fun x => if h : ∃ p : ℚ, (p : ℝ) = x then h.choose else ⌈x⌉, ⟨?_, ?_⟩, hq⟩
  · simpa using hq 1
  · intro x hx
    dsimp only
    split_ifs with h
    · have := h.choose_spec
      rw [← this] at hx
      exact_mod_cast hx
    · have : (1 : ℤ) ≤ ⌈x⌉ := by rw [Int.le_ceil_iff]; push_cast; linarith
      exact_mod_cast this

example : ∃ frac : ℝ → ℚ, htestReal frac (realPeak peakF) (realPeak peakH) (600 : ℚ) (1200 : ℚ) (1500 : ℚ) ⟨100, (1 : ℚ), (3 : ℚ), (3 : ℚ)⟩ =
    htest peakF peakH 600 1200 1500 {} := by
  obtain ⟨frac, -, h⟩ := exact_frac
  exact ⟨frac, C102_htest_rational frac h peakF peakH 600 1200 1500 {}⟩

/-! ## The configuration -/

/-- The entries of an element of `ranges` that a run uses. -/
def PipeRangeTaken (v : PyVal) (r : PipeRange) : Prop :=
  ∃ rr s p cand v1 v2 n, v = .dict rr ∧ dictGet rr "ffa_search" = some (.dict s) ∧ dictGet rr "find_peaks" = some (.dict p) ∧
    dictGet rr "candidates" = some (.dict cand) ∧ RangeArgs s p r.conf ∧ r.search.deredden = false ∧ r.search.alreadyNormalised = true ∧
    dictGet cand "bins" = some v1 ∧ HasValue v1 r.candBins ∧ 1 ≤ r.candBins ∧
    dictGet cand "subints" = some v2 ∧ HasValue v2 (n : ℕ) ∧ r.candSubints = some (n : ℤ) ∧ 1 ≤ n

/-- The value of an entry of a section. -/
def Entry (d : List (String × PyVal)) (k : String) (x : ℝ) : Prop := ∃ v, dictGet d k = some v ∧ HasValue v x

/-- The exceptions of C84: `rmed_minpts` that is not an integer, and `clrad` that is null. -/
def NoTypeError (v : PyVal) : Prop :=
  ∀ d, v = .dict d → (∀ der m, dictGet d "dereddening" = some (.dict der) → dictGet der "rmed_minpts" = some m → PosInt m) ∧
    ∀ ranges rr p, dictGet d "ranges" = some (.list ranges) → .dict rr ∈ ranges → dictGet rr "find_peaks" = some (.dict p) →
      dictGet p "clrad" ≠ some .none

/-- Every argument of the stages of a run is the entry of the configuration of that name. -/
structure ConfTaken (d : List (String × PyVal)) (c : RunConf) (h : HarmConf) : Prop where
  processes : Entry d "processes" c.processes ∧ 1 ≤ c.processes
  data : ∃ data, dictGet d "data" = some (.dict data) ∧
    (dictGet data "format" = some (.str "presto") ∧ c.prep.fmt = .presto ∨ dictGet data "format" = some (.str "sigproc") ∧ c.prep.fmt = .sigproc) ∧
    Taken data "fmin" c.prep.fmin ∧ Taken data "fmax" c.prep.fmax ∧ Taken data "nchans" (c.prep.nchans.map fun n => (n : ℝ))
  dmselect : ∃ sel, dictGet d "dmselect" = some (.dict sel) ∧ Taken sel "min" c.prep.dmMin ∧ Taken sel "max" c.prep.dmMax ∧
    Taken sel "dmsinb_max" c.prep.dmsinbMax
  cap : ∀ x, c.prep.dmsinbMax = some x → 0 < x
  dereddening : ∃ der, dictGet d "dereddening" = some (.dict der) ∧ Entry der "rmed_width" c.rmedWidth ∧ 0 < c.rmedWidth ∧
    Entry der "rmed_minpts" c.rmedMinpts ∧ 1 ≤ c.rmedMinpts
  ranges : ∃ rs, dictGet d "ranges" = some (.list rs) ∧ List.Forall₂ PipeRangeTaken rs c.ranges
  clustering : ∃ cl, dictGet d "clustering" = some (.dict cl) ∧ Entry cl "radius" c.radius ∧ 0 < c.radius
  harmonic : ∃ hd, dictGet d "harmonic_flagging" = some (.dict hd) ∧ (Entry hd "denom_max" h.denomMax ∧ 1 ≤ h.denomMax) ∧
    Entry hd "phase_distance_max" h.phaseDistanceMax ∧ Entry hd "dm_distance_max" h.dmDistanceMax ∧ Entry hd "snr_distance_max" h.snrDistanceMax
  filters : ∃ fd, dictGet d "candidate_filters" = some (.dict fd) ∧ Taken fd "dm_min" c.filters.dmMin ∧ Taken fd "snr_min" c.filters.snrMin ∧
    (dictGet fd "remove_harmonics" = some (.bool true) ↔ c.filters.removeHarmonics = true) ∧
    Taken fd "max_number" (c.filters.maxNumber.map fun n => (n : ℝ)) ∧ ∀ n, c.filters.maxNumber = some n → 1 ≤ n

theorem pipeRangeOf_ok {r : PyVal} {rr s p : List (String × PyVal)} {rc : Model.RangeConf} (hr : r = .dict rr)
    (h1 : dictGet rr "ffa_search" = some (.dict s)) (h2 : dictGet rr "find_peaks" = some (.dict p))
    (hrc : rangeConfOf r = .ok rc) (ha : RangeArgs s p rc) (hd : rc.search.deredden = false) (hn : rc.search.alreadyNormalised = true)
    {cand : List (String × PyVal)} (h3 : dictGet rr "candidates" = some (.dict cand))
    (hc : Section [("bins", false, PosInt), ("subints", false, PosInt)] (.dict cand)) :
    ∃ q, pipeRangeOf r = .ok q ∧ PipeRangeTaken r q := by
  obtain ⟨v1, hv1⟩ := section_req hc (k := "bins") (by left)
  obtain ⟨v2, hv2⟩ := section_req hc (k := "subints") (by right; left)
  obtain ⟨o, P, hP, g1⟩ := section_get hc hv1
  simp at hP
  obtain ⟨-, rfl⟩ := hP
  obtain ⟨o, P, hP, g2⟩ := section_get hc hv2
  simp at hP
  obtain ⟨-, rfl⟩ := hP
  obtain ⟨b, e1, k1, p1⟩ := required_count hv1 g1
  obtain ⟨n, e2, k2, k3⟩ := optional_count hv2 (Or.inr g2)
  cases n with
  | none =>
    rw [k2.mp rfl] at g2
    rcases g2 with ⟨i, e, _⟩ | e <;> cases e
  | some n =>
    obtain ⟨k4, k5⟩ := k3 n rfl
    refine ⟨⟨rc.search, rc.peaks, b, some n⟩, ?_, rr, s, p, cand, v1, v2, n, hr, h1, h2, h3, ha, hd, hn, hv1, k1, p1, hv2, k4, rfl, k5⟩
    have hcd : required pyDict rr "candidates" = .ok cand := by unfold required; rw [h3]; rfl
    have hpd : pyDict r = .ok rr := by rw [hr]; rfl
    unfold pipeRangeOf
    simp only [hrc, hpd, hcd, e1, e2, Except.bind]
    rfl

theorem plain_real {d : List (String × PyVal)} (hf : AllFiniteDict d) {k : String} {v : PyVal} (hk : dictGet d k = some v)
    (hv : PosPlain v) : ∃ x, required pyReal d k = .ok x ∧ HasValue v x ∧ 0 < x := by
  have : ∃ x, required pyReal d k = .ok x ∧ HasValue v x := by
    unfold required
    rw [hk]
    rcases hv with (⟨i, rfl, _⟩ | rfl) | ⟨y, rfl, _⟩
    · exact ⟨i, rfl, Or.inr (Or.inl ⟨i, rfl, rfl⟩)⟩
    · exact ⟨1, by simp [pyReal], by simp [HasValue]⟩
    · obtain ⟨q, rfl⟩ : ∃ q, y = .fin q := by
        have := allFiniteDict_mem hf (dictGet_mem hk)
        unfold AllFinite at this
        exact this
      exact ⟨q, rfl, Or.inl ⟨q, rfl, rfl⟩⟩
  obtain ⟨x, h1, h2⟩ := this
  exact ⟨x, h1, h2, hasValue_pos h2 hv⟩

theorem harmConfOf_ok {hd : List (String × PyVal)} (hf : AllFiniteDict hd)
    (hs : Section [("denom_max", false, PosInt), ("phase_distance_max", false, PosFloat),
      ("dm_distance_max", false, PosFloat), ("snr_distance_max", false, PosFloat)] (.dict hd)) :
    ∃ h, harmConfOf hd = .ok h ∧ (Entry hd "denom_max" h.denomMax ∧ 1 ≤ h.denomMax) ∧ Entry hd "phase_distance_max" h.phaseDistanceMax ∧
      Entry hd "dm_distance_max" h.dmDistanceMax ∧ Entry hd "snr_distance_max" h.snrDistanceMax := by
  obtain ⟨v1, hv1⟩ := section_req hs (k := "denom_max") (by left)
  obtain ⟨v2, hv2⟩ := section_req hs (k := "phase_distance_max") (by right; left)
  obtain ⟨v3, hv3⟩ := section_req hs (k := "dm_distance_max") (by right; right; left)
  obtain ⟨v4, hv4⟩ := section_req hs (k := "snr_distance_max") (by right; right; right; left)
  obtain ⟨o, P, hP, g1⟩ := section_get hs hv1
  simp at hP
  obtain ⟨-, rfl⟩ := hP
  obtain ⟨o, P, hP, g2⟩ := section_get hs hv2
  simp at hP
  obtain ⟨-, rfl⟩ := hP
  obtain ⟨o, P, hP, g3⟩ := section_get hs hv3
  simp at hP
  obtain ⟨-, rfl⟩ := hP
  obtain ⟨o, P, hP, g4⟩ := section_get hs hv4
  simp at hP
  obtain ⟨-, rfl⟩ := hP
  obtain ⟨n, e1, k1, p1⟩ := required_count hv1 g1
  obtain ⟨x2, e2, k2, _⟩ := required_real hf hv2 g2
  obtain ⟨x3, e3, k3, _⟩ := required_real hf hv3 g3
  obtain ⟨x4, e4, k4, _⟩ := required_real hf hv4 g4
  refine ⟨⟨n, x2, x3, x4⟩, ?_, ⟨⟨v1, hv1, by simpa using k1⟩, by simpa using p1⟩, ⟨v2, hv2, k2⟩, ⟨v3, hv3, k3⟩, ⟨v4, hv4, k4⟩⟩
  unfold harmConfOf
  simp only [e1, e2, e3, e4, Except.bind]

theorem taken_count {d : List (String × PyVal)} {k : String} {v : PyVal} {o : Option ℕ} (hk : dictGet d k = some v)
    (h1 : o = none ↔ v = .none) (h2 : ∀ n, o = some n → HasValue v n ∧ 1 ≤ n) : Taken d k (o.map fun n => (n : ℝ)) := by
  refine taken_of hk ?_ ?_
  · cases o <;> simpa using h1
  · intro x hx
    cases o with
    | none => cases hx
    | some n =>
      cases hx
      exact (h2 n rfl).1

theorem filtersOf_ok {fd : List (String × PyVal)} (hf : AllFiniteDict fd)
    (hs : Section [("dm_min", false, OrBlank IsFloat), ("snr_min", false, OrBlank IsFloat),
      ("remove_harmonics", false, OrBlank fun v => ∃ b, v = .bool b), ("max_number", false, OrBlank PosInt)] (.dict fd)) :
    ∃ f, filtersOf fd = .ok f ∧ Taken fd "dm_min" f.dmMin ∧ Taken fd "snr_min" f.snrMin ∧
      (dictGet fd "remove_harmonics" = some (.bool true) ↔ f.removeHarmonics = true) ∧
      Taken fd "max_number" (f.maxNumber.map fun n => (n : ℝ)) ∧ ∀ n, f.maxNumber = some n → 1 ≤ n := by
  obtain ⟨v1, hv1⟩ := section_req hs (k := "dm_min") (by left)
  obtain ⟨v2, hv2⟩ := section_req hs (k := "snr_min") (by right; left)
  obtain ⟨v3, hv3⟩ := section_req hs (k := "remove_harmonics") (by right; right; left)
  obtain ⟨v4, hv4⟩ := section_req hs (k := "max_number") (by right; right; right; left)
  obtain ⟨o, P, hP, g1⟩ := section_get hs hv1
  simp at hP
  obtain ⟨-, rfl⟩ := hP
  obtain ⟨o, P, hP, g2⟩ := section_get hs hv2
  simp at hP
  obtain ⟨-, rfl⟩ := hP
  obtain ⟨o, P, hP, g3⟩ := section_get hs hv3
  simp [-Bool.exists_bool] at hP
  obtain ⟨-, rfl⟩ := hP
  obtain ⟨o, P, hP, g4⟩ := section_get hs hv4
  simp at hP
  obtain ⟨-, rfl⟩ := hP
  obtain ⟨o1, e1, i1, k1⟩ := optional_real hf hv1 (g1.imp_right Or.inl)
  obtain ⟨o2, e2, i2, k2⟩ := optional_real hf hv2 (g2.imp_right Or.inl)
  obtain ⟨o4, e4, i4, k4⟩ := optional_count hv4 g4
  obtain ⟨b, e3, k3⟩ : ∃ b, required pyTruth fd "remove_harmonics" = .ok b ∧ (v3 = .bool true ↔ b = true) := by
    unfold required
    rw [hv3]
    rcases g3 with rfl | ⟨b, rfl⟩
    · exact ⟨false, rfl, by simp⟩
    · exact ⟨b, rfl, by simp⟩
  refine ⟨⟨o1, o2, b, o4⟩, ?_, taken_of hv1 i1 k1, taken_of hv2 i2 k2, ?_, taken_count hv4 i4 k4, fun n hn => (k4 n hn).2⟩
  · unfold filtersOf
    simp only [e1, e2, e3, e4, Except.bind]
  · rw [hv3]
    simpa using k3

/-- **C102.** What a run takes from a validated configuration without infinite numbers, outside of the exceptions of C84: every argument of its
stages is the entry of that name. -/
theorem C102_configured {conf v : PyVal} (h : validatePipelineConfig conf = .ok v) (hf : AllFinite v) (hnt : NoTypeError v) :
    ∃ d c a, v = .dict d ∧ runConfOf v = .ok (c, a) ∧ ConfTaken d c a := by
  obtain ⟨d, data, sel, ranges, pc, rfl, hdata, hsel, hranges, hpc, m1, m2, m3, m4, m5, m6, m7, _, m8, _⟩ := C94_configured h hf
  obtain ⟨d', der, ranges', e, hder, ⟨x1, x2, hx1, px1, hx2, _⟩, hranges', hargs⟩ := C84_arguments h hf
  cases e
  rw [hranges] at hranges'
  cases hranges'
  obtain ⟨n1, n2⟩ := hnt d rfl
  have hv := C55_types h
  unfold ValidatedConf at hv
  unfold AllFinite at hf
  -- the sections
  obtain ⟨v0, hv0⟩ := section_req hv (k := "processes") (by left)
  obtain ⟨v1, hv1⟩ := section_req hv (k := "clustering") (by iterate 5 right
                                                             left)
  obtain ⟨v2, hv2⟩ := section_req hv (k := "harmonic_flagging") (by iterate 6 right
                                                                    left)
  obtain ⟨v3, hv3⟩ := section_req hv (k := "candidate_filters") (by iterate 7 right
                                                                    left)
  obtain ⟨o, P, hP, g0⟩ := section_get hv hv0
  simp at hP
  obtain ⟨-, rfl⟩ := hP
  obtain ⟨o, P, hP, g1⟩ := section_get hv hv1
  simp at hP
  obtain ⟨-, rfl⟩ := hP
  obtain ⟨o, P, hP, g2⟩ := section_get hv hv2
  simp at hP
  obtain ⟨-, rfl⟩ := hP
  obtain ⟨o, P, hP, g3⟩ := section_get hv hv3
  simp [-Bool.exists_bool] at hP
  obtain ⟨-, rfl⟩ := hP
  obtain ⟨o, P, hP, g4⟩ := section_get hv hranges
  simp at hP
  obtain ⟨-, rfl⟩ := hP
  obtain ⟨cl, rfl, _⟩ := id g1
  obtain ⟨hd, rfl, _⟩ := id g2
  obtain ⟨fd, rfl, _⟩ := id g3
  obtain ⟨_, e, hrs⟩ := id g4
  cases e
  have f0 := allFiniteDict_mem hf (dictGet_mem hder)
  have f1 := allFiniteDict_mem hf (dictGet_mem hv1)
  have f2 := allFiniteDict_mem hf (dictGet_mem hv2)
  have f3 := allFiniteDict_mem hf (dictGet_mem hv3)
  unfold AllFinite at f0 f1 f2 f3
  obtain ⟨np, e0, k0, p0⟩ := required_count hv0 g0
  obtain ⟨w, ew, kw, pw⟩ := plain_real f0 hx1 px1
  obtain ⟨mp, em, km, pm⟩ := required_count hx2 (n1 der x2 hder hx2)
  obtain ⟨vr, hvr⟩ := section_req g1 (k := "radius") (by left)
  obtain ⟨o, P, hP, gr⟩ := section_get g1 hvr
  simp at hP
  obtain ⟨-, rfl⟩ := hP
  obtain ⟨rad, er, kr, pr⟩ := plain_real f1 hvr gr
  obtain ⟨a, ea, ka⟩ := harmConfOf_ok f2 g2
  obtain ⟨fl, efl, kf⟩ := filtersOf_ok f3 g3
  have hconf : ∀ r ∈ ranges, ∃ q, pipeRangeOf r = .ok q ∧ PipeRangeTaken r q := by
    intro r hr
    obtain ⟨rr, s, p, hrr, h1, h2, h3, _⟩ := hargs r hr
    obtain ⟨rc, hrc, b1, b2, b3⟩ := h3 (n2 ranges rr p hranges (hrr ▸ hr) h2)
    have hsec := hrs r hr
    rw [hrr] at hsec
    obtain ⟨vc, hvc⟩ := section_req hsec (k := "candidates") (by iterate 3 right
                                                                 left)
    obtain ⟨o, P, hP, gc⟩ := section_get hsec hvc
    simp at hP
    obtain ⟨-, rfl⟩ := hP
    obtain ⟨cand, rfl, _⟩ := id gc
    exact pipeRangeOf_ok hrr h1 h2 hrc b1 b2 b3 hvc gc
  have : Nonempty PipeRange := ⟨⟨⟨0, 0, 0, 0, 0, 0, 0, false, 0, 0, false⟩, ⟨0, 0, 0, 0, 0⟩, 0, none⟩⟩
  choose! g hg1 hg2 using hconf
  have hmap := mapM_ok pipeRangeOf g ranges hg1
  refine ⟨d, ⟨pc, ranges.map g, w, mp, np, rad, fl⟩, a, rfl, ?_, ?_⟩
  · have t1 : pyDict (.dict d) = .ok d := rfl
    have t2 : required pyDict d "dereddening" = .ok der := by unfold required; rw [hder]; rfl
    have t3 : required pyList d "ranges" = .ok ranges := by unfold required; rw [hranges]; rfl
    have t4 : required pyDict d "clustering" = .ok cl := by unfold required; rw [hv1]; rfl
    have t5 : required pyDict d "harmonic_flagging" = .ok hd := by unfold required; rw [hv2]; rfl
    have t6 : required pyDict d "candidate_filters" = .ok fd := by unfold required; rw [hv3]; rfl
    unfold runConfOf
    simp only [hpc, t1, e0, t2, ew, em, t3, hmap, t4, er, t5, ea, t6, efl, Except.bind]
  · exact {
      processes := ⟨⟨v0, hv0, k0⟩, p0⟩
      data := ⟨data, hdata, m1, m2, m3, m4⟩
      dmselect := ⟨sel, hsel, m5, m6, m7⟩
      cap := m8
      dereddening := ⟨der, hder, ⟨x1, hx1, kw⟩, pw, ⟨x2, hx2, km⟩, pm⟩
      ranges := ⟨ranges, hranges, by
        rw [List.forall₂_map_right_iff, List.forall₂_same]
        exact hg2⟩
      clustering := ⟨cl, hv1, ⟨vr, hvr, kr⟩, pr⟩
      harmonic := ⟨hd, hv2, ka⟩
      filters := ⟨fd, hv3, kf⟩ }

/-! ## Runs -/

/-- A file that the pipeline can use, see `FileOK`: instead of the condition on the number of bins, which `prepare` checks, the shortest period of a
range is not exactly `candidates.bins` samples. -/
structure PipeFileOK (t : PipeTools) (c : RunConf) (m : FileMeta) (w : World) (id : ℕ) (o : TsObj) : Prop where
  loads : t.loader m.fname = .ok (w, id)
  object : w.objs[id]? = some o
  good : GoodSeries w o
  tsamp : o.tsamp = m.tsamp
  dm : dictGet (w.metaOf o) "dm" = some (.num m.dm)
  tobs : 0 < m.tobs
  idx : ∀ r ∈ c.ranges, IdxFor t.idx ((w.dataOf o).length / r.search.binsMin)
  bins : ∀ r ∈ c.ranges, r.candBins * m.tsamp ≠ r.search.periodMin

/-- What is assumed of a run: a configuration that is accepted, has no infinite numbers, and none of the exceptions of C84 (`c` and `a` are the
arguments taken from it); a sorting function; a conversion to fractions; files as above; the observing band from `lo` to `hi`. -/
structure PipelineOK (t : PipeTools) (conf : PyVal) (c : RunConf) (a : HarmConf) (ms : List FileMeta) (lo hi : ℝ) (n : ℕ) : Prop where
  conf : ∃ v, validatePipelineConfig conf = .ok v ∧ AllFinite v ∧ NoTypeError v ∧ runConfOf v = .ok (c, a)
  argsort : IsArgsort t.argsort
  frac : FracOK t.frac
  files : ∀ m ∈ ms, ∃ w id o, PipeFileOK t c m w id o
  band : ObservedBand c.prepConf ms lo hi n

theorem PipelineOK.taken {t : PipeTools} {conf : PyVal} {c : RunConf} {a : HarmConf} {ms : List FileMeta} {lo hi : ℝ} {n : ℕ}
    (h : PipelineOK t conf c a ms lo hi n) : ∃ d, ConfTaken d c a := by
  obtain ⟨v, h1, h2, h3, h4⟩ := h.conf
  obtain ⟨d, c', a', _, h5, h6⟩ := C102_configured h1 h2 h3
  rw [h4] at h5
  cases h5
  exact ⟨d, h6⟩

theorem prepared_nonempty {c : PrepConf} {ms : List FileMeta} {it : DmIter ℝ} (hmx : ∀ x, c.dmsinbMax = some x → 0 < x)
    (h : prepare c ms = .ok it) : ms ≠ [] := by
  obtain ⟨_, _, _, _, _, _, _, _, hne, _⟩ := prepare_inv h hmx
  exact hne

/-- The hypotheses of C100 hold for a run that can be prepared, for any band of the harmonic test. -/
theorem run_ok {t : PipeTools} {conf : PyVal} {c : RunConf} {a : HarmConf} {ms : List FileMeta} {lo hi : ℝ} {n : ℕ}
    (h : PipelineOK t conf c a ms lo hi n) {lo' hi' : ℝ} (h0 : 0 < lo') (hlt : lo' < hi') {it : DmIter ℝ} (hp : prepare c.prepConf ms = .ok it) :
    RunOK (t.env a (tobsMedian ms) lo' hi') c ms := by
  obtain ⟨d, htk⟩ := h.taken
  have hne := prepared_nonempty (c := c.prepConf) htk.cap hp
  have htm : 0 < tobsMedian ms := by
    refine npMedian_pos (by simpa using hne) ?_
    intro x hx
    obtain ⟨m, hm, rfl⟩ := List.mem_map.mp hx
    obtain ⟨w, id, o, hfo⟩ := h.files m hm
    exact hfo.tobs
  obtain ⟨rs, _, hrs⟩ := htk.ranges
  obtain ⟨hd, _, ⟨_, hden⟩, _⟩ := htk.harmonic
  refine ⟨h.argsort, htk.processes.2, htk.cap, ?_, ?_, ?_⟩
  · intro p q hp hq hpd hqd
    obtain ⟨rel, r, _, _, hrun, _⟩ := htestReal_ok t.frac h.frac p q (tobsMedian ms) lo' hi' a hp hq hpd hqd htm h0 hlt hden
    exact ⟨_, hrun⟩
  · intro r hr
    obtain ⟨v, _, rr, s, p, cand, v1, v2, n, _, _, _, _, _, _, _, _, _, hb, _, _, hsub, hn⟩ := forall₂_mem_right hrs hr
    refine ⟨hb, ?_⟩
    intro s hs
    rw [hsub] at hs
    cases hs
    exact_mod_cast hn
  · intro m hm
    obtain ⟨w, id, o, hf⟩ := h.files m hm
    have hts : 0 < o.tsamp := by
      have := hf.good.2.1
      unfold World.lengthOf at this
      by_contra hc
      exact absurd this (not_lt.mpr (mul_nonpos_of_nonneg_of_nonpos (Nat.cast_nonneg _) (not_lt.mp hc)))
    refine ⟨w, id, o, hf.loads, hf.object, hf.good, hts, hf.dm, hf.tobs, hf.idx, ?_⟩
    intro r hr
    obtain ⟨_, _, _, _, _, _, ts, _, _, _, _, _, _, _, _, ht, hu⟩ := prepare_inv (c := c.prepConf) hp htk.cap
    obtain ⟨i, hi', rfl⟩ := List.getElem_of_mem hr
    have hi2 : i < c.prepConf.ranges.length := by simpa [RunConf.prepConf] using hi'
    have h5 := ((validateRanges_iff.mp hu).1 _ (List.getElem_mem hi2)).2
    rw [prepConf_get c hi' hi2] at h5
    have h6 : m.tsamp ≤ ts := (pyMax_ok.mp ht).2 _ (List.mem_map_of_mem hm)
    have h7 : (c.ranges[i].candBins : ℝ) * m.tsamp ≤ c.ranges[i].search.periodMin :=
      (mul_le_mul_of_nonneg_left h6 (Nat.cast_nonneg _)).trans h5
    show (c.ranges[i].candBins : ℝ) * o.tsamp < c.ranges[i].search.periodMin
    rw [hf.tsamp]
    exact lt_of_le_of_ne h7 (hf.bins _ hr)

/-- **C102.** A run with a configuration is a run of C100 with the arguments taken from it and the harmonic test for the observing band and the
median length of the files. -/
theorem C102_run {t : PipeTools} {conf : PyVal} {c : RunConf} {a : HarmConf} {ms : List FileMeta} {lo hi : ℝ} {n : ℕ}
    (h : PipelineOK t conf c a ms lo hi n) (s : PoolSchedule) :
    pipelineRun t conf ms s = pipelineProcess (t.env a (tobsMedian ms) lo hi) c ms s ∧
    (0 < lo → lo < hi → (∃ it, prepare c.prepConf ms = .ok it) → RunOK (t.env a (tobsMedian ms) lo hi) c ms) := by
  obtain ⟨d, htk⟩ := h.taken
  obtain ⟨v, h1, h2, h3, h4⟩ := h.conf
  refine ⟨?_, ?_⟩
  · unfold pipelineRun pipelineProcess
    rw [h1]
    simp only [Except.bind]
    rw [h4]
    simp only
    cases hp : prepare c.prepConf ms with
    | error e => rfl
    | ok it =>
      simp only
      have hb : iterBand c.prepConf ms = .ok (lo, hi, n) := (bandOf_iff (prepared_nonempty (c := c.prepConf) htk.cap hp)).mpr h.band
      rw [hb]
  · rintro h0 hlt ⟨it, hp⟩
    exact run_ok h h0 hlt hp

/-- **C102.** C100 for a run with a configuration: it fails only if it cannot be prepared or one of the selected files cannot be searched, and no
candidate is lost. -/
theorem C102_no_candidate_lost {t : PipeTools} {conf : PyVal} {c : RunConf} {a : HarmConf} {ms : List FileMeta} {lo hi : ℝ} {n : ℕ}
    (h : PipelineOK t conf c a ms lo hi n) (h0 : 0 < lo) (hlt : lo < hi) (s : PoolSchedule) (hs : RunSchedule c ms s) :
    ((∃ st, pipelineRun t conf ms s = .ok st) ↔ ∃ it, prepare c.prepConf ms = .ok it ∧
      ∀ dm ∈ it.selectedDms, ∃ f l, getFilename it dm = .ok f ∧ processFile (t.env a (tobsMedian ms) lo hi) c f = .ok l) ∧
    ∀ st, pipelineRun t conf ms s = .ok st → st.candidates.length = st.filtered.length ∧
      st.candidates.Pairwise (fun a b => b.params.snr ≤ a.params.snr) ∧
      (∀ x ∈ st.candidates, x.source ∈ st.filtered) ∧
      ∀ i ∈ st.filtered, ∃ x ∈ st.candidates, x.source = i ∧ (∀ y ∈ st.candidates, y.source = i → y = x) ∧
        (st.heap i).centre = .ok x.params ∧ FoldedFromFile (t.env a (tobsMedian ms) lo hi) c ms (st.heap i).peaks x.params x.data := by
  obtain ⟨h1, h2⟩ := C102_run h s
  rw [h1]
  by_cases hp : ∃ it, prepare c.prepConf ms = .ok it
  · exact C100_no_candidate_lost _ c ms (h2 h0 hlt hp) s hs
  · have herr : ∀ st, pipelineProcess (t.env a (tobsMedian ms) lo hi) c ms s ≠ .ok st := by
      intro st hst
      unfold pipelineProcess at hst
      obtain ⟨it, hit, _⟩ := bind_ok_inv hst
      exact hp ⟨it, hit⟩
    refine ⟨⟨fun ⟨st, hst⟩ => absurd hst (herr st), fun ⟨it, hit, _⟩ => absurd ⟨it, hit⟩ hp⟩, fun st hst => absurd hst (herr st)⟩

/-- A prepared run: its files and its job. -/
theorem run_parts {e : PipeEnv} {c : RunConf} {ms : List FileMeta} (hok : RunOK e c ms) {s : PoolSchedule} (hs : RunSchedule c ms s)
    {st : PipeState ℝ (CandObj ℝ)} (h : pipelineProcess e c ms s = .ok st) :
    ∃ it fnames g ts, JobOK (pipelineJob e c ms it fnames) g ts ∧ JobSchedule (pipelineJob e c ms it fnames) s ∧
      PipeState.fresh.process (pipelineJob e c ms it fnames) s = .ok st := by
  obtain ⟨it, fnames, hit, hfn, hall⟩ := run_inv hok hs h
  choose! g hg using hall
  obtain ⟨ts, hjob, _⟩ := run_job hok hit hfn hg
  refine ⟨it, fnames, g, ts, hjob, ?_, ?_⟩
  · refine hs it _ hit ?_
    unfold iterateFilenames
    rw [hfn]
    rfl
  · unfold pipelineProcess at h
    rw [hit] at h
    simp only [Except.bind] at h
    rwa [hfn] at h

/-- **C102.** The clusters that are marked as harmonics after a run, with the values of the section `harmonic_flagging`. A marked cluster has a
parent that is ranked higher and not marked itself. The ratio of the frequencies of their centres, converted to a fraction, is closest to `r`
among the fractions with a denominator of at most `denom_max`; the distances in phase, DM and S/N for this fraction are within their
bounds; and the fraction that is stored is `r`, or `1 / r` if the harmonic is the slower one. For each cluster that ranks above the parent
and is not marked, and for each two clusters that are not marked, one of the distances is out of bounds. -/
theorem C102_harmonics {t : PipeTools} {conf : PyVal} {c : RunConf} {a : HarmConf} {ms : List FileMeta} {lo hi : ℝ} {n : ℕ}
    (h : PipelineOK t conf c a ms lo hi n) (h0 : 0 < lo) (hlt : lo < hi) (s : PoolSchedule) (hs : RunSchedule c ms s)
    (st : PipeState ℝ (CandObj ℝ)) (hst : pipelineRun t conf ms s = .ok st) :
    ∃ (cen : ℕ → HPeak ℝ) (rank : ℕ → ℕ), (∀ i ∈ st.clusters, (st.heap i).centre = .ok (cen i)) ∧
      (∀ i ∈ st.clusters, (st.heap i).rank = some (rank i)) ∧ (st.clusters.map rank).Perm (List.range st.clusters.length) ∧
      (∀ i ∈ st.clusters, ∀ k ∈ st.clusters, rank i < rank k → (cen k).snr ≤ (cen i).snr) ∧
      (∀ i ∈ st.clusters, ∀ f, (st.heap i).parent = some f → f ∈ st.clusters ∧ (st.heap f).parent = none ∧ rank f < rank i ∧
        (∃ r, IsClosestFraction (t.frac (max (cen f).freq (cen i).freq / min (cen f).freq (cen i).freq)) a.denomMax r ∧ 1 ≤ r ∧
          WithinBounds (cen f) (cen i) (tobsMedian ms) lo hi a r ∧
          (st.heap i).hfrac = some (if (cen i).freq < (cen f).freq then 1 / r else r)) ∧
        ∀ k ∈ st.clusters, rank k < rank f → (st.heap k).parent = none →
          ∃ r, IsClosestFraction (t.frac (max (cen k).freq (cen i).freq / min (cen k).freq (cen i).freq)) a.denomMax r ∧ 1 ≤ r ∧
            ¬ WithinBounds (cen k) (cen i) (tobsMedian ms) lo hi a r) ∧
      (∀ i ∈ st.clusters, ∀ k ∈ st.clusters, rank i < rank k → (st.heap i).parent = none → (st.heap k).parent = none →
        ∃ r, IsClosestFraction (t.frac (max (cen i).freq (cen k).freq / min (cen i).freq (cen k).freq)) a.denomMax r ∧ 1 ≤ r ∧
          ¬ WithinBounds (cen i) (cen k) (tobsMedian ms) lo hi a r) := by
  obtain ⟨h1, h2⟩ := C102_run h s
  rw [h1] at hst
  have hp : ∃ it, prepare c.prepConf ms = .ok it := by
    unfold pipelineProcess at hst
    obtain ⟨it, hit, _⟩ := bind_ok_inv hst
    exact ⟨it, hit⟩
  have hok := h2 h0 hlt hp
  obtain ⟨it, fnames, g, ts, hjob, hsch, hrun⟩ := run_parts hok hs hst
  obtain ⟨cen, rank, k1, k2, k3, k4, k5, k6⟩ := C68_harmonics _ g ts hjob s hsch st hrun
  obtain ⟨d, htk⟩ := h.taken
  obtain ⟨hd, _, ⟨_, hden⟩, _⟩ := htk.harmonic
  have key : ∀ i ∈ st.clusters, ∀ k ∈ st.clusters, ∃ rel r,
      IsClosestFraction (t.frac (max (cen i).freq (cen k).freq / min (cen i).freq (cen k).freq)) a.denomMax r ∧ 1 ≤ r ∧
      (pipelineJob (t.env a (tobsMedian ms) lo hi) c ms it fnames).test (cen i) (cen k) =
        .ok (rel, if (cen k).freq < (cen i).freq then 1 / r else r) ∧
      (rel = true ↔ WithinBounds (cen i) (cen k) (tobsMedian ms) lo hi a r) := by
    intro i hi' k hk
    exact htestReal_ok t.frac h.frac _ _ _ _ _ _ (k1 i hi').2.1 (k1 k hk).2.1 (k1 i hi').2.2 (k1 k hk).2.2 hjob.tmed h0 hlt hden
  have no : ∀ i ∈ st.clusters, ∀ k ∈ st.clusters,
      (∃ fr, (pipelineJob (t.env a (tobsMedian ms) lo hi) c ms it fnames).test (cen i) (cen k) = .ok (false, fr)) →
      ∃ r, IsClosestFraction (t.frac (max (cen i).freq (cen k).freq / min (cen i).freq (cen k).freq)) a.denomMax r ∧ 1 ≤ r ∧
          ¬ WithinBounds (cen i) (cen k) (tobsMedian ms) lo hi a r := by
    rintro i hi' k hk ⟨fr, hfr⟩
    obtain ⟨rel, r, b1, b2, b3, b4⟩ := key i hi' k hk
    rw [b3] at hfr
    have : rel = false := congrArg Prod.fst (Except.ok.inj hfr)
    refine ⟨r, b1, b2, fun hw => ?_⟩
    have := b4.mpr hw
    simp_all
  refine ⟨cen, rank, fun i hi' => (k1 i hi').1, k2, k3, k4, ?_, fun i hi' k hk hr p1 p2 => no i hi' k hk (k6 i hi' k hk hr p1 p2)⟩
  intro i hi' f hf
  obtain ⟨c1, c2, c3, _, ⟨fr, c4, c5⟩, c6⟩ := k5 i hi' f hf
  refine ⟨c1, c2, c3, ?_, fun k hk hr hpn => no k hk i hi' (c6 k hk hr hpn)⟩
  obtain ⟨rel, r, b1, b2, b3, b4⟩ := key f c1 i hi'
  rw [b3] at c4
  have e1 : rel = true := congrArg Prod.fst (Except.ok.inj c4)
  have e2 : (if (cen i).freq < (cen f).freq then 1 / r else r) = fr := congrArg Prod.snd (Except.ok.inj c4)
  exact ⟨r, b1, b2, b4.mp e1, by rw [c5, e2]⟩

/-- **C102.** A band whose upper end is not above the lower one is accepted: by the validation of the configuration, by the selection of DMs and by the
search. If the search finds two peaks that are not linked, the run then stops with ValueError, and nothing is saved. -/
theorem C102_band_order {t : PipeTools} {conf : PyVal} {c : RunConf} {a : HarmConf} {ms : List FileMeta} {lo hi : ℝ} {n : ℕ}
    (h : PipelineOK t conf c a ms lo hi n) (hle : hi ≤ lo) (s : PoolSchedule) (hs : RunSchedule c ms s)
    (it : DmIter ℝ) (hit : prepare c.prepConf ms = .ok it) (peaks : ℝ → List (HPeak ℝ))
    (hsearch : ∀ dm ∈ it.selectedDms, ∃ f, getFilename it dm = .ok f ∧
      processFile (t.env a (tobsMedian ms) lo hi) c f = .ok (peaks dm))
    (dm dm' : ℝ) (hdm : dm ∈ it.selectedDms) (hdm' : dm' ∈ it.selectedDms) (p q : HPeak ℝ) (hp : p ∈ peaks dm) (hq : q ∈ peaks dm')
    (hpq : ¬ Linked (· ∈ it.selectedDms.flatMap peaks) (fun p : HPeak ℝ => p.freq) (c.radius / tobsMedian ms) p q) :
    pipelineRun t conf ms s = .error .valueError := by
  obtain ⟨d, htk⟩ := h.taken
  -- the same run with another band
  have hok : RunOK (t.env a (tobsMedian ms) 1 2) c ms := run_ok h one_pos one_lt_two hit
  choose! F hF1 hF2 using hsearch
  have hfn := mapM_ok (getFilename it) F _ hF1
  obtain ⟨fnames, hfnames⟩ : ∃ fnames, fnames = it.selectedDms.map F := ⟨_, rfl⟩
  rw [← hfnames] at hfn
  have hall : ∀ f ∈ fnames, ∃ l, processFile (t.env a (tobsMedian ms) 1 2) c f = .ok l := by
    intro f hf
    rw [hfnames] at hf
    obtain ⟨dm, hdm, rfl⟩ := List.mem_map.mp hf
    exact ⟨_, hF2 dm hdm⟩
  choose! g hg using hall
  have hgF : ∀ dm ∈ it.selectedDms, g (F dm) = peaks dm := by
    intro dm hdm
    have h1 := hg (F dm) (by rw [hfnames]; exact List.mem_map_of_mem hdm)
    have h2 : processFile (t.env a (tobsMedian ms) 1 2) c (F dm) = .ok (peaks dm) := hF2 dm hdm
    rw [h1] at h2
    exact Except.ok.inj h2
  obtain ⟨ts, hjob, _⟩ := run_job hok hit hfn hg
  have hflat : fnames.flatMap g = it.selectedDms.flatMap peaks := by
    rw [hfnames, List.flatMap_map]
    exact List.flatMap_congr hgF
  rw [(C102_run h s).1]
  unfold pipelineProcess
  rw [hit]
  simp only [Except.bind]
  rw [hfn]
  refine C68_failing_test (pipelineJob (t.env a (tobsMedian ms) lo hi) c ms it fnames) g hjob.processes hg hjob.pos hjob.argsort hjob.tmed s ?_
    .valueError ?_ (F dm) (F dm') ?_ ?_ p q ?_ ?_ ?_
  · refine hs it _ hit ?_
    unfold iterateFilenames
    rw [hfn]
    rfl
  · intro p q
    exact htestReal_band t.frac p q _ _ _ a hle
  · rw [hfnames]; exact List.mem_map_of_mem hdm
  · rw [hfnames]; exact List.mem_map_of_mem hdm'
  · rw [hgF dm hdm]; exact hp
  · rw [hgF dm' hdm']; exact hq
  · show ¬ Linked (· ∈ fnames.flatMap g) _ _ _ _
    rw [hflat]
    exact hpq

/-! ## Example -/

/-- The search range of the example. -/
def pulsarRangeDict : List (String × PyVal) := [("name", .str "long"),
  ("ffa_search", .dict [("period_min", .float (.fin 32)), ("period_max", .float (.fin 34)), ("bins_min", .int 32),
    ("bins_max", .int 33), ("fpmin", .int 8), ("wtsp", .float (.fin (3 / 2))), ("ducy_max", .float (.fin (3 / 10)))]),
  ("find_peaks", .dict [("smin", .float (.fin 7)), ("segwidth", .float (.fin 5)), ("nstd", .float (.fin 6)), ("minseg", .int 10),
    ("clrad", .float (.fin (1 / 5)))]),
  ("candidates", .dict [("bins", .int 16), ("subints", .int 4)])]

/-- A whole configuration for the file of `C101_example`. -/
def pulsarDict : PyVal := .dict [
  ("processes", .int 1),
  ("data", .dict [("format", .str "presto"), ("fmin", .none), ("fmax", .none), ("nchans", .none)]),
  ("dmselect", .dict [("min", .none), ("max", .none), ("dmsinb_max", .float (.fin 45))]),
  ("dereddening", .dict [("rmed_width", .float (.fin 33)), ("rmed_minpts", .int 33)]),
  ("ranges", .list [.dict pulsarRangeDict]),
  ("clustering", .dict [("radius", .float (.fin (1 / 5)))]),
  ("harmonic_flagging", .dict [("denom_max", .int 100), ("phase_distance_max", .float (.fin 1)), ("dm_distance_max", .float (.fin 3)),
    ("snr_distance_max", .float (.fin 3))]),
  ("candidate_filters", .dict [("dm_min", .none), ("snr_min", .float (.fin 8)), ("remove_harmonics", .bool false), ("max_number", .none)]),
  ("plot_candidates", .bool false)]

noncomputable def pulsarTools : PipeTools :=
  ⟨float32Idx, insArgsort, fun _ _ _ => 7, fun x => (⌊x * 2 ^ 52⌋ : ℚ) / 2 ^ 52, fun _ => .ok (pulsarWorld, 0)⟩

noncomputable def pulsarHarm : HarmConf := ⟨100, 1, 3, 3⟩

theorem pulsarRange_conf : pipeRangeOf (.dict pulsarRangeDict) = .ok pulsarRange := by
  have h1 : rangeConfOf (.dict pulsarRangeDict) = .ok pulsarRange.conf := by
    simp [rangeConfOf, searchArgsOf, peakParamsOf, keyword, pulsarRangeDict, required, dictGet, pyDict, pyReal, pyCount, Except.bind, pulsarRange,
      PipeRange.conf]
  unfold pipeRangeOf
  rw [h1]
  simp [required, optionalArg, dictGet, pyDict, pyCount, Except.bind, Except.map, pulsarRangeDict, pulsarRange, PipeRange.conf]

theorem pulsarDict_conf : runConfOf pulsarDict = .ok (pulsarConf, pulsarHarm) := by
  have h2 : prepConfOf pulsarDict = .ok pulsarConf.prep := by
    have h1 : searchRangeOf (.dict pulsarRangeDict) = .ok ⟨32, 34, 32, 16, 0⟩ := by
      simp [searchRangeOf, pulsarRangeDict, required, dictGet, pyDict, pyReal, pyCount, Except.bind]
    unfold prepConfOf pulsarDict
    simp [required, optionalArg, dictGet, pyDict, pyList, pyFormat, pyReal, Except.bind, Except.map, h1, bind, pure, Except.pure, pulsarConf]
  unfold runConfOf
  rw [h2]
  simp [harmConfOf, filtersOf, pulsarDict, required, optionalArg, dictGet, pyDict, pyList, pyReal, pyCount, pyTruth, Except.bind, Except.map,
    pulsarRange_conf, bind, pure, Except.pure, pulsarConf, pulsarHarm]

theorem pulsar_pipeline_ok : PipelineOK pulsarTools pulsarDict pulsarConf pulsarHarm [pulsarFile] 1182 1582 400 := by
  refine ⟨⟨pulsarDict, by with_unfolding_all rfl, ?_, ?_, pulsarDict_conf⟩, insArgsort_ok, fracOK_floor, ?_, ?_⟩
  · unfold pulsarDict pulsarRangeDict
    simp only [AllFinite, AllFiniteDict, AllFiniteList, PyFloat.fin.injEq, exists_eq', and_true]
  · intro d hd
    cases hd
    refine ⟨?_, ?_⟩
    · intro der m h1 h2
      cases h1
      cases h2
      exact Or.inl ⟨_, rfl, by norm_num⟩
    · intro ranges rr p h1 h2 h3
      cases h1
      cases List.mem_singleton.mp h2
      cases h3
      simp [dictGet]
  · intro m hm
    rw [List.mem_singleton.mp hm]
    have h := pulsarFile_ok fun _ _ => .ok (false, 1)
    refine ⟨_, _, _, h.loads, h.object, h.good, rfl, h.dm, h.tobs, h.idx, ?_⟩
    intro r hr
    simp only [pulsarConf, List.mem_singleton] at hr
    rw [hr]
    norm_num [pulsarRange, pulsarFile]
  · left
    refine ⟨rfl, ?_⟩
    intro m hm
    rw [List.mem_singleton.mp hm]
    norm_num [pulsarFile]

/-- The hypotheses of C102 are met: the run with this configuration succeeds and has a candidate with an S/N of at least 10. -/
theorem C102_example : ∃ st, pipelineRun pulsarTools pulsarDict [pulsarFile] ⟨fun _ => 1, fun _ => [0]⟩ = .ok st ∧
    ∃ x ∈ st.candidates, 10 ≤ x.params.snr ∧ x.data.profile.length = 16 := by
  obtain ⟨h1, h2⟩ := C102_run pulsar_pipeline_ok ⟨fun _ => 1, fun _ => [0]⟩
  rw [h1]
  exact C101_example (h2 (by norm_num) (by norm_num) pulsar_prepared).test

end Verif.Props
