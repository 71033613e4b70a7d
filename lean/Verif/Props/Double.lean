import Verif.Props.Periodogram
import Verif.Lemmas.LabelF
import Verif.Lemmas.Double
import Mathlib.Tactic.IntervalCases

/-! # The search in double precision -/

namespace Verif.Props

open Verif.Model Verif.Spec Verif.Lemmas

/-- C75: for every `double` arithmetic with the stated accuracy, whatever the arithmetic of the samples, the search reads and
writes inside its buffers and fills exactly the arrays `periodogram_length` asked for. -/
theorem C75_double_memory_safe (A : DArith) (hA : Sane A) {V : Type*} [Inhabited V] (O : VOps V) (idx : IdxRule)
    (data : List V) (tsamp : ℚ) (widths : List ℕ) (hne : widths ≠ []) (pmin pmax : ℚ) (bmin bmax : ℕ)
    (hidx : IdxFor idx (data.length / bmin)) (hsize : data.length ≤ 2 ^ 50) (hbins : bmax ≤ 2 ^ 50)
    (hpmax : pmax ≤ 2 ^ 62 * tsamp) :
    A.binding O idx data tsamp widths pmin pmax bmin bmax ≠ .error .undefinedBehaviour ∧
    ∀ per fb snr, A.binding O idx data tsamp widths pmin pmax bmin bmax = .ok (per, fb, snr) →
      A.length ⟨data.length, tsamp, pmin, pmax, bmin, bmax⟩ = .ok per.length ∧
      fb.length = per.length ∧ snr.length = per.length ∧ ∀ row ∈ snr, row.length = widths.length := by
  by_cases hv : A.Valid ⟨data.length, tsamp, pmin, pmax, bmin, bmax⟩
  · have hr : InRange A ⟨data.length, tsamp, pmin, pmax, bmin, bmax⟩ := ⟨hv, hsize, hbins, hpmax⟩
    obtain ⟨h1, h2⟩ := d_binding hA O idx data tsamp widths hne pmin pmax bmin bmax _ rfl hr hidx.ok
    by_cases hf : ∀ i < numDsN A ⟨data.length, tsamp, pmin, pmax, bmin, bmax⟩,
        A.f ⟨data.length, tsamp, pmin, pmax, bmin, bmax⟩ i = 1 ∨
          A.f ⟨data.length, tsamp, pmin, pmax, bmin, bmax⟩ i ≤ (data.length : ℚ)
    · rw [h2 hf]
      refine ⟨(by intro h; exact nomatch h), ?_⟩
      intro per fb snr h
      simp only [Except.ok.injEq, Prod.mk.injEq] at h
      obtain ⟨rfl, rfl, rfl⟩ := h
      refine ⟨by rw [d_length_ok hA hr, List.length_map], by simp, by simp, ?_⟩
      intro row hrow
      rw [List.mem_map] at hrow
      obtain ⟨t, _, rfl⟩ := hrow
      simp
    · push Not at hf
      obtain ⟨i, hi, h3, h4⟩ := hf
      rw [h1 ⟨i, hi, by
        rintro (h | h)
        · exact h3 h
        · exact absurd h (not_le.mpr h4)⟩]
      exact ⟨fun h => (by simp at h), fun _ _ _ h => nomatch h⟩
  · have e : A.binding O idx data tsamp widths pmin pmax bmin bmax = .error .valueError := by
      unfold DArith.binding DArith.length
      simp only [if_pos hv, Except.bind]
    rw [e]
    exact ⟨fun h => (by simp at h), fun _ _ _ h => nomatch h⟩

/-- Double precision with round to nearest satisfies the assumptions, with any accurate logarithm. -/
theorem C75_ieee_sane : (∃ log : ℚ → ℚ, ∀ x : ℚ, 1 ≤ x → |(log x : ℝ) - Real.log x| ≤ Real.log x / 2 ^ 40) ∧
    ∀ (log : ℚ → ℚ) (fused : Bool), (∀ x : ℚ, 1 ≤ x → |(log x : ℝ) - Real.log x| ≤ Real.log x / 2 ^ 40) →
      Sane (ieeeDouble log (fun x k => rn 53 (x ^ k)) fused) :=
  ⟨⟨someLog, fun x => Classical.choose_spec (exists_log x)⟩, fun log fused h => sane_ieee log h fused⟩

/-- A concrete search meets the hypotheses. -/
example : Sane (ieeeDouble someLog (fun x k => rn 53 (x ^ k)) true) ∧ [1, 2] ≠ ([] : List ℕ) ∧
    IdxFor float32IdxFma ((List.replicate 1000 (0 : ℚ)).length / 8) ∧
    (List.replicate 1000 (0 : ℚ)).length ≤ 2 ^ 50 ∧ (10 : ℕ) ≤ 2 ^ 50 ∧ (20 : ℚ) ≤ 2 ^ 62 * (1 / 10) := by
  refine ⟨sane_some true, by simp, Or.inr ⟨Or.inr rfl, ?_⟩, ?_, by norm_num, by norm_num⟩ <;>
    simp only [List.length_replicate] <;> norm_num

theorem toSize_err {q : ℚ} {e : CallErr} (h : toSize q = .error e) : e = .undefinedBehaviour := by
  unfold toSize at h
  split_ifs at h
  injection h with h
  exact h.symm

/-- The bound on the maximum period cannot be dropped: with `period_max` of 2^66 samples the conversion of
`period_max_samples` to `size_t` (periodogram.hpp 97) is undefined behaviour, for every amount of data. -/
theorem C75_needs_bound (A : DArith) (hA : Sane A) {V : Type*} [Inhabited V] (O : VOps V) (idx : IdxRule) (data : List V)
    (widths : List ℕ) : A.binding O idx data 1 widths 2 (2 ^ 66) 2 3 = .error .undefinedBehaviour := by
  have e2 : A.fl ((2 : ℕ) : ℚ) = 2 := by rw [hA.nat 2 (by norm_num)]; norm_num
  have e2' : A.fl 2 = 2 := by have := e2; norm_num at this; exact this
  have e3 : A.fl ((3 : ℕ) : ℚ) = 3 := by rw [hA.nat 3 (by norm_num)]; norm_num
  have e4 : A.fl 4 = 4 := by have := hA.nat 4 (by norm_num); norm_num at this; exact this
  have hu : (0 : ℚ) < u53 := u53_pos
  set a : DArgs := ⟨data.length, 1, 2, 2 ^ 66, 2, 3⟩ with ha
  have hv : A.Valid a := by
    refine ⟨by norm_num [ha], by norm_num [ha], by norm_num [ha], by norm_num [ha], by norm_num [ha], ?_⟩
    simp only [ha]
    rw [e2, one_mul, e2']
  have hini : A.dsIni a = 1 := by
    unfold DArith.dsIni
    simp only [ha]
    rw [e2, one_mul, e2', div_self (by norm_num), Dbl.fl_one hA]
  have hgeo : A.dsGeo a = 2 := by
    unfold DArith.dsGeo
    simp only [ha]
    rw [e2, e3, show (3 : ℚ) + 1 = 4 by norm_num, e4, show (4 : ℚ) / 2 = 2 by norm_num, e2']
  -- the first stage fails
  have hp1 := hA.powOne 2 0 (by norm_num)
  have hp2 := (abs_le.mp (hA.powRel 2 0 (by norm_num))).2
  have hf : 1 ≤ A.f a 0 ∧ A.f a 0 ≤ 5 / 4 := by
    unfold DArith.f
    rw [hini, hgeo, one_mul]
    constructor
    · have := Dbl.fl_ge_nat hA (x := A.pow 2 0) (n := 1) (by norm_num) (by simpa using hp1)
      simpa using this
    · have h1 := Dbl.fl_le hA (x := A.pow 2 0) (by linarith)
      have h2 : A.pow 2 0 ≤ 1 + 2 * u53 := by simp at hp2; linarith
      have h3 : (1 + u53) * A.pow 2 0 ≤ (1 + u53) * (1 + 2 * u53) := mul_le_mul_of_nonneg_left h2 (by linarith)
      have h4 : (1 + u53) * (1 + 2 * u53) ≤ 5 / 4 := by norm_num [u53]
      linarith
  have htau : 0 < A.tau a 0 ∧ A.tau a 0 ≤ 3 / 2 := by
    unfold DArith.tau
    simp only [ha, mul_one]
    rw [← ha]
    refine ⟨Dbl.fl_pos hA (by linarith), ?_⟩
    have h1 := Dbl.fl_le hA (x := A.f a 0) (by linarith)
    have h3 : (1 + u53) * A.f a 0 ≤ (1 + u53) * (5 / 4) := mul_le_mul_of_nonneg_left hf.2 (by linarith)
    have h4 : (1 + u53) * (5 / 4) ≤ 3 / 2 := by norm_num [u53]
    linarith
  have hpms : (2 : ℚ) ^ 64 ≤ A.pmaxSamples a 0 := by
    unfold DArith.pmaxSamples
    have h1 : (2 : ℚ) ^ 65 ≤ a.pmax / A.tau a 0 := by
      rw [le_div_iff₀ htau.1]
      have : (2 : ℚ) ^ 65 * A.tau a 0 ≤ 2 ^ 65 * (3 / 2) := mul_le_mul_of_nonneg_left htau.2 (by norm_num)
      have h2 : (2 : ℚ) ^ 65 * (3 / 2) ≤ 2 ^ 66 := by norm_num
      exact this.trans h2
    have h2 := Dbl.fl_ge hA (x := a.pmax / A.tau a 0) (by
      have : (0 : ℚ) ≤ 2 ^ 65 := by norm_num
      linarith)
    have h3 : (1 - u53) * 2 ^ 65 ≤ (1 - u53) * (a.pmax / A.tau a 0) :=
      mul_le_mul_of_nonneg_left h1 (by norm_num [u53])
    have h4 : (2 : ℚ) ^ 64 ≤ (1 - u53) * 2 ^ 65 := by norm_num [u53]
    linarith
  have hstage : ∀ l, A.lengthStage a 0 l = .error .undefinedBehaviour := by
    intro l
    unfold DArith.lengthStage
    cases hn : A.n a 0 with
    | error e =>
      have := toSize_err hn
      subst this
      rfl
    | ok n =>
      simp only [Except.bind]
      unfold DArith.bstop toSize
      rw [if_neg (by push Not; intro _; exact hpms)]
      rfl
  have hnd : A.numDs a = .error .undefinedBehaviour ∨ ∃ n, A.numDs a = .ok (n + 1) := by
    cases h : A.numDs a with
    | error e => left; rw [toSize_err h]
    | ok n =>
      right
      suffices h0 : n ≠ 0 by exact ⟨n - 1, by rw [Nat.sub_add_cancel (by omega)]⟩
      rintro rfl
      unfold DArith.numDs at h
      rw [hgeo] at h
      have hx : 2 ≤ A.fl (a.pmax / a.pmin) := by
        have := Dbl.fl_ge_nat hA (x := a.pmax / a.pmin) (n := 2) (by norm_num) (by norm_num [ha])
        simpa using this
      have hlog : ∀ x : ℚ, 2 ≤ x → 0 < A.log x := by
        intro x hx
        have h1 := (abs_le.mp (hA.logRel x (by linarith))).1
        have hxr : (1 : ℝ) < x := by
          have : (2 : ℝ) ≤ x := by exact_mod_cast hx
          linarith
        have h2 := Real.log_pos hxr
        have h3 : Real.log x / 2 ^ 40 ≤ Real.log x / 2 := by
          apply div_le_div_of_nonneg_left h2.le (by norm_num) (by norm_num)
        have : (0 : ℝ) < A.log x := by linarith
        exact_mod_cast this
      have hpos : 0 < A.fl (A.log (A.fl (a.pmax / a.pmin)) / A.log 2) :=
        Dbl.fl_pos hA (div_pos (hlog _ hx) (hlog _ le_rfl))
      have hc := Int.ceil_pos.mpr hpos
      unfold toSize at h
      split_ifs at h
      injection h with h
      have hc' : (1 : ℚ) ≤ ⌈A.fl (A.log (A.fl (a.pmax / a.pmin)) / A.log 2)⌉ := by exact_mod_cast hc
      generalize ((⌈A.fl (A.log (A.fl (a.pmax / a.pmin)) / A.log 2)⌉ : ℤ) : ℚ) = z at *
      have := (Nat.le_floor_iff (by linarith)).mpr (by rw [Nat.cast_one]; exact hc' : ((1 : ℕ) : ℚ) ≤ z)
      omega
  have hlen : A.length a = .error .undefinedBehaviour := by
    unfold DArith.length
    rw [if_neg (not_not.mpr hv)]
    rcases hnd with h | ⟨n, h⟩
    · rw [h]; rfl
    · rw [h]
      simp only [Except.bind]
      exact forE_error (fun _ _ => True) _ (n + 1) 0 (by omega) _ _ trivial (fun i hi => absurd hi (by omega))
        (fun st _ => hstage st)
  unfold DArith.binding
  simp only
  rw [hlen]
  rfl

example : ∃ A : DArith, Sane A := ⟨_, sane_some true⟩

theorem d_c32 : 1 - (1 : ℚ) / 2 ^ 48 ≤ (1 - u53) ^ 32 := by norm_num [u53]

/-- C76, what holds: in double precision no trial period is smaller than an earlier one by more than one part in 2^48, and
all lie in the requested range up to one part in 2^48. Missing: that the trial periods increase (false, see `C76_false`). -/
theorem C76_double_periods_partial (A : DArith) (hA : Sane A) {V : Type*} [Inhabited V] (O : VOps V) (idx : IdxRule)
    (data : List V) (tsamp : ℚ) (widths : List ℕ) (hne : widths ≠ []) (pmin pmax : ℚ) (bmin bmax : ℕ)
    (hidx : IdxFor idx (data.length / bmin)) (hsize : data.length ≤ 2 ^ 50) (hbins : bmax ≤ 2 ^ 50)
    (hpmax : pmax ≤ 2 ^ 62 * tsamp) (per : List ℚ) (fb : List ℕ) (snr : List (List V))
    (h : A.binding O idx data tsamp widths pmin pmax bmin bmax = .ok (per, fb, snr)) :
    per.Pairwise (fun p q => p * (1 - 1 / 2 ^ 48) ≤ q) ∧
      ∀ p ∈ per, pmin * (1 - 1 / 2 ^ 48) ≤ p ∧ p * (1 - 1 / 2 ^ 48) ≤ pmax := by
  set a : DArgs := ⟨data.length, tsamp, pmin, pmax, bmin, bmax⟩ with ha
  have hv : A.Valid a := by
    by_contra hv
    have e : A.binding O idx data tsamp widths pmin pmax bmin bmax = .error .valueError := by
      unfold DArith.binding DArith.length
      simp only [← ha, if_pos hv, Except.bind]
    rw [e] at h
    exact nomatch h
  have hr : InRange A a := ⟨hv, hsize, hbins, hpmax⟩
  obtain ⟨h1, h2⟩ := d_binding hA O idx data tsamp widths hne pmin pmax bmin bmax a ha hr hidx.ok
  have hper : per = (dTrials A a).map (dPer A a) := by
    by_cases hf : ∀ i < numDsN A a, A.f a i = 1 ∨ A.f a i ≤ a.size
    · rw [h2 hf] at h
      simp only [Except.ok.injEq, Prod.mk.injEq] at h
      exact h.1.symm
    · push Not at hf
      obtain ⟨i, hi, h3, h4⟩ := hf
      rw [h1 ⟨i, hi, by
        rintro (h | h)
        · exact h3 h
        · exact absurd h (not_le.mpr h4)⟩] at h
      exact nomatch h
  subst hper
  have hbm := hr.valid.2.2.2.1
  have c5 := c_pos 5
  have h32 := d_c32
  have hpos : ∀ t ∈ dTrials A a, 0 ≤ dPer A a t := by
    rintro ⟨i, b, s⟩ ht
    obtain ⟨_, hb1, hb2, hs⟩ := mem_dTrials.mp ht
    have := d_label_ge hA hr hb1 hb2 hs
    have ht := d_tau_pos hA hr i
    exact le_trans (by positivity) this
  -- later trials
  have hfold : ∀ i b b' s s', a.bmin ≤ b → b < b' → b ≤ bstopN A a i → b' ≤ bstopN A a i → s < rowsEvalN A a i b →
      s' < rowsEvalN A a i b' → dPer A a (i, b, s) * (1 - u53) ^ 32 ≤ dPer A a (i, b', s') := by
    intro i b b' s s' hb1 hbb hb2 hb3 hs hs'
    have u := d_label_le hA hr hb1 hb2 hs
    have l := d_label_ge hA hr (by omega : a.bmin ≤ b') hb3 hs'
    have ht := d_tau_pos hA hr i
    have hpc : A.periodCeil a i b ≤ b' := by
      have e4 : A.fl ((b : ℚ) + 1) = b + 1 := by
        have hbb : b ≤ 2 ^ 50 := hb2.trans ((min_le_left _ _).trans ((min_le_left _ _).trans hr.bins))
        have := hA.nat (b + 1) (by omega)
        push_cast at this
        exact this
      unfold DArith.periodCeil
      have hb50 : b ≤ 2 ^ 50 := hb2.trans ((min_le_left _ _).trans ((min_le_left _ _).trans hr.bins))
      rw [hA.nat b (by omega), e4]
      refine (min_le_right _ _).trans ?_
      exact_mod_cast hbb
    calc dPer A a (i, b, s) * (1 - u53) ^ 32
        ≤ dPer A a (i, b, s) * (1 - u53) ^ 16 :=
          mul_le_mul_of_nonneg_left (c_anti (by norm_num)) (le_trans (by positivity) (d_label_ge hA hr hb1 hb2 hs))
      _ = dPer A a (i, b, s) * (1 - u53) ^ 11 * (1 - u53) ^ 5 := by ring
      _ ≤ A.tau a i * A.periodCeil a i b * (1 - u53) ^ 5 := mul_le_mul_of_nonneg_right u c5.le
      _ ≤ A.tau a i * b' * (1 - u53) ^ 5 := by
          apply mul_le_mul_of_nonneg_right _ c5.le
          exact mul_le_mul_of_nonneg_left hpc ht.le
      _ ≤ _ := l
  have hstage : ∀ i i' b b' s s', i < i' → a.bmin ≤ b → b ≤ bstopN A a i → a.bmin ≤ b' → b' ≤ bstopN A a i' →
      s < rowsEvalN A a i b → s' < rowsEvalN A a i' b' →
      dPer A a (i, b, s) * (1 - u53) ^ 32 ≤ dPer A a (i', b', s') := by
    intro i i' b b' s s' hii hb1 hb2 hb3 hb4 hs hs'
    have u := d_label_le hA hr hb1 hb2 hs
    have l := d_label_ge hA hr hb3 hb4 hs'
    have ht := d_tau_pos hA hr i
    have ht' := d_tau_pos hA hr i'
    have hstep := d_tau_step hA hr hii
    have hbb : b ≤ a.bmax := hb2.trans ((min_le_left _ _).trans (min_le_left _ _))
    have hbx := hr.bins
    have hpc : A.periodCeil a i b ≤ a.bmax + 1 := by
      have e4 : A.fl ((b : ℚ) + 1) = b + 1 := by
        have := hA.nat (b + 1) (by omega)
        push_cast at this
        exact this
      unfold DArith.periodCeil
      rw [hA.nat b (by omega), e4]
      refine (min_le_right _ _).trans ?_
      have : (b : ℚ) ≤ a.bmax := by exact_mod_cast hbb
      linarith
    calc dPer A a (i, b, s) * (1 - u53) ^ 32
        ≤ dPer A a (i, b, s) * (1 - u53) ^ 27 :=
          mul_le_mul_of_nonneg_left (c_anti (by norm_num)) (le_trans (by positivity) (d_label_ge hA hr hb1 hb2 hs))
      _ = dPer A a (i, b, s) * (1 - u53) ^ 11 * ((1 - u53) ^ 11 * (1 - u53) ^ 5) := by ring
      _ ≤ A.tau a i * A.periodCeil a i b * ((1 - u53) ^ 11 * (1 - u53) ^ 5) :=
          mul_le_mul_of_nonneg_right u (mul_pos (c_pos 11) c5).le
      _ ≤ A.tau a i * (a.bmax + 1) * ((1 - u53) ^ 11 * (1 - u53) ^ 5) := by
          apply mul_le_mul_of_nonneg_right _ (mul_pos (c_pos 11) c5).le
          exact mul_le_mul_of_nonneg_left hpc ht.le
      _ = A.tau a i * (a.bmax + 1) * (1 - u53) ^ 11 * (1 - u53) ^ 5 := by ring
      _ ≤ A.tau a i' * a.bmin * (1 - u53) ^ 5 := mul_le_mul_of_nonneg_right hstep c5.le
      _ ≤ A.tau a i' * b' * (1 - u53) ^ 5 := by
          apply mul_le_mul_of_nonneg_right _ c5.le
          apply mul_le_mul_of_nonneg_left _ ht'.le
          exact_mod_cast hb3
      _ ≤ _ := l
  constructor
  · rw [List.pairwise_map]
    have hweak : (dTrials A a).Pairwise (fun t t' => dPer A a t * (1 - u53) ^ 32 ≤ dPer A a t') := by
      unfold dTrials dPrefix
      rw [List.pairwise_flatMap]
      constructor
      · intro i hi
        unfold dStage dStagePrefix
        rw [List.pairwise_flatMap]
        constructor
        · intro j hj
          rw [List.mem_range] at hj
          unfold dFold
          rw [List.pairwise_map]
          refine List.Pairwise.imp_of_mem ?_ List.pairwise_lt_range
          intro s t hs ht hst
          rw [List.mem_range] at hs ht
          have h3 := d_label_mono hA hr (by omega : a.bmin ≤ a.bmin + j) (by omega) ht hst.le
          have h4 := d_label_ge hA hr (by omega : a.bmin ≤ a.bmin + j) (by omega : a.bmin + j ≤ bstopN A a i) hs
          have ht := d_tau_pos hA hr i
          refine le_trans (mul_le_of_le_one_right (le_trans (by positivity) h4) (c_le_one 32)) h3
        · refine List.Pairwise.imp_of_mem ?_ List.pairwise_lt_range
          intro j j' hj hj' hjj x hx y hy
          rw [List.mem_range] at hj hj'
          simp only [dFold, List.mem_map, List.mem_range] at hx hy
          obtain ⟨s, hs, rfl⟩ := hx
          obtain ⟨s', hs', rfl⟩ := hy
          exact hfold i _ _ s s' (by omega) (by omega) (by omega) (by omega) hs hs'
      · refine List.Pairwise.imp_of_mem ?_ List.pairwise_lt_range
        intro i i' hi hi' hii x hx y hy
        simp only [dStage, dStagePrefix, dFold, List.mem_flatMap, List.mem_map, List.mem_range] at hx hy
        obtain ⟨j, hj, s, hs, rfl⟩ := hx
        obtain ⟨j', hj', s', hs', rfl⟩ := hy
        exact hstage i i' _ _ s s' hii (by omega) (by omega) (by omega) (by omega) hs hs'
    refine List.Pairwise.imp_of_mem ?_ hweak
    intro t t' ht ht' h
    exact le_trans (mul_le_mul_of_nonneg_left h32 (hpos t ht)) h
  · intro p hp
    obtain ⟨⟨i, b, s⟩, ht, rfl⟩ := List.mem_map.mp hp
    have hp0 := hpos _ ht
    obtain ⟨_, hb1, hb2, hs⟩ := mem_dTrials.mp ht
    have u := d_label_le hA hr hb1 hb2 hs
    have l := d_label_ge hA hr hb1 hb2 hs
    have htau := d_tau_pos hA hr i
    have hpm : 0 < a.pmin := hr.valid.2.1
    constructor
    · have h3 := d_tau_pmin hA hr i
      have hbq : (a.bmin : ℚ) ≤ b := by exact_mod_cast hb1
      calc pmin * (1 - 1 / 2 ^ 48) ≤ a.pmin * (1 - u53) ^ 32 := mul_le_mul_of_nonneg_left h32 hpm.le
        _ ≤ a.pmin * (1 - u53) ^ 8 := mul_le_mul_of_nonneg_left (c_anti (by norm_num)) hpm.le
        _ = a.pmin * (1 - u53) ^ 3 * (1 - u53) ^ 5 := by ring
        _ ≤ A.tau a i * a.bmin * (1 - u53) ^ 5 := mul_le_mul_of_nonneg_right h3 c5.le
        _ ≤ A.tau a i * b * (1 - u53) ^ 5 :=
            mul_le_mul_of_nonneg_right (mul_le_mul_of_nonneg_left hbq htau.le) c5.le
        _ ≤ _ := l
    · have hpx : 0 < a.pmax := hpm.trans hr.valid.2.2.1
      have hn := (near_fl hA (x := a.pmax / A.tau a i) (by positivity)).2
      calc dPer A a (i, b, s) * (1 - 1 / 2 ^ 48) ≤ dPer A a (i, b, s) * (1 - u53) ^ 32 :=
            mul_le_mul_of_nonneg_left h32 hp0
        _ ≤ dPer A a (i, b, s) * (1 - u53) ^ 12 := mul_le_mul_of_nonneg_left (c_anti (by norm_num)) hp0
        _ = dPer A a (i, b, s) * (1 - u53) ^ 11 * (1 - u53) ^ 1 := by ring
        _ ≤ A.tau a i * A.periodCeil a i b * (1 - u53) ^ 1 := mul_le_mul_of_nonneg_right u (c_pos 1).le
        _ ≤ A.tau a i * A.pmaxSamples a i * (1 - u53) ^ 1 := by
            apply mul_le_mul_of_nonneg_right _ (c_pos 1).le
            exact mul_le_mul_of_nonneg_left (min_le_left _ _) htau.le
        _ = A.tau a i * (A.pmaxSamples a i * (1 - u53) ^ 1) := by ring
        _ ≤ A.tau a i * (a.pmax / A.tau a i) := mul_le_mul_of_nonneg_left hn htau.le
        _ = pmax := by rw [mul_div_cancel₀ _ htau.ne']

/-! ## Trial periods can decrease -/

/-- Arguments of the witness: 48 samples, `tsamp = 0.9`, periods from `6 * 0.9` to `7.75 * 0.9`, 6 to 7 bins. -/
def witness76 : DArgs :=
  ⟨48, 8106479329266893 / 9007199254740992, 3039929748475085 / 562949953421312, 7853151850227303 / 1125899906842624, 6, 7⟩

/-- The arithmetic of the witness without the logarithm. -/
def arith76 (fused : Bool) : DArith := ieeeDouble (fun _ => 0) (fun x k => rn 53 (x ^ k)) fused

theorem w76_stage : ∀ fused, ((dStage (arith76 fused) witness76 0).map (dPer (arith76 fused) witness76)).length = 11 ∧
    ((dStage (arith76 fused) witness76 0).map (dPer (arith76 fused) witness76))[6]? =
      some (7093169413108532 / 1125899906842624) ∧
    ((dStage (arith76 fused) witness76 0).map (dPer (arith76 fused) witness76))[7]? =
      some (7093169413108531 / 1125899906842624) := by
  decide +kernel

theorem w76_f : ∀ fused, (arith76 fused).Valid witness76 ∧ (arith76 fused).f witness76 0 = 1 ∧
    (arith76 fused).fl (witness76.pmax / witness76.pmin) = 5817149518686891 / 4503599627370496 ∧
    (arith76 fused).dsGeo witness76 = 6004799503160661 / 4503599627370496 := by
  decide +kernel

/-- The search of the witness has one stage. -/
theorem w76_numDs (log : ℚ → ℚ) (hlog : ∀ x : ℚ, 1 ≤ x → |(log x : ℝ) - Real.log x| ≤ Real.log x / 2 ^ 40) (fused : Bool) :
    numDsN (ieeeDouble log (fun x k => rn 53 (x ^ k)) fused) witness76 = 1 := by
  have hA := sane_ieee log hlog fused
  obtain ⟨_, _, e1, e2⟩ := w76_f fused
  have e1' : (ieeeDouble log (fun x k => rn 53 (x ^ k)) fused).fl (witness76.pmax / witness76.pmin) =
    5817149518686891 / 4503599627370496 := e1
  have e2' : (ieeeDouble log (fun x k => rn 53 (x ^ k)) fused).dsGeo witness76 =
    6004799503160661 / 4503599627370496 := e2
  unfold numDsN
  rw [e1', e2']
  show ⌈(ieeeDouble log (fun x k => rn 53 (x ^ k)) fused).fl (log _ / log _)⌉.toNat = 1
  have hx := abs_le.mp (hlog (5817149518686891 / 4503599627370496) (by norm_num))
  have hg := abs_le.mp (hlog (6004799503160661 / 4503599627370496) (by norm_num))
  have hlx : 0 < Real.log ((5817149518686891 / 4503599627370496 : ℚ) : ℝ) := Real.log_pos (by norm_num)
  have hcmp : 20 * Real.log ((5817149518686891 / 4503599627370496 : ℚ) : ℝ) ≤
      19 * Real.log ((6004799503160661 / 4503599627370496 : ℚ) : ℝ) := by
    have := Real.log_le_log (x := ((5817149518686891 / 4503599627370496 : ℚ) : ℝ) ^ 20)
      (y := ((6004799503160661 / 4503599627370496 : ℚ) : ℝ) ^ 19) (by norm_num) (by norm_num)
    rw [Real.log_pow, Real.log_pow] at this
    exact_mod_cast this
  generalize Real.log ((5817149518686891 / 4503599627370496 : ℚ) : ℝ) = lx at *
  generalize Real.log ((6004799503160661 / 4503599627370496 : ℚ) : ℝ) = lg at *
  have h1 : (0 : ℝ) < (log (5817149518686891 / 4503599627370496) : ℝ) := by
    have : lx / 2 ^ 40 ≤ lx / 2 := div_le_div_of_nonneg_left hlx.le (by norm_num) (by norm_num)
    linarith [hx.1]
  have h2 : (log (5817149518686891 / 4503599627370496) : ℝ) ≤ (log (6004799503160661 / 4503599627370496) : ℝ) := by
    have h3 : lx / 2 ^ 40 ≤ lx / 100 := div_le_div_of_nonneg_left hlx.le (by norm_num) (by norm_num)
    have h4 : lg / 2 ^ 40 ≤ lg / 100 := div_le_div_of_nonneg_left (by linarith) (by norm_num) (by norm_num)
    linarith [hx.2, hg.1]
  have h1' : 0 < log (5817149518686891 / 4503599627370496) := by exact_mod_cast h1
  have h2' : log (5817149518686891 / 4503599627370496) ≤ log (6004799503160661 / 4503599627370496) := by
    exact_mod_cast h2
  have hg0 := h1'.trans_le h2'
  have p1 := Dbl.fl_pos hA (div_pos h1' hg0)
  have p2 := Dbl.fl_le_nat hA (n := 1) (by norm_num) (div_pos h1' hg0).le (by
    rw [Nat.cast_one, div_le_one hg0]; exact h2')
  generalize (ieeeDouble log (fun x k => rn 53 (x ^ k)) fused).fl
    (log (5817149518686891 / 4503599627370496) / log (6004799503160661 / 4503599627370496)) = w at *
  have c1 : 0 < ⌈w⌉ := Int.ceil_pos.mpr p1
  have c2 : ⌈w⌉ ≤ 1 := Int.ceil_le.mpr (by rw [Int.cast_one]; rw [Nat.cast_one] at p2; exact p2)
  omega

/-- C76 is false as stated: with IEEE double precision arithmetic and any accurate logarithm there is a search, of any 48
samples, whose seventh and eighth trial periods decrease. -/
theorem C76_false (log : ℚ → ℚ) (hlog : ∀ x : ℚ, 1 ≤ x → |(log x : ℝ) - Real.log x| ≤ Real.log x / 2 ^ 40) (fused : Bool)
    {V : Type*} [Inhabited V] (O : VOps V) (idx : IdxRule) (hidx : IdxFor idx 8) (data : List V) (hdata : data.length = 48)
    (widths : List ℕ) (hne : widths ≠ []) :
    ∃ per fb snr, (ieeeDouble log (fun x k => rn 53 (x ^ k)) fused).binding O idx data
        (8106479329266893 / 9007199254740992) widths (3039929748475085 / 562949953421312)
        (7853151850227303 / 1125899906842624) 6 7 = .ok (per, fb, snr) ∧
      per.length = 11 ∧ per[6]? = some (7093169413108532 / 1125899906842624) ∧
      per[7]? = some (7093169413108531 / 1125899906842624) ∧ ¬ per.Pairwise (· ≤ ·) := by
  set A := ieeeDouble log (fun x k => rn 53 (x ^ k)) fused with hAdef
  have hA : Sane A := sane_ieee log hlog fused
  obtain ⟨hv0, hf0, _, _⟩ := w76_f fused
  have hv : A.Valid witness76 := hv0
  have hf : A.f witness76 0 = 1 := hf0
  have hr : InRange A witness76 := ⟨hv, by norm_num [witness76], by norm_num [witness76], by norm_num [witness76]⟩
  have hnd : numDsN A witness76 = 1 := w76_numDs log hlog fused
  obtain ⟨_, h2⟩ := d_binding hA O idx data (8106479329266893 / 9007199254740992) widths hne
    (3039929748475085 / 562949953421312) (7853151850227303 / 1125899906842624) 6 7 witness76
    (by rw [hdata]; rfl) hr (by rw [hdata]; exact hidx.ok)
  have e := h2 (by
    intro i hi
    rw [hnd] at hi
    have : i = 0 := by omega
    subst this
    exact Or.inl hf)
  obtain ⟨w1, w2, w3⟩ := w76_stage fused
  have ht : (dTrials A witness76).map (dPer A witness76) =
      (dStage (arith76 fused) witness76 0).map (dPer (arith76 fused) witness76) := by
    unfold dTrials
    rw [hnd]
    simp only [dPrefix, List.range_one, List.flatMap_singleton]
    rfl
  rw [ht] at e
  refine ⟨_, _, _, e, w1, w2, w3, ?_⟩
  intro hp
  rw [List.pairwise_iff_getElem] at hp
  have := hp 6 7 (by rw [w1]; norm_num) (by rw [w1]; norm_num) (by norm_num)
  rw [List.getElem?_eq_some_iff] at w2 w3
  obtain ⟨_, w2⟩ := w2
  obtain ⟨_, w3⟩ := w3
  rw [w2, w3] at this
  norm_num at this

example : ∃ (log : ℚ → ℚ), (∀ x : ℚ, 1 ≤ x → |(log x : ℝ) - Real.log x| ≤ Real.log x / 2 ^ 40) ∧ IdxFor float32Idx 8 :=
  ⟨someLog, fun x => Classical.choose_spec (exists_log x), Or.inr ⟨Or.inl rfl, by norm_num⟩⟩

/-- The search of the witness meets the hypotheses of the part that holds. -/
example : ∃ A : DArith, Sane A ∧ ∃ per fb snr, A.binding (⟨fun x y => x + y, fun w x => w * x, fun y w x => y + w * x, fun _ _ _ _ _ _ _ => 0⟩ : VOps ℚ)
    exactIdx (List.replicate 48 1) (8106479329266893 / 9007199254740992) [1]
    (3039929748475085 / 562949953421312) (7853151850227303 / 1125899906842624) 6 7 = .ok (per, fb, snr) := by
  refine ⟨_, sane_some true, ?_⟩
  obtain ⟨per, fb, snr, e, _⟩ := C76_false someLog (fun x => Classical.choose_spec (exists_log x)) true
    (⟨fun x y => x + y, fun w x => w * x, fun y w x => y + w * x, fun _ _ _ _ _ _ _ => 0⟩ : VOps ℚ) exactIdx (Or.inl rfl) (List.replicate 48 1)
    (by simp) [1] (by simp)
  exact ⟨per, fb, snr, e⟩

end Verif.Props
