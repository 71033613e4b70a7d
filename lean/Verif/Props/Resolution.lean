import Verif.Props.Worker

/-!
# C81: spacing of the trial frequencies; `find_peaks` succeeds on the output of a search
-/

namespace Verif.Props

open Verif.Model Verif.Spec Verif.Lemmas

/-- One step of a trial is less than `3 / (bmin T)`. -/
theorem step_lt {t : Trial} {N : ℕ} {tsamp pmin : ℝ} {bmin bmax : ℕ} (hok : t.OK N tsamp pmin bmin bmax) (hts : 0 < tsamp)
    (hf : 0 < t.f) (hb : 2 ≤ bmin) (hN : 0 < N) : t.step tsamp < 3 / (bmin * (N * tsamp)) := by
  obtain ⟨_, ⟨hb1, _⟩, hrows, htwo, _⟩ := hok
  have hbpos : 0 < t.b := by omega
  have hlt : ⌊(N : ℝ) / t.f⌋₊ < (t.m + 1) * t.b := by
    rw [hrows]
    have := Nat.lt_div_mul_add hbpos (a := ⌊(N : ℝ) / t.f⌋₊)
    rw [Nat.add_mul, one_mul]
    exact this
  have hN' : (N : ℝ) < (t.m + 1) * t.b * t.f := by
    have h1 : (N : ℝ) / t.f < ((t.m + 1) * t.b : ℕ) := (Nat.floor_lt' (by positivity)).mp hlt
    rw [div_lt_iff₀ hf] at h1
    push_cast at h1
    exact h1
  have hm : (2 : ℝ) ≤ t.m := by exact_mod_cast htwo
  have hbb : (bmin : ℝ) ≤ t.b := by exact_mod_cast hb1
  have hbm : (0 : ℝ) < bmin := by exact_mod_cast (by omega : 0 < bmin)
  have hb0 : (0 : ℝ) < t.b := by exact_mod_cast hbpos
  have hN0 : (0 : ℝ) < N := by exact_mod_cast hN
  unfold Trial.step
  have hd : 0 < t.f * tsamp * t.b ^ 2 * ((t.m : ℝ) - 1) := by
    have : (0 : ℝ) < (t.m : ℝ) - 1 := by linarith
    positivity
  rw [div_lt_div_iff₀ hd (by positivity), one_mul]
  -- bmin N tsamp < 3 f tsamp b² (m - 1)
  have h1 : (bmin : ℝ) * (N * tsamp) ≤ t.b * (N * tsamp) := mul_le_mul_of_nonneg_right hbb (by positivity)
  have h2 : t.b * (N * tsamp) < t.b * ((t.m + 1) * t.b * t.f * tsamp) := by
    apply mul_lt_mul_of_pos_left _ hb0
    exact mul_lt_mul_of_pos_right hN' hts
  have h3 : t.b * ((t.m + 1) * t.b * t.f * tsamp) ≤ 3 * (t.f * tsamp * t.b ^ 2 * ((t.m : ℝ) - 1)) := by
    have hc : 0 < t.f * tsamp * t.b ^ 2 := by positivity
    nlinarith
  linarith

/-- Between neighbours of a sorted list of positive numbers that is dense to within `B` in frequency. -/
theorem gap_le {per : List ℝ} {B : ℝ} (hs : per.Pairwise (· < ·)) (hpos : ∀ p ∈ per, 0 < p)
    (hcov : ∀ P, (∃ p ∈ per, p ≤ P) → (∃ p ∈ per, P < p) → ∃ p ∈ per, p ≤ P ∧ 1 / p - 1 / P < B) (j : ℕ)
    (h : j + 1 < per.length) : 1 / per[j] - 1 / per[j + 1] ≤ B := by
  by_contra hc
  rw [not_le] at hc
  have hj := hpos per[j] (List.getElem_mem _)
  have hj1 := hpos per[j + 1] (List.getElem_mem _)
  have hlt : per[j] < per[j + 1] := (List.pairwise_iff_getElem.mp hs) j (j + 1) (by omega) h (by omega)
  have hf : 1 / per[j + 1] < 1 / per[j] := one_div_lt_one_div_of_lt hj hlt
  have hf1 : 0 < 1 / per[j + 1] := by positivity
  -- a frequency in between
  obtain ⟨F, hF1, hF2, hF3⟩ : ∃ F, 1 / per[j + 1] < F ∧ F < 1 / per[j] ∧ F ≤ 1 / per[j] - B := by
    rcases le_or_gt B 0 with hB | hB
    · exact ⟨(1 / per[j + 1] + 1 / per[j]) / 2, by linarith, by linarith, by linarith⟩
    · exact ⟨(1 / per[j + 1] + (1 / per[j] - B)) / 2, by linarith, by linarith, by linarith⟩
  have hF0 : 0 < F := hf1.trans hF1
  have hP1 : per[j] < 1 / F := (lt_one_div hj hF0).mpr hF2
  have hP2 : 1 / F < per[j + 1] := (one_div_lt hF0 hj1).mpr hF1
  obtain ⟨p, hp, hpP, hg⟩ := hcov (1 / F) ⟨_, List.getElem_mem (by omega : j < per.length), hP1.le⟩ ⟨_, List.getElem_mem h, hP2⟩
  obtain ⟨i, hi, rfl⟩ := List.getElem_of_mem hp
  have hij : i ≤ j := by
    by_contra hn
    rcases Nat.lt_or_ge (j + 1) i with h1 | h1
    · have := (List.pairwise_iff_getElem.mp hs) (j + 1) i h hi h1
      linarith
    · have : i = j + 1 := by omega
      subst this
      linarith
  have hle : per[i] ≤ per[j] := by
    rcases Nat.lt_or_ge i j with h1 | h1
    · exact ((List.pairwise_iff_getElem.mp hs) i j hi (by omega) h1).le
    · have : i = j := by omega
      subst this
      exact le_rfl
  have : 1 / per[j] ≤ 1 / per[i] := one_div_le_one_div_of_le (hpos _ (List.getElem_mem hi)) hle
  rw [one_div_one_div] at hg
  linarith

/-- C81. Frequency resolution of a search. Every period of the searched range lies within `3 / (bmin T)` in frequency of a trial at or
below it, and so do neighbouring trials of each other. -/
theorem C81_resolution (idx : IdxRule) (data : List ℝ) (tsamp : ℝ) (widths : List ℕ) (hne : widths ≠ [])
    (pmin pmax : ℝ) (bmin bmax : ℕ) (hidx : IdxFor idx (data.length / bmin))
    (hv : PgArgs.Valid ⟨data.length, tsamp, pmin, pmax, bmin, bmax⟩) (h2 : 2 * pmax ≤ data.length * tsamp) :
    ∃ (per : List ℝ) (fb : List ℕ) (snr : List (List ℝ)),
      periodogramBinding idx data tsamp widths pmin pmax bmin bmax = .ok (per, fb, snr) ∧ per.head? = some pmin ∧
      (∀ P, pmin ≤ P → P < pmax → ∃ p ∈ per, p ≤ P ∧ 1 / p - 1 / P < 3 / (bmin * (data.length * tsamp))) ∧
      (∀ j, (h : j + 1 < per.length) → 1 / per[j] - 1 / per[j + 1] ≤ 3 / (bmin * (data.length * tsamp))) := by
  obtain ⟨per, fb, snr, lab, hpg, hlab, hhead, hfr, hcov⟩ := C19_no_holes idx data tsamp widths hne pmin pmax bmin bmax hidx hv h2
  obtain ⟨_, hfb, _, _⟩ := (C17_outputs_filled_exactly idx data tsamp widths hne pmin pmax bmin bmax hidx).2 per fb snr hpg
  obtain ⟨hs, hrange, _⟩ := C18_periods_increasing idx data tsamp widths hne pmin pmax bmin bmax hidx per fb snr hpg
  obtain ⟨v1, v2, v3, v4, v5, v6⟩ := id hv
  simp only at v1 v2 v3 v4 v5 v6
  have hN : 0 < data.length := by
    rcases Nat.eq_zero_or_pos data.length with h | h
    · rw [h] at h2
      simp at h2
      linarith
    · exact h
  have hcov' : ∀ P, pmin ≤ P → P < pmax → ∃ p ∈ per, p ≤ P ∧ 1 / p - 1 / P < 3 / (bmin * (data.length * tsamp)) := by
    intro P hP1 hP2
    obtain ⟨j, hj, hj', g1, g2⟩ := hcov P hP1 hP2
    refine ⟨per[j], List.getElem_mem hj, g1, g2.trans ?_⟩
    obtain ⟨hok, _, _⟩ := hfr j hj (by omega) hj'
    obtain ⟨i, hi⟩ := hok.factor
    have hf : 0 < lab[j].f := by
      have := f_ge_one hv i
      rw [hi]
      exact lt_of_lt_of_le one_pos this
    exact step_lt hok v1 hf v4 hN
  refine ⟨per, fb, snr, hpg, hhead, hcov', ?_⟩
  intro j h
  refine gap_le hs (fun p hp => v2.trans_le (hrange p hp).1) ?_ j h
  rintro P ⟨p, hp, hpP⟩ ⟨q, hq, hqP⟩
  exact hcov' P ((hrange p hp).1.trans hpP) (hqP.trans (hrange q hq).2)

/-- The number of segments does not exceed the number of trials. -/
theorem numSegments_le {f : List ℝ} {T segwidth B f0 f1 : ℝ} (hT : 0 < T) (hB : B ≤ segwidth / T) (hw : 0 < segwidth)
    (hf : ∀ j, (h : j + 1 < f.length) → 0 ≤ f[j] - f[j + 1] ∧ f[j] - f[j + 1] ≤ B) (h0 : f.head? = some f0)
    (h1 : f.getLast? = some f1) : numSegments f0 f1 T segwidth ≤ f.length := by
  have hpos : 0 < f.length := by
    cases f with
    | nil => simp at h0
    | cons a l => simp
  have e0 : f0 = f[0] := by
    rw [List.head?_eq_getElem?, List.getElem?_eq_getElem hpos] at h0
    exact (Option.some.inj h0).symm
  have e1 : f1 = f[f.length - 1] := by
    rw [List.getLast?_eq_getElem?, List.getElem?_eq_getElem (by omega)] at h1
    exact (Option.some.inj h1).symm
  have key : ∀ k, (h : k < f.length) → (0 : ℝ) ≤ f[0] - f[k] ∧ f[0] - f[k] ≤ k * B := by
    intro k
    induction k with
    | zero => intro _; simp
    | succ k ih =>
      intro h
      obtain ⟨i1, i2⟩ := ih (by omega)
      obtain ⟨j1, j2⟩ := hf k h
      push_cast
      constructor <;> linarith
  obtain ⟨k1, k2⟩ := key (f.length - 1) (by omega)
  unfold numSegments
  rw [Nat.ceil_le, e0, e1, abs_sub_comm, abs_of_nonneg k1, div_le_iff₀ (div_pos hw hT)]
  have hcast : ((f.length - 1 : ℕ) : ℝ) ≤ f.length := by exact_mod_cast Nat.sub_le _ _
  have hsw := div_pos hw hT
  calc f[0] - f[f.length - 1] ≤ ((f.length - 1 : ℕ) : ℝ) * B := k2
    _ ≤ ((f.length - 1 : ℕ) : ℝ) * (segwidth / T) := mul_le_mul_of_nonneg_left hB (Nat.cast_nonneg _)
    _ ≤ f.length * (segwidth / T) := mul_le_mul_of_nonneg_right hcast hsw.le

/-- C81. `find_peaks` on the output of a search of data with at least two periods of `pmax`, with segments at least `3 / (bmin T)`
wide: the only way to fail is `ZeroDivisionError` if there is one trial only. -/
theorem C81_find_peaks (idx : IdxRule) (argsort : List ℝ → List ℕ) (fit : List ℝ → List ℝ → ℝ → ℝ)
    (data : List ℝ) (tsamp : ℝ) (widths : List ℕ) (hne : widths ≠ [])
    (pmin pmax : ℝ) (bmin bmax : ℕ) (hidx : IdxFor idx (data.length / bmin))
    (hv : PgArgs.Valid ⟨data.length, tsamp, pmin, pmax, bmin, bmax⟩) (h2 : 2 * pmax ≤ data.length * tsamp)
    (per : List ℝ) (fb : List ℕ) (snr : List (List ℝ))
    (h : periodogramBinding idx data tsamp widths pmin pmax bmin bmax = .ok (per, fb, snr))
    (p : PeakParams ℝ) (hw : 3 / bmin ≤ p.segwidth) :
    (per.length = 1 ∧ findPeaks argsort fit p ⟨widths, per, fb, snr, data.length * tsamp⟩ = .error .zeroDivisionError) ∨
    (1 < per.length ∧ ∃ peaks, findPeaks argsort fit p ⟨widths, per, fb, snr, data.length * tsamp⟩ = .ok peaks) := by
  obtain ⟨per', fb', snr', hpg, hhead, _, hgap⟩ := C81_resolution idx data tsamp widths hne pmin pmax bmin bmax hidx hv h2
  rw [h] at hpg
  simp only [Except.ok.injEq, Prod.mk.injEq] at hpg
  obtain ⟨rfl, rfl, rfl⟩ := hpg
  obtain ⟨hs, hrange, _⟩ := C18_periods_increasing idx data tsamp widths hne pmin pmax bmin bmax hidx per fb snr h
  obtain ⟨v1, v2, v3, v4, v5, v6⟩ := id hv
  simp only at v1 v2 v3 v4 v5 v6
  have hT : 0 < (data.length : ℝ) * tsamp := by linarith
  have hbm : (0 : ℝ) < bmin := by exact_mod_cast (by omega : 0 < bmin)
  have hsw : 0 < p.segwidth := lt_of_lt_of_le (by positivity) hw
  have hpos : 0 < per.length := by
    cases per with
    | nil => simp at hhead
    | cons a l => simp
  obtain ⟨g, hg⟩ : ∃ g : Pgram ℝ, g = ⟨widths, per, fb, snr, data.length * tsamp⟩ := ⟨_, rfl⟩
  rw [← hg]
  have gf : g.freqs = per.map (fun p => 1 / p) := by rw [hg]; rfl
  have gw : g.widths = widths := by rw [hg]
  have gt : g.tobs = data.length * tsamp := by rw [hg]
  have hfl : g.freqs.length = per.length := by rw [gf]; simp
  have h0 : g.freqs.head? = some ((1 : ℝ) / per[0]) := by
    rw [gf, List.head?_eq_getElem?, List.getElem?_map, List.getElem?_eq_getElem hpos]
    rfl
  have h1 : g.freqs.getLast? = some ((1 : ℝ) / per[per.length - 1]) := by
    rw [gf, List.getLast?_eq_getElem?, List.getElem?_map, List.length_map, List.getElem?_eq_getElem (by omega)]
    rfl
  rcases Nat.lt_or_ge 1 per.length with hlen | hlen
  · right
    refine ⟨hlen, ?_⟩
    have hlt : per[0] < per[per.length - 1] := (List.pairwise_iff_getElem.mp hs) 0 _ hpos (by omega) (by omega)
    have h00 : (0 : ℝ) < per[0] := v2.trans_le (hrange _ (List.getElem_mem hpos)).1
    have hff : (1 : ℝ) / per[0] ≠ 1 / per[per.length - 1] := (one_div_lt_one_div_of_lt h00 hlt).ne'
    have hseg : numSegments ((1 : ℝ) / per[0]) (1 / per[per.length - 1]) g.tobs p.segwidth ≤ g.freqs.length := by
      refine numSegments_le (B := 3 / (bmin * (data.length * tsamp))) (by rw [gt]; exact hT) ?_ hsw ?_ h0 h1
      · rw [gt, ← div_div]
        exact div_le_div_of_nonneg_right hw hT.le
      · intro j hj
        rw [hfl] at hj
        have e1 : g.freqs[j] = 1 / per[j] := by simp [gf]
        have e2 : g.freqs[j + 1]'(by rw [hfl]; exact hj) = 1 / per[j + 1] := by simp [gf]
        rw [e1, e2]
        refine ⟨?_, hgap j hj⟩
        have hl : per[j] < per[j + 1] := (List.pairwise_iff_getElem.mp hs) j (j + 1) (by omega) hj (by omega)
        have hj0 : (0 : ℝ) < per[j] := v2.trans_le (hrange _ (List.getElem_mem (by omega))).1
        have := one_div_lt_one_div_of_lt hj0 hl
        linarith
    have hok : ∀ iw width, ∃ b, peaksOfWidth argsort fit p g iw width = .ok b := by
      intro iw width
      obtain ⟨fc, smed, sstd, hst, _⟩ := C32_segment_stats_partial g.freqs (g.column iw) g.tobs p.segwidth _ _ (by rw [gt]; exact hT)
        hsw h0 h1 hff hseg
      unfold peaksOfWidth findPeaksSingle dynThreshold
      simp only
      rw [hst]
      exact ⟨_, rfl⟩
    choose b hb using hok
    unfold findPeaks
    have hm := mapM_ok (fun (wi : ℕ × ℕ) => peaksOfWidth argsort fit p g wi.2 wi.1) (fun wi => b wi.2 wi.1) g.widths.zipIdx
      (fun wi _ => hb wi.2 wi.1)
    have hfun : (fun (width, iw) => peaksOfWidth argsort fit p g iw width) =
      (fun wi : ℕ × ℕ => peaksOfWidth argsort fit p g wi.2 wi.1) := rfl
    rw [hfun, hm]
    exact ⟨_, rfl⟩
  · left
    have hl1 : per.length = 1 := by omega
    refine ⟨hl1, ?_⟩
    have h1' : g.freqs.getLast? = some ((1 : ℝ) / per[0]) := by
      rw [h1]
      congr 3
      omega
    unfold findPeaks
    rw [gw]
    cases hwd : widths with
    | nil => exact absurd hwd hne
    | cons wd l =>
      have he : peaksOfWidth argsort fit p g 0 wd = .error .zeroDivisionError := by
        unfold peaksOfWidth findPeaksSingle dynThreshold
        simp only
        rw [C32_single_trial g.freqs (g.column 0) g.tobs p.segwidth _ (by rw [gt]; exact hT) hsw h0 h1']
        rfl
      rw [List.zipIdx_cons, List.mapM_cons]
      simp only
      rw [he]
      rfl

/-- C81. A search range that is not too narrow has two trials, so that search and peak detection succeed together. -/
theorem C81_search_and_find (idx : IdxRule) (argsort : List ℝ → List ℕ) (fit : List ℝ → List ℝ → ℝ → ℝ)
    (y : List ℝ) (tsamp : ℝ) (a : SearchArgs) (p : PeakParams ℝ) (hidx : IdxFor idx (y.length / a.binsMin))
    (hv : PgArgs.Valid ⟨y.length, tsamp, a.periodMin, a.periodMax, a.binsMin, a.binsMax⟩)
    (h2 : 2 * a.periodMax ≤ y.length * tsamp)
    (hr : 3 / (a.binsMin * (y.length * tsamp)) < 1 / a.periodMin - 1 / a.periodMax) (hw : 3 / a.binsMin ≤ p.segwidth) :
    ∃ peaks, peaksOfData idx argsort fit y tsamp a p = .ok peaks := by
  obtain ⟨ws, hws⟩ : ∃ ws, ws = generateWidthTrials a.binsMin a.ducyMax a.wtsp := ⟨_, rfl⟩
  have hne : ws ≠ [] := by
    intro hc
    have := (C24_width_trials a.binsMin a.ducyMax a.wtsp).2.1
    rw [← hws, hc] at this
    simp at this
  obtain ⟨per, fb, snr, hpg, hhead, hcov, _⟩ := C81_resolution idx y tsamp ws hne _ _ _ _ hidx hv h2
  unfold peaksOfData
  rw [← hws, hpg]
  simp only [liftCall, Except.bind]
  rcases C81_find_peaks idx argsort fit y tsamp ws hne _ _ _ _ hidx hv h2 per fb snr hpg p hw with ⟨hl, _⟩ | ⟨_, h⟩
  · exfalso
    obtain ⟨q, hq⟩ := List.length_eq_one_iff.mp hl
    rw [hq] at hhead hcov
    simp only [List.head?_cons, Option.some.injEq] at hhead
    subst hhead
    obtain ⟨v1, v2, v3, v4, v5, v6⟩ := id hv
    simp only at v1 v2 v3 v4 v5 v6
    generalize 3 / (a.binsMin * (y.length * tsamp)) = B at hr hcov
    have hB : ∀ P, a.periodMin ≤ P → P < a.periodMax → 1 / a.periodMin - 1 / P < B := by
      intro P h3 h4
      obtain ⟨p, hp, _, h5⟩ := hcov P h3 h4
      rw [List.mem_singleton] at hp
      rw [hp] at h5
      exact h5
    have hB0 : 0 < B := by
      have := hB a.periodMin le_rfl v3
      linarith
    have hp0 : 0 < a.periodMax := v2.trans v3
    have hpm : 0 < 1 / a.periodMax := by positivity
    obtain ⟨F, hF⟩ : ∃ F, F = 1 / a.periodMin - B := ⟨_, rfl⟩
    have hF0 : 1 / a.periodMax < F := by rw [hF]; linarith
    have hFp : 0 < F := hpm.trans hF0
    have := hB (1 / F) (le_one_div v2 hFp |>.mpr (by rw [hF]; linarith)) ((one_div_lt hFp hp0).mpr hF0)
    rw [one_div_one_div, hF] at this
    linarith
  · exact h

/-- The default search of 4800 samples of 1/240 s, periods from 1 s to 10 s, 240 to 260 bins, default segment width. -/
example : ∃ peaks, peaksOfData float32Idx insArgsort (fun _ _ _ => 7) (List.replicate 4800 0) (1 / 240)
    ⟨1, 10, 8, 240, 260, 1 / 5, 3 / 2, false, 4, 101, true⟩ ⟨6, 5, 6, 10, 1 / 10⟩ = .ok peaks := by
  refine C81_search_and_find _ _ _ _ _ _ _ ?_ ?_ ?_ ?_ ?_
  · rw [List.length_replicate]; exact Or.inr ⟨Or.inl rfl, by norm_num⟩
  · rw [List.length_replicate]; refine ⟨?_, ?_, ?_, ?_, ?_, ?_⟩ <;> norm_num
  · rw [List.length_replicate]; norm_num
  · rw [List.length_replicate]; norm_num
  · norm_num

end Verif.Props
