import Verif.Lemmas.Energy
import Verif.Props.Search
import Mathlib.Algebra.BigOperators.Field

/-! # Range of the S/N of a search and the gain of folding: properties C77 and C78 -/

namespace Verif.Props

open Verif.Model Verif.Spec Verif.Lemmas Finset

theorem perOf_pos {a : PgArgs} (hv : a.Valid) {t : ℕ × ℕ × ℕ} (ht : t ∈ trials a) : 0 < perOf a t := by
  obtain ⟨i, b, s⟩ := t
  obtain ⟨_, hb, _, _⟩ := mem_trials.mp ht
  have h1 := denom_pos hv ht
  have h2 := tau_pos hv i
  have h3 : (0 : ℝ) < b := by exact_mod_cast (by have := hv.2.2.2.1; omega : 0 < b)
  unfold perOf
  exact div_pos (by positivity) h1

/-! ## C77 -/

theorem sum_map_getD (l : List ℝ) (g : ℝ → ℝ) : (l.map g).sum = ∑ i ∈ range l.length, g (l.getD i 0) := by
  induction l with
  | nil => simp
  | cons a l ih =>
    rw [List.map_cons, List.sum_cons, ih, List.length_cons, Finset.sum_range_succ', add_comm]
    simp

/-- C77. No S/N in the output of the compiled search is negative, and none exceeds `√(2 Q)`, where `Q` is the sum of the
squares of the searched samples. -/
theorem C77_snr_range (idx : IdxRule) (data : List ℝ) (tsamp : ℝ) (widths : List ℕ) (hne : widths ≠ [])
    (pmin pmax : ℝ) (bmin bmax : ℕ) (hidx : IdxFor idx (data.length / bmin)) (hN : data.length ≤ 2 ^ 64)
    (hw : ∀ w ∈ widths, 0 < w ∧ w < bmin) (per : List ℝ) (fb : List ℕ) (snr : List (List ℝ))
    (h : periodogramBinding idx data tsamp widths pmin pmax bmin bmax = .ok (per, fb, snr)) :
    ∀ row ∈ snr, ∀ (k : ℕ), k < widths.length → ∃ v, row[k]? = some v ∧
      0 ≤ v ∧ v ≤ Real.sqrt (2 * (data.map (fun x => x ^ 2)).sum) := by
  obtain ⟨lab, σ, l1, l2, l3, key⟩ := C58_end_to_end idx data tsamp widths hne pmin pmax bmin bmax hidx hN hw per fb snr h
  obtain ⟨a, ha, hv, _, _⟩ := pg_ok_inv hne hidx h
  intro row hrow k hk
  obtain ⟨j, hj, rfl⟩ := List.getElem_of_mem hrow
  obtain ⟨hok, _, _, _, _, hvar, hsn⟩ := key j (by omega) (by omega) hj (by omega)
  obtain ⟨v, e, hmat⟩ := hsn k hk
  refine ⟨v, e, ?_⟩
  obtain ⟨i, hfi⟩ := hok.factor
  have hf1 : 1 ≤ lab[j].f := by
    have := f_ge_one hv i
    rw [ha] at this
    rwa [hfi]
  have hwk := hw widths[k] (List.getElem_mem hk)
  have hm2 := hok.two
  obtain ⟨r1, r2⟩ := trial_snr_range (w := widths[k]) _ _ _ hwk.1 (hwk.2.trans_le hok.bins.1) (by omega) (by linarith) hvar hmat
  refine ⟨r1, r2.trans ?_⟩
  apply Real.sqrt_le_sqrt
  rw [sum_map_getD data (fun x => x ^ 2)]
  apply mul_le_mul_of_nonneg_right _ (Finset.sum_nonneg (fun _ _ => sq_nonneg _))
  rw [div_le_iff₀ hvar]
  apply variance_ge_half hf1
  have hb2 : 2 ≤ lab[j].b := by have := hok.bins.1; omega
  have hle : lab[j].m * lab[j].b ≤ ⌊(data.length : ℝ) / lab[j].f⌋₊ := by
    rw [hok.rows]
    exact Nat.div_mul_le_self _ _
  nlinarith

/-- C77. Trials below `(bmax + 1) tsamp` of a search from `bmin * tsamp` use the data as they are: their S/N do not exceed
`√Q`. -/
theorem C77_no_downsampling (idx : IdxRule) (data : List ℝ) (tsamp : ℝ) (widths : List ℕ) (hne : widths ≠ [])
    (pmin pmax : ℝ) (bmin bmax : ℕ) (hidx : IdxFor idx (data.length / bmin)) (hN : data.length ≤ 2 ^ 64)
    (hw : ∀ w ∈ widths, 0 < w ∧ w < bmin) (per : List ℝ) (fb : List ℕ) (snr : List (List ℝ))
    (hpm : pmin = tsamp * bmin)
    (h : periodogramBinding idx data tsamp widths pmin pmax bmin bmax = .ok (per, fb, snr)) :
    ∀ (j : ℕ) (p : ℝ) (row : List ℝ), per[j]? = some p → snr[j]? = some row → p < tsamp * (bmax + 1) →
      ∀ v ∈ row, v ≤ Real.sqrt (data.map (fun x => x ^ 2)).sum := by
  obtain ⟨lab, σ, l1, l2, l3, key⟩ := C58_end_to_end idx data tsamp widths hne pmin pmax bmin bmax hidx hN hw per fb snr h
  obtain ⟨a, ha, hv, _, hper, _, hsnr⟩ := pg_ok_inv hne hidx h
  intro j p row hp hr hlt v hvr
  obtain ⟨hj, rfl⟩ := List.getElem?_eq_some_iff.mp hp
  obtain ⟨hj3, rfl⟩ := List.getElem?_eq_some_iff.mp hr
  obtain ⟨hok, hfb, hfr, _, _, hvar, hsn⟩ := key j hj (by omega) hj3 (by omega)
  obtain ⟨k, hk, rfl⟩ := List.getElem_of_mem hvr
  have hlen : snr[j].length = widths.length := by
    simp only [hsnr, List.getElem_map, snrOf, snrRow_length]
  have hk' : k < widths.length := by omega
  obtain ⟨v, e, hmat⟩ := hsn k hk'
  rw [List.getElem?_eq_getElem hk] at e
  cases e
  have hwk := hw widths[k] (List.getElem_mem hk')
  have hm2 := hok.two
  obtain ⟨i, hfi⟩ := hok.factor
  have hts : 0 < tsamp := by have := hv.1; rwa [ha] at this
  have hb1 : bmin ≤ bmax := hok.bins.1.trans hok.bins.2
  have hbm : (0 : ℝ) < bmin := by exact_mod_cast (by omega : 0 < bmin)
  -- the stage is the first one
  have hge : lab[j].f * tsamp * lab[j].b ≤ per[j] := by
    have hf1 : 1 ≤ lab[j].f := by
      have := f_ge_one hv i
      rw [ha] at this
      rwa [hfi]
    have hb0 : (0 : ℝ) < lab[j].b := by exact_mod_cast (by have := hok.bins.1; omega : 0 < lab[j].b)
    have hx : 0 < lab[j].f * tsamp * lab[j].b := by positivity
    have hmm : (0 : ℝ) < (lab[j].m : ℝ) - 1 := by
      have : (2 : ℝ) ≤ lab[j].m := by exact_mod_cast hm2
      linarith
    have hstep : 0 ≤ lab[j].s * lab[j].step tsamp := by
      unfold Trial.step
      have : 0 < lab[j].f * tsamp * lab[j].b ^ 2 * ((lab[j].m : ℝ) - 1) := by positivity
      positivity
    have hfreq : 1 / per[j] ≤ 1 / (lab[j].f * tsamp * lab[j].b) := by
      rw [hfr]
      unfold Trial.freq
      linarith
    have hpp : 0 < per[j] := by
      have h2 := perOf_pos hv (t := (trials a)[j]'(by rw [hper] at hj; simpa using hj)) (List.getElem_mem _)
      simpa [hper] using h2
    exact (one_div_le_one_div hpp hx).mp hfreq
  have hi0 : i = 0 := by
    by_contra hi
    have hgeo : (1 : ℝ) ≤ ((bmax : ℝ) + 1) / bmin := by
      rw [one_le_div hbm]
      have : (bmin : ℝ) ≤ bmax := by exact_mod_cast hb1
      linarith
    have hpow : ((bmax : ℝ) + 1) / bmin ≤ (((bmax : ℝ) + 1) / bmin) ^ i := le_self_pow₀ hgeo hi
    have hf : ((bmax : ℝ) + 1) / bmin ≤ lab[j].f := by
      rw [hfi]
      unfold stageFactor
      rw [hpm, div_self (by positivity), one_mul]
      exact hpow
    have hbb : (bmin : ℝ) ≤ lab[j].b := by exact_mod_cast hok.bins.1
    have : tsamp * ((bmax : ℝ) + 1) ≤ lab[j].f * tsamp * lab[j].b := by
      rw [div_le_iff₀ hbm] at hf
      have hf0 : 0 ≤ lab[j].f := by
        have : (0 : ℝ) ≤ (bmax : ℝ) + 1 := by positivity
        by_contra hc
        push Not at hc
        nlinarith
      calc tsamp * ((bmax : ℝ) + 1) ≤ tsamp * (lab[j].f * bmin) := mul_le_mul_of_nonneg_left hf hts.le
        _ ≤ tsamp * (lab[j].f * lab[j].b) := by gcongr
        _ = _ := by ring
    linarith
  have hf1 : lab[j].f = 1 := by
    rw [hfi, hi0]
    unfold stageFactor
    rw [hpm, pow_zero, mul_one, div_self (by positivity)]
  obtain ⟨_, r2⟩ := trial_snr_range (w := widths[k]) _ _ _ hwk.1 (hwk.2.trans_le hok.bins.1) (by omega) (by rw [hf1]; norm_num)
    hvar hmat
  rw [sum_map_getD data (fun x => x ^ 2)]
  rw [hf1, variance_one, div_one, one_mul] at r2
  exact r2

/-- C77. If `ffa_search` normalises the data itself (and they are not constant), every S/N lies between 0 and `√(2 nsamp)`. -/
theorem C77_ffa_search (idx : IdxRule) (w w' : World) (id id' : ℕ) (o : TsObj) (a : SearchArgs) (res : SearchResult)
    (ho : w.objs[id]? = some o) (hg : GoodSeries w o) (hidx : IdxFor idx ((w.dataOf o).length / a.binsMin))
    (hN : (w.dataOf o).length ≤ 2 ^ 64) (hn : a.alreadyNormalised = false)
    (hb : 2 ≤ a.binsMin) (hd : a.ducyMax < 1)
    (h : ffaSearch idx w id a = .ok (w', id', res))
    (hc : ∀ y, prepared (w.dataOf o) o.tsamp { a with alreadyNormalised := true } = .ok y → ∃ u ∈ y, ∃ v ∈ y, u ≠ v) :
    ∀ row ∈ res.snrs, ∀ (k : ℕ), k < res.widths.length → ∃ v, row[k]? = some v ∧
      0 ≤ v ∧ v ≤ Real.sqrt (2 * (w.dataOf o).length) := by
  obtain ⟨o', y, _, _, _, _, hlen, hprep, hwid, _, hpg⟩ := ffaSearch_inv ho hg h
  have hne : res.widths ≠ [] := by
    intro hcon
    have := (C24_width_trials a.binsMin a.ducyMax a.wtsp).2.1
    rw [hwid] at hcon
    rw [hcon] at this
    simp at this
  have hsum : (y.map (fun x : ℝ => x ^ 2)).sum = ((w.dataOf o).length : ℝ) := by
    unfold prepared at hprep hc
    simp only [hn, Bool.false_eq_true, if_false, if_true] at hprep hc
    obtain ⟨y0, hy0, rfl⟩ := map_ok_inv hprep
    obtain ⟨u, hu, v, hv, huv⟩ := hc y0 (by rw [hy0]; rfl)
    have := (normalised_moments (List.ne_nil_of_mem hu) (varOf_pos hu hv huv)).2
    rw [this]
    simp only [normalised, List.length_map] at hlen
    rw [hlen]
  rw [← hlen] at hidx hN
  have key := C77_snr_range idx y o.tsamp res.widths hne a.periodMin a.periodMax a.binsMin a.binsMax hidx hN
    (by rw [hwid]; exact C24_widths_valid a.binsMin hb a.ducyMax a.wtsp hd a.binsMin le_rfl) _ _ _ hpg
  rw [hsum] at key
  exact key

/-! ## C78 -/

/-- The trial that folds the data at exactly `b` samples. -/
theorem fold_trial_mem {a : PgArgs} (hv : a.Valid) (hpm : a.pmin = a.tsamp * a.bmin) {b : ℕ} (h1 : a.bmin ≤ b)
    (h2 : b ≤ a.bmax) (h3 : b * a.tsamp < a.pmax) (h4 : 2 * b ≤ a.size) :
    a.f 0 = 1 ∧ a.n 0 = a.size ∧ (0, b, 0) ∈ trials a := by
  obtain ⟨v1, v2, v3, v4, v5, v6⟩ := id hv
  have hbm : (0 : ℝ) < a.bmin := by exact_mod_cast (by omega : 0 < a.bmin)
  have hb1 : (a.bmin : ℝ) ≤ b := by exact_mod_cast h1
  have hf : a.f 0 = 1 := by
    unfold PgArgs.f PgArgs.dsIni
    rw [hpm, pow_zero, mul_one, div_self (by positivity)]
  have hn : a.n 0 = a.size := by
    unfold PgArgs.n downsampledSize
    rw [hf, div_one, Nat.floor_natCast]
  have htau : a.tau 0 = a.tsamp := by unfold PgArgs.tau; rw [hf, one_mul]
  have hps : (b : ℝ) < a.pmaxSamples 0 := by
    unfold PgArgs.pmaxSamples
    rw [htau, lt_div_iff₀ v1]
    exact h3
  refine ⟨hf, hn, mem_trials.mpr ⟨?_, h1, ?_, ?_⟩⟩
  · unfold PgArgs.numDs
    rw [Nat.ceil_pos]
    apply div_pos
    · apply Real.log_pos
      have hp0 : 0 < a.pmin := by rw [hpm]; positivity
      rw [one_lt_div hp0, hpm]
      nlinarith
    · exact Real.log_pos (dsGeo_gt hv)
  · unfold PgArgs.bstop
    rw [hn]
    refine le_min (le_min h2 (by omega)) ?_
    exact Nat.le_floor hps.le
  · unfold PgArgs.rowsEval
    simp only [hn]
    have hr : 2 ≤ a.size / b := (Nat.le_div_iff_mul_le (by omega)).mpr (by linarith)
    refine lt_min (by omega) ?_
    unfold ceilshift
    rw [Nat.ceil_pos]
    have hb0 : (0 : ℝ) < b := by linarith
    have hr' : (2 : ℝ) ≤ (a.size / b : ℕ) := by exact_mod_cast hr
    have hpc : (b : ℝ) < a.periodCeil 0 b := by
      unfold PgArgs.periodCeil
      exact lt_min hps (by linarith)
    have : (b : ℝ) / a.periodCeil 0 b < 1 := by rw [div_lt_one (by linarith)]; exact hpc
    apply mul_pos (mul_pos hb0 (by linarith))
    linarith

theorem matched_scale {n w : ℕ} {x : ℕ → ℝ} {c std v : ℝ} (hc : 0 < c) (hstd : std = Real.sqrt c)
    (h : IsMatchedSnr n w (fun i => c * x i) std v) : IsMatchedSnr n w x (1 / Real.sqrt c) v := by
  subst hstd
  have hs : 0 < Real.sqrt c := Real.sqrt_pos.mpr hc
  have e : ∀ t : ℕ → ℝ, (∑ i ∈ range n, c * x i * t i) / Real.sqrt c = (∑ i ∈ range n, x i * t i) / (1 / Real.sqrt c) := by
    intro t
    have : ∑ i ∈ range n, c * x i * t i = c * ∑ i ∈ range n, x i * t i := by
      rw [Finset.mul_sum]
      exact Finset.sum_congr rfl (fun i _ => by ring)
    rw [this, div_div_eq_mul_div, div_one, div_eq_iff hs.ne', mul_assoc, Real.mul_self_sqrt hc.le, mul_comm]
  obtain ⟨⟨φ, hφ, t, ht, hv⟩, hub⟩ := h
  exact ⟨⟨φ, hφ, t, ht, by rw [← e]; exact hv⟩, fun φ hφ t ht => by rw [← e]; exact hub φ hφ t ht⟩

/-- C78. Coherent gain. Data that repeat with a period of `b` samples (over all whole periods) are folded at exactly that period
by one of the trials, and each S/N of this trial is `√m` times that of a single period, where `m` is the number of periods
in the data. -/
theorem C78_folding_gain (idx : IdxRule) (data : List ℝ) (tsamp : ℝ) (widths : List ℕ) (hne : widths ≠ [])
    (pmin pmax : ℝ) (bmin bmax : ℕ) (hidx : IdxFor idx (data.length / bmin)) (hN : data.length ≤ 2 ^ 64)
    (hw : ∀ w ∈ widths, 0 < w ∧ w < bmin) (per : List ℝ) (fb : List ℕ) (snr : List (List ℝ))
    (hpm : pmin = tsamp * bmin) (b : ℕ) (h1 : bmin ≤ b) (h2 : b ≤ bmax) (h3 : b * tsamp < pmax) (h4 : 2 * b ≤ data.length)
    (prof : ℕ → ℝ) (hdata : ∀ i < data.length / b * b, data[i]? = some (prof (i % b)))
    (h : periodogramBinding idx data tsamp widths pmin pmax bmin bmax = .ok (per, fb, snr)) :
    ∃ (j : ℕ) (row : List ℝ), per[j]? = some (b * tsamp) ∧ fb[j]? = some b ∧ snr[j]? = some row ∧
      ∀ k (hk : k < widths.length), ∃ v, row[k]? = some v ∧
        IsMatchedSnr b widths[k] prof (1 / Real.sqrt (data.length / b : ℕ)) v := by
  obtain ⟨a, ha, hv, _, rfl, rfl, rfl⟩ := pg_ok_inv hne hidx h
  have e0 : a.size = data.length := by rw [ha]
  have e3 : a.bmin = bmin := by rw [ha]
  have e5 : a.tsamp = tsamp := by rw [ha]
  obtain ⟨hf, hn, hmem⟩ := fold_trial_mem (a := a) hv (by rw [ha]; exact hpm) (b := b) (by rw [ha]; exact h1)
    (by rw [ha]; exact h2) (by rw [ha]; exact h3) (by rw [ha]; exact h4)
  obtain ⟨j, hj, hjt⟩ := List.getElem_of_mem hmem
  obtain ⟨hm2, _, _, _⟩ := trial_facts hv hmem
  have hbpos : 0 < b := by have := hv.2.2.2.1; omega
  have hb0 : (b : ℝ) ≠ 0 := by exact_mod_cast hbpos.ne'
  rw [hn, e0] at hm2
  refine ⟨j, snrOf idx a (fun i => data.getD i 0) widths (0, b, 0), ?_, ?_, ?_, ?_⟩
  · rw [List.getElem?_map, List.getElem?_eq_getElem hj, hjt]
    simp only [Option.map_some, Option.some.injEq, perOf, PgArgs.tau, hf, e5]
    simp only [Nat.cast_zero, zero_div, sub_zero]
    field_simp
  · rw [List.getElem?_map, List.getElem?_eq_getElem hj, hjt]
    rfl
  · rw [List.getElem?_map, List.getElem?_eq_getElem hj, hjt]
    rfl
  · intro k hk
    have hk' : k < (snrOf idx a (fun i => data.getD i 0) widths (0, b, 0)).length := by
      unfold snrOf; rw [snrRow_length]; exact hk
    refine ⟨_, List.getElem?_eq_getElem hk', ?_⟩
    have hmpos : (0 : ℝ) < (data.length / b : ℕ) := by exact_mod_cast (by omega : 0 < data.length / b)
    have hstd : stdOf a (0, b, 0) = Real.sqrt (data.length / b : ℕ) := by
      unfold stdOf
      simp only [hn, hf, variance_one, mul_one, e0]
    have key := snrRow_matched b (profOf idx a (fun i => data.getD i 0) (0, b, 0)) widths hne
      (fun w hwm => ⟨(hw w hwm).1, (hw w hwm).2.trans_le h1⟩) (stdOf a (0, b, 0))
      (by rw [hstd]; exact Real.sqrt_pos.mpr hmpos) k hk hk'
    refine matched_scale hmpos hstd (matched_congr ?_ key)
    intro c hc
    unfold profOf
    simp only [hn, e0]
    have hmle : data.length / b ≤ data.length / bmin := Nat.div_le_div_left h1 (by have := hv.2.2.2.1; omega)
    rw [transform_eq_stack idx b (data.length / b) (by omega) ((Nat.div_le_self _ _).trans hN)
      (fun m' g1 g2 => hidx.ok m' (by omega) g2) _ 0 c (by omega) hc]
    have hσ := (shifts_for hidx hm2 hmle).1
    unfold stack
    have hrow : ∀ r ∈ range (data.length / b),
        stageData a (fun i => data.getD i 0) 0 (r * b + (c + sigma idx (data.length / b) 0 r) % b) = prof c := by
      intro r hr
      have hr' := mem_range.mp hr
      rw [shiftTable_zero hσ (by omega) r hr', Nat.add_zero, Nat.mod_eq_of_lt hc]
      unfold stageData
      rw [if_pos hf]
      have hlt : r * b + c < data.length / b * b := by
        have : (r + 1) * b ≤ data.length / b * b := Nat.mul_le_mul_right _ hr'
        rw [Nat.succ_mul] at this
        omega
      simp only [List.getD, hdata _ hlt, Option.getD_some]
      rw [Nat.mul_comm, Nat.mul_add_mod, Nat.mod_eq_of_lt hc]
    rw [Finset.sum_congr rfl hrow]
    simp

open Classical in
/-- C78. Detection of a noise-free train of rectangular pulses. The series consists of `m ≥ 2` periods of `b` samples, of which
`wd` samples (a trial width), starting anywhere in the period, are higher by any positive amount. Then `ffa_search` reports,
at exactly the period of the train and for that width, an S/N of `√nsamp`, and no trial without downsampling has more. -/
theorem C78_pulse_train (idx : IdxRule) (w w' : World) (id id' : ℕ) (o : TsObj) (a : SearchArgs) (res : SearchResult)
    (ho : w.objs[id]? = some o) (hg : GoodSeries w o) (hidx : IdxFor idx ((w.dataOf o).length / a.binsMin))
    (hN : (w.dataOf o).length ≤ 2 ^ 64) (hn : a.alreadyNormalised = false) (hde : a.deredden = false)
    (hb : 2 ≤ a.binsMin) (hd : a.ducyMax < 1) (hpm : a.periodMin = o.tsamp * a.binsMin)
    (m b wd φ : ℕ) (base amp : ℝ) (h1 : a.binsMin ≤ b) (h2 : b ≤ a.binsMax) (h3 : b * o.tsamp < a.periodMax) (hm : 2 ≤ m)
    (hlen : (w.dataOf o).length = m * b) (hwd : wd ∈ res.widths) (hφ : φ < b) (hamp : 0 < amp)
    (hdata : ∀ i < m * b, (w.dataOf o)[i]? = some (if InWindow b wd φ (i % b) then base + amp else base))
    (h : ffaSearch idx w id a = .ok (w', id', res)) :
    (∃ (j k : ℕ) (row : List ℝ), res.periods[j]? = some (b * o.tsamp) ∧ res.foldbins[j]? = some b ∧
      res.widths[k]? = some wd ∧ res.snrs[j]? = some row ∧ row[k]? = some (Real.sqrt (m * b))) ∧
    ∀ (j : ℕ) (p : ℝ) (row : List ℝ), res.periods[j]? = some p → res.snrs[j]? = some row →
      p < o.tsamp * (a.binsMax + 1) → ∀ v ∈ row, v ≤ Real.sqrt (m * b) := by
  obtain ⟨o', y, _, _, _, _, hyl, hprep, hwid, _, hpg⟩ := ffaSearch_inv ho hg h
  have hne : res.widths ≠ [] := List.ne_nil_of_mem hwd
  have hws : ∀ w ∈ res.widths, 0 < w ∧ w < a.binsMin := by
    rw [hwid]; exact C24_widths_valid a.binsMin hb a.ducyMax a.wtsp hd a.binsMin le_rfl
  obtain ⟨hwd0, hwd1⟩ := hws wd hwd
  generalize hx : w.dataOf o = x at *
  have hy : y = normalised x := by
    unfold prepared at hprep
    simp only [hn, hde, Bool.false_eq_true, if_false, Except.map] at hprep
    cases hprep
    rfl
  have hbpos : 0 < b := by omega
  -- two different values
  have hin : InWindow b wd φ φ := by
    unfold InWindow
    rw [show φ + (b - φ) = b by omega, Nat.mod_self]
    exact hwd0
  have hout : ¬ InWindow b wd φ ((φ + wd) % b) := by
    unfold InWindow
    rw [Nat.mod_add_mod, show φ + wd + (b - φ) = wd + b by omega, Nat.add_mod_right, Nat.mod_eq_of_lt (by omega)]
    omega
  have hmb : b ≤ m * b := Nat.le_mul_of_pos_left b (by omega)
  have hA : base + amp ∈ x := by
    have := hdata φ (by omega)
    rw [Nat.mod_eq_of_lt hφ, if_pos hin] at this
    exact List.mem_of_getElem? this
  have hB : base ∈ x := by
    have hl := Nat.mod_lt (φ + wd) hbpos
    have := hdata ((φ + wd) % b) (by omega)
    rw [Nat.mod_mod, if_neg hout] at this
    exact List.mem_of_getElem? this
  have hxne : x ≠ [] := List.ne_nil_of_mem hA
  have hvar := varOf_pos hA hB (by linarith)
  have hsd := Real.sqrt_pos.mpr hvar
  obtain ⟨mom1, mom2⟩ := normalised_moments hxne hvar
  obtain ⟨hi, hhi⟩ : ∃ hi, hi = (base + amp - meanOf x) / Real.sqrt (varOf x) := ⟨_, rfl⟩
  obtain ⟨lo, hlo⟩ : ∃ lo, lo = (base - meanOf x) / Real.sqrt (varOf x) := ⟨_, rfl⟩
  have hlohi : lo < hi := by
    rw [hlo, hhi]
    exact div_lt_div_of_pos_right (by linarith) hsd
  obtain ⟨prof, hprof⟩ : ∃ prof : ℕ → ℝ, prof = fun i => if InWindow b wd φ i then hi else lo := ⟨_, rfl⟩
  have hydata : ∀ i < m * b, y[i]? = some (prof (i % b)) := by
    intro i hi'
    rw [hy]
    unfold normalised
    rw [List.getElem?_map, hdata i hi', hprof]
    simp only [Option.map_some, Option.some.injEq]
    split_ifs
    · exact hhi.symm
    · exact hlo.symm
  have hylen : y.length = m * b := by rw [hyl, hlen]
  have hdiv : y.length / b = m := by rw [hylen, Nat.mul_div_cancel _ hbpos]
  -- sums over one period
  have hper : ∀ g : ℝ → ℝ, (y.map g).sum = m * ∑ c ∈ range b, g (prof c) := by
    intro g
    rw [sum_map_getD y g, hylen, ← sum_blocks (fun k => g (y.getD k 0)) b m]
    have : ∀ r ∈ range m, ∑ c ∈ range b, g (y.getD (r * b + c) 0) = ∑ c ∈ range b, g (prof c) := by
      intro r hr
      apply Finset.sum_congr rfl
      intro c hc
      have hc' := mem_range.mp hc
      have hr' := mem_range.mp hr
      have hlt : r * b + c < m * b := by
        have : (r + 1) * b ≤ m * b := Nat.mul_le_mul_right _ hr'
        rw [Nat.succ_mul] at this
        omega
      simp only [List.getD, hydata _ hlt, Option.getD_some]
      rw [Nat.mul_comm, Nat.mul_add_mod, Nat.mod_eq_of_lt hc']
    rw [Finset.sum_congr rfl this]
    simp
  have hm0 : (0 : ℝ) < m := by exact_mod_cast (by omega : 0 < m)
  have hb0 : (0 : ℝ) < b := by exact_mod_cast hbpos
  have hsq : (y.map (fun v : ℝ => v ^ 2)).sum = (m : ℝ) * b := by
    rw [hy, mom2, hlen]; push_cast; rfl
  have s1 : ∑ c ∈ range b, prof c = 0 := by
    have e := hper (fun v => v)
    simp only [List.map_id'] at e
    rw [hy, mom1] at e
    rcases mul_eq_zero.mp e.symm with e | e
    · exact absurd e hm0.ne'
    · exact e
  have s2 : ∑ c ∈ range b, prof c ^ 2 = b := by
    have e := hper (fun v => v ^ 2)
    rw [hsq] at e
    exact (mul_left_cancel₀ hm0.ne' e).symm
  -- the profile is a multiple of the template
  have hsb := Real.sqrt_pos.mpr hb0
  have hbox : IsBoxcar b wd φ (fun i => prof i / Real.sqrt b) := by
    refine ⟨hi / Real.sqrt b, lo / Real.sqrt b, div_lt_div_of_pos_right hlohi hsb, ?_, ?_, ?_⟩
    · intro i _
      rw [hprof]
      simp only
      split_ifs <;> rfl
    · rw [← Finset.sum_div, s1, zero_div]
    · simp only [div_pow]
      rw [← Finset.sum_div, s2, Real.sq_sqrt hb0.le, div_self hb0.ne']
  rw [← hyl] at hidx hN
  have hmax := C77_no_downsampling idx y o.tsamp res.widths hne a.periodMin a.periodMax a.binsMin a.binsMax hidx hN hws _ _ _
    hpm hpg
  rw [hsq] at hmax
  refine ⟨?_, hmax⟩
  obtain ⟨j, row, g1, g2, g3, g4⟩ := C78_folding_gain idx y o.tsamp res.widths hne a.periodMin a.periodMax a.binsMin a.binsMax
    hidx hN hws _ _ _ hpm b h1 h2 h3 (by rw [hylen]; exact Nat.mul_le_mul_right b hm) prof
    (by rw [hdiv]; exact hydata) hpg
  obtain ⟨k, hk, hkw⟩ := List.getElem_of_mem hwd
  obtain ⟨v, hv, hmat⟩ := g4 k hk
  refine ⟨j, k, row, g1, g2, by rw [List.getElem?_eq_getElem hk, hkw], g3, ?_⟩
  rw [hv, Option.some.injEq]
  have hts : 0 < o.tsamp := by
    obtain ⟨a', ha', hv', _⟩ := pg_ok_inv hne hidx hpg
    have := hv'.1
    rwa [ha'] at this
  apply le_antisymm
  · refine hmax j _ row g1 g3 ?_ v (List.mem_of_getElem? hv)
    have : (b : ℝ) ≤ a.binsMax := by exact_mod_cast h2
    nlinarith
  · rw [hkw, hdiv] at hmat
    have := hmat.2 φ hφ _ hbox
    refine le_trans (le_of_eq ?_) this
    have e : ∑ i ∈ range b, prof i * (prof i / Real.sqrt b) = Real.sqrt b := by
      have : ∀ i ∈ range b, prof i * (prof i / Real.sqrt b) = prof i ^ 2 / Real.sqrt b := fun i _ => by ring
      rw [Finset.sum_congr rfl this, ← Finset.sum_div, s2, Real.div_sqrt]
    rw [e, div_div_eq_mul_div, div_one, mul_comm, Real.sqrt_mul hb0.le]

/-- All hypotheses of C77 and C78 are met by 10 periods of 8 samples with one high sample each: the search succeeds and reports
an S/N of `√80` at a period of 8 samples. -/
example : ∃ (w : World) (o : TsObj) (a : SearchArgs) (w' : World) (id' : ℕ) (res : SearchResult),
    w.objs[0]? = some o ∧ GoodSeries w o ∧ IdxFor float32Idx ((w.dataOf o).length / a.binsMin) ∧
    a.alreadyNormalised = false ∧ a.deredden = false ∧ 2 ≤ a.binsMin ∧ a.ducyMax < 1 ∧
    a.periodMin = o.tsamp * a.binsMin ∧ ffaSearch float32Idx w 0 a = .ok (w', id', res) ∧
    (∀ row ∈ res.snrs, ∀ (k : ℕ), k < res.widths.length → ∃ v, row[k]? = some v ∧ 0 ≤ v ∧ v ≤ Real.sqrt (2 * (w.dataOf o).length)) ∧
    ∃ (j k : ℕ) (row : List ℝ), res.periods[j]? = some (8 : ℝ) ∧ res.snrs[j]? = some row ∧ row[k]? = some (Real.sqrt 80) := by
  classical
  obtain ⟨z, hz⟩ : ∃ z : List ℝ, z = (List.range 80).map (fun i => if i % 8 = 3 then 7 else 5) := ⟨_, rfl⟩
  obtain ⟨w, hw⟩ : ∃ w : World, w = ⟨[z], [[("tobs", .num 80)]], [⟨0, 1, 0⟩]⟩ := ⟨_, rfl⟩
  have hdata : w.dataOf ⟨0, 1, 0⟩ = z := by rw [hw]; rfl
  have hzl : z.length = 80 := by rw [hz]; simp
  have hlen : w.lengthOf ⟨0, 1, 0⟩ = 80 := by
    unfold World.lengthOf
    rw [hdata, hzl]
    norm_num
  have hg : GoodSeries w ⟨0, 1, 0⟩ := by
    refine ⟨by simp [hw], by rw [hlen]; norm_num, ?_⟩
    rw [hlen, hw]
    simp [World.metaOf, List.getD, dictGet]
  have ho : w.objs[0]? = some ⟨0, 1, 0⟩ := by rw [hw]; rfl
  obtain ⟨a, ha⟩ : ∃ a : SearchArgs, a = ⟨8, 20, 8, 8, 10, 1 / 5, 3 / 2, false, 4, 101, false⟩ := ⟨_, rfl⟩
  have hidx : IdxFor float32Idx ((w.dataOf ⟨0, 1, 0⟩).length / a.binsMin) := by
    rw [hdata, hzl, ha]
    exact Or.inr ⟨Or.inl rfl, by norm_num⟩
  have hprep : prepared (w.dataOf ⟨0, 1, 0⟩) 1 a = .ok (normalised z) := by
    rw [hdata, ha]; rfl
  have hyl : (normalised z).length = 80 := by rw [normalised, List.length_map, hzl]
  have hhead : (generateWidthTrials a.binsMin a.ducyMax a.wtsp).head? = some 1 :=
    (C24_width_trials a.binsMin a.ducyMax a.wtsp).2.1
  have hone : 1 ∈ generateWidthTrials a.binsMin a.ducyMax a.wtsp := List.mem_of_head? hhead
  have hne := List.ne_nil_of_mem hone
  obtain ⟨per, fb, snr, lab, h1, _⟩ := C19_no_holes float32Idx (normalised z) 1
    (generateWidthTrials a.binsMin a.ducyMax a.wtsp) hne 8 20 8 10 (by rw [hyl]; exact Or.inr ⟨Or.inl rfl, by norm_num⟩)
    (by rw [hyl]; refine ⟨?_, ?_, ?_, ?_, ?_, ?_⟩ <;> norm_num) (by rw [hyl]; norm_num)
  have hpg : periodogramBinding float32Idx (normalised z) 1 (generateWidthTrials a.binsMin a.ducyMax a.wtsp) a.periodMin
        a.periodMax a.binsMin a.binsMax = .ok (per, fb, snr) := by
    rw [ha] at h1 ⊢
    exact h1
  have key := ffaSearch_eq float32Idx w 0 ⟨0, 1, 0⟩ ho hg a
  simp only [hprep, Except.bind, hpg, liftCall, Except.map] at key
  obtain ⟨w', id', o', _, _, _, _, _, hs⟩ := key
  have e1 : a.alreadyNormalised = false := by rw [ha]
  have e2 : a.deredden = false := by rw [ha]
  have e3 : 2 ≤ a.binsMin := by rw [ha]; norm_num
  have e4 : a.ducyMax < 1 := by rw [ha]; norm_num
  have e5 : a.periodMin = (1 : ℝ) * a.binsMin := by rw [ha]; norm_num
  have hi : ∀ i < 80, z[i]? = some (if i % 8 = 3 then 7 else 5) := by
    intro i hi
    rw [hz, List.getElem?_map, List.getElem?_range hi]
    rfl
  refine ⟨w, ⟨0, 1, 0⟩, a, w', id', _, ho, hg, hidx, e1, e2, e3, e4, e5, hs, ?_, ?_⟩
  · apply C77_ffa_search float32Idx w w' 0 id' ⟨0, 1, 0⟩ a _ ho hg hidx (by rw [hdata, hzl]; norm_num) e1 e3 e4 hs
    intro y hy
    unfold prepared at hy
    simp only [e2, Bool.false_eq_true, if_false, if_true, Except.map] at hy
    cases hy
    rw [hdata]
    refine ⟨7, ?_, 5, ?_, by norm_num⟩
    · exact List.mem_of_getElem? (i := 3) (by rw [hi 3 (by norm_num)]; norm_num)
    · exact List.mem_of_getElem? (i := 0) (by rw [hi 0 (by norm_num)]; norm_num)
  · obtain ⟨⟨j, k, row, g1, _, _, g3, g4⟩, _⟩ := C78_pulse_train float32Idx w w' 0 id' ⟨0, 1, 0⟩ a _ ho hg hidx
      (by rw [hdata, hzl]; norm_num) e1 e2 e3 e4 e5 10 8 1 3 5 2 (by rw [ha]) (by rw [ha]; norm_num) (by rw [ha]; norm_num)
      (by norm_num) (by rw [hdata, hzl]) hone (by norm_num) (by norm_num) (by
        intro i hi'
        rw [hdata, hi i hi']
        have : InWindow 8 1 3 (i % 8) ↔ i % 8 = 3 := by unfold InWindow; omega
        simp only [this]
        norm_num) hs
    refine ⟨j, k, row, ?_, g3, ?_⟩
    · rw [g1]; norm_num
    · rw [g4]; norm_num

end Verif.Props
