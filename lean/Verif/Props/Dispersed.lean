import Verif.Props.Products

/-!
# C107: a pulsar of any dispersion measure in the range of the files, from the files to the table of candidates
-/

namespace Verif.Spec

/-- Pulses in the data of a file: the phase and the duration, the limits of the baseline, and what the pulses add to each sample. -/
structure FileSignal where
  phase : ℝ
  duration : ℝ
  lo : ℝ
  hi : ℝ
  pulse : ℕ → ℝ

end Verif.Spec

namespace Verif.Props

open Verif.Model Verif.Lemmas Verif.Spec Finset

/-- The samples `x` of a file hold pulses with the period `P`, which are narrow compared to the window of the running median (`k` samples); and the
file is at least twice as long as the longest period of the range `r`. -/
structure HoldsPulsar (c : RunConf) (r : PipeRange) (P tsamp : ℝ) (k : ℕ) (x : List ℝ) (g : FileSignal) : Prop where
  size : x.length ≤ 2 ^ 64
  twice : 2 * r.search.periodMax ≤ x.length * tsamp
  window : |c.rmedWidth / tsamp - k| < 1 / 2
  data : PulsedData x tsamp P g.phase g.duration g.lo g.hi g.pulse
  narrow : NarrowPulses x.length k c.rmedMinpts tsamp P g.duration g.pulse

/-- In `N` samples, the pulses are strong enough for an S/N of `S` with a boxcar of `wd` bins in the trial `t`: the energy of the first pulses, without the
last turn, divided by the noise. The baseline may vary within its limits. -/
def StrongFor (N : ℕ) (tsamp P : ℝ) (g : FileSignal) (t : Trial) (wd : ℕ) (S : ℝ) : Prop :=
  0 ≤ S ∧ ∃ (K : ℕ) (L : ℝ), K * tsamp + P + t.f * tsamp ≤ N * tsamp ∧
    (L ≤ (∑ i ∈ range K, g.pulse i) * Real.sqrt (((t.b : ℝ) - wd) / (t.b * wd)) / Real.sqrt (t.m * downsampledVariance N t.f) ∨
      (downsampledVariance N t.f ≤ t.f ∧ L ≤ (∑ i ∈ range K, g.pulse i) * Real.sqrt (((t.b : ℝ) - wd) / wd) / Real.sqrt N)) ∧
    S * (Real.sqrt ((∑ i ∈ range N, g.pulse i ^ 2) / N) + (g.hi - g.lo)) ≤ L - Real.sqrt (2 * N) * (g.hi - g.lo)

/-- The width of the narrowest phase bin of the configuration, in seconds. -/
def NarrowestBin (c : RunConf) (w : ℝ) : Prop :=
  (∃ r ∈ c.ranges, w = r.search.periodMin / r.search.binsMin) ∧ ∀ r ∈ c.ranges, w ≤ r.search.periodMin / r.search.binsMin

/-- Candidate `x` is saved with the number `k`: its line in `candidates.csv`, and its file. -/
def SavedAs (e : CandCoding) (d' : OutDir) (x : PCandidate ℝ (CandObj ℝ)) (k : ℕ) : Prop :=
  d' (candidateFileName k ".json".toList) = some (e.json x) ∧
  ∃ text rows cells, d' "candidates.csv".toList = some text ∧
    readTable text = ["period".toList, "freq".toList, "dm".toList, "width".toList, "ducy".toList, "snr".toList] :: rows ∧
    rows[k]? = some cells ∧ ReadsPeak cells x.params

/-- Every candidate is saved with its place in the list as the number. -/
theorem savedAs {e : CandCoding} {st : PipeState ℝ (CandObj ℝ)} {d d' : OutDir} (h : SavesProducts e st d d') (hp : st.peaks ≠ [])
    {x : PCandidate ℝ (CandObj ℝ)} (hx : x ∈ st.candidates) : ∃ k, st.candidates[k]? = some x ∧ SavedAs e d' x k := by
  obtain ⟨k, hk, rfl⟩ := List.mem_iff_getElem.mp hx
  obtain ⟨-, -, h3, h4, -⟩ := C104_saved h hp
  obtain ⟨text, rows, qs, e1, e2, e3, -⟩ := h3 (List.ne_nil_of_mem hx)
  have hl := e3.length_eq
  have hk' : k < rows.length := by omega
  refine ⟨k, List.getElem?_eq_getElem hk, (h4 k _ (List.getElem?_eq_getElem hk)).1, text, rows, rows[k], e1, e2, List.getElem?_eq_getElem hk', ?_⟩
  exact (List.forall₂_iff_get.mp e3).2 k hk' hk

theorem narrowestBin_prep {c : RunConf} {w : ℝ} (h : NarrowestBin c w) :
    (∃ r ∈ c.prepConf.ranges, w = r.pmin / r.binsMin) ∧ ∀ r ∈ c.prepConf.ranges, w ≤ r.pmin / r.binsMin := by
  obtain ⟨⟨r, hr, hw⟩, h2⟩ := h
  constructor
  · obtain ⟨i, hi, rfl⟩ := List.mem_iff_getElem.mp hr
    have hi' : i < c.prepConf.ranges.length := by simpa [RunConf.prepConf] using hi
    refine ⟨_, List.getElem_mem hi', ?_⟩
    rw [prepConf_get c hi hi']
    exact hw
  · intro r hr
    obtain ⟨i, hi', rfl⟩ := List.mem_iff_getElem.mp hr
    have hi : i < c.ranges.length := by simpa [RunConf.prepConf] using hi'
    rw [prepConf_get c hi hi']
    exact h2 _ (List.getElem_mem hi)

/-- **C107.** A run on files, as in C103. Let there be a pulsar with the period `P` in a range of the configuration and the dispersion measure `dm`, such
that a file that can be selected shows its pulses without more broadening than the narrowest phase bin or the smearing in a channel; and let every
file for which this holds have its pulses in its samples. Then such a file is selected and searched, whichever files the pipeline leaves out.
In one of its trials, if the pulses are strong enough for an S/N of `S` above the thresholds, there is a peak with at least this S/N at the DM of
the file, a cluster with it, and, if the filters do not remove the cluster, a candidate with at least this S/N, in the table of candidates
and in the file with its number. -/
theorem C107_pulsar {D : Disk} {t : PipeTools} {conf : PyVal} {c : RunConf} {a : HarmConf} {fnames : List (List Char)} {ms : List FileMeta}
    {lo hi : ℝ} {n : ℕ} (h : FilesOK D t conf c a fnames ms lo hi n) (h0 : 0 < lo) (hlt : lo < hi) (hn : 1 ≤ n) (s : PoolSchedule)
    (hs : RunSchedule c ms s) (st : PipeState ℝ (CandObj ℝ)) (hst : pipelineFiles D t conf fnames s = .ok st)
    (w : ℝ) (hw : NarrowestBin c w) (dm : ℝ) (hseen : ∃ m, Selectable c.prepConf ms m ∧ SeenAt lo hi n w m.dm dm)
    (r : PipeRange) (hr : r ∈ c.ranges) (hdc : r.search.ducyMax < 1) (P : ℝ) (hP1 : r.search.periodMin ≤ P) (hP2 : P < r.search.periodMax)
    (sig : List Char → FileSignal) (win : List Char → ℕ)
    (hsig : ∀ f ∈ fnames, ∀ md m x, loadMeta D c.prep.fmt f = .ok md → fileMetaOf D c.prep.fmt md = .ok m → HasSamples D c.prep.fmt f x →
      SeenAt lo hi n w m.dm dm → HoldsPulsar c r P m.tsamp (win f) x (sig f)) :
    ∃ f ∈ fnames, ∃ md m x, loadMeta D c.prep.fmt f = .ok md ∧ fileMetaOf D c.prep.fmt md = .ok m ∧ HasSamples D c.prep.fmt f x ∧
      SeenAt lo hi n w m.dm dm ∧
      ∃ (g : Pgram ℝ) (j : ℕ) (p : ℝ) (u : Trial),
        g.widths = generateWidthTrials r.search.binsMin r.search.ducyMax r.search.wtsp ∧ g.tobs = x.length * m.tsamp ∧
        g.periods[j]? = some p ∧ g.foldbins[j]? = some u.b ∧
        u.OK x.length m.tsamp r.search.periodMin r.search.binsMin r.search.binsMax ∧ 1 ≤ u.f ∧
        1 / p = u.freq m.tsamp ∧ 0 < p ∧ p ≤ P ∧ 1 / p - 1 / P < u.step m.tsamp ∧
        ∀ (k wd : ℕ), g.widths[k]? = some wd → (sig f).duration / P * u.b + smearing u ≤ wd → ∃ thr, thresholdOf t.fit r.peaks g k = .ok thr ∧
          ∀ S, StrongFor x.length m.tsamp P (sig f) u wd S → r.peaks.smin < S → thr (1 / p) < S → (∀ z, c.filters.snrMin = some z → z ≤ S) →
            ∃ q ∈ st.peaks, q.dm = m.dm ∧ S ≤ q.snr ∧
              (∃ ip, q.freq = freqAt g ip ∧
                Linked (Significant g thr r.peaks.smin k) (freqAt g) (r.peaks.clrad / (x.length * m.tsamp)) ip j) ∧
              ∃ i ∈ st.clusters, ∃ centre, (st.heap i).centre = .ok centre ∧ S ≤ centre.snr ∧
                Linked (· ∈ st.peaks) (fun p : HPeak ℝ => p.freq) (c.radius / tobsMedian ms) q centre ∧
                ((c.filters.maxNumber = none ∨ c.filters.maxNumber = some 0) → (∀ d, c.filters.dmMin = some d → d ≤ centre.dm) →
                  (c.filters.removeHarmonics = true → (st.heap i).parent = none) →
                  ∃ x ∈ st.candidates, x.params = centre ∧ S ≤ x.params.snr ∧ q ∈ x.data.peaks ∧
                    ∀ e d d', SavesProducts e st d d' → ∃ k, st.candidates[k]? = some x ∧ SavedAs e d' x k) := by
  obtain ⟨k1, k2⟩ := C103_run h
  rw [k2] at hst
  obtain ⟨h1, h2⟩ := C102_run k1 s
  rw [h1] at hst
  obtain ⟨it, hit⟩ : ∃ it, prepare c.prepConf ms = .ok it := by
    unfold pipelineProcess at hst
    obtain ⟨it, hit, -⟩ := bind_ok_inv hst
    exact ⟨it, hit⟩
  have hok := h2 h0 hlt ⟨it, hit⟩
  obtain ⟨m0, hm0, hx0⟩ := hseen
  obtain ⟨hw1, hw2⟩ := narrowestBin_prep hw
  obtain ⟨m1, -, hsel, hseen1⟩ := C94_sensitivity c.prepConf ms hok.cap it hit lo hi n h.band h0 hlt hn w hw1 hw2 dm m0 hm0 hx0
  obtain ⟨m, hm, hmd, hget⟩ := selected_file (c := c.prepConf) hok.cap hit hsel
  rw [← hmd] at hsel hseen1 hget
  obtain ⟨f, hf, hfm⟩ := forall₂_mem_right (mapM_ok_inv _ _ _ h.metas) hm
  obtain ⟨md, hmd', hmm⟩ := bind_ok_inv hfm
  obtain ⟨x, hx, hne, hidx⟩ := h.data f hf
  obtain ⟨hts, hb⟩ := h.tsamp m hm
  obtain ⟨w', o, l1, l2, l3, l4, l5, l6, l7, -, -⟩ := C103_file h.disk hmd' hmm hts hx hne
  have hsg := hsig f hf md m x hmd' hmm hx hseen1
  have hload : (({ t with loader := diskLoader D c.prep.fmt } : PipeTools).env a (tobsMedian ms) lo hi).loader m.fname = .ok (w', 0) := l1
  obtain ⟨w2, id2, o2, hfile⟩ := hok.files m hm
  have e1 := hfile.loads.symm.trans hload
  cases e1
  have e2 := hfile.object.symm.trans l2
  cases e2
  have hlen : w'.lengthOf o = x.length * m.tsamp := by
    unfold World.lengthOf
    rw [l3, l4]
  have key := C101_pulsar _ c ms hok s hs st hst it hit m hsel hget w' 0 o hfile (by rw [l3]; exact hsg.size) r hr hdc
    (by rw [hlen]; exact hsg.twice) (win f) (by rw [l4]; exact hsg.window) P (sig f).phase (sig f).duration (sig f).lo (sig f).hi hP1 hP2 (sig f).pulse
    (by rw [l3, l4]; exact hsg.data) (by rw [l3, l4]; exact hsg.narrow)
  rw [hlen, l3, l4] at key
  obtain ⟨g, j, p, u, a1, a2, a3, a4, a5, a6, a7, a8, a9, a10, a11⟩ := key
  refine ⟨f, hf, md, m, x, hmd', hmm, hx, hseen1, g, j, p, u, a1, a2, a3, a4, a5, a6, a7, a8, a9, a10, ?_⟩
  intro k wd hk hwd
  obtain ⟨thr, hthr, b1⟩ := a11 k wd hk hwd
  refine ⟨thr, hthr, ?_⟩
  rintro S ⟨hS0, K, L, hK, hL, hS⟩ hsm hth hmin
  obtain ⟨q, hq, q1, q2, q3, i, hi', ctr, q4, q5, q6, q7⟩ := b1 K L S hK hL hS0 hS hsm hth hmin
  refine ⟨q, hq, q1, q2, q3, i, hi', ctr, q4, q5, q6, ?_⟩
  intro d1 d2 d3
  obtain ⟨y, hy, y1, y2, y3⟩ := q7 d1 d2 d3
  exact ⟨y, hy, y1, y2, y3, fun e d d' hd => savedAs hd (List.ne_nil_of_mem hq) hy⟩

/-- **C107.** If neighbours among the files that can be selected are not further apart than what broadens a pulse over the band by twice the narrowest
phase bin, then a pulsar of any dispersion measure between the smallest and the largest of them is seen in one of these files. -/
theorem C107_covered {c : PrepConf} {ms : List FileMeta} {lo hi w : ℝ} {n : ℕ} (h0 : 0 < lo) (hlt : lo < hi) (hw : 0 ≤ w)
    (hstep : ∀ a b, Selectable c ms a → Selectable c ms b → a.dm < b.dm → (∀ m, Selectable c ms m → m.dm ≤ a.dm ∨ b.dm ≤ m.dm) →
      bandSmear lo hi (b.dm - a.dm) ≤ 2 * w)
    {dm : ℝ} {first last : FileMeta} (hf : Selectable c ms first) (hl : Selectable c ms last) (h1 : first.dm ≤ dm) (h2 : dm ≤ last.dm) :
    ∃ m, Selectable c ms m ∧ SeenAt lo hi n w m.dm dm := by
  have hfin : ∀ q : FileMeta → Prop, {m | Selectable c ms m ∧ q m}.Finite := fun q =>
    (List.finite_toSet ms).subset fun m hm => hm.1.1
  obtain ⟨p, ⟨hp, hpx⟩, hpm⟩ := Set.exists_max_image _ (fun m : FileMeta => m.dm) (hfin fun m => m.dm ≤ dm) ⟨first, hf, h1⟩
  obtain ⟨q, ⟨hq, hqx⟩, hqm⟩ := Set.exists_min_image _ (fun m : FileMeta => m.dm) (hfin fun m => dm ≤ m.dm) ⟨last, hl, h2⟩
  have hk := kdisp_pos lo hi h0 hlt
  have hsm : ∀ e, bandSmear lo hi e = |e| * kdisp lo hi := by
    intro e
    unfold bandSmear
    rw [delay_eq, delay_eq, ← abs_of_pos hk, ← abs_mul]
    congr 1
    unfold kdisp
    ring
  rcases hpx.eq_or_lt with e | hpl
  · refine ⟨p, hp, ?_⟩
    unfold SeenAt
    rw [hsm, e, sub_self, abs_zero, zero_mul]
    exact hw.trans (le_max_left _ _)
  have hb := hstep p q hp hq (hpl.trans_le hqx) (by
    intro m hm
    rcases le_total m.dm dm with hh | hh
    · exact Or.inl (hpm m ⟨hm, hh⟩)
    · exact Or.inr (hqm m ⟨hm, hh⟩))
  rw [hsm, abs_of_nonneg (by linarith)] at hb
  rcases le_total (dm - p.dm) (q.dm - dm) with hh | hh
  · refine ⟨p, hp, ?_⟩
    unfold SeenAt
    rw [hsm, abs_of_nonneg (by linarith)]
    refine le_trans ?_ (le_max_left _ _)
    nlinarith
  · refine ⟨q, hq, ?_⟩
    unfold SeenAt
    rw [hsm, abs_sub_comm, abs_of_nonneg (by linarith)]
    refine le_trans ?_ (le_max_left _ _)
    nlinarith

/-! ## Example -/

/-- The pulses in the example file of C103. -/
noncomputable def pulsarSignal : FileSignal := ⟨-50 / 3, 3, 0, 1 / 8, fun n => if (3 * n + 50) % 100 ≤ 9 then 10 else 0⟩

theorem hasSamples_unique {D : Disk} {fmt : TsFormat} {f : List Char} {x y : List ℝ} (hx : HasSamples D fmt f x) (hy : HasSamples D fmt f y) : x = y := by
  have key : ∀ (l : List RawSample) (x y : List ℝ), List.Forall₂ (fun r y => sampleReal r = .ok y) l x →
      List.Forall₂ (fun r y => sampleReal r = .ok y) l y → x = y := by
    intro l x y h1
    induction h1 generalizing y with
    | nil => intro h; cases h; rfl
    | cons ha _ ih =>
      intro h
      cases h with
      | cons hb hl => rw [ih _ hl, Except.ok.inj (ha.symm.trans hb)]
  cases fmt with
  | presto =>
    obtain ⟨b, h1, h2⟩ := hx
    obtain ⟨b', h3, h4⟩ := hy
    rw [h1] at h3
    cases h3
    exact key _ _ _ h2 h4
  | sigproc =>
    obtain ⟨b, hd, raw, h1, h1', h1'', h2⟩ := hx
    obtain ⟨b', hd', raw', h3, h3', h3'', h4⟩ := hy
    rw [h1] at h3
    cases h3
    rw [h1'] at h3'
    cases h3'
    rw [h1''] at h3''
    cases h3''
    exact key _ _ _ h2 h4

theorem pulsar_holds : HoldsPulsar pulsarConf pulsarRange (100 / 3) 1 33 pulsarSamples pulsarSignal where
  size := by rw [pulsarSamples_length]; norm_num
  twice := by rw [pulsarSamples_length]; norm_num [pulsarRange]
  window := by norm_num [pulsarConf]
  data := by
    refine ⟨pulsed_example', ?_, 17, by rw [pulsarSamples_length]; norm_num, by norm_num [pulsarSignal]⟩
    intro i hi
    rw [pulsarSamples_length] at hi
    rw [List.getD_eq_getElem?_getD, pulsarSamples_get i hi, Option.getD_some]
    simp only [pulsarSignal]
    split_ifs <;> norm_num
  narrow := by
    rw [pulsarSamples_length]
    refine ⟨?_, ?_⟩
    · intro i hi
      have h : (3 * i + 50) % 100 ≤ 9 := by
        by_contra hc
        simp [pulsarSignal, hc] at hi
      norm_num [pulsarConf]
      omega
    · have f1 : ⌊(3 : ℝ) / 1⌋₊ = 3 := by norm_num
      have f2 : ⌊(100 / 3 : ℝ) / 1⌋₊ = 33 := by rw [Nat.floor_eq_iff (by norm_num)]; norm_num
      simp only [pulsarSignal, f1, f2, pulsarConf]
      decide

/-- In any trial near the period, the pulses are strong enough for an S/N of 10. -/
theorem pulsar_strong {u : Trial} (hu : u.OK 1000 1 pulsarRange.search.periodMin pulsarRange.search.binsMin pulsarRange.search.binsMax) (hf : u.f = 1) :
    pulsarSignal.duration / (100 / 3) * u.b + smearing u ≤ (9 : ℕ) ∧ StrongFor 1000 1 (100 / 3) pulsarSignal u 9 10 := by
  have hb := hu.bins
  simp only [pulsarRange] at hb
  have hm : u.m ≤ 31 ∧ 30 ≤ u.m := by
    rw [hu.rows, hf, div_one, Nat.floor_natCast]
    constructor
    · exact (Nat.div_le_div_left hb.1 (by norm_num)).trans (by norm_num)
    · exact le_trans (by norm_num) (Nat.div_le_div_left hb.2 (by omega))
  have hclog : Nat.clog 2 u.m = 5 := by
    apply le_antisymm
    · exact (Nat.clog_mono_right 2 hm.1).trans (by decide +kernel)
    · exact le_trans (by decide +kernel) (Nat.clog_mono_right 2 hm.2)
  have hbR : (32 : ℝ) ≤ u.b ∧ (u.b : ℝ) ≤ 33 := ⟨by exact_mod_cast hb.1, by exact_mod_cast hb.2⟩
  have hsum : ∑ n ∈ range 960, (if (3 * n + 50) % 100 ≤ 9 then (10 : ℝ) else 0) = 970 := by
    have hc : ∑ n ∈ range 960, (if (3 * n + 50) % 100 ≤ 9 then 10 else 0) = 970 := by decide +kernel
    exact_mod_cast congrArg (Nat.cast (R := ℝ)) hc
  have hsq : ∑ n ∈ range 1000, (if (3 * n + 50) % 100 ≤ 9 then (10 : ℝ) else 0) ^ 2 = 10000 := by
    have hc : ∑ n ∈ range 1000, (if (3 * n + 50) % 100 ≤ 9 then 10 else 0) ^ 2 = 10000 := by decide +kernel
    exact_mod_cast congrArg (Nat.cast (R := ℝ)) hc
  have h1 : (15 / 10 : ℝ) ≤ Real.sqrt (((u.b : ℝ) - (9 : ℕ)) / (9 : ℕ)) := by
    apply Real.le_sqrt_of_sq_le
    push_cast
    linarith [hbR.1]
  have h2 : Real.sqrt ((1000 : ℕ) : ℝ) ≤ 32 := by
    rw [Real.sqrt_le_left (by norm_num)]
    norm_num
  constructor
  · unfold smearing
    rw [if_pos hf, hclog]
    have hmR : (u.m : ℝ) ≤ 31 := by exact_mod_cast hm.1
    simp only [pulsarSignal]
    push_cast
    linarith [hbR.2]
  · refine ⟨by norm_num, 960, 45, by rw [hf]; norm_num, Or.inr ⟨by rw [hf, variance_one], ?_⟩, ?_⟩
    · simp only [pulsarSignal]
      rw [hsum, le_div_iff₀ (Real.sqrt_pos.mpr (by norm_num))]
      calc 45 * Real.sqrt ((1000 : ℕ) : ℝ) ≤ 45 * 32 := mul_le_mul_of_nonneg_left h2 (by norm_num)
        _ ≤ 970 * (15 / 10) := by norm_num
        _ ≤ _ := mul_le_mul_of_nonneg_left h1 (by norm_num)
    · simp only [pulsarSignal]
      rw [hsq]
      have h3 : Real.sqrt ((10000 : ℝ) / (1000 : ℕ)) ≤ 32 / 10 := by
        rw [Real.sqrt_le_left (by norm_num)]
        norm_num
      have h4 : Real.sqrt (2 * ((1000 : ℕ) : ℝ)) ≤ 45 := by
        rw [Real.sqrt_le_left (by norm_num)]
        norm_num
      calc 10 * (Real.sqrt ((10000 : ℝ) / (1000 : ℕ)) + (1 / 8 - 0)) ≤ 10 * (32 / 10 + (1 / 8 - 0)) :=
            mul_le_mul_of_nonneg_left (add_le_add_left h3 _) (by norm_num)
        _ ≤ 45 - 45 * (1 / 8 - 0) := by norm_num
        _ ≤ _ := sub_le_sub_left (mul_le_mul_of_nonneg_right h4 (by norm_num)) _

theorem pulsar_seen : SeenAt 1182 1582 ((400 : ℕ) : ℝ) 1 pulsarFile.dm 11 := by
  unfold SeenAt bandSmear delay pulsarFile
  refine le_trans ?_ (le_max_left _ _)
  rw [abs_le]
  constructor <;> norm_num

theorem sin_bound {dm b : ℝ} (h : 0 ≤ dm) (h' : dm ≤ 45) : dm * |Real.sin b| ≤ 45 :=
  (mul_le_of_le_one_right h (Real.abs_sin_le_one b)).trans h'

/-- The hypotheses of C107 are met by the file of C103 at DM 10, for a pulsar of DM 11. Its candidate is saved. -/
theorem C107_example (e : CandCoding) (d : OutDir) :
    ∃ st d', pipelineFiles pulsarDisk pulsarTools pulsarDict ["a.inf".toList] ⟨fun _ => 1, fun _ => [0]⟩ = .ok st ∧ SavesProducts e st d d' ∧
      ∃ x ∈ st.candidates, 10 ≤ x.params.snr ∧ ∃ k, SavedAs e d' x k := by
  obtain ⟨st, hst, -⟩ := C103_example
  obtain ⟨d', hd, -⟩ := C104_run pulsar_files_ok (by norm_num) (by norm_num) _ pulsar_schedule st hst e d
  refine ⟨st, d', hst, hd, ?_⟩
  obtain ⟨f, hf, md, m, x, h1, h2, h3, h4, g, j, p, u, a1, a2, a3, a4, a5, a6, a7, a8, a9, a10, key⟩ := C107_pulsar pulsar_files_ok (by norm_num)
    (by norm_num) (by norm_num) _ pulsar_schedule st hst 1
    ⟨⟨pulsarRange, by simp [pulsarConf], by norm_num [pulsarRange]⟩, by
      intro r hr
      simp only [pulsarConf, List.mem_singleton] at hr
      rw [hr]
      norm_num [pulsarRange]⟩ 11
    ⟨pulsarFile, ⟨List.mem_singleton.mpr rfl, by rintro a ⟨⟩, by rintro b ⟨⟩, by rintro x ⟨⟩; exact sin_bound (by norm_num [pulsarFile]) (by norm_num [pulsarFile])⟩, pulsar_seen⟩ pulsarRange (by simp [pulsarConf])
    (by norm_num [pulsarRange]) (100 / 3) (by norm_num [pulsarRange]) (by norm_num [pulsarRange]) (fun _ => pulsarSignal) (fun _ => 33) (by
      intro f hf md m x h1 h2 h3 _
      rw [List.mem_singleton.mp hf] at h1 h3
      obtain ⟨md', k1, k2⟩ := pulsarFile_meta
      rw [hasSamples_unique h3 pulsarFile_samples]
      have e1 := Except.ok.inj (h1.symm.trans k1)
      rw [e1] at h2
      rw [Except.ok.inj (h2.symm.trans k2)]
      exact pulsar_holds)
  rw [List.mem_singleton.mp hf] at h1 h3
  obtain ⟨md', k1, k2⟩ := pulsarFile_meta
  have hx := hasSamples_unique h3 pulsarFile_samples
  have e1 := Except.ok.inj (h1.symm.trans k1)
  rw [e1] at h2
  have e2 := Except.ok.inj (h2.symm.trans k2)
  subst hx e2
  rw [pulsarSamples_length] at a5 key
  have hts : pulsarFile.tsamp = 1 := rfl
  rw [hts] at a5 a7 a10 key
  have hf1 := first_stage a5 a6 one_pos (by norm_num [pulsarRange]) a8 a7 (by norm_num [pulsarRange]) (by norm_num [pulsarRange]; linarith)
  obtain ⟨s1, s2⟩ := pulsar_strong a5 hf1
  obtain ⟨thr, hthr, k3⟩ := key 5 9 (by rw [a1]; exact widths_example) s1
  have hthr5 : thr (1 / p) = 7 := by
    unfold thresholdOf dynThreshold at hthr
    obtain ⟨⟨fc, smed, sstd⟩, _, h3⟩ := map_ok_inv hthr
    rw [← h3]
    have hfit : pulsarTools.fit = fun _ _ _ => 7 := rfl
    rw [hfit]
    simp only
    split_ifs <;> rfl
  obtain ⟨q, hq, -, -, -, i, hi, ctr, -, -, -, k4⟩ := k3 10 s2 (by norm_num [pulsarRange]) (by rw [hthr5]; norm_num) (by
      intro t ht
      simp only [pulsarConf, Option.some.injEq] at ht
      rw [← ht]
      norm_num)
  obtain ⟨y, hy, -, y2, -, y3⟩ := k4 (Or.inl rfl) (by rintro d ⟨⟩) (by rintro ⟨⟩)
  obtain ⟨k, -, hk⟩ := y3 e d d' hd
  exact ⟨y, hy, y2, k, hk⟩

/-- Files at DM 0 and 40, 400 MHz at L band: with phase bins of 0.03 s, every DM in between is covered. -/
example : ∃ m, Selectable pulsarConf.prepConf [{ pulsarFile with dm := 0 }, { pulsarFile with dm := 40 }] m ∧
    SeenAt 1182 1582 ((400 : ℕ) : ℝ) (3 / 100) m.dm 30 := by
  refine C107_covered (first := { pulsarFile with dm := 0 }) (last := { pulsarFile with dm := 40 }) (by norm_num) (by norm_num) (by norm_num) ?_
    ⟨by simp, by rintro a ⟨⟩, by rintro b ⟨⟩, by rintro x ⟨⟩; exact sin_bound (by norm_num) (by norm_num)⟩
    ⟨by simp, by rintro a ⟨⟩, by rintro b ⟨⟩, by rintro x ⟨⟩; exact sin_bound (by norm_num) (by norm_num)⟩ (by norm_num) (by norm_num)
  rintro a b ⟨ha, -⟩ ⟨hb, -⟩ hab -
  have h1 : 0 ≤ a.dm ∧ a.dm ≤ 40 := by
    simp only [List.mem_cons, List.not_mem_nil, or_false] at ha
    rcases ha with rfl | rfl <;> norm_num
  have h2 : 0 ≤ b.dm ∧ b.dm ≤ 40 := by
    simp only [List.mem_cons, List.not_mem_nil, or_false] at hb
    rcases hb with rfl | rfl <;> norm_num
  unfold bandSmear delay
  rw [abs_le]
  constructor <;> norm_num <;> linarith

end Verif.Props
