import Verif.Lemmas.PeaksF
import Verif.Props.Peaks
import Verif.Props.DereddenF

/-!
# C121: clustering and peak detection in double precision
-/

namespace Verif.Props

open Verif.Model Verif.Spec Verif.Lemmas

/-- C121. `cluster1d` in double precision: the friends-of-friends partition for a radius `r'` between `r` and `(1 + 2^-51) r`. Points at a distance of at most `r` are always
in the same cluster, and clusters are always further apart than `r`. -/
theorem C121_cluster {A : DArith} (hA : Sane A) (argsort : List ℚ → List ℕ) (ha : IsArgsort argsort) (x : List ℚ) {r : ℚ} (hr : 0 ≤ r) (sorted : Bool)
    (hsorted : sorted = true → x.Pairwise (· ≤ ·) ∨ x.Pairwise (· ≥ ·)) :
    ∃ r', r ≤ r' ∧ r' ≤ (1 + 1 / 2 ^ 51) * r ∧
    (∀ c ∈ A.cluster1d argsort x (A.fl r) sorted, c ≠ []) ∧ (A.cluster1d argsort x (A.fl r) sorted).flatten.Perm (List.range x.length) ∧
    (∀ i j, i < x.length → j < x.length →
      ((∃ c ∈ A.cluster1d argsort x (A.fl r) sorted, i ∈ c ∧ j ∈ c) ↔ Linked (· < x.length) (fun k => x.getD k 0) r' i j)) ∧
    ∀ c ∈ A.cluster1d argsort x (A.fl r) sorted, ∀ c' ∈ A.cluster1d argsort x (A.fl r) sorted, c ≠ c' → ∀ i ∈ c, ∀ j ∈ c', r < |x.getD i 0 - x.getD j 0| := by
  obtain ⟨r', h1, h2, h3⟩ := cluster1d_rounded hA argsort x hr sorted
  rw [h3]
  obtain ⟨c1, c2, c3⟩ := C29_cluster1d argsort ha x r' sorted hsorted
  exact ⟨r', h1, h2, c1, c2, c3, fun c hc c' hc' hne i hi j hj => h1.trans_lt (C29_separation argsort ha x r' sorted hsorted c c' hc hc' hne i j hi hj)⟩

/-! ## Peaks -/

/-- A periodogram whose arrays have matching sizes. -/
structure PgramFOK (g : PgramF) : Prop where
  foldbins : g.foldbins.length = g.periods.length
  snrs : g.snrs.length = g.periods.length
  row : ∀ row ∈ g.snrs, row.length = g.widths.length

/-- S/N at period trial `i` and width trial `iw`. -/
def snrAtF (g : PgramF) (iw i : ℕ) : ℝ := (g.snrs.getD i []).getD iw 0

/-- Frequency of period trial `i`. -/
def freqAtF (A : DArith) (g : PgramF) (i : ℕ) : ℚ := A.fl (1 / g.periods.getD i 0)

/-- A point of width trial `iw` exceeds both thresholds. -/
def SignificantF (g : PgramF) (thr : ℕ → ℝ) (smin : ℝ) (iw i : ℕ) : Prop :=
  i < g.periods.length ∧ thr i < snrAtF g iw i ∧ smin < snrAtF g iw i

theorem freqsF_getD (A : DArith) (g : PgramF) (i : ℕ) (hi : i < g.periods.length) : (g.freqs A).getD i 0 = freqAtF A g i := by
  simp [PgramF.freqs, freqAtF, List.getD, List.getElem?_eq_getElem hi]

theorem columnF_getD (g : PgramF) (iw i : ℕ) (hi : i < g.snrs.length) : (g.column iw).getD i 0 = snrAtF g iw i := by
  simp [PgramF.column, snrAtF, List.getD, List.getElem?_eq_getElem hi]

/-- The indices returned for one width trial. -/
theorem selectPeaksF_spec {A : DArith} (hA : Sane A) (argsort : List ℚ → List ℕ) (ha : IsArgsort argsort) (thr : ℕ → ℝ) (smin : ℝ) {r : ℚ} (hr : 0 ≤ r) (g : PgramF)
    (hg : PgramFOK g) (iw : ℕ) :
    let R := A.selectPeaks argsort thr smin (A.fl r) (g.freqs A) (g.column iw)
    let S := SignificantF g thr smin iw
    ∃ r', r ≤ r' ∧ r' ≤ (1 + 1 / 2 ^ 51) * r ∧
    (∀ i ∈ R, S i) ∧ (∀ i ∈ R, ∀ j, Linked S (freqAtF A g) r' i j → snrAtF g iw j ≤ snrAtF g iw i) ∧
    (∀ j, S j → ∃ i ∈ R, Linked S (freqAtF A g) r' i j) ∧ R.Pairwise (fun i j => ¬ Linked S (freqAtF A g) r' i j) := by
  classical
  intro R S
  set f := g.freqs A with hf
  set s := g.column iw with hs
  set idx := (List.range f.length).filter (fun i => s.getD i 0 > thr i ∧ s.getD i 0 > smin) with hidx
  have hflen : f.length = g.periods.length := by simp [hf, PgramF.freqs]
  have hmem : ∀ i, i ∈ idx ↔ S i := by
    intro i
    rw [hidx, List.mem_filter, List.mem_range, hflen]
    constructor
    · rintro ⟨h1, h2⟩
      rw [columnF_getD g iw i (by rw [hg.snrs]; exact h1)] at h2
      exact ⟨h1, by simpa using h2⟩
    · rintro ⟨h1, h2⟩
      rw [columnF_getD g iw i (by rw [hg.snrs]; exact h1)]
      exact ⟨h1, by simpa using h2⟩
  have hnd : idx.Nodup := List.Nodup.filter _ List.nodup_range
  obtain ⟨r', r1, r2, r3⟩ := cluster1d_rounded hA argsort (idx.map (fun i => f.getD i 0)) hr false
  have hfof := cluster_sel_fof argsort ha (fun i => f.getD i 0) idx hnd r'
  have hb := fof_best hfof (fun i => s.getD i 0) (fun ix => ix.getD (argmax (ix.map (fun i => s.getD i 0))) 0)
    (fun c hc => best_spec _ c hc)
  have hR : R = (((Model.cluster1d argsort (idx.map (fun i => f.getD i 0)) r' false).map
      (fun cl => cl.map (fun k => idx.getD k 0))).map (fun ix => ix.getD (argmax (ix.map (fun i => s.getD i 0))) 0)) := by
    rw [List.map_map, ← r3, hidx]
    unfold R DArith.selectPeaks
    congr!
  rw [← hR] at hb
  obtain ⟨h1, h2, h3, h4⟩ := hb
  have hl : ∀ i j, Linked (· ∈ idx) (fun i => f.getD i 0) r' i j ↔ Linked S (freqAtF A g) r' i j := by
    intro i j
    exact linked_congr hmem (fun i hi => freqsF_getD A g i ((hmem i).mp hi).1)
  refine ⟨r', r1, r2, fun i hi => (hmem i).mp (h1 i hi), ?_, ?_, ?_⟩
  · intro i hi j hj
    have hSi := (hmem i).mp (h1 i hi)
    have hSj : S j := linked_mem hj hSi
    rw [← columnF_getD g iw i (by rw [hg.snrs]; exact hSi.1), ← columnF_getD g iw j (by rw [hg.snrs]; exact hSj.1)]
    exact h2 i hi j ((hl i j).mpr hj)
  · intro j hj
    obtain ⟨i, hi, hij⟩ := h3 j ((hmem j).mpr hj)
    exact ⟨i, hi, (hl i j).mp hij⟩
  · exact h4.imp (fun h hh => h ((hl _ _).mpr hh))

/-- The peak made from period trial `ip` of width trial `iw`. -/
def peakAtF (A : DArith) (g : PgramF) (iw width ip : ℕ) : PeakF :=
  { freq := freqAtF A g ip, period := A.fl (1 / freqAtF A g ip), width, ducy := A.fl ((width : ℚ) / (g.foldbins.getD ip 0 : ℕ)),
    iw, ip, snr := snrAtF g iw ip }

/-- The threshold: the fitted polynomial if there are at least `minseg` segments, otherwise the constant `smin`. -/
def thresholdF (poly : ℕ → ℝ) (p : PeakParamsF) (m : ℕ) : ℕ → ℝ := if m ≥ p.minseg then poly else fun _ => p.smin

theorem peaksOfWidthF_inv {A : DArith} (hA : Sane A) (argsort : List ℚ → List ℕ) (ha : IsArgsort argsort) (poly : ℕ → ℝ) (p : PeakParamsF) (g : PgramF)
    (hr : 0 ≤ p.clrad / g.tobs) (hg : PgramFOK g) (iw width : ℕ) (b : List PeakF) (h : A.peaksOfWidth argsort poly p g iw width = .ok b) :
    ∃ m, A.segments (g.freqs A) g.tobs p.segwidth = .ok m ∧
      b = (A.selectPeaks argsort (thresholdF poly p m) p.smin (A.fl (p.clrad / g.tobs)) (g.freqs A) (g.column iw)).map (peakAtF A g iw width) := by
  unfold DArith.peaksOfWidth DArith.findPeaksSingle at h
  simp only at h
  cases ht : A.segments (g.freqs A) g.tobs p.segwidth with
  | error e => rw [ht] at h; simp [Except.map] at h
  | ok m =>
    rw [ht] at h
    simp only [Except.map, Except.ok.injEq] at h
    refine ⟨m, rfl, ?_⟩
    rw [← h]
    unfold thresholdF
    apply List.map_congr_left
    intro i hi
    obtain ⟨_, _, _, h1, _⟩ := selectPeaksF_spec hA argsort ha (if m ≥ p.minseg then poly else fun _ => p.smin) p.smin hr g hg iw
    have hlt := (h1 i hi).1
    rw [freqsF_getD A g i hlt, columnF_getD g iw i (by rw [hg.snrs]; exact hlt)]
    rfl

theorem sortPeaksF_perm (l : List PeakF) : (sortPeaksF l).Perm l := List.mergeSort_perm _ _

theorem sortPeaksF_sorted (l : List PeakF) : (sortPeaksF l).Pairwise (fun a b => b.snr ≤ a.snr) := by
  classical
  have := List.pairwise_mergeSort (le := fun a b : PeakF => decide (b.snr ≤ a.snr))
    (fun a b c h1 h2 => by simp only [decide_eq_true_eq] at *; exact le_trans h2 h1)
    (fun a b => by simp only [Bool.or_eq_true, decide_eq_true_eq]; exact le_total _ _) l
  have e : sortPeaksF l = l.mergeSort (fun a b => decide (b.snr ≤ a.snr)) := by
    unfold sortPeaksF
    congr!
  rw [e]
  exact this.imp (fun h => by simpa using h)

/-- Inversion of a successful `find_peaks`. -/
theorem findPeaksF_inv {A : DArith} (hA : Sane A) (argsort : List ℚ → List ℕ) (ha : IsArgsort argsort) (poly : ℕ → ℕ → ℝ) (p : PeakParamsF) (g : PgramF)
    (hr : 0 ≤ p.clrad / g.tobs) (hg : PgramFOK g) (hw : g.widths ≠ []) (peaks : List PeakF) (h : A.findPeaks argsort poly p g = .ok peaks) :
    ∃ m, A.segments (g.freqs A) g.tobs p.segwidth = .ok m ∧
      peaks.Perm (g.widths.zipIdx.flatMap (fun wi =>
        (A.selectPeaks argsort (thresholdF (poly wi.2) p m) p.smin (A.fl (p.clrad / g.tobs)) (g.freqs A) (g.column wi.2)).map (peakAtF A g wi.2 wi.1))) ∧
      peaks.Pairwise (fun a b => b.snr ≤ a.snr) := by
  unfold DArith.findPeaks at h
  have hfun : (fun (width, iw) => A.peaksOfWidth argsort (poly iw) p g iw width) =
      (fun wi : ℕ × ℕ => A.peaksOfWidth argsort (poly wi.2) p g wi.2 wi.1) := rfl
  rw [hfun] at h
  cases hm : g.widths.zipIdx.mapM (fun (wi : ℕ × ℕ) => A.peaksOfWidth argsort (poly wi.2) p g wi.2 wi.1) with
  | error e => rw [hm] at h; simp [Except.map] at h
  | ok ls =>
    rw [hm] at h
    simp only [Except.map, Except.ok.injEq] at h
    have h2 := mapM_ok_inv _ _ _ hm
    have h3 := forall2_ok _ _ _ h2
    obtain ⟨w, ws, hws⟩ := List.exists_cons_of_ne_nil hw
    obtain ⟨b, hb⟩ := h3 (w, 0) (by rw [hws]; simp)
    obtain ⟨m, ht, -⟩ := peaksOfWidthF_inv hA argsort ha _ p g hr hg _ _ _ hb
    refine ⟨m, ht, ?_, ?_⟩
    · rw [← h]
      refine (sortPeaksF_perm _).trans ?_
      rw [forall2_map _ (fun wi : ℕ × ℕ => (A.selectPeaks argsort (thresholdF (poly wi.2) p m) p.smin (A.fl (p.clrad / g.tobs)) (g.freqs A)
        (g.column wi.2)).map (peakAtF A g wi.2 wi.1)) _ _ h2 ?_, List.flatMap_def]
      intro wi _ b hb
      obtain ⟨m', ht', hbt⟩ := peaksOfWidthF_inv hA argsort ha _ p g hr hg _ _ _ hb
      rw [ht] at ht'
      cases ht'
      exact hbt
    · rw [← h]
      exact sortPeaksF_sorted _

/-- Two roundings of a reciprocal. -/
theorem recip_twice {A : DArith} (hA : Sane A) {x : ℚ} (hx : 0 < x) :
    |A.fl (1 / x) - 1 / x| ≤ 1 / 2 ^ 53 * (1 / x) ∧ |A.fl (1 / A.fl (1 / x)) - x| ≤ 1 / 2 ^ 51 * x := by
  have h0 : 0 < 1 / x := by positivity
  have h1 := hA.rel (1 / x) h0.le
  unfold u53 at h1
  refine ⟨h1, ?_⟩
  set f := A.fl (1 / x) with hf
  obtain ⟨l1, l2⟩ := abs_le.mp h1
  have hxx : 1 / x * x = 1 := one_div_mul_cancel hx.ne'
  have hf0 : 0 < f := by linarith
  have f1 : (1 - 1 / 2 ^ 53) ≤ f * x := by
    have := mul_le_mul_of_nonneg_right (show (1 - 1 / 2 ^ 53) * (1 / x) ≤ f by linarith) hx.le
    rwa [mul_assoc, hxx, mul_one] at this
  have f2 : f * x ≤ 1 + 1 / 2 ^ 53 := by
    have := mul_le_mul_of_nonneg_right (show f ≤ (1 + 1 / 2 ^ 53) * (1 / x) by linarith) hx.le
    rwa [mul_assoc, hxx, mul_one] at this
  have hg0 : 0 < 1 / f := by positivity
  have h2 := hA.rel (1 / f) hg0.le
  unfold u53 at h2
  obtain ⟨g1, g2⟩ := abs_le.mp h2
  have hgf : 1 / f * f = 1 := one_div_mul_cancel hf0.ne'
  have u1 : 1 / f ≤ (1 + 1 / 2 ^ 52) * x := by
    rw [div_le_iff₀ hf0]
    nlinarith
  have u2 : (1 - 1 / 2 ^ 52) * x ≤ 1 / f := by
    rw [le_div_iff₀ hf0]
    nlinarith
  rw [abs_le]
  constructor <;> linarith

/-- C121. `find_peaks` in double precision. Every peak is an entry of the periodogram, with its S/N unchanged and with rounded frequency, period and duty cycle; it exceeds both
thresholds and is the highest of all significant points that it is linked with, for a clustering radius between `clrad / T` and `(1 + 2^-51) clrad / T`. Every significant
point is linked to exactly one peak of its width trial, which is at least as high. The frequencies of two peaks of a width trial differ by more than `clrad / T`. The peaks are
sorted by decreasing S/N. -/
theorem C121_peaks {A : DArith} (hA : Sane A) (argsort : List ℚ → List ℕ) (ha : IsArgsort argsort) (poly : ℕ → ℕ → ℝ) (p : PeakParamsF) (g : PgramF)
    (hr : 0 ≤ p.clrad / g.tobs) (hg : PgramFOK g) (hw : g.widths ≠ []) (peaks : List PeakF) (h : A.findPeaks argsort poly p g = .ok peaks) :
    ∃ (m : ℕ) (rad : ℕ → ℚ), A.segments (g.freqs A) g.tobs p.segwidth = .ok m ∧
      (∀ iw, p.clrad / g.tobs ≤ rad iw ∧ rad iw ≤ (1 + 1 / 2 ^ 51) * (p.clrad / g.tobs)) ∧
      (∀ q ∈ peaks, ∃ P nb row, g.periods[q.ip]? = some P ∧ g.foldbins[q.ip]? = some nb ∧ g.widths[q.iw]? = some q.width ∧
        g.snrs[q.ip]? = some row ∧ row[q.iw]? = some q.snr ∧ q.freq = A.fl (1 / P) ∧ q.period = A.fl (1 / q.freq) ∧ q.ducy = A.fl ((q.width : ℚ) / nb) ∧
        thresholdF (poly q.iw) p m q.ip < q.snr ∧ p.smin < q.snr ∧
        ∀ j, Linked (SignificantF g (thresholdF (poly q.iw) p m) p.smin q.iw) (freqAtF A g) (rad q.iw) q.ip j → snrAtF g q.iw j ≤ q.snr) ∧
      (∀ iw < g.widths.length, ∀ i, SignificantF g (thresholdF (poly iw) p m) p.smin iw i →
        ∃! q, (q ∈ peaks ∧ q.iw = iw ∧ Linked (SignificantF g (thresholdF (poly iw) p m) p.smin iw) (freqAtF A g) (rad iw) q.ip i) ∧ snrAtF g iw i ≤ q.snr) ∧
      peaks.Pairwise (fun a b => a.iw = b.iw → p.clrad / g.tobs < |a.freq - b.freq|) ∧
      peaks.Pairwise (fun a b => b.snr ≤ a.snr) := by
  obtain ⟨m, h1, h2, h3⟩ := findPeaksF_inv hA argsort ha poly p g hr hg hw peaks h
  choose rad r1 r2 s1 s2 s3 s4 using fun iw => selectPeaksF_spec hA argsort ha (thresholdF (poly iw) p m) p.smin hr g hg iw
  refine ⟨m, rad, h1, fun iw => ⟨r1 iw, r2 iw⟩, ?_, ?_, ?_, h3⟩
  · intro q hq
    have hq := h2.mem_iff.mp hq
    obtain ⟨⟨w, iw⟩, hwi, hq⟩ := List.mem_flatMap.mp hq
    obtain ⟨ip, hip, rfl⟩ := List.mem_map.mp hq
    simp only at hip
    rw [List.mem_zipIdx_iff_getElem?] at hwi
    simp only at hwi
    have hiw : iw < g.widths.length := by
      by_contra hn
      rw [List.getElem?_eq_none (not_lt.mp hn)] at hwi
      simp at hwi
    obtain ⟨hlt, ht1, ht2⟩ := s1 iw ip hip
    have hltf : ip < g.foldbins.length := by rw [hg.foldbins]; exact hlt
    have hlts : ip < g.snrs.length := by rw [hg.snrs]; exact hlt
    have hrow : iw < g.snrs[ip].length := by rw [hg.row _ (List.getElem_mem hlts)]; exact hiw
    refine ⟨g.periods[ip], g.foldbins[ip], g.snrs[ip], List.getElem?_eq_getElem hlt, List.getElem?_eq_getElem hltf, hwi,
      List.getElem?_eq_getElem hlts, ?_, ?_, rfl, ?_, ht1, ht2, s2 iw ip hip⟩
    · simp only [peakAtF]
      rw [List.getElem?_eq_getElem hrow]
      simp [snrAtF, List.getD, List.getElem?_eq_getElem hlts, List.getElem?_eq_getElem hrow]
    · simp [peakAtF, freqAtF, List.getD, List.getElem?_eq_getElem hlt]
    · simp [peakAtF, List.getD, List.getElem?_eq_getElem hltf]
  · intro iw hiw i hi
    obtain ⟨j, hj, hl⟩ := s3 iw i hi
    refine ⟨peakAtF A g iw g.widths[iw] j, ⟨⟨?_, rfl, hl⟩, s2 iw j hj i hl⟩, ?_⟩
    · rw [h2.mem_iff, List.mem_flatMap]
      refine ⟨(g.widths[iw], iw), ?_, List.mem_map.mpr ⟨j, hj, rfl⟩⟩
      rw [List.mem_zipIdx_iff_getElem?]
      simp [hiw]
    · rintro q ⟨⟨hq, hqiw, hql⟩, -⟩
      rw [h2.mem_iff, List.mem_flatMap] at hq
      obtain ⟨⟨w, iw'⟩, hwi, hq⟩ := hq
      obtain ⟨j', hj', rfl⟩ := List.mem_map.mp hq
      have hii : iw' = iw := hqiw
      subst hii
      rw [List.mem_zipIdx_iff_getElem?, List.getElem?_eq_getElem hiw] at hwi
      simp only [Option.some.injEq] at hwi
      have hjj : j' = j := by
        by_contra hne
        have hsym : Std.Symm (fun i j => ¬ Linked (SignificantF g (thresholdF (poly iw') p m) p.smin iw') (freqAtF A g) (rad iw') i j) :=
          ⟨fun a b h h' => h (linked_symm h')⟩
        have hnl := (s4 iw').forall hj' hj hne
        exact hnl (Relation.ReflTransGen.trans hql (linked_symm hl))
      rw [hjj, hwi]
  · have hsym : Std.Symm (fun a b : PeakF => a.iw = b.iw → p.clrad / g.tobs < |a.freq - b.freq|) :=
      ⟨fun a b h h' => by rw [abs_sub_comm]; exact h h'.symm⟩
    refine (h2.pairwise_iff (fun {a b} => hsym.symm a b)).mpr ?_
    rw [List.pairwise_flatMap]
    constructor
    · rintro ⟨w, iw⟩ hwi
      rw [List.pairwise_map]
      refine List.Pairwise.imp_of_mem ?_ (s4 iw)
      intro a b ha' hb' hab _
      refine (r1 iw).trans_lt ?_
      by_contra hn
      exact hab (Relation.ReflTransGen.single ⟨s1 iw a ha', s1 iw b hb', not_lt.mp hn⟩)
    · have hnd : g.widths.zipIdx.Pairwise (fun a b => a.2 ≠ b.2) := by
        have : (g.widths.zipIdx.map Prod.snd).Nodup := by
          rw [List.zipIdx_map_snd]
          exact List.nodup_range'
        exact List.pairwise_map.mp this
      refine hnd.imp ?_
      rintro ⟨w, iw⟩ ⟨w', iw'⟩ hne a ha' b hb' hab
      obtain ⟨j, -, rfl⟩ := List.mem_map.mp ha'
      obtain ⟨j', -, rfl⟩ := List.mem_map.mp hb'
      exact absurd hab hne

/-- C121. The rounded frequency of a peak is accurate to one rounding, its period to two. -/
theorem C121_accuracy {A : DArith} (hA : Sane A) (argsort : List ℚ → List ℕ) (ha : IsArgsort argsort) (poly : ℕ → ℕ → ℝ) (p : PeakParamsF) (g : PgramF)
    (hr : 0 ≤ p.clrad / g.tobs) (hg : PgramFOK g) (hw : g.widths ≠ []) (hpos : ∀ P ∈ g.periods, 0 < P) (peaks : List PeakF)
    (h : A.findPeaks argsort poly p g = .ok peaks) (q : PeakF) (hq : q ∈ peaks) :
    ∃ P nb, g.periods[q.ip]? = some P ∧ g.foldbins[q.ip]? = some nb ∧ |q.freq - 1 / P| ≤ 1 / 2 ^ 53 * (1 / P) ∧ |q.period - P| ≤ 1 / 2 ^ 51 * P ∧
      |q.ducy - q.width / nb| ≤ 1 / 2 ^ 53 * (q.width / nb) := by
  obtain ⟨m, rad, _, _, h3, _⟩ := C121_peaks hA argsort ha poly p g hr hg hw peaks h
  obtain ⟨P, nb, _, e1, e2, _, _, _, e3, e4, e5, _⟩ := h3 q hq
  obtain ⟨a1, a2⟩ := recip_twice hA (hpos P (List.mem_of_getElem? e1))
  have a3 := hA.rel ((q.width : ℚ) / nb) (by positivity)
  unfold u53 at a3
  refine ⟨P, nb, e1, e2, by rw [e3]; exact a1, by rw [e4, e3]; exact a2, by rw [e5]; exact a3⟩

/-- C121. `find_peaks` fails on exactly the periodograms for which no number of segments can be determined. -/
theorem C121_success {A : DArith} (argsort : List ℚ → List ℕ) (poly : ℕ → ℕ → ℝ) (p : PeakParamsF) (g : PgramF) (hw : g.widths ≠ []) :
    (∃ peaks, A.findPeaks argsort poly p g = .ok peaks) ↔ ∃ m, A.segments (g.freqs A) g.tobs p.segwidth = .ok m := by
  have hfun : (fun (width, iw) => A.peaksOfWidth argsort (poly iw) p g iw width) =
      (fun wi : ℕ × ℕ => A.peaksOfWidth argsort (poly wi.2) p g wi.2 wi.1) := rfl
  unfold DArith.findPeaks
  rw [hfun]
  cases hs : A.segments (g.freqs A) g.tobs p.segwidth with
  | error e =>
    obtain ⟨w, ws, hws⟩ := List.exists_cons_of_ne_nil hw
    rw [hws, List.zipIdx_cons, List.mapM_cons]
    simp [DArith.peaksOfWidth, DArith.findPeaksSingle, hs, Except.map, bind, Except.bind]
  | ok m =>
    have : ∀ l : List (ℕ × ℕ), ∃ r, l.mapM (fun wi : ℕ × ℕ => A.peaksOfWidth argsort (poly wi.2) p g wi.2 wi.1) = .ok r := by
      intro l
      induction l with
      | nil => exact ⟨[], rfl⟩
      | cons a l ih =>
        obtain ⟨r, hr⟩ := ih
        rw [List.mapM_cons, hr]
        simp [DArith.peaksOfWidth, DArith.findPeaksSingle, hs, Except.map, bind, Except.bind, pure, Except.pure]
    obtain ⟨r, hr⟩ := this g.widths.zipIdx
    rw [hr]
    simp [Except.map]

/-- C121. The number of segments in double precision, and when there is none. -/
theorem C121_segments {A : DArith} (hA : Sane A) (f : List ℚ) {T segwidth f0 f1 : ℚ} (hT : 0 < T) (hs : 0 < segwidth) (h0 : f.head? = some f0)
    (h1 : f.getLast? = some f1) {X : ℚ} (hX : X = |f1 - f0| / (segwidth / T)) :
    (∀ m, A.segments f T segwidth = .ok m → 1 ≤ m ∧ m ≤ f.length ∧ (1 - 1 / 2 ^ 50) * X ≤ m ∧ (m : ℚ) < (1 + 1 / 2 ^ 50) * X + 1) ∧
    (f0 = f1 → A.segments f T segwidth = .error .zeroDivisionError) ∧
    (f0 ≠ f1 → (1 + 1 / 2 ^ 50) * X ≤ f.length → ∃ m, A.segments f T segwidth = .ok m) := by
  have hw0 : 0 < segwidth / T := div_pos hs hT
  obtain ⟨w1, w2⟩ := abs_le.mp (hA.rel (segwidth / T) hw0.le)
  obtain ⟨d1, d2⟩ := abs_le.mp (hA.rel |f1 - f0| (abs_nonneg _))
  unfold u53 at w1 w2 d1 d2
  set w := A.fl (segwidth / T) with hw
  set d := A.fl |f1 - f0| with hd
  have hwp : 0 < w := by linarith
  have hdn : 0 ≤ d := by
    have := abs_nonneg (f1 - f0)
    linarith
  obtain ⟨q1, q2⟩ := abs_le.mp (hA.rel (d / w) (div_nonneg hdn hwp.le))
  unfold u53 at q1 q2
  have hX0 : 0 ≤ X := by rw [hX]; exact div_nonneg (abs_nonneg _) hw0.le
  have hXd : X * (segwidth / T) = |f1 - f0| := by rw [hX]; exact div_mul_cancel₀ _ hw0.ne'
  have bu : d / w ≤ (1 + 1 / 2 ^ 53) * (1 + 1 / 2 ^ 52) * X := by
    rw [div_le_iff₀ hwp]
    nlinarith
  have bl : (1 - 1 / 2 ^ 52) * (1 - 1 / 2 ^ 53) * X ≤ d / w := by
    rw [le_div_iff₀ hwp]
    nlinarith
  have up : A.fl (d / w) ≤ (1 + 1 / 2 ^ 50) * X := by nlinarith
  have lo : (1 - 1 / 2 ^ 50) * X ≤ A.fl (d / w) := by nlinarith
  have hseg : A.segments f T segwidth = if ⌈A.fl (d / w)⌉₊ = 0 then .error .zeroDivisionError
      else if f.length / ⌈A.fl (d / w)⌉₊ = 0 then .error .unspecified else .ok ⌈A.fl (d / w)⌉₊ := by
    unfold DArith.segments
    rw [if_neg hT.ne', h0, h1]
    simp only
    rw [if_neg hwp.ne']
  rw [hseg]
  refine ⟨?_, ?_, ?_⟩
  · intro m hm
    split_ifs at hm with c1 c2
    have hm := Except.ok.inj hm
    subst hm
    refine ⟨Nat.pos_of_ne_zero c1, ?_, lo.trans (Nat.le_ceil _), ?_⟩
    · by_contra hn
      exact c2 (Nat.div_eq_of_lt (not_le.mp hn))
    · have := Nat.ceil_lt_add_one (a := A.fl (d / w)) (le_trans (mul_nonneg (by norm_num) hX0) lo)
      linarith
  · intro e
    rw [if_pos]
    rw [Nat.ceil_eq_zero]
    have : X = 0 := by rw [hX, e, sub_self, abs_zero, zero_div]
    rw [this, mul_zero] at up
    exact up
  · intro hne hle
    have hXp : 0 < X := by rw [hX]; exact div_pos (abs_pos.mpr (sub_ne_zero.mpr hne.symm)) hw0
    have hc : 0 < ⌈A.fl (d / w)⌉₊ := by
      rw [Nat.ceil_pos]
      refine lt_of_lt_of_le (mul_pos (by norm_num) hXp) lo
    have hcl : ⌈A.fl (d / w)⌉₊ ≤ f.length := Nat.ceil_le.mpr (up.trans hle)
    rw [if_neg hc.ne', if_neg (Nat.div_pos hcl hc).ne']
    exact ⟨_, rfl⟩

/-! ## The table of `rseek` -/

/-- Chains between positions of a list and between its elements are the same for `r ≥ 0`. -/
theorem linked_list {α : Type*} (l : List α) (x : α → ℚ) (r : ℚ) (hr : 0 ≤ r) (i j : ℕ) (a b : α) (ha : l[i]? = some a) (hb : l[j]? = some b) :
    Linked (· < (l.map x).length) (fun k => (l.map x).getD k 0) r i j ↔ Linked (· ∈ l) x r a b := by
  have hx : ∀ k q, l[k]? = some q → (l.map x).getD k 0 = x q := by
    intro k q hq
    simp [List.getD, hq]
  have hlt : ∀ k q, l[k]? = some q → k < (l.map x).length := by
    intro k q hq
    rw [List.length_map]
    by_contra hn
    rw [List.getElem?_eq_none (not_lt.mp hn)] at hq
    simp at hq
  constructor
  · intro h
    induction h generalizing b with
    | refl => rw [ha] at hb; cases hb; exact Relation.ReflTransGen.refl
    | tail _ hstep ih =>
      rename_i k m _
      obtain ⟨h1, h2, h3⟩ := hstep
      rw [List.length_map] at h1
      have hk := List.getElem?_eq_getElem h1
      refine Relation.ReflTransGen.tail (ih _ hk) ⟨List.getElem_mem h1, List.mem_of_getElem? hb, ?_⟩
      simp only [hx k _ hk, hx m _ hb] at h3
      exact h3
  · intro h
    induction h generalizing j with
    | refl =>
      refine Relation.ReflTransGen.single ⟨hlt i a ha, hlt j a hb, ?_⟩
      simp only [hx i a ha, hx j a hb, sub_self, abs_zero]
      exact hr
    | tail _ hstep ih =>
      obtain ⟨h1, h2, h3⟩ := hstep
      obtain ⟨k, hk, hkc⟩ := List.mem_iff_getElem.mp h1
      have hk' := List.getElem?_eq_getElem hk
      rw [hkc] at hk'
      refine Relation.ReflTransGen.tail (ih k hk') ⟨hlt k _ hk', hlt j _ hb, ?_⟩
      simp only [hx k _ hk', hx j _ hb]
      exact h3

theorem maxPeakF_spec (l : List PeakF) (hl : l ≠ []) : ∃ m, maxPeakF l = some m ∧ m ∈ l ∧ ∀ q ∈ l, q.snr ≤ m.snr := by
  classical
  have key : ∀ (l : List PeakF) (a : PeakF), ∃ m, l.foldl (fun m b => if m.snr < b.snr then b else m) a = m ∧ (m = a ∨ m ∈ l) ∧ a.snr ≤ m.snr ∧
      ∀ q ∈ l, q.snr ≤ m.snr := by
    intro l
    induction l with
    | nil => intro a; exact ⟨a, rfl, Or.inl rfl, le_refl _, by simp⟩
    | cons b l ih =>
      intro a
      obtain ⟨m, h1, h2, h3, h4⟩ := ih (if a.snr < b.snr then b else a)
      refine ⟨m, h1, ?_, ?_, ?_⟩
      · rcases h2 with h2 | h2
        · rw [h2]
          split_ifs
          · right; simp
          · left; rfl
        · right; exact List.mem_cons_of_mem _ h2
      · split_ifs at h3 with hc
        · exact hc.le.trans h3
        · exact h3
      · intro q hq
        rcases List.mem_cons.mp hq with rfl | hq
        · split_ifs at h3 with hc
          · exact h3
          · exact (not_lt.mp hc).trans h3
        · exact h4 q hq
  cases l with
  | nil => exact absurd rfl hl
  | cons a l =>
    obtain ⟨m, h1, h2, h3, h4⟩ := key l a
    refine ⟨m, ?_, ?_, ?_⟩
    · rw [← h1]
      unfold maxPeakF
      congr!
    · rcases h2 with h2 | h2
      · rw [h2]; simp
      · exact List.mem_cons_of_mem _ h2
    · intro q hq
      rcases List.mem_cons.mp hq with rfl | hq
      · exact h3
      · exact h4 q hq

/-- C121. The table of `rseek` in double precision: sorted by decreasing S/N, made of peaks, with exactly one entry for each group of peaks, at least as high as all of the
group; the groups are those of a clustering radius between `clrad / length` and `(1 + 2^-51) clrad / length`, and frequencies of two entries differ by more than
`clrad / length`. -/
theorem C121_table {A : DArith} (hA : Sane A) (argsort : List ℚ → List ℕ) (ha : IsArgsort argsort) (peaks : List PeakF) (clrad length : ℚ) (hr : 0 ≤ clrad / length) :
    ∃ r', clrad / length ≤ r' ∧ r' ≤ (1 + 1 / 2 ^ 51) * (clrad / length) ∧
    (∀ t ∈ A.rseekTable argsort peaks clrad length, t ∈ peaks ∧ ∀ q, Linked (· ∈ peaks) PeakF.freq r' t q → q.snr ≤ t.snr) ∧
    (∀ q ∈ peaks, ∃ t ∈ A.rseekTable argsort peaks clrad length, Linked (· ∈ peaks) PeakF.freq r' t q) ∧
    (A.rseekTable argsort peaks clrad length).Pairwise (fun a b => ¬ Linked (· ∈ peaks) PeakF.freq r' a b) ∧
    (A.rseekTable argsort peaks clrad length).Pairwise (fun a b => clrad / length < |a.freq - b.freq|) ∧
    (A.rseekTable argsort peaks clrad length).Pairwise (fun a b => b.snr ≤ a.snr) := by
  obtain ⟨r', r1, r2, r3⟩ := cluster1d_rounded hA argsort (peaks.map (fun p => p.freq)) hr false
  have hr' : 0 ≤ r' := hr.trans r1
  set freqs := peaks.map (fun p => p.freq) with hfr
  have hfof := cluster1d_fof argsort ha freqs r' false (by simp)
  have htab : A.rseekTable argsort peaks clrad length = sortPeaksF ((Model.cluster1d argsort freqs r' false).filterMap
      (fun indices => maxPeakF (indices.filterMap (fun ii => peaks[ii]?)))) := by
    unfold DArith.rseekTable
    simp only [← hfr, r3]
  set C := Model.cluster1d argsort freqs r' false with hC
  set F : List ℕ → List PeakF := fun c => c.filterMap (fun ii => peaks[ii]?) with hF
  set table := A.rseekTable argsort peaks clrad length with htable
  have hin : ∀ c ∈ C, ∀ k ∈ c, ∃ q, peaks[k]? = some q := by
    intro c hc k hk
    have := (hfof.cover k).mpr ⟨c, hc, hk⟩
    rw [hfr, List.length_map] at this
    exact ⟨_, List.getElem?_eq_getElem this⟩
  have hne : ∀ c ∈ C, F c ≠ [] := by
    intro c hc
    obtain ⟨k, hk⟩ := List.exists_mem_of_ne_nil c (hfof.ne c hc)
    obtain ⟨q, hq⟩ := hin c hc k hk
    exact List.ne_nil_of_mem (List.mem_filterMap.mpr ⟨k, hk, hq⟩)
  have hperm : table.Perm (C.filterMap (fun c => maxPeakF (F c))) := by
    rw [htab]
    exact sortPeaksF_perm _
  have hent : ∀ c ∈ C, ∀ t, maxPeakF (F c) = some t → ∃ i ∈ c, peaks[i]? = some t ∧
      ∀ j ∈ c, ∀ q, peaks[j]? = some q → q.snr ≤ t.snr := by
    intro c hc t ht
    obtain ⟨m, hm, hmem, hmax⟩ := maxPeakF_spec (F c) (hne c hc)
    rw [hm] at ht
    cases ht
    obtain ⟨i, hi, hit⟩ := List.mem_filterMap.mp hmem
    exact ⟨i, hi, hit, fun j hj q hq => hmax q (List.mem_filterMap.mpr ⟨j, hj, hq⟩)⟩
  have first : ∀ t ∈ table, t ∈ peaks ∧ ∀ q, Linked (· ∈ peaks) PeakF.freq r' t q → q.snr ≤ t.snr := by
    intro t ht
    obtain ⟨c, hc, ht⟩ := List.mem_filterMap.mp (hperm.mem_iff.mp ht)
    obtain ⟨i, hi, hit, hmax⟩ := hent c hc t ht
    refine ⟨List.mem_of_getElem? hit, ?_⟩
    intro q hq
    have hqm : q ∈ peaks := linked_mem hq (List.mem_of_getElem? hit)
    obtain ⟨j, hj, hjq⟩ := List.mem_iff_getElem.mp hqm
    have hj' := List.getElem?_eq_getElem hj
    rw [hjq] at hj'
    have := (linked_list peaks PeakF.freq r' hr' i j t q hit hj').mpr hq
    exact hmax j ((hfof.linked hc hi).mpr this) q hj'
  have third : table.Pairwise (fun a b => ¬ Linked (· ∈ peaks) PeakF.freq r' a b) := by
    have hsym : Std.Symm (fun a b : PeakF => ¬ Linked (· ∈ peaks) PeakF.freq r' a b) := ⟨fun a b h h' => h (linked_symm h')⟩
    refine (hperm.pairwise_iff (fun {a b} => hsym.symm a b)).mpr ?_
    rw [List.pairwise_filterMap]
    refine List.Pairwise.imp_of_mem ?_ hfof.disj
    intro c c' hc hc' hcc t ht t' ht' hl
    obtain ⟨i, hi, hit, -⟩ := hent c hc t ht
    obtain ⟨i', hi', hit', -⟩ := hent c' hc' t' ht'
    have := (linked_list peaks PeakF.freq r' hr' i i' t t' hit hit').mpr hl
    exact hcc i' ((hfof.linked hc hi).mpr this) hi'
  refine ⟨r', r1, r2, first, ?_, third, ?_, by rw [htab]; exact sortPeaksF_sorted _⟩
  · intro q hq
    obtain ⟨j, hj, hjq⟩ := List.mem_iff_getElem.mp hq
    have hj' := List.getElem?_eq_getElem hj
    rw [hjq] at hj'
    obtain ⟨c, hc, hjc⟩ := (hfof.cover j).mp (by rw [hfr, List.length_map]; exact hj)
    obtain ⟨t, ht, -⟩ := maxPeakF_spec (F c) (hne c hc)
    obtain ⟨i, hi, hit, -⟩ := hent c hc t ht
    exact ⟨t, hperm.mem_iff.mpr (List.mem_filterMap.mpr ⟨c, hc, ht⟩),
      (linked_list peaks PeakF.freq r' hr' i j t q hit hj').mp ((hfof.linked hc hi).mp hjc)⟩
  · refine List.Pairwise.imp_of_mem ?_ third
    intro a b ha hb hab
    refine r1.trans_lt ?_
    by_contra hn
    exact hab (Relation.ReflTransGen.single ⟨(first a ha).1, (first b hb).1, not_lt.mp hn⟩)

/-- C121. A significant entry of the periodogram appears in the table, directly or through one at least as high that it is linked with: from the entry to a peak of its
width trial, and from that peak to an entry of the table. -/
theorem C121_reported {A : DArith} (hA : Sane A) (argsort : List ℚ → List ℕ) (ha : IsArgsort argsort) (poly : ℕ → ℕ → ℝ) (p : PeakParamsF) (g : PgramF)
    (hr : 0 ≤ p.clrad / g.tobs) (hg : PgramFOK g) (peaks : List PeakF) (h : A.findPeaks argsort poly p g = .ok peaks)
    (k j : ℕ) (hk : k < g.widths.length) (hj : j < g.periods.length) (hs : p.smin < snrAtF g k j) (ht : poly k j < snrAtF g k j) :
    ∃ q ∈ peaks, q.iw = k ∧ snrAtF g k j ≤ q.snr ∧
      Linked (fun i => i < g.periods.length ∧ p.smin < snrAtF g k i) (freqAtF A g) ((1 + 1 / 2 ^ 51) * (p.clrad / g.tobs)) q.ip j ∧
      ∃ t ∈ A.rseekTable argsort peaks p.clrad g.tobs, snrAtF g k j ≤ t.snr ∧
        Linked (· ∈ peaks) PeakF.freq ((1 + 1 / 2 ^ 51) * (p.clrad / g.tobs)) t q := by
  obtain ⟨m, rad, h1, h2, h3, h4, _⟩ := C121_peaks hA argsort ha poly p g hr hg (by intro e; rw [e] at hk; simp at hk) peaks h
  have hsig : SignificantF g (thresholdF (poly k) p m) p.smin k j := by
    refine ⟨hj, ?_, hs⟩
    unfold thresholdF
    split_ifs
    · exact ht
    · exact hs
  obtain ⟨q, ⟨⟨q1, q2, q3⟩, q4⟩, _⟩ := h4 k hk j hsig
  obtain ⟨r', r1, r2, t1, t2, _⟩ := C121_table hA argsort ha peaks p.clrad g.tobs hr
  obtain ⟨t, ht, hl⟩ := t2 q q1
  refine ⟨q, q1, q2, q4, ?_, t, ht, q4.trans ((t1 t ht).2 q hl), ?_⟩
  · refine Relation.ReflTransGen.mono ?_ _ _ q3
    rintro a b ⟨⟨a1, _, a3⟩, ⟨b1, _, b3⟩, hab⟩
    exact ⟨⟨a1, a3⟩, ⟨b1, b3⟩, hab.trans (h2 k).2⟩
  · refine Relation.ReflTransGen.mono ?_ _ _ hl
    rintro a b ⟨a1, b1, hab⟩
    exact ⟨a1, b1, hab.trans r2⟩

/-- The output of the compiled search is a periodogram with matching sizes. -/
theorem search_pgram {A : DArith} (hA : Sane A) (O : VOps ℝ) (idx : IdxRule) (data : List ℝ) {tsamp : ℚ} {widths : List ℕ} (hne : widths ≠ []) {pmin pmax : ℚ} {bmin bmax : ℕ}
    (hidx : IdxFor idx (data.length / bmin)) (hN : data.length ≤ 2 ^ 25) (hbins : bmax < 2 ^ 32) (ht : 0 < tsamp) (hp : 0 < pmin) (hpp : pmin < pmax) (hb2 : 2 ≤ bmin)
    (hbb : bmin ≤ bmax) (hbp : A.fl (tsamp * bmin) ≤ pmin) (h2 : 2 * pmax ≤ data.length * tsamp) {per : List ℚ} {fb : List ℕ} {snr : List (List ℝ)}
    (h : A.binding O idx data tsamp widths pmin pmax bmin bmax = .ok (per, fb, snr)) (tobs : ℚ) : PgramFOK ⟨widths, per, fb, snr, tobs⟩ := by
  rw [search_ok hA hN hbins ht hp hpp hb2 hbb hbp h2 O idx widths hne hidx data rfl] at h
  have h := Except.ok.inj h
  simp only [Prod.mk.injEq] at h
  obtain ⟨rfl, rfl, rfl⟩ := h
  refine ⟨by simp, by simp, ?_⟩
  intro row hrow
  obtain ⟨t, _, rfl⟩ := List.mem_map.mp hrow
  simp

/-- C121. `rseek` in floating point, from samples to table. For the samples of C120_any_period (a constant level plus pulses of any period `P` of the range), searched with
the default options, the search succeeds and has a trial that reaches `P`. Let `S` be at most the S/N that C120 promises there, at least for one boxcar width. If `S` exceeds the thresholds at
that entry and `find_peaks` returns, its result has a peak of that width trial with an S/N of at least `S`, linked to the trial by steps of at most `(1 + 2^-51) clrad / T`, and
the table has an entry with an S/N of at least `S`, linked to that peak. -/
theorem C121_pulses {A : DArith} {B : FArith} {u v : ℝ} (hA : Sane A) (hG : Grid A) (h : Rounds B u v) (hu : 1 / 2 ^ 24 ≤ u) (hu2 : u ≤ 1 / 100) (idx : IdxRule)
    {root : ℝ → ℝ} (hroot : ∀ r, 0 ≤ r → |root r - Real.sqrt r| ≤ 2 * v * Real.sqrt r) (narrow : Bool)
    (x d d' y : List ℝ) (win m : ℕ) {M γ δ η σ : ℝ} (hwin : win < 2 ^ 53) (hM : ∀ a ∈ x, |a| ≤ M) (hM0 : 0 ≤ M) (hfu : (win / m : ℕ) * u < 1)
    (hγ : γ = gam u (win / m)) (hγ2 : γ ≤ 1 / 10) (hd : d.length = x.length)
    (hd' : DereddensTo A B x win m d') (hy : NormalisesTo B root narrow d' y) (hn : (x.length + 6 : ℕ) * v < 1) (hvar : 0 < varOf d)
    (hσ : σ = Real.sqrt (varOf d)) (hδ : δ = (6 * u + 2 * γ + 28 * v) * M) (hη : η = gam v (x.length + 6))
    (s0 : δ ≤ σ / 10) (s1 : η ≤ 1 / 100) (s2 : η * (M / σ) ≤ 1 / 25) (s3 : u * (M / σ) ≤ 1 / 25)
    (tsamp : ℚ) (widths : List ℕ) (hne : widths ≠ []) (pmin pmax : ℚ) (bmin bmax : ℕ) (hb : bmax * v ≤ u)
    (hidx : IdxFor idx (x.length / bmin)) (hN : x.length ≤ 2 ^ 25) (hbins : bmax < 2 ^ 32) (hw : ∀ w ∈ widths, 0 < w ∧ w < bmin)
    (ht : 0 < tsamp) (hp : 0 < pmin) (hpp : pmin < pmax) (hb2 : 2 ≤ bmin) (hbb : bmin ≤ bmax) (hbp : A.fl (tsamp * bmin) ≤ pmin)
    (h2 : 2 * pmax ≤ x.length * tsamp) (P φ D base : ℝ) (hP1 : (1 + 1 / 2 ^ 48) * pmin ≤ P) (hP2 : P ≤ (1 - 1 / 2 ^ 30) * pmax)
    (pulse : ℕ → ℝ) (hpul : Pulsed pulse tsamp P φ D) (hdata : ∀ n < x.length, x.getD n 0 = base + pulse n) (hdd : ∀ n < x.length, d.getD n 0 = pulse n)
    (hsp : Sparse x.length (max 1 (win / m)) (if win < 2 * m then win else m) pulse)
    (argsort : List ℚ → List ℕ) (ha : IsArgsort argsort) (poly : ℕ → ℕ → ℝ) (q : PeakParamsF) (tobs : ℚ) (htobs : 0 < tobs) (hcl : 0 ≤ q.clrad) :
    ∃ (per : List ℚ) (fb : List ℕ) (snr : List (List ℝ)) (j : ℕ) (p : ℚ) (t : DTrial) (V : ℚ),
      A.binding (B.searchOps A) idx y tsamp widths pmin pmax bmin bmax = .ok (per, fb, snr) ∧
      per[j]? = some p ∧ fb[j]? = some t.b ∧ t.OK x.length bmin bmax ∧ t.IsVariance V ∧ 1 / 2 ≤ V ∧
      |p - t.period tsamp| ≤ 1 / 2 ^ 50 * t.period tsamp ∧ t.Reaches tsamp P ∧
      ((26 + ⌈t.f⌉₊ + Nat.clog 2 t.m : ℕ) * u < 1 → ∀ (k w : ℕ), widths[k]? = some w → D / P * t.b + t.smearing ≤ w →
        ∀ (K : ℕ) (L S : ℝ), (K + 1) * tsamp + P + t.f * tsamp ≤ x.length * tsamp →
          L = ((∑ n ∈ Finset.range K, pulse n) / σ * Real.sqrt (((t.b : ℝ) - w) / (t.b * w)) - |meanOf d| / σ / 2 ^ 28) / Real.sqrt (t.m * V) →
          S ≤ L - (2 * u + 2 * η + (5 / 2 * η * (M / σ)) ^ 2) * |L| - 7 * u * Real.sqrt x.length - 5 / 2 * (u + 2 * η) * (M / σ) / 2 ^ 27 -
            2 * δ * Real.sqrt x.length / σ -
            gam u (26 + ⌈t.f⌉₊ + Nat.clog 2 t.m) * (20 * Real.sqrt ((t.b : ℝ) / (w * (t.b - w))) * x.length / Real.sqrt (t.m * V)) →
          q.smin < S → poly k j < S → ∀ peaks, A.findPeaks argsort poly q ⟨widths, per, fb, snr, tobs⟩ = .ok peaks →
            ∃ a ∈ peaks, a.iw = k ∧ S ≤ a.snr ∧
              Linked (fun i => i < per.length ∧ q.smin < snrAtF ⟨widths, per, fb, snr, tobs⟩ k i) (fun i => A.fl (1 / per.getD i 0))
                ((1 + 1 / 2 ^ 51) * (q.clrad / tobs)) a.ip j ∧
              ∃ b ∈ A.rseekTable argsort peaks q.clrad tobs, S ≤ b.snr ∧ Linked (· ∈ peaks) PeakF.freq ((1 + 1 / 2 ^ 51) * (q.clrad / tobs)) b a) := by
  obtain ⟨per, fb, snr, j, p, row, t, V, e, e1, e2, e3, hok, hV, hV2, hpp', hre, key⟩ := C120_any_period hA hG h hu hu2 idx hroot narrow x d d' y win m hwin hM hM0 hfu hγ hγ2
    hd hd' hy hn hvar hσ hδ hη s0 s1 s2 s3 tsamp widths hne pmin pmax bmin bmax hb hidx hN hbins hw ht hp hpp hb2 hbb hbp h2 P φ D base hP1 hP2 pulse hpul hdata hdd hsp
  refine ⟨per, fb, snr, j, p, t, V, e, e1, e2, hok, hV, hV2, hpp', hre, ?_⟩
  have hyl : y.length = x.length := by
    obtain ⟨r, hr⟩ := (C120_result hA B x win m hwin).mp ⟨d', hd'⟩
    obtain ⟨hrl, hrb⟩ := C120_level x r win m hr base pulse hdata hsp
    have hde : d = List.zipWith (· - ·) x r := by
      apply List.ext_getElem
      · rw [List.length_zipWith]
        omega
      · intro i i1 i2
        have e1 := hdd i (by omega)
        have e2 := hdata i (by omega)
        have e3 := hrb i (by omega)
        rw [List.getD_eq_getElem?_getD, List.getElem?_eq_getElem (by omega), Option.getD_some] at e1 e2 e3
        rw [List.getElem_zipWith, e1, e2, e3]
        ring
    subst hσ
    obtain ⟨l1, l2, hcl, _⟩ := dered_sizes hA h hu2 hwin hM hM0 hfu hγ hγ2 hr hde hd' hδ hvar s0
    obtain ⟨hσ', _⟩ := drift (l2.trans l1.symm) hcl hvar s0
    have hσ0 : 0 < Real.sqrt (varOf d) := Real.sqrt_pos.mpr hvar
    have hvar' : 0 < varOf d' := Real.sqrt_pos.mp (by linarith)
    obtain ⟨hl, _⟩ := C119_normalise h (by linarith) hroot narrow (by rwa [l2]) hvar' hy
    rwa [l2] at hl
  intro hK k w hk hwide K L S hKK hL hS hsm hpo peaks hpk
  obtain ⟨S', hS', hlow⟩ := key hK k w hk hwide
  have hSS : S ≤ S' := hS.trans (hlow K L hKK hL)
  have hg := search_pgram hA (B.searchOps A) idx y hne (by rw [hyl]; exact hidx) (by rw [hyl]; exact hN) hbins ht hp hpp hb2 hbb hbp (by rw [hyl]; exact h2) e tobs
  have hsnr : snrAtF ⟨widths, per, fb, snr, tobs⟩ k j = S' := by
    simp [snrAtF, List.getD_eq_getElem?_getD, e3, hS']
  obtain ⟨hkl, _⟩ := List.getElem?_eq_some_iff.mp hk
  obtain ⟨hjl, _⟩ := List.getElem?_eq_some_iff.mp e1
  obtain ⟨a, a1, a2, a3, a4, b, b1, b2, b3⟩ := C121_reported hA argsort ha poly q ⟨widths, per, fb, snr, tobs⟩ (div_nonneg hcl htobs.le) hg peaks hpk k j hkl hjl
    (by rw [hsnr]; exact hsm.trans_le hSS) (by rw [hsnr]; exact hpo.trans_le hSS)
  rw [hsnr] at a3 b2
  exact ⟨a, a1, a2, hSS.trans a3, a4, b, b1, hSS.trans b2, b3⟩

/-- Non-vacuity of C121: in IEEE arithmetic, a periodogram of three trials with periods of 0.25, 0.5 and 1 s, one of them significant. `find_peaks` succeeds, and peak and table
entry are found. -/
example : ∃ peaks, (ieeeDouble someLog (fun x k => rn 53 (x ^ k)) true).findPeaks insArgsort (fun _ _ => 0) ⟨6, 5, 10, 1 / 10⟩
      ⟨[1], [1 / 4, 1 / 2, 1], [10, 10, 10], [[0], [10], [0]], 1⟩ = .ok peaks ∧ ∃ q ∈ peaks, 10 ≤ q.snr ∧
      ∃ t ∈ (ieeeDouble someLog (fun x k => rn 53 (x ^ k)) true).rseekTable insArgsort peaks (1 / 10) 1, 10 ≤ t.snr := by
  have hA := sane_some true
  set A := ieeeDouble someLog (fun x k => rn 53 (x ^ k)) true
  set g : PgramF := ⟨[1], [1 / 4, 1 / 2, 1], [10, 10, 10], [[0], [10], [0]], 1⟩ with hg
  have e4 : A.fl 4 = 4 := hA.nat 4 (by norm_num)
  have e1 : A.fl 1 = 1 := by simpa using hA.nat 1 (by norm_num)
  have hf : g.freqs A = [4, A.fl 2, 1] := by
    simp [PgramF.freqs, hg, e4, e1]
  obtain ⟨m, hm⟩ := (C121_segments hA (g.freqs A) (T := g.tobs) (segwidth := 5) (f0 := 4) (f1 := 1) (by norm_num [hg]) (by norm_num) (by rw [hf]; rfl) (by rw [hf]; rfl) rfl).2.2
    (by norm_num) (by rw [hf]; norm_num [hg, abs_of_neg])
  obtain ⟨peaks, hp⟩ := (C121_success (A := A) insArgsort (fun _ _ => 0) ⟨6, 5, 10, 1 / 10⟩ g (by simp [hg])).mpr ⟨m, hm⟩
  have hs : snrAtF g 0 1 = 10 := by simp [snrAtF, hg]
  obtain ⟨q, q1, _, q2, _, t, t1, t2, _⟩ := C121_reported hA insArgsort insArgsort_ok (fun _ _ => 0) ⟨6, 5, 10, 1 / 10⟩ g (by norm_num [hg]) ⟨rfl, rfl, by simp [hg]⟩ peaks hp 0 1
    (by simp [hg]) (by simp [hg]) (by rw [hs]; norm_num) (by rw [hs]; norm_num)
  rw [hs] at q2 t2
  exact ⟨peaks, hp, q, q1, q2, t, t1, t2⟩

/-- Non-vacuity of C121_pulses: the samples of the example of C120. All conditions hold. -/
example (narrow : Bool) : ∃ x d' y : List ℝ, x.length = 1000 ∧ DereddensTo (ieeeDouble someLog (fun x k => rn 53 (x ^ k)) true) single x 18 9 d' ∧
    NormalisesTo single Real.sqrt narrow d' y ∧ ∃ (per : List ℚ) (fb : List ℕ) (snr : List (List ℝ)) (t : DTrial) (V : ℚ),
    (ieeeDouble someLog (fun x k => rn 53 (x ^ k)) true).binding (single.searchOps (ieeeDouble someLog (fun x k => rn 53 (x ^ k)) true))
      float32Idx y 1 [12] 32 40 32 39 = .ok (per, fb, snr) ∧ t.OK 1000 32 39 ∧ t.IsVariance V ∧ t.Reaches 1 (100 / 3) := by
  have hA := sane_some true
  have e32 : (ieeeDouble someLog (fun x k => rn 53 (x ^ k)) true).fl (1 * ((32 : ℕ) : ℚ)) ≤ 32 := by
    rw [one_mul, hA.nat 32 (by norm_num)]
    norm_num
  obtain ⟨x, d, hl, hl', hx, hd, hM, hv⟩ := level_example
  obtain ⟨r, hr⟩ := (fast_ok_iff x 18 9).mpr ⟨by norm_num, Or.inr ⟨by norm_num, by rw [hl]; norm_num⟩⟩
  obtain ⟨d', hd'⟩ := (C120_result hA single x 18 9 (by norm_num)).mpr ⟨r, hr⟩
  have hg : gam (1 / 2 ^ 24) (18 / 9) ≤ 1 / 2 ^ 22 := by
    unfold gam
    norm_num
  have hη : gam (1 / 2 ^ 53) (1000 + 6) ≤ 1 / 2 ^ 40 := by
    unfold gam
    norm_num
  have hσ : Real.sqrt (varOf d) = 3 := by rw [hv]; exact sqrt_nine.symm
  obtain ⟨l2, _⟩ := C120_deredden hA single_rounds (by norm_num) (by norm_num) (by norm_num) hM (by norm_num) (by norm_num) (by linarith) hr hd'
  obtain ⟨y, hy⟩ := C119_result single Real.sqrt narrow d' (by intro e; rw [e, hl] at l2; simp at l2)
  obtain ⟨per, fb, snr, j, p, t, V, e, _, _, hok, hV, _, _, hre, key⟩ := C121_pulses hA (grid_ieee _ _ _) single_rounds
    (le_refl _) (by norm_num) float32Idx (root := Real.sqrt) (fun r hr => by rw [sub_self, abs_zero]; positivity) narrow x d d' y 18 9 (by norm_num) hM (by norm_num)
    (by norm_num) rfl (by linarith) (by rw [hl, hl']) hd' hy (by rw [hl]; norm_num) (by rw [hv]; norm_num) rfl rfl rfl (by rw [hσ]; linarith)
    (by rw [hl]; linarith) (by rw [hl, hσ]; linarith) (by rw [hσ]; norm_num) 1 [12] (by simp) 32 40 32 39 (by norm_num)
    (by rw [hl]; exact Or.inr ⟨Or.inl rfl, by norm_num⟩)
    (by rw [hl]; norm_num) (by norm_num) (by intro w hw; simp at hw; omega) (by norm_num) (by norm_num) (by norm_num) (by norm_num)
    (by norm_num) e32 (by rw [hl]; norm_num) (100 / 3) (-50 / 3) 3 100 (by norm_num) (by norm_num)
    _ (by rw [Rat.cast_one]; exact pulsed_example') hx hd (by rw [hl]; exact sparse_example)
    insArgsort insArgsort_ok (fun _ _ => 6) ⟨6, 5, 10, 1 / 10⟩ 1000 (by norm_num) (by norm_num)
  rw [hl] at hok
  exact ⟨x, d', y, hl, hd', hy, per, fb, snr, t, V, e, hok, hV, hre⟩

end Verif.Props
