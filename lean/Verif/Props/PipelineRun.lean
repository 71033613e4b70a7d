import Verif.Model.PipelineRun
import Verif.Props.Candidate
import Verif.Props.Process
import Verif.Props.Prepare
import Verif.Props.EndToEnd
import Verif.Props.WorkerConf

/-!
# C100, C101: the whole pipeline, from files to candidates
-/

namespace Verif.Props

open Verif.Model Verif.Lemmas Verif.Spec Finset

/-! ## The time series that candidates are folded from -/

/-- Lines 310-315 of pipeline.py for a loaded time series. -/
noncomputable def prepareSeries (w : World) (id : ℕ) (width : ℝ) (minpts : ℕ) : Except PyErr (World × ℕ) :=
  (tsDeredden w id width minpts false).bind fun r1 =>
  (tsNormalise r1.1 (r1.2.getD 0) false).map fun r2 => (r2.1, r2.2.getD 0)

/-- A loaded series whose running median can be taken can be prepared. -/
theorem prepareSeries_ok (w : World) (id : ℕ) (o : TsObj) (ho : w.objs[id]? = some o) (hg : GoodSeries w o) (width : ℝ) (minpts : ℕ)
    (r : List ℝ) (hr : runningMedianOf (w.dataOf o) o.tsamp width minpts = .ok r) :
    ∃ w2 id2 o2, prepareSeries w id width minpts = .ok (w2, id2) ∧ w2.objs[id2]? = some o2 ∧ GoodSeries w2 o2 ∧ o2.tsamp = o.tsamp ∧
      w2.dataOf o2 = normalised (subtractArrays (w.dataOf o) r) := by
  have hl := subtract_length (runningMedianOf_length hr)
  obtain ⟨md, hmd, hn⟩ := tsNew_ok w (subtractArrays (w.dataOf o) r) o.tsamp (w.metaOf o) _ hg.2.1 hg.2.2
  obtain ⟨w1, hw1⟩ : ∃ w1 : World, w1 = ⟨w.arrays ++ [subtractArrays (w.dataOf o) r], w.metas ++ [md],
    w.objs ++ [⟨w.arrays.length, o.tsamp, w.metas.length⟩]⟩ := ⟨_, rfl⟩
  obtain ⟨o1, ho1'⟩ : ∃ o1 : TsObj, o1 = ⟨w.arrays.length, o.tsamp, w.metas.length⟩ := ⟨_, rfl⟩
  have ho1 : w1.objs[w.objs.length]? = some o1 := by rw [hw1, ho1']; simp
  have hd1 : w1.dataOf o1 = subtractArrays (w.dataOf o) r := by rw [hw1, ho1']; simp [World.dataOf, List.getD]
  have hm1 : w1.metaOf o1 = md := by rw [hw1, ho1']; simp [World.metaOf, List.getD]
  have hts1 : o1.tsamp = o.tsamp := by rw [ho1']
  have hpos : 0 < ((subtractArrays (w.dataOf o) r).length : ℝ) * o.tsamp := by
    rw [hl]
    exact hg.2.1
  obtain ⟨md2, hmd2, hn2⟩ := tsNew_ok w1 (normalised (subtractArrays (w.dataOf o) r)) o.tsamp md _ hpos hmd
  have hln : (normalised (subtractArrays (w.dataOf o) r)).length = (subtractArrays (w.dataOf o) r).length := by
    simp [normalised]
  obtain ⟨w2, hw2⟩ : ∃ w2 : World, w2 = ⟨w1.arrays ++ [normalised (subtractArrays (w.dataOf o) r)], w1.metas ++ [md2],
    w1.objs ++ [⟨w1.arrays.length, o.tsamp, w1.metas.length⟩]⟩ := ⟨_, rfl⟩
  obtain ⟨o2, ho2'⟩ : ∃ o2 : TsObj, o2 = ⟨w1.arrays.length, o.tsamp, w1.metas.length⟩ := ⟨_, rfl⟩
  have ho2 : w2.objs[w1.objs.length]? = some o2 := by rw [hw2, ho2']; simp
  have hd2 : w2.dataOf o2 = normalised (subtractArrays (w.dataOf o) r) := by rw [hw2, ho2']; simp [World.dataOf, List.getD]
  have hts2 : o2.tsamp = o.tsamp := by rw [ho2']
  have hg2 : GoodSeries w2 o2 := by
    refine ⟨by rw [hw2, ho2']; simp, ?_, ?_⟩
    · unfold World.lengthOf
      rw [hd2, hts2, hln]
      exact hpos
    · unfold World.lengthOf
      rw [hd2, hts2, hw2, ho2']
      simpa [World.metaOf, List.getD] using hmd2
  refine ⟨w2, w1.objs.length, o2, ?_, ho2, hg2, hts2, hd2⟩
  unfold prepareSeries tsDeredden
  rw [obj_ok_iff.mpr ho]
  simp only [Except.bind, hr, Bool.false_eq_true, if_false, hn, Except.map, Option.getD_some]
  rw [← hw1]
  unfold tsNormalise
  rw [obj_ok_iff.mpr ho1]
  simp only [Except.bind, Bool.false_eq_true, if_false]
  rw [hd1, hm1, hts1, hn2]
  simp only [Option.getD_some, hw2]

/-! ## Periods of peaks -/

/-- The period of a trial fits into the data. -/
theorem trial_period_le {a : PgArgs} (hv : a.Valid) {t : ℕ × ℕ × ℕ} (ht : t ∈ trials a) : perOf a t ≤ a.size * a.tsamp := by
  obtain ⟨ids, b, s⟩ := t
  obtain ⟨h1, h2, h3, _⟩ := trial_facts hv ht
  have hts := hv.1
  have hf := f_ge_one hv ids
  have htau := tau_pos hv ids
  have hn : (a.n ids : ℝ) * a.f ids ≤ a.size := by
    have : (a.n ids : ℝ) ≤ a.size / a.f ids := Nat.floor_le (by positivity)
    rwa [le_div_iff₀ (by linarith)] at this
  have hb : (2 : ℝ) ≤ b := by exact_mod_cast h3
  have h4 : 2 * b ≤ a.n ids := (Nat.mul_le_mul_right b h1).trans (Nat.div_mul_le_self _ _)
  have h5 : (2 : ℝ) * b ≤ a.n ids := by exact_mod_cast h4
  calc perOf a (ids, b, s) ≤ a.tau ids * (b + 1) := (per_lt_next hv ht).le
    _ ≤ a.tau ids * a.n ids := mul_le_mul_of_nonneg_left (by linarith) htau.le
    _ = (a.n ids * a.f ids) * a.tsamp := by unfold PgArgs.tau; ring
    _ ≤ a.size * a.tsamp := mul_le_mul_of_nonneg_right hn hts.le

theorem widths_pos (nbins : ℕ) (ducyMax wtsp : ℝ) : ∀ w ∈ generateWidthTrials nbins ducyMax wtsp, 0 < w := by
  obtain ⟨_, h1, h2⟩ := C24_width_trials nbins ducyMax wtsp
  cases hl : generateWidthTrials nbins ducyMax wtsp with
  | nil => simp
  | cons a l =>
    rw [hl] at h1 h2
    simp only [List.head?_cons, Option.some.injEq] at h1
    subst h1
    intro w hw
    rcases List.mem_cons.mp hw with rfl | hw
    · exact one_pos
    · exact Nat.lt_of_lt_of_le one_pos ((List.pairwise_cons.mp h2).1 w hw).le

/-- The period of every peak is positive and fits into the data, the duty cycle is positive. -/
theorem peaksOfData_length {idx : IdxRule} {argsort : List ℝ → List ℕ} (ha : IsArgsort argsort) {fit : List ℝ → List ℝ → ℝ → ℝ}
    {y : List ℝ} {tsamp : ℝ} {c : RangeConf} (hidx : IdxFor idx (y.length / c.search.binsMin)) {l : List (Peak ℝ)}
    (h : peaksOfData idx argsort fit y tsamp c.search c.peaks = .ok l) :
    ∀ q ∈ l, 0 < c.search.periodMin ∧ q.period ≤ y.length * tsamp ∧ 0 < q.ducy := by
  obtain ⟨⟨per, fb, snr⟩, h1, h2⟩ := bind_ok_inv h
  have h1 := liftCall_ok h1
  have hne : generateWidthTrials c.search.binsMin c.search.ducyMax c.search.wtsp ≠ [] := by
    intro hc
    have := (C24_width_trials c.search.binsMin c.search.ducyMax c.search.wtsp).2.1
    rw [hc] at this
    simp at this
  obtain ⟨_, k2, k3, k4⟩ := (C17_outputs_filled_exactly idx y tsamp _ hne _ _ _ _ hidx).2 per fb snr h1
  obtain ⟨a, ha', hv, _, hper, hfb, _⟩ := pg_ok_inv hne hidx h1
  intro q hq
  obtain ⟨P, nb, row, e1, e2, e3, e4, e5, e6, e7, e8, _⟩ := (C30_peaks_genuine argsort ha fit c.peaks _
    ⟨k2, k3, k4⟩ l h2).1 q hq
  refine ⟨?_, ?_, ?_⟩
  · have := hv.2.1
    rwa [ha'] at this
  · have := List.mem_of_getElem? e1
    simp only [hper, List.mem_map] at this
    obtain ⟨t, ht, rfl⟩ := this
    rw [e6]
    have := trial_period_le hv ht
    rwa [ha'] at this ⊢
  · have := List.mem_of_getElem? e2
    simp only [hfb, List.mem_map] at this
    obtain ⟨⟨i, b, s⟩, ht, rfl⟩ := this
    obtain ⟨_, _, h3, _⟩ := trial_facts hv ht
    have hw : 0 < q.width := widths_pos c.search.binsMin c.search.ducyMax c.search.wtsp _ (List.mem_of_getElem? e3)
    rw [e8]
    have : (0 : ℝ) < q.width := by exact_mod_cast hw
    have : (0 : ℝ) < b := by exact_mod_cast (by omega : 0 < b)
    positivity

/-- A range that could be searched has a lower and a larger upper limit. -/
theorem peaksOfData_periods {idx : IdxRule} {argsort : List ℝ → List ℕ} {fit : List ℝ → List ℝ → ℝ → ℝ}
    {y : List ℝ} {tsamp : ℝ} {c : RangeConf} (hidx : IdxFor idx (y.length / c.search.binsMin)) {l : List (Peak ℝ)}
    (h : peaksOfData idx argsort fit y tsamp c.search c.peaks = .ok l) : c.search.periodMin < c.search.periodMax := by
  obtain ⟨⟨per, fb, snr⟩, h1, _⟩ := bind_ok_inv h
  have hne : generateWidthTrials c.search.binsMin c.search.ducyMax c.search.wtsp ≠ [] := by
    intro hc
    have := (C24_width_trials c.search.binsMin c.search.ducyMax c.search.wtsp).2.1
    rw [hc] at this
    simp at this
  obtain ⟨a, ha', hv, _⟩ := pg_ok_inv hne hidx (liftCall_ok h1)
  have := hv.2.2.1
  rwa [ha'] at this

/-! ## The files of a run -/

/-- A file that the pipeline can use: it loads, into a time series of positive length whose sampling time and DM are those of its
metadata; `idx` is right for the sizes that occur; and every range has periods of more than `candidates.bins` samples. -/
structure FileOK (e : PipeEnv) (c : RunConf) (m : FileMeta) (w : World) (id : ℕ) (o : TsObj) : Prop where
  loads : e.loader m.fname = .ok (w, id)
  object : w.objs[id]? = some o
  good : GoodSeries w o
  tsamp_pos : 0 < o.tsamp
  dm : dictGet (w.metaOf o) "dm" = some (.num m.dm)
  tobs : 0 < m.tobs
  idx : ∀ r ∈ c.ranges, IdxFor e.idx ((w.dataOf o).length / r.search.binsMin)
  bins : ∀ r ∈ c.ranges, r.candBins * o.tsamp < r.search.periodMin

/-- What is assumed of a run: a sorting function, at least one process, a positive `dmsinb_max`, a harmonic test that does not fail,
numbers of bins and sub-integrations as the validation of the configuration lets through, and files as above. -/
structure RunOK (e : PipeEnv) (c : RunConf) (ms : List FileMeta) : Prop where
  argsort : IsArgsort e.argsort
  processes : 1 ≤ c.processes
  cap : ∀ x, c.prep.dmsinbMax = some x → 0 < x
  test : ∀ p q : HPeak ℝ, 0 < p.freq → 0 < q.freq → 0 < p.ducy → 0 < q.ducy → ∃ r, e.test p q = .ok r
  ranges : ∀ r ∈ c.ranges, 0 < r.candBins ∧ ∀ s, r.candSubints = some s → 1 ≤ s
  files : ∀ m ∈ ms, ∃ w id o, FileOK e c m w id o

theorem prepConf_get (c : RunConf) {i : ℕ} (hi : i < c.ranges.length) (hi' : i < c.prepConf.ranges.length) :
    c.prepConf.ranges[i] = c.ranges[i].entry i := by
  simp [RunConf.prepConf]

theorem prepConf_periods (c : RunConf) : (c.ranges.map (·.conf)).map (fun c => (c.search.periodMin, c.search.periodMax)) =
    c.prepConf.ranges.map (fun r => (r.pmin, r.pmax)) := by
  apply List.ext_getElem
  · simp [RunConf.prepConf]
  · intro i h1 h2
    simp [RunConf.prepConf, PipeRange.entry, PipeRange.conf]

/-- The peaks of a file that can be searched. -/
theorem processFile_peaks {e : PipeEnv} {c : RunConf} {ms : List FileMeta} (hok : RunOK e c ms) {m : FileMeta}
    {w : World} {id : ℕ} {o : TsObj} (hf : FileOK e c m w id o) (hcont : contiguityLoop c.prepConf.ranges = .ok ())
    {l : List (HPeak ℝ)} (h : processFile e c m.fname = .ok l) :
    ∃ rm, runningMedianOf (w.dataOf o) o.tsamp c.rmedWidth c.rmedMinpts = .ok rm ∧
      ∀ p ∈ l, p.dm = m.dm ∧ 0 < p.period ∧ p.freq = 1 / p.period ∧ 0 < p.ducy ∧ p.period ≤ (w.dataOf o).length * o.tsamp ∧
        ∃ (i : ℕ) (hi : i < c.ranges.length), c.ranges[i].search.periodMin ≤ p.period ∧ p.period < c.ranges[i].search.periodMax ∧
          getSearchRange c.prepConf.ranges p.period = .ok (some (c.ranges[i].entry i)) := by
  unfold processFile at h
  rw [hf.loads] at h
  simp only [Except.bind] at h
  obtain ⟨peaks, hp, rfl⟩ := map_ok_inv h
  have hp' := hp
  rw [processLoaded_eq e.idx e.argsort e.fit c.rmedWidth c.rmedMinpts _ w id o hf.object hf.good m.dm hf.dm] at hp'
  obtain ⟨ls, h1, h2⟩ := map_ok_inv hp'
  obtain ⟨rm, hr, h1⟩ := bind_ok_inv h1
  have hlen : (normalised (subtractArrays (w.dataOf o) rm)).length = (w.dataOf o).length := by
    rw [normalised, List.length_map, subtract_length (runningMedianOf_length hr)]
  have hpos : ∀ r ∈ c.prepConf.ranges, r.pmin < r.pmax := by
    intro r hr
    obtain ⟨i, hi, rfl⟩ := List.getElem_of_mem hr
    have hi' : i < c.ranges.length := by simpa [RunConf.prepConf] using hi
    rw [prepConf_get c hi' hi]
    obtain ⟨l, _, hcl⟩ := forall₂_mem_left (mapM_ok_inv _ _ _ h1) (List.mem_map_of_mem (List.getElem_mem hi'))
    exact peaksOfData_periods (c := c.ranges[i].conf) (by rw [hlen]; exact hf.idx _ (List.getElem_mem hi')) hcl
  obtain ⟨_, k2⟩ := C74_peaks_of_file e.idx e.argsort hok.argsort e.fit c.rmedWidth c.rmedMinpts (c.ranges.map (·.conf)) w id o hf.object hf.good
    m.dm hf.dm (by
      intro r hr
      obtain ⟨r', hr', rfl⟩ := List.mem_map.mp hr
      exact hf.idx r' hr') peaks hp
  have k3 := k2 c.prepConf.ranges (prepConf_periods c) hcont hpos
  refine ⟨rm, hr, ?_⟩
  intro p hp'
  obtain ⟨q, hq, rfl⟩ := List.mem_map.mp hp'
  obtain ⟨i, hi, hi', hP, hget⟩ := k3 q hq
  rw [← h2, List.mem_map] at hq
  obtain ⟨q, hq, rfl⟩ := hq
  obtain ⟨l, hl, hql⟩ := List.mem_flatten.mp hq
  obtain ⟨r, hrm, hcl⟩ := forall₂_mem_right (mapM_ok_inv _ _ _ h1) hl
  obtain ⟨r', hr', rfl⟩ := List.mem_map.mp hrm
  have hidx : IdxFor e.idx ((normalised (subtractArrays (w.dataOf o) rm)).length / r'.conf.search.binsMin) := by
    rw [hlen]; exact hf.idx r' hr'
  obtain ⟨a1, a2, a3⟩ := peaksOfData_length hok.argsort hidx hcl q hql
  have a4 := peaksOfData_range hok.argsort hidx hcl q hql
  rw [hlen] at a2
  have hil : i < c.ranges.length := by simpa using hi
  simp only [List.getElem_map] at hP
  rw [prepConf_get c hil hi'] at hget
  exact ⟨rfl, lt_of_lt_of_le a1 a4.1, a4.2.2.1, a3, a2, i, hil, hP.1, hP.2.1, hget⟩

theorem npMedian_pos {l : List ℝ} (hne : l ≠ []) (h : ∀ x ∈ l, 0 < x) : 0 < npMedian l := by
  obtain ⟨s, hs⟩ : ∃ s, s = l.mergeSort (fun a b => decide (a ≤ b)) := ⟨_, rfl⟩
  have hlen : s.length = l.length := by rw [hs]; exact List.length_mergeSort _
  have h0 : 0 < s.length := by rw [hlen]; exact List.length_pos_of_ne_nil hne
  have hget : ∀ i < s.length, 0 < s.getD i 0 := by
    intro i hi
    rw [getD_of_lt s hi]
    refine h _ ?_
    have hm : ∀ x ∈ s, x ∈ l := by
      intro x hx
      rw [hs, List.mem_mergeSort] at hx
      exact hx
    exact hm _ (List.getElem_mem hi)
  unfold npMedian
  simp only [← hs]
  split_ifs
  · exact hget _ (by omega)
  · have := hget (s.length / 2) (by omega)
    have := hget (s.length / 2 - 1) (by omega)
    linarith

/-- The file of a selected DM. -/
theorem selected_file {c : PrepConf} {ms : List FileMeta} {it : DmIter ℝ} (hmx : ∀ x, c.dmsinbMax = some x → 0 < x)
    (h : prepare c ms = .ok it) {dm : ℝ} (hdm : dm ∈ it.selectedDms) :
    ∃ m ∈ ms, m.dm = dm ∧ getFilename it dm = .ok m.fname := by
  obtain ⟨wmin, dm0, dm1, gl, gb, b, t, hw, hne, hg, hb, hs, hd, hsel, hit, ht, hv⟩ := prepare_inv h hmx
  obtain ⟨hc1, _⟩ := C33_coverage _ _ _ _ _ _ _ _ hsel
  obtain ⟨_, hd2, hd3⟩ := dictOf_spec (fun m : DmMeta ℝ => m.dm) (fun m => m.fname) (ms.map (·.toDmMeta))
  have h1 := (hc1 dm hdm).1
  rw [hd] at h1
  obtain ⟨m0, hm0, hm0d⟩ := List.mem_map.mp ((hd2 dm).mp h1)
  unfold getFilename
  rw [hd, hd3]
  cases hf : (ms.map (·.toDmMeta)).reverse.find? (fun x => decide (x.dm = dm)) with
  | none =>
    rw [List.find?_eq_none] at hf
    have := hf m0 (List.mem_reverse.mpr hm0)
    simp [hm0d] at this
  | some m =>
    have h2 := List.find?_some hf
    obtain ⟨m', hm', rfl⟩ := List.mem_map.mp (List.mem_reverse.mp (List.mem_of_find?_eq_some hf))
    exact ⟨m', hm', by simpa using h2, rfl⟩

/-- The profile of data `x` with sampling time `tsamp`, folded at the period `P` into `bins` bins: the sum over all whole periods. -/
noncomputable def foldedProfile (x : List ℝ) (tsamp P : ℝ) (bins : ℕ) : List ℝ :=
  (List.range bins).map fun j => ∑ i ∈ range ⌊(x.length : ℝ) * tsamp / P⌋₊,
    foldValue x (P / bins / tsamp) bins ⌊(x.length : ℝ) * tsamp / P⌋₊ i j

/-- The sub-integrations of a candidate: `n` rows that add up groups of consecutive periods, or a single profile for `n = 1`. -/
def HasSubints (x : List ℝ) (tsamp P : ℝ) (bins : ℕ) (n : ℤ) (a : NdArray) : Prop :=
  (n = 1 ∧ ∃ y, a = .d1 y ∧ y.length = bins) ∨
  (n ≠ 1 ∧ ∃ rows r, a = .d2 rows ∧ ((r : ℕ) : ℤ) = n ∧ IsSubints ⌊(x.length : ℝ) * tsamp / P⌋₊ bins r
    (foldValue x (P / bins / tsamp) bins ⌊(x.length : ℝ) * tsamp / P⌋₊) rows)

/-- The time series of a file, loaded again and prepared. -/
theorem loadForDm_ok {e : PipeEnv} {c : RunConf} {it : DmIter ℝ} {m : FileMeta} {w : World} {id : ℕ} {o : TsObj} (hf : FileOK e c m w id o)
    {dm : ℝ} (hget : getFilename it dm = .ok m.fname) {rm : List ℝ}
    (hr : runningMedianOf (w.dataOf o) o.tsamp c.rmedWidth c.rmedMinpts = .ok rm) :
    ∃ w2 id2 o2, loadForDm e c it dm = .ok (w2, id2) ∧ w2.objs[id2]? = some o2 ∧ GoodSeries w2 o2 ∧ o2.tsamp = o.tsamp ∧
      w2.dataOf o2 = normalised (subtractArrays (w.dataOf o) rm) := by
  obtain ⟨w2, id2, o2, h1, h2⟩ := prepareSeries_ok w id o hf.object hf.good c.rmedWidth c.rmedMinpts rm hr
  refine ⟨w2, id2, o2, ?_, h2⟩
  unfold loadForDm
  rw [hget]
  simp only [Except.bind]
  rw [hf.loads]
  exact h1

/-- The candidate of a cluster whose centre was found in a file. -/
theorem makeCandidate_ok {c : RunConf} {w : World} {id : ℕ} {o : TsObj} (ho : w.objs[id]? = some o) (hg : GoodSeries w o) (hts : 0 < o.tsamp)
    {cl : PCluster ℝ} {p : HPeak ℝ} (hc : cl.centre = .ok p) {i : ℕ} (hi : i < c.ranges.length)
    (hget : getSearchRange c.prepConf.ranges p.period = .ok (some (c.ranges[i].entry i)))
    (hr : 0 < c.ranges[i].candBins ∧ ∀ s, c.ranges[i].candSubints = some s → 1 ≤ s)
    (hbins : c.ranges[i].candBins * o.tsamp < p.period) (hlen : p.period ≤ (w.dataOf o).length * o.tsamp) :
    ∃ w' x, makeCandidate c.prepConf.ranges c.subintsOf w id cl = .ok (w', x) ∧ x.params = p ∧ x.peaks = cl.peaks ∧
      x.profile = foldedProfile (w.dataOf o) o.tsamp p.period c.ranges[i].candBins ∧
      HasSubints (w.dataOf o) o.tsamp p.period c.ranges[i].candBins (candSubints c.ranges[i].candSubints p.period ((w.dataOf o).length * o.tsamp))
        x.subints := by
  have hb0 : (0 : ℝ) < c.ranges[i].candBins := by exact_mod_cast hr.1
  have hsub : c.subintsOf (c.ranges[i].entry i) = c.ranges[i].candSubints := by
    simp [RunConf.subintsOf, PipeRange.entry, hi]
  obtain ⟨w', x, h1, h2, _, h3, _, h5, h4⟩ := (C70_candidate w id o ho _ hg.2.1 hg.2.2 hts cl p hc _ hr.1 _ hr.2).2
    ⟨hlen, by rw [lt_div_iff₀ hb0, mul_comm]; exact hbins⟩
  refine ⟨w', x, ?_, h2, h3, h4, h5⟩
  unfold makeCandidate
  rw [hc]
  simp only [Except.bind, hget, hsub]
  exact h1

/-- A possible schedule of the pool for a run. -/
def RunSchedule (c : RunConf) (ms : List FileMeta) (s : PoolSchedule) : Prop :=
  ∀ it chunks, prepare c.prepConf ms = .ok it → iterateFilenames it c.processes = .ok chunks → ValidSchedule s 0 chunks

/-- What the candidate `x` of a cluster with the peaks `peaks` consists of. -/
def FoldedFromFile (e : PipeEnv) (c : RunConf) (ms : List FileMeta) (peaks : List (HPeak ℝ)) (params : HPeak ℝ) (x : CandObj ℝ) : Prop :=
  x.params = params ∧ x.peaks = peaks ∧ ∃ m ∈ ms, m.dm = params.dm ∧ ∃ (w : World) (id : ℕ) (o : TsObj) (rm : List ℝ),
    e.loader m.fname = .ok (w, id) ∧ w.objs[id]? = some o ∧
    runningMedianOf (w.dataOf o) o.tsamp c.rmedWidth c.rmedMinpts = .ok rm ∧
    ∃ r ∈ c.ranges, r.search.periodMin ≤ params.period ∧ params.period < r.search.periodMax ∧
      x.profile = foldedProfile (normalised (subtractArrays (w.dataOf o) rm)) o.tsamp params.period r.candBins ∧
      HasSubints (normalised (subtractArrays (w.dataOf o) rm)) o.tsamp params.period r.candBins
        (candSubints r.candSubints params.period ((w.dataOf o).length * o.tsamp)) x.subints

/-- The job of a run, if all selected files can be searched. -/
theorem run_job {e : PipeEnv} {c : RunConf} {ms : List FileMeta} (hok : RunOK e c ms) {it : DmIter ℝ} (hit : prepare c.prepConf ms = .ok it)
    {fnames : List String} (hfn : it.selectedDms.mapM (getFilename it) = .ok fnames) {g : String → List (HPeak ℝ)}
    (hg : ∀ f ∈ fnames, processFile e c f = .ok (g f)) :
    ∃ ts : ℝ → World × ℕ, JobOK (pipelineJob e c ms it fnames) g ts ∧
      ∀ f ∈ fnames, ∀ p ∈ g f, ∀ peaks, (PCluster.mk peaks none none none).centre = .ok p →
        ∃ x, (pipelineJob e c ms it fnames).make (ts p.dm) peaks p = .ok x ∧ FoldedFromFile e c ms peaks p x := by
  obtain ⟨wmin, dm0, dm1, gl, gb, b, t, hw, hne, _, _, _, _, _, _, ht, hv⟩ := prepare_inv hit hok.cap
  have hcont : contiguityLoop c.prepConf.ranges = .ok () := by
    unfold validateRanges at hv
    obtain ⟨_, _, h⟩ := bind_ok_inv hv
    exact h
  -- each name belongs to a selected DM and a file
  have hfile : ∀ f ∈ fnames, ∃ m ∈ ms, m.fname = f ∧ getFilename it m.dm = .ok m.fname := by
    intro f hf
    obtain ⟨dm, hdm, hget⟩ := forall₂_mem_right (mapM_ok_inv _ _ _ hfn) hf
    obtain ⟨m, hm, rfl, hget'⟩ := selected_file (c := c.prepConf) hok.cap hit hdm
    rw [hget] at hget'
    cases hget'
    exact ⟨m, hm, rfl, hget⟩
  have key : ∀ f ∈ fnames, ∀ p ∈ g f, ∃ (m : FileMeta) (w : World) (id : ℕ) (o : TsObj) (rm : List ℝ) (w2 : World) (id2 : ℕ) (o2 : TsObj)
      (i : ℕ) (hi : i < c.ranges.length), m ∈ ms ∧ m.dm = p.dm ∧ FileOK e c m w id o ∧
      runningMedianOf (w.dataOf o) o.tsamp c.rmedWidth c.rmedMinpts = .ok rm ∧
      loadForDm e c it p.dm = .ok (w2, id2) ∧ w2.objs[id2]? = some o2 ∧ GoodSeries w2 o2 ∧ o2.tsamp = o.tsamp ∧
      w2.dataOf o2 = normalised (subtractArrays (w.dataOf o) rm) ∧
      0 < p.period ∧ p.freq = 1 / p.period ∧ 0 < p.ducy ∧ p.period ≤ (w2.dataOf o2).length * o.tsamp ∧
      c.ranges[i].search.periodMin ≤ p.period ∧ p.period < c.ranges[i].search.periodMax ∧
      getSearchRange c.prepConf.ranges p.period = .ok (some (c.ranges[i].entry i)) := by
    intro f hf p hp
    obtain ⟨m, hm, rfl, hget⟩ := hfile f hf
    obtain ⟨w, id, o, hfo⟩ := hok.files m hm
    obtain ⟨rm, hr, hall⟩ := processFile_peaks hok hfo hcont (hg _ hf)
    obtain ⟨hdm, a1, a2, a3, a4, i, hi, a5, a6, a7⟩ := hall p hp
    obtain ⟨w2, id2, o2, b1, b2, b3, b4, b5⟩ := loadForDm_ok hfo hget hr
    rw [← hdm] at b1
    have hlen : (w2.dataOf o2).length = (w.dataOf o).length := by
      rw [b5, normalised, List.length_map, subtract_length (runningMedianOf_length hr)]
    exact ⟨m, w, id, o, rm, w2, id2, o2, i, hi, hm, hdm.symm, hfo, hr, b1, b2, b3, b4, b5, a1, a2, a3, by rw [hlen]; exact a4, a5, a6, a7⟩
  obtain ⟨ts, hts⟩ : ∃ ts : ℝ → World × ℕ, ∀ dm x, loadForDm e c it dm = .ok x → ts dm = x := by
    refine ⟨fun dm => match loadForDm e c it dm with | .ok x => x | .error _ => (⟨[], [], []⟩, 0), ?_⟩
    intro dm x hx
    simp only [hx]
  refine ⟨ts, ?_, ?_⟩
  · refine ⟨hok.processes, hg, ?_, hok.argsort, ?_, hok.test, ?_⟩
    · intro f hf p hp
      obtain ⟨m, w, id, o, rm, w2, id2, o2, i, hi, _, _, _, _, _, _, _, _, _, a1, a2, a3, _⟩ := key f hf p hp
      exact ⟨a1, a2, a3⟩
    · refine npMedian_pos (by simpa using hne) ?_
      intro x hx
      obtain ⟨m, hm, rfl⟩ := List.mem_map.mp hx
      obtain ⟨w, id, o, hfo⟩ := hok.files m hm
      exact hfo.tobs
    · intro f hf p hp
      obtain ⟨m, w, id, o, rm, w2, id2, o2, i, hi, _, _, _, _, b1, _⟩ := key f hf p hp
      show loadForDm e c it p.dm = _
      rw [hts _ _ b1, b1]
  · intro f hf p hp peaks hcen
    obtain ⟨m, w, id, o, rm, w2, id2, o2, i, hi, hm, hdm, hfo, hr, b1, b2, b3, b4, b5, a1, a2, a3, a4, a5, a6, a7⟩ := key f hf p hp
    have hri := hok.ranges _ (List.getElem_mem hi)
    obtain ⟨w', x, h1, h2, h3, h4, h5⟩ := makeCandidate_ok b2 b3 (by rw [b4]; exact hfo.tsamp_pos) hcen hi a7 hri
      (by rw [b4]; exact lt_of_lt_of_le (hfo.bins _ (List.getElem_mem hi)) a5) (by rw [b4]; exact a4)
    refine ⟨x, ?_, h2, h3, m, hm, hdm, w, id, o, rm, hfo.loads, hfo.object, hr, c.ranges[i], List.getElem_mem hi, a5, a6, ?_, ?_⟩
    · rw [hts _ _ b1]
      show Except.map _ (makeCandidate _ _ w2 id2 _) = _
      rw [h1]
      rfl
    · rw [h4, b4, b5]
    · have hlen : (normalised (subtractArrays (w.dataOf o) rm)).length = (w.dataOf o).length := by
        rw [normalised, List.length_map, subtract_length (runningMedianOf_length hr)]
      rw [b4, b5, hlen] at h5
      exact h5

/-- A run that succeeds was prepared and has searched all selected files. -/
theorem run_inv {e : PipeEnv} {c : RunConf} {ms : List FileMeta} (hok : RunOK e c ms) {s : PoolSchedule} (hs : RunSchedule c ms s)
    {st : PipeState ℝ (CandObj ℝ)} (h : pipelineProcess e c ms s = .ok st) : ∃ it fnames, prepare c.prepConf ms = .ok it ∧
      it.selectedDms.mapM (getFilename it) = .ok fnames ∧ ∀ f ∈ fnames, ∃ l, processFile e c f = .ok l := by
  unfold pipelineProcess at h
  obtain ⟨it, hit, h⟩ := bind_ok_inv h
  obtain ⟨fnames, hfn, h⟩ := bind_ok_inv h
  refine ⟨it, fnames, hit, hfn, ?_⟩
  unfold PipeState.process PipeState.search at h
  obtain ⟨_, h, _⟩ := bind_ok_inv h
  obtain ⟨peaks, h, _⟩ := map_ok_inv h
  have hv : ValidSchedule s 0 (chunkLoop c.processes fnames []) := by
    refine hs it _ hit ?_
    unfold iterateFilenames
    rw [hfn]
    rfl
  have := ((C47_schedule_independent (processFile e c) fnames c.processes hok.processes s hv).1 peaks).mpr h
  obtain ⟨ls, h1, _⟩ := map_ok_inv this
  intro f hf
  obtain ⟨l, _, hl⟩ := forall₂_mem_left (mapM_ok_inv _ _ _ h1) hf
  exact ⟨l, hl⟩

/-- **C100.** A run of the pipeline fails only if it cannot be prepared or one of the selected files cannot be searched. Otherwise no candidate is
lost: each cluster that is left by the filters has exactly one, although an exception while folding would be caught and the candidate
skipped. It has the parameters of the brightest peak, all peaks of the cluster, and the profile of the file at the DM of
this peak, dereddened and normalised with the parameters of the search, folded at its period into the numbers of bins and sub-integrations
of the range that contains the period. -/
theorem C100_no_candidate_lost (e : PipeEnv) (c : RunConf) (ms : List FileMeta) (hok : RunOK e c ms) (s : PoolSchedule) (hs : RunSchedule c ms s) :
    ((∃ st, pipelineProcess e c ms s = .ok st) ↔ ∃ it, prepare c.prepConf ms = .ok it ∧
      ∀ dm ∈ it.selectedDms, ∃ f l, getFilename it dm = .ok f ∧ processFile e c f = .ok l) ∧
    ∀ st, pipelineProcess e c ms s = .ok st → st.candidates.length = st.filtered.length ∧
      st.candidates.Pairwise (fun a b => b.params.snr ≤ a.params.snr) ∧
      (∀ x ∈ st.candidates, x.source ∈ st.filtered) ∧
      ∀ i ∈ st.filtered, ∃ x ∈ st.candidates, x.source = i ∧ (∀ y ∈ st.candidates, y.source = i → y = x) ∧
        (st.heap i).centre = .ok x.params ∧ FoldedFromFile e c ms (st.heap i).peaks x.params x.data := by
  -- a run whose files can be searched
  have main : ∀ it fnames, prepare c.prepConf ms = .ok it → it.selectedDms.mapM (getFilename it) = .ok fnames →
      (∀ f ∈ fnames, ∃ l, processFile e c f = .ok l) → ∃ st, pipelineProcess e c ms s = .ok st ∧
        st.candidates.length = st.filtered.length ∧
      st.candidates.Pairwise (fun a b => b.params.snr ≤ a.params.snr) ∧
      (∀ x ∈ st.candidates, x.source ∈ st.filtered) ∧
      ∀ i ∈ st.filtered, ∃ x ∈ st.candidates, x.source = i ∧ (∀ y ∈ st.candidates, y.source = i → y = x) ∧
        (st.heap i).centre = .ok x.params ∧ FoldedFromFile e c ms (st.heap i).peaks x.params x.data := by
    intro it fnames hit hfn hall
    choose! g hg using hall
    obtain ⟨ts, hjob, hmake⟩ := run_job hok hit hfn hg
    have hsch : JobSchedule (pipelineJob e c ms it fnames) s := by
      refine hs it _ hit ?_
      unfold iterateFilenames
      rw [hfn]
      rfl
    obtain ⟨st, cen, h1, h2, _, h4, _, h6, _, h8, h9, _, _, h12, h13, h14⟩ := C68_every_peak_accounted_for _ g ts hjob s hsch
    have hfull : ∀ i ∈ st.filtered, ∃ x ∈ st.candidates, x.source = i ∧ x.params = cen i ∧
        FoldedFromFile e c ms (st.heap i).peaks (cen i) x.data := by
      intro i hi
      obtain ⟨hic, _⟩ := h9 i hi
      obtain ⟨k1, k2, _⟩ := h6 i hic
      have hmem : cen i ∈ fnames.flatMap g :=
        h2.mem_iff.mp (h4.mem_iff.mp (List.mem_flatten.mpr ⟨_, List.mem_map_of_mem hic, k2⟩))
      obtain ⟨f, hf, hp⟩ := List.mem_flatMap.mp hmem
      obtain ⟨x, hx, hx'⟩ := hmake f hf (cen i) hp (st.heap i).peaks k1
      exact ⟨{ params := cen i, source := i, data := x }, (h14 _).mpr ⟨hi, rfl, hx⟩, rfl, rfl, hx'⟩
    have hsrc : ∀ x ∈ st.candidates, x.source ∈ st.filtered := fun x hx => ((h14 x).mp hx).1
    refine ⟨st, ?_, ?_, h12, hsrc, ?_⟩
    · unfold pipelineProcess
      rw [hit]
      simp only [Except.bind]
      rw [hfn]
      exact h1
    · have hperm : (st.candidates.map (·.source)).Perm st.filtered := by
        rw [List.perm_ext_iff_of_nodup h13 h8]
        intro i
        constructor
        · intro hi
          obtain ⟨x, hx, rfl⟩ := List.mem_map.mp hi
          exact hsrc x hx
        · intro hi
          obtain ⟨x, hx, hxi, _⟩ := hfull i hi
          exact List.mem_map.mpr ⟨x, hx, hxi⟩
      simpa using hperm.length_eq
    · intro i hi
      obtain ⟨x, hx, hxi, hxp, hxf⟩ := hfull i hi
      refine ⟨x, hx, hxi, ?_, ?_, ?_⟩
      · intro y hy hyi
        exact List.inj_on_of_nodup_map h13 hy hx (hyi.trans hxi.symm)
      · rw [hxp]
        exact (h6 i (h9 i hi).1).1
      · rw [hxp]
        exact hxf
  refine ⟨⟨?_, ?_⟩, ?_⟩
  · rintro ⟨st, h⟩
    obtain ⟨it, fnames, hit, hfn, hall⟩ := run_inv hok hs h
    refine ⟨it, hit, ?_⟩
    intro dm hdm
    obtain ⟨f, hf, hget⟩ := forall₂_mem_left (mapM_ok_inv _ _ _ hfn) hdm
    obtain ⟨l, hl⟩ := hall f hf
    exact ⟨f, l, hget, hl⟩
  · rintro ⟨it, hit, hall⟩
    have hget : ∀ dm ∈ it.selectedDms, ∃ f, getFilename it dm = .ok f := fun dm hdm => (hall dm hdm).imp fun f h => h.choose_spec.1
    choose! F hF using hget
    have hfn := mapM_ok (getFilename it) F _ hF
    obtain ⟨st, h, _⟩ := main it _ hit hfn (by
      intro f hf
      obtain ⟨dm, hdm, rfl⟩ := List.mem_map.mp hf
      obtain ⟨f, l, h1, h2⟩ := hall dm hdm
      rw [hF dm hdm] at h1
      cases h1
      exact ⟨l, h2⟩)
    exact ⟨st, h⟩
  · intro st h
    obtain ⟨it, fnames, hit, hfn, hall⟩ := run_inv hok hs h
    obtain ⟨st', h', rest⟩ := main it fnames hit hfn hall
    rw [h] at h'
    cases h'
    exact rest

/-! ## C101 -/

/-- **C101.** Every peak that the search finds in a selected file is kept, and is in a cluster whose centre is at least as bright and linked to it in
frequency. Unless the centre fails one of the cuts, is flagged as a harmonic of something brighter while harmonics are removed, or a maximum
number of candidates is set, there is a candidate of this cluster: at least as bright as the peak, with the peak in its list. -/
theorem C101_peak_to_candidate (e : PipeEnv) (c : RunConf) (ms : List FileMeta) (hok : RunOK e c ms) (s : PoolSchedule) (hs : RunSchedule c ms s)
    (st : PipeState ℝ (CandObj ℝ)) (h : pipelineProcess e c ms s = .ok st) (it : DmIter ℝ) (hit : prepare c.prepConf ms = .ok it)
    (dm : ℝ) (hdm : dm ∈ it.selectedDms) (f : String) (hf : getFilename it dm = .ok f) :
    ∃ l, processFile e c f = .ok l ∧ ∀ q ∈ l, q.dm = dm ∧ q ∈ st.peaks ∧
      ∃ i ∈ st.clusters, q ∈ (st.heap i).peaks ∧ ∃ p, (st.heap i).centre = .ok p ∧ q.snr ≤ p.snr ∧
        Linked (· ∈ st.peaks) (fun p : HPeak ℝ => p.freq) (c.radius / tobsMedian ms) q p ∧
        ((c.filters.maxNumber = none ∨ c.filters.maxNumber = some 0) → (∀ d, c.filters.dmMin = some d → d ≤ p.dm) →
          (∀ t, c.filters.snrMin = some t → t ≤ p.snr) → (c.filters.removeHarmonics = true → (st.heap i).parent = none) →
          ∃ x ∈ st.candidates, x.source = i ∧ x.params = p ∧ q.snr ≤ x.params.snr ∧ q ∈ x.data.peaks) := by
  obtain ⟨it', fnames, hit', hfn, hall⟩ := run_inv hok hs h
  rw [hit] at hit'
  cases hit'
  choose! g hg using hall
  obtain ⟨ts, hjob, hmake⟩ := run_job hok hit hfn hg
  have hsch : JobSchedule (pipelineJob e c ms it fnames) s := by
    refine hs it _ hit ?_
    unfold iterateFilenames
    rw [hfn]
    rfl
  obtain ⟨st', cen, h1, h2, _, h4, _, h6, _, _, _, h10, _⟩ := C68_every_peak_accounted_for _ g ts hjob s hsch
  have hst : st' = st := by
    unfold pipelineProcess at h
    rw [hit] at h
    simp only [Except.bind] at h
    rw [hfn] at h
    simp only at h
    rw [h1] at h
    cases h
    rfl
  subst hst
  obtain ⟨f', hf', hget⟩ := forall₂_mem_left (mapM_ok_inv _ _ _ hfn) hdm
  rw [hf] at hget
  cases hget
  refine ⟨g f, hg f hf', ?_⟩
  intro q hq
  have hqs : q ∈ st'.peaks := h2.mem_iff.mpr (List.mem_flatMap.mpr ⟨f, hf', hq⟩)
  obtain ⟨pk, hpk, hqpk⟩ := List.mem_flatten.mp (h4.mem_iff.mpr hqs)
  obtain ⟨i, hi, rfl⟩ := List.mem_map.mp hpk
  obtain ⟨k1, k2, k3⟩ := h6 i hi
  refine ⟨?_, hqs, i, hi, hqpk, cen i, k1, (k3 q hqpk).1, (k3 q hqpk).2, ?_⟩
  · obtain ⟨m, hm, rfl, hget⟩ := selected_file (c := c.prepConf) hok.cap hit hdm
    rw [hf] at hget
    cases hget
    obtain ⟨w, id, o, hfo⟩ := hok.files m hm
    obtain ⟨_, _, _, _, _, _, _, _, _, _, _, _, _, _, _, _, hv⟩ := prepare_inv hit hok.cap
    have hcont : contiguityLoop c.prepConf.ranges = .ok () := by
      unfold validateRanges at hv
      obtain ⟨_, _, h⟩ := bind_ok_inv hv
      exact h
    obtain ⟨_, _, hp⟩ := processFile_peaks hok hfo hcont (hg _ hf')
    exact (hp q hq).1
  · intro hcap hd ht hr
    have hfil := h10 hcap i hi ⟨hd, ht, hr⟩
    obtain ⟨_, hcand⟩ := C100_no_candidate_lost e c ms hok s hs
    obtain ⟨_, _, _, hc4⟩ := hcand st' h
    obtain ⟨x, hx, hxi, _, hxc, hxf⟩ := hc4 i hfil
    have hxp : x.params = cen i := by
      rw [k1] at hxc
      exact (Except.ok.inj hxc).symm
    exact ⟨x, hx, hxi, hxp, by rw [hxp]; exact (k3 q hqpk).1, by rw [hxf.2.1]; exact hqpk⟩

/-- C101. The candidates are the clusters that pass the cuts, limited in number if that is configured, in which case those that are missing are not
brighter than those that are there. -/
theorem C101_only_passing (e : PipeEnv) (c : RunConf) (ms : List FileMeta) (hok : RunOK e c ms) (s : PoolSchedule) (hs : RunSchedule c ms s)
    (st : PipeState ℝ (CandObj ℝ)) (h : pipelineProcess e c ms s = .ok st) :
    (∀ x ∈ st.candidates, x.source ∈ st.clusters ∧ (∀ d, c.filters.dmMin = some d → d ≤ x.params.dm) ∧
      (∀ t, c.filters.snrMin = some t → t ≤ x.params.snr) ∧ (c.filters.removeHarmonics = true → (st.heap x.source).parent = none)) ∧
    ∀ n, 0 < n → c.filters.maxNumber = some n → st.candidates.length ≤ n ∧
      ∀ i ∈ st.clusters, ∀ p, (st.heap i).centre = .ok p → (∀ d, c.filters.dmMin = some d → d ≤ p.dm) →
        (∀ t, c.filters.snrMin = some t → t ≤ p.snr) → (c.filters.removeHarmonics = true → (st.heap i).parent = none) →
        (∃ x ∈ st.candidates, x.source = i) ∨ (st.candidates.length = n ∧ ∀ x ∈ st.candidates, p.snr ≤ x.params.snr) := by
  obtain ⟨it, fnames, hit, hfn, hall⟩ := run_inv hok hs h
  choose! g hg using hall
  obtain ⟨ts, hjob, hmake⟩ := run_job hok hit hfn hg
  have hsch : JobSchedule (pipelineJob e c ms it fnames) s := by
    refine hs it _ hit ?_
    unfold iterateFilenames
    rw [hfn]
    rfl
  obtain ⟨st', cen, h1, _, _, _, _, h6, _, _, h9, _, h11, _⟩ := C68_every_peak_accounted_for _ g ts hjob s hsch
  have hst : st' = st := by
    unfold pipelineProcess at h
    rw [hit] at h
    simp only [Except.bind] at h
    rw [hfn] at h
    simp only at h
    rw [h1] at h
    cases h
    rfl
  subst hst
  obtain ⟨k1, _, k3, k4⟩ := (C100_no_candidate_lost e c ms hok s hs).2 st' h
  have hpar : ∀ x ∈ st'.candidates, x.params = cen x.source := by
    intro x hx
    have hfi := k3 x hx
    obtain ⟨y, hy, hyi, huniq, hyc, _⟩ := k4 x.source hfi
    rw [huniq x hx rfl]
    have := (h6 x.source (h9 _ hfi).1).1
    rw [this] at hyc
    rw [hyi]
    exact (Except.ok.inj hyc).symm
  refine ⟨?_, ?_⟩
  · intro x hx
    rw [hpar x hx]
    obtain ⟨a, b⟩ := h9 x.source (k3 x hx)
    exact ⟨a, b⟩
  · intro n hn hmax
    obtain ⟨a, b⟩ := h11 n hn hmax
    rw [k1]
    refine ⟨a, ?_⟩
    intro i hi p hp p1 p2 p3
    have hpc : p = cen i := by
      have := (h6 i hi).1
      rw [hp] at this
      exact Except.ok.inj this
    subst hpc
    by_cases hfi : i ∈ st'.filtered
    · obtain ⟨x, hx, hxi, _⟩ := k4 i hfi
      exact Or.inl ⟨x, hx, hxi⟩
    · obtain ⟨b1, b2⟩ := b i hi ⟨p1, p2, p3⟩ hfi
      refine Or.inr ⟨b1, fun x hx => ?_⟩
      rw [hpar x hx]
      exact b2 _ (k3 x hx)

theorem sorted_count {s : List ℝ} (hs : s.Pairwise (· ≤ ·)) {k : ℕ} (hk : k < s.length) :
    k + 1 ≤ (s.filter (fun x => decide (x ≤ s[k]))).length ∧ s.length - k ≤ (s.filter (fun x => decide (s[k] ≤ x))).length := by
  constructor
  · have h1 : (s.take (k + 1)).Sublist (s.filter (fun x => decide (x ≤ s[k]))) := by
      have h2 : (s.take (k + 1)).filter (fun x => decide (x ≤ s[k])) = s.take (k + 1) := by
        rw [List.filter_eq_self]
        intro x hx
        obtain ⟨i, hi, rfl⟩ := List.getElem_of_mem hx
        simp only [List.length_take] at hi
        rw [List.getElem_take, decide_eq_true_eq]
        rcases Nat.lt_or_eq_of_le (Nat.lt_succ_iff.mp (lt_of_lt_of_le hi (min_le_left _ _))) with h | h
        · exact List.pairwise_iff_getElem.mp hs i k (by omega) hk h
        · simp only [h, le_refl]
      rw [← h2]
      exact (List.take_sublist _ _).filter _
    have := h1.length_le
    rw [List.length_take] at this
    omega
  · have h1 : (s.drop k).Sublist (s.filter (fun x => decide (s[k] ≤ x))) := by
      have h2 : (s.drop k).filter (fun x => decide (s[k] ≤ x)) = s.drop k := by
        rw [List.filter_eq_self]
        intro x hx
        obtain ⟨i, hi, rfl⟩ := List.getElem_of_mem hx
        simp only [List.length_drop] at hi
        rw [List.getElem_drop, decide_eq_true_eq]
        rcases Nat.eq_zero_or_pos i with h | h
        · simp only [h, Nat.add_zero, le_refl]
        · exact List.pairwise_iff_getElem.mp hs k (k + i) hk (by omega) (by omega)
      rw [← h2]
      exact (List.drop_sublist _ _).filter _
    have := h1.length_le
    rwa [List.length_drop] at this

/-- C101: the observation time that the clustering radius refers to is a median: at least half of the observation times are not longer, at least
half not shorter. -/
theorem C101_tobs_median (ms : List FileMeta) (hne : ms ≠ []) :
    ms.length ≤ 2 * (ms.filter (fun m => decide (m.tobs ≤ tobsMedian ms))).length ∧
    ms.length ≤ 2 * (ms.filter (fun m => decide (tobsMedian ms ≤ m.tobs))).length := by
  obtain ⟨l, hl⟩ : ∃ l : List ℝ, l = ms.map (·.tobs) := ⟨_, rfl⟩
  obtain ⟨s, hs⟩ : ∃ s : List ℝ, s = l.mergeSort (fun a b => decide (a ≤ b)) := ⟨_, rfl⟩
  have hperm : s.Perm l := hs ▸ List.mergeSort_perm _ _
  have hsort : s.Pairwise (· ≤ ·) := by
    have := List.pairwise_mergeSort (le := fun a b : ℝ => decide (a ≤ b))
      (by intro a b c h1 h2; simp only [decide_eq_true_eq] at *; exact h1.trans h2)
      (by intro a b; simp only [Bool.or_eq_true, decide_eq_true_eq]; exact le_total a b) l
    rw [← hs] at this
    simpa using this
  have hlen : s.length = ms.length := by rw [hperm.length_eq, hl, List.length_map]
  have h0 : 0 < s.length := by rw [hlen]; exact List.length_pos_of_ne_nil hne
  have hcount : ∀ f : ℝ → Bool, (ms.filter (fun m => f m.tobs)).length = (s.filter f).length := by
    intro f
    rw [(hperm.filter f).length_eq, hl, List.filter_map, List.length_map]
    rfl
  have hle : ∀ a b : ℝ, a ≤ b → (s.filter (fun x => decide (x ≤ a))).length ≤ (s.filter (fun x => decide (x ≤ b))).length := by
    intro a b hab
    refine (List.monotone_filter_right s ?_).length_le
    intro x hx
    simp only [decide_eq_true_eq] at hx ⊢
    exact hx.trans hab
  have hge : ∀ a b : ℝ, a ≤ b → (s.filter (fun x => decide (b ≤ x))).length ≤ (s.filter (fun x => decide (a ≤ x))).length := by
    intro a b hab
    refine (List.monotone_filter_right s ?_).length_le
    intro x hx
    simp only [decide_eq_true_eq] at hx ⊢
    exact hab.trans hx
  rw [hcount (fun x => decide (x ≤ tobsMedian ms)), hcount (fun x => decide (tobsMedian ms ≤ x)), ← hlen]
  have hmed : tobsMedian ms = if s.length % 2 = 1 then s.getD (s.length / 2) 0
      else (s.getD (s.length / 2 - 1) 0 + s.getD (s.length / 2) 0) / 2 := by
    unfold tobsMedian npMedian
    rw [← hl, ← hs]
  by_cases hodd : s.length % 2 = 1
  · rw [if_pos hodd, getD_of_lt s (by omega)] at hmed
    rw [hmed]
    have := sorted_count hsort (k := s.length / 2) (by omega)
    omega
  · rw [if_neg hodd, getD_of_lt s (by omega), getD_of_lt s (by omega)] at hmed
    have h1 := sorted_count hsort (k := s.length / 2 - 1) (by omega)
    have h2 := sorted_count hsort (k := s.length / 2) (by omega)
    have h3 := List.pairwise_iff_getElem.mp hsort (s.length / 2 - 1) (s.length / 2) (by omega) (by omega) (by omega)
    have h4 := hle _ _ (show s[s.length / 2 - 1] ≤ tobsMedian ms by rw [hmed]; linarith)
    have h5 := hge _ _ (show tobsMedian ms ≤ s[s.length / 2] by rw [hmed]; linarith)
    omega

/-- C101 for a pulsar: narrow pulses of a period inside one of the searched ranges, in the file of a selected DM. In the search of the range, a trial within
one step of the period has the S/N of C97; if that exceeds the thresholds of the peak search and the minimum S/N of candidates, a candidate
with at least this S/N contains a peak at this DM that is linked to the trial, unless the centre of its cluster is below the minimum DM of
candidates or flagged as a harmonic, or there is a maximum number of candidates. -/
theorem C101_pulsar (e : PipeEnv) (c : RunConf) (ms : List FileMeta) (hok : RunOK e c ms) (s : PoolSchedule) (hs : RunSchedule c ms s)
    (st : PipeState ℝ (CandObj ℝ)) (h : pipelineProcess e c ms s = .ok st) (it : DmIter ℝ) (hit : prepare c.prepConf ms = .ok it)
    (m : FileMeta) (hdm : m.dm ∈ it.selectedDms) (hfn : getFilename it m.dm = .ok m.fname)
    (w : World) (id : ℕ) (o : TsObj) (hf : FileOK e c m w id o) (hN : (w.dataOf o).length ≤ 2 ^ 64)
    (r : PipeRange) (hr : r ∈ c.ranges) (hdc : r.search.ducyMax < 1) (h2 : 2 * r.search.periodMax ≤ w.lengthOf o)
    (n : ℕ) (hn : |c.rmedWidth / o.tsamp - n| < 1 / 2)
    (P φ D lo hi : ℝ) (hP1 : r.search.periodMin ≤ P) (hP2 : P < r.search.periodMax) (pulse : ℕ → ℝ)
    (hx : PulsedData (w.dataOf o) o.tsamp P φ D lo hi pulse)
    (hnar : NarrowPulses (w.dataOf o).length n c.rmedMinpts o.tsamp P D pulse) :
    ∃ (g : Pgram ℝ) (j : ℕ) (p : ℝ) (t : Trial),
      g.widths = generateWidthTrials r.search.binsMin r.search.ducyMax r.search.wtsp ∧ g.tobs = w.lengthOf o ∧
      g.periods[j]? = some p ∧ g.foldbins[j]? = some t.b ∧
      t.OK (w.dataOf o).length o.tsamp r.search.periodMin r.search.binsMin r.search.binsMax ∧ 1 ≤ t.f ∧
      1 / p = t.freq o.tsamp ∧ 0 < p ∧ p ≤ P ∧ 1 / p - 1 / P < t.step o.tsamp ∧
      ∀ (k wd : ℕ), g.widths[k]? = some wd → D / P * t.b + smearing t ≤ wd → ∃ thr, thresholdOf e.fit r.peaks g k = .ok thr ∧
        ∀ (K : ℕ) (L S : ℝ), K * o.tsamp + P + t.f * o.tsamp ≤ w.lengthOf o →
          (L ≤ (∑ i ∈ range K, pulse i) * Real.sqrt (((t.b : ℝ) - wd) / (t.b * wd)) /
              Real.sqrt (t.m * downsampledVariance (w.dataOf o).length t.f) ∨
            (downsampledVariance (w.dataOf o).length t.f ≤ t.f ∧
              L ≤ (∑ i ∈ range K, pulse i) * Real.sqrt (((t.b : ℝ) - wd) / wd) / Real.sqrt (w.dataOf o).length)) →
          0 ≤ S → S * (Real.sqrt ((∑ i ∈ range (w.dataOf o).length, pulse i ^ 2) / (w.dataOf o).length) + (hi - lo)) ≤
            L - Real.sqrt (2 * (w.dataOf o).length) * (hi - lo) →
          r.peaks.smin < S → thr (1 / p) < S → (∀ t, c.filters.snrMin = some t → t ≤ S) →
          ∃ q ∈ st.peaks, q.dm = m.dm ∧ S ≤ q.snr ∧
            (∃ ip, q.freq = freqAt g ip ∧ Linked (Significant g thr r.peaks.smin k) (freqAt g) (r.peaks.clrad / w.lengthOf o) ip j) ∧
            ∃ i ∈ st.clusters, ∃ centre, (st.heap i).centre = .ok centre ∧ S ≤ centre.snr ∧
              Linked (· ∈ st.peaks) (fun p : HPeak ℝ => p.freq) (c.radius / tobsMedian ms) q centre ∧
              ((c.filters.maxNumber = none ∨ c.filters.maxNumber = some 0) → (∀ d, c.filters.dmMin = some d → d ≤ centre.dm) →
                (c.filters.removeHarmonics = true → (st.heap i).parent = none) →
                ∃ x ∈ st.candidates, x.params = centre ∧ S ≤ x.params.snr ∧ q ∈ x.data.peaks) := by
  obtain ⟨l, hl, hall⟩ := C101_peak_to_candidate e c ms hok s hs st h it hit m.dm hdm m.fname hfn
  unfold processFile at hl
  rw [hf.loads] at hl
  simp only [Except.bind] at hl
  obtain ⟨peaks, hp, rfl⟩ := map_ok_inv hl
  obtain ⟨g, j, p, t, a1, a2, a3, a4, a5, a6, a7, a8, a9, a10, a11⟩ := C97_worker e.idx e.argsort hok.argsort e.fit c.rmedWidth c.rmedMinpts
    (c.ranges.map (·.conf)) w id o hf.object hf.good m.dm hf.dm peaks hp hN r.conf (List.mem_map_of_mem hr) (hf.idx r hr) hdc h2 n hn P φ D lo hi
    hP1 hP2 pulse hx hnar
  refine ⟨g, j, p, t, a1, a2, a3, a4, a5, a6, a7, a8, a9, a10, ?_⟩
  intro k wd hk hwd
  obtain ⟨thr, hthr, b1⟩ := a11 k wd hk hwd
  refine ⟨thr, hthr, ?_⟩
  intro K L S hK hL hS0 hS hsm hth hmin
  obtain ⟨_, b2⟩ := b1 K L S hK hL hS0 hS
  obtain ⟨q, hq, hqS, _, hqf, hqL⟩ := b2 hsm hth
  obtain ⟨c1, c2, i, hi, c3, ctr, c4, c5, c6, c7⟩ := hall (pipelinePeak (q, m.dm)) (List.mem_map_of_mem hq)
  have hSc : S ≤ ctr.snr := le_trans hqS c5
  refine ⟨_, c2, c1, hqS, ⟨q.ip, hqf, hqL⟩, i, hi, ctr, c4, hSc, c6, ?_⟩
  intro d1 d2 d3
  obtain ⟨x, hx, _, hxp, hxs, hxq⟩ := c7 d1 d2 (fun t ht => (hmin t ht).trans hSc) d3
  exact ⟨x, hx, hxp, hqS.trans hxs, hxq⟩

/-! ## A run that succeeds -/

/-- A loaded file is searched without error if the window of the running median and all ranges fit the data. -/
theorem processLoaded_ok (idx : IdxRule) (argsort : List ℝ → List ℕ) (fit : List ℝ → List ℝ → ℝ → ℝ) (rmedWidth : ℝ) (rmedMinpts : ℕ)
    (hodd : rmedMinpts % 2 = 1) (confs : List RangeConf) (w : World) (id : ℕ) (o : TsObj) (ho : w.objs[id]? = some o) (hg : GoodSeries w o)
    (ht : 0 < o.tsamp) (dm : ℝ) (hdm : dictGet (w.metaOf o) "dm" = some (.num dm))
    (hwin : WindowFits rmedWidth o.tsamp rmedMinpts (w.dataOf o).length)
    (hfit : ∀ c ∈ confs, FitsData c (w.dataOf o).length o.tsamp ∧ IdxFor idx ((w.dataOf o).length / c.search.binsMin)) :
    ∃ peaks, processLoaded idx argsort fit rmedWidth rmedMinpts confs w id = .ok peaks := by
  obtain ⟨k, hk1, hk2, hk3⟩ := hwin
  obtain ⟨rmed, hrm⟩ : ∃ r, runningMedianOf (w.dataOf o) o.tsamp rmedWidth rmedMinpts = .ok r := by
    obtain ⟨out, hout⟩ := C27_partial (w.dataOf o) k rmedMinpts hodd hk2 hk3
    refine ⟨out, ?_⟩
    unfold runningMedianOf
    rw [if_neg ht.ne']
    simp only [hk1]
    rw [if_pos (by omega), Int.toNat_natCast, hout]
    rfl
  have hlen : (normalised (subtractArrays (w.dataOf o) rmed)).length = (w.dataOf o).length := by
    rw [normalised, List.length_map, subtract_length (runningMedianOf_length hrm)]
  have hpk : ∀ c ∈ confs, ∃ peaks,
      peaksOfData idx argsort fit (normalised (subtractArrays (w.dataOf o) rmed)) o.tsamp c.search c.peaks = .ok peaks := by
    intro c hc
    obtain ⟨⟨b1, b2, b3, b4, b5, b6, b7⟩, b8⟩ := hfit c hc
    have hb : (0 : ℝ) < c.search.binsMin := by exact_mod_cast (by omega : 0 < c.search.binsMin)
    apply C81_search_and_find idx argsort fit _ o.tsamp c.search c.peaks (by rw [hlen]; exact b8)
    · rw [hlen]
      exact ⟨ht, lt_of_lt_of_le (by positivity) b3, b4, by simp only; omega, b2, b3⟩
    · rw [hlen]; exact b5
    · rw [hlen]; exact b6
    · simpa using b7
  choose! pk hpk' using hpk
  rw [processLoaded_eq idx argsort fit rmedWidth rmedMinpts confs w id o ho hg dm hdm, hrm]
  simp only [Except.bind]
  rw [mapM_ok _ pk _ hpk']
  exact ⟨_, rfl⟩

/-- C100: a run succeeds if it can be prepared, `rmed_minpts` is odd, and the window of the running median and all ranges fit the data of all
files. -/
theorem C100_succeeds (e : PipeEnv) (c : RunConf) (ms : List FileMeta) (hok : RunOK e c ms) (s : PoolSchedule) (hs : RunSchedule c ms s)
    (it : DmIter ℝ) (hit : prepare c.prepConf ms = .ok it) (hodd : c.rmedMinpts % 2 = 1)
    (hfit : ∀ m ∈ ms, ∀ w id o, FileOK e c m w id o → WindowFits c.rmedWidth o.tsamp c.rmedMinpts (w.dataOf o).length ∧
      ∀ r ∈ c.ranges, FitsData r.conf (w.dataOf o).length o.tsamp) : ∃ st, pipelineProcess e c ms s = .ok st := by
  refine (C100_no_candidate_lost e c ms hok s hs).1.mpr ⟨it, hit, ?_⟩
  intro dm hdm
  obtain ⟨m, hm, rfl, hget⟩ := selected_file (c := c.prepConf) hok.cap hit hdm
  obtain ⟨w, id, o, hf⟩ := hok.files m hm
  obtain ⟨h1, h2⟩ := hfit m hm w id o hf
  obtain ⟨peaks, hp⟩ := processLoaded_ok e.idx e.argsort e.fit c.rmedWidth c.rmedMinpts hodd (c.ranges.map (·.conf)) w id o hf.object hf.good
    hf.tsamp_pos m.dm hf.dm h1 (by
      intro r hr
      obtain ⟨r', hr', rfl⟩ := List.mem_map.mp hr
      exact ⟨h2 r' hr', hf.idx r' hr'⟩)
  refine ⟨m.fname, peaks.map pipelinePeak, hget, ?_⟩
  unfold processFile
  rw [hf.loads]
  simp only [Except.bind]
  rw [hp]
  rfl

/-! ## Example: from 1000 samples to a candidate -/

/-- One file of 1000 samples at DM 10. -/
noncomputable def pulsarFile : FileMeta := ⟨⟨10, "a.inf", 1182, 400, 1⟩, 1, 1000, 120, 30⟩

/-- The pulses of `pulsed_example'` on a baseline that alternates between 0 and 1/8. -/
noncomputable def pulsarSamples : List ℝ :=
  (List.range 1000).map fun i => (if i % 2 = 1 then 1 / 8 else 0) + if (3 * i + 50) % 100 ≤ 9 then 10 else 0

/-- The file as loaded. -/
noncomputable def pulsarWorld : World := ⟨[pulsarSamples], [[("dm", .num 10), ("tobs", .num 1000)]], [⟨0, 1, 0⟩]⟩

/-- One range, 32 to 34 seconds; candidates with an S/N of at least 8. -/
noncomputable def pulsarRange : PipeRange where
  search := ⟨32, 34, 8, 32, 33, 3 / 10, 3 / 2, false, 4, 101, true⟩
  peaks := ⟨7, 5, 6, 10, 1 / 5⟩
  candBins := 16
  candSubints := some 4

noncomputable def pulsarConf : RunConf where
  prep := ⟨.presto, none, none, none, none, none, some 45, [⟨32, 34, 32, 16, 0⟩]⟩
  ranges := [pulsarRange]
  rmedWidth := 33
  rmedMinpts := 33
  processes := 1
  radius := 1 / 5
  filters := ⟨none, some 8, false, none⟩

/-- With any harmonic test. -/
noncomputable def pulsarEnv (test : HPeak ℝ → HPeak ℝ → Except PyErr (Bool × ℚ)) : PipeEnv where
  idx := float32Idx
  argsort := insArgsort
  fit := fun _ _ _ => 7
  test
  loader := fun _ => .ok (pulsarWorld, 0)

theorem pulsarSamples_get : ∀ i < 1000, pulsarSamples[i]? = some ((if i % 2 = 1 then 1 / 8 else 0) + if (3 * i + 50) % 100 ≤ 9 then 10 else 0) := by
  intro i hi
  rw [pulsarSamples, List.getElem?_map, List.getElem?_range hi]
  rfl

theorem pulsarSamples_length : pulsarSamples.length = 1000 := by simp [pulsarSamples]

attribute [irreducible] pulsarSamples

theorem pulsarWorld_data : pulsarWorld.dataOf ⟨0, 1, 0⟩ = pulsarSamples := rfl

theorem pulsarWorld_length : pulsarWorld.lengthOf ⟨0, 1, 0⟩ = 1000 := by
  unfold World.lengthOf
  rw [pulsarWorld_data, pulsarSamples_length]
  norm_num

theorem pulsarFile_ok (test : HPeak ℝ → HPeak ℝ → Except PyErr (Bool × ℚ)) : FileOK (pulsarEnv test) pulsarConf pulsarFile pulsarWorld 0 ⟨0, 1, 0⟩ := by
  refine ⟨rfl, rfl, ⟨by simp [pulsarWorld], by rw [pulsarWorld_length]; norm_num, ?_⟩, one_pos, ?_, by norm_num [pulsarFile], ?_, ?_⟩
  · rw [pulsarWorld_length]
    simp [pulsarWorld, World.metaOf, List.getD, dictGet]
  · simp [pulsarWorld, World.metaOf, List.getD, dictGet, pulsarFile]
  · intro r hr
    simp only [pulsarConf, List.mem_singleton] at hr
    rw [pulsarWorld_data, pulsarSamples_length, hr]
    exact Or.inr ⟨Or.inl rfl, by norm_num [pulsarRange]⟩
  · intro r hr
    simp only [pulsarConf, List.mem_singleton] at hr
    rw [hr]
    norm_num [pulsarRange]

theorem pulsar_cap : ∀ x, pulsarConf.prep.dmsinbMax = some x → 0 < x := by
  intro x hx
  simp only [pulsarConf, Option.some.injEq] at hx
  rw [← hx]
  norm_num

/-- A harmonic test that does not fail for peaks with a frequency and a duty cycle above zero. -/
def TestRuns (test : HPeak ℝ → HPeak ℝ → Except PyErr (Bool × ℚ)) : Prop :=
  ∀ p q, 0 < p.freq → 0 < q.freq → 0 < p.ducy → 0 < q.ducy → ∃ r, test p q = .ok r

theorem pulsar_run_ok {test : HPeak ℝ → HPeak ℝ → Except PyErr (Bool × ℚ)} (h : TestRuns test) :
    RunOK (pulsarEnv test) pulsarConf [pulsarFile] := by
  refine ⟨insArgsort_ok, le_rfl, pulsar_cap, h, ?_, ?_⟩
  · intro r hr
    simp only [pulsarConf, List.mem_singleton] at hr
    rw [hr]
    refine ⟨by norm_num [pulsarRange], ?_⟩
    rintro s ⟨⟩
    norm_num
  · intro m hm
    rw [List.mem_singleton.mp hm]
    exact ⟨_, _, _, pulsarFile_ok test⟩

theorem pulsar_prepared : ∃ it, prepare pulsarConf.prepConf [pulsarFile] = .ok it := by
  refine (C94_accepts pulsarConf.prepConf [pulsarFile] pulsar_cap).mpr ?_
  refine ⟨by simp [RunConf.prepConf, pulsarConf], ⟨120, 30, by simp [pulsarFile]⟩, ⟨1182, 1582, 400, Or.inl ⟨rfl, ?_⟩⟩,
    ⟨pulsarFile, by simp, ?_, ?_, ?_⟩, ?_, by simp [RunConf.prepConf, pulsarConf]⟩
  · intro m hm
    rw [List.mem_singleton.mp hm]
    norm_num [pulsarFile]
  · rintro x ⟨⟩
  · rintro x ⟨⟩
  · rintro x ⟨⟩
    have := Real.abs_sin_le_one (pulsarFile.gb * Real.pi / 180)
    have h10 : pulsarFile.dm = 10 := rfl
    rw [h10]
    linarith
  · intro r hr m hm
    rw [List.mem_singleton.mp hm]
    simp only [RunConf.prepConf, pulsarConf, List.mapIdx_cons, List.mapIdx_nil, List.mem_singleton] at hr
    rw [hr]
    norm_num [PipeRange.entry, pulsarRange, pulsarFile]

theorem pulsar_schedule : RunSchedule pulsarConf [pulsarFile] ⟨fun _ => 1, fun _ => [0]⟩ := by
  intro it chunks hit hch
  obtain ⟨_, _, _, chunks', h1, h2, _⟩ := C94_selected pulsarConf.prepConf [pulsarFile] pulsar_cap it hit 1 le_rfl
  have : pulsarConf.processes = 1 := rfl
  rw [this, h1] at hch
  cases hch
  intro i ch hi
  obtain ⟨h3, h4⟩ := h2 ch (List.mem_of_getElem? hi)
  match ch, h3, h4 with
  | [a], _, _ => exact ⟨le_rfl, .refl _⟩

/-- A run on this file succeeds and has a candidate with an S/N of at least 10, whatever else is in the metadata. -/
theorem pulsar_candidate {e : PipeEnv} (hok : RunOK e pulsarConf [pulsarFile]) (hfit : e.fit = fun _ _ _ => 7) {w : World} {id : ℕ} {o : TsObj}
    (hfile : FileOK e pulsarConf pulsarFile w id o) (hd : w.dataOf o = pulsarSamples) (ht : o.tsamp = 1) :
    ∃ st, pipelineProcess e pulsarConf [pulsarFile] ⟨fun _ => 1, fun _ => [0]⟩ = .ok st ∧
    ∃ x ∈ st.candidates, 10 ≤ x.params.snr ∧ x.data.profile.length = 16 := by
  obtain ⟨d0, ts, m0⟩ := o
  simp only at ht
  subst ht
  have hlen : w.lengthOf ⟨d0, 1, m0⟩ = 1000 := by
    unfold World.lengthOf
    rw [hd, pulsarSamples_length]
    norm_num
  obtain ⟨it, hit⟩ := pulsar_prepared
  have hwin : pyRound ((33 : ℝ) / 1) = 33 := by
    have hfl : ⌊((33 : ℝ) / 1)⌋ = 33 := by rw [Int.floor_eq_iff]; norm_num
    unfold pyRound
    rw [hfl]
    norm_num
  obtain ⟨st, hst⟩ := C100_succeeds e pulsarConf [pulsarFile] hok _ pulsar_schedule it hit rfl (by
    intro m hm w' id' o' hf'
    rw [List.mem_singleton.mp hm] at hf'
    have h1 := hf'.loads
    rw [hfile.loads] at h1
    cases h1
    have h2 := hf'.object
    rw [hfile.object] at h2
    cases h2
    rw [hd, pulsarSamples_length]
    refine ⟨⟨33, hwin, Or.inr rfl, by norm_num [pulsarConf]⟩, ?_⟩
    intro r hr
    simp only [pulsarConf, List.mem_singleton] at hr
    rw [hr]
    refine ⟨?_, ?_, ?_, ?_, ?_, ?_, ?_⟩ <;> norm_num [pulsarRange, PipeRange.conf])
  refine ⟨st, hst, ?_⟩
  obtain ⟨hsel1, _, _, _, _, _, _, hsel2⟩ := C94_selected pulsarConf.prepConf [pulsarFile] pulsar_cap it hit 1 le_rfl
  have hdm : pulsarFile.dm ∈ it.selectedDms := by
    obtain ⟨lo, hlo, _⟩ := hsel1
    have hmem := List.mem_of_mem_head? hlo
    obtain ⟨f, _, m, hm, hm', _⟩ := forall₂_mem_left hsel2 hmem
    have := List.mem_singleton.mp hm.1
    rw [← this, hm']
    exact hmem
  have hget : getFilename it pulsarFile.dm = .ok pulsarFile.fname := by
    obtain ⟨m, hm, _, h⟩ := selected_file (c := pulsarConf.prepConf) pulsar_cap hit hdm
    rw [List.mem_singleton.mp hm] at h
    exact h
  obtain ⟨g, j, p, t, gw, _, _, _, htr, hf1', hfr, hp0, hle, _, key⟩ := C101_pulsar e pulsarConf [pulsarFile] hok _ pulsar_schedule st hst
    it hit pulsarFile hdm hget w id ⟨d0, 1, m0⟩ hfile (by rw [hd, pulsarSamples_length]; norm_num) pulsarRange
    (by simp [pulsarConf]) (by norm_num [pulsarRange]) (by rw [hlen]; norm_num [pulsarRange]) 33 (by norm_num [pulsarConf])
    (100 / 3) (-50 / 3) 3 0 (1 / 8) (by norm_num [pulsarRange]) (by norm_num [pulsarRange])
    (fun n => if (3 * n + 50) % 100 ≤ 9 then 10 else 0)
    (by
      refine ⟨pulsed_example', ?_, 17, by rw [hd, pulsarSamples_length]; norm_num, by norm_num⟩
      intro i hi
      rw [hd, pulsarSamples_length] at hi
      rw [hd, List.getD_eq_getElem?_getD, pulsarSamples_get i hi, Option.getD_some]
      split_ifs <;> norm_num)
    (by
      rw [hd, pulsarSamples_length]
      refine ⟨?_, ?_⟩
      · intro i hi
        have h : (3 * i + 50) % 100 ≤ 9 := by
          by_contra hc
          simp [hc] at hi
        norm_num [pulsarConf]
        omega
      · have f1 : ⌊(3 : ℝ) / 1⌋₊ = 3 := by norm_num
        have f2 : ⌊(100 / 3 : ℝ) / 1⌋₊ = 33 := by rw [Nat.floor_eq_iff (by norm_num)]; norm_num
        simp only [f1, f2, pulsarConf]
        decide)
  simp only [hlen, hd, pulsarSamples_length] at htr key
  have hf1 := first_stage htr hf1' one_pos (by norm_num [pulsarRange]) hp0 hfr (by norm_num [pulsarRange]) (by norm_num [pulsarRange]; linarith)
  have hb := htr.bins
  simp only [pulsarRange] at hb
  have hm : t.m ≤ 31 ∧ 30 ≤ t.m := by
    rw [htr.rows, hf1, div_one, Nat.floor_natCast]
    constructor
    · exact (Nat.div_le_div_left hb.1 (by norm_num)).trans (by norm_num)
    · exact le_trans (by norm_num) (Nat.div_le_div_left hb.2 (by omega))
  have hclog : Nat.clog 2 t.m = 5 := by
    apply le_antisymm
    · exact (Nat.clog_mono_right 2 hm.1).trans (by decide +kernel)
    · exact le_trans (by decide +kernel) (Nat.clog_mono_right 2 hm.2)
  have hbR : (32 : ℝ) ≤ t.b ∧ (t.b : ℝ) ≤ 33 := ⟨by exact_mod_cast hb.1, by exact_mod_cast hb.2⟩
  have hsum : ∑ n ∈ range 960, (if (3 * n + 50) % 100 ≤ 9 then (10 : ℝ) else 0) = 970 := by
    have hc : ∑ n ∈ range 960, (if (3 * n + 50) % 100 ≤ 9 then 10 else 0) = 970 := by decide +kernel
    exact_mod_cast congrArg (Nat.cast (R := ℝ)) hc
  have hsq : ∑ n ∈ range 1000, (if (3 * n + 50) % 100 ≤ 9 then (10 : ℝ) else 0) ^ 2 = 10000 := by
    have hc : ∑ n ∈ range 1000, (if (3 * n + 50) % 100 ≤ 9 then 10 else 0) ^ 2 = 10000 := by decide +kernel
    exact_mod_cast congrArg (Nat.cast (R := ℝ)) hc
  have hgw5 : g.widths[5]? = some 9 := by rw [gw]; exact widths_example
  have h1 : (15 / 10 : ℝ) ≤ Real.sqrt (((t.b : ℝ) - (9 : ℕ)) / (9 : ℕ)) := by
    apply Real.le_sqrt_of_sq_le
    push_cast
    linarith [hbR.1]
  have h2 : Real.sqrt ((1000 : ℕ) : ℝ) ≤ 32 := by
    rw [Real.sqrt_le_left (by norm_num)]
    norm_num
  obtain ⟨thr, hthr, k2⟩ := key 5 9 hgw5 (by
    unfold smearing
    rw [if_pos hf1, hclog]
    have hmR : (t.m : ℝ) ≤ 31 := by exact_mod_cast hm.1
    push_cast
    linarith [hbR.2])
  have hthr5 : thr (1 / p) = 7 := by
    unfold thresholdOf dynThreshold at hthr
    obtain ⟨⟨fc, smed, sstd⟩, _, h3⟩ := map_ok_inv hthr
    rw [← h3, hfit]
    simp only
    split_ifs <;> rfl
  obtain ⟨q, hq, _, _, _, i, hi, ctr, hctr, hsnr, _, hcand⟩ := k2 960 45 10 (by rw [hf1]; norm_num) (Or.inr ⟨by rw [hf1, variance_one], by
      rw [hsum, le_div_iff₀ (Real.sqrt_pos.mpr (by norm_num))]
      calc 45 * Real.sqrt ((1000 : ℕ) : ℝ) ≤ 45 * 32 := mul_le_mul_of_nonneg_left h2 (by norm_num)
        _ ≤ 970 * (15 / 10) := by norm_num
        _ ≤ _ := mul_le_mul_of_nonneg_left h1 (by norm_num)⟩) (by norm_num) (by
      rw [hsq]
      have h3 : Real.sqrt ((10000 : ℝ) / (1000 : ℕ)) ≤ 32 / 10 := by
        rw [Real.sqrt_le_left (by norm_num)]
        norm_num
      have h4 : Real.sqrt (2 * ((1000 : ℕ) : ℝ)) ≤ 45 := by
        rw [Real.sqrt_le_left (by norm_num)]
        norm_num
      calc 10 * (Real.sqrt ((10000 : ℝ) / (1000 : ℕ)) + (1 / 8 - 0)) ≤ 10 * (32 / 10 + (1 / 8 - 0)) :=
            mul_le_mul_of_nonneg_left (add_le_add_left h3 _) (by norm_num)
        _ ≤ 45 - 45 * (1 / 8 - 0) := by norm_num
        _ ≤ _ := sub_le_sub_left (mul_le_mul_of_nonneg_right h4 (by norm_num)) _) (by norm_num [pulsarRange]) (by rw [hthr5]; norm_num) (by
      intro t ht
      simp only [pulsarConf, Option.some.injEq] at ht
      rw [← ht]
      norm_num)
  obtain ⟨x, hx, hxp, hxs, _⟩ := hcand (Or.inl rfl) (by rintro d ⟨⟩) (by rintro ⟨⟩)
  refine ⟨x, hx, hxs, ?_⟩
  obtain ⟨_, _, hsrc, hall⟩ := (C100_no_candidate_lost e pulsarConf [pulsarFile] hok _ pulsar_schedule).2 st hst
  obtain ⟨y, hy, _, huniq, _, _, _, m, _, _, w, id, o, rm, _, _, _, r, hr, _, _, hprof, _⟩ := hall x.source (hsrc x hx)
  rw [huniq x hx rfl, hprof]
  simp only [pulsarConf, List.mem_singleton] at hr
  rw [hr]
  simp [foldedProfile, pulsarRange]

/-- The hypotheses of C100 and C101 are met by this file: the run succeeds and has a candidate with an S/N of at least 10. -/
theorem C101_example {test : HPeak ℝ → HPeak ℝ → Except PyErr (Bool × ℚ)} (h : TestRuns test) :
    ∃ st, pipelineProcess (pulsarEnv test) pulsarConf [pulsarFile] ⟨fun _ => 1, fun _ => [0]⟩ = .ok st ∧
    ∃ x ∈ st.candidates, 10 ≤ x.params.snr ∧ x.data.profile.length = 16 := by
  exact pulsar_candidate (pulsar_run_ok h) rfl (pulsarFile_ok test) pulsarWorld_data rfl

example : TestRuns fun _ _ => .ok (false, 1) := fun _ _ _ _ _ _ => ⟨_, rfl⟩

end Verif.Props
