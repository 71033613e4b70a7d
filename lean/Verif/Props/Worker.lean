import Verif.Model.Worker
import Verif.Props.Search
import Verif.Props.Peaks
import Verif.Props.Ranges

/-!
# C73, C74: the search of one file
-/

namespace Verif.Props

open Verif.Model Verif.Spec

/-- The peaks of prepared data: compiled search, then `find_peaks`. -/
noncomputable def peaksOfData (idx : IdxRule) (argsort : List ℝ → List ℕ) (fit : List ℝ → List ℝ → ℝ → ℝ) (y : List ℝ) (tsamp : ℝ)
    (a : SearchArgs) (p : PeakParams ℝ) : Except PyErr (List (Peak ℝ)) :=
  (liftCall (periodogramBinding idx y tsamp (generateWidthTrials a.binsMin a.ducyMax a.wtsp) a.periodMin a.periodMax a.binsMin
    a.binsMax)).bind fun r =>
  findPeaks argsort fit p
    { widths := generateWidthTrials a.binsMin a.ducyMax a.wtsp, periods := r.1, foldbins := r.2.1, snrs := r.2.2,
      tobs := y.length * tsamp }

theorem searchAndFind_eq (idx : IdxRule) (argsort : List ℝ → List ℕ) (fit : List ℝ → List ℝ → ℝ → ℝ) (w : World) (id : ℕ)
    (o : TsObj) (ho : w.objs[id]? = some o) (hg : GoodSeries w o) (a : SearchArgs) (p : PeakParams ℝ) :
    (searchAndFind idx argsort fit w id a p).map (·.2) =
      (prepared (w.dataOf o) o.tsamp a).bind fun y => peaksOfData idx argsort fit y o.tsamp a p := by
  have key := ffaSearch_eq idx w id o ho hg a
  unfold searchAndFind
  cases hp : prepared (w.dataOf o) o.tsamp a with
  | error e =>
    rw [hp] at key
    simp only [Except.bind] at key
    rw [key]
    rfl
  | ok y =>
    rw [hp] at key
    simp only [Except.bind, peaksOfData] at key ⊢
    cases hpg : liftCall (periodogramBinding idx y o.tsamp (generateWidthTrials a.binsMin a.ducyMax a.wtsp) a.periodMin
        a.periodMax a.binsMin a.binsMax) with
    | error e =>
      rw [hpg] at key
      simp only [Except.map] at key
      rw [key]
      rfl
    | ok r =>
      obtain ⟨per, fb, snr⟩ := r
      rw [hpg] at key
      simp only [Except.map] at key
      obtain ⟨w2, id2, o', _, h2, h3, h4, h5, h6⟩ := key
      rw [h6]
      have ht : dictGet (w2.metas.getD o'.metadata []) "tobs" = some (.num (y.length * o.tsamp)) := by
        have := h4.2.2
        unfold World.metaOf World.lengthOf at this
        rw [this, h2, h3]
      simp only [pgramOf, ht]
      cases findPeaks argsort fit p ⟨generateWidthTrials a.binsMin a.ducyMax a.wtsp, per, fb, snr, y.length * o.tsamp⟩ <;> rfl

/-- Without dereddening and normalisation, the search creates no objects. -/
theorem searchAndFind_world {idx : IdxRule} {argsort : List ℝ → List ℕ} {fit : List ℝ → List ℝ → ℝ → ℝ} {w w' : World} {id : ℕ}
    {a : SearchArgs} {p : PeakParams ℝ} {l : List (Peak ℝ)} (hd : a.deredden = false) (hn : a.alreadyNormalised = true)
    (h : searchAndFind idx argsort fit w id a p = .ok (w', l)) : w' = w := by
  obtain ⟨⟨w1, id1, r⟩, h1, h2⟩ := bind_ok_inv h
  obtain ⟨g, _, h3⟩ := bind_ok_inv h2
  obtain ⟨pk, _, h4⟩ := map_ok_inv h3
  simp only [Prod.mk.injEq] at h4
  obtain ⟨⟨w2, id2⟩, h5, h6⟩ := bind_ok_inv h1
  obtain ⟨⟨w3, id3⟩, h7, h8⟩ := bind_ok_inv h6
  obtain ⟨o, _, h9⟩ := bind_ok_inv h8
  obtain ⟨x, _, h10⟩ := bind_ok_inv h9
  simp only [searchDeredden, hd, Bool.false_eq_true, if_false, Except.ok.injEq, Prod.mk.injEq] at h5
  simp only [searchNormalise, hn, if_true, Except.ok.injEq, Prod.mk.injEq] at h7
  simp only [Except.ok.injEq, Prod.mk.injEq] at h10
  rw [← h4.1, ← h10.1, ← h7.1, ← h5.1]

/-- The arguments with which the search of a range would do its own preparation. -/
def ownPreparation (rmedWidth : ℝ) (rmedMinpts : ℕ) (a : SearchArgs) : SearchArgs :=
  { a with deredden := true, rmedWidth := rmedWidth, rmedMinpts := rmedMinpts, alreadyNormalised := false }

/-- The peaks of one range when `ffa_search` is called on the loaded series and does the preparation itself. -/
noncomputable def separateSearch (idx : IdxRule) (argsort : List ℝ → List ℕ) (fit : List ℝ → List ℝ → ℝ → ℝ) (rmedWidth : ℝ)
    (rmedMinpts : ℕ) (w : World) (id : ℕ) (c : RangeConf) : Except PyErr (List (Peak ℝ)) :=
  (searchAndFind idx argsort fit w id (ownPreparation rmedWidth rmedMinpts c.search) c.peaks).map (·.2)

theorem rangeLoop_eq (idx : IdxRule) (argsort : List ℝ → List ℕ) (fit : List ℝ → List ℝ → ℝ → ℝ) (w : World) (id : ℕ)
    (o : TsObj) (ho : w.objs[id]? = some o) (hg : GoodSeries w o) (confs : List RangeConf) (acc : List (Peak ℝ)) :
    rangeLoop idx argsort fit id w confs acc =
      (confs.mapM fun c => peaksOfData idx argsort fit (w.dataOf o) o.tsamp c.search c.peaks).map
        fun (ls : List (List (Peak ℝ))) => acc ++ ls.flatten := by
  induction confs generalizing acc with
  | nil => simp [rangeLoop, pure, Except.pure, Except.map]
  | cons c l ih =>
    unfold rangeLoop
    have h1 := searchAndFind_eq idx argsort fit w id o ho hg { c.search with deredden := false, alreadyNormalised := true } c.peaks
    have hprep : prepared (w.dataOf o) o.tsamp { c.search with deredden := false, alreadyNormalised := true } = .ok (w.dataOf o) := by
      simp [prepared, Except.map]
    rw [hprep] at h1
    rw [List.mapM_cons]
    have h2 : peaksOfData idx argsort fit (w.dataOf o) o.tsamp { c.search with deredden := false, alreadyNormalised := true } c.peaks =
      peaksOfData idx argsort fit (w.dataOf o) o.tsamp c.search c.peaks := rfl
    simp only [Except.bind, h2] at h1
    cases h3 : searchAndFind idx argsort fit w id { c.search with deredden := false, alreadyNormalised := true } c.peaks with
    | error e =>
      rw [h3] at h1
      rw [← h1]
      rfl
    | ok r =>
      obtain ⟨w', pk⟩ := r
      have h4 := searchAndFind_world rfl rfl h3
      rw [h3] at h1
      rw [← h1, h4]
      simp only [Except.bind]
      rw [ih]
      show _ = Except.map _ (Except.bind (Except.ok pk) _)
      simp only [Except.bind]
      cases (l.mapM fun c => peaksOfData idx argsort fit (w.dataOf o) o.tsamp c.search c.peaks) with
      | error e => rfl
      | ok ls => simp [Except.map, bind, Except.bind, pure, Except.pure]

/-- What `process_fname` does in terms of the data. -/
theorem processLoaded_eq (idx : IdxRule) (argsort : List ℝ → List ℕ) (fit : List ℝ → List ℝ → ℝ → ℝ) (rmedWidth : ℝ)
    (rmedMinpts : ℕ) (confs : List RangeConf) (w : World) (id : ℕ) (o : TsObj) (ho : w.objs[id]? = some o) (hg : GoodSeries w o)
    (dm : ℝ) (hdm : dictGet (w.metaOf o) "dm" = some (.num dm)) :
    processLoaded idx argsort fit rmedWidth rmedMinpts confs w id =
      ((runningMedianOf (w.dataOf o) o.tsamp rmedWidth rmedMinpts).bind fun r =>
        confs.mapM fun c => peaksOfData idx argsort fit (normalised (subtractArrays (w.dataOf o) r)) o.tsamp c.search c.peaks).map
        fun (ls : List (List (Peak ℝ))) => ls.flatten.map fun p => (p, dm) := by
  unfold processLoaded
  rw [obj_ok_iff.mpr ho]
  simp only [Except.bind, dmOf, hdm]
  -- the preparation is that of a search with these arguments
  obtain ⟨a, ha⟩ : ∃ a : SearchArgs, a = ⟨0, 0, 0, 0, 0, 0, 0, true, rmedWidth, rmedMinpts, false⟩ := ⟨_, rfl⟩
  unfold tsDeredden
  rw [obj_ok_iff.mpr ho]
  simp only [Except.bind]
  cases hr : runningMedianOf (w.dataOf o) o.tsamp rmedWidth rmedMinpts with
  | error e => rfl
  | ok rmed =>
    have hl := subtract_length (runningMedianOf_length hr)
    obtain ⟨md, hmd, hn⟩ := tsNew_ok w (subtractArrays (w.dataOf o) rmed) o.tsamp (w.metaOf o) _ hg.2.1 hg.2.2
    simp only [Bool.false_eq_true, if_false, hn, Option.getD_some]
    unfold tsNormalise
    obtain ⟨w1, hw1⟩ : ∃ w1 : World, w1 = ⟨w.arrays ++ [subtractArrays (w.dataOf o) rmed], w.metas ++ [md],
      w.objs ++ [⟨w.arrays.length, o.tsamp, w.metas.length⟩]⟩ := ⟨_, rfl⟩
    obtain ⟨o1, ho1'⟩ : ∃ o1 : TsObj, o1 = ⟨w.arrays.length, o.tsamp, w.metas.length⟩ := ⟨_, rfl⟩
    rw [← hw1]
    have ho1 : w1.objs[w.objs.length]? = some o1 := by rw [hw1, ho1']; simp
    have hd1 : w1.dataOf o1 = subtractArrays (w.dataOf o) rmed := by rw [hw1, ho1']; simp [World.dataOf, List.getD]
    have hm1 : w1.metaOf o1 = md := by rw [hw1, ho1']; simp [World.metaOf, List.getD]
    have hts1 : o1.tsamp = o.tsamp := by rw [ho1']
    have hpos : 0 < ((subtractArrays (w.dataOf o) rmed).length : ℝ) * o.tsamp := by
      rw [hl]
      exact hg.2.1
    rw [obj_ok_iff.mpr ho1]
    simp only [Except.bind, Bool.false_eq_true, if_false]
    rw [hd1, hm1, hts1]
    obtain ⟨md2, hmd2, hn2⟩ := tsNew_ok w1 (normalised (subtractArrays (w.dataOf o) rmed)) o.tsamp md _ hpos hmd
    rw [hn2]
    simp only [Option.getD_some]
    have hln : (normalised (subtractArrays (w.dataOf o) rmed)).length = (subtractArrays (w.dataOf o) rmed).length := by
      simp [normalised]
    obtain ⟨w2, hw2⟩ : ∃ w2 : World, w2 = ⟨w1.arrays ++ [normalised (subtractArrays (w.dataOf o) rmed)], w1.metas ++ [md2],
      w1.objs ++ [⟨w1.arrays.length, o.tsamp, w1.metas.length⟩]⟩ := ⟨_, rfl⟩
    obtain ⟨o2, ho2'⟩ : ∃ o2 : TsObj, o2 = ⟨w1.arrays.length, o.tsamp, w1.metas.length⟩ := ⟨_, rfl⟩
    rw [← hw2]
    have ho2 : w2.objs[w1.objs.length]? = some o2 := by rw [hw2, ho2']; simp
    have hd2 : w2.dataOf o2 = normalised (subtractArrays (w.dataOf o) rmed) := by rw [hw2, ho2']; simp [World.dataOf, List.getD]
    have hts2 : o2.tsamp = o.tsamp := by rw [ho2']
    have hg2 : GoodSeries w2 o2 := by
      refine ⟨by rw [hw2, ho2']; simp, ?_, ?_⟩
      · unfold World.lengthOf
        rw [hd2, hts2, hln]
        exact hpos
      · unfold World.lengthOf
        rw [hd2, hts2, hw2, ho2']
        simpa [World.metaOf, List.getD] using hmd2
    rw [rangeLoop_eq idx argsort fit w2 _ o2 ho2 hg2 confs []]
    rw [hd2, hts2]
    cases (confs.mapM fun c => peaksOfData idx argsort fit (normalised (subtractArrays (w.dataOf o) rmed)) o.tsamp c.search c.peaks) with
    | error e => rfl
    | ok ls => simp [Except.map]

/-- **C73.** Preparing the data once for all ranges, as the pipeline does to save time, has no effect on the result: the peaks of a file
are those that independent calls of `ffa_search` (doing their own dereddening and normalisation of the loaded series) and
`find_peaks` give for the ranges one after the other, each with the DM of the file; an exception is raised exactly if one of these calls
raises it. -/
theorem C73_common_preparation (idx : IdxRule) (argsort : List ℝ → List ℕ) (fit : List ℝ → List ℝ → ℝ → ℝ) (rmedWidth : ℝ)
    (rmedMinpts : ℕ) (confs : List RangeConf) (hc : confs ≠ []) (w : World) (id : ℕ) (o : TsObj) (ho : w.objs[id]? = some o)
    (hg : GoodSeries w o) (dm : ℝ) (hdm : dictGet (w.metaOf o) "dm" = some (.num dm)) :
    processLoaded idx argsort fit rmedWidth rmedMinpts confs w id =
      (confs.mapM (separateSearch idx argsort fit rmedWidth rmedMinpts w id)).map
        fun (ls : List (List (Peak ℝ))) => ls.flatten.map fun p => (p, dm) := by
  rw [processLoaded_eq idx argsort fit rmedWidth rmedMinpts confs w id o ho hg dm hdm]
  have hsep : ∀ c : RangeConf, separateSearch idx argsort fit rmedWidth rmedMinpts w id c =
      (runningMedianOf (w.dataOf o) o.tsamp rmedWidth rmedMinpts).bind fun r =>
        peaksOfData idx argsort fit (normalised (subtractArrays (w.dataOf o) r)) o.tsamp c.search c.peaks := by
    intro c
    unfold separateSearch
    rw [searchAndFind_eq idx argsort fit w id o ho hg]
    simp only [prepared, ownPreparation, if_true, Bool.false_eq_true, if_false]
    cases runningMedianOf (w.dataOf o) o.tsamp rmedWidth rmedMinpts <;> simp only [Except.map, Except.bind]
    rfl
  congr 1
  cases hr : runningMedianOf (w.dataOf o) o.tsamp rmedWidth rmedMinpts with
  | error e =>
    cases confs with
    | nil => exact absurd rfl hc
    | cons c l =>
      rw [List.mapM_cons, hsep c, hr]
      simp only [Except.bind, bind]
  | ok r =>
    simp only [Except.bind]
    congr 1
    funext c
    rw [hsep c, hr]
    simp only [Except.bind]

/-- A series without DM (`None` is allowed in the metadata) cannot be searched by the pipeline: the log message fails to format. -/
theorem C73_dm_none (idx : IdxRule) (argsort : List ℝ → List ℕ) (fit : List ℝ → List ℝ → ℝ → ℝ) (rmedWidth : ℝ)
    (rmedMinpts : ℕ) (confs : List RangeConf) (w : World) (id : ℕ) (o : TsObj) (ho : w.objs[id]? = some o)
    (hdm : dictGet (w.metaOf o) "dm" = some .none) :
    processLoaded idx argsort fit rmedWidth rmedMinpts confs w id = .error .typeError := by
  unfold processLoaded
  rw [obj_ok_iff.mpr ho]
  simp only [Except.bind, dmOf, hdm]

/-- Gain and offset of a file have no effect on its peaks. -/
theorem C73_gain_offset_invariant (idx : IdxRule) (argsort : List ℝ → List ℕ) (fit : List ℝ → List ℝ → ℝ → ℝ) (rmedWidth : ℝ)
    (rmedMinpts : ℕ) (confs : List RangeConf) (w₁ w₂ : World) (id₁ id₂ : ℕ) (o₁ o₂ : TsObj)
    (ho₁ : w₁.objs[id₁]? = some o₁) (ho₂ : w₂.objs[id₂]? = some o₂) (hg₁ : GoodSeries w₁ o₁) (hg₂ : GoodSeries w₂ o₂)
    (hts : o₂.tsamp = o₁.tsamp) (g c : ℝ) (hg : 0 < g) (hx : w₂.dataOf o₂ = (w₁.dataOf o₁).map (fun v => g * v + c))
    (dm : ℝ) (hdm₁ : dictGet (w₁.metaOf o₁) "dm" = some (.num dm)) (hdm₂ : dictGet (w₂.metaOf o₂) "dm" = some (.num dm)) :
    processLoaded idx argsort fit rmedWidth rmedMinpts confs w₂ id₂ = processLoaded idx argsort fit rmedWidth rmedMinpts confs w₁ id₁ := by
  rw [processLoaded_eq idx argsort fit rmedWidth rmedMinpts confs w₁ id₁ o₁ ho₁ hg₁ dm hdm₁,
    processLoaded_eq idx argsort fit rmedWidth rmedMinpts confs w₂ id₂ o₂ ho₂ hg₂ dm hdm₂]
  have hne : w₁.dataOf o₁ ≠ [] := by
    intro hc
    have := hg₁.2.1
    unfold World.lengthOf at this
    rw [hc] at this
    simp at this
  rw [hx, hts, runningMedianOf_affine _ _ _ _ _ _ hg.le]
  cases hr : runningMedianOf (w₁.dataOf o₁) o₁.tsamp rmedWidth rmedMinpts with
  | error e => simp only [Except.map, Except.bind]
  | ok r =>
    simp only [Except.map, Except.bind]
    rw [subtract_affine, normalised_affine _ hg]
    have := subtract_length (runningMedianOf_length hr)
    intro hc
    rw [hc] at this
    exact hne (List.length_eq_zero_iff.mp this.symm)

theorem forall₂_mem_right {α β : Type*} {R : α → β → Prop} {l : List α} {r : List β} (h : List.Forall₂ R l r) {b : β}
    (hb : b ∈ r) : ∃ a ∈ l, R a b := by
  induction h with
  | nil => cases hb
  | cons h _ ih =>
    rcases List.mem_cons.mp hb with rfl | hb
    · exact ⟨_, by simp, h⟩
    · obtain ⟨a, ha, hab⟩ := ih hb
      exact ⟨a, by simp [ha], hab⟩

/-- A peak of one range. -/
def PeakOfRange (c : RangeConf) (q : Peak ℝ) : Prop :=
  c.search.periodMin ≤ q.period ∧ q.period < c.search.periodMax ∧ q.freq = 1 / q.period ∧ c.peaks.smin < q.snr ∧
    q.width ∈ generateWidthTrials c.search.binsMin c.search.ducyMax c.search.wtsp ∧
    ∃ nb : ℕ, c.search.binsMin ≤ nb ∧ nb ≤ c.search.binsMax ∧ q.ducy = (q.width : ℝ) / nb

theorem peaksOfData_range {idx : IdxRule} {argsort : List ℝ → List ℕ} (ha : IsArgsort argsort) {fit : List ℝ → List ℝ → ℝ → ℝ}
    {y : List ℝ} {tsamp : ℝ} {c : RangeConf} (hidx : IdxFor idx (y.length / c.search.binsMin)) {l : List (Peak ℝ)}
    (h : peaksOfData idx argsort fit y tsamp c.search c.peaks = .ok l) : ∀ q ∈ l, PeakOfRange c q := by
  obtain ⟨⟨per, fb, snr⟩, h1, h2⟩ := bind_ok_inv h
  have h1 := liftCall_ok h1
  have hne : generateWidthTrials c.search.binsMin c.search.ducyMax c.search.wtsp ≠ [] := by
    intro hc
    have := (C24_width_trials c.search.binsMin c.search.ducyMax c.search.wtsp).2.1
    rw [hc] at this
    simp at this
  obtain ⟨_, k2, k3, k4⟩ := (C17_outputs_filled_exactly idx y tsamp _ hne _ _ _ _ hidx).2 per fb snr h1
  obtain ⟨_, k5, k6⟩ := C18_periods_increasing idx y tsamp _ hne _ _ _ _ hidx per fb snr h1
  intro q hq
  obtain ⟨P, nb, row, e1, e2, e3, e4, e5, e6, e7, e8, thr, _, _, e9, _⟩ := (C30_peaks_genuine argsort ha fit c.peaks _
    ⟨k2, k3, k4⟩ l h2).1 q hq
  have hP := k5 P (List.mem_of_getElem? e1)
  have hb := k6 nb (List.mem_of_getElem? e2)
  refine ⟨e6 ▸ hP.1, e6 ▸ hP.2, by rw [e7, e6], e9, List.mem_of_getElem? e3, nb, hb.1, hb.2, e8⟩

/-- **C74.** Every peak that `process_fname` returns carries the DM of its file and belongs to one of the configured ranges: its period
is inside the range, its S/N above the minimum of the range, its width is one of the trial widths of the range and
its duty cycle the width over a number of bins allowed in the range. If the ranges are contiguous, the range that the pipeline later
picks to fold the peak is the one in which it was found. -/
theorem C74_peaks_of_file (idx : IdxRule) (argsort : List ℝ → List ℕ) (ha : IsArgsort argsort) (fit : List ℝ → List ℝ → ℝ → ℝ)
    (rmedWidth : ℝ) (rmedMinpts : ℕ) (confs : List RangeConf) (w : World) (id : ℕ) (o : TsObj) (ho : w.objs[id]? = some o)
    (hg : GoodSeries w o) (dm : ℝ) (hdm : dictGet (w.metaOf o) "dm" = some (.num dm))
    (hidx : ∀ c ∈ confs, IdxFor idx ((w.dataOf o).length / c.search.binsMin)) (peaks : List (Peak ℝ × ℝ))
    (h : processLoaded idx argsort fit rmedWidth rmedMinpts confs w id = .ok peaks) :
    (∀ q ∈ peaks, q.2 = dm ∧ ∃ c ∈ confs, PeakOfRange c q.1) ∧
    ∀ ranges : List (SearchRange ℝ), confs.map (fun c => (c.search.periodMin, c.search.periodMax)) =
      ranges.map (fun r => (r.pmin, r.pmax)) → contiguityLoop ranges = .ok () → (∀ r ∈ ranges, r.pmin < r.pmax) →
      ∀ q ∈ peaks, ∃ i, ∃ (hi : i < confs.length) (hi' : i < ranges.length), PeakOfRange confs[i] q.1 ∧
        getSearchRange ranges q.1.period = .ok (some ranges[i]) := by
  rw [processLoaded_eq idx argsort fit rmedWidth rmedMinpts confs w id o ho hg dm hdm] at h
  obtain ⟨ls, h1, h2⟩ := map_ok_inv h
  obtain ⟨r, hr, h1⟩ := bind_ok_inv h1
  have hlen : (normalised (subtractArrays (w.dataOf o) r)).length = (w.dataOf o).length := by
    rw [normalised, List.length_map, subtract_length (runningMedianOf_length hr)]
  have hall : ∀ q ∈ peaks, q.2 = dm ∧ ∃ c ∈ confs, PeakOfRange c q.1 := by
    intro q hq
    rw [← h2, List.mem_map] at hq
    obtain ⟨p, hp, rfl⟩ := hq
    refine ⟨rfl, ?_⟩
    obtain ⟨l, hl, hpl⟩ := List.mem_flatten.mp hp
    obtain ⟨c, hc, hcl⟩ := forall₂_mem_right (mapM_ok_inv _ _ _ h1) hl
    exact ⟨c, hc, peaksOfData_range ha (by rw [hlen]; exact hidx c hc) hcl p hpl⟩
  refine ⟨hall, ?_⟩
  intro ranges hmap hcont hpos q hq
  obtain ⟨_, c, hc, hP⟩ := hall q hq
  obtain ⟨i, hi, rfl⟩ := List.getElem_of_mem hc
  have hlenr : ranges.length = confs.length := by simpa using (congrArg List.length hmap).symm
  have hi' : i < ranges.length := by omega
  have hei : (confs[i].search.periodMin, confs[i].search.periodMax) = (ranges[i].pmin, ranges[i].pmax) := by
    have := congrArg (fun l => l[i]?) hmap
    simpa [hi, hi'] using this
  simp only [Prod.mk.injEq] at hei
  obtain ⟨hP1, hP2, hP3⟩ := hP
  have hne : ranges ≠ [] := by
    rintro rfl
    simp at hi'
  obtain ⟨k1, _, _⟩ := C36_right_range ranges hne hcont hpos q.1.period
  have hpw := contiguous_pairwise ((contiguity_iff _).mp hcont) hpos
  obtain ⟨j, hj, k2, k3, k4, k5⟩ := k1 (by
      refine le_trans ?_ (hei.1 ▸ hP1)
      rw [List.head_eq_getElem]
      rcases Nat.eq_zero_or_pos i with h0 | h0
      · subst h0
        exact le_refl _
      · have := List.pairwise_iff_getElem.mp hpw 0 i (by omega) hi' h0
        exact (hpos _ (List.getElem_mem _)).le.trans this)
    (by
      refine lt_of_lt_of_le (hei.2 ▸ hP2) ?_
      rw [List.getLast_eq_getElem]
      rcases Nat.lt_or_ge i (ranges.length - 1) with h0 | h0
      · have := List.pairwise_iff_getElem.mp hpw i (ranges.length - 1) hi' (by omega) h0
        exact this.trans (hpos _ (List.getElem_mem _)).le
      · have : i = ranges.length - 1 := by omega
        subst this
        exact le_refl _)
  have := k5 i hi' (hei.1 ▸ hP1) (hei.2 ▸ hP2)
  subst this
  exact ⟨i, hi, hi', ⟨hP1, hP2, hP3⟩, k2⟩

/-- A series of 1000 samples at DM 10, and two contiguous ranges. -/
example : ∃ (w : World) (o : TsObj) (confs : List RangeConf) (ranges : List (SearchRange ℝ)), w.objs[0]? = some o ∧ GoodSeries w o ∧
    dictGet (w.metaOf o) "dm" = some (.num 10) ∧ confs.length = 2 ∧
    (∀ c ∈ confs, IdxFor float32Idx ((w.dataOf o).length / c.search.binsMin)) ∧
    confs.map (fun c => (c.search.periodMin, c.search.periodMax)) = ranges.map (fun r => (r.pmin, r.pmax)) ∧
    contiguityLoop ranges = .ok () ∧ ∀ r ∈ ranges, r.pmin < r.pmax := by
  obtain ⟨z, hz⟩ : ∃ z : List ℝ, z = List.replicate 1000 1 := ⟨_, rfl⟩
  obtain ⟨w, hw⟩ : ∃ w : World, w = ⟨[z], [[("dm", .num 10), ("tobs", .num 1000)]], [⟨0, 1, 0⟩]⟩ := ⟨_, rfl⟩
  have hdata : w.dataOf ⟨0, 1, 0⟩ = List.replicate 1000 1 := by rw [hw, ← hz]; rfl
  have hlen : w.lengthOf ⟨0, 1, 0⟩ = 1000 := by
    unfold World.lengthOf
    rw [hdata]
    norm_num
  refine ⟨w, ⟨0, 1, 0⟩, [⟨⟨20, 40, 8, 8, 10, 1 / 5, 3 / 2, true, 101, 101, false⟩, ⟨6, 5, 6, 10, 1 / 10⟩⟩,
    ⟨⟨40, 80, 8, 16, 20, 1 / 5, 3 / 2, true, 101, 101, false⟩, ⟨6, 5, 6, 10, 1 / 10⟩⟩], [⟨20, 40, 8, 16, 0⟩, ⟨40, 80, 16, 32, 1⟩],
    by rw [hw]; rfl, ⟨by simp [hw], by rw [hlen]; norm_num, ?_⟩, ?_, rfl, ?_, rfl, by simp [contiguityLoop], ?_⟩
  · rw [hlen, hw]
    simp [World.metaOf, List.getD, dictGet]
  · rw [hw]
    simp [World.metaOf, List.getD, dictGet]
  · intro c hc
    rw [hdata]
    simp only [List.mem_cons, List.not_mem_nil, or_false] at hc
    rcases hc with rfl | rfl <;> exact Or.inr ⟨Or.inl rfl, by norm_num⟩
  · intro r hr
    simp only [List.mem_cons, List.not_mem_nil, or_false] at hr
    rcases hr with rfl | rfl <;> norm_num

end Verif.Props
