import Verif.Props.TimeSeries
import Verif.Props.Periodogram

/-! # The python entry point of the search: properties C57, C59, C61, C62 -/

namespace Verif.Props

open Verif.Model Verif.Spec

theorem tsNew_ok (w : World) (x : List ℝ) (tsamp : ℝ) (items : PyDict String MVal) (t : ℝ) (ht : 0 < t)
    (hi : dictGet items "tobs" = some (.num t)) : ∃ md, dictGet md "tobs" = some (.num (x.length * tsamp)) ∧
      tsNew w x tsamp items = .ok (⟨w.arrays ++ [x], w.metas ++ [md], w.objs ++ [⟨w.arrays.length, tsamp, w.metas.length⟩]⟩,
        w.objs.length) := by
  obtain ⟨md, hmd⟩ : ∃ md, metadataCopy items = .ok md := by
    unfold metadataCopy
    rw [hi]
    simp [ht]
  refine ⟨dictSet md "tobs" (.num (x.length * tsamp)), by simp [dictGet_set], ?_⟩
  simp [tsNew, World.newArray, tsInit, hmd, Except.bind, List.getD]

/-- The data that are searched: the running median is subtracted unless `deredden=False`, and the result is normalised unless
`already_normalised=True`. -/
noncomputable def prepared (x : List ℝ) (tsamp : ℝ) (a : SearchArgs) : Except PyErr (List ℝ) :=
  (if a.deredden then (runningMedianOf x tsamp a.rmedWidth a.rmedMinpts).map (fun r => subtractArrays x r) else .ok x).map
    (fun y => if a.alreadyNormalised then y else normalised y)

theorem subtract_length {x r : List ℝ} (h : r.length = x.length) : (subtractArrays x r).length = x.length := by
  simp [subtractArrays, h]

/-- A series to which the constructor of `TimeSeries` has been applied: `tobs` is the length of the (non-empty) data. -/
def GoodSeries (w : World) (o : TsObj) : Prop :=
  o.data < w.arrays.length ∧ 0 < w.lengthOf o ∧ dictGet (w.metaOf o) "tobs" = some (.num (w.lengthOf o))

/-- `ffa_search` prepares the data and hands them to the compiled search. -/
theorem ffaSearch_eq (idx : IdxRule) (w : World) (id : ℕ) (o : TsObj) (ho : w.objs[id]? = some o) (hg : GoodSeries w o)
    (a : SearchArgs) :
    match (prepared (w.dataOf o) o.tsamp a).bind fun y =>
      (liftCall (periodogramBinding idx y o.tsamp (generateWidthTrials a.binsMin a.ducyMax a.wtsp) a.periodMin a.periodMax
        a.binsMin a.binsMax)).map fun r => (y, r) with
    | .error e => ffaSearch idx w id a = .error e
    | .ok (y, per, fb, snr) => ∃ w' id' o', w'.objs[id']? = some o' ∧ w'.dataOf o' = y ∧ o'.tsamp = o.tsamp ∧ GoodSeries w' o' ∧
        y.length = (w.dataOf o).length ∧
        ffaSearch idx w id a = .ok (w', id', ⟨generateWidthTrials a.binsMin a.ducyMax a.wtsp, per, fb, snr, o'.metadata⟩) := by
  -- first step
  have s1 : match (if a.deredden then (runningMedianOf (w.dataOf o) o.tsamp a.rmedWidth a.rmedMinpts).map
        (fun r => subtractArrays (w.dataOf o) r) else .ok (w.dataOf o)) with
      | .error e => searchDeredden w id a = .error e
      | .ok y => y.length = (w.dataOf o).length ∧ ∃ w' id' o', w'.objs[id']? = some o' ∧ w'.dataOf o' = y ∧ o'.tsamp = o.tsamp ∧
          GoodSeries w' o' ∧ searchDeredden w id a = .ok (w', id') := by
    unfold searchDeredden
    cases hd : a.deredden with
    | false => exact ⟨rfl, w, id, o, ho, rfl, rfl, hg, rfl⟩
    | true =>
      simp only [if_true]
      unfold tsDeredden
      rw [obj_ok_iff.mpr ho]
      simp only [Except.bind]
      cases hr : runningMedianOf (w.dataOf o) o.tsamp a.rmedWidth a.rmedMinpts with
      | error e => simp [Except.map]
      | ok rmed =>
        have hl := subtract_length (runningMedianOf_length hr)
        obtain ⟨md, hmd, hn⟩ := tsNew_ok w (subtractArrays (w.dataOf o) rmed) o.tsamp (w.metaOf o) _ hg.2.1 hg.2.2
        simp only [Except.map, Bool.false_eq_true, if_false, hn, Option.getD_some]
        refine ⟨hl, _, _, ⟨w.arrays.length, o.tsamp, w.metas.length⟩, by simp, by simp [World.dataOf, List.getD], rfl, ?_, rfl⟩
        refine ⟨by simp, ?_, ?_⟩
        · have := hg.2.1
          have hd2 : World.dataOf ⟨w.arrays ++ [subtractArrays (w.dataOf o) rmed], w.metas ++ [md],
              w.objs ++ [⟨w.arrays.length, o.tsamp, w.metas.length⟩]⟩ ⟨w.arrays.length, o.tsamp, w.metas.length⟩ =
              subtractArrays (w.dataOf o) rmed := by simp [World.dataOf, List.getD]
          simp only [World.lengthOf] at this ⊢
          rw [hd2, hl]
          exact this
        · simp [World.metaOf, World.lengthOf, World.dataOf, List.getD, hmd]
  unfold prepared
  cases hfirst : (if a.deredden then (runningMedianOf (w.dataOf o) o.tsamp a.rmedWidth a.rmedMinpts).map
        (fun r => subtractArrays (w.dataOf o) r) else .ok (w.dataOf o)) with
  | error e =>
    rw [hfirst] at s1
    simp only at s1
    simp only [Except.map, Except.bind]
    unfold ffaSearch
    rw [s1]
    rfl
  | ok y1 =>
    rw [hfirst] at s1
    obtain ⟨hl1, w1, id1, o1, ho1, hy1, hts1, hg1, hs1⟩ := s1
    -- second step
    have s2 : ∃ w' id' o', w'.objs[id']? = some o' ∧ w'.dataOf o' = (if a.alreadyNormalised then y1 else normalised y1) ∧
        o'.tsamp = o.tsamp ∧ GoodSeries w' o' ∧ searchNormalise w1 id1 a = .ok (w', id') := by
      unfold searchNormalise
      cases hn : a.alreadyNormalised with
      | true => exact ⟨w1, id1, o1, ho1, hy1, hts1, hg1, rfl⟩
      | false =>
        simp only [Bool.false_eq_true, if_false]
        unfold tsNormalise
        rw [obj_ok_iff.mpr ho1]
        simp only [Except.bind, Bool.false_eq_true, if_false]
        obtain ⟨md, hmd, hn⟩ := tsNew_ok w1 (normalised (w1.dataOf o1)) o1.tsamp (w1.metaOf o1) _ hg1.2.1 hg1.2.2
        rw [hn]
        have hl : (normalised y1).length = y1.length := by simp [normalised]
        refine ⟨_, _, ⟨w1.arrays.length, o1.tsamp, w1.metas.length⟩, ?_, ?_, hts1, ?_, rfl⟩
        · simp
        · simp [World.dataOf, List.getD, ← hy1]
        · refine ⟨by simp, ?_, ?_⟩
          · have := hg1.2.1
            simp only [World.lengthOf, hy1] at this ⊢
            simpa [World.dataOf, List.getD, hl, hy1] using this
          · simp [World.metaOf, World.lengthOf, World.dataOf, List.getD, hmd]
    obtain ⟨w2, id2, o2, ho2, hy2, hts2, hg2, hs2⟩ := s2
    simp only [Except.map, Except.bind]
    generalize hy : (if a.alreadyNormalised then y1 else normalised y1) = y at *
    have hfs : ffaSearch idx w id a = (liftCall (periodogramBinding idx y o.tsamp
        (generateWidthTrials a.binsMin a.ducyMax a.wtsp) a.periodMin a.periodMax a.binsMin a.binsMax)).bind
        fun (periods, foldbins, snrs) => .ok (w2, id2, ⟨generateWidthTrials a.binsMin a.ducyMax a.wtsp, periods, foldbins, snrs,
          o2.metadata⟩) := by
      unfold ffaSearch
      rw [hs1]
      simp only [Except.bind]
      rw [hs2]
      simp only
      rw [obj_ok_iff.mpr ho2]
      simp only
      rw [hy2, hts2]
    rw [hfs]
    cases hpg : liftCall (periodogramBinding idx y o.tsamp (generateWidthTrials a.binsMin a.ducyMax a.wtsp) a.periodMin
        a.periodMax a.binsMin a.binsMax) with
    | error e => rfl
    | ok r =>
      obtain ⟨per, fb, snr⟩ := r
      refine ⟨w2, id2, o2, ho2, hy2, hts2, hg2, ?_, rfl⟩
      rw [← hy]
      split_ifs
      · exact hl1
      · simp [normalised, hl1]

theorem liftCall_ok {β : Type*} {x : Except CallErr β} {b : β} (h : liftCall x = .ok b) : x = .ok b := by
  cases x with
  | ok y => simpa [liftCall] using h
  | error e => cases e <;> simp [liftCall] at h

/-- What a successful `ffa_search` returns. -/
theorem ffaSearch_inv {idx : IdxRule} {w w' : World} {id id' : ℕ} {o : TsObj} {a : SearchArgs} {res : SearchResult}
    (ho : w.objs[id]? = some o) (hg : GoodSeries w o) (h : ffaSearch idx w id a = .ok (w', id', res)) :
    ∃ o' y, w'.objs[id']? = some o' ∧ w'.dataOf o' = y ∧ o'.tsamp = o.tsamp ∧ GoodSeries w' o' ∧
      y.length = (w.dataOf o).length ∧ prepared (w.dataOf o) o.tsamp a = .ok y ∧
      res.widths = generateWidthTrials a.binsMin a.ducyMax a.wtsp ∧ res.metadata = o'.metadata ∧
      periodogramBinding idx y o.tsamp res.widths a.periodMin a.periodMax a.binsMin a.binsMax =
        .ok (res.periods, res.foldbins, res.snrs) := by
  have key := ffaSearch_eq idx w id o ho hg a
  cases hp : prepared (w.dataOf o) o.tsamp a with
  | error e =>
    rw [hp] at key
    simp only [Except.bind] at key
    rw [key] at h
    cases h
  | ok y =>
    rw [hp] at key
    simp only [Except.bind] at key
    cases hpg : liftCall (periodogramBinding idx y o.tsamp (generateWidthTrials a.binsMin a.ducyMax a.wtsp) a.periodMin
        a.periodMax a.binsMin a.binsMax) with
    | error e =>
      rw [hpg] at key
      simp only [Except.map] at key
      rw [key] at h
      cases h
    | ok r =>
      obtain ⟨per, fb, snr⟩ := r
      rw [hpg] at key
      simp only [Except.map] at key
      obtain ⟨w2, id2, o', h1, h2, h3, h4, h5, h6⟩ := key
      rw [h6] at h
      cases h
      exact ⟨o', y, h1, h2, h3, h4, h5, rfl, rfl, rfl, liftCall_ok hpg⟩

/-! ## C57 -/

/-- C57: `fpmin` has no effect at all. -/
theorem C57_fpmin_ignored (idx : IdxRule) (w : World) (id : ℕ) (a : SearchArgs) (k : ℤ) :
    ffaSearch idx w id { a with fpmin := k } = ffaSearch idx w id a := rfl

/-- C57 is false: with `fpmin = 8`, a series of 100 samples of 1 second is searched at a period of 20 seconds,
although only periods up to 100 / 8 = 12.5 seconds are allowed. -/
theorem C57_false : ∃ (w : World) (o : TsObj) (a : SearchArgs) (w' : World) (id' : ℕ) (res : SearchResult),
    w.objs[0]? = some o ∧ GoodSeries w o ∧ a.fpmin = 8 ∧ ffaSearch exactIdx w 0 a = .ok (w', id', res) ∧
    ∃ p ∈ res.periods, w.lengthOf o / a.fpmin < p := by
  obtain ⟨w, hw⟩ : ∃ w : World, w = ⟨[List.replicate 100 1], [[("tobs", .num 100)]], [⟨0, 1, 0⟩]⟩ := ⟨_, rfl⟩
  have hdata : w.dataOf ⟨0, 1, 0⟩ = List.replicate 100 1 := by rw [hw]; rfl
  have hlen : w.lengthOf ⟨0, 1, 0⟩ = 100 := by
    unfold World.lengthOf
    rw [hdata]
    norm_num
  have hg : GoodSeries w ⟨0, 1, 0⟩ := by
    refine ⟨by simp [hw], by rw [hlen]; norm_num, ?_⟩
    rw [hlen, hw]
    simp [World.metaOf, List.getD, dictGet]
  have ho : w.objs[0]? = some ⟨0, 1, 0⟩ := by rw [hw]; rfl
  obtain ⟨a, ha⟩ : ∃ a : SearchArgs, a = ⟨20, 40, 8, 8, 10, 1 / 5, 3 / 2, false, 4, 101, true⟩ := ⟨_, rfl⟩
  have hne : generateWidthTrials a.binsMin a.ducyMax a.wtsp ≠ [] := by
    intro hc
    have := (C24_width_trials a.binsMin a.ducyMax a.wtsp).2.1
    rw [hc] at this
    simp at this
  obtain ⟨per, fb, snr, lab, h1, _, h2, _⟩ := C19_no_holes exactIdx (List.replicate 100 1) 1
    (generateWidthTrials a.binsMin a.ducyMax a.wtsp) hne 20 40 8 10 (Or.inl rfl)
    (by refine ⟨?_, ?_, ?_, ?_, ?_, ?_⟩ <;> norm_num) (by norm_num)
  have key := ffaSearch_eq exactIdx w 0 ⟨0, 1, 0⟩ ho hg a
  have hp : prepared (w.dataOf ⟨0, 1, 0⟩) 1 a = .ok (List.replicate 100 1) := by
    rw [hdata]
    simp [prepared, ha, Except.map]
  simp only [hp, Except.bind] at key
  have hpg : periodogramBinding exactIdx (List.replicate 100 1) 1 (generateWidthTrials a.binsMin a.ducyMax a.wtsp) a.periodMin
        a.periodMax a.binsMin a.binsMax = .ok (per, fb, snr) := by
    rw [ha] at h1 ⊢
    exact h1
  simp only [hpg, liftCall, Except.map] at key
  obtain ⟨w', id', o', _, _, _, _, _, h3⟩ := key
  refine ⟨w, ⟨0, 1, 0⟩, a, w', id', _, ho, hg, by rw [ha], h3, 20, ?_, ?_⟩
  · exact List.mem_of_mem_head? h2
  · rw [hlen, ha]
    norm_num

/-! ## C59 -/

/-- C59. For every accepted `ffa_search` call with `ducy_max < 1`, the list of widths is not empty and each width is at least 1 and
smaller than the number of bins of every fold, so that the term under the square root of the boxcar normalisation is positive. -/
theorem C59_ffa_search_widths (idx : IdxRule) (w w' : World) (id id' : ℕ) (o : TsObj) (ho : w.objs[id]? = some o)
    (hg : GoodSeries w o) (a : SearchArgs) (hd : a.ducyMax < 1) (hidx : IdxFor idx ((w.dataOf o).length / a.binsMin))
    (res : SearchResult) (h : ffaSearch idx w id a = .ok (w', id', res)) :
    res.widths ≠ [] ∧ ∀ b ∈ res.foldbins, ∀ k ∈ res.widths, 1 ≤ k ∧ k < b ∧ 0 < ((b : ℝ) - k) * k := by
  obtain ⟨o', y, _, _, _, _, hl, _, hw, _, hpg⟩ := ffaSearch_inv ho hg h
  rw [hw] at hpg ⊢
  exact C59_widths_valid_in_search idx y o.tsamp a.ducyMax a.wtsp hd a.periodMin a.periodMax a.binsMin a.binsMax
    (by rw [hl]; exact hidx) res.periods res.foldbins res.snrs hpg

/-! ## C61 -/

theorem subtract_affine (x r : List ℝ) (g c : ℝ) :
    subtractArrays (x.map (fun v => g * v + c)) (r.map (fun v => g * v + c)) =
      (subtractArrays x r).map (fun v => g * v + 0) := by
  unfold subtractArrays
  rw [List.zipWith_map, List.map_zipWith]
  congr 1
  funext a b
  ring

theorem runningMedianOf_affine (x : List ℝ) (tsamp width : ℝ) (minpts : ℕ) (g c : ℝ) (hg : 0 ≤ g) :
    runningMedianOf (x.map (fun v => g * v + c)) tsamp width minpts =
      (runningMedianOf x tsamp width minpts).map (List.map (fun v => g * v + c)) := by
  unfold runningMedianOf
  simp only
  split_ifs
  · rfl
  · rw [C28_affine_equivariant _ _ _ _ _ hg]
    cases fastRunningMedian x (pyRound (width / tsamp)).toNat minpts with
    | ok r => rfl
    | error e => cases e <;> rfl
  · rfl
  · rfl

theorem prepared_affine {x : List ℝ} (hx : x ≠ []) (tsamp : ℝ) (a : SearchArgs) (ha : a.alreadyNormalised = false) (g c : ℝ)
    (hg : 0 < g) : prepared (x.map (fun v => g * v + c)) tsamp a = prepared x tsamp a := by
  unfold prepared
  simp only [ha, Bool.false_eq_true, if_false]
  cases a.deredden with
  | false =>
    simp only [Bool.false_eq_true, if_false, Except.map]
    rw [normalised_affine hx hg]
  | true =>
    simp only [if_true]
    rw [runningMedianOf_affine _ _ _ _ _ _ hg.le]
    cases hr : runningMedianOf x tsamp a.rmedWidth a.rmedMinpts with
    | error e => rfl
    | ok r =>
      simp only [Except.map]
      rw [subtract_affine, normalised_affine _ hg]
      have := subtract_length (runningMedianOf_length hr)
      intro hc
      rw [hc] at this
      exact hx (List.length_eq_zero_iff.mp this.symm)

/-- C61. A positive gain and an offset of the input data have no effect on the result of `ffa_search` (unless the caller states that
the data are already normalised): the same exception is raised, or the same searched data, trial periods, numbers of bins
and S/N values are returned. -/
theorem C61_gain_offset_invariant (idx : IdxRule) (w₁ w₂ : World) (id₁ id₂ : ℕ) (o₁ o₂ : TsObj)
    (ho₁ : w₁.objs[id₁]? = some o₁) (ho₂ : w₂.objs[id₂]? = some o₂) (hg₁ : GoodSeries w₁ o₁) (hg₂ : GoodSeries w₂ o₂)
    (hts : o₂.tsamp = o₁.tsamp) (g c : ℝ) (hg : 0 < g) (hx : w₂.dataOf o₂ = (w₁.dataOf o₁).map (fun v => g * v + c))
    (a : SearchArgs) (ha : a.alreadyNormalised = false) :
    (∀ e, ffaSearch idx w₁ id₁ a = .error e ↔ ffaSearch idx w₂ id₂ a = .error e) ∧
    ∀ w₁' id₁' r₁ w₂' id₂' r₂, ffaSearch idx w₁ id₁ a = .ok (w₁', id₁', r₁) → ffaSearch idx w₂ id₂ a = .ok (w₂', id₂', r₂) →
      (∃ o₁' o₂', w₁'.objs[id₁']? = some o₁' ∧ w₂'.objs[id₂']? = some o₂' ∧ w₁'.dataOf o₁' = w₂'.dataOf o₂') ∧
      r₁.widths = r₂.widths ∧ r₁.periods = r₂.periods ∧ r₁.foldbins = r₂.foldbins ∧ r₁.snrs = r₂.snrs := by
  have hne : w₁.dataOf o₁ ≠ [] := by
    intro hc
    have := hg₁.2.1
    unfold World.lengthOf at this
    rw [hc] at this
    simp at this
  have hp : prepared (w₂.dataOf o₂) o₂.tsamp a = prepared (w₁.dataOf o₁) o₁.tsamp a := by
    rw [hx, hts, prepared_affine hne _ a ha g c hg]
  have k1 := ffaSearch_eq idx w₁ id₁ o₁ ho₁ hg₁ a
  have k2 := ffaSearch_eq idx w₂ id₂ o₂ ho₂ hg₂ a
  rw [hp, hts] at k2
  constructor
  · intro e
    cases hr : (prepared (w₁.dataOf o₁) o₁.tsamp a).bind fun y =>
      (liftCall (periodogramBinding idx y o₁.tsamp (generateWidthTrials a.binsMin a.ducyMax a.wtsp) a.periodMin a.periodMax
        a.binsMin a.binsMax)).map fun r => (y, r) with
    | error e' =>
      rw [hr] at k1 k2
      simp only at k1 k2
      rw [k1, k2]
    | ok r =>
      obtain ⟨y, per, fb, snr⟩ := r
      rw [hr] at k1 k2
      simp only at k1 k2
      obtain ⟨_, _, _, _, _, _, _, _, h1⟩ := k1
      obtain ⟨_, _, _, _, _, _, _, _, h2⟩ := k2
      rw [h1, h2]
      simp
  · intro w₁' id₁' r₁ w₂' id₂' r₂ h1 h2
    obtain ⟨o₁', y₁, q1, q2, _, _, _, q3, q4, _, q5⟩ := ffaSearch_inv ho₁ hg₁ h1
    obtain ⟨o₂', y₂, s1, s2, _, _, _, s3, s4, _, s5⟩ := ffaSearch_inv ho₂ hg₂ h2
    rw [hp, q3] at s3
    cases s3
    refine ⟨⟨o₁', o₂', q1, s1, by rw [q2, s2]⟩, by rw [q4, s4], ?_⟩
    rw [s4, hts] at s5
    rw [q4, s5] at q5
    simp only [Except.ok.injEq, Prod.mk.injEq] at q5
    exact ⟨q5.1.symm, q5.2.1.symm, q5.2.2.symm⟩

/-! ## C62 -/

/-- C62. The series returned by `ffa_search` has the length and sampling time of the input, its `tobs` (also that of the periodogram, which
holds the same metadata) is the length of the data, and unless the data were declared normalised it has zero
mean and unit variance, provided the data to be normalised are not constant. The returned arrays are those of the compiled search of
exactly these data. -/
theorem C62_returned_series (idx : IdxRule) (w w' : World) (id id' : ℕ) (o : TsObj) (ho : w.objs[id]? = some o)
    (hg : GoodSeries w o) (a : SearchArgs) (res : SearchResult) (h : ffaSearch idx w id a = .ok (w', id', res)) :
    ∃ o', w'.objs[id']? = some o' ∧ (w'.dataOf o').length = (w.dataOf o).length ∧ o'.tsamp = o.tsamp ∧
      dictGet (w'.metas.getD res.metadata []) "tobs" = some (.num (((w.dataOf o).length : ℝ) * o.tsamp)) ∧
      periodogramBinding idx (w'.dataOf o') o'.tsamp res.widths a.periodMin a.periodMax a.binsMin a.binsMax =
        .ok (res.periods, res.foldbins, res.snrs) ∧
      (a.alreadyNormalised = false → a.deredden = false → (∃ u ∈ w.dataOf o, ∃ v ∈ w.dataOf o, u ≠ v) →
        (w'.dataOf o').sum = 0 ∧ ((w'.dataOf o').map (fun v : ℝ => v ^ 2)).sum = ((w.dataOf o).length : ℝ)) ∧
      (a.alreadyNormalised = false → a.deredden = true → ∃ rmed,
        runningMedianOf (w.dataOf o) o.tsamp a.rmedWidth a.rmedMinpts = .ok rmed ∧
        ((∃ u ∈ subtractArrays (w.dataOf o) rmed, ∃ v ∈ subtractArrays (w.dataOf o) rmed, u ≠ v) →
          (w'.dataOf o').sum = 0 ∧ ((w'.dataOf o').map (fun v : ℝ => v ^ 2)).sum = ((w.dataOf o).length : ℝ))) := by
  obtain ⟨o', y, h1, h2, h3, h4, h5, h6, h7, h8, h9⟩ := ffaSearch_inv ho hg h
  refine ⟨o', h1, by rw [h2, h5], h3, ?_, ?_, ?_, ?_⟩
  · have := h4.2.2
    unfold World.metaOf World.lengthOf at this
    rw [h8, this, h2, h5, h3]
  · rw [h2, h3, h9]
  · intro ha hd ⟨u, hu, v, hv, huv⟩
    unfold prepared at h6
    simp only [ha, hd, Bool.false_eq_true, if_false, Except.map, Except.ok.injEq] at h6
    rw [h2, ← h6]
    exact normalised_moments (List.ne_nil_of_mem hu) (varOf_pos hu hv huv)
  · intro ha hd
    unfold prepared at h6
    simp only [ha, hd, if_true, Bool.false_eq_true, if_false] at h6
    cases hr : runningMedianOf (w.dataOf o) o.tsamp a.rmedWidth a.rmedMinpts with
    | error e => rw [hr] at h6; cases h6
    | ok rmed =>
      refine ⟨rmed, rfl, ?_⟩
      rintro ⟨u, hu, v, hv, huv⟩
      rw [hr] at h6
      simp only [Except.map, Except.ok.injEq] at h6
      rw [h2, ← h6]
      obtain ⟨q1, q2⟩ := normalised_moments (List.ne_nil_of_mem hu) (varOf_pos hu hv huv)
      exact ⟨q1, by rw [q2, subtract_length (runningMedianOf_length hr)]⟩

/-- A search that meets the hypotheses of the theorems above: 1000 samples, dereddened with a window of 101 samples, and
normalised. -/
example : ∃ (w : World) (o : TsObj) (a : SearchArgs), w.objs[0]? = some o ∧ GoodSeries w o ∧ a.ducyMax < 1 ∧
    a.deredden = true ∧ a.alreadyNormalised = false ∧ IdxFor float32Idx ((w.dataOf o).length / a.binsMin) ∧
    ∃ r, ffaSearch float32Idx w 0 a = .ok r := by
  obtain ⟨z, hz⟩ : ∃ z : List ℝ, z = List.replicate 1000 1 := ⟨_, rfl⟩
  obtain ⟨w, hw⟩ : ∃ w : World, w = ⟨[z], [[("tobs", .num 1000)]], [⟨0, 1, 0⟩]⟩ := ⟨_, rfl⟩
  have hdata : w.dataOf ⟨0, 1, 0⟩ = List.replicate 1000 1 := by rw [hw, ← hz]; rfl
  have hlen : w.lengthOf ⟨0, 1, 0⟩ = 1000 := by
    unfold World.lengthOf
    rw [hdata]
    norm_num
  have hg : GoodSeries w ⟨0, 1, 0⟩ := by
    refine ⟨by simp [hw], by rw [hlen]; norm_num, ?_⟩
    rw [hlen, hw]
    simp [World.metaOf, List.getD, dictGet]
  have ho : w.objs[0]? = some ⟨0, 1, 0⟩ := by rw [hw]; rfl
  obtain ⟨a, ha⟩ : ∃ a : SearchArgs, a = ⟨20, 40, 8, 8, 10, 1 / 5, 3 / 2, true, 101, 101, false⟩ := ⟨_, rfl⟩
  have hidx : IdxFor float32Idx ((w.dataOf ⟨0, 1, 0⟩).length / a.binsMin) := by
    rw [hdata, ha]
    exact Or.inr ⟨Or.inl rfl, by norm_num⟩
  refine ⟨w, ⟨0, 1, 0⟩, a, ho, hg, by rw [ha]; norm_num, by rw [ha], by rw [ha], hidx, ?_⟩
  have key := ffaSearch_eq float32Idx w 0 ⟨0, 1, 0⟩ ho hg a
  obtain ⟨out, hout⟩ := C27_partial (List.replicate 1000 (1 : ℝ)) 101 101 (by norm_num) (by norm_num) (by norm_num)
  have hr : pyRound (101 / 1) = 101 := by norm_num [pyRound]
  have hrm : runningMedianOf (w.dataOf ⟨0, 1, 0⟩) 1 101 101 = .ok out := by
    rw [hdata]
    simp only [runningMedianOf, hr]
    norm_num [liftCall]
    rw [show (Int.toNat 101) = 101 from rfl, hout]
  obtain ⟨y, hy, hyl⟩ : ∃ y, prepared (w.dataOf ⟨0, 1, 0⟩) 1 a = .ok y ∧ y.length = 1000 := by
    refine ⟨normalised (subtractArrays (w.dataOf ⟨0, 1, 0⟩) out), ?_, ?_⟩
    · have e1 : a.rmedWidth = 101 := by rw [ha]
      have e2 : a.rmedMinpts = 101 := by rw [ha]
      have e3 : a.deredden = true := by rw [ha]
      have e4 : a.alreadyNormalised = false := by rw [ha]
      simp [prepared, e1, e2, e3, e4, Except.map, hrm]
    · rw [normalised, List.length_map, subtract_length (runningMedianOf_length hrm), hdata, List.length_replicate]
  have hne : generateWidthTrials a.binsMin a.ducyMax a.wtsp ≠ [] := by
    intro hc
    have := (C24_width_trials a.binsMin a.ducyMax a.wtsp).2.1
    rw [hc] at this
    simp at this
  obtain ⟨per, fb, snr, lab, h1, _⟩ := C19_no_holes float32Idx y 1
    (generateWidthTrials a.binsMin a.ducyMax a.wtsp) hne 20 40 8 10 (by rw [hyl]; exact Or.inr ⟨Or.inl rfl, by norm_num⟩)
    (by rw [hyl]; refine ⟨?_, ?_, ?_, ?_, ?_, ?_⟩ <;> norm_num) (by rw [hyl]; norm_num)
  have hpg : periodogramBinding float32Idx y 1 (generateWidthTrials a.binsMin a.ducyMax a.wtsp) a.periodMin
        a.periodMax a.binsMin a.binsMax = .ok (per, fb, snr) := by
    rw [ha] at h1 ⊢
    exact h1
  simp only [hy, Except.bind, hpg, liftCall, Except.map] at key
  obtain ⟨w', id', o', _, _, _, _, _, h3⟩ := key
  exact ⟨_, h3⟩

end Verif.Props
