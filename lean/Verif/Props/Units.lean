import Verif.Props.Worker
import Verif.Props.Detection
import Verif.Lemmas.PeaksT

/-!
# C91, C92: units of time, and the fitted threshold
-/

namespace Verif.Props

open Verif.Model Verif.Spec Verif.Lemmas

/-! ## The compiled search -/

/-- The same search with times in another unit. -/
def pgScale (c : ℝ) (a : PgArgs) : PgArgs := { a with tsamp := c * a.tsamp, pmin := c * a.pmin, pmax := c * a.pmax }

section
variable {c : ℝ} (hc : 0 < c) (a : PgArgs)
include hc

theorem scale_valid : (pgScale c a).Valid ↔ a.Valid := by
  unfold PgArgs.Valid pgScale
  simp only [mul_assoc]
  rw [mul_pos_iff_of_pos_left hc, mul_pos_iff_of_pos_left hc, mul_lt_mul_iff_right₀ hc, mul_le_mul_iff_right₀ hc]

theorem scale_dsIni : (pgScale c a).dsIni = a.dsIni := by
  unfold PgArgs.dsIni pgScale
  simp only
  rw [mul_assoc, mul_div_mul_left _ _ hc.ne']

theorem scale_numDs : (pgScale c a).numDs = a.numDs := by
  unfold PgArgs.numDs PgArgs.dsGeo pgScale
  simp only
  rw [mul_div_mul_left _ _ hc.ne']

theorem scale_f (i : ℕ) : (pgScale c a).f i = a.f i := by
  unfold PgArgs.f
  rw [scale_dsIni hc]
  rfl

theorem scale_tau (i : ℕ) : (pgScale c a).tau i = c * a.tau i := by
  unfold PgArgs.tau
  rw [scale_f hc]
  simp only [pgScale]
  ring

theorem scale_n (i : ℕ) : (pgScale c a).n i = a.n i := by
  unfold PgArgs.n
  rw [scale_f hc]
  rfl

theorem scale_pmaxSamples (i : ℕ) : (pgScale c a).pmaxSamples i = a.pmaxSamples i := by
  unfold PgArgs.pmaxSamples
  rw [scale_tau hc]
  simp only [pgScale]
  rw [mul_div_mul_left _ _ hc.ne']

theorem scale_bstop (i : ℕ) : (pgScale c a).bstop i = a.bstop i := by
  unfold PgArgs.bstop
  rw [scale_n hc, scale_pmaxSamples hc]
  rfl

theorem scale_rowsEval (i b : ℕ) : (pgScale c a).rowsEval i b = a.rowsEval i b := by
  unfold PgArgs.rowsEval PgArgs.periodCeil
  rw [scale_n hc, scale_pmaxSamples hc]

theorem scale_length : periodogramLength (pgScale c a) = periodogramLength a := by
  unfold periodogramLength
  simp only [scale_rowsEval hc, scale_bstop hc, scale_numDs hc]
  have hb : (pgScale c a).bmin = a.bmin := rfl
  rw [hb]
  by_cases hv : a.Valid
  · rw [if_neg (not_not.mpr hv), if_neg (not_not.mpr ((scale_valid hc a).mpr hv))]
  · rw [if_pos hv, if_pos (mt (scale_valid hc a).mp hv)]

end

/-- A memory with every stored value changed. -/
def memMap {β γ : Type*} (g : β → γ) (mem : Mem β) : Mem γ := fun i =>
  match mem i with
  | .unalloc => .unalloc
  | .uninit => .uninit
  | .val v => .val (g v)

theorem memMap_load {β γ : Type*} (g : β → γ) (mem : Mem β) (i : ℕ) : (memMap g mem).load i = (mem.load i).map g := by
  unfold Mem.load memMap
  cases mem i <;> rfl

theorem memMap_store {β γ : Type*} (g : β → γ) (mem : Mem β) (i : ℕ) (v : β) :
    (memMap g mem).store i (g v) = (mem.store i v).map (memMap g) := by
  unfold Mem.store memMap
  cases h : mem i with
  | unalloc => rfl
  | uninit =>
    simp only [Option.map_some, Option.some.injEq]
    funext j
    by_cases e : j = i <;> simp [e]
  | val u =>
    simp only [Option.map_some, Option.some.injEq]
    funext j
    by_cases e : j = i <;> simp [e]

theorem orUB_map {β γ : Type} (g : β → γ) (x : Option β) : orUB (x.map g) = (orUB x).map g := by
  cases x <;> rfl

/-- A loop whose body commutes with a change of the state. -/
theorem forE_map {σ τ : Type} (g : σ → τ) (body : ℕ → σ → Except CallErr σ) (body' : ℕ → τ → Except CallErr τ)
    (h : ∀ i st, body' i (g st) = (body i st).map g) (n : ℕ) (st : σ) : forE body' n (g st) = (forE body n st).map g := by
  induction n with
  | zero => rfl
  | succ n ih =>
    unfold forE
    rw [ih]
    cases forE body n st with
    | error e => rfl
    | ok s => exact h n s

theorem storeSeq_map {β γ : Type} (g : β → γ) (a : ℕ) (v : ℕ → β) (v' : ℕ → γ) (hv : ∀ i, v' i = g (v i)) (n : ℕ) (mem : Mem β) :
    storeSeq a v' n (memMap g mem) = (storeSeq a v n mem).map (memMap g) := by
  unfold storeSeq
  refine forE_map (memMap g) _ _ ?_ n mem
  intro i st
  rw [hv, memMap_store, orUB_map]

theorem readArray_map {β γ : Type} (g : β → γ) (mem : Mem β) (a n : ℕ) :
    readArray (memMap g mem) a n = (readArray mem a n).map (List.map g) := by
  unfold readArray
  induction List.range n with
  | nil => rfl
  | cons i l ih =>
    rw [List.mapM_cons, List.mapM_cons, ih, memMap_load, orUB_map]
    cases orUB (mem.load (a + i)) with
    | error e => rfl
    | ok v =>
      cases l.mapM (fun i => orUB (mem.load (a + i))) with
      | error e => rfl
      | ok r => rfl

/-- The state of the search with the stored trial periods in another unit. -/
def pgStScale (c : ℝ) (st : PgState) : PgState := { st with per := memMap (c * ·) st.per }

section
variable {c : ℝ} (hc : 0 < c) (a : PgArgs) (idx : IdxRule) (L : PgLayout) (widths : List ℕ)
include hc

theorem pgFold_scale (input ids bins : ℕ) (st : PgState) :
    pgFold idx (pgScale c a) L widths input ids bins (pgStScale c st) =
      (pgFold idx a L widths input ids bins st).map (pgStScale c) := by
  unfold pgFold
  simp only [scale_n hc, scale_f hc, scale_rowsEval hc]
  have hsz : (pgScale c a).size = a.size := rfl
  simp only [hsz, pgStScale]
  cases orUB (transformMem (· + ·) idx (a.n ids / bins) bins input L.ffabuf L.ffaout st.mem) with
  | error e => rfl
  | ok mem =>
    simp only [Except.bind]
    cases snr2Mem mem L.ffaout (a.rowsEval ids bins) bins widths
        (Real.sqrt (((a.n ids / bins : ℕ) : ℝ) * downsampledVariance a.size (a.f ids))) st.spos st.snr with
    | error e => rfl
    | ok snr =>
      simp only
      rw [storeSeq_map (c * ·) st.ppos
        (fun s => a.tau ids * bins * bins / (bins - s / (((a.n ids / bins : ℕ) : ℝ) - 1))) _ (by
          intro i
          rw [scale_tau hc]
          ring)]
      cases storeSeq st.ppos (fun s => a.tau ids * bins * bins / (bins - s / (((a.n ids / bins : ℕ) : ℝ) - 1)))
          (a.rowsEval ids bins) st.per with
      | error e => rfl
      | ok per =>
        simp only [Except.map]
        cases storeSeq st.ppos (fun _ => bins) (a.rowsEval ids bins) st.fb <;> rfl

theorem pgStage_scale (ids : ℕ) (st : PgState) :
    pgStage idx (pgScale c a) L widths ids (pgStScale c st) = (pgStage idx a L widths ids st).map (pgStScale c) := by
  unfold pgStage
  simp only [scale_f hc, scale_bstop hc]
  have hsz : (pgScale c a).size = a.size := rfl
  have hb : (pgScale c a).bmin = a.bmin := rfl
  simp only [hsz, hb]
  by_cases h1 : a.f ids = 1
  · simp only [h1, if_true, Except.bind]
    exact forE_map (pgStScale c) _ _ (fun j s => pgFold_scale hc a idx L widths _ _ _ s) _ st
  · simp only [h1, if_false]
    have e : (pgStScale c st).mem = st.mem := rfl
    rw [e]
    cases downsampleMem L.data a.size (a.f ids) L.input st.mem with
    | error e => rfl
    | ok mem =>
      simp only [Except.bind]
      exact forE_map (pgStScale c) _ _ (fun j s => pgFold_scale hc a idx L widths _ _ _ s) _ { st with mem }

theorem periodogramMem_scale (st : PgState) :
    periodogramMem idx (pgScale c a) L widths (pgStScale c st) = (periodogramMem idx a L widths st).map (pgStScale c) := by
  unfold periodogramMem
  rw [scale_numDs hc]
  by_cases hv : a.Valid
  · rw [if_neg (not_not.mpr hv), if_neg (not_not.mpr ((scale_valid hc a).mpr hv))]
    exact forE_map (pgStScale c) _ _ (fun j s => pgStage_scale hc a idx L widths j s) _ st
  · rw [if_pos hv, if_pos (mt (scale_valid hc a).mp hv)]
    rfl

end

/-- The compiled search does not know the unit of time: with the sampling time and the limits of the period multiplied by `c`, the
outcome is the same error, or the same numbers of bins and S/N with the trial periods multiplied by `c`. -/
theorem periodogramBinding_units (idx : IdxRule) (data : List ℝ) (tsamp : ℝ) (widths : List ℕ) (pmin pmax : ℝ) (bmin bmax : ℕ)
    {c : ℝ} (hc : 0 < c) :
    periodogramBinding idx data (c * tsamp) widths (c * pmin) (c * pmax) bmin bmax =
      (periodogramBinding idx data tsamp widths pmin pmax bmin bmax).map fun r => (r.1.map (c * ·), r.2) := by
  set a : PgArgs := ⟨data.length, tsamp, pmin, pmax, bmin, bmax⟩ with ha
  have hs : (⟨data.length, c * tsamp, c * pmin, c * pmax, bmin, bmax⟩ : PgArgs) = pgScale c a := rfl
  unfold periodogramBinding
  simp only [hs, ← ha]
  rw [scale_length hc, scale_dsIni hc]
  cases periodogramLength a with
  | error e => rfl
  | ok length =>
    simp only [Except.bind]
    have h0 : ∀ (m : Mem ℝ) (p : Mem ℕ) (q : Mem ℝ), (⟨m, freshMem ℝ length, p, q, 0, 0⟩ : PgState) =
        pgStScale c ⟨m, freshMem ℝ length, p, q, 0, 0⟩ := by
      intro m p q
      unfold pgStScale
      simp only [PgState.mk.injEq, true_and]
      refine ⟨?_, trivial⟩
      funext i
      unfold memMap freshMem
      by_cases h : i < length <;> simp [h]
    have h1 : ∀ (L : PgLayout) (m : Mem ℝ) (p : Mem ℕ) (q : Mem ℝ),
        periodogramMem idx (pgScale c a) L widths ⟨m, freshMem ℝ length, p, q, 0, 0⟩ =
          (periodogramMem idx a L widths ⟨m, freshMem ℝ length, p, q, 0, 0⟩).map (pgStScale c) := by
      intro L m p q
      have := periodogramMem_scale hc a idx L widths ⟨m, freshMem ℝ length, p, q, 0, 0⟩
      rw [← h0] at this
      exact this
    rw [h1]
    cases periodogramMem idx a _ widths _ with
    | error e => rfl
    | ok st =>
      simp only [Except.map, pgStScale]
      rw [readArray_map]
      cases readArray st.per 0 length with
      | error e => rfl
      | ok per =>
        simp only [Except.map]
        cases readArray st.fb 0 length with
        | error e => rfl
        | ok fb =>
          simp only
          cases (List.range length).mapM (fun j => readArray st.snr (j * widths.length) widths.length) <;> rfl

/-! ## `ffa_search` and `find_peaks` -/

/-- The arguments of a search with times in another unit. -/
noncomputable def searchScale (c : ℝ) (a : SearchArgs) : SearchArgs :=
  { a with periodMin := c * a.periodMin, periodMax := c * a.periodMax, rmedWidth := c * a.rmedWidth }

theorem prepared_units (x : List ℝ) (tsamp : ℝ) (a : SearchArgs) {c : ℝ} (hc : 0 < c) :
    prepared x (c * tsamp) (searchScale c a) = prepared x tsamp a := by
  unfold prepared searchScale runningMedianOf
  simp only [mul_eq_zero, hc.ne', false_or, mul_div_mul_left _ _ hc.ne']

theorem prepared_length {x y : List ℝ} {tsamp : ℝ} {a : SearchArgs} (h : prepared x tsamp a = .ok y) : y.length = x.length := by
  unfold prepared at h
  have hn : ∀ z : List ℝ, (if a.alreadyNormalised then z else normalised z).length = z.length := by
    intro z
    split_ifs
    · rfl
    · simp [normalised]
  cases hd : a.deredden with
  | false =>
    rw [hd] at h
    simp only [Bool.false_eq_true, if_false, Except.map, Except.ok.injEq] at h
    rw [← h, hn]
  | true =>
    rw [hd] at h
    simp only [if_true] at h
    cases hr : runningMedianOf x tsamp a.rmedWidth a.rmedMinpts with
    | error e =>
      rw [hr] at h
      cases h
    | ok r =>
      rw [hr] at h
      simp only [Except.map, Except.ok.injEq] at h
      rw [← h, hn, subtract_length (runningMedianOf_length hr)]

/-- C91, search. The unit of time is immaterial to `ffa_search`: with the sampling time of the series, the limits of the period and
the width of the running median multiplied by `c`, the same exception is raised, or the trial periods come out multiplied by `c`
with the same data searched, the same width trials, numbers of bins and S/N. -/
theorem C91_search_units (idx : IdxRule) (w₁ w₂ : World) (id₁ id₂ : ℕ) (o₁ o₂ : TsObj)
    (ho₁ : w₁.objs[id₁]? = some o₁) (ho₂ : w₂.objs[id₂]? = some o₂) (hg₁ : GoodSeries w₁ o₁) (hg₂ : GoodSeries w₂ o₂)
    (c : ℝ) (hc : 0 < c) (hts : o₂.tsamp = c * o₁.tsamp) (hx : w₂.dataOf o₂ = w₁.dataOf o₁)
    (a b : SearchArgs) (hb : b = { a with periodMin := c * a.periodMin, periodMax := c * a.periodMax, rmedWidth := c * a.rmedWidth }) :
    (∀ e, ffaSearch idx w₁ id₁ a = .error e ↔ ffaSearch idx w₂ id₂ b = .error e) ∧
    ∀ w₁' id₁' r₁ w₂' id₂' r₂, ffaSearch idx w₁ id₁ a = .ok (w₁', id₁', r₁) → ffaSearch idx w₂ id₂ b = .ok (w₂', id₂', r₂) →
      (∃ o₁' o₂', w₁'.objs[id₁']? = some o₁' ∧ w₂'.objs[id₂']? = some o₂' ∧ w₁'.dataOf o₁' = w₂'.dataOf o₂') ∧
      r₂.periods = r₁.periods.map (c * ·) ∧ r₁.widths = r₂.widths ∧ r₁.foldbins = r₂.foldbins ∧ r₁.snrs = r₂.snrs := by
  have hb' : b = searchScale c a := hb
  have hp : prepared (w₂.dataOf o₂) o₂.tsamp b = prepared (w₁.dataOf o₁) o₁.tsamp a := by
    rw [hx, hts, hb', prepared_units _ _ _ hc]
  have hpg : ∀ y, periodogramBinding idx y o₂.tsamp (generateWidthTrials b.binsMin b.ducyMax b.wtsp) b.periodMin b.periodMax
      b.binsMin b.binsMax = (periodogramBinding idx y o₁.tsamp (generateWidthTrials a.binsMin a.ducyMax a.wtsp) a.periodMin
        a.periodMax a.binsMin a.binsMax).map fun r => (r.1.map (c * ·), r.2) := by
    intro y
    rw [hts, hb]
    exact periodogramBinding_units idx y _ _ _ _ _ _ hc
  have k1 := ffaSearch_eq idx w₁ id₁ o₁ ho₁ hg₁ a
  have k2 := ffaSearch_eq idx w₂ id₂ o₂ ho₂ hg₂ b
  rw [hp] at k2
  simp only [hpg] at k2
  constructor
  · intro e
    cases hr : prepared (w₁.dataOf o₁) o₁.tsamp a with
    | error e' =>
      rw [hr] at k1 k2
      simp only [Except.bind] at k1 k2
      rw [k1, k2]
    | ok y =>
      rw [hr] at k1 k2
      simp only [Except.bind] at k1 k2
      cases hq : periodogramBinding idx y o₁.tsamp (generateWidthTrials a.binsMin a.ducyMax a.wtsp) a.periodMin
        a.periodMax a.binsMin a.binsMax with
      | error e' =>
        rw [hq] at k1 k2
        cases e' <;>
        · simp only [Except.map, liftCall] at k1 k2
          rw [k1, k2]
      | ok r =>
        rw [hq] at k1 k2
        simp only [Except.map, liftCall] at k1 k2
        obtain ⟨_, _, _, _, _, _, _, _, h1⟩ := k1
        obtain ⟨_, _, _, _, _, _, _, _, h2⟩ := k2
        rw [h1, h2]
        simp
  · intro w₁' id₁' r₁ w₂' id₂' r₂ h1 h2
    obtain ⟨o₁', y₁, q1, q2, _, _, _, q3, q4, _, q5⟩ := ffaSearch_inv ho₁ hg₁ h1
    obtain ⟨o₂', y₂, s1, s2, _, _, _, s3, s4, _, s5⟩ := ffaSearch_inv ho₂ hg₂ h2
    rw [hp, q3] at s3
    cases s3
    rw [s4, hpg, ← q4, q5] at s5
    simp only [Except.map, Except.ok.injEq, Prod.mk.injEq] at s5
    refine ⟨⟨o₁', o₂', q1, s1, by rw [q2, s2]⟩, s5.1.symm, ?_, s5.2.1, s5.2.2⟩
    rw [q4, s4, hb]

/-- C91, peaks. The unit of time is immaterial to the detection of peaks: under the same change, `ffa_search` followed by `find_peaks`
with the same parameters raises the same exception, or returns the same peaks in the same order, with their periods multiplied and
their frequencies divided by `c`. -/
theorem C91_peak_units (idx : IdxRule) (argsort : List ℝ → List ℕ) (ho : ByOrder argsort) (hs : IsArgsort argsort) (deg : ℕ)
    (fit : List ℝ → List ℝ → ℝ → ℝ) (hfit : IsFitThreshold deg fit) (p : PeakParams ℝ) (hd : deg < p.minseg)
    (w₁ w₂ : World) (id₁ id₂ : ℕ) (o₁ o₂ : TsObj)
    (ho₁ : w₁.objs[id₁]? = some o₁) (ho₂ : w₂.objs[id₂]? = some o₂) (hg₁ : GoodSeries w₁ o₁) (hg₂ : GoodSeries w₂ o₂)
    (c : ℝ) (hc : 0 < c) (hts : o₂.tsamp = c * o₁.tsamp) (hx : w₂.dataOf o₂ = w₁.dataOf o₁)
    (a b : SearchArgs) (hb : b = { a with periodMin := c * a.periodMin, periodMax := c * a.periodMax, rmedWidth := c * a.rmedWidth })
    (hidx : IdxFor idx ((w₁.dataOf o₁).length / a.binsMin)) :
    (searchAndFind idx argsort fit w₂ id₂ b p).map (·.2) = (searchAndFind idx argsort fit w₁ id₁ a p).map fun r =>
      r.2.map fun k => { k with period := c * k.period, freq := k.freq / c } := by
  have e1 := searchAndFind_eq idx argsort fit w₁ id₁ o₁ ho₁ hg₁ a p
  have e2 := searchAndFind_eq idx argsort fit w₂ id₂ o₂ ho₂ hg₂ b p
  have e3 : ((searchAndFind idx argsort fit w₁ id₁ a p).map fun r =>
      r.2.map fun k => ({ k with period := c * k.period, freq := k.freq / c } : Peak ℝ)) =
      ((searchAndFind idx argsort fit w₁ id₁ a p).map (·.2)).map
        fun l => l.map fun k => ({ k with period := c * k.period, freq := k.freq / c } : Peak ℝ) := by
    cases searchAndFind idx argsort fit w₁ id₁ a p <;> rfl
  rw [e3, e1, e2, hx, hts]
  have hb' : b = searchScale c a := hb
  rw [hb', prepared_units _ _ _ hc]
  cases hp : prepared (w₁.dataOf o₁) o₁.tsamp a with
  | error e => rfl
  | ok y =>
    have hyl : y.length = (w₁.dataOf o₁).length := prepared_length hp
    simp only [Except.bind, peaksOfData]
    have hb2 : (searchScale c a).binsMin = a.binsMin ∧ (searchScale c a).ducyMax = a.ducyMax ∧ (searchScale c a).wtsp = a.wtsp ∧
      (searchScale c a).periodMin = c * a.periodMin ∧ (searchScale c a).periodMax = c * a.periodMax ∧
      (searchScale c a).binsMax = a.binsMax := ⟨rfl, rfl, rfl, rfl, rfl, rfl⟩
    obtain ⟨u1, u2, u3, u4, u5, u6⟩ := hb2
    rw [u1, u2, u3, u4, u5, u6, periodogramBinding_units idx y _ _ _ _ _ _ hc]
    cases hq : periodogramBinding idx y o₁.tsamp (generateWidthTrials a.binsMin a.ducyMax a.wtsp) a.periodMin
        a.periodMax a.binsMin a.binsMax with
    | error e => cases e <;> rfl
    | ok r =>
      obtain ⟨per, fb, snr⟩ := r
      simp only [Except.map, liftCall]
      by_cases hne : generateWidthTrials a.binsMin a.ducyMax a.wtsp = []
      · have e0 : ∀ g : Pgram ℝ, g.widths = [] → findPeaks argsort fit p g = .ok [] := by
          intro g h
          unfold findPeaks sortPeaks
          rw [h]
          simp only [List.zipIdx_nil, List.mapM_nil, pure, Except.pure, Except.map, List.flatten_nil, List.mergeSort_nil]
        rw [e0 _ hne, e0 _ hne]
        rfl
      have hshape : Shaped ⟨generateWidthTrials a.binsMin a.ducyMax a.wtsp, per, fb, snr, y.length * o₁.tsamp⟩ := by
        obtain ⟨g1, g2, _⟩ := C18_periods_increasing idx y o₁.tsamp _ hne _ _ _ _ (by rw [hyl]; exact hidx) per fb snr hq
        obtain ⟨a', ha', hv, _, r1, r2, r3⟩ := pg_ok_inv hne (by rw [hyl]; exact hidx) hq
        refine ⟨⟨by rw [r1, r2]; simp, by rw [r1, r3]; simp, ?_⟩, g1, ?_⟩
        · intro row hrow
          rw [r3, List.mem_map] at hrow
          obtain ⟨t, _, rfl⟩ := hrow
          simp [snrOf, snrRow]
        · intro q hqm
          have hv2 := hv.2.1
          rw [ha'] at hv2
          exact lt_of_lt_of_le hv2 (g2 q hqm).1
      have := findPeaks_transform ho hs hfit p hd _ hshape c 1 0 hc one_pos
      have ep : ({ p with smin := 1 * p.smin + 0 } : PeakParams ℝ) = p := by rw [one_mul, add_zero]
      have eg : pgramT c 1 0 ⟨generateWidthTrials a.binsMin a.ducyMax a.wtsp, per, fb, snr, y.length * o₁.tsamp⟩ =
          ⟨generateWidthTrials a.binsMin a.ducyMax a.wtsp, per.map (c * ·), fb, snr, y.length * (c * o₁.tsamp)⟩ := by
        unfold pgramT
        simp only [one_mul, add_zero, List.map_id', Pgram.mk.injEq, true_and]
        ring
      have ek : peakT c 1 0 = fun k => ({ k with period := c * k.period, freq := k.freq / c } : Peak ℝ) := by
        funext k
        unfold peakT
        rw [one_mul, add_zero]
      rw [ep, eg, ek] at this
      rw [this]
      cases findPeaks argsort fit p _ <;> rfl

/-- A comparison sort. -/
theorem insArgsort_byOrder : ByOrder insArgsort := by
  intro x y hl h
  unfold insArgsort
  rw [hl]
  have := List.map_insertionSort (f := id) (r := fun i j => x.getD i 0 ≤ x.getD j 0) (s := fun i j => y.getD i 0 ≤ y.getD j 0)
    (l := List.range y.length) (by
      intro i hi j hj
      rw [List.mem_range] at hi hj
      exact h i j (by omega) (by omega))
  simpa using this

/-- A series of 1000 samples of one second, and the same in milliseconds: the hypotheses of C91 are met. -/
example : ∃ (w₁ w₂ : World) (o₁ o₂ : TsObj) (a b : SearchArgs) (p : PeakParams ℝ) (fit : List ℝ → List ℝ → ℝ → ℝ),
    w₁.objs[0]? = some o₁ ∧ w₂.objs[0]? = some o₂ ∧ GoodSeries w₁ o₁ ∧ GoodSeries w₂ o₂ ∧ o₂.tsamp = 1000 * o₁.tsamp ∧
    w₂.dataOf o₂ = w₁.dataOf o₁ ∧ (w₁.dataOf o₁).length = 1000 ∧
    b = { a with periodMin := 1000 * a.periodMin, periodMax := 1000 * a.periodMax, rmedWidth := 1000 * a.rmedWidth } ∧
    b.periodMin = 20000 ∧ IdxFor float32Idx ((w₁.dataOf o₁).length / a.binsMin) ∧ IsFitThreshold 2 fit ∧ 2 < p.minseg ∧
    ByOrder insArgsort ∧ IsArgsort (insArgsort (K := ℝ)) := by
  obtain ⟨fit, hfit⟩ := fitThreshold_exists 2
  obtain ⟨z, hz⟩ : ∃ z : List ℝ, z = List.replicate 1000 1 := ⟨_, rfl⟩
  have hzl : z.length = 1000 := by rw [hz, List.length_replicate]
  clear hz
  have hd : ∀ (t : ℝ) (m : List (PyDict String MVal)), World.dataOf ⟨[z], m, [⟨0, t, 0⟩]⟩ ⟨0, t, 0⟩ = z := fun _ _ => rfl
  have hlen : ∀ (t : ℝ) (m : List (PyDict String MVal)), World.lengthOf ⟨[z], m, [⟨0, t, 0⟩]⟩ ⟨0, t, 0⟩ = 1000 * t := by
    intro t m
    unfold World.lengthOf
    rw [hd, hzl]
    norm_num
  have hg : ∀ t : ℝ, 0 < t → GoodSeries ⟨[z], [[("tobs", .num (1000 * t))]], [⟨0, t, 0⟩]⟩ ⟨0, t, 0⟩ := by
    intro t ht
    refine ⟨by simp, by rw [hlen]; positivity, ?_⟩
    rw [hlen]
    simp [World.metaOf, List.getD, dictGet]
  refine ⟨⟨[z], [[("tobs", .num (1000 * 1))]], [⟨0, 1, 0⟩]⟩, ⟨[z], [[("tobs", .num (1000 * 1000))]], [⟨0, 1000, 0⟩]⟩, ⟨0, 1, 0⟩,
    ⟨0, 1000, 0⟩, ⟨20, 40, 8, 8, 10, 1 / 5, 3 / 2, true, 101, 101, false⟩, _, ⟨6, 5, 6, 10, 1 / 10⟩, fit, rfl, rfl,
    hg 1 (by norm_num), hg 1000 (by norm_num), by norm_num, by rw [hd, hd], by rw [hd, hzl], rfl, by norm_num, ?_, hfit, by norm_num,
    insArgsort_byOrder, insArgsort_ok⟩
  rw [hd, hzl]
  exact Or.inr ⟨Or.inl rfl, by norm_num⟩

/-! ## C92: the selection threshold -/

/-- C92, fit. If there are more different control frequencies than the degree of the polynomial, the threshold of `fit_threshold` is
determined by the control points, whatever the algorithm of the fit; it reproduces control points that lie on a polynomial of that
degree in `log f`; and it follows gain and offset of the control values and a change of the unit of frequency. -/
theorem C92_fit (deg : ℕ) (fit : List ℝ → List ℝ → ℝ → ℝ) (hfit : IsFitThreshold deg fit) (fc tc : List ℝ)
    (hl : tc.length = fc.length) (hnd : fc.Nodup) (hpos : ∀ v ∈ fc, 0 < v) (hd : deg < fc.length) (f : ℝ) (hf : 0 < f) :
    (∀ fit', IsFitThreshold deg fit' → fit' fc tc f = fit fc tc f) ∧
    (∀ P : Polynomial ℝ, P.natDegree ≤ deg → (∀ z ∈ fc.zip tc, z.2 = P.eval (Real.log z.1)) → fit fc tc f = P.eval (Real.log f)) ∧
    ∀ c α β : ℝ, 0 < c → 0 < α → fit (fc.map (· / c)) (tc.map fun v => α * v + β) (f / c) = α * fit fc tc f + β := by
  have hcard : deg < ((logPoints fc tc).map Prod.fst).toFinset.card := by
    have e : (logPoints fc tc).map Prod.fst = fc.map Real.log := by
      unfold logPoints
      rw [List.map_map]
      have : fc = (fc.zip tc).map Prod.fst := by
        rw [List.map_fst_zip]
        omega
      conv_rhs => rw [this]
      rw [List.map_map]
      rfl
    rw [e, List.toFinset_card_of_nodup, List.length_map]
    · exact hd
    · rw [List.nodup_map_iff_inj_on hnd]
      intro x hx y hy hxy
      exact Real.log_injOn_pos (hpos x hx) (hpos y hy) hxy
  obtain ⟨q, hq, eq⟩ := hfit fc tc
  refine ⟨?_, ?_, fun c α β hc hα => fit_transform hfit fc tc hl hnd hpos hd c α β hc hα f hf⟩
  · intro fit' hfit'
    obtain ⟨r, hr, er⟩ := hfit' fc tc
    rw [er, eq, polyfit_unique hr hq hcard]
  · intro P hP hz
    have : IsPolyfit deg (logPoints fc tc) P := by
      refine polyfit_of_exact hP ?_
      intro z hzm
      unfold logPoints at hzm
      rw [List.mem_map] at hzm
      obtain ⟨y, hy, rfl⟩ := hzm
      exact hz y hy
    rw [eq, polyfit_unique hq this hcard]

/-- C92, mean. The fitted threshold and the control values have the same mean over the control frequencies. -/
theorem C92_mean (deg : ℕ) (fit : List ℝ → List ℝ → ℝ → ℝ) (hfit : IsFitThreshold deg fit) (fc tc : List ℝ)
    (hl : tc.length = fc.length) : (fc.map (fit fc tc)).sum = tc.sum := by
  obtain ⟨q, hq, eq⟩ := hfit fc tc
  have := polyfit_mean hq
  unfold logPoints at this
  rw [List.map_map, List.map_map] at this
  have e1 : (fc.zip tc).map (Prod.snd ∘ fun z : ℝ × ℝ => (Real.log z.1, z.2)) = tc := by
    have : (Prod.snd ∘ fun z : ℝ × ℝ => (Real.log z.1, z.2)) = Prod.snd := rfl
    rw [this, List.map_snd_zip]
    omega
  have e2 : (fc.zip tc).map ((fun z : ℝ × ℝ => q.eval z.1) ∘ fun z : ℝ × ℝ => (Real.log z.1, z.2)) = fc.map (fit fc tc) := by
    have h : fc = (fc.zip tc).map Prod.fst := by
      rw [List.map_fst_zip]
      omega
    conv_rhs => rw [h]
    rw [List.map_map]
    apply List.map_congr_left
    intro z _
    simp only [Function.comp]
    rw [← h, eq]
  rw [e1, e2] at this
  exact this

/-- C92, gain. Peak detection is relative: if all S/N of a periodogram are changed to `α S + β` with `α > 0`, and `smin` with them,
`find_peaks` raises the same exception or returns the same peaks with their S/N so changed. -/
theorem C92_gain (argsort : List ℝ → List ℕ) (ho : ByOrder argsort) (hs : IsArgsort argsort) (deg : ℕ)
    (fit : List ℝ → List ℝ → ℝ → ℝ) (hfit : IsFitThreshold deg fit) (p : PeakParams ℝ) (hd : deg < p.minseg) (g : Pgram ℝ)
    (hg : PgramOK g) (hinc : g.periods.Pairwise (· < ·)) (hpos : ∀ q ∈ g.periods, 0 < q) (α β : ℝ) (hα : 0 < α) :
    findPeaks argsort fit { p with smin := α * p.smin + β }
        { g with snrs := g.snrs.map (fun row => row.map fun v => α * v + β) } =
      (findPeaks argsort fit p g).map (List.map fun k => { k with snr := α * k.snr + β }) := by
  have := findPeaks_transform ho hs hfit p hd g ⟨hg, hinc, hpos⟩ 1 α β one_pos hα
  have eg : pgramT 1 α β g = { g with snrs := g.snrs.map (fun row => row.map fun v => α * v + β) } := by
    unfold pgramT
    simp only [one_mul, List.map_id']
  have ek : peakT 1 α β = fun k => ({ k with snr := α * k.snr + β } : Peak ℝ) := by
    funext k
    unfold peakT
    rw [one_mul, div_one]
  rw [eg, ek] at this
  exact this

/-- Percentiles of equal values. -/
theorem percentile_const (x : List ℝ) (hx : x ≠ []) (q k : ℝ) (h0 : 0 ≤ q) (h1 : q ≤ 100) (h : ∀ v ∈ x, v = k) :
    percentile x q = k := by
  obtain ⟨⟨u, hu, hul⟩, ⟨v, hv, hvl⟩⟩ := percentile_between x hx q h0 h1
  rw [h u hu] at hul
  rw [h v hv] at hvl
  linarith

/-- C92, flat. Where all S/N of a width trial are equal, nothing stands out: with enough segments for the fit no peak is found,
however high the S/N. -/
theorem C92_flat (argsort : List ℝ → List ℕ) (deg : ℕ) (fit : List ℝ → List ℝ → ℝ → ℝ) (hfit : IsFitThreshold deg fit)
    (p : PeakParams ℝ) (hd : deg < p.minseg) (f s : List ℝ) (hfs : f.length = s.length) (hdec : f.Pairwise (· > ·))
    (hpos : ∀ v ∈ f, 0 < v) (T k : ℝ) (hk : ∀ v ∈ s, v = k) (fc smed sstd : List ℝ)
    (hseg : segmentStats f s T p.segwidth = .ok (fc, smed, sstd)) (hmin : p.minseg ≤ fc.length) :
    findPeaksSingle argsort fit p f s T = .ok [] := by
  obtain ⟨g1, g2, g3, g4⟩ := control_freqs hdec hpos hseg
  -- the control values are all `k`
  have hctl : (∀ v ∈ smed, v = k) ∧ ∀ v ∈ sstd, v = 0 := by
    have h := hseg
    unfold segmentStats at h
    split_ifs at h with hT
    split at h
    · rename_i f0 f1 h0 h1
      simp only at h
      split_ifs at h with hw hm hp
      simp only [Except.ok.injEq, Prod.mk.injEq] at h
      obtain ⟨-, e2, e3⟩ := h
      set m := ⌈|f1 - f0| / (p.segwidth / T)⌉₊ with hm'
      set r := f.length / m with hr'
      have hmr : m * r ≤ s.length := by rw [← hfs]; exact Nat.mul_div_le _ _
      have hrow : ∀ i, i < m → ∀ q : ℝ, 0 ≤ q → q ≤ 100 → percentile (reshapeRow r (s.take (m * r)) i) q = k := by
        intro i hi q hq0 hq1
        refine percentile_const _ ?_ q k hq0 hq1 ?_
        · intro hcon
          have := reshapeRow_length hi hmr
          rw [hcon] at this
          simp only [List.length_nil] at this
          exact hp this.symm
        · intro v hv
          unfold reshapeRow at hv
          exact hk v (List.mem_of_mem_take (List.mem_of_mem_drop (List.mem_of_mem_take hv)))
      refine ⟨?_, ?_⟩
      · rw [← e2]
        intro v hv
        rw [List.mem_map] at hv
        obtain ⟨i, hi, rfl⟩ := hv
        exact hrow i (List.mem_range.mp hi) 50 (by norm_num) (by norm_num)
      · rw [← e3]
        intro v hv
        rw [List.zipWith_map_left, List.zipWith_map_right, List.zipWith_self, List.mem_map] at hv
        obtain ⟨i, hi, rfl⟩ := hv
        rw [hrow i (List.mem_range.mp hi) 75 (by norm_num) (by norm_num), hrow i (List.mem_range.mp hi) 25 (by norm_num) (by norm_num)]
        norm_num
    · cases h
  have hsc : ∀ z ∈ fc.zip (List.zipWith (fun a b => a + p.nstd * b) smed sstd), z.2 = (Polynomial.C k).eval (Real.log z.1) := by
    intro z hz
    have := (List.of_mem_zip hz).2
    rw [List.mem_iff_getElem] at this
    obtain ⟨i, hi, e⟩ := this
    rw [List.getElem_zipWith] at e
    rw [← e, hctl.1 _ (List.getElem_mem _), hctl.2 _ (List.getElem_mem _), Polynomial.eval_C]
    ring
  have hthr : ∀ v, 0 < v → fit fc (List.zipWith (fun a b => a + p.nstd * b) smed sstd) v = k := by
    intro v hv
    have := (C92_fit deg fit hfit fc (List.zipWith (fun a b => a + p.nstd * b) smed sstd) (by simp [g3, g4]) g1 g2 (by omega) v hv).2.1
      (Polynomial.C k) (by simp) hsc
    rw [this, Polynomial.eval_C]
  unfold findPeaksSingle dynThreshold
  rw [hseg]
  simp only [Except.map, ge_iff_le, hmin, if_true]
  unfold selectPeaks
  have hnone : (List.range f.length).filter (fun i => s.getD i 0 > fit fc (List.zipWith (fun a b => a + p.nstd * b) smed sstd)
      (f.getD i 0) ∧ s.getD i 0 > p.smin) = [] := by
    rw [List.filter_eq_nil_iff]
    intro i hi
    have hi := List.mem_range.mp hi
    have e1 : s.getD i 0 = k := by
      rw [List.getD_eq_getElem _ _ (by omega)]
      exact hk _ (List.getElem_mem _)
    have e2 : 0 < f.getD i 0 := by
      rw [List.getD_eq_getElem _ _ hi]
      exact hpos _ (List.getElem_mem _)
    rw [e1, hthr _ e2]
    simp
  simp only [hnone]
  simp [cluster1d]

/-- Three control points, a straight line in `log f`: the hypotheses of C92 are met. -/
example : ∃ (fit : List ℝ → List ℝ → ℝ → ℝ) (fc tc : List ℝ), IsFitThreshold 1 fit ∧ tc.length = fc.length ∧ fc.Nodup ∧
    (∀ v ∈ fc, 0 < v) ∧ 1 < fc.length ∧ tc = [6, 7, 9] := by
  obtain ⟨fit, hfit⟩ := fitThreshold_exists 1
  refine ⟨fit, [3, 2, 1], [6, 7, 9], hfit, rfl, by norm_num, ?_, by norm_num, rfl⟩
  intro v hv
  simp only [List.mem_cons, List.not_mem_nil, or_false] at hv
  rcases hv with rfl | rfl | rfl <;> norm_num

/-- A periodogram with two trials and one width. -/
example : ∃ g : Pgram ℝ, PgramOK g ∧ g.periods.Pairwise (· < ·) ∧ (∀ q ∈ g.periods, 0 < q) ∧ g.snrs = [[7], [5]] := by
  refine ⟨⟨[1], [1, 2], [8, 8], [[7], [5]], 10⟩, ⟨rfl, rfl, ?_⟩, by norm_num, ?_, rfl⟩
  · intro row hrow
    simp only [List.mem_cons, List.not_mem_nil, or_false] at hrow
    rcases hrow with rfl | rfl <;> rfl
  · intro q hq
    simp only [List.mem_cons, List.not_mem_nil, or_false] at hq
    rcases hq with rfl | rfl <;> norm_num

/-- Five trials of S/N 20 in two segments, fitted with a constant. -/
example : ∃ (fc smed sstd : List ℝ), segmentStats ([8, 7, 6, 5, 4] : List ℝ) [20, 20, 20, 20, 20] 1 2 = .ok (fc, smed, sstd) ∧
    2 ≤ fc.length := by
  have h2 : numSegments (8 : ℝ) 4 1 2 = 2 := by
    unfold numSegments
    rw [show |(4 : ℝ) - 8| / (2 / 1) = ((2 : ℕ) : ℝ) by norm_num, Nat.ceil_natCast]
  obtain ⟨fc, smed, sstd, h, hl, -⟩ := C32_segment_stats_partial ([8, 7, 6, 5, 4] : List ℝ) [20, 20, 20, 20, 20] 1 2 8 4
    (by norm_num) (by norm_num) rfl rfl (by norm_num) (by rw [h2]; decide)
  exact ⟨fc, smed, sstd, h, by rw [hl, h2]⟩

end Verif.Props
