import Verif.Model.Rseek
import Verif.Props.Resolution
import Verif.Props.Detection

/-!
# C79, C80: the `rseek` program
-/

namespace Verif.Props

open Verif.Model Verif.Spec

theorem runningMedianNum_int (x : List ℝ) (tsamp width : ℝ) (n : ℕ) :
    runningMedianNum x tsamp width (.int n) = runningMedianOf x tsamp width n := by
  unfold runningMedianNum runningMedianOf fastRunningMedianNum PyNum.Even
  simp only
  congr

theorem runningMedianNum_length {x rmed : List ℝ} {tsamp width : ℝ} {m : PyNum}
    (h : runningMedianNum x tsamp width m = .ok rmed) : rmed.length = x.length := by
  cases m with
  | int n =>
    rw [runningMedianNum_int] at h
    exact runningMedianOf_length h
  | float v =>
    unfold runningMedianNum fastRunningMedianNum at h
    simp only at h
    split_ifs at h
    exact (runningMedian_mem (liftCall_ok h)).1

/-- What the program searches: the loaded data minus their running median, normalised. -/
theorem rseekPeaks_eq (idx : IdxRule) (argsort : List ℝ → List ℕ) (fit : List ℝ → List ℝ → ℝ → ℝ) (a : RseekArgs) (w : World) (id : ℕ)
    (o : TsObj) (ho : w.objs[id]? = some o) (hg : GoodSeries w o) :
    (rseekPeaks idx argsort fit a w id).map (·.2) =
      (runningMedianNum (w.dataOf o) o.tsamp a.rmedWidth a.rmedMinpts).bind fun r =>
        peaksOfData idx argsort fit (normalised (subtractArrays (w.dataOf o) r)) o.tsamp a.search a.peaks := by
  unfold rseekPeaks tsDereddenNum
  rw [obj_ok_iff.mpr ho]
  simp only [Except.bind]
  cases hr : runningMedianNum (w.dataOf o) o.tsamp a.rmedWidth a.rmedMinpts with
  | error e => rfl
  | ok rmed =>
    have hl := subtract_length (runningMedianNum_length hr)
    obtain ⟨md, hmd, hn⟩ := tsNew_ok w (subtractArrays (w.dataOf o) rmed) o.tsamp (w.metaOf o) _ hg.2.1 hg.2.2
    simp only
    rw [hn]
    simp only
    obtain ⟨w1, hw1⟩ : ∃ w1 : World, w1 = ⟨w.arrays ++ [subtractArrays (w.dataOf o) rmed], w.metas ++ [md],
      w.objs ++ [⟨w.arrays.length, o.tsamp, w.metas.length⟩]⟩ := ⟨_, rfl⟩
    obtain ⟨o1, ho1'⟩ : ∃ o1 : TsObj, o1 = ⟨w.arrays.length, o.tsamp, w.metas.length⟩ := ⟨_, rfl⟩
    rw [← hw1]
    have ho1 : w1.objs[w.objs.length]? = some o1 := by rw [hw1, ho1']; simp
    have hd1 : w1.dataOf o1 = subtractArrays (w.dataOf o) rmed := by rw [hw1, ho1']; simp [World.dataOf, List.getD]
    have hm1 : w1.metaOf o1 = md := by rw [hw1, ho1']; simp [World.metaOf, List.getD]
    have hts1 : o1.tsamp = o.tsamp := by rw [ho1']
    have hg1 : GoodSeries w1 o1 := by
      refine ⟨by rw [hw1, ho1']; simp, ?_, ?_⟩
      · unfold World.lengthOf
        rw [hd1, hts1, hl]
        exact hg.2.1
      · unfold World.lengthOf
        rw [hd1, hts1, hm1, hmd]
    rw [searchAndFind_eq idx argsort fit w1 _ o1 ho1 hg1, hd1, hts1]
    simp only [prepared, RseekArgs.search, Bool.false_eq_true, if_false, Except.map, Except.bind]

/-- The result in terms of the peaks. -/
theorem rseekRun_inv {idx : IdxRule} {argsort : List ℝ → List ℕ} {fit : List ℝ → List ℝ → ℝ → ℝ} {a : RseekArgs} {w : World} {id : ℕ}
    {o : TsObj} (ho : w.objs[id]? = some o) (hg : GoodSeries w o) {out : Option (List (Peak ℝ))}
    (h : rseekRun idx argsort fit a w id = .ok out) :
    ∃ r per fb snr peaks, runningMedianNum (w.dataOf o) o.tsamp a.rmedWidth a.rmedMinpts = .ok r ∧
      periodogramBinding idx (normalised (subtractArrays (w.dataOf o) r)) o.tsamp (generateWidthTrials a.bmin (3 / 10) a.wtsp) a.pmin
        a.pmax a.bmin a.bmax = .ok (per, fb, snr) ∧
      findPeaks argsort fit a.peaks ⟨generateWidthTrials a.bmin (3 / 10) a.wtsp, per, fb, snr, w.lengthOf o⟩ = .ok peaks ∧
      ((peaks = [] ∧ out = none) ∨ (peaks ≠ [] ∧ out = some (rseekTable argsort peaks (a.clrad / w.lengthOf o)))) := by
  obtain ⟨⟨w1, peaks⟩, h1, h2⟩ := bind_ok_inv h
  have h3 := rseekPeaks_eq idx argsort fit a w id o ho hg
  rw [h1] at h3
  obtain ⟨r, h4, h5⟩ := bind_ok_inv h3.symm
  obtain ⟨⟨per, fb, snr⟩, h6, h7⟩ := bind_ok_inv h5
  have hlen : (normalised (subtractArrays (w.dataOf o) r)).length = (w.dataOf o).length := by
    rw [normalised, List.length_map, subtract_length (runningMedianNum_length h4)]
  rw [hlen] at h7
  refine ⟨r, per, fb, snr, peaks, h4, liftCall_ok h6, h7, ?_⟩
  simp only at h2
  by_cases hp : peaks = []
  · left
    rw [hp] at h2
    simp only [List.isEmpty_nil, if_true, Except.ok.injEq] at h2
    exact ⟨hp, h2.symm⟩
  · right
    rw [if_neg (by simpa using hp), obj_ok_iff.mpr ho] at h2
    simp only [Except.bind] at h2
    rw [if_neg hg.2.1.ne'] at h2
    exact ⟨hp, (Except.ok.inj h2).symm⟩

/-! ## C80 -/

/-- A point (width trial, period trial) of the periodogram that exceeds the thresholds of its width trial. -/
def SignificantAny (g : Pgram ℝ) (thr : ℕ → ℝ → ℝ) (smin : ℝ) (k : ℕ × ℕ) : Prop :=
  k.1 < g.widths.length ∧ Significant g (thr k.1) smin k.1 k.2

theorem linked_lift {β γ : Type*} {S : β → Prop} {S' : γ → Prop} {x : β → ℝ} {x' : γ → ℝ} {r : ℝ} (f : β → γ)
    (hf : ∀ b, S b → S' (f b) ∧ x' (f b) = x b) {i j : β} (h : Linked S x r i j) : Linked S' x' r (f i) (f j) := by
  induction h with
  | refl => exact Relation.ReflTransGen.refl
  | tail _ hs ih =>
    obtain ⟨h1, h2, h3⟩ := hs
    refine Relation.ReflTransGen.tail ih ⟨(hf _ h1).1, (hf _ h2).1, ?_⟩
    rw [(hf _ h1).2, (hf _ h2).2]
    exact h3

/-- **C80.** What `rseek` returns, from the loaded series to the rows of the table. Let `g` be the periodogram of the dereddened and
normalised data. `None` is returned exactly if no point of `g` is significant. Otherwise
* every row is a point of `g` in the searched range that is significant, with its own period, width, duty cycle and S/N;
* the rows come in the order of decreasing S/N and differ by more than the clustering radius in frequency;
* no significant point is lost: it is connected to a row by a chain of significant points with steps within the clustering radius, and
  that row has at least its S/N. -/
theorem C80_rseek (idx : IdxRule) (argsort : List ℝ → List ℕ) (hsort : IsArgsort argsort) (fit : List ℝ → List ℝ → ℝ → ℝ)
    (a : RseekArgs) (w : World) (id : ℕ) (o : TsObj) (ho : w.objs[id]? = some o) (hg : GoodSeries w o)
    (hidx : IdxFor idx ((w.dataOf o).length / a.bmin)) (hcl : 0 ≤ a.clrad) (out : Option (List (Peak ℝ)))
    (h : rseekRun idx argsort fit a w id = .ok out) :
    ∃ (r : List ℝ) (g : Pgram ℝ) (thr : ℕ → ℝ → ℝ),
      runningMedianNum (w.dataOf o) o.tsamp a.rmedWidth a.rmedMinpts = .ok r ∧
      g.widths = generateWidthTrials a.bmin (3 / 10) a.wtsp ∧ g.tobs = w.lengthOf o ∧
      periodogramBinding idx (normalised (subtractArrays (w.dataOf o) r)) o.tsamp g.widths a.pmin a.pmax a.bmin a.bmax =
        .ok (g.periods, g.foldbins, g.snrs) ∧
      (∀ iw < g.widths.length, thresholdOf fit a.peaks g iw = .ok (thr iw)) ∧
      (out = none ↔ ∀ k, ¬ SignificantAny g thr a.smin k) ∧
      ∀ table, out = some table →
        table ≠ [] ∧
        (∀ t ∈ table, SignificantAny g thr a.smin (t.iw, t.ip) ∧ t.snr = snrAt g t.iw t.ip ∧ g.periods[t.ip]? = some t.period ∧
          t.freq = 1 / t.period ∧ a.pmin ≤ t.period ∧ t.period < a.pmax ∧ g.widths[t.iw]? = some t.width ∧
          ∃ nb : ℕ, g.foldbins[t.ip]? = some nb ∧ t.ducy = (t.width : ℝ) / nb) ∧
        table.Pairwise (fun s t => t.snr ≤ s.snr ∧ a.clrad / w.lengthOf o < |s.freq - t.freq|) ∧
        ∀ k, SignificantAny g thr a.smin k → ∃ t ∈ table, snrAt g k.1 k.2 ≤ t.snr ∧
          Linked (SignificantAny g thr a.smin) (fun k => freqAt g k.2) (a.clrad / w.lengthOf o) (t.iw, t.ip) k := by
  obtain ⟨r, per, fb, snr, peaks, h1, h2, h3, h4⟩ := rseekRun_inv ho hg h
  have hlen : (normalised (subtractArrays (w.dataOf o) r)).length = (w.dataOf o).length := by
    rw [normalised, List.length_map, subtract_length (runningMedianNum_length h1)]
  have hne : generateWidthTrials a.bmin (3 / 10) a.wtsp ≠ [] := by
    intro hc
    have := (C24_width_trials a.bmin (3 / 10) a.wtsp).2.1
    rw [hc] at this
    simp at this
  have hidx' : IdxFor idx ((normalised (subtractArrays (w.dataOf o) r)).length / a.bmin) := by rw [hlen]; exact hidx
  obtain ⟨_, k2, k3, k4⟩ := (C17_outputs_filled_exactly idx _ o.tsamp _ hne _ _ _ _ hidx').2 per fb snr h2
  obtain ⟨_, k5, _⟩ := C18_periods_increasing idx _ o.tsamp _ hne _ _ _ _ hidx' per fb snr h2
  obtain ⟨g, hgdef⟩ : ∃ g : Pgram ℝ, g = ⟨generateWidthTrials a.bmin (3 / 10) a.wtsp, per, fb, snr, w.lengthOf o⟩ := ⟨_, rfl⟩
  have hok : PgramOK g := by rw [hgdef]; exact ⟨k2, k3, k4⟩
  rw [← hgdef] at h3
  have gw : g.widths = generateWidthTrials a.bmin (3 / 10) a.wtsp := by rw [hgdef]
  have gp : g.periods = per := by rw [hgdef]
  have gt : g.tobs = w.lengthOf o := by rw [hgdef]
  obtain ⟨thr, t1, _, _⟩ := findPeaks_inv argsort hsort fit a.peaks g hok peaks h3
  have hsm : a.peaks.smin = a.smin := rfl
  have hrad : a.peaks.clrad / g.tobs = a.clrad / w.lengthOf o := by rw [gt]; rfl
  have hr0 : 0 ≤ a.clrad / w.lengthOf o := div_nonneg hcl hg.2.1.le
  -- peaks are significant points
  obtain ⟨c30, _⟩ := C30_peaks_genuine argsort hsort fit a.peaks g hok peaks h3
  have hpk : ∀ q ∈ peaks, SignificantAny g thr a.smin (q.iw, q.ip) ∧ q.snr = snrAt g q.iw q.ip ∧ freqAt g q.ip = q.freq ∧
      g.periods[q.ip]? = some q.period ∧ q.freq = 1 / q.period ∧ g.widths[q.iw]? = some q.width ∧
      ∃ nb : ℕ, g.foldbins[q.ip]? = some nb ∧ q.ducy = (q.width : ℝ) / nb := by
    intro q hq
    obtain ⟨P, nb, row, e1, e2, e3, e4, e5, e6, e7, e8, t, e9, e10, e11, _⟩ := c30 q hq
    have hf : freqAt g q.ip = q.freq := by rw [e7]; simp [freqAt, List.getD, e1]
    have hs : snrAt g q.iw q.ip = q.snr := by simp [snrAt, List.getD, e4, e5]
    have hiw : q.iw < g.widths.length := (List.getElem?_eq_some_iff.mp e3).1
    have ht : t = thr q.iw := by
      rw [t1 q.iw hiw] at e9
      exact (Except.ok.inj e9).symm
    refine ⟨⟨hiw, (List.getElem?_eq_some_iff.mp e1).1, ?_, ?_⟩, hs.symm, hf, by rw [e6]; exact e1, by rw [e7, e6], e3, nb, e2, e8⟩
    · simp only; rw [hf, hs, ← ht]; exact e10
    · simp only; rw [hs]; exact e11
  -- and every significant point belongs to a peak
  have hcov : ∀ k, SignificantAny g thr a.smin k → ∃ q ∈ peaks, snrAt g k.1 k.2 ≤ q.snr ∧
      Linked (SignificantAny g thr a.smin) (fun k => freqAt g k.2) (a.clrad / w.lengthOf o) (q.iw, q.ip) k := by
    rintro ⟨iw, i⟩ ⟨hiw, hsig⟩
    simp only at hiw hsig
    obtain ⟨t, e1, e2⟩ := C31_none_lost argsort hsort fit a.peaks g hok peaks h3 iw hiw
    have ht : t = thr iw := by
      rw [t1 iw hiw] at e1
      exact (Except.ok.inj e1).symm
    subst ht
    obtain ⟨q, ⟨⟨q1, q2, q3⟩, q4⟩, _⟩ := e2 i hsig
    refine ⟨q, q1, q4, ?_⟩
    rw [q2]
    rw [hrad] at q3
    exact linked_lift (fun j => (iw, j)) (fun j hj => ⟨⟨hiw, hj⟩, rfl⟩) q3
  refine ⟨r, g, thr, h1, gw, gt, by rw [gw, gp]; rw [hgdef]; exact h2, t1, ?_, ?_⟩
  · constructor
    · intro hn k hk
      obtain ⟨q, hq, _⟩ := hcov k hk
      rcases h4 with ⟨hp, _⟩ | ⟨_, ho'⟩
      · rw [hp] at hq; cases hq
      · rw [hn] at ho'; cases ho'
    · intro hno
      rcases h4 with ⟨_, ho'⟩ | ⟨hp, _⟩
      · exact ho'
      · obtain ⟨q, hq⟩ := List.exists_mem_of_ne_nil _ hp
        exact absurd (hpk q hq).1 (hno _)
  · intro table htab
    rcases h4 with ⟨_, ho'⟩ | ⟨hp, ho'⟩
    · rw [htab] at ho'; cases ho'
    rw [htab] at ho'
    have htb : table = rseekTable argsort peaks (a.clrad / w.lengthOf o) := Option.some.inj ho'
    obtain ⟨c1, c2, c3, c4⟩ := C56_rseek_table argsort hsort peaks (a.clrad / w.lengthOf o) hr0
    rw [← htb] at c1 c2 c3 c4
    refine ⟨?_, ?_, ?_, ?_⟩
    · obtain ⟨q, hq⟩ := List.exists_mem_of_ne_nil _ hp
      obtain ⟨t, ht, _⟩ := c2 q hq
      exact List.ne_nil_of_mem ht
    · intro t ht
      obtain ⟨p1, p2, p3, p4, p5, p6, p7⟩ := hpk t (c1 t ht).1
      have hP := k5 t.period (by rw [← gp]; exact List.mem_of_getElem? p4)
      exact ⟨p1, p2, p4, p5, hP.1, hP.2, p6, p7⟩
    · refine List.Pairwise.imp_of_mem ?_ (c3.and c4)
      rintro s t hs ht ⟨hnl, hsn⟩
      refine ⟨hsn, ?_⟩
      by_contra hc
      exact hnl (Relation.ReflTransGen.single ⟨(c1 s hs).1, (c1 t ht).1, not_lt.mp hc⟩)
    · intro k hk
      obtain ⟨q, hq, q1, q2⟩ := hcov k hk
      obtain ⟨t, ht, htq⟩ := c2 q hq
      refine ⟨t, ht, q1.trans ((c1 t ht).2 q htq), Relation.ReflTransGen.trans ?_ q2⟩
      exact linked_lift (fun p : Peak ℝ => (p.iw, p.ip)) (fun p hp => ⟨(hpk p hp).1, (hpk p hp).2.2.1⟩) htq

/-! ## C79 -/

/-- The text given for an option reads as the default shown in the help of the program. -/
def IsDefaultText (toFloat : String → Option ℝ) (toInt : String → Option ℕ) (opt : RseekOpt × String) : Prop :=
  match opt.1 with
  | .Pmin => toFloat opt.2 = some 1
  | .Pmax => toFloat opt.2 = some 10
  | .bmin => toInt opt.2 = some 240
  | .bmax => toInt opt.2 = some 260
  | .smin => toFloat opt.2 = some 7
  | .wtsp => toFloat opt.2 = some (3 / 2)
  | .rmed_width => toFloat opt.2 = some 4
  | .rmed_minpts => toFloat opt.2 = some 101
  | .clrad => toFloat opt.2 = some (1 / 5)

/-- C79, what holds: an option other than `--rmed_minpts`, given with its default value, has no effect, whatever the other options are.
Missing: `--rmed_minpts`, for which the claim is false (`C79_false`); for what happens there see `C79_rmed_minpts`. -/
theorem C79_partial (toFloat : String → Option ℝ) (toInt : String → Option ℕ) (opt : RseekOpt × String)
    (h : IsDefaultText toFloat toInt opt) (hm : opt.1 ≠ .rmed_minpts) (opts : List (RseekOpt × String)) :
    rseekParse toFloat toInt (opt :: opts) = rseekParse toFloat toInt opts := by
  obtain ⟨o, t⟩ := opt
  unfold rseekParse
  rw [List.foldlM_cons]
  have : setOption toFloat toInt rseekDefaults (o, t) = some rseekDefaults := by
    unfold IsDefaultText at h
    unfold setOption
    cases o <;> first | exact absurd rfl hm | (simp only at h ⊢; rw [h]; rfl)
  rw [this]
  rfl

/-- C79. Whole numbers given for `--rmed_minpts` are turned into a `float`. The running median accepts that if its window is shorter than
`2 n` samples; for a longer one the program stops with `TypeError`, where the integer `n` (odd) would have been accepted. -/
theorem C79_rmed_minpts (idx : IdxRule) (argsort : List ℝ → List ℕ) (fit : List ℝ → List ℝ → ℝ → ℝ) (a : RseekArgs) (w : World) (id : ℕ)
    (o : TsObj) (ho : w.objs[id]? = some o) (ht : o.tsamp ≠ 0) (n : ℕ) :
    (n % 2 = 0 ∨ pyRound (a.rmedWidth / o.tsamp) < 2 * n →
      rseekRun idx argsort fit { a with rmedMinpts := .float n } w id = rseekRun idx argsort fit { a with rmedMinpts := .int n } w id) ∧
    (n % 2 = 1 ∧ 2 * (n : ℤ) ≤ pyRound (a.rmedWidth / o.tsamp) →
      rseekRun idx argsort fit { a with rmedMinpts := .float n } w id = .error .typeError) := by
  have heven : ((n : ℝ) = 2 * ⌊(n : ℝ) / 2⌋) ↔ n % 2 = 0 := by
    constructor
    · intro h
      have h1 : (n : ℤ) = 2 * ⌊(n : ℝ) / 2⌋ := by exact_mod_cast h
      omega
    · intro h
      obtain ⟨k, hk⟩ : ∃ k, n = 2 * k := ⟨n / 2, by omega⟩
      rw [hk]
      push_cast
      rw [mul_div_cancel_left₀ _ (by norm_num : (2 : ℝ) ≠ 0), Int.floor_natCast]
      simp
  -- the running median
  have hrm : ∀ x : List ℝ,
      (n % 2 = 0 ∨ pyRound (a.rmedWidth / o.tsamp) < 2 * n →
        runningMedianNum x o.tsamp a.rmedWidth (.float n) = runningMedianNum x o.tsamp a.rmedWidth (.int n)) ∧
      (n % 2 = 1 ∧ 2 * (n : ℤ) ≤ pyRound (a.rmedWidth / o.tsamp) →
        runningMedianNum x o.tsamp a.rmedWidth (.float n) = .error .typeError) := by
    intro x
    unfold runningMedianNum
    simp only [ht, if_false]
    generalize pyRound (a.rmedWidth / o.tsamp) = ws
    by_cases hn : n % 2 = 0
    · refine ⟨fun _ => ?_, fun hc => absurd hc.1 (by omega)⟩
      have h1 : PyNum.Even (.float n) := heven.mpr hn
      have h2 : PyNum.Even (.int n) := hn
      rw [if_pos h1, if_pos h2]
      congr 1
      unfold fastRunningMedianNum fastRunningMedian
      simp only [if_pos (heven.mpr hn), hn, if_true]
      rfl
    · have h1 : ¬ PyNum.Even (.float n) := fun h => hn (heven.mp h)
      have h2 : ¬ PyNum.Even (.int n) := hn
      rw [if_neg h1, if_neg h2]
      have hn0 : 0 < n := by omega
      constructor
      · intro hw
        have hw : ws < 2 * n := by omega
        split_ifs with hpos
        · unfold fastRunningMedianNum fastRunningMedian
          simp only [if_neg (fun h => hn (heven.mp h)), hn, if_false]
          have : ⌊max 1 ((ws.toNat : ℝ) / n)⌋₊ = 1 := by
            rw [scrunchFactor_eq]
            have : ws.toNat / n < 2 := (Nat.div_lt_iff_lt_mul hn0).mpr (by omega)
            omega
          rw [this]
          simp
        · rfl
      · rintro ⟨_, hw⟩
        rw [if_pos (by omega)]
        unfold fastRunningMedianNum
        simp only [if_neg (fun h => hn (heven.mp h))]
        have : ⌊max 1 ((ws.toNat : ℝ) / n)⌋₊ ≠ 1 := by
          rw [scrunchFactor_eq]
          have : 2 ≤ ws.toNat / n := (Nat.le_div_iff_mul_le hn0).mpr (by omega)
          omega
        rw [if_neg this]
  constructor
  · intro h
    unfold rseekRun rseekPeaks tsDereddenNum
    rw [obj_ok_iff.mpr ho]
    simp only [Except.bind]
    rw [(hrm _).1 h]
    rfl
  · intro h
    unfold rseekRun rseekPeaks tsDereddenNum
    rw [obj_ok_iff.mpr ho]
    simp only [Except.bind]
    rw [(hrm _).2 h]

/-- C81. `rseek` succeeds on every series that has two periods of `Pmax`, if the running median of the data exists (C27) and the range
of periods is wider than `3 / (bmin T)` in frequency. -/
theorem C81_rseek_succeeds (idx : IdxRule) (argsort : List ℝ → List ℕ) (fit : List ℝ → List ℝ → ℝ → ℝ) (a : RseekArgs) (w : World) (id : ℕ)
    (o : TsObj) (ho : w.objs[id]? = some o) (hg : GoodSeries w o) (hidx : IdxFor idx ((w.dataOf o).length / a.bmin))
    (hv : PgArgs.Valid ⟨(w.dataOf o).length, o.tsamp, a.pmin, a.pmax, a.bmin, a.bmax⟩) (h2 : 2 * a.pmax ≤ w.lengthOf o)
    (hr : 3 / (a.bmin * w.lengthOf o) < 1 / a.pmin - 1 / a.pmax) (r : List ℝ)
    (hrm : runningMedianNum (w.dataOf o) o.tsamp a.rmedWidth a.rmedMinpts = .ok r) :
    ∃ out, rseekRun idx argsort fit a w id = .ok out := by
  have hlen : (normalised (subtractArrays (w.dataOf o) r)).length = (w.dataOf o).length := by
    rw [normalised, List.length_map, subtract_length (runningMedianNum_length hrm)]
  have hb : (2 : ℝ) ≤ a.bmin := by exact_mod_cast hv.2.2.2.1
  obtain ⟨peaks, hp⟩ := C81_search_and_find idx argsort fit (normalised (subtractArrays (w.dataOf o) r)) o.tsamp a.search a.peaks
    (by rw [hlen]; exact hidx) (by rw [hlen]; exact hv) (by rw [hlen]; exact h2) (by rw [hlen]; exact hr) (by
      show 3 / (a.bmin : ℝ) ≤ 5
      rw [div_le_iff₀ (by linarith)]
      linarith)
  have h3 := rseekPeaks_eq idx argsort fit a w id o ho hg
  rw [hrm] at h3
  simp only [Except.bind] at h3
  rw [hp] at h3
  obtain ⟨⟨w1, p1⟩, h4, h5⟩ := map_ok_inv h3
  unfold rseekRun
  rw [h4]
  simp only [Except.bind]
  split_ifs with he
  · exact ⟨_, rfl⟩
  · rw [obj_ok_iff.mpr ho]
    simp only
    rw [if_neg hg.2.1.ne']
    exact ⟨_, rfl⟩

/-- A series of 20 s, 4800 samples, for which `rseek` succeeds with the default options. -/
theorem rseek_demo (fit : List ℝ → List ℝ → ℝ → ℝ) (smin : ℝ) : ∃ (w : World) (o : TsObj), w.objs[0]? = some o ∧ GoodSeries w o ∧
    (w.dataOf o).length = 4800 ∧ o.tsamp = 1 / 240 ∧ IdxFor float32Idx ((w.dataOf o).length / 240) ∧
    ∃ out, rseekRun float32Idx insArgsort fit { rseekDefaults with smin := smin } w 0 = .ok out := by
  obtain ⟨z, hz⟩ : ∃ z : List ℝ, z = List.replicate 4800 1 := ⟨_, rfl⟩
  obtain ⟨w, hw⟩ : ∃ w : World, w = ⟨[z], [[("tobs", .num 20)]], [⟨0, 1 / 240, 0⟩]⟩ := ⟨_, rfl⟩
  have hdata : w.dataOf ⟨0, 1 / 240, 0⟩ = List.replicate 4800 1 := by rw [hw, ← hz]; rfl
  have hlen : w.lengthOf ⟨0, 1 / 240, 0⟩ = 20 := by
    unfold World.lengthOf
    rw [hdata]
    norm_num
  have hg : GoodSeries w ⟨0, 1 / 240, 0⟩ := by
    refine ⟨by simp [hw], by rw [hlen]; norm_num, ?_⟩
    rw [hlen, hw]
    simp [World.metaOf, List.getD, dictGet]
  have ho : w.objs[0]? = some ⟨0, 1 / 240, 0⟩ := by rw [hw]; rfl
  have hidx : IdxFor float32Idx ((w.dataOf ⟨0, 1 / 240, 0⟩).length / 240) := by
    rw [hdata, List.length_replicate]
    exact Or.inr ⟨Or.inl rfl, by norm_num⟩
  obtain ⟨out, hout⟩ := C27_partial (List.replicate 4800 (1 : ℝ)) 960 101 (by norm_num) (by norm_num) (by norm_num)
  have hr : pyRound (4 / (1 / 240)) = 960 := by norm_num [pyRound]
  have hrm : runningMedianOf (w.dataOf ⟨0, 1 / 240, 0⟩) (1 / 240) 4 101 = .ok out := by
    rw [hdata]
    simp only [runningMedianOf, hr]
    norm_num [liftCall]
    rw [show (Int.toNat 960) = 960 from rfl, hout]
  refine ⟨w, ⟨0, 1 / 240, 0⟩, ho, hg, by rw [hdata, List.length_replicate], rfl, hidx, ?_⟩
  refine C81_rseek_succeeds float32Idx insArgsort fit _ w 0 ⟨0, 1 / 240, 0⟩ ho hg hidx ?_ ?_ ?_ out ?_
  · simp only [rseekDefaults]
    rw [hdata, List.length_replicate]
    refine ⟨?_, ?_, ?_, ?_, ?_, ?_⟩ <;> norm_num
  · simp only [rseekDefaults]
    rw [hlen]; norm_num
  · simp only [rseekDefaults]
    rw [hlen]; norm_num
  · simp only [rseekDefaults]
    rw [runningMedianNum_int]
    exact hrm

/-- C79 is false: `rseek` succeeds on a series of 20 s with all options left out, and stops with `TypeError` if `--rmed_minpts` is given
its default value `101`. -/
theorem C79_false (fit : List ℝ → List ℝ → ℝ → ℝ) (toFloat : String → Option ℝ) (toInt : String → Option ℕ)
    (h101 : toFloat "101" = some 101) :
    ∃ (w : World) (a b : RseekArgs), IsDefaultText toFloat toInt (.rmed_minpts, "101") ∧
      rseekParse toFloat toInt [] = some a ∧ rseekParse toFloat toInt [(.rmed_minpts, "101")] = some b ∧
      (∃ out, rseekRun float32Idx insArgsort fit a w 0 = .ok out) ∧
      rseekRun float32Idx insArgsort fit b w 0 = .error .typeError := by
  obtain ⟨w, o, ho, _, _, hts, _, out, hout⟩ := rseek_demo fit 7
  refine ⟨w, rseekDefaults, { rseekDefaults with rmedMinpts := .float 101 }, h101, rfl, ?_, ⟨out, hout⟩, ?_⟩
  · unfold rseekParse
    rw [List.foldlM_cons]
    unfold setOption
    simp only [h101, Option.map_some]
    rfl
  · have key := (C79_rmed_minpts float32Idx insArgsort fit rseekDefaults w 0 o ho (by rw [hts]; norm_num) 101).2
    have hr : pyRound (rseekDefaults.rmedWidth / o.tsamp) = 960 := by
      rw [hts]
      norm_num [pyRound, rseekDefaults]
    have := key ⟨by norm_num, by rw [hr]; norm_num⟩
    push_cast at this
    exact this

/-- The hypotheses of C80 are met by a run that returns a table: with `--smin -1` every trial is significant. -/
example : ∃ (w : World) (o : TsObj) (table : List (Peak ℝ)), w.objs[0]? = some o ∧ GoodSeries w o ∧
    IdxFor float32Idx ((w.dataOf o).length / 240) ∧
    rseekRun float32Idx insArgsort (fun _ _ _ => -1) { rseekDefaults with smin := -1 } w 0 = .ok (some table) ∧ table ≠ [] := by
  obtain ⟨w, o, ho, hg, hl, hts, hidx, out, hout⟩ := rseek_demo (fun _ _ _ => -1) (-1)
  obtain ⟨r, g, thr, hr, gw, gt, hpg, hthr, hnone, htab⟩ := C80_rseek float32Idx insArgsort insArgsort_ok (fun _ _ _ => -1) _ w 0 o ho hg
    hidx (by norm_num [rseekDefaults]) out hout
  simp only [rseekDefaults] at gw hpg hnone htab
  have hlen : (normalised (subtractArrays (w.dataOf o) r)).length = 4800 := by
    rw [normalised, List.length_map, subtract_length (runningMedianNum_length hr), hl]
  have hidx' : IdxFor float32Idx ((normalised (subtractArrays (w.dataOf o) r)).length / 240) := by rw [hlen, ← hl]; exact hidx
  have hwv : ∀ wd ∈ g.widths, 0 < wd ∧ wd < 240 := by
    rw [gw]; exact C24_widths_valid 240 (by norm_num) (3 / 10) (3 / 2) (by norm_num) 240 le_rfl
  have hne : g.widths ≠ [] := by
    rw [gw]
    intro hc
    have := (C24_width_trials 240 (3 / 10 : ℝ) (3 / 2)).2.1
    rw [hc] at this
    simp at this
  have hw0 : 0 < g.widths.length := List.length_pos_iff.mpr hne
  obtain ⟨_, k2, k3, k4⟩ := (C17_outputs_filled_exactly float32Idx _ o.tsamp _ hne _ _ _ _ hidx').2 _ _ _ hpg
  obtain ⟨per, fb, snr, hpg', hhead, _⟩ := C81_resolution float32Idx (normalised (subtractArrays (w.dataOf o) r)) o.tsamp g.widths hne
    1 10 240 260 hidx' (by rw [hlen, hts]; refine ⟨?_, ?_, ?_, ?_, ?_, ?_⟩ <;> norm_num) (by rw [hlen, hts]; norm_num)
  rw [hpg] at hpg'
  simp only [Except.ok.injEq, Prod.mk.injEq] at hpg'
  have hp0 : 0 < g.periods.length := by
    rw [hpg'.1]
    cases per with
    | nil => simp at hhead
    | cons _ _ => simp
  have hs0 : 0 < g.snrs.length := by omega
  obtain ⟨v, hv, hv0, _⟩ := C77_snr_range float32Idx _ o.tsamp g.widths hne _ _ _ _ hidx' (by rw [hlen]; norm_num) hwv _ _ _ hpg g.snrs[0]
    (List.getElem_mem hs0) 0 hw0
  have hsnr : snrAt g 0 0 = v := by
    simp only [snrAt, List.getD, List.getElem?_eq_getElem hs0, Option.getD_some, hv]
  have hgen : ∀ (p : PeakParams ℝ) (t : ℝ → ℝ), p.smin = -1 → thresholdOf (fun _ _ _ => -1) p g 0 = .ok t → t = fun _ => -1 := by
    intro p t hp ht
    unfold thresholdOf dynThreshold at ht
    obtain ⟨⟨fc, smed, sstd⟩, _, h3⟩ := map_ok_inv ht
    rw [← h3]
    simp only
    split_ifs
    · rfl
    · rw [hp]
  have hthr0 : thr 0 = fun _ => -1 := hgen _ _ rfl (hthr 0 hw0)
  have hsig : SignificantAny g thr (-1) (0, 0) := by
    refine ⟨hw0, hp0, ?_, ?_⟩
    · simp only
      rw [hthr0, hsnr]
      simp only
      linarith
    · simp only
      rw [hsnr]
      linarith
  cases hout' : out with
  | none => exact absurd hsig (hnone.mp hout' _)
  | some table => exact ⟨w, o, table, ho, hg, hidx, by rw [hout, hout'], (htab table hout').1⟩

end Verif.Props
