import Mathlib.Order.Bounds.Basic
import Verif.Model.Candidate
import Verif.Props.Fold
import Verif.Props.Ranges
import Verif.Props.ClusterTable

/-!
# C70, C71, C72: candidates
-/

namespace Verif.Props

open Verif.Model Verif.Spec Finset

/-! ## C70 -/

/-- The number of sub-integrations of a candidate: what was asked for if so many periods fit, otherwise all that fit. -/
noncomputable def candSubints (subints : Option ℤ) (period L : ℝ) : ℤ :=
  match subints with
  | some s => if (s : ℝ) * period < L then s else ⌊L / period⌋₊
  | none => ⌊L / period⌋₊

theorem subintsToFold_getD (subints : Option ℤ) (period L : ℝ) :
    (subintsToFold subints period L).getD ⌊L / period⌋₊ = candSubints subints period L := by
  unfold subintsToFold candSubints
  cases subints with
  | none => rfl
  | some s =>
    by_cases h : (s : ℝ) * period < L
    · simp [h, not_le.mpr h]
    · simp [h, not_lt.mp h]

theorem profile_eq_integrated (bins : ℕ) (out : NdArray)
    (h : (∃ y, out = .d1 y) ∨ ∃ rows, out = .d2 rows ∧ rows ≠ [] ∧ ∀ row ∈ rows, row.length = bins) (p : HPeak ℝ) (t : ℕ) (l : List (HPeak ℝ)) :
    (CandObj.mk p t l out).profile = integrated bins out := by
  rcases h with ⟨y, rfl⟩ | ⟨rows, rfl, hne, hl⟩
  · rfl
  · cases rows with
    | nil => exact absurd rfl hne
    | cons r rs =>
      have : r.length = bins := hl r (by simp)
      simp [CandObj.profile, integrated, column, this]

/-- **C70.** A cluster of the pipeline can be turned into a candidate exactly if its period fits into the data and is resolved by
the requested number of bins, whatever number of sub-integrations is asked for. The candidate carries the parameters of the brightest
peak, the metadata of the time series and all peaks of the cluster. It has the requested number of sub-integrations if so many periods
fit into the data, otherwise as many as there are whole periods; a single one gives a one-dimensional array. The profile is the
sum over all whole periods, independent of the number of sub-integrations. -/
theorem C70_candidate (w : World) (id : ℕ) (o : TsObj) (ho : w.objs[id]? = some o) (t : ℝ) (ht : 0 < t)
    (htobs : dictGet (w.metaOf o) "tobs" = some (.num t)) (hts : 0 < o.tsamp) (cl : PCluster ℝ) (c : HPeak ℝ) (hc : cl.centre = .ok c)
    (bins : ℕ) (hb : 0 < bins) (subints : Option ℤ) (hs : ∀ s, subints = some s → 1 ≤ s) :
    let x := w.dataOf o
    let L := (x.length : ℝ) * o.tsamp
    let m := ⌊L / c.period⌋₊
    let f := c.period / bins / o.tsamp
    let accepted := c.period ≤ L ∧ o.tsamp < c.period / bins
    let n := candSubints subints c.period L
    (¬ accepted → fromPipelineOutput w id cl bins subints = .error .valueError) ∧
    (accepted → ∃ w' cand, fromPipelineOutput w id cl bins subints = .ok (w', cand) ∧
      cand.params = c ∧ cand.tsmeta = o.metadata ∧ cand.peaks = cl.peaks ∧ 1 ≤ n ∧
      ((n = 1 ∧ ∃ y, cand.subints = .d1 y ∧ y.length = bins) ∨
       (n ≠ 1 ∧ ∃ rows r, cand.subints = .d2 rows ∧ ((r : ℕ) : ℤ) = n ∧ IsSubints m bins r (foldValue x f bins m) rows)) ∧
      cand.profile = (List.range bins).map (fun j => ∑ i ∈ range m, foldValue x f bins m i j)) := by
  intro x L m f accepted n
  have hobj : w.obj id = .ok o := obj_ok_iff.mpr ho
  have hpos : o.tsamp < c.period / bins → (0 : ℝ) < c.period := by
    intro h
    have hb0 : (0 : ℝ) < bins := by positivity
    by_contra hcon
    have : c.period / bins ≤ 0 := div_nonpos_of_nonpos_of_nonneg (not_lt.mp hcon) hb0.le
    linarith
  obtain ⟨h1, h2⟩ := C38_shape_and_flux w id o ho t ht htobs hts c.period bins hb (subintsToFold subints c.period (w.lengthOf o))
  have hL : w.lengthOf o = L := rfl
  have hn : (subintsToFold subints c.period L).getD m = n := subintsToFold_getD _ _ _
  have hexp : fromPipelineOutput w id cl bins subints =
      (tsFold w id c.period bins (subintsToFold subints c.period (w.lengthOf o))).map
        (fun r => (r.1, { params := c, tsmeta := o.metadata, peaks := cl.peaks, subints := r.2 })) := by
    unfold fromPipelineOutput
    rw [hc, hobj]
    rfl
  constructor
  · intro hna
    rw [hexp, h1 (fun h => hna ⟨h.1, h.2.1⟩)]
    rfl
  · rintro ⟨ha, hb'⟩
    have hp := hpos hb'
    have hm1 : (1 : ℝ) ≤ L / c.period := (one_le_div hp).mpr ha
    have hm : 1 ≤ m := Nat.le_floor (by simpa using hm1)
    have hn1 : 1 ≤ n := by
      show 1 ≤ candSubints subints c.period L
      unfold candSubints
      cases subints with
      | none =>
        show (1 : ℤ) ≤ (m : ℤ)
        exact_mod_cast hm
      | some s =>
        show (1 : ℤ) ≤ if _ then _ else _
        split_ifs
        · exact hs s rfl
        · exact_mod_cast hm
    obtain ⟨w', out, h3, h4, h5⟩ := h2 (by
      refine ⟨ha, hb', fun s hs' => ?_⟩
      unfold subintsToFold at hs'
      cases subints with
      | none => cases hs'
      | some s' =>
        simp only at hs'
        split_ifs at hs' with h6
        cases hs'
        refine ⟨hs s rfl, ?_⟩
        rw [le_div_iff₀ hp]
        exact (not_le.mp h6).le)
    rw [hL] at h3
    refine ⟨w', ⟨c, o.metadata, cl.peaks, out⟩, ?_, rfl, rfl, rfl, hn1, ?_, ?_⟩
    · rw [hexp, hL, h3]
      rfl
    · rw [← hn]
      exact h4
    · rw [profile_eq_integrated bins out _ c o.metadata cl.peaks, h5]
      rcases h4 with ⟨_, y, hy, _⟩ | ⟨hn', rows, r, hr, hr', hsub⟩
      · exact Or.inl ⟨y, hy⟩
      · refine Or.inr ⟨rows, hr, ?_, hsub.2.1⟩
        rintro rfl
        have h0 : r = 0 := hsub.1.symm
        rw [hL] at hr'
        change ((r : ℕ) : ℤ) = (subintsToFold subints c.period L).getD m at hr'
        rw [hn, h0] at hr'
        omega

/-- The same time series and cluster give the same profile for any two numbers of sub-integrations. -/
theorem C70_profile_independent_of_subints (w : World) (id : ℕ) (o : TsObj) (ho : w.objs[id]? = some o) (t : ℝ) (ht : 0 < t)
    (htobs : dictGet (w.metaOf o) "tobs" = some (.num t)) (hts : 0 < o.tsamp) (cl : PCluster ℝ) (bins : ℕ) (hb : 0 < bins)
    (s₁ s₂ : Option ℤ) (h₁ : ∀ s, s₁ = some s → 1 ≤ s) (h₂ : ∀ s, s₂ = some s → 1 ≤ s) (w₁ w₂ : World) (c₁ c₂ : CandObj ℝ)
    (e₁ : fromPipelineOutput w id cl bins s₁ = .ok (w₁, c₁)) (e₂ : fromPipelineOutput w id cl bins s₂ = .ok (w₂, c₂)) :
    c₁.profile = c₂.profile ∧ c₁.params = c₂.params ∧ c₁.peaks = c₂.peaks := by
  obtain ⟨c, hc, _⟩ := bind_ok_inv e₁
  obtain ⟨a1, b1⟩ := C70_candidate w id o ho t ht htobs hts cl c hc bins hb s₁ h₁
  obtain ⟨a2, b2⟩ := C70_candidate w id o ho t ht htobs hts cl c hc bins hb s₂ h₂
  have k1 := by_contra fun hc => by rw [a1 hc] at e₁; cases e₁
  obtain ⟨_, _, q1, p1, _, l1, _, _, r1⟩ := b1 k1
  obtain ⟨_, _, q2, p2, _, l2, _, _, r2⟩ := b2 k1
  rw [e₁] at q1
  rw [e₂] at q2
  cases q1
  cases q2
  exact ⟨by rw [r1, r2], by rw [p1, p2], by rw [l1, l2]⟩

/-- With validated ranges, a cluster inside the searched periods gets its candidate, in the bins of the range that contains its
period. (`hstrict`: a period that is exactly `candidates.bins` samples long is accepted by the validation and cannot be
folded, see `C37_false`.) -/
theorem C70_validated_ranges (ranges : List (SearchRange ℝ)) (hne : ranges ≠ []) (subintsOf : SearchRange ℝ → Option ℤ)
    (tsMax : ℝ) (hv : validateRanges ranges tsMax = .ok ()) (hr : ∀ r ∈ ranges, r.pmin < r.pmax ∧ 0 < r.candBins)
    (hs : ∀ r ∈ ranges, ∀ s, subintsOf r = some s → 1 ≤ s)
    (w : World) (id : ℕ) (o : TsObj) (ho : w.objs[id]? = some o) (t : ℝ) (ht : 0 < t)
    (htobs : dictGet (w.metaOf o) "tobs" = some (.num t)) (hts : 0 < o.tsamp) (hstrict : o.tsamp < tsMax)
    (cl : PCluster ℝ) (c : HPeak ℝ) (hc : cl.centre = .ok c) (hlo : (ranges.head hne).pmin ≤ c.period)
    (hhi : c.period < (ranges.getLast hne).pmax) (hlen : c.period ≤ (w.dataOf o).length * o.tsamp) :
    ∃ r ∈ ranges, r.pmin ≤ c.period ∧ c.period < r.pmax ∧ ∃ w' cand,
      makeCandidate ranges subintsOf w id cl = .ok (w', cand) ∧ cand.params = c ∧ cand.profile.length = r.candBins := by
  obtain ⟨_, hv1, hv2⟩ := bind_ok_inv hv
  obtain ⟨i, hi, h1, h2, h3, _⟩ := (C36_right_range ranges hne hv2 (fun r h => (hr r h).1) c.period).1 hlo hhi
  have hmem := List.getElem_mem hi
  obtain ⟨_, h4⟩ := validateRange_ok (validateRangeLoop_ok hv1 _ hmem)
  have hcb := (hr _ hmem).2
  have hc0 : (0 : ℝ) < (ranges[i]).candBins := by exact_mod_cast hcb
  obtain ⟨w', cand, h5, h6, _, _, _, _, h7⟩ := (C70_candidate w id o ho t ht htobs hts cl c hc _ hcb _ (hs _ hmem)).2 (by
    refine ⟨hlen, ?_⟩
    rw [lt_div_iff₀ hc0]
    have h8 : (ranges[i].candBins : ℝ) * tsMax ≤ c.period := h4.trans h2
    nlinarith)
  refine ⟨_, hmem, h2, h3, w', cand, ?_, h6, by simp [h7]⟩
  unfold makeCandidate
  rw [hc]
  simp only [Except.bind, h1]
  exact h5

/-- A time series of 60 samples. -/
noncomputable def candWorld : World := ⟨[List.replicate 60 1], [[("tobs", .num 60)]], [⟨0, 1, 0⟩]⟩

theorem candWorld_tobs : dictGet (candWorld.metaOf ⟨0, 1, 0⟩) "tobs" = some (.num 60) := by
  simp [candWorld, World.metaOf, List.getD, dictGet]

theorem candWorld_length : (candWorld.dataOf ⟨0, 1, 0⟩).length = 60 := by simp [candWorld, World.dataOf, List.getD]

/-- A peak at a period of ten samples. -/
noncomputable def candPeak : HPeak ℝ := { period := 10, freq := 1 / 10, ducy := 1 / 4, snr := 9, dm := 3 }

theorem candPeak_centre : (PCluster.mk [candPeak] none none none).centre = .ok candPeak := rfl

/-- Period 10 in 4 bins: seven sub-integrations do not fit, six remain. -/
example : candSubints (some 7) candPeak.period 60 = 6 := by
  have : ⌊((60 : ℝ) / (10 : ℝ))⌋₊ = 6 := by norm_num
  norm_num [candSubints, candPeak, this]

example : ∃ w' cand, fromPipelineOutput candWorld 0 ⟨[candPeak], none, none, none⟩ 4 (some 7) = .ok (w', cand) ∧
    cand.profile.length = 4 := by
  obtain ⟨w', cand, h, _, _, _, _, _, h2⟩ := (C70_candidate candWorld 0 ⟨0, 1, 0⟩ rfl 60 (by norm_num) candWorld_tobs (by norm_num)
    ⟨[candPeak], none, none, none⟩ candPeak candPeak_centre 4 (by norm_num) (some 7) (by rintro s ⟨⟩; norm_num)).2
    (by rw [candWorld_length]; norm_num [candPeak])
  exact ⟨w', cand, h, by simp [h2]⟩

/-! ## C71 -/

/-- **C71**, the part that holds: the plot of a candidate gets past its sub-integrations exactly if there are at least two. -/
theorem C71_plot_partial (w : World) (id : ℕ) (o : TsObj) (ho : w.objs[id]? = some o) (t : ℝ) (ht : 0 < t)
    (htobs : dictGet (w.metaOf o) "tobs" = some (.num t)) (hts : 0 < o.tsamp) (cl : PCluster ℝ) (c : HPeak ℝ) (hc : cl.centre = .ok c)
    (bins : ℕ) (hb : 0 < bins) (subints : Option ℤ) (hs : ∀ s, subints = some s → 1 ≤ s) (w' : World) (cand : CandObj ℝ)
    (h : fromPipelineOutput w id cl bins subints = .ok (w', cand)) :
    let L := ((w.dataOf o).length : ℝ) * o.tsamp
    (cand.plot = .ok () ↔ 2 ≤ candSubints subints c.period L) ∧
    (cand.plot = .error .valueError ↔ candSubints subints c.period L = 1) := by
  intro L
  obtain ⟨a, b⟩ := C70_candidate w id o ho t ht htobs hts cl c hc bins hb subints hs
  have k := by_contra fun hc => by rw [a hc] at h; cases h
  obtain ⟨_, _, q, _, _, _, hn, hcase, _⟩ := b k
  rw [h] at q
  cases q
  unfold CandObj.plot
  change 1 ≤ candSubints subints c.period L at hn
  rcases hcase with ⟨h1, y, hy, _⟩ | ⟨h1, rows, r, hr, _⟩
  · change candSubints subints c.period L = 1 at h1
    rw [hy]
    show ((Except.error PyErr.valueError : Except PyErr Unit) = .ok () ↔ _) ∧ (Except.error PyErr.valueError = _ ↔ _)
    rw [h1]
    simp
  · change candSubints subints c.period L ≠ 1 at h1
    rw [hr]
    show ((Except.ok () : Except PyErr Unit) = .ok () ↔ _) ∧ ((Except.ok () : Except PyErr Unit) = .error _ ↔ _)
    simp only [true_iff, reduceCtorEq, false_iff]
    exact ⟨by omega, h1⟩

/-- **C71 is false:** with one sub-integration (the default of `from_pipeline_output`, and a documented value of the configuration)
the candidate is built, but cannot be plotted. -/
theorem C71_false : ∃ (w : World) (cl : PCluster ℝ) (w' : World) (cand : CandObj ℝ),
    fromPipelineOutput w 0 cl 4 (some 1) = .ok (w', cand) ∧ cand.plot = .error .valueError := by
  obtain ⟨w', cand, h, _⟩ := (C70_candidate candWorld 0 ⟨0, 1, 0⟩ rfl 60 (by norm_num) candWorld_tobs (by norm_num)
    ⟨[candPeak], none, none, none⟩ candPeak candPeak_centre 4 (by norm_num) (some 1) (by rintro s ⟨⟩; norm_num)).2
    (by rw [candWorld_length]; norm_num [candPeak])
  refine ⟨_, _, w', cand, h, ?_⟩
  refine (C71_plot_partial candWorld 0 ⟨0, 1, 0⟩ rfl 60 (by norm_num) candWorld_tobs (by norm_num)
    ⟨[candPeak], none, none, none⟩ candPeak candPeak_centre 4 (by norm_num) (some 1) (by rintro s ⟨⟩; norm_num) w' cand h).2.mpr ?_
  rw [candWorld_length]
  norm_num [candSubints, candPeak]

/-! ## C72 -/

theorem foldl_max_isGreatest {K : Type*} [LinearOrder K] (l : List K) (s : K) : IsGreatest {x | x ∈ s :: l} (l.foldl max s) := by
  induction l generalizing s with
  | nil => exact ⟨by simp, by intro x hx; simp only [List.mem_singleton, Set.mem_ofPred_eq] at hx; simp [hx]⟩
  | cons a l ih =>
    obtain ⟨h1, h2⟩ := ih (max s a)
    rw [List.foldl_cons]
    constructor
    · simp only [Set.mem_ofPred_eq, List.mem_cons] at h1 ⊢
      rcases h1 with h | h
      · rw [h]
        rcases max_choice s a with h' | h' <;> simp [h']
      · exact Or.inr (Or.inr h)
    · intro x hx
      simp only [Set.mem_ofPred_eq, List.mem_cons] at hx
      have h3 : max s a ≤ l.foldl max (max s a) := h2 (by simp)
      rcases hx with rfl | rfl | hx
      · exact (le_max_left _ _).trans h3
      · exact (le_max_right _ _).trans h3
      · exact h2 (by simp [hx])

theorem mem_groupKeys {K : Type*} [LinearOrder K] (peaks : List (HPeak K)) (d : K) : d ∈ groupKeys peaks ↔ ∃ p ∈ peaks, p.dm = d := by
  simp [groupKeys, List.mem_mergeSort]

/-- **C72.** The DM curve of a candidate: strictly increasing DMs, exactly those of the peaks of the candidate; for each the largest
S/N of the peaks at this DM. -/
theorem C72_dm_curve {K : Type*} [LinearOrder K] [Zero K] (c : CandObj K) :
    (c.dmCurve.map (·.1)).Pairwise (· < ·) ∧
    (∀ d, d ∈ c.dmCurve.map (·.1) ↔ ∃ p ∈ c.peaks, p.dm = d) ∧
    (∀ q ∈ c.dmCurve, IsGreatest {s | ∃ p ∈ c.peaks, p.dm = q.1 ∧ p.snr = s} q.2) := by
  have hkeys : c.dmCurve.map (·.1) = groupKeys c.peaks := by
    simp [CandObj.dmCurve, Function.comp_def]
  refine ⟨?_, ?_, ?_⟩
  · rw [hkeys]
    have hs : (groupKeys c.peaks).Pairwise (· ≤ ·) := by
      have := List.pairwise_mergeSort (le := fun a b : K => decide (a ≤ b))
        (by intro a b c h1 h2; simp only [decide_eq_true_eq] at *; exact h1.trans h2)
        (by intro a b; simp only [Bool.or_eq_true, decide_eq_true_eq]; exact le_total a b) ((c.peaks.map (·.dm)).dedup)
      simpa [groupKeys] using this
    have hn : (groupKeys c.peaks).Nodup :=
      (List.mergeSort_perm _ _).nodup_iff.mpr (List.nodup_dedup _)
    exact hs.imp₂ (fun a b h1 h2 => lt_of_le_of_ne h1 h2) hn
  · intro d
    rw [hkeys, mem_groupKeys]
  · intro q hq
    obtain ⟨d, hd, rfl⟩ := List.mem_map.mp hq
    obtain ⟨p, hp, hpd⟩ := (mem_groupKeys _ _).mp hd
    have hset : ({s | ∃ p ∈ c.peaks, p.dm = d ∧ p.snr = s} : Set K) =
        {s | s ∈ (c.peaks.filter (fun p => decide (p.dm = d))).map (·.snr)} := by
      ext s
      simp [and_assoc]
    show IsGreatest {s | ∃ p ∈ c.peaks, p.dm = d ∧ p.snr = s} (groupMax c.peaks d)
    rw [hset]
    unfold groupMax
    cases hcase : (c.peaks.filter (fun p => decide (p.dm = d))).map (·.snr) with
    | nil =>
      have : p.snr ∈ (c.peaks.filter (fun p => decide (p.dm = d))).map (·.snr) :=
        List.mem_map.mpr ⟨p, List.mem_filter.mpr ⟨hp, by simpa using hpd⟩, rfl⟩
      rw [hcase] at this
      cases this
    | cons s l => exact foldl_max_isGreatest l s

/-- The DM curve of a candidate peaks at the DM and S/N of the candidate. -/
theorem C72_peak_of_curve (w : World) (id : ℕ) (cl : PCluster ℝ) (bins : ℕ) (subints : Option ℤ) (w' : World) (cand : CandObj ℝ)
    (h : fromPipelineOutput w id cl bins subints = .ok (w', cand)) :
    (cand.params.dm, cand.params.snr) ∈ cand.dmCurve ∧ ∀ q ∈ cand.dmCurve, q.2 ≤ cand.params.snr := by
  obtain ⟨c, hc, h⟩ := bind_ok_inv h
  obtain ⟨o, ho, h⟩ := bind_ok_inv h
  obtain ⟨r, _, h⟩ := map_ok_inv h
  cases h
  obtain ⟨pre, post, e, h1, h2⟩ := ((C67_centre cl).1 c).mp hc
  have hmem : c ∈ cl.peaks := by rw [e]; simp
  have hmax : ∀ p ∈ cl.peaks, p.snr ≤ c.snr := by
    intro p hp
    rw [e, List.mem_append, List.mem_cons] at hp
    rcases hp with hp | rfl | hp
    · exact (h1 p hp).le
    · exact le_refl _
    · exact h2 p hp
  obtain ⟨_, k2, k3⟩ := C72_dm_curve ⟨c, o.metadata, cl.peaks, r.2⟩
  constructor
  · obtain ⟨q, hq, hq1⟩ := List.mem_map.mp ((k2 c.dm).mpr ⟨c, hmem, rfl⟩)
    obtain ⟨⟨p, hp, _, hp2⟩, hub⟩ := k3 q hq
    have h3 : c.snr ≤ q.2 := hub ⟨c, hmem, hq1.symm, rfl⟩
    have h4 : q.2 = c.snr := le_antisymm (hp2 ▸ hmax p hp) h3
    have : q = (c.dm, c.snr) := Prod.ext hq1 h4
    exact this ▸ hq
  · intro q hq
    obtain ⟨⟨p, hp, _, hp2⟩, _⟩ := k3 q hq
    exact hp2 ▸ hmax p hp

/-- Three peaks at two DMs. -/
example : ∃ c : CandObj ℚ, c.dmCurve.map (·.1) = [2, 3] ∧ c.dmCurve.map (·.2) = [7, 9] := by
  let p : HPeak ℚ := { period := 10, freq := 1 / 10, ducy := 1 / 4, snr := 9, dm := 3 }
  let c : CandObj ℚ := ⟨p, 0, [p, { p with dm := 2, snr := 7 }, { p with snr := 8 }], .d1 []⟩
  have hk : groupKeys c.peaks = [2, 3] := by
    have hd : (c.peaks.map (·.dm)).dedup = [2, 3] := by decide +kernel
    unfold groupKeys
    rw [hd]
    exact List.mergeSort_of_pairwise (by simp; norm_num)
  refine ⟨c, ?_, ?_⟩
  · unfold CandObj.dmCurve
    rw [hk]
    rfl
  · unfold CandObj.dmCurve
    rw [hk]
    decide +kernel

end Verif.Props
