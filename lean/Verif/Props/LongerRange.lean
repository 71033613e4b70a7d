import Verif.Props.Search
import Verif.Props.SegmentsF

/-!
# C136: the result at a trial period does not depend on the longest period of the search
-/

namespace Verif.Props

open Verif.Model Verif.Lemmas Verif.Spec

/-- Of a list sorted by `g`, the elements with `g` below `c` are the first ones. -/
theorem filter_sorted {β : Type*} (g : β → ℝ) (c : ℝ) : ∀ {l : List β}, l.Pairwise (fun x y => g x < g y) →
    l.filter (fun x => decide (g x < c)) = l.take (l.filter fun x => decide (g x < c)).length ∧ ∀ x ∈ l.drop (l.filter fun x => decide (g x < c)).length, c ≤ g x := by
  intro l
  induction l with
  | nil => simp
  | cons x l ih =>
    intro h
    obtain ⟨h1, h2⟩ := List.pairwise_cons.1 h
    obtain ⟨h3, h4⟩ := ih h2
    by_cases hx : g x < c
    · rw [List.filter_cons_of_pos (by simpa using hx), List.length_cons, List.take_succ_cons, List.drop_succ_cons, ← h3]
      exact ⟨rfl, h4⟩
    · have e : l.filter (fun x => decide (g x < c)) = [] := by
        rw [List.filter_eq_nil_iff]
        intro y hy
        have := h1 y hy
        simp only [decide_eq_true_eq, not_lt]
        linarith
      rw [List.filter_cons_of_neg (by simpa using hx), e]
      refine ⟨by simp, fun y hy => ?_⟩
      rw [List.length_nil, List.drop_zero] at hy
      rcases List.mem_cons.1 hy with rfl | hy
      · linarith
      · have := h1 y hy
        linarith

theorem ceilshift_mono {rows cols : ℕ} {p q : ℝ} (hr : 1 ≤ rows) (hp : 0 < p) (h : p ≤ q) : ceilshift rows cols p ≤ ceilshift rows cols q := by
  unfold ceilshift
  apply Nat.ceil_mono
  have hr' : (0 : ℝ) ≤ (rows : ℝ) - 1 := by
    have : (1 : ℝ) ≤ rows := by exact_mod_cast hr
    linarith
  apply mul_le_mul_of_nonneg_left _ (mul_nonneg (Nat.cast_nonneg _) hr')
  have := div_le_div_of_nonneg_left (Nat.cast_nonneg (α := ℝ) cols) hp h
  linarith

section
variable {a : PgArgs} (hv : a.Valid) {pmax : ℝ} (hp : a.pmin < pmax) (hle : pmax ≤ a.pmax)
include hv hp hle

/-- The trials of the shorter range are those of the longer one with a period in the shorter range. -/
theorem trials_shorter {ids b s : ℕ} : (ids, b, s) ∈ trials { a with pmax := pmax } ↔ (ids, b, s) ∈ trials a ∧ perOf a (ids, b, s) < pmax := by
  have hv' : ({ a with pmax := pmax } : PgArgs).Valid := ⟨hv.1, hv.2.1, hp, hv.2.2.2.1, hv.2.2.2.2.1, hv.2.2.2.2.2⟩
  have htau : 0 < a.tau ids := tau_pos hv ids
  have hpos : 0 < pmax := hv.2.1.trans hp
  have hsam : PgArgs.pmaxSamples { a with pmax := pmax } ids = pmax / a.tau ids := rfl
  have hmono : pmax / a.tau ids ≤ a.pmaxSamples ids := div_le_div_of_nonneg_right hle htau.le
  have hspos : 0 < pmax / a.tau ids := div_pos hpos htau
  constructor
  · intro ht
    refine ⟨?_, per_lt_pmax hv' ht⟩
    obtain ⟨h2, -⟩ := trial_facts hv' ht
    have h2' : 2 ≤ a.n ids / b := h2
    rw [mem_trials] at ht ⊢
    obtain ⟨t1, t2, t3, t4⟩ := ht
    refine ⟨?_, t2, ?_, ?_⟩
    · rw [lt_numDs hv]
      exact lt_of_lt_of_le ((lt_numDs hv').1 t1) hle
    · exact t3.trans (min_le_min le_rfl (Nat.floor_mono hmono))
    · refine lt_of_lt_of_le t4 (min_le_min le_rfl ?_)
      exact ceilshift_mono (by omega) (lt_min hspos (by positivity)) (min_le_min hmono le_rfl)
  · rintro ⟨ht, hper⟩
    obtain ⟨h2, h3, h4, h5⟩ := trial_facts hv ht
    have hge := per_ge hv ht
    have hden := denom_pos hv ht
    rw [mem_trials] at ht ⊢
    obtain ⟨t1, t2, t3, t4⟩ := ht
    have hb : (a.bmin : ℝ) ≤ b := by exact_mod_cast t2
    refine ⟨?_, t2, ?_, ?_⟩
    · rw [lt_numDs hv']
      show a.tau ids * a.bmin < pmax
      have := mul_le_mul_of_nonneg_left hb htau.le
      linarith
    · refine le_min (t3.trans (min_le_left _ _)) (Nat.le_floor ?_)
      rw [hsam, le_div_iff₀ htau]
      linarith
    · refine lt_min (lt_of_lt_of_le t4 (min_le_left _ _)) ?_
      have h6 : s < ceilshift (a.n ids / b) b (a.periodCeil ids b) := lt_of_lt_of_le t4 (min_le_right _ _)
      have h7 : s < ceilshift (a.n ids / b) b (pmax / a.tau ids) := by
        unfold ceilshift
        rw [Nat.lt_ceil]
        unfold perOf at hper
        simp only at hper
        rw [div_lt_iff₀ hden] at hper
        generalize a.n ids / b = m at *
        have hm : (0 : ℝ) < (m : ℝ) - 1 := by
          have : (2 : ℝ) ≤ m := by exact_mod_cast h2
          linarith
        rw [div_div_eq_mul_div]
        have e1 : (b : ℝ) * a.tau ids / pmax * b < (b : ℝ) - s / ((m : ℝ) - 1) := by
          rw [div_mul_eq_mul_div, div_lt_iff₀ hpos]
          linarith
        have e2 : (s : ℝ) / ((m : ℝ) - 1) < b * (1 - b * a.tau ids / pmax) := by linarith
        rw [div_lt_iff₀ hm] at e2
        linarith
      show s < ceilshift (a.n ids / b) b (min (pmax / a.tau ids) ((b : ℝ) + 1))
      rcases le_total (pmax / a.tau ids) ((b : ℝ) + 1) with h | h
      · rw [min_eq_left h]; exact h7
      · rw [min_eq_right h]
        refine lt_of_lt_of_le h6 (ceilshift_mono (by omega) ?_ (min_le_right _ _))
        exact lt_min (hspos.trans_le hmono) (by positivity)

theorem trials_filter : trials { a with pmax := pmax } = (trials a).filter fun t => decide (perOf a t < pmax) := by
  have hv' : ({ a with pmax := pmax } : PgArgs).Valid := ⟨hv.1, hv.2.1, hp, hv.2.2.2.1, hv.2.2.2.2.1, hv.2.2.2.2.2⟩
  have s1 : (trials { a with pmax := pmax }).Pairwise (fun t t' => perOf a t < perOf a t') := trials_sorted hv'
  have s2 : ((trials a).filter fun t => decide (perOf a t < pmax)).Pairwise (fun t t' => perOf a t < perOf a t') := (trials_sorted hv).filter _
  have nd : ∀ {l : List (ℕ × ℕ × ℕ)}, l.Pairwise (fun t t' => perOf a t < perOf a t') → l.Nodup := fun h => h.imp fun h e => by rw [e] at h; exact lt_irrefl _ h
  refine List.Perm.eq_of_pairwise (le := fun t t' => perOf a t < perOf a t') (fun x y _ _ h1 h2 => absurd h1 h2.not_gt) s1 s2 ?_
  rw [List.perm_ext_iff_of_nodup (nd s1) (nd s2)]
  rintro ⟨i, b, s⟩
  rw [trials_shorter hv hp hle, List.mem_filter]
  simp

end

/-- C136. If a search up to the period `pmax'` succeeds, then so does a search up to a shorter period `pmax`, and its trial periods, numbers of bins and S/N values are exactly the
first `k` of the longer search; all others of the longer search have periods of at least `pmax`. -/
theorem C136_periodogram (idx : IdxRule) (data : List ℝ) (tsamp : ℝ) (widths : List ℕ) (hne : widths ≠ []) (pmin pmax pmax' : ℝ) (bmin bmax : ℕ)
    (hidx : IdxFor idx (data.length / bmin)) (hp : pmin < pmax) (hle : pmax ≤ pmax') (per' : List ℝ) (fb' : List ℕ) (snr' : List (List ℝ))
    (h : periodogramBinding idx data tsamp widths pmin pmax' bmin bmax = .ok (per', fb', snr')) :
    ∃ k, periodogramBinding idx data tsamp widths pmin pmax bmin bmax = .ok (per'.take k, fb'.take k, snr'.take k) ∧
      (∀ p ∈ per'.take k, p < pmax) ∧ ∀ p ∈ per'.drop k, pmax ≤ p := by
  obtain ⟨a, ha, hv, hall, rfl, rfl, rfl⟩ := pg_ok_inv hne hidx h
  obtain ⟨-, -, h3⟩ := periodogramBinding_eq idx data tsamp widths hne pmin pmax bmin bmax _ rfl hidx.ok
  have ea : (⟨data.length, tsamp, pmin, pmax, bmin, bmax⟩ : PgArgs) = { a with pmax := pmax } := by rw [ha]
  have e1 : a.pmin = pmin := by rw [ha]
  have e2 : a.pmax = pmax' := by rw [ha]
  rw [← e1] at hp
  rw [← e2] at hle
  have hv' : ({ a with pmax := pmax } : PgArgs).Valid := ⟨hv.1, hv.2.1, hp, hv.2.2.2.1, hv.2.2.2.2.1, hv.2.2.2.2.2⟩
  rw [ea] at h3
  have h4 := h3 hv' (fun i hi => hall i ((lt_numDs hv).2 (lt_of_lt_of_le ((lt_numDs hv').1 hi) hle)))
  obtain ⟨f1, f2⟩ := filter_sorted (perOf a) pmax (trials_sorted hv)
  rw [← trials_filter hv hp hle] at f1 f2
  refine ⟨(trials { a with pmax := pmax }).length, ?_, ?_, ?_⟩
  · rw [h4, ← List.map_take, ← List.map_take, ← List.map_take, ← f1]
    rfl
  · rw [← List.map_take, ← f1]
    intro p hp'
    obtain ⟨⟨i, b, s⟩, ht, rfl⟩ := List.mem_map.1 hp'
    exact ((trials_shorter hv hp hle).1 ht).2
  · rw [← List.map_drop]
    intro p hp'
    obtain ⟨t, ht, rfl⟩ := List.mem_map.1 hp'
    exact f2 t ht

/-- C136, for `ffa_search`: the same series is searched, with the same widths, and the result is the first part of that of the longer search. -/
theorem C136_search (idx : IdxRule) (w w' : World) (id id' : ℕ) (a : SearchArgs) (pmax : ℝ) (o : TsObj) (r' : SearchResult)
    (hp : a.periodMin < pmax) (hle : pmax ≤ a.periodMax) (h : ffaSearch idx w id a = .ok (w', id', r')) (ho : w'.objs[id']? = some o)
    (hidx : IdxFor idx ((w'.dataOf o).length / a.binsMin)) :
    ∃ k, ffaSearch idx w id { a with periodMax := pmax } =
        .ok (w', id', { r' with periods := r'.periods.take k, foldbins := r'.foldbins.take k, snrs := r'.snrs.take k }) ∧
      (∀ p ∈ r'.periods.take k, p < pmax) ∧ ∀ p ∈ r'.periods.drop k, pmax ≤ p := by
  unfold ffaSearch at h ⊢
  obtain ⟨⟨w1, i1⟩, h1, h⟩ := bind_ok_inv h
  obtain ⟨⟨w2, i2⟩, h2, h⟩ := bind_ok_inv h
  obtain ⟨o1, h3, h⟩ := bind_ok_inv h
  obtain ⟨⟨per, fb, snr⟩, h4, h⟩ := bind_ok_inv h
  have h5 := Except.ok.inj h
  simp only [Prod.mk.injEq] at h5
  obtain ⟨rfl, rfl, rfl⟩ := h5
  have ho1 : o1 = o := by
    unfold World.obj at h3
    rw [ho] at h3
    exact (Except.ok.inj h3).symm
  subst ho1
  have hne : generateWidthTrials a.binsMin a.ducyMax a.wtsp ≠ [] := by
    intro hc
    have := (C24_width_trials a.binsMin a.ducyMax a.wtsp).2.1
    rw [hc] at this
    simp at this
  have h6 : periodogramBinding idx (w2.dataOf o1) o1.tsamp (generateWidthTrials a.binsMin a.ducyMax a.wtsp) a.periodMin a.periodMax a.binsMin a.binsMax = .ok (per, fb, snr) := by
    revert h4
    generalize periodogramBinding idx (w2.dataOf o1) o1.tsamp (generateWidthTrials a.binsMin a.ducyMax a.wtsp) a.periodMin a.periodMax a.binsMin a.binsMax = X
    rcases X with e | v
    · intro h4; cases e <;> cases h4
    · intro h4; exact congrArg _ (Except.ok.inj h4)
  obtain ⟨k, h7, h8, h9⟩ := C136_periodogram idx _ _ _ hne _ _ _ _ _ hidx hp hle _ _ _ h6
  refine ⟨k, ?_, h8, h9⟩
  rw [show searchDeredden w id { a with periodMax := pmax } = searchDeredden w id a from rfl, h1]
  simp only [Except.bind]
  rw [show searchNormalise w1 i1 { a with periodMax := pmax } = searchNormalise w1 i1 a from rfl, h2]
  simp only
  rw [h3]
  simp only
  rw [h7]
  rfl

/-! ## Other widths -/

/-- The S/N of a profile with one width, given the prefix sums of the repeated profile. -/
theorem snrRow_each (n : ℕ) (hn : 0 < n) (x : ℕ → ℝ) (widths : List ℕ) (std : ℝ) :
    snrRow n x widths std = widths.map (snrWidth n (fun j => ∑ k ∈ Finset.range (j + 1), if k % n < n then x (k % n) else 0) std) := by
  unfold snrRow
  refine List.map_congr_left fun w hw => ?_
  have hw' := maxWidth_ge widths w hw
  have hc : ∀ j < n + w, (circularPrefixSum (fun i => if i < n then x i else 0) n (n + maxWidth widths) j).getD 0 =
      ∑ k ∈ Finset.range (j + 1), if k % n < n then x (k % n) else 0 := by
    intro j hj
    rw [circularPrefixSum_eq _ n _ hn j (by omega)]
    rfl
  have hd : ∀ m < n, diffMaxLoop (fun i => (circularPrefixSum (fun i => if i < n then x i else 0) n (n + maxWidth widths) (w + i)).getD 0)
      (fun j => (circularPrefixSum (fun i => if i < n then x i else 0) n (n + maxWidth widths) j).getD 0) m =
      diffMaxLoop (fun i => ∑ k ∈ Finset.range (w + i + 1), if k % n < n then x (k % n) else 0)
      (fun j => ∑ k ∈ Finset.range (j + 1), if k % n < n then x (k % n) else 0) m := by
    intro m
    induction m with
    | zero =>
      intro _
      simp only [diffMaxLoop]
      rw [hc (w + 0) (by omega), hc 0 (by omega)]
    | succ m ih =>
      intro hm
      simp only [diffMaxLoop]
      rw [ih (by omega), hc (w + (m + 1)) (by omega), hc (m + 1) (by omega)]
  unfold snrWidth
  simp only
  unfold diffMax
  rw [hd (n - 1) (by omega), hc (n - 1) (by omega)]

/-- C136. The S/N of a trial period and a width does not depend on the other widths of the search. Both lists of widths are meant to be below `bmin`, where the model is faithful. -/
theorem C136_widths (idx : IdxRule) (data : List ℝ) (tsamp : ℝ) (widths widths' : List ℕ) (hne : widths ≠ []) (hne' : widths' ≠ []) (pmin pmax : ℝ) (bmin bmax : ℕ)
    (hidx : IdxFor idx (data.length / bmin)) (per : List ℝ) (fb : List ℕ) (snr : List (List ℝ))
    (h : periodogramBinding idx data tsamp widths pmin pmax bmin bmax = .ok (per, fb, snr)) :
    ∃ snr', periodogramBinding idx data tsamp widths' pmin pmax bmin bmax = .ok (per, fb, snr') ∧ snr'.length = snr.length ∧
      ∀ j k k' (hj : j < snr.length) (hj' : j < snr'.length) (hk : k < widths.length) (hk' : k' < widths'.length), widths[k] = widths'[k'] →
        ∃ (h1 : k < snr[j].length) (h2 : k' < snr'[j].length), snr[j][k] = snr'[j][k'] := by
  obtain ⟨a, ha, hv, hall, rfl, rfl, rfl⟩ := pg_ok_inv hne hidx h
  obtain ⟨-, -, h3⟩ := periodogramBinding_eq idx data tsamp widths' hne' pmin pmax bmin bmax _ rfl hidx.ok
  rw [← ha] at h3
  refine ⟨_, h3 hv hall, by simp, ?_⟩
  intro j k k' hj hj' hk hk' hw
  rw [List.length_map] at hj
  have hb : 0 < (trials a)[j].2.1 := by
    have := (mem_trials (a := a) (ids := (trials a)[j].1) (b := (trials a)[j].2.1) (s := (trials a)[j].2.2)).1 (List.getElem_mem hj)
    have := hv.2.2.2.1
    omega
  have e : ∀ ws : List ℕ, snrOf idx a (fun i => data.getD i 0) ws (trials a)[j] =
      ws.map (snrWidth (trials a)[j].2.1 (fun i => ∑ q ∈ Finset.range (i + 1), if q % (trials a)[j].2.1 < (trials a)[j].2.1 then
        profOf idx a (fun i => data.getD i 0) (trials a)[j] (q % (trials a)[j].2.1) else 0) (stdOf a (trials a)[j])) := fun ws => snrRow_each _ hb _ ws _
  simp only [List.getElem_map, e, List.length_map]
  exact ⟨hk, hk', by rw [hw]⟩

/-- C136, for `ffa_search`: with another `ducy_max` and `wtsp` the same series is searched at the same trial periods, and the S/N of a trial period and a width that both searches have is the same. -/
theorem C136_search_widths (idx : IdxRule) (w w' : World) (id id' : ℕ) (a : SearchArgs) (ducy wtsp : ℝ) (o : TsObj) (r : SearchResult)
    (h : ffaSearch idx w id a = .ok (w', id', r)) (ho : w'.objs[id']? = some o) (hidx : IdxFor idx ((w'.dataOf o).length / a.binsMin)) :
    ∃ r', ffaSearch idx w id { a with ducyMax := ducy, wtsp := wtsp } = .ok (w', id', r') ∧ r'.periods = r.periods ∧ r'.foldbins = r.foldbins ∧ r'.metadata = r.metadata ∧
      r'.snrs.length = r.snrs.length ∧
      ∀ j k k' (hj : j < r.snrs.length) (hj' : j < r'.snrs.length) (hk : k < r.widths.length) (hk' : k' < r'.widths.length), r.widths[k] = r'.widths[k'] →
        ∃ (h1 : k < r.snrs[j].length) (h2 : k' < r'.snrs[j].length), r.snrs[j][k] = r'.snrs[j][k'] := by
  unfold ffaSearch at h ⊢
  obtain ⟨⟨w1, i1⟩, h1, h⟩ := bind_ok_inv h
  obtain ⟨⟨w2, i2⟩, h2, h⟩ := bind_ok_inv h
  obtain ⟨o1, h3, h⟩ := bind_ok_inv h
  obtain ⟨⟨per, fb, snr⟩, h4, h⟩ := bind_ok_inv h
  have h5 := Except.ok.inj h
  simp only [Prod.mk.injEq] at h5
  obtain ⟨rfl, rfl, rfl⟩ := h5
  have ho1 : o1 = o := by
    unfold World.obj at h3
    rw [ho] at h3
    exact (Except.ok.inj h3).symm
  subst ho1
  have hne : ∀ d t : ℝ, generateWidthTrials a.binsMin d t ≠ [] := by
    intro d t hc
    have := (C24_width_trials a.binsMin d t).2.1
    rw [hc] at this
    simp at this
  have h6 : periodogramBinding idx (w2.dataOf o1) o1.tsamp (generateWidthTrials a.binsMin a.ducyMax a.wtsp) a.periodMin a.periodMax a.binsMin a.binsMax = .ok (per, fb, snr) := by
    revert h4
    generalize periodogramBinding idx (w2.dataOf o1) o1.tsamp (generateWidthTrials a.binsMin a.ducyMax a.wtsp) a.periodMin a.periodMax a.binsMin a.binsMax = X
    rcases X with e | v
    · intro h4; cases e <;> cases h4
    · intro h4; exact congrArg _ (Except.ok.inj h4)
  obtain ⟨snr', h7, h8, h9⟩ := C136_widths idx _ _ _ (generateWidthTrials a.binsMin ducy wtsp) (hne _ _) (hne _ _) _ _ _ _ hidx _ _ _ h6
  refine ⟨⟨generateWidthTrials a.binsMin ducy wtsp, per, fb, snr', o1.metadata⟩, ?_, rfl, rfl, rfl, h8, h9⟩
  rw [show searchDeredden w id { a with ducyMax := ducy, wtsp := wtsp } = searchDeredden w id a from rfl, h1]
  simp only [Except.bind]
  rw [show searchNormalise w1 i1 { a with ducyMax := ducy, wtsp := wtsp } = searchNormalise w1 i1 a from rfl, h2]
  simp only
  rw [h3]
  simp only
  rw [h7]
  rfl

/-! ## A search -/

theorem short_search : ∃ per' fb' snr', periodogramBinding exactIdx (List.replicate 16 1) 1 [1] 3 6 3 4 = .ok (per', fb', snr') := by
  obtain ⟨per, fb, snr, _, h, _⟩ := C19_no_holes exactIdx (List.replicate 16 1) 1 [1] (by simp) 3 6 3 4 (.inl rfl)
    (by unfold PgArgs.Valid; norm_num) (by norm_num)
  exact ⟨per, fb, snr, h⟩

/-- The hypotheses of `C136_periodogram` and `C136_widths` are met by a search of 16 samples for periods from 3 to 6 samples, shortened to 4 samples, or with the widths 1 and 2. -/
example : ∃ per fb snr snr' k, periodogramBinding exactIdx (List.replicate 16 1) 1 [1] 3 6 3 4 = .ok (per, fb, snr) ∧
    periodogramBinding exactIdx (List.replicate 16 1) 1 [1] 3 4 3 4 = .ok (per.take k, fb.take k, snr.take k) ∧
    periodogramBinding exactIdx (List.replicate 16 1) 1 [2, 1] 3 6 3 4 = .ok (per, fb, snr') := by
  obtain ⟨per, fb, snr, h⟩ := short_search
  obtain ⟨k, h1, -⟩ := C136_periodogram exactIdx _ _ _ (by simp) 3 4 6 _ _ (.inl rfl) (by norm_num) (by norm_num) _ _ _ h
  obtain ⟨snr', h2, -⟩ := C136_widths exactIdx _ _ [1] [2, 1] (by simp) (by simp) _ _ _ _ (.inl rfl) _ _ _ h
  exact ⟨per, fb, snr, snr', k, h, h1, h2⟩

/-- The hypotheses of `C136_search` and `C136_search_widths` are met by such a search with `ffa_search`. -/
example : ∃ (w : World) (a : SearchArgs) (o : TsObj) (r : SearchResult), a.periodMin < 4 ∧ 4 ≤ a.periodMax ∧ ffaSearch exactIdx w 0 a = .ok (w, 0, r) ∧ w.objs[0]? = some o ∧
    w.dataOf o = List.replicate 16 1 := by
  obtain ⟨per, fb, snr, _, h, _⟩ := C19_no_holes exactIdx (List.replicate 16 1) 1 (generateWidthTrials 3 (1 / 2 : ℝ) (3 / 2)) (by
    intro hc
    have := (C24_width_trials 3 (1 / 2 : ℝ) (3 / 2)).2.1
    rw [hc] at this
    simp at this) 3 6 3 4 (.inl rfl) (by unfold PgArgs.Valid; norm_num) (by norm_num)
  refine ⟨⟨[List.replicate 16 1], [[]], [⟨0, 1, 0⟩]⟩, ⟨3, 6, 8, 3, 4, 1 / 2, 3 / 2, false, 4, 101, true⟩, ⟨0, 1, 0⟩, ⟨generateWidthTrials 3 (1 / 2 : ℝ) (3 / 2), per, fb, snr, 0⟩, by norm_num, by norm_num, ?_, rfl, rfl⟩
  · show (liftCall (periodogramBinding exactIdx (List.replicate 16 1) 1 (generateWidthTrials 3 (1 / 2 : ℝ) (3 / 2)) 3 6 3 4)).bind _ = _
    rw [h]
    exact rfl

/-! ## Double precision -/

theorem flatMap_sublist {β : Type*} {f g : ℕ → List β} : ∀ {i j : ℕ}, i ≤ j → (∀ k < i, (f k).Sublist (g k)) → ((List.range i).flatMap f).Sublist ((List.range j).flatMap g) := by
  intro i j hij h
  induction j, hij using Nat.le_induction with
  | base =>
    induction i with
    | zero => simp
    | succ i ih =>
      rw [List.range_succ, List.flatMap_append, List.flatMap_append]
      exact (ih fun k hk => h k (by omega)).append (by simpa using h i (by omega))
  | succ j _ ih =>
    rw [List.range_succ, List.flatMap_append]
    exact ih.trans (List.sublist_append_left _ _)

section
variable {A : DArith} (hA : Sane A) {a : DArgs} (hr : InRange A a) {pmax : ℚ} (hp : a.pmin < pmax) (hle : pmax ≤ a.pmax)
include hA hr hp hle

omit hA in
theorem d_shorter_range : InRange A { a with pmax := pmax } where
  valid := ⟨hr.valid.1, hr.valid.2.1, hp, hr.valid.2.2.2.1, hr.valid.2.2.2.2.1, hr.valid.2.2.2.2.2⟩
  size := hr.size
  bins := hr.bins
  pmax := hle.trans hr.pmax

theorem d_pms_mono (ids : ℕ) : A.pmaxSamples { a with pmax := pmax } ids ≤ A.pmaxSamples a ids := by
  have ht := d_tau_pos hA hr ids
  refine hA.mono _ _ (div_nonneg (hr.valid.2.1.trans hp).le ht.le) ?_
  exact div_le_div_of_nonneg_right hle ht.le

theorem d_bstop_mono (ids : ℕ) : bstopN A { a with pmax := pmax } ids ≤ bstopN A a ids :=
  min_le_min le_rfl (Nat.floor_mono (d_pms_mono hA hr hp hle ids))

theorem d_rows_mono {ids bins : ℕ} (h1 : 1 ≤ bins) (h2 : bins ≤ bstopN A { a with pmax := pmax } ids) :
    rowsEvalN A { a with pmax := pmax } ids bins ≤ rowsEvalN A a ids bins := by
  have hr' := d_shorter_range hr hp hle
  have hns : nN A a ids ≤ a.size := d_n_le_size hA hr ids
  have hbn : bins ≤ nN A a ids := h2.trans ((min_le_left _ _).trans (min_le_right _ _))
  have hbp : (bins : ℚ) ≤ A.pmaxSamples { a with pmax := pmax } ids :=
    (Nat.le_floor_iff (d_pms_pos hA hr' ids).le).mp (h2.trans (min_le_right _ _))
  have hs := hr.size
  have hr1 : 1 ≤ nN A a ids / bins := (Nat.one_le_div_iff (by omega)).mpr hbn
  have hr2 : nN A a ids / bins ≤ nN A a ids := Nat.div_le_self _ _
  have e1 := hA.nat bins (by omega)
  have e2 := hA.nat (nN A a ids / bins) (by omega)
  have hb0 : (1 : ℚ) ≤ bins := by exact_mod_cast h1
  have e4 : A.fl ((bins : ℚ) + 1) = bins + 1 := by
    have := hA.nat (bins + 1) (by omega)
    push_cast at this
    exact this
  have hpc : (bins : ℚ) ≤ A.periodCeil { a with pmax := pmax } ids bins := by
    unfold DArith.periodCeil
    rw [e1, e4]
    exact le_min hbp (by linarith)
  have hpc' : A.periodCeil { a with pmax := pmax } ids bins ≤ A.periodCeil a ids bins := min_le_min (d_pms_mono hA hr hp hle ids) le_rfl
  have hq1 : A.fl ((bins : ℚ) / A.periodCeil { a with pmax := pmax } ids bins) ≤ 1 := by
    have := Dbl.fl_le_nat hA (x := (bins : ℚ) / A.periodCeil { a with pmax := pmax } ids bins) (n := 1) (by norm_num)
      (div_nonneg (by linarith) (by linarith)) (by rw [Nat.cast_one, div_le_one (by linarith)]; exact hpc)
    rwa [Nat.cast_one] at this
  have hq : A.fl ((bins : ℚ) / A.periodCeil a ids bins) ≤ A.fl ((bins : ℚ) / A.periodCeil { a with pmax := pmax } ids bins) :=
    hA.mono _ _ (div_nonneg (by linarith) (by linarith)) (div_le_div_of_nonneg_left (by linarith) (by linarith) hpc')
  have hrq : (0 : ℚ) ≤ A.fl (A.fl ((nN A a ids / bins : ℕ) : ℚ) - 1) := by
    apply Dbl.fl_nonneg hA
    rw [e2]
    have : (1 : ℚ) ≤ ((nN A a ids / bins : ℕ) : ℚ) := by exact_mod_cast hr1
    linarith
  have hz : 0 ≤ A.fl (A.fl bins * A.fl (A.fl ((nN A a ids / bins : ℕ) : ℚ) - 1)) :=
    Dbl.fl_nonneg hA (mul_nonneg (by rw [e1]; linarith) hrq)
  refine min_le_min le_rfl (Int.toNat_le_toNat (Int.ceil_mono ?_))
  unfold shiftQ
  rw [e1] at hz ⊢
  have hy : 0 ≤ A.fl (1 - A.fl ((bins : ℚ) / A.periodCeil { a with pmax := pmax } ids bins)) := Dbl.fl_nonneg hA (by linarith)
  refine hA.mono _ _ (mul_nonneg hz hy) (mul_le_mul_of_nonneg_left ?_ hz)
  exact hA.mono _ _ (by linarith) (by linarith)

omit hle in
theorem d_numDs_mono (hlog : A.log (A.fl (pmax / a.pmin)) ≤ A.log (A.fl (a.pmax / a.pmin))) : numDsN A { a with pmax := pmax } ≤ numDsN A a := by
  have pos : ∀ x : ℚ, 1 ≤ x → 0 ≤ A.log x := by
    intro x hx
    have e := abs_le.mp (hA.logRel x hx)
    have hL : 0 ≤ Real.log x := Real.log_nonneg (by exact_mod_cast hx)
    have : Real.log x / 2 ^ 40 ≤ Real.log x := div_le_self hL (by norm_num)
    have : (0 : ℝ) ≤ (A.log x : ℝ) := by linarith [e.1]
    exact_mod_cast this
  have hx : 1 ≤ A.fl (pmax / a.pmin) := by
    have := Dbl.fl_ge_nat hA (x := pmax / a.pmin) (n := 1) (by norm_num) (by rw [Nat.cast_one, le_div_iff₀ hr.valid.2.1, one_mul]; exact hp.le)
    rwa [Nat.cast_one] at this
  have hg := pos _ (d_geo_one hA hr)
  refine Int.toNat_le_toNat (Int.ceil_mono (hA.mono _ _ (div_nonneg (pos _ hx) hg) ?_))
  exact div_le_div_of_nonneg_right hlog hg

theorem d_trials_sublist (hlog : A.log (A.fl (pmax / a.pmin)) ≤ A.log (A.fl (a.pmax / a.pmin))) : (dTrials A { a with pmax := pmax }).Sublist (dTrials A a) := by
  unfold dTrials dPrefix
  refine flatMap_sublist (d_numDs_mono hA hr hp hlog) fun ids _ => ?_
  unfold dStage dStagePrefix
  have hb := d_bstop_mono hA hr hp hle ids
  refine flatMap_sublist (Nat.sub_le_sub_right (Nat.add_le_add_right hb 1) _) fun j hj => ?_
  unfold dFold
  have h2 := hr.valid.2.2.2.1
  have hj' : j < bstopN A { a with pmax := pmax } ids + 1 - a.bmin := hj
  exact (List.range_sublist.2 (d_rows_mono hA hr hp hle (bins := a.bmin + j) (by omega) (by omega))).map _

end

/-- C136, in double precision, for any operations on the samples: every trial of the shorter search is a trial of the longer one, in the same order, with the same period, number of bins
and S/N values bit by bit. The logarithms of the two ratios of periods are in the right order. -/
theorem C136_double {A : DArith} (hA : Sane A) {V : Type*} [Inhabited V] (O : VOps V) (idx : IdxRule) (data : List V) (tsamp : ℚ) (widths : List ℕ) (hne : widths ≠ [])
    (pmin pmax pmax' : ℚ) (bmin bmax : ℕ) (hidx : IdxFor idx (data.length / bmin)) (hN : data.length ≤ 2 ^ 50) (hb : bmax ≤ 2 ^ 50) (hP : pmax' ≤ 2 ^ 62 * tsamp)
    (hp : pmin < pmax) (hle : pmax ≤ pmax') (hlog : A.log (A.fl (pmax / pmin)) ≤ A.log (A.fl (pmax' / pmin)))
    (per' : List ℚ) (fb' : List ℕ) (snr' : List (List V)) (h : A.binding O idx data tsamp widths pmin pmax' bmin bmax = .ok (per', fb', snr')) :
    ∃ per fb snr, A.binding O idx data tsamp widths pmin pmax bmin bmax = .ok (per, fb, snr) ∧ fb.length = per.length ∧ snr.length = per.length ∧
      (per.zip (fb.zip snr)).Sublist (per'.zip (fb'.zip snr')) := by
  set a : DArgs := ⟨data.length, tsamp, pmin, pmax', bmin, bmax⟩ with ha
  by_cases hv : A.Valid a
  swap
  · have e : A.binding O idx data tsamp widths pmin pmax' bmin bmax = .error .valueError := by
      unfold DArith.binding DArith.length
      simp only [← ha, if_pos hv, Except.bind]
    rw [e] at h
    cases h
  have hr : InRange A a := ⟨hv, hN, hb, hP⟩
  have hr' := d_shorter_range hr hp hle
  obtain ⟨h1, h2⟩ := d_binding hA O idx data tsamp widths hne pmin pmax' bmin bmax a ha hr hidx.ok
  obtain ⟨-, h3⟩ := d_binding hA O idx data tsamp widths hne pmin pmax bmin bmax { a with pmax := pmax } rfl hr' hidx.ok
  have hall : ∀ i < numDsN A a, A.f a i = 1 ∨ A.f a i ≤ a.size := by
    by_contra hc
    push Not at hc
    obtain ⟨i, hi, h4, h5⟩ := hc
    rw [h1 ⟨i, hi, by rintro (h | h); exacts [h4 h, absurd h (not_le.mpr h5)]⟩] at h
    cases h
  have h4 := Except.ok.inj ((h2 hall).symm.trans h)
  simp only [Prod.mk.injEq] at h4
  obtain ⟨rfl, rfl, rfl⟩ := h4
  refine ⟨_, _, _, h3 fun i hi => hall i (lt_of_lt_of_le hi (d_numDs_mono hA hr hp hlog)), by simp, by simp, ?_⟩
  have zip3 : ∀ {β γ δ : Type _} (l : List (ℕ × ℕ × ℕ)) (f : ℕ × ℕ × ℕ → β) (g : ℕ × ℕ × ℕ → γ) (k : ℕ × ℕ × ℕ → δ),
      (l.map f).zip ((l.map g).zip (l.map k)) = l.map fun t => (f t, g t, k t) := by
    intro β γ δ l f g k
    induction l with
    | nil => rfl
    | cons t l ih => simp only [List.map_cons, List.zip_cons_cons, ih]
  rw [zip3, zip3]
  exact (d_trials_sublist hA hr hp hle hlog).map _

/-- Non-vacuity of `C136_double`: 1000 samples searched from 32 to 64 and to 128 samples. -/
example (data : List ℝ) (hl : data.length = 1000) :
    let A := ieeeDouble someLog (fun x k => rn 53 (x ^ k)) true
    ∃ per fb snr per' fb' snr', A.binding (single.searchOps A) float32Idx data 1 [1, 2, 4] 32 128 32 39 = .ok (per', fb', snr') ∧
      A.binding (single.searchOps A) float32Idx data 1 [1, 2, 4] 32 64 32 39 = .ok (per, fb, snr) ∧ (per.zip (fb.zip snr)).Sublist (per'.zip (fb'.zip snr')) := by
  intro A
  have hA : Sane A := sane_some true
  have e32 : A.fl (1 * ((32 : ℕ) : ℚ)) ≤ 32 := by
    rw [one_mul, hA.nat 32 (by norm_num)]
    norm_num
  have hi : IdxFor float32Idx (data.length / 32) := by rw [hl]; exact Or.inr ⟨Or.inl rfl, by norm_num⟩
  obtain ⟨per', fb', snr', -, h, -⟩ := C129_no_error hA (single.searchOps A) float32Idx data 1 [1, 2, 4] (by simp) 32 128 32 39 hi (by rw [hl]; norm_num) (by norm_num) (by norm_num) (by norm_num)
    (by norm_num) (by norm_num) (by norm_num) e32 (by rw [hl]; norm_num) (by rw [hl]; norm_num) insArgsort (fun _ _ => 0) ⟨6, 5, 10, 1 / 10⟩ (by norm_num)
  have hlog : A.log (A.fl (64 / 32)) ≤ A.log (A.fl (128 / 32)) := by
    have e2 : A.fl (64 / 32) = 2 := by simpa using (show A.fl (64 / 32) = A.fl ((2 : ℕ) : ℚ) by norm_num).trans (hA.nat 2 (by norm_num))
    have e4 : A.fl (128 / 32) = 4 := by simpa using (show A.fl (128 / 32) = A.fl ((4 : ℕ) : ℚ) by norm_num).trans (hA.nat 4 (by norm_num))
    rw [e2, e4]
    have l2 := abs_le.mp (hA.logRel 2 (by norm_num))
    have l4 := abs_le.mp (hA.logRel 4 (by norm_num))
    have e : Real.log ((4 : ℚ) : ℝ) = 2 * Real.log ((2 : ℚ) : ℝ) := by
      push_cast
      rw [show (4 : ℝ) = 2 ^ 2 by norm_num, Real.log_pow]
      norm_num
    have hp : 0 < Real.log ((2 : ℚ) : ℝ) := Real.log_pos (by norm_num)
    rw [e] at l4
    have : (A.log 2 : ℝ) ≤ (A.log 4 : ℝ) := by
      have h1 := l2.2
      have h2 := l4.1
      norm_num at h1 h2 hp
      linarith
    exact_mod_cast this
  obtain ⟨per, fb, snr, h2, -, -, h3⟩ := C136_double hA (single.searchOps A) float32Idx data 1 [1, 2, 4] (by simp) 32 64 128 32 39 hi (by rw [hl]; norm_num) (by norm_num) (by norm_num)
    (by norm_num) (by norm_num) hlog per' fb' snr' h
  exact ⟨per, fb, snr, per', fb', snr', h, h2, h3⟩

end Verif.Props
