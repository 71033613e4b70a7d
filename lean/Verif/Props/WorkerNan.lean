import Verif.Model.WorkerNan
import Verif.Props.Overflow
import Verif.Props.PipelineF

/-!
# C134: a file with a bad sample in a run of the pipeline
-/

namespace Verif.Props

open Verif.Model Verif.Spec Verif.Lemmas

/-- The sizes of a file and of a range for which the search is specified. -/
structure RangeSize (idx : IdxRule) (n : ℕ) (tsamp : ℚ) (r : NRange) : Prop where
  idx : IdxFor idx (n / r.binsMin)
  bins : r.binsMax ≤ 2 ^ 50
  pmax : r.periodMax ≤ 2 ^ 62 * tsamp

theorem workerPrepare_eq (N : NArith) (w m : ℕ) (x : List FVal) (r : NSearchArgs) :
    N.workerPrepare w m x = N.prepare { r with deredden := true, rmedSamples := w, rmedMinpts := m, alreadyNormalised := false } x := rfl

theorem liftCall_inv {β : Type*} {x : Except CallErr β} {b : β} (h : liftCall x = .ok b) : x = .ok b := by
  cases x with
  | ok o =>
    simp only [liftCall, Except.ok.injEq] at h
    rw [h]
  | error e => cases e <;> exact nomatch h

/-- Where all prepared samples are NaN, a range has no peak. -/
theorem range_no_peak {N : NArith} {A : DArith} (hA : Sane A) {idx : IdxRule} {argsort : List ℚ → List ℕ} {tsamp : ℚ} {n : ℕ} (hn : n ≤ 2 ^ 50) {r : NRange}
    (hr : RangeSize idx n tsamp r) {l : List NPeak} (h : N.rangePeaks A idx argsort tsamp (List.replicate n .nan) r = .ok l) : l = [] := by
  obtain ⟨out, ho, hl⟩ := bind_ok_inv h
  have ho' := liftCall_inv ho
  obtain ⟨per, fb, snr⟩ := out
  have hlen : (List.replicate n FVal.nan).length = n := List.length_replicate
  obtain ⟨h1, h2⟩ := search_all_nan N A hA idx (r.args tsamp) (List.replicate n .nan) (by rw [hlen]; exact hr.idx) (by rw [hlen]; exact hn) hr.bins hr.pmax
    (y := List.replicate n .nan) rfl (by rw [hlen]) per fb snr ho'
  rcases C112_peaks r.thr argsort r.smin r.radius (r.args tsamp).widths.length per snr h2 h1 with e | ⟨e, h3, _⟩
  · rw [e] at hl
    exact (Except.ok.inj hl).symm
  · rw [h3] at hl
    exact nomatch hl

theorem blank_file {N : NArith} {A : DArith} (hA : Sane A) {idx : IdxRule} {argsort : List ℚ → List ℕ} {w m : ℕ} {ranges : List NRange} {tsamp : ℚ} {x : List FVal} (hn : x.length ≤ 2 ^ 50)
    (hr : ∀ r ∈ ranges, RangeSize idx x.length tsamp r) (hy : ∀ y, N.workerPrepare w m x = .ok y → y = List.replicate x.length .nan)
    {l : List NPeak} (h : N.processFile A idx argsort w m ranges tsamp x = .ok l) : l = [] := by
  obtain ⟨y, ho, hl⟩ := bind_ok_inv h
  rw [hy y (liftCall_inv ho)] at hl
  obtain ⟨ls, hls, rfl⟩ := map_ok_inv hl
  rw [List.flatten_eq_nil_iff]
  have hf := mapM_ok_inv _ _ _ hls
  intro p hp
  obtain ⟨r, hr', e⟩ : ∃ r ∈ ranges, N.rangePeaks A idx argsort tsamp (List.replicate x.length .nan) r = .ok p := by
    clear hls hl h hr
    induction hf with
    | nil => simp at hp
    | cons h1 _ ih =>
      rcases List.mem_cons.1 hp with rfl | hp
      · exact ⟨_, List.mem_cons_self, h1⟩
      · obtain ⟨r, h2, h3⟩ := ih hp
        exact ⟨r, List.mem_cons_of_mem _ h2, h3⟩
  exact range_no_peak hA hn (hr r hr') e

/-- **C134.** A file with a sample that is NaN or infinite: a worker that returns returns no peak. -/
theorem C134_file {N : NArith} (hN : AddsAll N) {A : DArith} (hA : Sane A) {idx : IdxRule} {argsort : List ℚ → List ℕ} {w m : ℕ} {ranges : List NRange} {tsamp : ℚ} {x : List FVal}
    (hn : x.length ≤ 2 ^ 50) (hr : ∀ r ∈ ranges, RangeSize idx x.length tsamp r) (hx : ∃ v ∈ x, ¬ IsNumber v) {l : List NPeak}
    (h : N.processFile A idx argsort w m ranges tsamp x = .ok l) : l = [] := by
  obtain ⟨v, hv, hf⟩ := hx
  refine blank_file hA hn hr (fun y hy => ?_) h
  rw [workerPrepare_eq N w m x ⟨0, 0, 0, 0, 0, 0, 0, false, 0, 0, false⟩] at hy
  exact prepare_nan hN rfl hy hv (fun q hq => hf ⟨q, hq⟩)

/-- **C134.** The same for a file of constant samples. -/
theorem C134_constant {N : NArith} {A : DArith} (hI : Ieee N A) (hN : AddsAll N) (hint : InterpBounded N) (hcon : InterpConstant N) (hA : Sane A) {idx : IdxRule} {argsort : List ℚ → List ℕ}
    {w m : ℕ} {ranges : List NRange} {tsamp : ℚ} {x : List FVal} (hn : x.length ≤ 2 ^ 25) (hr : ∀ r ∈ ranges, RangeSize idx x.length tsamp r) {c : ℚ} (hc : |c| ≤ 2 ^ 100)
    (hx : ∀ v ∈ x, v = .fin c) {l : List NPeak} (h : N.processFile A idx argsort w m ranges tsamp x = .ok l) : l = [] := by
  refine blank_file hA (by omega) hr (fun y hy => ?_) h
  obtain ⟨z, hz, e⟩ := bind_ok_inv hy
  obtain ⟨h1, d, hd, h2⟩ := deredden_constant hI hN hint hcon hn hc hx hz
  rw [← Except.ok.inj e, normalise_constant hI hN (by omega) hd h2, h1]

theorem mapM_error_inv {α β ε : Type*} (f : α → Except ε β) : ∀ (l : List α) (e : ε), l.mapM f = .error e → ∃ a ∈ l, f a = .error e := by
  intro l
  induction l with
  | nil => intro e h; exact nomatch h
  | cons a l ih =>
    intro e h
    rw [List.mapM_cons] at h
    cases ha : f a with
    | error e' =>
      rw [ha] at h
      obtain rfl : e' = e := Except.error.inj h
      exact ⟨a, List.mem_cons_self, ha⟩
    | ok b =>
      rw [ha] at h
      cases hl : l.mapM f with
      | error e' =>
        rw [hl] at h
        obtain rfl : e' = e := Except.error.inj h
        obtain ⟨a', h1, h2⟩ := ih e' hl
        exact ⟨a', List.mem_cons_of_mem _ h1, h2⟩
      | ok r => rw [hl] at h; exact nomatch h

theorem mapM_error_of {α β ε : Type*} (f : α → Except ε β) (l : List α) {a : α} {e : ε} (ha : a ∈ l) (h : f a = .error e) : ∃ e', l.mapM f = .error e' := by
  cases hl : l.mapM f with
  | error e' => exact ⟨e', rfl⟩
  | ok r =>
    have hf := mapM_ok_inv f l r hl
    clear hl
    exfalso
    induction hf with
    | nil => simp at ha
    | cons h1 _ ih =>
      rcases List.mem_cons.1 ha with rfl | ha
      · rw [h] at h1; exact nomatch h1
      · exact ih ha

/-- **C134.** Nor does such a sample, or any other, make a worker fail: if it fails, the fit of the threshold did, or every file of this length fails. -/
theorem C134_silent {N : NArith} {A : DArith} (hA : Sane A) {idx : IdxRule} {argsort : List ℚ → List ℕ} {w m : ℕ} {ranges : List NRange} {tsamp : ℚ} {x : List FVal} (hn : x.length ≤ 2 ^ 50)
    (hr : ∀ r ∈ ranges, RangeSize idx x.length tsamp r) {e : PyErr} (h : N.processFile A idx argsort w m ranges tsamp x = .error e) :
    (∃ r ∈ ranges, ∃ f col, r.thr f col = .error e) ∨
    ∀ x' : List FVal, x'.length = x.length → ∃ e', N.processFile A idx argsort w m ranges tsamp x' = .error e' := by
  have hp := prepare_len N ⟨0, 0, 0, 0, 0, 0, 0, true, w, m, false⟩ x
  simp only [← workerPrepare_eq N w m _ ⟨0, 0, 0, 0, 0, 0, 0, true, w, m, false⟩] at hp
  rcases hp with hp | hp
  · obtain ⟨y, e1, l1⟩ := hp x rfl
    have h' := h
    unfold NArith.processFile at h'
    rw [e1] at h'
    change (ranges.mapM (N.rangePeaks A idx argsort tsamp y)).map List.flatten = .error e at h'
    have h'' : ranges.mapM (N.rangePeaks A idx argsort tsamp y) = .error e := by
      cases e2 : ranges.mapM (N.rangePeaks A idx argsort tsamp y) with
      | error e3 => rw [e2] at h'; rw [Except.error.inj h']
      | ok r => rw [e2] at h'; exact nomatch h'
    obtain ⟨r, hrm, e2⟩ := mapM_error_inv _ _ _ h''
    have hsil : ∀ z : List FVal, z.length = x.length → (N.ffaSearch A idx (r.args tsamp) y).map (fun r => (r.1, r.2.1)) = (N.ffaSearch A idx (r.args tsamp) z).map (fun r => (r.1, r.2.1)) := fun z hz =>
      C112_silent N A hA idx (r.args tsamp) y z (hz.trans l1.symm) (by rw [l1]; exact (hr r hrm).idx) (by rw [l1]; exact hn) (hr r hrm).bins (hr r hrm).pmax
    cases e3 : N.ffaSearch A idx (r.args tsamp) y with
    | error e4 =>
      right
      intro x' hx'
      obtain ⟨y', e1', l1'⟩ := hp x' hx'
      have h5 := hsil y' l1'
      rw [e3] at h5
      unfold NArith.processFile
      rw [e1']
      change ∃ e', (ranges.mapM (N.rangePeaks A idx argsort tsamp y')).map List.flatten = .error e'
      have h6 : ∃ e6, N.rangePeaks A idx argsort tsamp y' r = .error e6 := by
        unfold NArith.rangePeaks
        cases e7 : N.ffaSearch A idx (r.args tsamp) y' with
        | ok o => rw [e7] at h5; exact nomatch h5
        | error e8 => cases e8 <;> exact ⟨_, rfl⟩
      obtain ⟨e6, h6⟩ := h6
      obtain ⟨e7, h7⟩ := mapM_error_of _ _ hrm h6
      rw [h7]
      exact ⟨e7, rfl⟩
    | ok out =>
      left
      unfold NArith.rangePeaks at e2
      rw [e3] at e2
      change nFindPeaks r.thr argsort r.smin r.radius (r.args tsamp).widths.length out.1 out.2.2 = .error e at e2
      unfold nFindPeaks at e2
      have e4 : (List.range (r.args tsamp).widths.length).mapM (nPeaksOfWidth r.thr argsort r.smin r.radius (out.1.map (fun p => 1 / p)) out.2.2) = .error e := by
        cases e5 : (List.range (r.args tsamp).widths.length).mapM (nPeaksOfWidth r.thr argsort r.smin r.radius (out.1.map (fun p => 1 / p)) out.2.2) with
        | error e6 => rw [e5] at e2; rw [Except.error.inj e2]
        | ok r => rw [e5] at e2; exact nomatch e2
      obtain ⟨iw, -, e5⟩ := mapM_error_inv _ _ _ e4
      refine ⟨r, hrm, out.1.map (fun p => 1 / p), out.2.2.map (fun row => row.getD iw default), ?_⟩
      unfold nPeaksOfWidth at e5
      cases e6 : r.thr (out.1.map (fun p => 1 / p)) (out.2.2.map (fun row => row.getD iw default)) with
      | error e7 =>
        simp only at e5
        rw [e6] at e5
        rw [Except.error.inj e5]
      | ok t =>
        simp only at e5
        rw [e6] at e5
        exact nomatch e5
  · right
    intro x' hx'
    unfold NArith.processFile
    rw [hp x' hx']
    exact ⟨_, rfl⟩

section run

variable {K : Type*} [Field K] [LinearOrder K] [IsStrictOrderedRing K] {β τ γ : Type*}

/-- Files without peaks do not change the result of a search. -/
theorem search_without {j : PipeJob K β τ γ} {g : β → List (HPeak K)} (hp : 1 ≤ j.processes) (hse : ∀ f ∈ j.fnames, j.searchFile f = .ok (g f)) {keep : β → Bool}
    (hempty : ∀ f ∈ j.fnames, keep f = false → g f = []) {n : ℕ} (hn : 1 ≤ n) {s s' : PoolSchedule} (hs : JobSchedule j s)
    (hs' : JobSchedule { j with fnames := j.fnames.filter keep, processes := n } s') (st : PipeState K γ) :
    st.search j s = st.search { j with fnames := j.fnames.filter keep, processes := n } s' := by
  unfold PipeState.search
  rw [job_search hp hse hs, job_search (j := { j with fnames := j.fnames.filter keep, processes := n }) hn (fun f hf => hse f (List.mem_of_mem_filter hf)) hs']
  have : ∀ l : List β, (∀ f ∈ l, keep f = false → g f = []) → l.flatMap g = (l.filter keep).flatMap g := by
    intro l
    induction l with
    | nil => intro _; rfl
    | cons a l ih =>
      intro h
      have h2 := ih (fun f hf => h f (List.mem_cons_of_mem _ hf))
      cases e : keep a with
      | true => rw [List.filter_cons_of_pos e, List.flatMap_cons, List.flatMap_cons, h2]
      | false => rw [List.filter_cons_of_neg (by rw [e]; decide), List.flatMap_cons, h a List.mem_cons_self e, List.nil_append, h2]
  rw [this _ hempty]

end run

open Classical in
/-- **C134.** A run in which some files have samples that are NaN or infinite has the result of the run without these files, with the same median observing time: same peaks, clusters, harmonics and
candidates, for any numbers of processes and schedules. -/
theorem C134_run {N : NArith} (hN : AddsAll N) {A : DArith} (hA : Sane A) {idx : IdxRule} {argsort : List ℚ → List ℕ} {w m : ℕ} {ranges : List NRange} {β τ γ : Type*}
    {data : β → List FVal} {tsamp : β → ℚ} {j : PipeJob ℚ β τ γ} (hp : 1 ≤ j.processes)
    (hsize : ∀ f ∈ j.fnames, (data f).length ≤ 2 ^ 50 ∧ ∀ r ∈ ranges, RangeSize idx (data f).length (tsamp f) r)
    (hse : ∀ f ∈ j.fnames, ∃ l ps, j.searchFile f = .ok l ∧ N.processFile A idx argsort w m ranges (tsamp f) (data f) = .ok ps ∧ l.length = ps.length)
    {n : ℕ} (hn : 1 ≤ n) {j' : PipeJob ℚ β τ γ} (hj : j' = { j with fnames := j.fnames.filter (fun f => decide (∀ v ∈ data f, IsNumber v)), processes := n }) {s s' : PoolSchedule} (hs : JobSchedule j s)
    (hs' : JobSchedule j' s') : A.process j s = A.process j' s' := by
  subst hj
  choose! g hg using fun f hf => hse f hf
  unfold DArith.process
  rw [search_without (g := g) hp (fun f hf => (hg f hf).choose_spec.1) ?_ hn hs hs']
  · rfl
  · intro f hf hk
    obtain ⟨ps, h1, h2, h3⟩ := hg f hf
    rw [decide_eq_false_iff_not] at hk
    push Not at hk
    obtain rfl := C134_file hN hA (hsize f hf).1 (hsize f hf).2 hk h2
    exact List.length_eq_zero_iff.1 h3

/-! ## Examples -/

/-- Periods of 32 to 40 samples, threshold 6. -/
def someRange : NRange := ⟨32, 40, 32, 39, 1 / 5, 3 / 2, fun _ _ => .ok fun _ => .fin 6, 6, 1⟩

theorem someRange_size : RangeSize float32Idx 1000 1 someRange where
  idx := Or.inr ⟨Or.inl rfl, by norm_num [someRange]⟩
  bins := by norm_num [someRange]
  pmax := by norm_num [someRange]

theorem nFindPeaks_ok {thr : List ℚ → List FVal → Except PyErr (ℕ → FVal)} (ht : ∀ f col, ∃ t, thr f col = .ok t) (argsort : List ℚ → List ℕ) (smin radius : ℚ) (n : ℕ) (per : List ℚ)
    (snr : List (List FVal)) : ∃ l, nFindPeaks thr argsort smin radius n per snr = .ok l := by
  unfold nFindPeaks
  cases e : (List.range n).mapM (nPeaksOfWidth thr argsort smin radius (per.map (fun p => 1 / p)) snr) with
  | ok l => exact ⟨_, rfl⟩
  | error e' =>
    obtain ⟨iw, -, h⟩ := mapM_error_inv _ _ _ e
    obtain ⟨t, ht⟩ := ht (per.map (fun p => 1 / p)) (snr.map (fun row => row.getD iw default))
    unfold nPeaksOfWidth at h
    simp only at h
    rw [ht] at h
    exact nomatch h

/-- A worker returns for every file of 1000 samples, with a running median of 101 samples. -/
theorem someFile_ok (N : NArith) {A : DArith} (hA : Sane A) (argsort : List ℚ → List ℕ) {x : List FVal} (hl : x.length = 1000) :
    ∃ l, N.processFile A float32Idx argsort 101 51 [someRange] 1 x = .ok l := by
  obtain ⟨out, e, hout, -⟩ := runningMedian_fval N x 101 (by decide) (by rw [hl]; norm_num)
  obtain ⟨y, hy, hyl⟩ : ∃ y, N.workerPrepare 101 51 x = .ok y ∧ y.length = 1000 := by
    have e2 : N.fastRunningMedian x 101 51 = .ok out := by
      unfold NArith.fastRunningMedian
      rw [if_neg (by decide)]
      simp only
      rw [if_pos (by decide)]
      exact e
    unfold NArith.workerPrepare NArith.deredden
    rw [e2]
    exact ⟨_, rfl, by rw [NArith.normalise, List.length_map, List.length_zipWith, hout, hl, min_self]⟩
  have e32 : A.fl (1 * ((32 : ℕ) : ℚ)) ≤ 32 := by
    rw [one_mul, hA.nat 32 (by norm_num)]
    norm_num
  obtain ⟨per, fb, snr, h, -⟩ := C114_no_holes A hA N.ops float32Idx y 1 (someRange.args 1).widths (nWidths_ne _) 32 40 32 39 (by rw [hyl]; exact Or.inr ⟨Or.inl rfl, by norm_num⟩)
    (by rw [hyl]; norm_num) (by norm_num) (by norm_num) (by norm_num) (by norm_num) (by norm_num) (by norm_num) e32 (by rw [hyl]; norm_num)
  have h' : N.ffaSearch A float32Idx (someRange.args 1) y = .ok (per, fb, snr) := h
  obtain ⟨l, hlp⟩ := nFindPeaks_ok (thr := someRange.thr) (fun _ _ => ⟨_, rfl⟩) argsort someRange.smin someRange.radius (someRange.args 1).widths.length per snr
  have hr : N.rangePeaks A float32Idx argsort 1 y someRange = .ok l := by
    unfold NArith.rangePeaks
    rw [h']
    exact hlp
  unfold NArith.processFile
  rw [hy]
  change ∃ l, (List.mapM (N.rangePeaks A float32Idx argsort 1 y) [someRange]).map List.flatten = .ok l
  rw [List.mapM_cons, hr]
  exact ⟨_, rfl⟩

/-- A file with an infinite sample, and one of constant samples: the workers return. -/
example : let A := ieeeDouble someLog (fun x k => rn 53 (x ^ k)) true
    let N := ieeeArith A
    let x := FVal.inf true :: List.replicate 999 (FVal.fin 1)
    let y := List.replicate 1000 (FVal.fin 1)
    Ieee N A ∧ AddsAll N ∧ InterpBounded N ∧ InterpConstant N ∧ Sane A ∧ (∃ v ∈ x, ¬ IsNumber v) ∧ (∀ r ∈ [someRange], RangeSize float32Idx x.length 1 r) ∧
    (∃ l, N.processFile A float32Idx (fun l => List.range l.length) 101 51 [someRange] 1 x = .ok l) ∧
    ∃ l, N.processFile A float32Idx (fun l => List.range l.length) 101 51 [someRange] 1 y = .ok l := by
  intro A N x y
  have hx : x.length = 1000 := by show (FVal.inf true :: List.replicate 999 (FVal.fin 1)).length = _; rw [List.length_cons, List.length_replicate]
  have hy : y.length = 1000 := List.length_replicate
  refine ⟨ieeeArith_ok _, ieeeArith_adds _, ieeeArith_interp _, ieeeArith_const _, sane_some true, ⟨.inf true, List.mem_cons_self, ?_⟩, ?_, someFile_ok N (sane_some true) _ hx,
    someFile_ok N (sane_some true) _ hy⟩
  · rintro ⟨q, hq⟩
    exact nomatch hq
  · intro r hr
    obtain rfl := List.mem_singleton.1 hr
    rw [hx]
    exact someRange_size

open Classical in
/-- A run with a file of numbers and one with an infinite sample. -/
example : let A := ieeeDouble someLog (fun x k => rn 53 (x ^ k)) true
    let N := ieeeArith A
    let data : Bool → List FVal := fun b => (if b then FVal.fin 3 else FVal.inf true) :: List.replicate 999 (FVal.fin 1)
    ∃ (j : PipeJob ℚ Bool Unit Unit) (j' : PipeJob ℚ Bool Unit Unit) (s : PoolSchedule), 1 ≤ j.processes ∧ j.fnames = [true, false] ∧ j'.fnames = [true] ∧
      (∀ f ∈ j.fnames, (data f).length ≤ 2 ^ 50 ∧ ∀ r ∈ [someRange], RangeSize float32Idx (data f).length 1 r) ∧
      (∀ f ∈ j.fnames, ∃ l ps, j.searchFile f = .ok l ∧ N.processFile A float32Idx (fun l => List.range l.length) 101 51 [someRange] 1 (data f) = .ok ps ∧ l.length = ps.length) ∧
      j' = { j with fnames := j.fnames.filter (fun f => decide (∀ v ∈ data f, IsNumber v)), processes := 1 } ∧ JobSchedule j s ∧ JobSchedule j' s := by
  intro A N data
  have hl (b : Bool) : (data b).length = 1000 := by
    show ((if b then FVal.fin 3 else FVal.inf true) :: List.replicate 999 (FVal.fin 1)).length = _
    rw [List.length_cons, List.length_replicate]
  have hfil : [true, false].filter (fun f => decide (∀ v ∈ data f, IsNumber v)) = [true] := by
    have h1 : decide (∀ v ∈ data true, IsNumber v) = true := by
      rw [decide_eq_true_eq]
      intro v hv
      rcases List.mem_cons.1 hv with rfl | hv
      · exact ⟨3, rfl⟩
      · exact ⟨1, List.eq_of_mem_replicate hv⟩
    have h2 : decide (∀ v ∈ data false, IsNumber v) = false := by
      rw [decide_eq_false_iff_not]
      intro h
      obtain ⟨q, hq⟩ := h (.inf true) List.mem_cons_self
      exact nomatch hq
    rw [List.filter_cons_of_pos (p := fun f => decide (∀ v ∈ data f, IsNumber v)) h1, List.filter_cons_of_neg (p := fun f => decide (∀ v ∈ data f, IsNumber v)) (by rw [h2]; decide), List.filter_nil]
  clear_value data
  let j : PipeJob ℚ Bool Unit Unit := ⟨fun b => (N.processFile A float32Idx (fun l => List.range l.length) 101 51 [someRange] 1 (data b)).map
    (List.map fun p => ⟨1, match p.snr with | .fin q => q | _ => 0, 1, 0, 1, p.iw⟩), [true, false], 1, fun l => List.range l.length, 1, 1000, fun _ _ => .ok (false, 0), ⟨none, none, false, none⟩,
    fun _ => .ok (), fun _ _ _ => .ok ()⟩
  let s : PoolSchedule := ⟨fun _ => 1, fun _ => [0]⟩
  refine ⟨j, { j with fnames := [true] }, s, le_rfl, rfl, rfl, ?_, ?_, ?_, ?_, ?_⟩
  · intro f _
    rw [hl]
    refine ⟨by norm_num, fun r hr => ?_⟩
    obtain rfl := List.mem_singleton.1 hr
    exact someRange_size
  · intro f _
    obtain ⟨ps, hps⟩ := someFile_ok N (A := A) (sane_some true) (fun l => List.range l.length) (hl f)
    refine ⟨ps.map fun p => ⟨1, match p.snr with | .fin q => q | _ => 0, 1, 0, 1, p.iw⟩, ps, ?_, hps, List.length_map ..⟩
    show (N.processFile A float32Idx (fun l => List.range l.length) 101 51 [someRange] 1 (data f)).map _ = _
    rw [hps]
    rfl
  · show _ = { j with fnames := [true, false].filter (fun f => decide (∀ v ∈ data f, IsNumber v)), processes := 1 }
    rw [hfil]
  · intro i c hc
    match i, hc with
    | 0, hc =>
      obtain rfl := Option.some.inj (show some [true] = some c from hc)
      exact ⟨le_rfl, .refl _⟩
    | 1, hc =>
      obtain rfl := Option.some.inj (show some [false] = some c from hc)
      exact ⟨le_rfl, .refl _⟩
  · intro i c hc
    match i, hc with
    | 0, hc =>
      obtain rfl := Option.some.inj (show some [true] = some c from hc)
      exact ⟨le_rfl, .refl _⟩

end Verif.Props
