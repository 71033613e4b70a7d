import Verif.Props.CandFile

/-!
# C130: the candidates of a run

The widths of the peaks of the candidates of a run, and the files that `rffa` leaves for the candidates.
-/

namespace Verif.Props

open Verif.Model Verif.Spec Verif.Lemmas

/-! ## Where peaks come from -/

theorem mapResult_mem {β γ : Type*} {f : β → Except PyErr γ} {bs : List (List β)} : ∀ {order : List ℕ} {r : MapResult γ},
    (∀ v, some v ∈ r.value → ∀ y ∈ v, ∃ x, f x = .ok y) → ∀ v, some v ∈ (order.foldl (MapResult.set f bs) r).value → ∀ y ∈ v, ∃ x, f x = .ok y
  | [], _, h => h
  | i :: order, r, h => by
    rw [List.foldl_cons]
    refine mapResult_mem ?_
    unfold MapResult.set
    split
    · rename_i v hv _
      intro w hw y hy
      rcases List.mem_or_eq_of_mem_set hw with hw | hw
      · exact h w hw y hy
      · cases hw
        have hall := mapM_ok_inv _ _ _ hv
        obtain ⟨k, hk, rfl⟩ := List.getElem_of_mem hy
        exact ⟨_, (List.forall₂_iff_get.1 hall).2 k (by rw [hall.length_eq]; exact hk) hk⟩
    · exact h
    · exact h
    · exact h

theorem poolMap_mem {β γ : Type*} {f : β → Except PyErr γ} {size : ℕ} {order : List ℕ} {l : List β} {r : List γ} (h : poolMap f size order l = .ok r) :
    ∀ y ∈ r, ∃ x, f x = .ok y := by
  unfold poolMap at h
  simp only at h
  split at h
  · cases h
  · cases h
    intro y hy
    obtain ⟨v, hv, hy⟩ := List.mem_flatten.1 hy
    obtain ⟨o, ho, rfl⟩ := List.mem_filterMap.1 hv
    refine mapResult_mem ?_ v ho y hy
    intro w hw
    have := List.eq_of_mem_replicate hw
    cases this

theorem searchLoop_mem {β γ : Type*} {f : β → Except PyErr (List γ)} {s : PoolSchedule} : ∀ {cs : List (List β)} {k : ℕ} {r : List γ}, searchLoop f s k cs = .ok r →
    ∀ y ∈ r, ∃ x ys, f x = .ok ys ∧ y ∈ ys
  | [], _, _, h, y, hy => by cases h; simp at hy
  | c :: cs, k, r, h, y, hy => by
    rw [searchLoop] at h
    obtain ⟨p, h1, h2⟩ := bind_ok_inv h
    obtain ⟨rest, h3, rfl⟩ := map_ok_inv h2
    rcases List.mem_append.1 hy with hy | hy
    · obtain ⟨q, h4, rfl⟩ := map_ok_inv h1
      obtain ⟨ys, hys, hy⟩ := List.mem_flatten.1 hy
      obtain ⟨x, hx⟩ := poolMap_mem h4 ys hys
      exact ⟨x, ys, hx, hy⟩
    · exact searchLoop_mem h3 y hy

theorem assignRanks_peaks {K : Type*} : ∀ (l : List (ℕ × HPeak K)) (heap : ℕ → PCluster K) (r i : ℕ), (assignRanks heap r l i).peaks = (heap i).peaks
  | [], _, _, _ => rfl
  | (k, _) :: l, heap, r, i => by
    rw [assignRanks, assignRanks_peaks l]
    by_cases h : i = k
    · subst h; simp
    · simp [h]

theorem flagLoop_peaks {K : Type*} {test : HPeak K → HPeak K → Except PyErr (Bool × ℚ)} : ∀ {l : List ((ℕ × HPeak K) × (ℕ × HPeak K))} {heap heap' : ℕ → PCluster K},
    flagLoop test heap l = .ok heap' → ∀ i, (heap' i).peaks = (heap i).peaks
  | [], _, _, h, _ => by cases h; rfl
  | pair :: l, heap, heap', h, i => by
    rw [flagLoop] at h
    obtain ⟨heap1, h1, h2⟩ := bind_ok_inv h
    rw [flagLoop_peaks h2 i]
    unfold flagStep at h1
    split_ifs at h1
    · cases h1; rfl
    · obtain ⟨r, -, h3⟩ := bind_ok_inv h1
      split_ifs at h3
      · cases h3
        by_cases h : i = pair.2.1
        · subst h; simp
        · simp [h]
      · cases h3; rfl

theorem flag_peaks {K : Type*} [LinearOrder K] {test : HPeak K → HPeak K → Except PyErr (Bool × ℚ)} {heap heap' : ℕ → PCluster K} {clusters : List ℕ}
    (h : flagHarmonics test heap clusters = .ok heap') (i : ℕ) : (heap' i).peaks = (heap i).peaks := by
  unfold flagHarmonics at h
  split_ifs at h
  · cases h; rfl
  · obtain ⟨cs, -, h1⟩ := bind_ok_inv h
    rw [flagLoop_peaks h1 i, assignRanks_peaks]

/-- Every peak of a cluster was found in one of the files. -/
theorem process_mem {K β τ γ : Type*} [LinearOrder K] [Field K] {j : PipeJob K β τ γ} {s : PoolSchedule} {st : PipeState K γ} (h : PipeState.fresh.process j s = .ok st) :
    ∀ i, ∀ p ∈ (st.heap i).peaks, ∃ x ys, j.searchFile x = .ok ys ∧ p ∈ ys := by
  obtain ⟨st1, h1, h⟩ := bind_ok_inv h
  obtain ⟨st2, h2, h⟩ := bind_ok_inv h
  obtain ⟨st3, h3, h⟩ := bind_ok_inv h
  obtain ⟨st4, h4, h⟩ := bind_ok_inv h
  obtain ⟨ps, h5, rfl⟩ := map_ok_inv h1
  obtain ⟨q, h6, rfl⟩ := map_ok_inv h3
  obtain ⟨l, -, rfl⟩ := map_ok_inv h4
  obtain ⟨c, -, rfl⟩ := map_ok_inv h
  have hps : ∀ p ∈ ps, ∃ x ys, j.searchFile x = .ok ys ∧ p ∈ ys := by
    obtain ⟨l', h7, rfl⟩ := map_ok_inv h5
    intro p hp
    exact searchLoop_mem h7 p ((List.mergeSort_perm _ _).mem_iff.1 hp)
  have h2' : ∀ i, ∀ p ∈ (st2.heap i).peaks, p ∈ ps := by
    unfold PipeState.cluster at h2
    split_ifs at h2
    · cases h2
      intro i p hp
      simp [PipeState.fresh] at hp
    · obtain ⟨new, h8, rfl⟩ := map_ok_inv h2
      intro i p hp
      simp only [PipeState.addClusters, PipeState.fresh, Nat.not_lt_zero, if_false, Nat.sub_zero, heapOf] at hp
      unfold clusterPeaks at h8
      split_ifs at h8
      obtain ⟨r, -, h9⟩ := bind_ok_inv h8
      cases h9
      cases e : (cluster1d j.argsort (ps.map fun p => p.freq) r true)[i]? with
      | none => simp [e] at hp
      | some ids =>
        simp only [List.getElem?_map, e, Option.map_some, Option.getD_some, List.mem_filterMap] at hp
        obtain ⟨k, -, hk⟩ := hp
        exact List.mem_of_getElem? hk
  intro i p hp
  exact hps p (h2' i p (by rw [← flag_peaks h6 i]; exact hp))

/-- The width of a peak that `find_peaks` returns is one of the width trials. -/
theorem findPeaks_width {argsort : List ℝ → List ℕ} {fit : List ℝ → List ℝ → ℝ → ℝ} {q : PeakParams ℝ} {g : Pgram ℝ} {l : List (Peak ℝ)} (h : findPeaks argsort fit q g = .ok l) :
    ∀ p ∈ l, p.width ∈ g.widths := by
  obtain ⟨ls, h1, rfl⟩ := map_ok_inv h
  intro p hp
  obtain ⟨v, hv, hp⟩ := List.mem_flatten.1 ((List.mergeSort_perm _ _).mem_iff.1 hp)
  have hall := mapM_ok_inv _ _ _ h1
  obtain ⟨k, hk, rfl⟩ := List.getElem_of_mem hv
  have h2 := (List.forall₂_iff_get.1 hall).2 k (by rw [hall.length_eq]; exact hk) hk
  obtain ⟨ips, -, h3⟩ := map_ok_inv h2
  simp only [List.get_eq_getElem] at h3
  rw [← h3] at hp
  obtain ⟨ip, -, rfl⟩ := List.mem_map.1 hp
  simp

theorem rangeLoop_width {idx : IdxRule} {argsort : List ℝ → List ℕ} {fit : List ℝ → List ℝ → ℝ → ℝ} {id : ℕ} : ∀ {confs : List RangeConf} {w : World} {acc l : List (Peak ℝ)},
    rangeLoop idx argsort fit id w confs acc = .ok l →
    ∀ p ∈ l, p ∈ acc ∨ ∃ c ∈ confs, p.width ∈ generateWidthTrials c.search.binsMin c.search.ducyMax c.search.wtsp
  | [], _, _, _, h, p, hp => by cases h; exact .inl hp
  | c :: confs, w, acc, l, h, p, hp => by
    rw [rangeLoop] at h
    obtain ⟨r, h1, h2⟩ := bind_ok_inv h
    rcases rangeLoop_width h2 p hp with hp | ⟨c', hc', hw⟩
    · rcases List.mem_append.1 hp with hp | hp
      · exact .inl hp
      · right
        refine ⟨c, by simp, ?_⟩
        obtain ⟨r1, h3, h4⟩ := bind_ok_inv h1
        obtain ⟨g, h5, h6⟩ := bind_ok_inv h4
        obtain ⟨peaks, h7, rfl⟩ := map_ok_inv h6
        have hgw : g.widths = r1.2.2.widths := by
          unfold pgramOf at h5
          split at h5 <;> cases h5
          rfl
        have hrw : r1.2.2.widths = generateWidthTrials c.search.binsMin c.search.ducyMax c.search.wtsp := by
          obtain ⟨a1, -, h3⟩ := bind_ok_inv h3
          obtain ⟨a2, -, h3⟩ := bind_ok_inv h3
          obtain ⟨a3, -, h3⟩ := bind_ok_inv h3
          obtain ⟨a4, -, h3⟩ := bind_ok_inv h3
          cases h3
          rfl
        rw [← hrw, ← hgw]
        exact findPeaks_width h7 p hp
    · exact .inr ⟨c', List.mem_cons_of_mem _ hc', hw⟩

/-- **C130.** The width of every peak of every candidate of a run is one of the width trials of one of the search ranges of the configuration. -/
theorem C130_widths {D : Disk} {t : PipeTools} {conf v : PyVal} {c : RunConf × HarmConf} {fnames : List (List Char)} {s : PoolSchedule} {st : PipeState ℝ (CandObj ℝ)}
    (h : pipelineFiles D t conf fnames s = .ok st) (hv : validatePipelineConfig conf = .ok v) (hc : runConfOf v = .ok c) :
    ∀ x ∈ st.candidates, ∀ p ∈ x.data.peaks, ∃ g ∈ c.1.ranges, p.tag ∈ generateWidthTrials g.search.binsMin g.search.ducyMax g.search.wtsp := by
  intro x hx p hp
  rw [(pipelineFiles_candidate h x hx).2] at hp
  obtain ⟨v', -, h⟩ := bind_ok_inv h
  obtain ⟨c', -, h⟩ := bind_ok_inv h
  obtain ⟨ms, -, h⟩ := bind_ok_inv h
  obtain ⟨v', hv', h⟩ := bind_ok_inv h
  obtain ⟨c', hc', h⟩ := bind_ok_inv h
  obtain ⟨it, -, h⟩ := bind_ok_inv h
  obtain ⟨b, -, h⟩ := bind_ok_inv h
  obtain ⟨fs, -, h⟩ := bind_ok_inv h
  rw [hv] at hv'
  cases Except.ok.inj hv'
  rw [hc] at hc'
  cases Except.ok.inj hc'
  obtain ⟨f, ys, h1, h2⟩ := process_mem h _ p hp
  obtain ⟨r, -, h3⟩ := bind_ok_inv h1
  obtain ⟨l, h4, rfl⟩ := map_ok_inv h3
  obtain ⟨q, hq, rfl⟩ := List.mem_map.1 h2
  obtain ⟨o, -, h4⟩ := bind_ok_inv h4
  obtain ⟨dm, -, h4⟩ := bind_ok_inv h4
  obtain ⟨r1, -, h4⟩ := bind_ok_inv h4
  obtain ⟨r2, -, h4⟩ := bind_ok_inv h4
  obtain ⟨peaks, h5, rfl⟩ := map_ok_inv h4
  obtain ⟨q', hq', rfl⟩ := List.mem_map.1 hq
  rcases rangeLoop_width h5 q' hq' with hq' | ⟨g, hg, hw⟩
  · simp at hq'
  · obtain ⟨g', hg', rfl⟩ := List.mem_map.1 hg
    exact ⟨g', hg', hw⟩

theorem width_lt {nbins : ℕ} {ducyMax wtsp : ℝ} (h : ducyMax * nbins < 2 ^ 53) {w : ℕ} (hw : w ∈ generateWidthTrials nbins ducyMax wtsp) : w < 2 ^ 53 := by
  obtain ⟨⟨k, e, -, h2, -⟩, -, -⟩ := C24_width_trials nbins ducyMax wtsp
  rw [e, List.mem_map] at hw
  obtain ⟨i, hi, rfl⟩ := hw
  refine (h2 i (List.mem_range.1 hi)).trans_lt ?_
  rw [max_lt_iff]
  refine ⟨by norm_num, ?_⟩
  rw [Nat.floor_lt' (by norm_num)]
  exact_mod_cast h

/-! ## The files -/

/-- **C130.** The files `candidate_0000.json`, … that `rffa` leaves in the output directory hold the candidates of the run, one each, in the order of the table of candidates. Every version
of riptide reads in the file the numbers of the candidate: they were rounded to double precision, or to single precision for the signal-to-noise ratios and the sub-integrations, when they
were computed, and nothing is lost in the file. -/
theorem C130_rffa {H : Host} (hi : ∀ p, H.realpath (H.realpath p) = H.realpath p) {t : PipeTools} {o : CandOutput} {s : PoolSchedule} {a : RffaArgs} {config : List Char}
    (hc : a.config = some config) (hlog : ∀ l, a.log = some l → LogNotRead H config a.files l ∧ LogNotProduct H (a.outdir.getD H.cwd) l)
    (hinj : JoinsApart H (a.outdir.getD H.cwd)) {F F' : Files} {d : OutDir} (hdir : HoldsDir H (a.outdir.getD H.cwd) F d) (h : RffaRuns H t o s a F F' .done)
    {fc : FloatCode} (hf : FloatCode.Faithful fc binary64.Has) {double single : ℝ → ℚ} (hd : ∀ x, binary64.Has (double x)) (hs : ∀ x, binary32.Has (single x))
    {md : PCandidate ℝ (CandObj ℝ) → PyDict String PyVal} (hm : ∀ x, MetaOK (md x)) {saver : String}
    (hjson : ∀ x text, toJsonText fc saver (some 4) (candNums double single (md x) x.data).value = .ok text → o.json x = text)
    (henc : ∀ text, PlainText text → H.decode (H.encode text) = text) :
    ∃ conf v c st, readConfig H F config = .ok conf ∧ validatePipelineConfig conf = .ok v ∧ runConfOf v = .ok c ∧
      pipelineFiles (diskOf H F) t conf a.files s = .ok st ∧
      ((∀ g ∈ c.1.ranges, g.search.ducyMax * g.search.binsMin < 2 ^ 53) → ∀ r x, st.candidates[r]? = some x →
        ∃ bytes, F' (H.realpath (H.join (a.outdir.getD H.cwd) (candidateFileName r ".json".toList))) = some bytes ∧
          ∀ loader, ∃ v, fromJsonText fc loader (H.decode bytes) = .ok v ∧ ShowsObj double single v x.data ∧
            ∃ tsmeta, candAttr v "tsmeta" = some tsmeta ∧ content tsmeta = .dict (contentDict (md x))) := by
  obtain ⟨conf, st, n, plot, d', e1, e2, -, e4, e5⟩ := C118_products hi hc hlog hinj hdir h
  obtain ⟨v, hv, e2'⟩ := bind_ok_inv e2
  obtain ⟨c, hcf, -⟩ := bind_ok_inv e2'
  refine ⟨conf, v, c, st, e1, hv, hcf, e2, fun hb r x hx => ?_⟩
  have hw : ∀ p ∈ x.data.peaks, p.tag < 2 ^ 53 := by
    intro p hp
    obtain ⟨g, hg, hw⟩ := C130_widths e2 hv hcf x (List.mem_of_getElem? hx) p hp
    exact width_lt (hb g hg) hw
  have hp : st.peaks ≠ [] := by
    intro h0
    rw [pipelineFiles_no_peaks e2 h0] at hx
    cases hx
  have hsave : ∃ png, SavesProducts ⟨o.json, png⟩ st d d' := by
    cases plot with
    | false => exact ⟨none, ((C105_all none (.inl ⟨rfl, rfl⟩)).1 e4).2⟩
    | true =>
      have hno := (C105_saved e4 hp).2.1
      refine ⟨some fun x => match o.png x with | .ok i => i | .error _ => [], ((C105_all (some o.png) (.inr ⟨_, _, rfl, rfl, ?_⟩)).1 e4).2⟩
      intro x hx
      cases e : o.png x with
      | ok i => rfl
      | error er =>
        obtain ⟨_, h⟩ := hno.2 ⟨x, hx, er, e⟩
        cases h
  obtain ⟨png, hsave⟩ := hsave
  have hfile := ((C104_saved hsave hp).2.2.2.1 r x hx).1
  have hrect := (pipelineFiles_candidate e2 x (List.mem_of_getElem? hx)).1
  have hok := candNums_ok hd hs (hm x) hrect hw
  obtain ⟨h1, h2⟩ := candValue_savable hok
  obtain ⟨text, htext, -⟩ := text_reloaded hf saver saver (some 4) h1 h2
  have hjx := hjson x text htext
  have hplain : PlainText (o.json x) := by
    obtain ⟨j, h4, h5⟩ := exceptMap_inv (htext.trans (congrArg Except.ok hjx.symm))
    rw [← h5]
    exact C108_ascii hf _ 0 (toJson_floats binary64.Has saver _ j h2 h4)
  refine ⟨H.encode (o.json x), ?_, fun loader => ⟨reloaded saver (candNums double single (md x) x.data).value, ?_, showsObj_of hrect ((shows_value hok).2 saver),
    ((shows_value hok).2 saver).tsmeta⟩⟩
  · rw [e5 _ (.inr (.inr (.inr ⟨r, .inl rfl⟩))), hfile]
    rfl
  · rw [henc _ hplain]
    obtain ⟨tx, h6, h7⟩ := text_reloaded hf saver loader (some 4) h1 h2
    rw [htext, ← hjx] at h6
    cases Except.ok.inj h6
    exact h7

/-! ## A run -/

open Classical in
/-- A rounding: exact for the numbers of the format. -/
noncomputable def exactOrZero (f : FloatFormat) (x : ℝ) : ℚ := if h : ∃ q : ℚ, f.Has q ∧ (q : ℝ) = x then h.choose else 0

theorem exactOrZero_has {f : FloatFormat} (h0 : f.Has 0) (x : ℝ) : f.Has (exactOrZero f x) := by
  unfold exactOrZero
  split_ifs with h
  · exact h.choose_spec.1
  · exact h0

/-- The files of candidates, saved by version 0.2.4 of riptide; some plots. -/
noncomputable def pulsarOutput : CandOutput where
  json x := match toJsonText decimalCode "0.2.4" (some 4) (candNums (exactOrZero binary64) (exactOrZero binary32) candExample.tsmeta x.data).value with
    | .ok t => t
    | .error _ => []
  png _ := .ok []

theorem ascii_text {t : List Char} (h : PlainText t) : asciiDecode (asciiEncode t) = t := by
  unfold asciiDecode asciiEncode
  rw [List.map_map]
  conv_rhs => rw [← List.map_id t]
  refine List.map_congr_left fun c hc => ?_
  have hlt : c.toNat < 256 := by
    rcases h c hc with rfl | h
    · decide
    · omega
  simp only [Function.comp, id]
  rw [UInt8.toNat_ofNat', Nat.mod_eq_of_lt hlt, Char.ofNat_toNat]

/-- The hypotheses of `C130_widths` are met. -/
example : ∃ st, pipelineFiles pulsarDisk pulsarTools pulsarDict ["a.inf".toList] ⟨fun _ => 1, fun _ => [0]⟩ = .ok st ∧ st.candidates ≠ [] ∧
    ∀ x ∈ st.candidates, ∀ p ∈ x.data.peaks, p.tag ∈ generateWidthTrials 32 (3 / 10 : ℝ) (3 / 2) := by
  obtain ⟨st, h, x, hx, -⟩ := C103_example
  refine ⟨st, h, List.ne_nil_of_mem hx, fun x hx p hp => ?_⟩
  obtain ⟨g, hg, hw⟩ := C130_widths h (by with_unfolding_all rfl) pulsarDict_conf x hx p hp
  simp only [pulsarConf, List.mem_singleton] at hg
  rw [hg] at hw
  exact hw

/-- The hypotheses of `C130_rffa` are met, and there is a candidate: a run of `rffa` leaves a file with a candidate, and every version of riptide reads it. -/
theorem C130_example : ∃ (F' : Files) (r : ℕ) (x : PCandidate ℝ (CandObj ℝ)) (bytes : List UInt8),
    RffaRuns pulsarHost pulsarTools pulsarOutput ⟨fun _ => 1, fun _ => [0]⟩ (pulsarArgs none) pulsarFiles F' .done ∧
      F' ("out/".toList ++ candidateFileName r ".json".toList) = some bytes ∧ x.data.profile.length = 16 ∧
      ∀ loader, ∃ v, fromJsonText decimalCode loader (asciiDecode bytes) = .ok v ∧ ShowsObj (exactOrZero binary64) (exactOrZero binary32) v x.data := by
  obtain ⟨F', h⟩ := pulsar_rffa pulsarOutput
  obtain ⟨conf, v, c, st, e1, e2, e3, e4, key⟩ := C130_rffa (H := pulsarHost) (fun _ => rfl) (a := pulsarArgs none) rfl (fun l hl => by cases hl) (fun x y _ _ h => by
      have : "out".toList ++ '/' :: x = "out".toList ++ '/' :: y := h
      simpa using this) (d := fun _ => none) (fun name _ => by
      show pulsarFiles ("out".toList ++ '/' :: name) = none
      unfold pulsarFiles
      rw [if_neg (by simp), if_neg (by simp), if_neg (by simp)]) h (fc := decimalCode) (fun q hq => decimalCode_faithful q (binary64_finite hq))
    (double := exactOrZero binary64) (single := exactOrZero binary32) (exactOrZero_has (has_small 0 (by norm_num) (by norm_num)).2)
    (exactOrZero_has (has_small 0 (by norm_num) (by norm_num)).1) (md := fun _ => candExample.tsmeta)
    (fun _ => ⟨candExample_ok.keys, candExample_ok.savable, candExample_ok.floats⟩) (saver := "0.2.4")
    (fun x text ht => by simp only [pulsarOutput, ht]) (fun text ht => ascii_text ht)
  rw [pulsarFiles_conf] at e1
  cases Except.ok.inj e1
  have hv : validatePipelineConfig pulsarDict = .ok pulsarDict := by with_unfolding_all rfl
  rw [hv] at e2
  cases Except.ok.inj e2
  rw [pulsarDict_conf] at e3
  cases Except.ok.inj e3
  obtain ⟨st', h1, x, hx, -, hprof⟩ := C103_example
  have e4' : pipelineFiles (diskOf pulsarHost pulsarFiles) pulsarTools pulsarDict ["a.inf".toList] ⟨fun _ => 1, fun _ => [0]⟩ = .ok st := e4
  rw [pulsarFiles_disk, h1] at e4'
  cases Except.ok.inj e4'
  obtain ⟨r, hr⟩ := List.getElem?_of_mem hx
  obtain ⟨bytes, k1, k2⟩ := key (by
    intro g hg
    simp only [pulsarConf, List.mem_singleton] at hg
    rw [hg]
    norm_num [pulsarRange]) r x hr
  exact ⟨F', r, x, bytes, h, k1, hprof, fun loader => (k2 loader).imp fun v hv => ⟨hv.1, hv.2.1⟩⟩

end Verif.Props
