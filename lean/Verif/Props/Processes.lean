import Verif.Props.Repeat

/-!
# C139: the number of processes does not matter
-/

namespace Verif.Props

open Verif.Model Verif.Spec Verif.Lemmas

/-! ## The configuration -/

theorem schemaItems_set {items : List (String × Bool × SchemaFn)} {k : String} {v w : PyVal} {s : SchemaFn} (hs : schemaLookup items k = some s) (hw : s v = .ok w) :
    ∀ {d r : List (String × PyVal)}, schemaItems items d = .ok r → schemaItems items (dictSet d k v) = .ok (dictSet r k w)
  | [], r, h => by
    cases h
    simp only [dictSet, schemaItems, hs]
    rw [hw]
    rfl
  | (k', v') :: d, r, h => by
    simp only [schemaItems] at h
    rcases e : schemaLookup items k' with _ | s'
    · rw [e] at h
      cases h
    rw [e] at h
    simp only at h
    obtain ⟨w', h1, h⟩ := bind_ok_inv h
    obtain ⟨r', h2, rfl⟩ := map_ok_inv h
    by_cases hk : k' = k
    · subst hk
      rw [e] at hs
      cases hs
      simp only [dictSet, if_true, schemaItems]
      rw [e]
      simp only
      rw [hw, h2]
      rfl
    · simp only [dictSet, if_neg hk, schemaItems]
      rw [e]
      simp only
      rw [h1, schemaItems_set hs hw h2]
      rfl

theorem schemaItems_get {items : List (String × Bool × SchemaFn)} {k : String} {w : PyVal} : ∀ {d r : List (String × PyVal)}, schemaItems items d = .ok r → dictGet r k = some w →
    ∃ s v, schemaLookup items k = some s ∧ s v = .ok w
  | [], r, h, hk => by
    cases h
    cases hk
  | (k', v') :: d, r, h, hk => by
    simp only [schemaItems] at h
    rcases e : schemaLookup items k' with _ | s'
    · rw [e] at h
      cases h
    rw [e] at h
    simp only at h
    obtain ⟨w', h1, h⟩ := bind_ok_inv h
    obtain ⟨r', h2, rfl⟩ := map_ok_inv h
    by_cases hkk : k' = k
    · subst hkk
      rw [dictGet, if_pos rfl] at hk
      cases hk
      exact ⟨s', v', e, h1⟩
    · rw [dictGet, if_neg hkk] at hk
      exact schemaItems_get h2 hk

theorem posInt_int {k : ℤ} (hk : 1 ≤ k) : posIntSchema (.int k) = .ok (.int k) := by
  unfold posIntSchema schemaAnd schemaInt strictlyPositive schemaPred greaterThan
  simp only [Except.bind]
  rw [decide_eq_true (by exact_mod_cast (by omega : (0 : ℤ) < k))]

theorem posInt_count {v w : PyVal} (h : posIntSchema v = .ok w) : ∃ n, pyCount w = .ok n ∧ 1 ≤ n := by
  unfold posIntSchema schemaAnd at h
  obtain ⟨u, h1, h2⟩ := bind_ok_inv h
  unfold strictlyPositive schemaPred at h2
  cases v <;> simp only [schemaInt] at h1 <;> cases h1
  · rename_i b
    cases b
    · simp [greaterThan] at h2
    · simp [greaterThan] at h2
      exact ⟨1, by rw [← h2]; rfl, le_refl _⟩
  · rename_i i
    by_cases hi : 0 < i
    · simp [greaterThan, hi] at h2
      exact ⟨i.toNat, by rw [← h2]; simp [pyCount, hi.le], by omega⟩
    · simp [greaterThan, hi] at h2

theorem schemaDict_set {items : List (String × Bool × SchemaFn)} {d : List (String × PyVal)} {w : PyVal} (h : schemaDict items (.dict d) = .ok w) :
    ∃ r, w = .dict r ∧ schemaItems items d = .ok r ∧ ∀ k s v u, schemaLookup items k = some s → s v = .ok u → schemaDict items (.dict (dictSet d k v)) = .ok (.dict (dictSet r k u)) := by
  unfold schemaDict at h ⊢
  simp only at h ⊢
  obtain ⟨r, h1, h2⟩ := bind_ok_inv h
  split_ifs at h2 with hall
  cases h2
  refine ⟨r, rfl, h1, fun k s v u hs hu => ?_⟩
  rw [schemaItems_set hs hu h1]
  simp only [Except.bind]
  rw [if_pos]
  rw [List.all_eq_true] at hall ⊢
  intro it hit
  have := hall it hit
  rw [Bool.or_eq_true] at this ⊢
  refine this.imp id fun h => ?_
  rw [dictGet_set]
  split_ifs
  · rfl
  · exact h

/-- The configuration with another number of processes is valid as well, and differs only in that number. -/
theorem validate_processes {d : List (String × PyVal)} {v : PyVal} (h : validatePipelineConfig (.dict d) = .ok v) :
    ∃ r, v = .dict r ∧ (∀ w, dictGet r "processes" = some w → ∃ n, pyCount w = .ok n ∧ 1 ≤ n) ∧
      ∀ k : ℤ, 1 ≤ k → validatePipelineConfig (.dict (dictSet d "processes" (.int k))) = .ok (.dict (dictSet r "processes" (.int k))) := by
  unfold validatePipelineConfig at h ⊢
  rcases e : pipelineConfigSchema (.dict d) with er | w
  · rw [e] at h
    cases h
  rw [e] at h
  cases h
  obtain ⟨r, rfl, h1, h2⟩ := schemaDict_set e
  refine ⟨r, rfl, fun w hw => ?_, fun k hk => ?_⟩
  · obtain ⟨s, u, k1, k2⟩ := schemaItems_get h1 hw
    simp [schemaLookup] at k1
    subst k1
    exact posInt_count k2
  · have h3 : pipelineConfigSchema (.dict (dictSet d "processes" (.int k))) = .ok (.dict (dictSet r "processes" (.int k))) :=
      h2 "processes" posIntSchema (.int k) (.int k) (by simp [schemaLookup]) (posInt_int hk)
    rw [h3]

theorem required_set {β : Type*} (conv : PyVal → Except PyErr β) {d : List (String × PyVal)} {k k' : String} (h : k ≠ k') (v : PyVal) :
    required conv (dictSet d k v) k' = required conv d k' := by
  unfold required
  rw [dictGet_set, if_neg h]

theorem runConf_processes {r : List (String × PyVal)} {c : RunConf × HarmConf} {k : ℤ} (hk : 1 ≤ k) (h : runConfOf (.dict r) = .ok c) :
    runConfOf (.dict (dictSet r "processes" (.int k))) = .ok ({ c.1 with processes := k.toNat }, c.2) := by
  have hp : prepConfOf (.dict (dictSet r "processes" (.int k))) = prepConfOf (.dict r) := by
    unfold prepConfOf
    simp only [pyDict, Except.bind]
    rw [required_set _ (by decide), required_set _ (by decide), required_set _ (by decide)]
  unfold runConfOf at h ⊢
  rw [hp]
  obtain ⟨prep, h1, h⟩ := bind_ok_inv h
  obtain ⟨conf, h2, h⟩ := bind_ok_inv h
  cases h2
  obtain ⟨p, h3, h⟩ := bind_ok_inv h
  obtain ⟨der, h4, h⟩ := bind_ok_inv h
  obtain ⟨width, h5, h⟩ := bind_ok_inv h
  obtain ⟨minpts, h6, h⟩ := bind_ok_inv h
  obtain ⟨rs, h7, h⟩ := bind_ok_inv h
  obtain ⟨ranges, h8, h⟩ := bind_ok_inv h
  obtain ⟨clust, h9, h⟩ := bind_ok_inv h
  obtain ⟨radius, h10, h⟩ := bind_ok_inv h
  obtain ⟨hd, h11, h⟩ := bind_ok_inv h
  obtain ⟨harm, h12, h⟩ := bind_ok_inv h
  obtain ⟨fd, h13, h⟩ := bind_ok_inv h
  obtain ⟨filters, h14, h⟩ := bind_ok_inv h
  cases h
  have hq : required pyCount (dictSet r "processes" (.int k)) "processes" = .ok k.toNat := by
    unfold required
    rw [dictGet_set, if_pos rfl]
    simp only [pyCount]
    rw [if_pos (by omega)]
  simp only [pyDict]
  rw [h1]
  simp only [Except.bind]
  rw [hq]
  simp only
  rw [required_set _ (by decide), h4]
  simp only
  rw [h5, h6]
  simp only
  rw [required_set _ (by decide), h7]
  simp only
  rw [h8]
  simp only
  rw [required_set _ (by decide), h9]
  simp only
  rw [h10]
  simp only
  rw [required_set _ (by decide), h11]
  simp only
  rw [h12]
  simp only
  rw [required_set _ (by decide), h13]
  simp only
  rw [h14]

theorem runConf_pos {r : List (String × PyVal)} {c : RunConf × HarmConf} (hr : ∀ w, dictGet r "processes" = some w → ∃ n, pyCount w = .ok n ∧ 1 ≤ n)
    (h : runConfOf (.dict r) = .ok c) : 1 ≤ c.1.processes := by
  unfold runConfOf at h
  obtain ⟨prep, h1, h⟩ := bind_ok_inv h
  obtain ⟨conf, h2, h⟩ := bind_ok_inv h
  cases h2
  obtain ⟨p, h3, h⟩ := bind_ok_inv h
  iterate 11 obtain ⟨_, -, h⟩ := bind_ok_inv h
  cases h
  unfold required at h3
  rcases e : dictGet r "processes" with _ | w
  · rw [e] at h3
    cases h3
  rw [e] at h3
  obtain ⟨n, k1, k2⟩ := hr w e
  simp only at h3
  rw [k1] at h3
  cases h3
  exact k2

/-! ## The search -/

/-- Two schedules that are possible for a run with the configuration `v` with `c.processes` and with `n` processes. -/
def MayRunWith (c : RunConf) (n : ℕ) (ms : List FileMeta) (s s' : PoolSchedule) : Prop :=
  ∀ it fnames, prepare c.prepConf ms = .ok it → it.selectedDms.mapM (getFilename it) = .ok fnames →
    ValidSchedule s 0 (chunkLoop c.processes fnames []) ∧ ValidSchedule s' 0 (chunkLoop n fnames [])

/-- **C139.** A pipeline that is run with another number of processes ends with the same peaks, clusters, candidates. -/
theorem C139_run {t : PipeTools} {d : List (String × PyVal)} {ms : List FileMeta} {s s' : PoolSchedule} {k : ℤ} (hk : 1 ≤ k)
    (hs : ∀ v c, validatePipelineConfig (.dict d) = .ok v → runConfOf v = .ok c → MayRunWith c.1 k.toNat ms s s')
    {st : PipeState ℝ (CandObj ℝ)} (hr : pipelineRun t (.dict d) ms s = .ok st) : pipelineRun t (.dict (dictSet d "processes" (.int k))) ms s' = .ok st := by
  unfold pipelineRun at hr ⊢
  obtain ⟨v, hv, hr⟩ := bind_ok_inv hr
  obtain ⟨c, hc, hr⟩ := bind_ok_inv hr
  obtain ⟨it, hit, hr⟩ := bind_ok_inv hr
  obtain ⟨b, hb, hr⟩ := bind_ok_inv hr
  obtain ⟨fnames, hfn, hr⟩ := bind_ok_inv hr
  obtain ⟨h1, h2⟩ := hs v c hv hc it fnames hit hfn
  obtain ⟨r, hvr, hpos, hval⟩ := validate_processes hv
  rw [hvr] at hc
  unfold PipeState.process PipeState.search at hr
  obtain ⟨st1, h3, hr⟩ := bind_ok_inv hr
  obtain ⟨peaks, h4, rfl⟩ := map_ok_inv h3
  have h5 := (C47_two_runs (processFile (t.env c.2 (tobsMedian ms) b.1 b.2.1) c.1) fnames c.1.processes k.toNat (runConf_pos hpos hc) (by omega) s s' h1 h2 peaks).1 h4
  rw [hval k hk]
  simp only [Except.bind]
  rw [runConf_processes hk hc]
  simp only
  have hit' : prepare (RunConf.prepConf { c.1 with processes := k.toNat }) ms = .ok it := hit
  have hb' : iterBand (RunConf.prepConf { c.1 with processes := k.toNat }) ms = .ok b := hb
  rw [hit', hb']
  simp only
  rw [hfn]
  simp only
  unfold PipeState.process PipeState.search
  have h6 : pipelineSearch (pipelineJob (t.env c.2 (tobsMedian ms) b.1 b.2.1) { c.1 with processes := k.toNat } ms it fnames).searchFile s'
      (pipelineJob (t.env c.2 (tobsMedian ms) b.1 b.2.1) { c.1 with processes := k.toNat } ms it fnames).processes
      (pipelineJob (t.env c.2 (tobsMedian ms) b.1 b.2.1) { c.1 with processes := k.toNat } ms it fnames).fnames = .ok peaks := h5
  rw [h6]
  exact hr

/-- C139, with the files that are read. -/
theorem C139_files {D : Disk} {t : PipeTools} {d : List (String × PyVal)} {files : List (List Char)} {s s' : PoolSchedule} {k : ℤ} (hk : 1 ≤ k)
    (hs : ∀ v c ms, validatePipelineConfig (.dict d) = .ok v → runConfOf v = .ok c → loadMetas D c.1.prep.fmt files = .ok ms → MayRunWith c.1 k.toNat ms s s')
    {st : PipeState ℝ (CandObj ℝ)} (hr : pipelineFiles D t (.dict d) files s = .ok st) : pipelineFiles D t (.dict (dictSet d "processes" (.int k))) files s' = .ok st := by
  unfold pipelineFiles at hr ⊢
  obtain ⟨v, hv, hr⟩ := bind_ok_inv hr
  obtain ⟨c, hc, hr⟩ := bind_ok_inv hr
  obtain ⟨ms, hm, hr⟩ := bind_ok_inv hr
  have hr' := C139_run hk (s' := s') (fun v' c' hv' hc' => by
    rw [hv] at hv'
    cases hv'
    rw [hc] at hc'
    cases hc'
    exact hs v c ms hv hc hm) hr
  obtain ⟨r, hvr, -, hval⟩ := validate_processes hv
  rw [hvr] at hc
  rw [hval k hk]
  simp only [Except.bind]
  rw [runConf_processes hk hc]
  simp only
  rw [hm]
  exact hr'

/-! ## Saving -/

theorem batchRun_flatten {β ω : Type*} (w : β → List ω × Option PyErr) : ∀ {l : List β}, (∀ x ∈ l, (w x).2 = none) → (batchRun w l).1 = (l.map fun x => (w x).1).flatten
  | [], _ => rfl
  | x :: l, h => by
    rw [batchRun, h x (by simp)]
    simp only [List.map_cons, List.flatten_cons]
    rw [batchRun_flatten w fun y hy => h y (List.mem_cons_of_mem _ hy)]

theorem batches_written {β ω : Type*} (w : β → List ω × Option PyErr) {c : ℕ} (hc : 1 ≤ c) {l : List β} (h : ∀ x ∈ l, (w x).2 = none) :
    (((batches c l).map (batchRun w)).map Prod.fst).flatten = (l.map fun x => (w x).1).flatten := by
  have h1 : ((batches c l).map (batchRun w)).map Prod.fst = (batches c l).map fun b => (b.map fun x => (w x).1).flatten := by
    rw [List.map_map]
    refine List.map_congr_left fun b hb => ?_
    refine batchRun_flatten w fun x hx => h x ?_
    rw [← runs_flatten hc l]
    exact List.mem_flatten.mpr ⟨b, hb, hx⟩
  rw [h1]
  conv_rhs => rw [← runs_flatten hc l]
  rw [List.map_flatten, List.flatten_flatten, List.map_map]
  rfl

theorem writerRuns_ok (json : PCandidate ℝ (CandObj ℝ) → List Char) (plot : Option (PCandidate ℝ (CandObj ℝ) → Except PyErr (List Char))) (n : ℕ) (cands : List (PCandidate ℝ (CandObj ℝ))) :
    (∀ r ∈ writerRuns json plot n cands, r.2 = none) ↔ ∀ x ∈ cands.zipIdx, (writerCall json plot x).2 = none := by
  rcases cands with _ | ⟨x, l⟩
  · simp [writerRuns, batches, chunkLoop]
  · exact runs_ok _ (mapChunk_pos (by simp)) _

theorem writerRuns_written {json : PCandidate ℝ (CandObj ℝ) → List Char} {plot : Option (PCandidate ℝ (CandObj ℝ) → Except PyErr (List Char))} {n : ℕ}
    {cands : List (PCandidate ℝ (CandObj ℝ))} (h : ∀ r ∈ writerRuns json plot n cands, r.2 = none) :
    ((writerRuns json plot n cands).map Prod.fst).flatten = (cands.zipIdx.map fun x => (writerCall json plot x).1).flatten := by
  have h' := (writerRuns_ok json plot n cands).mp h
  rcases cands with _ | ⟨x, l⟩
  · simp [writerRuns, batches, chunkLoop]
  · exact batches_written _ (mapChunk_pos (by simp)) h'

/-- **C139.** Saving with another number of processes succeeds as well, and writes the same files. -/
theorem C139_saves {H : Host} {outdir : List Char} {o : CandOutput} {n n' : ℕ} {plot : Bool} {st : PipeState ℝ (CandObj ℝ)} {F F' : Files} :
    SavesTo H outdir o n plot st F F' (.ok ()) → SavesTo H outdir o n' plot st F F' (.ok ()) := by
  unfold SavesTo
  by_cases hk : st.peaks.length = 0
  · simp only [if_pos hk]
    exact id
  · simp only [if_neg hk]
    rintro ⟨tables, order, ht, ho, hF, ⟨-, hr⟩ | ⟨e, he, -⟩⟩
    · have hr' := (writerRuns_ok _ _ n' _).mpr ((writerRuns_ok _ _ n _).mp hr)
      refine ⟨tables, order, ht, ?_, hF, .inl ⟨trivial, hr'⟩⟩
      rw [writerRuns_written hr']
      rw [writerRuns_written hr] at ho
      exact ho
    · cases he

/-! ## Runs of the program -/

theorem saveConf_processes {d : List (String × PyVal)} {k : ℤ} (hk : 1 ≤ k) {n : ℕ} {plot : Bool} (h : saveConfOf (.dict d) = .ok (n, plot)) :
    saveConfOf (.dict (dictSet d "processes" (.int k))) = .ok (k.toNat, plot) := by
  unfold saveConfOf at h ⊢
  obtain ⟨v, h1, h⟩ := bind_ok_inv h
  obtain ⟨r, rfl, -, hval⟩ := validate_processes h1
  simp only [pyDict] at h ⊢
  obtain ⟨r', h2, h⟩ := bind_ok_inv h
  cases h2
  obtain ⟨m, h3, h⟩ := bind_ok_inv h
  obtain ⟨b, h4, h⟩ := map_ok_inv h
  cases h
  rw [hval k hk]
  simp only [Except.bind]
  have hq : required pyCount (dictSet r "processes" (.int k)) "processes" = .ok k.toNat := by
    unfold required
    rw [dictGet_set, if_pos rfl]
    simp only [pyCount]
    rw [if_pos (by omega)]
  rw [hq]
  simp only
  rw [required_set _ (by decide), h4]
  rfl

/-- Two configurations of `rffa`, such that the pipeline ends normally with the second if it does so with the first: what two runs of the program save, if the first ends normally. -/
theorem rffa_done_parts {H : Host} (hi : ∀ p, H.realpath (H.realpath p) = H.realpath p) {t : PipeTools} {o : CandOutput} {s s' : PoolSchedule} {a : RffaArgs} {config : List Char}
    (hc : a.config = some config) (hl : ∀ l, a.log = some l → LogNotRead H config a.files l)
    {F F' G G' : Files} {out' : RffaEnd} {conf conf' : PyVal} (hF : readConfig H F config = .ok conf) (hG : readConfig H G config = .ok conf')
    (hfile : ∀ f ∈ a.files, F (H.realpath f) = G (H.realpath f))
    (hdata : ∀ f ∈ a.files, F (H.realpath (dataFname (H.realpath f))) = G (H.realpath (dataFname (H.realpath f))))
    {R : PipeState ℝ (CandObj ℝ) → PipeState ℝ (CandObj ℝ) → Prop}
    (hpipe : ∀ st, pipelineFiles (diskOf H F) t conf a.files s = .ok st → ∃ st', pipelineFiles (diskOf H F) t conf' a.files s' = .ok st' ∧ R st st')
    (h : RffaRuns H t o s a F F' .done) (h' : RffaRuns H t o s' a G G' out') :
    ∃ st st' n plot n' plot' F1 G1 res' x x', pipelineFiles (diskOf H F) t conf a.files s = .ok st ∧ R st st' ∧ saveConfOf conf = .ok (n, plot) ∧ saveConfOf conf' = .ok (n', plot') ∧
      SavesTo H (a.outdir.getD H.cwd) o n plot st (withLog H F a []) F1 (.ok ()) ∧ SavesTo H (a.outdir.getD H.cwd) o n' plot' st' (withLog H G a []) G1 res' ∧
      F' = withLog H F1 a x ∧ G' = withLog H G1 a x' ∧ out' = endOf res' := by
  unfold RffaRuns at h h'
  rcases e : rffaParse H a with _ | ⟨c, dir, fs⟩
  · rw [e] at h
    cases h.1
  have hparts : c = config ∧ dir = a.outdir.getD H.cwd ∧ fs = a.files ∧ a.files ≠ [] := by
    unfold rffaParse at e
    rw [hc] at e
    simp only at e
    split_ifs at e with hif
    cases e
    exact ⟨rfl, rfl, rfl, hif.2.2⟩
  obtain ⟨rfl, rfl, rfl, hne⟩ := hparts
  rw [e] at h h'
  simp only at h h'
  rcases ho : openLog H F a with er | F0
  · rw [ho] at h
    cases h.1
  have ho' : openLog H G a = .ok (withLog H G a []) := by
    unfold openLog at ho ⊢
    unfold withLog
    generalize a.log = L at ho ⊢
    rcases L with _ | l
    · rfl
    · simp only at ho ⊢
      generalize H.openError l = E at ho ⊢
      rcases E with _ | e
      · rfl
      · cases ho
  rw [ho] at h
  rw [ho'] at h'
  obtain rfl := openLog_ok ho
  simp only at h h'
  have same : ∀ (F : Files) x, SameInputs H c a.files (withLog H (withLog H F a []) a x) F := fun F x => (sameInputs_log hl _ x).trans (sameInputs_log hl F [])
  obtain ⟨t0, t1, t2, -, -, -, h⟩ := h
  obtain ⟨u0, u1, u2, -, -, -, h'⟩ := h'
  rw [(same F t0).readConfig, hF] at h
  rw [(same G u0).readConfig, hG] at h'
  simp only at h h'
  have hFG : ∀ conf s, pipelineFiles (diskOf H G) t conf a.files s = pipelineFiles (diskOf H F) t conf a.files s := by
    obtain ⟨f, hf⟩ := List.exists_mem_of_ne_nil _ hne
    have hsame : SameInputs H f a.files G F := ⟨(hfile f hf).symm, fun g hg => (hfile g hg).symm, fun g hg => (hdata g hg).symm⟩
    exact fun conf s => hsame.pipelineFiles hi t conf s
  rw [(same F t1).pipelineFiles hi] at h
  rw [(same G u1).pipelineFiles hi, hFG] at h'
  rcases hp : pipelineFiles (diskOf H F) t conf a.files s with er | st
  · rw [hp] at h
    cases h.1
  rw [hp] at h
  obtain ⟨st', hp', hR⟩ := hpipe st hp
  rw [hp'] at h'
  simp only at h h'
  obtain ⟨n, plot, F1, res, k1, k2, k3, k4⟩ := h
  obtain ⟨n', plot', G1, res', l1, l2, l3, l4⟩ := h'
  have hres := (endOf_done res).mp k4.symm
  subst hres
  exact ⟨st, st', n, plot, n', plot', F1, G1, res', t2, u2, rfl, hR, k1, l1, k2, l2, k3, l3, l4⟩

theorem putAll_log {H : Host} {outdir : List Char} (hinj : JoinsApart H outdir) {W : List (List Char × List Char)} (hW : Written W) {a : RffaArgs} {p : List Char}
    (hp : ∀ l, a.log = some l → p ≠ H.realpath l) (F : Files) (x : List UInt8) : withLog H ((withLog H F a []).putAll H outdir W) a x p = F.putAll H outdir W p := by
  rw [withLog_other hp]
  by_cases hm : ∃ w ∈ W, p = H.realpath (H.join outdir w.1)
  · obtain ⟨w, hw, rfl⟩ := hm
    rw [putAll_mem hinj hW.products hW.nodup w hw, putAll_mem hinj hW.products hW.nodup w hw]
  · rw [putAll_other fun w hw e => hm ⟨w, hw, e⟩, putAll_other fun w hw e => hm ⟨w, hw, e⟩, withLog_other hp]

/-- Two configurations of `rffa` with which the pipeline ends in the same state: if a run with the first ends normally, then so does a run with the second, and it overwrites the same files with the same
content, except for the log. -/
theorem rffa_done_congr {H : Host} (hi : ∀ p, H.realpath (H.realpath p) = H.realpath p) {t : PipeTools} {o : CandOutput} {s s' : PoolSchedule} {a : RffaArgs} {config : List Char}
    (hc : a.config = some config) (hl : ∀ l, a.log = some l → LogNotRead H config a.files l ∧ LogNotProduct H (a.outdir.getD H.cwd) l) (hinj : JoinsApart H (a.outdir.getD H.cwd))
    {F F' G G' : Files} {out' : RffaEnd} {conf conf' : PyVal} (hF : readConfig H F config = .ok conf) (hG : readConfig H G config = .ok conf')
    (hfile : ∀ f ∈ a.files, F (H.realpath f) = G (H.realpath f))
    (hdata : ∀ f ∈ a.files, F (H.realpath (dataFname (H.realpath f))) = G (H.realpath (dataFname (H.realpath f))))
    (hpipe : ∀ st, pipelineFiles (diskOf H F) t conf a.files s = .ok st → pipelineFiles (diskOf H F) t conf' a.files s' = .ok st)
    (hsave : ∀ n plot, saveConfOf conf = .ok (n, plot) → ∃ n', saveConfOf conf' = .ok (n', plot))
    (h : RffaRuns H t o s a F F' .done) (h' : RffaRuns H t o s' a G G' out') :
    out' = .done ∧ ∃ W, Written W ∧
      ∀ p, (∀ l, a.log = some l → p ≠ H.realpath l) → F' p = F.putAll H (a.outdir.getD H.cwd) W p ∧ G' p = G.putAll H (a.outdir.getD H.cwd) W p := by
  obtain ⟨st, st', n, plot, n', plot', F1, G1, res', x, x', -, rfl, k1, l1, k2, l2, rfl, rfl, l4⟩ := rffa_done_parts (R := Eq) hi hc (fun l e => (hl l e).1) hF hG hfile hdata
    (fun st h => ⟨st, hpipe st h, rfl⟩) h h'
  obtain ⟨m, hm⟩ := hsave n plot k1
  rw [hm] at l1
  obtain ⟨rfl, rfl⟩ := Prod.mk.inj (Except.ok.inj l1)
  obtain ⟨W, hW, w1, w2⟩ := savesTo_written hinj (C139_saves (n' := m) k2)
  obtain ⟨w3, w4⟩ := w2 _ G1 res' l2
  refine ⟨by rw [l4, w4.mpr rfl]; rfl, W, hW, fun p hp => ?_⟩
  rw [w1, w3]
  exact ⟨putAll_log hinj hW hp F x, putAll_log hinj hW hp G x'⟩

/-- **C139.** `rffa` with another number of processes: if a run ends normally, then so does a run with a configuration that differs in the number of processes only, and it overwrites the same files with the
same content, except for the log. -/
theorem C139_rffa {H : Host} (hi : ∀ p, H.realpath (H.realpath p) = H.realpath p) {t : PipeTools} {o : CandOutput} {s s' : PoolSchedule} {a : RffaArgs} {config : List Char}
    (hc : a.config = some config) (hl : ∀ l, a.log = some l → LogNotRead H config a.files l ∧ LogNotProduct H (a.outdir.getD H.cwd) l) (hinj : JoinsApart H (a.outdir.getD H.cwd))
    {F F' G G' : Files} {out' : RffaEnd} {d : List (String × PyVal)} {k : ℤ} (hk : 1 ≤ k) (hF : readConfig H F config = .ok (.dict d))
    (hG : readConfig H G config = .ok (.dict (dictSet d "processes" (.int k)))) (hfile : ∀ f ∈ a.files, F (H.realpath f) = G (H.realpath f))
    (hdata : ∀ f ∈ a.files, F (H.realpath (dataFname (H.realpath f))) = G (H.realpath (dataFname (H.realpath f))))
    (hs : ∀ v c ms, validatePipelineConfig (.dict d) = .ok v → runConfOf v = .ok c → loadMetas (diskOf H F) c.1.prep.fmt a.files = .ok ms → MayRunWith c.1 k.toNat ms s s')
    (h : RffaRuns H t o s a F F' .done) (h' : RffaRuns H t o s' a G G' out') :
    out' = .done ∧ ∃ W, Written W ∧
      ∀ p, (∀ l, a.log = some l → p ≠ H.realpath l) → F' p = F.putAll H (a.outdir.getD H.cwd) W p ∧ G' p = G.putAll H (a.outdir.getD H.cwd) W p := by
  exact rffa_done_congr hi hc hl hinj hF hG hfile hdata (fun st => C139_files hk hs) (fun n plot hn => ⟨_, saveConf_processes hk hn⟩) h h'

/-! ## An example -/

/-- The sections of the configuration `pulsarDict`. -/
noncomputable def pulsarItems : List (String × PyVal) :=
  match pulsarDict with
  | .dict d => d
  | _ => []

theorem pulsarItems_dict : pulsarDict = .dict pulsarItems := by with_unfolding_all rfl

/-- The same with `processes: 4`. -/
def pulsarNode4 : YamlNode :=
  match pulsarNode with
  | .map l => .map (("processes", .plain ['4']) :: l.tail)
  | n => n

theorem pulsarNode4_dict : pulsarNode4.construct = .ok (.dict (dictSet pulsarItems "processes" (.int 4))) := by with_unfolding_all rfl

/-- Its text. -/
def pulsarYaml4 : List Char := "# Four processes".toList

/-- The machine of C118, which knows both texts. -/
noncomputable def pulsarHost4 : Host := { pulsarHost with parseYaml := fun t => .ok (if t = pulsarYaml then pulsarNode else if t = pulsarYaml4 then pulsarNode4 else .quoted t) }

/-- The same files with the other configuration. -/
noncomputable def pulsarFiles4 : Files := fun p => if p = "c.yaml".toList then some (asciiEncode pulsarYaml4) else pulsarFiles p

theorem pulsar4_conf : readConfig pulsarHost4 pulsarFiles "c.yaml".toList = .ok (.dict pulsarItems) := by
  have h : pulsarFiles (pulsarHost4.realpath "c.yaml".toList) = some (asciiEncode pulsarYaml) := by
    show pulsarFiles "c.yaml".toList = _
    unfold pulsarFiles
    rw [if_neg (by decide +kernel), if_neg (by decide +kernel), if_pos rfl]
  unfold readConfig
  rw [h]
  show (Except.ok (if asciiDecode (asciiEncode pulsarYaml) = pulsarYaml then pulsarNode else _)).bind _ = _
  rw [if_pos pulsarYaml_text]
  show pulsarNode.construct.bind jsonChecked = _
  rw [pulsarNode_dict]
  with_unfolding_all rfl

theorem pulsar4_conf4 : readConfig pulsarHost4 pulsarFiles4 "c.yaml".toList = .ok (.dict (dictSet pulsarItems "processes" (.int 4))) := by
  have h : pulsarFiles4 (pulsarHost4.realpath "c.yaml".toList) = some (asciiEncode pulsarYaml4) := by
    show pulsarFiles4 "c.yaml".toList = _
    unfold pulsarFiles4
    rw [if_pos rfl]
  unfold readConfig
  rw [h]
  show (Except.ok (if asciiDecode (asciiEncode pulsarYaml4) = pulsarYaml then pulsarNode else if asciiDecode (asciiEncode pulsarYaml4) = pulsarYaml4 then pulsarNode4 else _)).bind _ = _
  rw [if_neg (by decide +kernel), if_pos (by decide +kernel)]
  show pulsarNode4.construct.bind jsonChecked = _
  rw [pulsarNode4_dict]
  with_unfolding_all rfl

theorem pulsar4_may (ms : List FileMeta) {v : PyVal} {c : RunConf × HarmConf} (hv : validatePipelineConfig (.dict pulsarItems) = .ok v) (hc : runConfOf v = .ok c) :
    MayRunWith c.1 4 ms ⟨fun _ => 1, fun _ => [0]⟩ ⟨fun _ => 5, fun _ => [0]⟩ := by
  have one : ∀ {n p : ℕ} (fnames : List String), 1 ≤ p → p ≤ n → ValidSchedule ⟨fun _ => n, fun _ => [0]⟩ 0 (chunkLoop p fnames []) := by
    intro n p fnames hp hpn i ch hi
    obtain ⟨h5, h6⟩ := (chunkLoop_spec p hp fnames [] (by rw [List.length_nil]; omega)).2.1 ch (List.mem_of_getElem? hi)
    refine ⟨by show 1 ≤ n; omega, ?_⟩
    show List.Perm [0] (List.range (batches n ch).length)
    have : (batches n ch).length = 1 := by
      rw [batches_cons (by omega) (by intro h; rw [h] at h5; simp at h5), List.drop_of_length_le (by omega), batches_nil]
      rfl
    rw [this]
    exact .refl _
  obtain ⟨v', hv', -, -, hc'⟩ := pulsar_pipeline_ok.conf
  rw [pulsarItems_dict, hv] at hv'
  rw [Except.ok.inj hv', hc'] at hc
  rw [← Except.ok.inj hc]
  exact fun it fnames _ _ => ⟨one fnames le_rfl le_rfl, one fnames (by norm_num) (by norm_num)⟩

/-- The hypotheses of `C139_rffa` are met: the run of C118 succeeds with one process and with four, and the products are the same. -/
theorem C139_example (o : CandOutput) : ∃ F' G', RffaRuns pulsarHost4 pulsarTools o ⟨fun _ => 1, fun _ => [0]⟩ (pulsarArgs none) pulsarFiles F' .done ∧
    RffaRuns pulsarHost4 pulsarTools o ⟨fun _ => 5, fun _ => [0]⟩ (pulsarArgs none) pulsarFiles4 G' .done ∧ ∀ p, p ≠ "c.yaml".toList → G' p = F' p := by
  have hj : JoinsApart pulsarHost4 "out".toList := fun x y _ _ h => by
    have : "out".toList ++ '/' :: x = "out".toList ++ '/' :: y := h
    simpa using this
  obtain ⟨st, d', hst, hd, -, -⟩ := C104_example ⟨o.json, none⟩ fun _ => none
  have hst' : pipelineFiles (diskOf pulsarHost4 pulsarFiles) pulsarTools (.dict pulsarItems) ["a.inf".toList] ⟨fun _ => 1, fun _ => [0]⟩ = .ok st := by
    rw [← pulsarItems_dict]
    exact (pulsarFiles_disk _).trans hst
  have hs : SavesPlots o.json none 1 st (fun _ => none) d' (.ok ()) := (C105_all none (.inl ⟨rfl, rfl⟩)).mpr ⟨rfl, hd⟩
  have hs4 : SavesPlots o.json none 4 st (fun _ => none) d' (.ok ()) := (C105_all none (.inl ⟨rfl, rfl⟩)).mpr ⟨rfl, hd⟩
  have hx : ∃ x, pulsarHost4.logText x := ⟨[], by simp [pulsarHost4, pulsarHost, asciiDecode]⟩
  have hsave : saveConfOf (.dict pulsarItems) = .ok (1, false) := pulsarItems_dict ▸ pulsarDict_save
  obtain ⟨F', h⟩ := C118_runs (H := pulsarHost4) (a := pulsarArgs none) (res := .ok ()) rfl rfl (by simp [pulsarArgs]) (fun l hl => by cases hl) rfl hx pulsar4_conf hst' hsave hs
  have hother : ∀ p, p ≠ "c.yaml".toList → pulsarFiles p = pulsarFiles4 p := fun p hp => (if_neg hp).symm
  have hfile : ∀ f ∈ ["a.inf".toList], pulsarFiles f = pulsarFiles4 f := by
    intro f hf
    cases List.mem_singleton.mp hf
    exact hother _ (by decide +kernel)
  have hdata : ∀ f ∈ ["a.inf".toList], pulsarFiles (dataFname f) = pulsarFiles4 (dataFname f) := by
    intro f hf
    cases List.mem_singleton.mp hf
    exact hother _ (by decide +kernel)
  have h4 := C139_files (k := 4) (by norm_num) (fun v c ms hv hc _ => pulsar4_may ms hv hc) hst'
  have hsame : SameInputs pulsarHost4 "a.inf".toList ["a.inf".toList] pulsarFiles pulsarFiles4 := ⟨hfile "a.inf".toList List.mem_cons_self, hfile, hdata⟩
  rw [hsame.pipelineFiles fun _ => rfl] at h4
  obtain ⟨G', h'⟩ := C118_runs (H := pulsarHost4) (a := pulsarArgs none) (res := .ok ()) rfl rfl (by simp [pulsarArgs]) (fun l hl => by cases hl) rfl hx pulsar4_conf4 h4
    (saveConf_processes (k := 4) (by norm_num) hsave) hs4
  obtain ⟨-, W, hW, hall⟩ := C139_rffa (H := pulsarHost4) (fun _ => rfl) (a := pulsarArgs none) rfl (fun l e => by cases e) hj (k := 4) (by norm_num) pulsar4_conf pulsar4_conf4
    hfile hdata (fun v c ms hv hc _ => pulsar4_may ms hv hc) h h'
  refine ⟨F', G', h, h', fun p hp => ?_⟩
  obtain ⟨h5, h6⟩ := hall p fun l e => by cases e
  rw [h5, h6]
  by_cases hm : ∃ w ∈ W, p = pulsarHost4.realpath (pulsarHost4.join ((pulsarArgs none).outdir.getD pulsarHost4.cwd) w.1)
  · obtain ⟨w, hw, rfl⟩ := hm
    exact (putAll_mem hj hW.products hW.nodup w hw).trans (putAll_mem hj hW.products hW.nodup w hw).symm
  · rw [putAll_other fun w hw e => hm ⟨w, hw, e⟩, putAll_other fun w hw e => hm ⟨w, hw, e⟩]
    exact (hother p hp).symm

end Verif.Props
