import Verif.Props.FileOrder

/-!
# C138: the files that a run of `rffa` leaves are determined by the files that it reads; runs can be repeated
-/

namespace Verif.Spec

open Verif.Model

/-- Two states of the machine with the same configuration file and the same input files. -/
structure SameInputs (H : Host) (config : List Char) (files : List (List Char)) (F G : Files) : Prop where
  config : F (H.realpath config) = G (H.realpath config)
  file : ∀ f ∈ files, F (H.realpath f) = G (H.realpath f)
  data : ∀ f ∈ files, F (H.realpath (dataFname (H.realpath f))) = G (H.realpath (dataFname (H.realpath f)))

/-- No product is one of the files that the run reads. -/
structure ProductsNotRead (H : Host) (outdir config : List Char) (files : List (List Char)) : Prop where
  config : ∀ name, IsProduct name → H.realpath config ≠ H.realpath (H.join outdir name)
  file : ∀ f ∈ files, ∀ name, IsProduct name → H.realpath f ≠ H.realpath (H.join outdir name)
  data : ∀ f ∈ files, ∀ name, IsProduct name → H.realpath (dataFname (H.realpath f)) ≠ H.realpath (H.join outdir name)

end Verif.Spec

namespace Verif.Props

open Verif.Model Verif.Spec Verif.Lemmas

/-- The schedule `s` is possible for a run with the configuration file and the input files of `F`. -/
def MayRun (H : Host) (config : List Char) (files : List (List Char)) (F : Files) (s : PoolSchedule) : Prop :=
  ∀ conf v c ms, readConfig H F config = .ok conf → validatePipelineConfig conf = .ok v → runConfOf v = .ok c → loadMetas (diskOf H F) c.1.prep.fmt files = .ok ms →
    1 ≤ c.1.processes ∧ ∀ it fnames, prepare c.1.prepConf ms = .ok it → it.selectedDms.mapM (getFilename it) = .ok fnames →
      ValidSchedule s 0 (chunkLoop c.1.processes fnames [])

/-! ## The schedule -/

theorem pipelineRun_schedule {t : PipeTools} {conf : PyVal} {ms : List FileMeta} {s s' : PoolSchedule}
    (h : ∀ v c, validatePipelineConfig conf = .ok v → runConfOf v = .ok c → 1 ≤ c.1.processes ∧ ∀ it fnames, prepare c.1.prepConf ms = .ok it →
      it.selectedDms.mapM (getFilename it) = .ok fnames → ValidSchedule s 0 (chunkLoop c.1.processes fnames []) ∧ ValidSchedule s' 0 (chunkLoop c.1.processes fnames []))
    {st : PipeState ℝ (CandObj ℝ)} (hr : pipelineRun t conf ms s = .ok st) : pipelineRun t conf ms s' = .ok st := by
  unfold pipelineRun at hr ⊢
  obtain ⟨v, hv, hr⟩ := bind_ok_inv hr
  obtain ⟨c, hc, hr⟩ := bind_ok_inv hr
  obtain ⟨it, hit, hr⟩ := bind_ok_inv hr
  obtain ⟨b, hb, hr⟩ := bind_ok_inv hr
  obtain ⟨fnames, hfn, hr⟩ := bind_ok_inv hr
  obtain ⟨hp, hs⟩ := h v c hv hc
  obtain ⟨h1, h2⟩ := hs it fnames hit hfn
  unfold PipeState.process PipeState.search at hr
  obtain ⟨st1, h3, hr⟩ := bind_ok_inv hr
  obtain ⟨peaks, h4, rfl⟩ := map_ok_inv h3
  have h5 := (C47_two_runs (processFile (t.env c.2 (tobsMedian ms) b.1 b.2.1) c.1) fnames c.1.processes c.1.processes hp hp s s' h1 h2 peaks).1 h4
  rw [hv]
  simp only [Except.bind]
  rw [hc]
  simp only
  rw [hit, hb]
  simp only
  rw [hfn]
  simp only
  unfold PipeState.process PipeState.search
  have h6 : pipelineSearch (pipelineJob (t.env c.2 (tobsMedian ms) b.1 b.2.1) c.1 ms it fnames).searchFile s' (pipelineJob (t.env c.2 (tobsMedian ms) b.1 b.2.1) c.1 ms it fnames).processes
      (pipelineJob (t.env c.2 (tobsMedian ms) b.1 b.2.1) c.1 ms it fnames).fnames = .ok peaks := h5
  rw [h6]
  exact hr

theorem pipelineFiles_schedule {H : Host} {config : List Char} {files : List (List Char)} {F : Files} {s s' : PoolSchedule} (h : MayRun H config files F s)
    (h' : MayRun H config files F s') {t : PipeTools} {conf : PyVal} (hc : readConfig H F config = .ok conf) {st : PipeState ℝ (CandObj ℝ)}
    (hr : pipelineFiles (diskOf H F) t conf files s = .ok st) : pipelineFiles (diskOf H F) t conf files s' = .ok st := by
  unfold pipelineFiles at hr ⊢
  obtain ⟨v, h1, hr⟩ := bind_ok_inv hr
  obtain ⟨c, h2, hr⟩ := bind_ok_inv hr
  obtain ⟨ms, h3, hr⟩ := bind_ok_inv hr
  rw [h1]
  simp only [Except.bind]
  rw [h2]
  simp only
  rw [h3]
  simp only
  refine pipelineRun_schedule (fun v' c' hv' hc' => ?_) hr
  rw [h1] at hv'
  cases hv'
  rw [h2] at hc'
  cases hc'
  obtain ⟨k1, k2⟩ := h conf v c ms hc h1 h2 h3
  obtain ⟨-, k3⟩ := h' conf v c ms hc h1 h2 h3
  exact ⟨k1, fun it fnames a b => ⟨k2 it fnames a b, k3 it fnames a b⟩⟩

/-! ## The same inputs -/

theorem _root_.Verif.Spec.SameInputs.symm {H : Host} {config : List Char} {files : List (List Char)} {F G : Files} (h : SameInputs H config files F G) : SameInputs H config files G F :=
  ⟨h.config.symm, fun f hf => (h.file f hf).symm, fun f hf => (h.data f hf).symm⟩

theorem _root_.Verif.Spec.SameInputs.trans {H : Host} {config : List Char} {files : List (List Char)} {F G K : Files} (h : SameInputs H config files F G) (h' : SameInputs H config files G K) :
    SameInputs H config files F K :=
  ⟨h.config.trans h'.config, fun f hf => (h.file f hf).trans (h'.file f hf), fun f hf => (h.data f hf).trans (h'.data f hf)⟩

theorem sameInputs_log {H : Host} {config : List Char} {files : List (List Char)} {a : RffaArgs} (hl : ∀ l, a.log = some l → LogNotRead H config files l) (F : Files)
    (x : List UInt8) : SameInputs H config files (withLog H F a x) F :=
  ⟨withLog_other fun l e => (hl l e).config.symm, fun f hf => withLog_other fun l e => ((hl l e).file f hf).symm,
    fun f hf => withLog_other fun l e => ((hl l e).data f hf).symm⟩

theorem _root_.Verif.Spec.SameInputs.readConfig {H : Host} {config : List Char} {files : List (List Char)} {F G : Files} (h : SameInputs H config files F G) :
    readConfig H F config = Model.readConfig H G config := readConfig_congr h.config

theorem _root_.Verif.Spec.SameInputs.sameFile {H : Host} (hi : ∀ p, H.realpath (H.realpath p) = H.realpath p) {config : List Char} {files : List (List Char)} {F G : Files}
    (h : SameInputs H config files F G) (fmt : TsFormat) : ∀ f ∈ files, SameFile (diskOf H F) (diskOf H G) fmt f := by
  intro f hf
  have h1 := h.file f hf
  have h2 := h.data f hf
  unfold SameFile
  cases fmt with
  | presto => exact ⟨by simp only [diskOf, h1], by simp only [diskOf, hi, h1], h2⟩
  | sigproc => exact ⟨h1, by simp only [diskOf, hi, h1]⟩

theorem _root_.Verif.Spec.SameInputs.pipelineFiles {H : Host} (hi : ∀ p, H.realpath (H.realpath p) = H.realpath p) {config : List Char} {files : List (List Char)} {F G : Files}
    (h : SameInputs H config files F G) (t : PipeTools) (conf : PyVal) (s : PoolSchedule) :
    pipelineFiles (diskOf H F) t conf files s = Model.pipelineFiles (diskOf H G) t conf files s :=
  C118_reads (D := diskOf H F) (D' := diskOf H G) rfl rfl rfl hi (fun _ c _ _ => h.sameFile hi c.1.prep.fmt) t s

theorem _root_.Verif.Spec.SameInputs.untouched {H : Host} {outdir config : List Char} {files : List (List Char)} (h : ProductsNotRead H outdir config files) {W : List (List Char × List Char)}
    (hW : ∀ w ∈ W, IsProduct w.1) (F : Files) : SameInputs H config files (F.putAll H outdir W) F :=
  ⟨putAll_other fun w hw => h.config _ (hW w hw), fun f hf => putAll_other fun w hw => h.file f hf _ (hW w hw),
    fun f hf => putAll_other fun w hw => h.data f hf _ (hW w hw)⟩

/-! ## What is written -/

theorem putAll_mem {H : Host} {outdir : List Char} (hinj : JoinsApart H outdir) : ∀ {W : List (List Char × List Char)} {F : Files}, (∀ w ∈ W, IsProduct w.1) → (W.map Prod.fst).Nodup →
    ∀ w ∈ W, F.putAll H outdir W (H.realpath (H.join outdir w.1)) = some (H.encode w.2)
  | [], _, _, _, w, hw => by cases hw
  | f :: W, F, hp, hn, w, hw => by
    have e : F.putAll H outdir (f :: W) = (F.put H (H.join outdir f.1) (H.encode f.2)).putAll H outdir W := rfl
    rw [List.map_cons, List.nodup_cons] at hn
    rw [e]
    rcases List.mem_cons.mp hw with rfl | hw
    · rw [putAll_other fun g hg h => hn.1 ?_, put_same]
      rw [hinj _ _ (hp w (by simp)) (hp g (List.mem_cons_of_mem _ hg)) h]
      exact List.mem_map_of_mem hg
    · exact putAll_mem hinj (fun g hg => hp g (List.mem_cons_of_mem _ hg)) hn.2 w hw

theorem putAll_perm {H : Host} {outdir : List Char} (hinj : JoinsApart H outdir) {W W' : List (List Char × List Char)} (hp : ∀ w ∈ W, IsProduct w.1) (hn : (W.map Prod.fst).Nodup)
    (h : W.Perm W') (F : Files) : F.putAll H outdir W = F.putAll H outdir W' := by
  funext p
  by_cases hm : ∃ w ∈ W, p = H.realpath (H.join outdir w.1)
  · obtain ⟨w, hw, rfl⟩ := hm
    rw [putAll_mem hinj hp hn w hw, putAll_mem hinj (fun w hw => hp w (h.mem_iff.mpr hw)) ((h.map Prod.fst).nodup_iff.mp hn) w (h.mem_iff.mp hw)]
  · rw [putAll_other fun w hw e => hm ⟨w, hw, e⟩, putAll_other fun w hw e => hm ⟨w, h.mem_iff.mpr hw, e⟩]

theorem putAll_twice {H : Host} {outdir : List Char} (hinj : JoinsApart H outdir) {W : List (List Char × List Char)} (hp : ∀ w ∈ W, IsProduct w.1) (hn : (W.map Prod.fst).Nodup)
    (F : Files) : (F.putAll H outdir W).putAll H outdir W = F.putAll H outdir W := by
  funext p
  by_cases hm : ∃ w ∈ W, p = H.realpath (H.join outdir w.1)
  · obtain ⟨w, hw, rfl⟩ := hm
    rw [putAll_mem hinj hp hn w hw, putAll_mem hinj hp hn w hw]
  · rw [putAll_other fun w hw e => hm ⟨w, hw, e⟩]

/-- A list of files that a run writes, each once. -/
structure Written (W : List (List Char × List Char)) : Prop where
  products : ∀ w ∈ W, IsProduct w.1
  nodup : (W.map Prod.fst).Nodup

/-- Saving writes a list of files that depends on the state only, and whether it raises an exception depends on the state only. -/
theorem savesTo_written {H : Host} {outdir : List Char} (hinj : JoinsApart H outdir) {o : CandOutput} {n : ℕ} {plot : Bool} {st : PipeState ℝ (CandObj ℝ)} {F F' : Files}
    {res : Except PyErr Unit} (h : SavesTo H outdir o n plot st F F' res) :
    ∃ W, Written W ∧ F' = F.putAll H outdir W ∧ ∀ G G' res', SavesTo H outdir o n plot st G G' res' → G' = G.putAll H outdir W ∧ (res' = .ok () ↔ res = .ok ()) := by
  unfold SavesTo at h ⊢
  by_cases hk : st.peaks.length = 0
  · simp only [if_pos hk] at h ⊢
    refine ⟨[], ⟨by simp, by simp⟩, h.1, fun G G' res' h' => ⟨h'.1, ?_⟩⟩
    rw [h.2, h'.2]
  · simp only [if_neg hk] at h ⊢
    obtain ⟨tables, order, ht, ho, rfl, hr⟩ := h
    have happ : ∀ (F : Files) (x y : List (List Char × List Char)), (F.putAll H outdir x).putAll H outdir y = F.putAll H outdir (x ++ y) := by
      intro F x y
      unfold Files.putAll
      rw [List.foldl_append]
    have hW : Written (tables ++ order) := ⟨fun w hw => (List.mem_append.mp hw).elim (tables_products ht w) (written_products ho w), written_nodup ht ho⟩
    refine ⟨tables ++ order, hW, happ _ _ _, ?_⟩
    rintro G G' res' ⟨tables', order', ht', ho', rfl, hr'⟩
    rw [ht] at ht'
    cases ht'
    refine ⟨?_, ?_⟩
    · rw [happ]
      exact (putAll_perm hinj hW.products hW.nodup ((List.Perm.refl _).append (ho.trans ho'.symm)) G).symm
    · have key : ∀ {res : Except PyErr Unit}, ((res = .ok () ∧ ∀ r ∈ writerRuns o.json (if plot then some o.png else none) n st.candidates, r.2 = none) ∨
          ∃ e, res = .error e ∧ ∃ r ∈ writerRuns o.json (if plot then some o.png else none) n st.candidates, r.2 = some e) →
          (res = .ok () ↔ ∀ r ∈ writerRuns o.json (if plot then some o.png else none) n st.candidates, r.2 = none) := by
        rintro res (⟨h1, h2⟩ | ⟨e, h1, r, h2, h3⟩)
        · exact ⟨fun _ => h2, fun _ => h1⟩
        · constructor
          · intro h
            rw [h1] at h
            cases h
          · intro h
            have := h r h2
            rw [h3] at this
            cases this
      rw [key hr, key hr']

/-! ## Runs -/

theorem endOf_done (res : Except PyErr Unit) : endOf res = .done ↔ res = .ok () := by
  cases res <;> simp [endOf]

/-- C138, after the log file has been opened. -/
theorem body_written {H : Host} (hi : ∀ p, H.realpath (H.realpath p) = H.realpath p) {t : PipeTools} {o : CandOutput} {s s' : PoolSchedule} {a : RffaArgs} {config outdir : List Char}
    {files : List (List Char)} (hl : ∀ l, a.log = some l → LogNotRead H config files l) (hinj : JoinsApart H outdir) {F F' G G' : Files} {out out' : RffaEnd}
    (hsame : SameInputs H config files F G) (hs : MayRun H config files F s) (hs' : MayRun H config files F s') (h : RffaBody H t o s a config outdir files F F' out)
    (h' : RffaBody H t o s' a config outdir files G G' out') :
    (out = .done ↔ out' = .done) ∧ out ≠ .usage ∧ out' ≠ .usage ∧ ∃ W, Written W ∧ (∃ x, F' = withLog H (F.putAll H outdir W) a x) ∧ ∃ x, G' = withLog H (G.putAll H outdir W) a x := by
  obtain ⟨t0, t1, t2, -, -, -, h⟩ := h
  obtain ⟨u0, u1, u2, -, -, -, h'⟩ := h'
  rw [(sameInputs_log hl F t0).readConfig] at h
  rw [(sameInputs_log hl G u0).readConfig, ← hsame.readConfig] at h'
  have nil : Written [] := ⟨by simp, by simp⟩
  rcases hc : readConfig H F config with e | conf
  · rw [hc] at h h'
    simp only at h h'
    rw [h.1, h'.1]
    exact ⟨by simp, by simp, by simp, [], nil, ⟨t2, h.2⟩, ⟨u2, h'.2⟩⟩
  rw [hc] at h h'
  simp only at h h'
  rw [(sameInputs_log hl F t1).pipelineFiles hi] at h
  rw [(sameInputs_log hl G u1).pipelineFiles hi, ← hsame.pipelineFiles hi] at h'
  rcases hp : pipelineFiles (diskOf H F) t conf files s with e | st
  · rcases hp' : pipelineFiles (diskOf H F) t conf files s' with e' | st
    · rw [hp] at h
      rw [hp'] at h'
      simp only at h h'
      rw [h.1, h'.1]
      exact ⟨by simp, by simp, by simp, [], nil, ⟨t2, h.2⟩, ⟨u2, h'.2⟩⟩
    · rw [pipelineFiles_schedule hs' hs hc hp'] at hp
      cases hp
  · rw [hp] at h
    rw [pipelineFiles_schedule hs hs' hc hp] at h'
    simp only at h h'
    obtain ⟨n, plot, F1, res, k1, k2, k3, k4⟩ := h
    obtain ⟨n', plot', G1, res', l1, l2, l3, l4⟩ := h'
    rw [k1] at l1
    obtain ⟨rfl, rfl⟩ := Prod.mk.inj (Except.ok.inj l1)
    obtain ⟨W, hW, w1, w2⟩ := savesTo_written hinj k2
    obtain ⟨w3, w4⟩ := w2 G G1 res' l2
    rw [k4, l4, endOf_done, endOf_done]
    have nu : ∀ r : Except PyErr Unit, endOf r ≠ .usage := by rintro (_ | _) <;> simp [endOf]
    exact ⟨w4.symm, nu _, nu _, W, hW, ⟨t2, by rw [k3, w1]⟩, ⟨u2, by rw [l3, w3]⟩⟩

/-- **C138.** The files that a run of `rffa` reads determine what it writes: two runs with the same arguments on machines with the same configuration file and input files, whatever else
is there and however the worker processes are scheduled, end in the same way up to which exception is raised, and overwrite the same files with the same content, except for the log. -/
theorem C138_determined {H : Host} (hi : ∀ p, H.realpath (H.realpath p) = H.realpath p) {t : PipeTools} {o : CandOutput} {s s' : PoolSchedule} {a : RffaArgs} {config : List Char}
    (hc : a.config = some config) (hl : ∀ l, a.log = some l → LogNotRead H config a.files l ∧ LogNotProduct H (a.outdir.getD H.cwd) l) (hinj : JoinsApart H (a.outdir.getD H.cwd))
    {F F' G G' : Files} {out out' : RffaEnd} (hsame : SameInputs H config a.files F G) (hs : MayRun H config a.files F s) (hs' : MayRun H config a.files F s')
    (h : RffaRuns H t o s a F F' out) (h' : RffaRuns H t o s' a G G' out') :
    (out = .done ↔ out' = .done) ∧ (out = .usage ↔ out' = .usage) ∧ ∃ W, Written W ∧
      ∀ p, (∀ l, a.log = some l → p ≠ H.realpath l) → F' p = F.putAll H (a.outdir.getD H.cwd) W p ∧ G' p = G.putAll H (a.outdir.getD H.cwd) W p := by
  unfold RffaRuns at h h'
  have nil : Written [] := ⟨by simp, by simp⟩
  rcases e : rffaParse H a with _ | ⟨c, d, fs⟩
  · rw [e] at h h'
    obtain ⟨rfl, rfl⟩ := h
    obtain ⟨rfl, rfl⟩ := h'
    exact ⟨Iff.rfl, Iff.rfl, [], nil, fun p _ => ⟨rfl, rfl⟩⟩
  have hparts : c = config ∧ d = a.outdir.getD H.cwd ∧ fs = a.files := by
    unfold rffaParse at e
    rw [hc] at e
    simp only at e
    split_ifs at e
    cases e
    exact ⟨rfl, rfl, rfl⟩
  obtain ⟨rfl, rfl, rfl⟩ := hparts
  rw [e] at h h'
  simp only at h h'
  rcases ho : openLog H F a with er | F0
  · have ho' : openLog H G a = .error er := by
      unfold openLog at ho ⊢
      generalize a.log = L at ho ⊢
      rcases L with _ | l
      · cases ho
      · simp only at ho ⊢
        generalize H.openError l = E at ho ⊢
        rcases E with _ | e
        · cases ho
        · exact ho
    rw [ho] at h
    rw [ho'] at h'
    obtain ⟨rfl, rfl⟩ := h
    obtain ⟨rfl, rfl⟩ := h'
    exact ⟨Iff.rfl, Iff.rfl, [], nil, fun p _ => ⟨rfl, rfl⟩⟩
  have ho' : openLog H G a = .ok (withLog H G a []) := by
    unfold openLog at ho ⊢
    unfold withLog
    generalize a.log = L at ho ⊢
    rcases L with _ | l
    · rfl
    · simp only at ho ⊢
      generalize H.openError l = E at ho ⊢
      rcases E with _ | e
      · rfl
      · cases ho
  rw [ho] at h
  rw [ho'] at h'
  obtain rfl := openLog_ok ho
  simp only at h h'
  have hl1 := fun l e => (hl l e).1
  have hlogF := sameInputs_log hl1 F []
  have hlogG := sameInputs_log hl1 G []
  have may : ∀ s, MayRun H c a.files F s → MayRun H c a.files (withLog H F a []) s := by
    intro s hs conf v cf ms k1 k2 k3 k4
    rw [hlogF.readConfig] at k1
    refine hs conf v cf ms k1 k2 k3 ?_
    rw [← k4]
    refine (mapM_congr' fun f hf => ?_).symm
    have hf := hlogF.sameFile hi cf.1.prep.fmt f hf
    unfold SameFile at hf
    rcases hfm : cf.1.prep.fmt with _ | _
    · rw [hfm] at hf
      simp only [loadMeta, hf.1]
      rfl
    · rw [hfm] at hf
      simp only [loadMeta, hf.1]
      rfl
  obtain ⟨b1, b2, b3, W, hW, ⟨x, hx⟩, ⟨y, hy⟩⟩ := body_written hi hl1 hinj ((hlogF.trans hsame).trans hlogG.symm) (may s hs) (may s' hs') h h'
  refine ⟨b1, ⟨fun h => absurd h b2, fun h => absurd h b3⟩, W, hW, fun p hp => ?_⟩
  have key : ∀ (F : Files) x, withLog H ((withLog H F a []).putAll H (a.outdir.getD H.cwd) W) a x p = F.putAll H (a.outdir.getD H.cwd) W p := by
    intro F x
    rw [withLog_other hp]
    by_cases hm : ∃ w ∈ W, p = H.realpath (H.join (a.outdir.getD H.cwd) w.1)
    · obtain ⟨w, hw, rfl⟩ := hm
      rw [putAll_mem hinj hW.products hW.nodup w hw, putAll_mem hinj hW.products hW.nodup w hw]
    · rw [putAll_other fun w hw e => hm ⟨w, hw, e⟩, putAll_other fun w hw e => hm ⟨w, hw, e⟩, withLog_other hp]
  rw [hx, hy]
  exact ⟨key F x, key G y⟩

/-- **C138.** A run of `rffa` can be repeated: with the same arguments, on the files that the first run has left, it ends in the same way and leaves all files as they are, except for the log. No product
is one of the files that are read. -/
theorem C138_repeat {H : Host} (hi : ∀ p, H.realpath (H.realpath p) = H.realpath p) {t : PipeTools} {o : CandOutput} {s s' : PoolSchedule} {a : RffaArgs} {config : List Char}
    (hc : a.config = some config) (hl : ∀ l, a.log = some l → LogNotRead H config a.files l ∧ LogNotProduct H (a.outdir.getD H.cwd) l) (hinj : JoinsApart H (a.outdir.getD H.cwd))
    (hprod : ProductsNotRead H (a.outdir.getD H.cwd) config a.files) {F F' F'' : Files} {out out' : RffaEnd} (hs : MayRun H config a.files F s) (hs' : MayRun H config a.files F s')
    (h : RffaRuns H t o s a F F' out) (h' : RffaRuns H t o s' a F' F'' out') :
    (out = .done ↔ out' = .done) ∧ (out = .usage ↔ out' = .usage) ∧ ∀ p, (∀ l, a.log = some l → p ≠ H.realpath l) → F'' p = F' p := by
  have hun : ∀ p, (∀ l, a.log = some l → p ≠ H.realpath l) → (∀ name, IsProduct name → p ≠ H.realpath (H.join (a.outdir.getD H.cwd) name)) → F p = F' p :=
    fun p h1 h2 => (C118_untouched h h1 h2).symm
  have hsame : SameInputs H config a.files F F' :=
    ⟨hun _ (fun l e => ((hl l e).1.config).symm) hprod.config, fun f hf => hun _ (fun l e => ((hl l e).1.file f hf).symm) (hprod.file f hf),
      fun f hf => hun _ (fun l e => ((hl l e).1.data f hf).symm) (hprod.data f hf)⟩
  obtain ⟨h1, h2, W, hW, h3⟩ := C138_determined hi hc hl hinj hsame hs hs' h h'
  refine ⟨h1, h2, fun p hp => ?_⟩
  obtain ⟨h4, h5⟩ := h3 p hp
  rw [h5]
  by_cases hm : ∃ w ∈ W, p = H.realpath (H.join (a.outdir.getD H.cwd) w.1)
  · obtain ⟨w, hw, rfl⟩ := hm
    rw [h4, putAll_mem hinj hW.products hW.nodup w hw, putAll_mem hinj hW.products hW.nodup w hw]
  · rw [putAll_other fun w hw e => hm ⟨w, hw, e⟩]

/-- **C138.** A run that was interrupted can be done again: if `F'` are the files that the complete run would have left, and the interrupted run left files `G` that are each as before, as in `F'`, or
anything where `F'` differs from before (such as the first part of a file), then a run on `G` leaves the files of `F'`, except for the log. -/
theorem C138_interrupted {H : Host} (hi : ∀ p, H.realpath (H.realpath p) = H.realpath p) {t : PipeTools} {o : CandOutput} {s s' : PoolSchedule} {a : RffaArgs} {config : List Char}
    (hc : a.config = some config) (hl : ∀ l, a.log = some l → LogNotRead H config a.files l ∧ LogNotProduct H (a.outdir.getD H.cwd) l) (hinj : JoinsApart H (a.outdir.getD H.cwd))
    (hprod : ProductsNotRead H (a.outdir.getD H.cwd) config a.files) {F F' G G' : Files} {out out' : RffaEnd} (hs : MayRun H config a.files F s) (hs' : MayRun H config a.files F s')
    (h : RffaRuns H t o s a F F' out) (hG : ∀ p, (∀ l, a.log = some l → p ≠ H.realpath l) → G p = F p ∨ G p = F' p ∨ F' p ≠ F p)
    (h' : RffaRuns H t o s' a G G' out') :
    (out = .done ↔ out' = .done) ∧ (out = .usage ↔ out' = .usage) ∧ ∀ p, (∀ l, a.log = some l → p ≠ H.realpath l) → G' p = F' p := by
  have hun : ∀ p, (∀ l, a.log = some l → p ≠ H.realpath l) → (∀ name, IsProduct name → p ≠ H.realpath (H.join (a.outdir.getD H.cwd) name)) → F p = G p := by
    intro p h1 h2
    have := C118_untouched h h1 h2
    rcases hG p h1 with k | k | k
    · exact k.symm
    · rw [k, this]
    · exact absurd this k
  have hsame : SameInputs H config a.files F G :=
    ⟨hun _ (fun l e => ((hl l e).1.config).symm) hprod.config, fun f hf => hun _ (fun l e => ((hl l e).1.file f hf).symm) (hprod.file f hf),
      fun f hf => hun _ (fun l e => ((hl l e).1.data f hf).symm) (hprod.data f hf)⟩
  obtain ⟨h1, h2, W, hW, h3⟩ := C138_determined hi hc hl hinj hsame hs hs' h h'
  refine ⟨h1, h2, fun p hp => ?_⟩
  obtain ⟨h4, h5⟩ := h3 p hp
  by_cases hm : ∃ w ∈ W, p = H.realpath (H.join (a.outdir.getD H.cwd) w.1)
  · obtain ⟨w, hw, rfl⟩ := hm
    rw [h4, h5, putAll_mem hinj hW.products hW.nodup w hw, putAll_mem hinj hW.products hW.nodup w hw]
  · rw [putAll_other fun w hw e => hm ⟨w, hw, e⟩] at h4 h5
    rw [h5, h4]
    rcases hG p hp with k | k | k
    · exact k
    · rw [k, h4]
    · exact absurd h4 k

/-! ## An example -/

theorem pulsar_mayRun {n : ℕ} (hn : 1 ≤ n) : MayRun pulsarHost "c.yaml".toList ["a.inf".toList] pulsarFiles ⟨fun _ => n, fun _ => [0]⟩ := by
  intro conf v c ms h1 h2 h3 h4
  rw [pulsarFiles_conf] at h1
  rw [← Except.ok.inj h1] at h2
  obtain ⟨v', hv', -, -, hc'⟩ := pulsar_pipeline_ok.conf
  rw [h2] at hv'
  rw [Except.ok.inj hv', hc'] at h3
  rw [← Except.ok.inj h3]
  refine ⟨le_rfl, fun it fnames _ _ i ch hi => ?_⟩
  obtain ⟨h5, h6⟩ := (chunkLoop_spec 1 le_rfl fnames [] Nat.one_pos).2.1 ch (List.mem_of_getElem? hi)
  match ch, h5, h6 with
  | [a], _, _ =>
    refine ⟨hn, ?_⟩
    have : (batches n [a]).length = 1 := by rw [batches_cons hn (by simp), List.drop_of_length_le (by simpa using hn), batches_nil]; rfl
    show List.Perm [0] (List.range (batches n [a]).length)
    rw [this]
    exact .refl _

theorem pulsar_notRead : ProductsNotRead pulsarHost "out".toList "c.yaml".toList ["a.inf".toList] := by
  refine ⟨fun name _ h => ?_, fun f hf name _ h => ?_, fun f hf name _ h => ?_⟩
  · have : "c.yaml".toList = "out".toList ++ '/' :: name := h
    simp at this
  · cases List.mem_singleton.mp hf
    have : "a.inf".toList = "out".toList ++ '/' :: name := h
    simp at this
  · cases List.mem_singleton.mp hf
    have hn : dataFname "a.inf".toList = "a.dat".toList := by decide +kernel
    have : dataFname "a.inf".toList = "out".toList ++ '/' :: name := h
    rw [hn] at this
    simp at this

/-- The hypotheses of `C138_interrupted` are met: a run that was stopped before it wrote anything. -/
example {o : CandOutput} {F' G' : Files} {out : RffaEnd} (h : RffaRuns pulsarHost pulsarTools o ⟨fun _ => 1, fun _ => [0]⟩ (pulsarArgs none) pulsarFiles F' .done)
    (h' : RffaRuns pulsarHost pulsarTools o ⟨fun _ => 5, fun _ => [0]⟩ (pulsarArgs none) pulsarFiles G' out) : G' = F' :=
  funext fun p => (C138_interrupted (H := pulsarHost) (fun _ => rfl) (a := pulsarArgs none) rfl (fun l e => by cases e) (fun x y _ _ h => by
    have : "out".toList ++ '/' :: x = "out".toList ++ '/' :: y := h
    simpa using this) pulsar_notRead (pulsar_mayRun le_rfl) (pulsar_mayRun (by norm_num)) h (fun _ _ => .inl rfl) h').2.2 p fun l e => by cases e

/-- The hypotheses of `C138_determined` and `C138_repeat` are met: the run of C118 succeeds, it can be repeated with another schedule, and the files are the same. -/
theorem C138_example (o : CandOutput) : ∃ F', RffaRuns pulsarHost pulsarTools o ⟨fun _ => 1, fun _ => [0]⟩ (pulsarArgs none) pulsarFiles F' .done ∧
    RffaRuns pulsarHost pulsarTools o ⟨fun _ => 5, fun _ => [0]⟩ (pulsarArgs none) F' F' .done := by
  have hj : JoinsApart pulsarHost "out".toList := fun x y _ _ h => by
    have : "out".toList ++ '/' :: x = "out".toList ++ '/' :: y := h
    simpa using this
  obtain ⟨st, d', hst, hd, -, -⟩ := C104_example ⟨o.json, none⟩ fun _ => none
  have hst' := (pulsarFiles_disk _).trans hst
  have hs : SavesPlots o.json none 1 st (fun _ => none) d' (.ok ()) := (C105_all none (.inl ⟨rfl, rfl⟩)).mpr ⟨rfl, hd⟩
  have hx : ∃ x, pulsarHost.logText x := ⟨[], by simp [pulsarHost, asciiDecode]⟩
  obtain ⟨F', h⟩ := C118_runs (a := pulsarArgs none) (res := .ok ()) rfl rfl (by simp [pulsarArgs]) (fun l hl => by cases hl) rfl hx pulsarFiles_conf hst' pulsarDict_save hs
  have hun : ∀ p, (∀ name, IsProduct name → p ≠ "out".toList ++ '/' :: name) → pulsarFiles p = F' p :=
    fun p h2 => (C118_untouched h (fun l e => by cases e) h2).symm
  have hsame : SameInputs pulsarHost "c.yaml".toList ["a.inf".toList] pulsarFiles F' :=
    ⟨hun _ pulsar_notRead.config, fun f hf => hun _ (pulsar_notRead.file f hf), fun f hf => hun _ (pulsar_notRead.data f hf)⟩
  have h5 := pipelineFiles_schedule (pulsar_mayRun le_rfl) (pulsar_mayRun (n := 5) (by norm_num)) pulsarFiles_conf hst'
  rw [hsame.pipelineFiles fun _ => rfl] at h5
  obtain ⟨F'', h6⟩ := C118_runs (a := pulsarArgs none) (res := .ok ()) rfl rfl (by simp [pulsarArgs]) (fun l hl => by cases hl) rfl hx (hsame.readConfig.symm.trans pulsarFiles_conf) h5
    pulsarDict_save hs
  obtain ⟨-, -, h7⟩ := C138_repeat (H := pulsarHost) (fun _ => rfl) (a := pulsarArgs none) rfl (fun l e => by cases e) hj pulsar_notRead (pulsar_mayRun le_rfl) (pulsar_mayRun (n := 5) (by norm_num)) h h6
  obtain rfl : F'' = F' := funext fun p => h7 p fun l e => by cases e
  exact ⟨_, h, h6⟩

end Verif.Props
