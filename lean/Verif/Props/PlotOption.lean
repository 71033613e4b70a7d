import Verif.Props.FilterRuns

/-!
# C143: switching the plots of candidates off changes nothing else
-/

namespace Verif.Props

open Verif.Model Verif.Spec

/-! ## The configuration -/

theorem validate_plot {d : List (String × PyVal)} {v : PyVal} (h : validatePipelineConfig (.dict d) = .ok v) :
    ∃ r, v = .dict r ∧ ∀ b : Bool, validatePipelineConfig (.dict (dictSet d "plot_candidates" (.bool b))) = .ok (.dict (dictSet r "plot_candidates" (.bool b))) := by
  unfold validatePipelineConfig at h ⊢
  rcases e : pipelineConfigSchema (.dict d) with er | w
  · rw [e] at h
    cases h
  rw [e] at h
  cases h
  obtain ⟨r, rfl, h1, h2⟩ := schemaDict_set e
  refine ⟨r, rfl, fun b => ?_⟩
  have h3 : pipelineConfigSchema (.dict (dictSet d "plot_candidates" (.bool b))) = .ok (.dict (dictSet r "plot_candidates" (.bool b))) :=
    h2 "plot_candidates" _ _ _ (by simp [schemaLookup]) (show schemaBool (.bool b) = .ok (.bool b) from rfl)
  rw [h3]

theorem runConf_plot (r : List (String × PyVal)) (x : PyVal) : runConfOf (.dict (dictSet r "plot_candidates" x)) = runConfOf (.dict r) := by
  have hp : prepConfOf (.dict (dictSet r "plot_candidates" x)) = prepConfOf (.dict r) := by
    unfold prepConfOf
    simp only [pyDict, Except.bind]
    rw [required_set _ (by decide), required_set _ (by decide), required_set _ (by decide)]
  unfold runConfOf
  rw [hp]
  simp only [pyDict, Except.bind, required_set _ (show "plot_candidates" ≠ "processes" by decide), required_set _ (show "plot_candidates" ≠ "dereddening" by decide),
    required_set _ (show "plot_candidates" ≠ "ranges" by decide), required_set _ (show "plot_candidates" ≠ "clustering" by decide),
    required_set _ (show "plot_candidates" ≠ "harmonic_flagging" by decide), required_set _ (show "plot_candidates" ≠ "candidate_filters" by decide)]

theorem saveConf_plot {d : List (String × PyVal)} {b : Bool} {n : ℕ} {plot : Bool} (h : saveConfOf (.dict (dictSet d "plot_candidates" (.bool b))) = .ok (n, plot)) :
    plot = b ∧ ∀ b', saveConfOf (.dict (dictSet d "plot_candidates" (.bool b'))) = .ok (n, b') := by
  unfold saveConfOf at h ⊢
  obtain ⟨v, h1, h⟩ := bind_ok_inv h
  obtain ⟨r, rfl, hval⟩ := validate_plot h1
  have e0 := hval b
  rw [dictSet_twice, h1] at e0
  have hr : r = dictSet r "plot_candidates" (.bool b) := by simpa using e0
  have hq : ∀ b, required asBool (dictSet r "plot_candidates" (.bool b)) "plot_candidates" = .ok b := by
    intro b
    unfold required
    rw [dictGet_set, if_pos rfl]
    rfl
  obtain ⟨r', h2, h⟩ := bind_ok_inv h
  cases h2
  obtain ⟨m, h3, h⟩ := bind_ok_inv h
  rw [hr, hq] at h
  cases h
  refine ⟨rfl, fun b' => ?_⟩
  have e1 := hval b'
  rw [dictSet_twice] at e1
  rw [e1]
  simp only [Except.bind, pyDict]
  rw [required_set _ (by decide), h3, hq]
  rfl

/-- **C143.** With or without plots, the pipeline ends in the same state. -/
theorem C143_run {t : PipeTools} {d : List (String × PyVal)} {ms : List FileMeta} {s : PoolSchedule} {b b' : Bool} {st : PipeState ℝ (CandObj ℝ)}
    (h : pipelineRun t (.dict (dictSet d "plot_candidates" (.bool b))) ms s = .ok st) : pipelineRun t (.dict (dictSet d "plot_candidates" (.bool b'))) ms s = .ok st := by
  unfold pipelineRun at h ⊢
  obtain ⟨v, hv, h1⟩ := bind_ok_inv h
  obtain ⟨r, rfl, hval⟩ := validate_plot hv
  have e1 := hval b'
  rw [dictSet_twice] at e1
  rw [e1]
  simp only [Except.bind]
  rw [runConf_plot]
  exact h1

/-- C143, with the files that are read. -/
theorem C143_files {D : Disk} {t : PipeTools} {d : List (String × PyVal)} {files : List (List Char)} {s : PoolSchedule} {b b' : Bool} {st : PipeState ℝ (CandObj ℝ)}
    (h : pipelineFiles D t (.dict (dictSet d "plot_candidates" (.bool b))) files s = .ok st) : pipelineFiles D t (.dict (dictSet d "plot_candidates" (.bool b'))) files s = .ok st := by
  unfold pipelineFiles at h ⊢
  obtain ⟨v, hv, h1⟩ := bind_ok_inv h
  obtain ⟨c, hc, h2⟩ := bind_ok_inv h1
  obtain ⟨ms, hm, h3⟩ := bind_ok_inv h2
  obtain ⟨r, rfl, hval⟩ := validate_plot hv
  have e1 := hval b'
  rw [dictSet_twice] at e1
  rw [e1]
  simp only [Except.bind]
  rw [runConf_plot, hc]
  simp only
  rw [hm]
  exact C143_run h3

/-! ## Saving -/

theorem pairs_perm {β ω : Type*} (f g : β → ω) : ∀ l : List β, ((l.map fun x => [f x, g x]).flatten).Perm (l.map f ++ l.map g)
  | [] => List.Perm.refl _
  | x :: l => by
    simp only [List.map_cons, List.flatten_cons, List.cons_append, List.nil_append]
    refine List.Perm.cons _ ?_
    exact ((pairs_perm f g l).cons _).trans List.perm_middle.symm

/-- The name of a plot. -/
def IsPng (name : List Char) : Prop := ∃ r, name = candidateFileName r ".png".toList

theorem tables_not_png {st : PipeState ℝ (CandObj ℝ)} {tables : List (List Char × List Char)} (h : tableFiles st = .ok tables) : ∀ w ∈ tables, ¬ IsPng w.1 := by
  have hne : ∀ r (x : List Char), x.reverse.head? = some 'v' → x ≠ candidateFileName r ".png".toList := by
    intro r x hx e
    rw [e] at hx
    unfold candidateFileName at hx
    simp [List.reverse_append] at hx
  intro w hw
  rintro ⟨r, hr⟩
  unfold tableFiles at h
  obtain ⟨cl, hcl, rfl⟩ := map_ok_inv h
  rcases List.mem_cons.mp hw with rfl | hw
  · exact hne r "peaks.csv".toList (by decide) hr
  rcases List.mem_append.mp hw with hw | hw
  · split_ifs at hcl
    · cases hcl
      cases hw
    · obtain ⟨rows, -, rfl⟩ := map_ok_inv hcl
      rw [List.mem_singleton.mp hw] at hr
      exact hne r "clusters.csv".toList (by decide) hr
  · split_ifs at hw
    · cases hw
    · rw [List.mem_singleton.mp hw] at hr
      exact hne r "candidates.csv".toList (by decide) hr

/-- **C143.** If saving with plots succeeds, then saving without plots succeeds, and it writes the same files except for the plots. -/
theorem C143_saves {H : Host} {outdir : List Char} (hinj : JoinsApart H outdir) {o : CandOutput} {n n' : ℕ} {st : PipeState ℝ (CandObj ℝ)} {F F' : Files}
    (h : SavesTo H outdir o n true st F F' (.ok ())) :
    ∃ W P, Written (W ++ P) ∧ (∀ w ∈ W, ¬ IsPng w.1) ∧ (∀ w ∈ P, IsPng w.1) ∧ (st.peaks ≠ [] → P.length = st.candidates.length) ∧ F' = F.putAll H outdir (W ++ P) ∧
      ∀ G G' res', SavesTo H outdir o n' false st G G' res' → G' = G.putAll H outdir W ∧ res' = .ok () := by
  unfold SavesTo at h ⊢
  by_cases hk : st.peaks.length = 0
  · simp only [if_pos hk] at h ⊢
    exact ⟨[], [], ⟨by simp, by simp⟩, by simp, by simp, fun hne => absurd (List.length_eq_zero_iff.mp hk) hne, h.1, fun G G' res' h' => h'⟩
  · simp only [if_neg hk, if_true, Bool.false_eq_true, if_false] at h ⊢
    obtain ⟨tables, order, ht, ho, rfl, ⟨-, hr⟩ | ⟨e, he, -⟩⟩ := h
    swap
    · cases he
    have happ : ∀ (F : Files) (x y : List (List Char × List Char)), (F.putAll H outdir x).putAll H outdir y = F.putAll H outdir (x ++ y) := by
      intro F x y
      unfold Files.putAll
      rw [List.foldl_append]
    have hW : Written (tables ++ order) := ⟨fun w hw => (List.mem_append.mp hw).elim (tables_products ht w) (written_products ho w), written_nodup ht ho⟩
    let J : PCandidate ℝ (CandObj ℝ) × ℕ → List Char × List Char := fun x => (candidateFileName x.2 ".json".toList, o.json x.1)
    let Q : PCandidate ℝ (CandObj ℝ) × ℕ → List Char × List Char := fun x => (candidateFileName x.2 ".png".toList, match o.png x.1 with | .ok i => i | .error _ => [])
    have hone := (writerRuns_ok _ _ _ _).mp hr
    have hcall : (st.candidates.zipIdx.map fun x => (writerCall o.json (some o.png) x).1) = st.candidates.zipIdx.map fun x => [J x, Q x] := by
      refine List.map_congr_left fun x hx => ?_
      have h1 := hone x hx
      unfold writerCall at h1 ⊢
      simp only at h1 ⊢
      rcases e : o.png x.1 with er | im
      · rw [e] at h1
        cases h1
      · simp only [J, Q, e]
    have hperm : order.Perm (st.candidates.zipIdx.map J ++ st.candidates.zipIdx.map Q) := by
      rw [writerRuns_written hr, hcall] at ho
      exact ho.trans (pairs_perm J Q _)
    have hall : (tables ++ order).Perm ((tables ++ st.candidates.zipIdx.map J) ++ st.candidates.zipIdx.map Q) := by
      rw [List.append_assoc]
      exact (List.Perm.refl _).append hperm
    have hWP : Written ((tables ++ st.candidates.zipIdx.map J) ++ st.candidates.zipIdx.map Q) :=
      ⟨fun w hw => hW.products w (hall.mem_iff.mpr hw), (hall.map Prod.fst).nodup_iff.mp hW.nodup⟩
    refine ⟨_, _, hWP, ?_, ?_, fun _ => by simp, ?_, ?_⟩
    · intro w hw
      rcases List.mem_append.mp hw with hw | hw
      · exact tables_not_png ht w hw
      · obtain ⟨x, -, rfl⟩ := List.mem_map.mp hw
        rintro ⟨r, hr⟩
        exact C46_json_ne_png _ _ hr
    · intro w hw
      obtain ⟨x, -, rfl⟩ := List.mem_map.mp hw
      exact ⟨x.2, rfl⟩
    · rw [happ]
      exact putAll_perm hinj hW.products hW.nodup hall F
    · rintro G G' res' ⟨tables', order', ht', ho', rfl, hr'⟩
      rw [ht] at ht'
      cases ht'
      have hok : ∀ r ∈ writerRuns o.json none n' st.candidates, r.2 = none := (writerRuns_ok _ _ _ _).mpr fun x _ => rfl
      have hc2 : (st.candidates.zipIdx.map fun x => (writerCall o.json none x).1) = st.candidates.zipIdx.map fun x => [J x] := rfl
      rw [writerRuns_written hok, hc2] at ho'
      have hfl : (st.candidates.zipIdx.map fun x => [J x]).flatten = st.candidates.zipIdx.map J := by
        induction st.candidates.zipIdx with
        | nil => rfl
        | cons x l ih => simpa using ih
      rw [hfl] at ho'
      refine ⟨?_, ?_⟩
      · rw [happ]
        refine (putAll_perm hinj (fun w hw => hWP.products w (List.mem_append_left _ hw)) ?_ ((List.Perm.refl tables).append ho'.symm) G).symm
        have := hWP.nodup
        rw [List.map_append] at this
        exact (List.nodup_append.mp this).1
      · rcases hr' with ⟨h1, -⟩ | ⟨e, -, r, h2, h3⟩
        · exact h1
        · rw [hok r h2] at h3
          cases h3

/-! ## Runs of the program -/

/-- **C143.** `rffa` with and without plots: if a run with plots ends normally, then so does a run without, and it writes the same files with the same content, except for the plots (and the log), none of which it
touches. -/
theorem C143_rffa {H : Host} (hi : ∀ p, H.realpath (H.realpath p) = H.realpath p) {t : PipeTools} {o : CandOutput} {s : PoolSchedule} {a : RffaArgs} {config : List Char}
    (hc : a.config = some config) (hl : ∀ l, a.log = some l → LogNotRead H config a.files l) (hinj : JoinsApart H (a.outdir.getD H.cwd))
    {F F' G G' : Files} {out' : RffaEnd} {d : List (String × PyVal)} (hF : readConfig H F config = .ok (.dict (dictSet d "plot_candidates" (.bool true))))
    (hG : readConfig H G config = .ok (.dict (dictSet d "plot_candidates" (.bool false)))) (hfile : ∀ f ∈ a.files, F (H.realpath f) = G (H.realpath f))
    (hdata : ∀ f ∈ a.files, F (H.realpath (dataFname (H.realpath f))) = G (H.realpath (dataFname (H.realpath f))))
    (h : RffaRuns H t o s a F F' .done) (h' : RffaRuns H t o s a G G' out') :
    out' = .done ∧ ∃ W P, Written (W ++ P) ∧ (∀ w ∈ W, ¬ IsPng w.1) ∧ (∀ w ∈ P, IsPng w.1) ∧
      ∀ p, (∀ l, a.log = some l → p ≠ H.realpath l) → F' p = F.putAll H (a.outdir.getD H.cwd) (W ++ P) p ∧ G' p = G.putAll H (a.outdir.getD H.cwd) W p := by
  obtain ⟨st, st', n, plot, n', plot', F1, G1, res', x, x', -, rfl, k1, l1, k2, l2, rfl, rfl, l4⟩ := rffa_done_parts (R := Eq) hi hc hl hF hG hfile hdata
    (fun st h => ⟨st, C143_files h, rfl⟩) h h'
  obtain ⟨rfl, -⟩ := saveConf_plot k1
  obtain ⟨rfl, -⟩ := saveConf_plot l1
  obtain ⟨W, P, hW, w1, w2, -, w3, w4⟩ := C143_saves (n' := n') hinj k2
  obtain ⟨w5, rfl⟩ := w4 _ _ _ l2
  have hW1 : Written W := ⟨fun w hw => hW.products w (List.mem_append_left _ hw), by
    have := hW.nodup
    rw [List.map_append] at this
    exact (List.nodup_append.mp this).1⟩
  refine ⟨l4, W, P, hW, w1, w2, fun p hp => ?_⟩
  rw [w3, w5]
  exact ⟨putAll_log hinj hW hp F x, putAll_log hinj hW1 hp G x'⟩

/-! ## An example -/

/-- The configuration of C118 with `plot_candidates: true`. -/
def pulsarNodeP : YamlNode :=
  match pulsarNode with
  | .map l => .map (l.dropLast ++ [("plot_candidates", .plain ['t', 'r', 'u', 'e'])])
  | n => n

theorem pulsarNodeP_dict : pulsarNodeP.construct = .ok (.dict (dictSet pulsarItems "plot_candidates" (.bool true))) := by with_unfolding_all rfl

/-- Its text. -/
def pulsarYamlP : List Char := "# With plots".toList

/-- The machine of C118, which knows both texts. -/
noncomputable def pulsarHostP : Host := { pulsarHost with parseYaml := fun t => .ok (if t = pulsarYaml then pulsarNode else if t = pulsarYamlP then pulsarNodeP else .quoted t) }

/-- The same files with the other configuration. -/
noncomputable def pulsarFilesP : Files := fun p => if p = "c.yaml".toList then some (asciiEncode pulsarYamlP) else pulsarFiles p

theorem pulsarP_conf : readConfig pulsarHostP pulsarFiles "c.yaml".toList = .ok (.dict (dictSet pulsarItems "plot_candidates" (.bool false))) := by
  have h : pulsarFiles (pulsarHostP.realpath "c.yaml".toList) = some (asciiEncode pulsarYaml) := by
    show pulsarFiles "c.yaml".toList = _
    unfold pulsarFiles
    rw [if_neg (by decide +kernel), if_neg (by decide +kernel), if_pos rfl]
  unfold readConfig
  rw [h]
  show (Except.ok (if asciiDecode (asciiEncode pulsarYaml) = pulsarYaml then pulsarNode else _)).bind _ = _
  rw [if_pos pulsarYaml_text]
  show pulsarNode.construct.bind jsonChecked = _
  rw [pulsarNode_dict]
  with_unfolding_all rfl

theorem pulsarP_confP : readConfig pulsarHostP pulsarFilesP "c.yaml".toList = .ok (.dict (dictSet pulsarItems "plot_candidates" (.bool true))) := by
  have h : pulsarFilesP (pulsarHostP.realpath "c.yaml".toList) = some (asciiEncode pulsarYamlP) := by
    show pulsarFilesP "c.yaml".toList = _
    unfold pulsarFilesP
    rw [if_pos rfl]
  unfold readConfig
  rw [h]
  show (Except.ok (if asciiDecode (asciiEncode pulsarYamlP) = pulsarYaml then pulsarNode else if asciiDecode (asciiEncode pulsarYamlP) = pulsarYamlP then pulsarNodeP else _)).bind _ = _
  rw [if_neg (by decide +kernel), if_pos (by decide +kernel)]
  show pulsarNodeP.construct.bind jsonChecked = _
  rw [pulsarNodeP_dict]
  with_unfolding_all rfl

/-- The hypotheses of `C143_rffa` are met: the run of C118 succeeds with plots (which here can be made of every candidate) and without, and all files but the plots are the same. -/
theorem C143_example (json png : PCandidate ℝ (CandObj ℝ) → List Char) : ∃ F' G',
    RffaRuns pulsarHostP pulsarTools ⟨json, fun x => .ok (png x)⟩ ⟨fun _ => 1, fun _ => [0]⟩ (pulsarArgs none) pulsarFilesP F' .done ∧
    RffaRuns pulsarHostP pulsarTools ⟨json, fun x => .ok (png x)⟩ ⟨fun _ => 1, fun _ => [0]⟩ (pulsarArgs none) pulsarFiles G' .done ∧
    ∀ p, p ≠ "c.yaml".toList → (∀ r, p ≠ "out/".toList ++ candidateFileName r ".png".toList) → G' p = F' p := by
  have hj : JoinsApart pulsarHostP "out".toList := fun x y _ _ h => by
    have : "out".toList ++ '/' :: x = "out".toList ++ '/' :: y := h
    simpa using this
  have hitems : pulsarDict = .dict (dictSet pulsarItems "plot_candidates" (.bool false)) := by with_unfolding_all rfl
  obtain ⟨st, d', hst, hd, -, -⟩ := C104_example ⟨json, none⟩ fun _ => none
  obtain ⟨st2, d2, hst2, hd2, -, -⟩ := C104_example ⟨json, some png⟩ fun _ => none
  rw [hst] at hst2
  cases hst2
  have hst' : pipelineFiles (diskOf pulsarHostP pulsarFiles) pulsarTools (.dict (dictSet pulsarItems "plot_candidates" (.bool false))) ["a.inf".toList] ⟨fun _ => 1, fun _ => [0]⟩ = .ok st := by
    rw [← hitems]
    exact (pulsarFiles_disk _).trans hst
  have hs : SavesPlots json none 1 st (fun _ => none) d' (.ok ()) := (C105_all none (.inl ⟨rfl, rfl⟩)).mpr ⟨rfl, hd⟩
  have hsP : SavesPlots json (some fun x => .ok (png x)) 1 st (fun _ => none) d2 (.ok ()) := (C105_all _ (.inr ⟨_, png, rfl, rfl, fun _ _ => rfl⟩)).mpr ⟨rfl, hd2⟩
  have hx : ∃ x, pulsarHostP.logText x := ⟨[], by simp [pulsarHostP, pulsarHost, asciiDecode]⟩
  have hsave : saveConfOf (.dict (dictSet pulsarItems "plot_candidates" (.bool false))) = .ok (1, false) := hitems ▸ pulsarDict_save
  have hother : ∀ p, p ≠ "c.yaml".toList → pulsarFilesP p = pulsarFiles p := fun p hp => if_neg hp
  have hfile : ∀ f ∈ ["a.inf".toList], pulsarFilesP f = pulsarFiles f := by
    intro f hf
    cases List.mem_singleton.mp hf
    exact hother _ (by decide +kernel)
  have hdata : ∀ f ∈ ["a.inf".toList], pulsarFilesP (dataFname f) = pulsarFiles (dataFname f) := by
    intro f hf
    cases List.mem_singleton.mp hf
    exact hother _ (by decide +kernel)
  have hP := C143_files (b' := true) hst'
  have hsame : SameInputs pulsarHostP "a.inf".toList ["a.inf".toList] pulsarFilesP pulsarFiles := ⟨hfile "a.inf".toList List.mem_cons_self, hfile, hdata⟩
  rw [← hsame.pipelineFiles fun _ => rfl] at hP
  obtain ⟨F', h⟩ := C118_runs (H := pulsarHostP) (o := ⟨json, fun x => .ok (png x)⟩) (a := pulsarArgs none) (res := .ok ()) rfl rfl (by simp [pulsarArgs]) (fun l hl => by cases hl) rfl hx pulsarP_confP hP
    ((saveConf_plot hsave).2 true) hsP
  obtain ⟨G', h'⟩ := C118_runs (H := pulsarHostP) (o := ⟨json, fun x => .ok (png x)⟩) (a := pulsarArgs none) (res := .ok ()) rfl rfl (by simp [pulsarArgs]) (fun l hl => by cases hl) rfl hx pulsarP_conf hst' hsave hs
  obtain ⟨-, W, P, hW, w1, w2, hall⟩ := C143_rffa (H := pulsarHostP) (fun _ => rfl) (a := pulsarArgs none) rfl (fun l e => by cases e) hj pulsarP_confP pulsarP_conf hfile hdata h h'
  refine ⟨F', G', h, h', fun p hp hpng => ?_⟩
  obtain ⟨h5, h6⟩ := hall p fun l e => by cases e
  rw [h5, h6]
  have hWn : (W.map Prod.fst).Nodup := by
    have := hW.nodup
    rw [List.map_append] at this
    exact (List.nodup_append.mp this).1
  by_cases hm : ∃ w ∈ W, p = pulsarHostP.realpath (pulsarHostP.join ((pulsarArgs none).outdir.getD pulsarHostP.cwd) w.1)
  · obtain ⟨w, hw, rfl⟩ := hm
    exact (putAll_mem hj (fun w hw => hW.products w (List.mem_append_left _ hw)) hWn w hw).trans (putAll_mem hj hW.products hW.nodup w (List.mem_append_left _ hw)).symm
  · rw [putAll_other fun w hw e => hm ⟨w, hw, e⟩, putAll_other fun w hw e => ?_]
    · exact (hother p hp).symm
    · rcases List.mem_append.mp hw with hw | hw
      · exact hm ⟨w, hw, e⟩
      · obtain ⟨r, hr⟩ := w2 w hw
        refine hpng r ?_
        rw [← hr]
        exact e

end Verif.Props
