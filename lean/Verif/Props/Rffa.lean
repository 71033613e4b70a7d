import Verif.Props.RffaReads

/-!
# C118: what a run of `rffa` reads and writes
-/

namespace Verif.Props

open Verif.Model Verif.Spec Verif.Lemmas

/-! ## What is written -/

theorem put_same (H : Host) (F : Files) (path : List Char) (x : List UInt8) : F.put H path x (H.realpath path) = some x := if_pos rfl

theorem put_other {H : Host} {F : Files} {path p : List Char} {x : List UInt8} (h : p ≠ H.realpath path) : F.put H path x p = F p := if_neg h

theorem withLog_other {H : Host} {F : Files} {a : RffaArgs} {x : List UInt8} {p : List Char} (h : ∀ l, a.log = some l → p ≠ H.realpath l) :
    withLog H F a x p = F p := by
  unfold withLog
  cases e : a.log with
  | none => rfl
  | some l => exact put_other (h l e)

theorem openLog_ok {H : Host} {F F0 : Files} {a : RffaArgs} (h : openLog H F a = .ok F0) : F0 = withLog H F a [] := by
  unfold openLog at h
  unfold withLog
  cases e : a.log with
  | none => rw [e] at h; cases h; rfl
  | some l =>
    rw [e] at h
    simp only at h ⊢
    cases e' : H.openError l with
    | none => rw [e'] at h; cases h; rfl
    | some e'' => rw [e'] at h; cases h

theorem withLog_twice (H : Host) (F : Files) (a : RffaArgs) (x y : List UInt8) : withLog H (withLog H F a x) a y = withLog H F a y := by
  unfold withLog
  cases a.log with
  | none => rfl
  | some l =>
    funext p
    by_cases h : p = H.realpath l
    · subst h
      simp only
      rw [put_same, put_same]
    · simp only
      rw [put_other h, put_other h, put_other h]

theorem putAll_other {H : Host} {outdir : List Char} {p : List Char} : ∀ {fs : List (List Char × List Char)} {F : Files},
    (∀ f ∈ fs, p ≠ H.realpath (H.join outdir f.1)) → F.putAll H outdir fs p = F p
  | [], _, _ => rfl
  | f :: fs, F, h => by
    have e : F.putAll H outdir (f :: fs) = (F.put H (H.join outdir f.1) (H.encode f.2)).putAll H outdir fs := rfl
    rw [e, putAll_other fun g hg => h g (List.mem_cons_of_mem _ hg), put_other (h f (by simp))]

theorem tables_products {st : PipeState ℝ (CandObj ℝ)} {tables : List (List Char × List Char)} (h : tableFiles st = .ok tables) :
    ∀ f ∈ tables, IsProduct f.1 := by
  intro f hf
  have := (tableFiles_names h).subset (List.mem_map_of_mem hf)
  simp only [List.mem_cons, List.not_mem_nil, or_false] at this
  unfold IsProduct
  tauto

theorem written_products {json : PCandidate ℝ (CandObj ℝ) → List Char} {plot : Option (PCandidate ℝ (CandObj ℝ) → Except PyErr (List Char))}
    {processes : ℕ} {st : PipeState ℝ (CandObj ℝ)} {order : List (List Char × List Char)}
    (ho : order.Perm ((writerRuns json plot processes st.candidates).map Prod.fst).flatten) : ∀ f ∈ order, IsProduct f.1 := by
  intro f hf
  have h1 := (written_sublist json plot processes st).subset (ho.mem_iff.mp hf)
  unfold allCandidateFiles at h1
  have hc := candidateFiles_names (fullCoding json plot) 0 st.candidates
  simp only [Nat.zero_add] at hc
  obtain ⟨r, _, hr⟩ := hc.2 f h1
  exact .inr (.inr (.inr ⟨r, hr⟩))

theorem savesTo_other {H : Host} {outdir : List Char} {o : CandOutput} {n : ℕ} {plot : Bool} {st : PipeState ℝ (CandObj ℝ)} {F F' : Files}
    {res : Except PyErr Unit} (h : SavesTo H outdir o n plot st F F' res) {p : List Char} (hp : ∀ name, IsProduct name → p ≠ H.realpath (H.join outdir name)) :
    F' p = F p := by
  unfold SavesTo at h
  by_cases hk : st.peaks.length = 0
  · simp only [if_pos hk] at h
    rw [h.1]
  · simp only [if_neg hk] at h
    obtain ⟨tables, order, ht, ho, rfl, -⟩ := h
    rw [putAll_other fun f hf => hp _ (written_products ho f hf), putAll_other fun f hf => hp _ (tables_products ht f hf)]

/-- **C118.** A file that is neither the log file nor a product in the output directory is left as it was, however the run ends. -/
theorem C118_untouched {H : Host} {t : PipeTools} {o : CandOutput} {s : PoolSchedule} {a : RffaArgs} {F F' : Files} {out : RffaEnd}
    (h : RffaRuns H t o s a F F' out) {p : List Char} (hl : ∀ l, a.log = some l → p ≠ H.realpath l)
    (hp : ∀ name, IsProduct name → p ≠ H.realpath (H.join (a.outdir.getD H.cwd) name)) : F' p = F p := by
  unfold RffaRuns at h
  cases e : rffaParse H a with
  | none => rw [e] at h; rw [h.2]
  | some r =>
    obtain ⟨config, outdir, files⟩ := r
    have ho : outdir = a.outdir.getD H.cwd := by
      unfold rffaParse at e
      cases hc : a.config with
      | none => rw [hc] at e; cases e
      | some c =>
        rw [hc] at e
        simp only at e
        split_ifs at e
        cases e
        rfl
    subst ho
    rw [e] at h
    simp only at h
    cases e' : openLog H F a with
    | error er => rw [e'] at h; rw [h.2]
    | ok F0 =>
      rw [e'] at h
      have h0 := openLog_ok e'
      subst h0
      obtain ⟨t0, t1, t2, -, -, -, h⟩ := h
      have hw : ∀ x, withLog H (withLog H F a []) a x p = F p := by
        intro x
        rw [withLog_twice, withLog_other hl]
      cases e1 : readConfig H (withLog H (withLog H F a []) a t0) config with
      | error er => rw [e1] at h; rw [h.2, hw]
      | ok conf =>
        rw [e1] at h
        simp only at h
        cases e2 : pipelineFiles (diskOf H (withLog H (withLog H F a []) a t1)) t conf files s with
        | error er => rw [e2] at h; rw [h.2, hw]
        | ok st =>
          rw [e2] at h
          obtain ⟨n, plot, F1, res, -, h2, h3, -⟩ := h
          rw [h3, withLog_other hl, savesTo_other h2 hp, withLog_other hl]

/-- **C118.** A wrong command line ends the program before anything is read or written. -/
theorem C118_usage {H : Host} {t : PipeTools} {o : CandOutput} {s : PoolSchedule} {a : RffaArgs} {F F' : Files} {out : RffaEnd}
    (h : RffaRuns H t o s a F F' out) :
    (out = .usage ↔ a.config = none ∨ H.isDir (a.outdir.getD H.cwd) = false ∨ a.files = [] ∨
      ∃ l, a.logLevel = some l ∧ l ∉ ["DEBUG".toList, "INFO".toList, "WARNING".toList]) ∧ (out = .usage → F' = F) := by
  have hparse : rffaParse H a = none ↔ a.config = none ∨ H.isDir (a.outdir.getD H.cwd) = false ∨ a.files = [] ∨
      ∃ l, a.logLevel = some l ∧ l ∉ ["DEBUG".toList, "INFO".toList, "WARNING".toList] := by
    unfold rffaParse
    cases hc : a.config with
    | none => simp
    | some c =>
      have hlev : a.logLevel.getD "DEBUG".toList ∈ ["DEBUG".toList, "INFO".toList, "WARNING".toList] ↔
          ¬ ∃ l, a.logLevel = some l ∧ l ∉ ["DEBUG".toList, "INFO".toList, "WARNING".toList] := by
        cases a.logLevel with
        | none => simp
        | some l =>
          simp only [Option.getD_some, Option.some.injEq, exists_eq_left', not_not]
      simp only [hlev]
      by_cases h1 : H.isDir (a.outdir.getD H.cwd) = true ∧ (¬ ∃ l, a.logLevel = some l ∧ l ∉ ["DEBUG".toList, "INFO".toList, "WARNING".toList]) ∧ a.files ≠ []
      · rw [if_pos h1]
        obtain ⟨i1, i2, i3⟩ := h1
        constructor
        · intro h; cases h
        · rintro (h | h | h | h)
          · cases h
          · rw [h] at i1; cases i1
          · exact absurd h i3
          · exact absurd h i2
      · rw [if_neg h1]
        refine ⟨fun _ => ?_, fun _ => rfl⟩
        by_contra hc'
        push Not at hc'
        obtain ⟨j1, j2, j3, j4⟩ := hc'
        refine h1 ⟨by simpa using j2, ?_, j3⟩
        rintro ⟨l, k1, k2⟩
        exact k2 (j4 l k1)
  unfold RffaRuns at h
  cases e : rffaParse H a with
  | none =>
    rw [e] at h
    exact ⟨⟨fun _ => hparse.mp e, fun _ => h.1⟩, fun _ => h.2⟩
  | some r =>
    obtain ⟨config, outdir, files⟩ := r
    rw [e] at h
    simp only at h
    have hne : out ≠ .usage := by
      cases e' : openLog H F a with
      | error er => rw [e'] at h; rw [h.1]; simp
      | ok F0 =>
        rw [e'] at h
        obtain ⟨t0, t1, t2, -, -, -, h⟩ := h
        cases e1 : readConfig H (withLog H F0 a t0) config with
        | error er => rw [e1] at h; rw [h.1]; simp
        | ok conf =>
          rw [e1] at h
          simp only at h
          cases e2 : pipelineFiles (diskOf H (withLog H F0 a t1)) t conf files s with
          | error er => rw [e2] at h; rw [h.1]; simp
          | ok st =>
            rw [e2] at h
            obtain ⟨n, plot, F1, res, -, -, -, h4⟩ := h
            rw [h4]
            cases res <;> simp [endOf]
    refine ⟨⟨fun h => absurd h hne, fun h => ?_⟩, fun h => absurd h hne⟩
    rw [hparse.mpr h] at e
    cases e

/-! ## The log file -/

theorem readConfig_congr {H : Host} {F F' : Files} {c : List Char} (h : F (H.realpath c) = F' (H.realpath c)) : readConfig H F c = readConfig H F' c := by
  unfold readConfig
  rw [h]

theorem pipelineFiles_log {H : Host} (hi : ∀ p, H.realpath (H.realpath p) = H.realpath p) {F F' : Files} {config : List Char} {files : List (List Char)} {l : List Char}
    (hl : LogNotRead H config files l) (hF : ∀ p, p ≠ H.realpath l → F p = F' p) (t : PipeTools) (conf : PyVal) (s : PoolSchedule) :
    pipelineFiles (diskOf H F) t conf files s = pipelineFiles (diskOf H F') t conf files s := by
  refine C118_reads (D := diskOf H F) (D' := diskOf H F') rfl rfl rfl hi ?_ t s
  intro v c _ _ f hf
  have h1 : F (H.realpath f) = F' (H.realpath f) := hF _ (hl.file f hf).symm
  have h2 : F (H.realpath (dataFname (H.realpath f))) = F' (H.realpath (dataFname (H.realpath f))) := hF _ (hl.data f hf).symm
  unfold SameFile
  cases c.1.prep.fmt with
  | presto => exact ⟨by simp only [diskOf, h1], by simp only [diskOf, hi, h1], h2⟩
  | sigproc => exact ⟨h1, by simp only [diskOf, hi, h1]⟩

theorem putAll_congr {H : Host} {outdir q : List Char} : ∀ {fs : List (List Char × List Char)} {F F' : Files}, (∀ p, p ≠ q → F p = F' p) →
    ∀ p, p ≠ q → F.putAll H outdir fs p = F'.putAll H outdir fs p
  | [], _, _, h, p, hp => h p hp
  | f :: fs, F, F', h, p, hp => by
    have e : ∀ F : Files, F.putAll H outdir (f :: fs) = (F.put H (H.join outdir f.1) (H.encode f.2)).putAll H outdir fs := fun _ => rfl
    rw [e, e]
    refine putAll_congr (fun p hp => ?_) p hp
    unfold Files.put
    rw [h p hp]

/-- Saving on a machine that differs in the file `q` only, which is not a product. -/
theorem savesTo_congr {H : Host} {outdir : List Char} {o : CandOutput} {n : ℕ} {plot : Bool} {st : PipeState ℝ (CandObj ℝ)} {F F' G : Files}
    {res : Except PyErr Unit} (h : SavesTo H outdir o n plot st F F' res) {q : List Char} (hG : ∀ p, p ≠ q → F p = G p)
    (hq : ∀ name, IsProduct name → q ≠ H.realpath (H.join outdir name)) :
    ∃ G', SavesTo H outdir o n plot st G G' res ∧ (∀ p, p ≠ q → F' p = G' p) ∧ G' q = G q := by
  unfold SavesTo at h ⊢
  by_cases hk : st.peaks.length = 0
  · simp only [if_pos hk] at h ⊢
    exact ⟨G, ⟨rfl, h.2⟩, by rw [h.1]; exact hG, rfl⟩
  · simp only [if_neg hk] at h ⊢
    obtain ⟨tables, order, ht, ho, rfl, hr⟩ := h
    exact ⟨_, ⟨tables, order, ht, ho, rfl, hr⟩, putAll_congr (putAll_congr hG),
      by rw [putAll_other fun f hf => hq _ (written_products ho f hf), putAll_other fun f hf => hq _ (tables_products ht f hf)]⟩

theorem files_ext {F F' : Files} {q : List Char} (h : ∀ p, p ≠ q → F p = F' p) (hq : F q = F' q) : F = F' := by
  funext p
  by_cases hp : p = q
  · rw [hp, hq]
  · exact h p hp

/-- **C118**, partial: if the log file can be opened and is none of the files that are read and no product, then a run with a log file ends like the run without
one, and leaves the same files except for the log file. Missing: other log files, see `C118_false`. -/
theorem C118_log_partial {H : Host} (hi : ∀ p, H.realpath (H.realpath p) = H.realpath p) {t : PipeTools} {o : CandOutput} {s : PoolSchedule}
    {a : RffaArgs} {config l : List Char} (hc : a.config = some config) (hlog : a.log = some l) (hopen : H.openError l = none)
    (hread : LogNotRead H config a.files l) (hprod : LogNotProduct H (a.outdir.getD H.cwd) l) {F : Files} {out : RffaEnd} :
    (∀ F', RffaRuns H t o s a F F' out → ∃ F'', RffaRuns H t o s { a with logfile := none } F F'' out ∧ F'' (H.realpath l) = F (H.realpath l) ∧
      ∀ p, p ≠ H.realpath l → F'' p = F' p) ∧
    ∀ F'', RffaRuns H t o s { a with logfile := none } F F'' out → ∃ F', RffaRuns H t o s a F F' out ∧ ∀ p, p ≠ H.realpath l → F'' p = F' p := by
  have hnone : ({ a with logfile := none } : RffaArgs).log = none := rfl
  have hparse : rffaParse H { a with logfile := none } = rffaParse H a := rfl
  have hw0 : ∀ F x, withLog H F { a with logfile := none } x = F := fun F x => rfl
  have hw : ∀ F x, withLog H F a x = F.put H l x := fun F x => by unfold withLog; rw [hlog]
  have hopen0 : ∀ F, openLog H F { a with logfile := none } = .ok F := fun F => rfl
  have hopen1 : ∀ F, openLog H F a = .ok (F.put H l []) := fun F => by unfold openLog; rw [hlog]; simp only [hopen]
  have hoff : ∀ (F : Files) x p, p ≠ H.realpath l → F.put H l x p = F p := fun F x p hp => put_other hp
  have hconf : ∀ (F : Files) x, readConfig H (F.put H l x) config = readConfig H F config := fun F x => readConfig_congr (put_other hread.config.symm)
  have hpipe : ∀ (F : Files) x conf, pipelineFiles (diskOf H (F.put H l x)) t conf a.files s = pipelineFiles (diskOf H F) t conf a.files s :=
    fun F x conf => pipelineFiles_log hi hread (hoff F x) t conf s
  have hput2 : ∀ (F : Files) x y, (F.put H l x).put H l y = F.put H l y := fun F x y =>
    files_ext (q := H.realpath l) (fun p hp => by rw [put_other hp, put_other hp, put_other hp]) (by rw [put_same, put_same])
  have hfiles : ∀ c d fs, rffaParse H a = some (c, d, fs) → c = config ∧ d = a.outdir.getD H.cwd ∧ fs = a.files := by
    intro c d fs e
    unfold rffaParse at e
    rw [hc] at e
    simp only at e
    split_ifs at e
    cases e
    exact ⟨rfl, rfl, rfl⟩
  constructor
  · intro F' h
    unfold RffaRuns at h ⊢
    rw [hparse]
    cases e : rffaParse H a with
    | none =>
      rw [e] at h
      exact ⟨F, ⟨h.1, rfl⟩, rfl, fun p _ => by rw [h.2]⟩
    | some r =>
      obtain ⟨c, d, fs⟩ := r
      obtain ⟨rfl, rfl, rfl⟩ := hfiles _ _ _ e
      rw [e] at h
      simp only [hopen1, hopen0] at h ⊢
      obtain ⟨t0, t1, t2, l0, l1, l2, h⟩ := h
      simp only [hw, hput2, hconf, hpipe] at h
      unfold RffaBody
      simp only [hw0]
      cases e1 : readConfig H F c with
      | error er =>
        rw [e1] at h
        refine ⟨F, ⟨t0, t1, t2, l0, l1, l2, h.1, rfl⟩, rfl, fun p hp => ?_⟩
        rw [h.2, put_other hp]
      | ok conf =>
        rw [e1] at h
        simp only at h ⊢
        cases e2 : pipelineFiles (diskOf H F) t conf a.files s with
        | error er =>
          rw [e2] at h
          refine ⟨F, ⟨t0, t1, t2, l0, l1, l2, h.1, rfl⟩, rfl, fun p hp => ?_⟩
          rw [h.2, put_other hp]
        | ok st =>
          rw [e2] at h
          obtain ⟨n, plot, F1, res, h1, h2, rfl, h4⟩ := h
          obtain ⟨G', g1, g2, g3⟩ := savesTo_congr h2 (hoff F []) hprod
          refine ⟨G', ⟨t0, t1, t2, l0, l1, l2, n, plot, G', res, h1, g1, rfl, h4⟩, g3, fun p hp => ?_⟩
          rw [put_other hp, g2 p hp]
  · intro F'' h
    unfold RffaRuns at h ⊢
    rw [hparse] at h
    cases e : rffaParse H a with
    | none =>
      rw [e] at h
      exact ⟨F, ⟨h.1, rfl⟩, fun p _ => by rw [h.2]⟩
    | some r =>
      obtain ⟨c, d, fs⟩ := r
      obtain ⟨rfl, rfl, rfl⟩ := hfiles _ _ _ e
      rw [e] at h
      simp only [hopen1, hopen0] at h ⊢
      obtain ⟨t0, t1, t2, l0, l1, l2, h⟩ := h
      simp only [hw0] at h
      unfold RffaBody
      simp only [hw, hput2, hconf, hpipe]
      cases e1 : readConfig H F c with
      | error er =>
        rw [e1] at h
        refine ⟨F.put H l t2, ⟨t0, t1, t2, l0, l1, l2, ?_⟩, fun p hp => ?_⟩
        · exact ⟨h.1, rfl⟩
        · rw [h.2, put_other hp]
      | ok conf =>
        rw [e1] at h
        simp only at h
        cases e2 : pipelineFiles (diskOf H F) t conf a.files s with
        | error er =>
          rw [e2] at h
          refine ⟨F.put H l t2, ⟨t0, t1, t2, l0, l1, l2, ?_⟩, fun p hp => ?_⟩
          · simp only [e2]
            exact ⟨h.1, trivial⟩
          · rw [h.2, put_other hp]
        | ok st =>
          rw [e2] at h
          obtain ⟨n, plot, F1, res, h1, h2, rfl, h4⟩ := h
          obtain ⟨G', g1, g2, -⟩ := savesTo_congr h2 (fun p hp => (hoff F [] p hp).symm) hprod
          refine ⟨G'.put H l t2, ⟨t0, t1, t2, l0, l1, l2, ?_⟩, fun p hp => ?_⟩
          · simp only [e2]
            exact ⟨n, plot, G', res, h1, g1, rfl, h4⟩
          · rw [put_other hp, g2 p hp]

/-! ## The products -/

theorem putAll_holds {H : Host} {outdir : List Char} (hinj : JoinsApart H outdir) : ∀ {fs : List (List Char × List Char)} {F : Files} {d : OutDir},
    (∀ f ∈ fs, IsProduct f.1) → HoldsDir H outdir F d → HoldsDir H outdir (F.putAll H outdir fs) (d.writeAll fs)
  | [], _, _, _, h => h
  | f :: fs, F, d, hf, h => by
    have e : F.putAll H outdir (f :: fs) = (F.put H (H.join outdir f.1) (H.encode f.2)).putAll H outdir fs := rfl
    have e' : d.writeAll (f :: fs) = (d.write f).writeAll fs := rfl
    rw [e, e']
    refine putAll_holds hinj (fun g hg => hf g (List.mem_cons_of_mem _ hg)) fun name hn => ?_
    unfold Files.put OutDir.write
    by_cases hq : name = f.1
    · rw [if_pos hq, if_pos (by rw [hq])]
      rfl
    · rw [if_neg hq, if_neg fun hp => hq (hinj _ _ hn (hf f (by simp)) hp)]
      exact h name hn

theorem withLog_holds {H : Host} {outdir : List Char} {F : Files} {a : RffaArgs} {d : OutDir} {x : List UInt8} (hl : ∀ l, a.log = some l → LogNotProduct H outdir l) :
    HoldsDir H outdir (withLog H F a x) d ↔ HoldsDir H outdir F d := by
  have : ∀ name, IsProduct name → withLog H F a x (H.realpath (H.join outdir name)) = F (H.realpath (H.join outdir name)) :=
    fun name hn => withLog_other fun l e => (hl l e name hn).symm
  unfold HoldsDir
  exact ⟨fun h name hn => by rw [← this name hn]; exact h name hn, fun h name hn => by rw [this name hn]; exact h name hn⟩

theorem savesTo_plots {H : Host} {outdir : List Char} {o : CandOutput} {n : ℕ} {plot : Bool} {st : PipeState ℝ (CandObj ℝ)} {F F' : Files}
    {res : Except PyErr Unit} {d : OutDir} (hinj : JoinsApart H outdir) (hd : HoldsDir H outdir F d) (h : SavesTo H outdir o n plot st F F' res) :
    ∃ d', SavesPlots o.json (if plot then some o.png else none) n st d d' res ∧ HoldsDir H outdir F' d' := by
  unfold SavesTo at h
  unfold SavesPlots
  by_cases hk : st.peaks.length = 0
  · simp only [if_pos hk] at h ⊢
    exact ⟨d, ⟨rfl, h.2⟩, by rw [h.1]; exact hd⟩
  · simp only [if_neg hk] at h ⊢
    obtain ⟨tables, order, ht, ho, rfl, hr⟩ := h
    exact ⟨_, ⟨tables, order, ht, ho, rfl, hr⟩, putAll_holds hinj (written_products ho) (putAll_holds hinj (tables_products ht) hd)⟩

theorem plots_savesTo {H : Host} (outdir : List Char) {o : CandOutput} {n : ℕ} {plot : Bool} {st : PipeState ℝ (CandObj ℝ)} (F : Files)
    {res : Except PyErr Unit} {d d' : OutDir} (h : SavesPlots o.json (if plot then some o.png else none) n st d d' res) :
    ∃ F', SavesTo H outdir o n plot st F F' res := by
  unfold SavesPlots at h
  unfold SavesTo
  by_cases hk : st.peaks.length = 0
  · simp only [if_pos hk] at h ⊢
    exact ⟨F, rfl, h.2⟩
  · simp only [if_neg hk] at h ⊢
    obtain ⟨tables, order, ht, ho, -, hr⟩ := h
    exact ⟨_, tables, order, ht, ho, rfl, hr⟩

/-- **C118.** A run that ends normally has read the configuration and processed the files as they were, and the output directory then is as the other
theorems on products (C104, C105, C107) say; with the log file none of these files. -/
theorem C118_products {H : Host} (hi : ∀ p, H.realpath (H.realpath p) = H.realpath p) {t : PipeTools} {o : CandOutput} {s : PoolSchedule}
    {a : RffaArgs} {config : List Char} (hc : a.config = some config)
    (hlog : ∀ l, a.log = some l → LogNotRead H config a.files l ∧ LogNotProduct H (a.outdir.getD H.cwd) l)
    (hinj : JoinsApart H (a.outdir.getD H.cwd)) {F F' : Files} {d : OutDir} (hd : HoldsDir H (a.outdir.getD H.cwd) F d)
    (h : RffaRuns H t o s a F F' .done) :
    ∃ conf st n plot d', readConfig H F config = .ok conf ∧ pipelineFiles (diskOf H F) t conf a.files s = .ok st ∧ saveConfOf conf = .ok (n, plot) ∧
      SavesPlots o.json (if plot then some o.png else none) n st d d' (.ok ()) ∧ HoldsDir H (a.outdir.getD H.cwd) F' d' := by
  have hl : ∀ l, a.log = some l → LogNotProduct H (a.outdir.getD H.cwd) l := fun l e => (hlog l e).2
  have hconf : ∀ (F : Files) x, readConfig H (withLog H F a x) config = readConfig H F config := fun F x =>
    readConfig_congr (withLog_other fun l e => (hlog l e).1.config.symm)
  have hpipe : ∀ (F : Files) x conf, pipelineFiles (diskOf H (withLog H F a x)) t conf a.files s = pipelineFiles (diskOf H F) t conf a.files s := by
    intro F x conf
    cases e : a.log with
    | none => unfold withLog; rw [e]
    | some l =>
      refine pipelineFiles_log hi (hlog l e).1 (fun p hp => withLog_other fun l' e' => ?_) t conf s
      rw [e] at e'
      cases e'
      exact hp
  unfold RffaRuns at h
  cases e : rffaParse H a with
  | none => rw [e] at h; cases h.1
  | some r =>
    obtain ⟨c, dir, fs⟩ := r
    have hr : c = config ∧ dir = a.outdir.getD H.cwd ∧ fs = a.files := by
      unfold rffaParse at e
      rw [hc] at e
      simp only at e
      split_ifs at e
      cases e
      exact ⟨rfl, rfl, rfl⟩
    obtain ⟨rfl, rfl, rfl⟩ := hr
    rw [e] at h
    simp only at h
    cases e' : openLog H F a with
    | error er => rw [e'] at h; cases h.1
    | ok F0 =>
      rw [e'] at h
      have h0 := openLog_ok e'
      subst h0
      obtain ⟨t0, t1, t2, -, -, -, h⟩ := h
      simp only [withLog_twice, hconf, hpipe] at h
      cases e1 : readConfig H F c with
      | error er => rw [e1] at h; cases h.1
      | ok conf =>
        rw [e1] at h
        simp only at h
        cases e2 : pipelineFiles (diskOf H F) t conf a.files s with
        | error er => rw [e2] at h; cases h.1
        | ok st =>
          rw [e2] at h
          obtain ⟨n, plot, F1, res, h1, h2, rfl, h4⟩ := h
          cases res with
          | error er => cases h4
          | ok u =>
            obtain ⟨d', g1, g2⟩ := savesTo_plots hinj ((withLog_holds hl).mpr hd) h2
            exact ⟨conf, st, n, plot, d', rfl, e2, h1, g1, (withLog_holds hl).mpr g2⟩

/-- And conversely: if the configuration can be read and the files be processed and their products be saved, then there is a run that does so. -/
theorem C118_runs {H : Host} {t : PipeTools} {o : CandOutput} {s : PoolSchedule} {a : RffaArgs} {config : List Char} (hc : a.config = some config)
    (hdir : H.isDir (a.outdir.getD H.cwd) = true) (hf : a.files ≠ []) (hlev : ∀ l, a.logLevel = some l → l ∈ ["DEBUG".toList, "INFO".toList, "WARNING".toList])
    (hlog : a.log = none) (hx : ∃ x, H.logText x) {F : Files} {conf : PyVal} {st : PipeState ℝ (CandObj ℝ)} {n : ℕ} {plot : Bool} {d d' : OutDir}
    (h1 : readConfig H F config = .ok conf) (h2 : pipelineFiles (diskOf H F) t conf a.files s = .ok st) (h3 : saveConfOf conf = .ok (n, plot))
    {res : Except PyErr Unit} (h4 : SavesPlots o.json (if plot then some o.png else none) n st d d' res) :
    ∃ F', RffaRuns H t o s a F F' (endOf res) := by
  obtain ⟨x, hx⟩ := hx
  obtain ⟨F1, h5⟩ := plots_savesTo (H := H) (a.outdir.getD H.cwd) F h4
  have hparse : rffaParse H a = some (config, a.outdir.getD H.cwd, a.files) := by
    unfold rffaParse
    rw [hc]
    have hlev' : a.logLevel.getD "DEBUG".toList ∈ ["DEBUG".toList, "INFO".toList, "WARNING".toList] := by
      cases e : a.logLevel with
      | none => exact List.mem_cons_self
      | some l => exact hlev l e
    exact if_pos ⟨hdir, hlev', hf⟩
  have hw : ∀ F x, withLog H F a x = F := fun F x => by unfold withLog; rw [hlog]
  refine ⟨F1, ?_⟩
  unfold RffaRuns openLog
  rw [hparse, hlog]
  refine ⟨x, x, x, hx, hx, hx, ?_⟩
  simp only [hw, h1, h2]
  exact ⟨n, plot, F1, res, h3, h5, rfl, rfl⟩

/-! ## A log file that is the configuration file -/

/-- **C118** fails if the log file is the configuration file: this then is a log, whatever it was. -/
theorem C118_config_lost {H : Host} {t : PipeTools} {o : CandOutput} {s : PoolSchedule} {a : RffaArgs} {config l : List Char} (hc : a.config = some config)
    (hlog : a.log = some l) (hsame : H.realpath l = H.realpath config) (hopen : H.openError l = none) {F F' : Files} {out : RffaEnd}
    (h : RffaRuns H t o s a F F' out) (hout : out ≠ .usage) : ∃ x, H.logText x ∧ F' (H.realpath config) = some x := by
  have hw : ∀ F x, withLog H F a x (H.realpath config) = some x := fun F x => by unfold withLog; rw [hlog, ← hsame]; exact put_same _ _ _ _
  unfold RffaRuns at h
  cases e : rffaParse H a with
  | none => rw [e] at h; exact absurd h.1 hout
  | some r =>
    obtain ⟨c, dir, fs⟩ := r
    have hr : c = config := by
      unfold rffaParse at e
      rw [hc] at e
      simp only at e
      split_ifs at e
      cases e
      rfl
    subst hr
    rw [e] at h
    have e' : openLog H F a = .ok (F.put H l []) := by unfold openLog; rw [hlog]; simp only [hopen]
    simp only [e'] at h
    obtain ⟨t0, t1, t2, -, -, l2, h⟩ := h
    refine ⟨t2, l2, ?_⟩
    cases e1 : readConfig H (withLog H (F.put H l []) a t0) c with
    | error er => rw [e1] at h; rw [h.2, hw]
    | ok conf =>
      rw [e1] at h
      simp only at h
      cases e2 : pipelineFiles (diskOf H (withLog H (F.put H l []) a t1)) t conf fs s with
      | error er => rw [e2] at h; rw [h.2, hw]
      | ok st =>
        rw [e2] at h
        obtain ⟨n, plot, F1, res, -, -, rfl, -⟩ := h
        exact hw _ _

/-- The configuration `pulsarDict`, as it is written in a file. -/
def pulsarNode : YamlNode := .map [
  ("processes", .plain ['1']),
  ("data", .map [("format", .plain ['p', 'r', 'e', 's', 't', 'o']), ("fmin", .plain []), ("fmax", .plain []), ("nchans", .plain [])]),
  ("dmselect", .map [("min", .plain []), ("max", .plain []), ("dmsinb_max", .plain ['4', '5', '.', '0'])]),
  ("dereddening", .map [("rmed_width", .plain ['3', '3', '.', '0']), ("rmed_minpts", .plain ['3', '3'])]),
  ("ranges", .seq [.map [("name", .quoted ['l', 'o', 'n', 'g']),
    ("ffa_search", .map [("period_min", .plain ['3', '2', '.', '0']), ("period_max", .plain ['3', '4', '.', '0']), ("bins_min", .plain ['3', '2']),
      ("bins_max", .plain ['3', '3']), ("fpmin", .plain ['8']), ("wtsp", .plain ['1', '.', '5']), ("ducy_max", .plain ['0', '.', '3'])]),
    ("find_peaks", .map [("smin", .plain ['7', '.', '0']), ("segwidth", .plain ['5', '.', '0']), ("nstd", .plain ['6', '.', '0']), ("minseg", .plain ['1', '0']),
      ("clrad", .plain ['0', '.', '2'])]),
    ("candidates", .map [("bins", .plain ['1', '6']), ("subints", .plain ['4'])])]]),
  ("clustering", .map [("radius", .plain ['0', '.', '2'])]),
  ("harmonic_flagging", .map [("denom_max", .plain ['1', '0', '0']), ("phase_distance_max", .plain ['1', '.', '0']),
    ("dm_distance_max", .plain ['3', '.', '0']), ("snr_distance_max", .plain ['3', '.', '0'])]),
  ("candidate_filters", .map [("dm_min", .plain []), ("snr_min", .plain ['8', '.', '0']), ("remove_harmonics", .plain ['f', 'a', 'l', 's', 'e']),
    ("max_number", .plain [])]),
  ("plot_candidates", .plain ['f', 'a', 'l', 's', 'e'])]

theorem pulsarNode_dict : pulsarNode.construct = .ok pulsarDict := by with_unfolding_all rfl

/-- The first line of that file, which stands for the whole here. -/
def pulsarYaml : List Char := "# A configuration".toList

def asciiEncode (t : List Char) : List UInt8 := t.map fun c => UInt8.ofNat c.toNat

def asciiDecode (b : List UInt8) : List Char := b.map fun x => Char.ofNat x.toNat

/-- A machine: all paths are real, the configuration begins with `#`, and logs do not, which are no YAML documents of interest. -/
noncomputable def pulsarHost : Host where
  realpath := id
  isDir _ := true
  join d n := d ++ '/' :: n
  cwd := "out".toList
  openError _ := none
  encode := asciiEncode
  decode := asciiDecode
  parseYaml t := .ok (if t = pulsarYaml then pulsarNode else .quoted t)
  parseSky _ _ := .ok (.fin (1 / 240), .fin (-1))
  galactic _ := (120, 30)
  logText b := (asciiDecode b).head? ≠ some '#'

/-- The configuration and the input files. -/
noncomputable def pulsarFiles : Files := fun p =>
  if p = "a.inf".toList then some (asciiEncode pulsarText)
  else if p = "a.dat".toList then some (pulsarRaw.map encodeSample).flatten
  else if p = "c.yaml".toList then some (asciiEncode pulsarYaml)
  else none

/-- `rffa -c c.yaml a.inf`, with a log file or not. -/
def pulsarArgs (logfile : Option (List Char)) : RffaArgs := ⟨some "c.yaml".toList, none, logfile, none, false, ["a.inf".toList]⟩

theorem pulsarYaml_text : asciiDecode (asciiEncode pulsarYaml) = pulsarYaml := by decide +kernel

theorem pulsarText_text : asciiDecode (asciiEncode pulsarText) = pulsarText := by decide +kernel

theorem pulsarFiles_conf : readConfig pulsarHost pulsarFiles "c.yaml".toList = .ok pulsarDict := by
  have h : pulsarFiles (pulsarHost.realpath "c.yaml".toList) = some (asciiEncode pulsarYaml) := by
    show pulsarFiles "c.yaml".toList = _
    unfold pulsarFiles
    rw [if_neg (by decide +kernel), if_neg (by decide +kernel), if_pos rfl]
  unfold readConfig
  rw [h]
  show (Except.ok (if asciiDecode (asciiEncode pulsarYaml) = pulsarYaml then pulsarNode else _)).bind _ = _
  rw [if_pos pulsarYaml_text]
  show pulsarNode.construct.bind jsonChecked = _
  rw [pulsarNode_dict]
  with_unfolding_all rfl

theorem pulsarFiles_disk (s : PoolSchedule) : pipelineFiles (diskOf pulsarHost pulsarFiles) pulsarTools pulsarDict ["a.inf".toList] s =
    pipelineFiles pulsarDisk pulsarTools pulsarDict ["a.inf".toList] s := by
  refine (C118_reads (D := pulsarDisk) (D' := diskOf pulsarHost pulsarFiles) rfl rfl rfl (fun _ => rfl) ?_ _ _).symm
  intro v c hv hc f hf
  cases List.mem_singleton.mp hf
  have hv' : validatePipelineConfig pulsarDict = .ok pulsarDict := by with_unfolding_all rfl
  rw [hv'] at hv
  cases hv
  rw [pulsarDict_conf] at hc
  cases hc
  have hn : dataFname "a.inf".toList = "a.dat".toList := by decide +kernel
  have ht : (pulsarFiles "a.inf".toList).map asciiDecode = some pulsarText := by
    unfold pulsarFiles
    rw [if_pos rfl, Option.map_some, pulsarText_text]
  have hb : pulsarFiles "a.dat".toList = some (pulsarRaw.map encodeSample).flatten := by
    unfold pulsarFiles
    rw [if_neg (by decide +kernel), if_pos rfl]
  have ht' : pulsarDisk.text "a.inf".toList = some pulsarText := by simp only [pulsarDisk, if_true]
  have hb' : pulsarDisk.bytes "a.dat".toList = some (pulsarRaw.map encodeSample).flatten := by simp only [pulsarDisk, if_true]
  refine ⟨ht'.trans ht.symm, ht'.trans ht.symm, ?_⟩
  show pulsarDisk.bytes (dataFname "a.inf".toList) = pulsarFiles (dataFname "a.inf".toList)
  rw [hn, hb, hb']

theorem pulsarDict_save : saveConfOf pulsarDict = .ok (1, false) := by
  have hv : validatePipelineConfig pulsarDict = .ok pulsarDict := by with_unfolding_all rfl
  unfold saveConfOf
  rw [hv]
  simp [pulsarDict, required, dictGet, pyDict, pyCount, asBool, Except.bind, Except.map]

/-- The run without a log file ends normally. -/
theorem pulsar_rffa (o : CandOutput) : ∃ F', RffaRuns pulsarHost pulsarTools o ⟨fun _ => 1, fun _ => [0]⟩ (pulsarArgs none) pulsarFiles F' .done := by
  obtain ⟨st, d', hst, hd, -, -⟩ := C104_example ⟨o.json, none⟩ fun _ => none
  have hs : SavesPlots o.json none 1 st (fun _ => none) d' (.ok ()) := (C105_all none (.inl ⟨rfl, rfl⟩)).mpr ⟨rfl, hd⟩
  exact C118_runs (res := .ok ()) rfl rfl (by simp [pulsarArgs]) (fun l hl => by cases hl) rfl ⟨[], by simp [pulsarHost, asciiDecode]⟩ pulsarFiles_conf
    ((pulsarFiles_disk _).trans hst) pulsarDict_save hs

/-- The hypotheses of `C118_log_partial` and `C118_products` are met: with a log file of its own the run ends in the same way. -/
theorem C118_example (o : CandOutput) :
    ∃ F', RffaRuns pulsarHost pulsarTools o ⟨fun _ => 1, fun _ => [0]⟩ (pulsarArgs (some "log".toList)) pulsarFiles F' .done ∧
      ∃ conf st n, ∃ plot : Bool, ∃ d', readConfig pulsarHost pulsarFiles "c.yaml".toList = .ok conf ∧
        SavesPlots o.json (if plot then some o.png else none) n st (fun _ => none) d' (.ok ()) ∧ HoldsDir pulsarHost "out".toList F' d' := by
  have hprod : LogNotProduct pulsarHost "out".toList "log".toList := by
    intro name _ h
    have : "log".toList = "out".toList ++ '/' :: name := h
    simp at this
  have hread : LogNotRead pulsarHost "c.yaml".toList ["a.inf".toList] "log".toList := by
    refine ⟨?_, ?_, ?_⟩
    · show "log".toList ≠ "c.yaml".toList
      decide +kernel
    · intro f hf
      cases List.mem_singleton.mp hf
      show "log".toList ≠ "a.inf".toList
      decide +kernel
    · intro f hf
      cases List.mem_singleton.mp hf
      show "log".toList ≠ dataFname "a.inf".toList
      decide +kernel
  obtain ⟨F'', h⟩ := pulsar_rffa o
  obtain ⟨F', h1, -⟩ := (C118_log_partial (H := pulsarHost) (fun _ => rfl) (a := pulsarArgs (some "log".toList)) (l := "log".toList) rfl rfl rfl hread hprod).2
    F'' h
  refine ⟨F', h1, ?_⟩
  obtain ⟨conf, st, n, plot, d', e1, -, -, e4, e5⟩ := C118_products (H := pulsarHost) (fun _ => rfl) (a := pulsarArgs (some "log".toList)) rfl
    (fun l hl => by cases hl; exact ⟨hread, hprod⟩) (fun x y _ _ h => by
      have : "out".toList ++ '/' :: x = "out".toList ++ '/' :: y := h
      simpa using this) (d := fun _ => none) (fun name _ => by
      show pulsarFiles ("out".toList ++ '/' :: name) = none
      unfold pulsarFiles
      rw [if_neg (by simp), if_neg (by simp), if_neg (by simp)]) h1
  exact ⟨conf, st, n, plot, d', e1, e4, e5⟩

/-- **C118** is false without the conditions: `rffa -c c.yaml -f c.yaml a.inf` ends with an error and leaves a log in the place of the configuration,
where `rffa -c c.yaml a.inf` succeeds and leaves the configuration as it was. -/
theorem C118_false (o : CandOutput) : ∃ (H : Host) (t : PipeTools) (s : PoolSchedule) (a : RffaArgs) (F : Files) (config : List Char),
    (∀ p, H.realpath (H.realpath p) = H.realpath p) ∧ (∀ l, H.openError l = none) ∧ a.config = some config ∧ a.log = some config ∧
    (∃ F', RffaRuns H t o s { a with logfile := none } F F' .done ∧ F' (H.realpath config) = F (H.realpath config)) ∧
    (∃ F' out, RffaRuns H t o s a F F' out) ∧
    ∀ F' out, RffaRuns H t o s a F F' out → out = .raised .invalidPipelineConfig ∧ F' (H.realpath config) ≠ F (H.realpath config) := by
  have hparse : rffaParse pulsarHost (pulsarArgs (some "c.yaml".toList)) = some ("c.yaml".toList, "out".toList, ["a.inf".toList]) := by
    with_unfolding_all rfl
  have hopen : openLog pulsarHost pulsarFiles (pulsarArgs (some "c.yaml".toList)) = .ok (pulsarFiles.put pulsarHost "c.yaml".toList []) := rfl
  have hconf : ∀ F x, pulsarHost.logText x → readConfig pulsarHost (withLog pulsarHost F (pulsarArgs (some "c.yaml".toList)) x) "c.yaml".toList =
      .ok (.str (String.ofList (asciiDecode x))) := by
    intro F x hx
    have h : withLog pulsarHost F (pulsarArgs (some "c.yaml".toList)) x (pulsarHost.realpath "c.yaml".toList) = some x := put_same pulsarHost F _ _
    unfold readConfig
    rw [h]
    show (Except.ok (if asciiDecode x = pulsarYaml then pulsarNode else _)).bind _ = _
    rw [if_neg fun e => hx (by rw [e]; rfl)]
    rfl
  have hbad : ∀ (D : Disk) t files s text, pipelineFiles D t (.str text) files s = .error .invalidPipelineConfig := fun _ _ _ _ _ => by
    unfold pipelineFiles
    have : ∀ text, validatePipelineConfig (.str text) = .error .invalidPipelineConfig := fun text => by with_unfolding_all rfl
    rw [this]
    simp only [Except.bind]
  have h0 : pulsarHost.logText [] := by simp [pulsarHost, asciiDecode]
  refine ⟨pulsarHost, pulsarTools, ⟨fun _ => 1, fun _ => [0]⟩, pulsarArgs (some "c.yaml".toList), pulsarFiles, "c.yaml".toList, fun _ => rfl, fun _ => rfl, rfl, rfl,
    ?_, ?_, ?_⟩
  · obtain ⟨F', h⟩ := pulsar_rffa o
    refine ⟨F', h, C118_untouched h (fun l hl => by cases hl) fun name _ hn => ?_⟩
    have : "c.yaml".toList = "out".toList ++ '/' :: name := hn
    simp at this
  · refine ⟨withLog pulsarHost (pulsarFiles.put pulsarHost "c.yaml".toList []) (pulsarArgs (some "c.yaml".toList)) [], .raised .invalidPipelineConfig, ?_⟩
    unfold RffaRuns
    rw [hparse]
    simp only [hopen]
    refine ⟨[], [], [], h0, h0, h0, ?_⟩
    rw [hconf _ _ h0]
    simp only [hbad]
    trivial
  · intro F' out h
    have hout : out = .raised .invalidPipelineConfig := by
      unfold RffaRuns at h
      rw [hparse] at h
      simp only [hopen] at h
      obtain ⟨t0, t1, t2, l0, -, -, h⟩ := h
      rw [hconf _ _ l0] at h
      simp only [hbad] at h
      exact h.1
    refine ⟨hout, ?_⟩
    obtain ⟨x, hx, e⟩ := C118_config_lost (config := "c.yaml".toList) rfl rfl rfl rfl h (by rw [hout]; simp)
    rw [e]
    have hF : pulsarFiles (pulsarHost.realpath "c.yaml".toList) = some (asciiEncode pulsarYaml) := by
      show pulsarFiles "c.yaml".toList = _
      unfold pulsarFiles
      rw [if_neg (by decide +kernel), if_neg (by decide +kernel), if_pos rfl]
    rw [hF]
    intro e'
    cases e'
    exact hx (by decide +kernel)

end Verif.Props
