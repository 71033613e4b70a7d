import Verif.Model.Rffa
import Verif.Props.Saving
import Verif.Props.PipelineFiles

/-!
# C118: the files that a run of `rffa` reads
-/

namespace Verif.Spec

open Verif.Model

/-- The names of the files that a run may write in the output directory. -/
def IsProduct (name : List Char) : Prop :=
  name = "peaks.csv".toList ∨ name = "clusters.csv".toList ∨ name = "candidates.csv".toList ∨
  ∃ r, name = candidateFileName r ".json".toList ∨ name = candidateFileName r ".png".toList

/-- The log file is none of the files that the run reads: the configuration, the input files, and the data files next to PRESTO headers. -/
structure LogNotRead (H : Host) (config : List Char) (files : List (List Char)) (l : List Char) : Prop where
  config : H.realpath l ≠ H.realpath config
  file : ∀ f ∈ files, H.realpath l ≠ H.realpath f
  data : ∀ f ∈ files, H.realpath l ≠ H.realpath (dataFname (H.realpath f))

/-- The log file is none of the products. -/
def LogNotProduct (H : Host) (outdir l : List Char) : Prop := ∀ name, IsProduct name → H.realpath l ≠ H.realpath (H.join outdir name)

/-- Different products have different paths. -/
def JoinsApart (H : Host) (outdir : List Char) : Prop := ∀ x y, IsProduct x → IsProduct y → H.realpath (H.join outdir x) = H.realpath (H.join outdir y) → x = y

/-- The products in the output directory are those of `d`. -/
def HoldsDir (H : Host) (outdir : List Char) (F : Files) (d : OutDir) : Prop :=
  ∀ name, IsProduct name → F (H.realpath (H.join outdir name)) = (d name).map H.encode

/-- Two disks have the same input file `f`. -/
def SameFile (D D' : Disk) (fmt : TsFormat) (f : List Char) : Prop :=
  match fmt with
  | .presto => D.text f = D'.text f ∧ D.text (D.realpath f) = D'.text (D.realpath f) ∧
      D.bytes (dataFname (D.realpath f)) = D'.bytes (dataFname (D.realpath f))
  | .sigproc => D.bytes f = D'.bytes f ∧ D.bytes (D.realpath f) = D'.bytes (D.realpath f)

end Verif.Spec

namespace Verif.Props

open Verif.Model Verif.Spec Verif.Lemmas

/-! ## A run depends on the files that are given only -/

theorem chunkLoop_mem {β : Type*} (c : ℕ) : ∀ (l chunk : List β), ∀ b ∈ chunkLoop c l chunk, ∀ x ∈ b, x ∈ chunk ++ l
  | [], chunk, b, hb, x, hx => by
    unfold chunkLoop at hb
    by_cases h : chunk.length = 0
    · simp [h] at hb
    · simp [h] at hb
      subst hb
      simpa using hx
  | y :: l, chunk, b, hb, x, hx => by
    unfold chunkLoop at hb
    by_cases h : (chunk ++ [y]).length = c
    · simp only [h, if_true] at hb
      rcases List.mem_cons.mp hb with rfl | hb
      · simp only [List.mem_append, List.mem_cons] at hx ⊢
        tauto
      · have := chunkLoop_mem c l [] b hb x hx
        simp only [List.nil_append] at this
        simp [this]
    · simp only [h, if_false] at hb
      have := chunkLoop_mem c l (chunk ++ [y]) b hb x hx
      simpa using this

theorem mapM_congr' {β γ : Type*} {f g : β → Except PyErr γ} : ∀ {l : List β}, (∀ x ∈ l, f x = g x) → l.mapM f = l.mapM g
  | [], _ => rfl
  | x :: l, h => by
    rw [List.mapM_cons, List.mapM_cons, h x (by simp), mapM_congr' fun y hy => h y (List.mem_cons_of_mem _ hy)]

theorem poolMap_congr {β γ : Type*} {f g : β → Except PyErr γ} {size : ℕ} {order : List ℕ} {l : List β} (h : ∀ x ∈ l, f x = g x) :
    poolMap f size order l = poolMap g size order l := by
  unfold poolMap
  have : MapResult.set f (batches size l) = MapResult.set g (batches size l) := by
    funext r i
    unfold MapResult.set
    rw [mapM_congr' (f := f) (g := g)]
    intro x hx
    by_cases hi : i < (batches size l).length
    · rw [List.getD_eq_getElem?_getD, List.getElem?_eq_getElem hi] at hx
      exact h x (by simpa using chunkLoop_mem size l [] _ (List.getElem_mem hi) x hx)
    · rw [List.getD_eq_getElem?_getD, List.getElem?_eq_none (by omega)] at hx
      cases hx
  simp only [this]

theorem searchLoop_congr {β γ : Type*} {f g : β → Except PyErr (List γ)} {s : PoolSchedule} : ∀ {cs : List (List β)} {k : ℕ},
    (∀ c ∈ cs, ∀ x ∈ c, f x = g x) → searchLoop f s k cs = searchLoop g s k cs
  | [], _, _ => rfl
  | c :: cs, k, h => by
    unfold searchLoop processFnameList
    rw [poolMap_congr (h c (by simp)), searchLoop_congr fun c' hc' => h c' (List.mem_cons_of_mem _ hc')]

theorem pipelineSearch_congr {β : Type*} {f g : β → Except PyErr (List (HPeak ℝ))} {s : PoolSchedule} {n : ℕ} {l : List β}
    (h : ∀ x ∈ l, f x = g x) : pipelineSearch f s n l = pipelineSearch g s n l := by
  unfold pipelineSearch
  rw [searchLoop_congr]
  intro c hc x hx
  exact h x (by simpa using chunkLoop_mem n l [] c hc x hx)

/-- A name that the iterator yields is that of a file. -/
theorem getFilename_mem {c : PrepConf} {ms : List FileMeta} {it : DmIter ℝ} (h : prepare c ms = .ok it) {dm : ℝ} {f : String}
    (hf : getFilename it dm = .ok f) : ∃ m ∈ ms, m.fname = f := by
  unfold prepare at h
  obtain ⟨_, _, h⟩ := bind_ok_inv h
  obtain ⟨it', h1, h⟩ := bind_ok_inv h
  obtain ⟨_, _, h⟩ := bind_ok_inv h
  obtain ⟨_, _, rfl⟩ := map_ok_inv h
  unfold dmIteratorOf at h1
  obtain ⟨_, _, h1⟩ := bind_ok_inv h1
  obtain ⟨_, _, h1⟩ := bind_ok_inv h1
  obtain ⟨_, _, h1⟩ := bind_ok_inv h1
  unfold dmIterator at h1
  obtain ⟨_, _, h1⟩ := bind_ok_inv h1
  obtain ⟨_, _, h1⟩ := bind_ok_inv h1
  by_cases hl : (ms.map (·.toDmMeta)).length = 0
  · rw [if_pos hl] at h1; cases h1
  · rw [if_neg hl] at h1
    obtain ⟨_, _, h1⟩ := bind_ok_inv h1
    obtain ⟨_, _, rfl⟩ := map_ok_inv h1
    unfold getFilename at hf
    simp only [(dictOf_spec _ _ _).2.2] at hf
    cases e : (ms.map (·.toDmMeta)).reverse.find? (fun x => decide (x.dm = dm)) with
    | none => rw [e] at hf; cases hf
    | some x =>
      rw [e] at hf
      cases hf
      have := List.mem_of_find?_eq_some e
      rw [List.mem_reverse, List.mem_map] at this
      obtain ⟨m, hm, rfl⟩ := this
      exact ⟨m, hm, rfl⟩

/-- The stages after the search do not use `searchFile`. -/
theorem process_congr {γ : Type*} {f g : String → Except PyErr (List (HPeak ℝ))} {ld ld' : ℝ → Except PyErr (World × ℕ)} {fnames : List String} {n : ℕ}
    {srt : List ℝ → List ℕ} {r tm : ℝ} {test : HPeak ℝ → HPeak ℝ → Except PyErr (Bool × ℚ)} {fl : FilterParams ℝ}
    {mk : World × ℕ → List (HPeak ℝ) → HPeak ℝ → Except PyErr γ} {s : PoolSchedule} (st : PipeState ℝ γ) (hs : ∀ x ∈ fnames, f x = g x)
    (hl : ∀ x, ld x = ld' x) : st.process ⟨f, fnames, n, srt, r, tm, test, fl, ld, mk⟩ s = st.process ⟨g, fnames, n, srt, r, tm, test, fl, ld', mk⟩ s := by
  obtain rfl : ld = ld' := funext hl
  unfold PipeState.process
  simp only [PipeState.search, PipeState.cluster, PipeState.flag, PipeState.filter, PipeState.build, pipelineSearch_congr hs]

/-- A run depends on the loader through the files with the given metadata only. -/
theorem pipelineRun_congr {t : PipeTools} {conf : PyVal} {ms : List FileMeta} {s : PoolSchedule} {l l' : String → Except PyErr (World × ℕ)}
    (h : ∀ m ∈ ms, l m.fname = l' m.fname) : pipelineRun { t with loader := l } conf ms s = pipelineRun { t with loader := l' } conf ms s := by
  unfold pipelineRun
  cases validatePipelineConfig conf with
  | error e => rfl
  | ok v =>
    cases hc : runConfOf v with
    | error e => simp only [Except.bind, hc]
    | ok c =>
      cases hp : prepare c.1.prepConf ms with
      | error e => simp only [Except.bind, hc, hp]
      | ok it =>
        cases hb : iterBand c.1.prepConf ms with
        | error e => simp only [Except.bind, hc, hp, hb]
        | ok b =>
          cases hf : it.selectedDms.mapM (getFilename it) with
          | error e => simp only [Except.bind, hc, hp, hb, hf]
          | ok fnames =>
            simp only [Except.bind, hc, hp, hb, hf]
            have hload : ∀ dm, loadForDm (PipeTools.env { t with loader := l } c.2 (tobsMedian ms) b.1 b.2.1) c.1 it dm =
                loadForDm (PipeTools.env { t with loader := l' } c.2 (tobsMedian ms) b.1 b.2.1) c.1 it dm := by
              intro dm
              unfold loadForDm
              cases e : getFilename it dm with
              | error e => rfl
              | ok f =>
                obtain ⟨m, hm, rfl⟩ := getFilename_mem hp e
                simp only [Except.bind, PipeTools.env, h m hm]
            have hnames : ∀ f ∈ fnames, ∃ m ∈ ms, m.fname = f := by
              intro f hf'
              obtain ⟨dm, _, e⟩ := forall₂_mem_right (mapM_ok_inv _ _ _ hf) hf'
              exact getFilename_mem hp e
            have hsearch : ∀ f ∈ fnames, processFile (PipeTools.env { t with loader := l } c.2 (tobsMedian ms) b.1 b.2.1) c.1 f =
                processFile (PipeTools.env { t with loader := l' } c.2 (tobsMedian ms) b.1 b.2.1) c.1 f := by
              intro f hf'
              obtain ⟨m, hm, rfl⟩ := hnames f hf'
              unfold processFile
              simp only [PipeTools.env, h m hm]
            unfold pipelineJob
            exact process_congr _ hsearch hload

/-- The name in the metadata of a file. -/
theorem loadMeta_fname {D : Disk} (hi : ∀ f, D.realpath (D.realpath f) = D.realpath f) {fmt : TsFormat} {f : List Char} {md : MetaDict} {m : FileMeta}
    (h : loadMeta D fmt f = .ok md) (hm : fileMetaOf D fmt md = .ok m) : m.fname = String.ofList (D.realpath f) := by
  have hg : ∃ v, dictGet md (.str "fname") = some v ∧ pyStr v = .ok m.fname := by
    unfold fileMetaOf at hm
    obtain ⟨_, _, hm⟩ := bind_ok_inv hm
    obtain ⟨_, _, hm⟩ := bind_ok_inv hm
    obtain ⟨_, _, hm⟩ := bind_ok_inv hm
    obtain ⟨n, hn, hm⟩ := bind_ok_inv hm
    obtain ⟨_, _, hm⟩ := bind_ok_inv hm
    obtain ⟨_, _, rfl⟩ := map_ok_inv hm
    exact metaItem_ok hn
  obtain ⟨v, h1, h2⟩ := hg
  cases fmt with
  | presto =>
    unfold loadMeta at h
    cases ht : D.text f with
    | none => simp [ht] at h
    | some text =>
      simp only [ht] at h
      obtain ⟨inf, _, h⟩ := bind_ok_inv h
      obtain ⟨_, _, _, _, _, _, _, _, h3, _⟩ := metadataFromPresto_inv h
      rw [hi] at h3
      rw [h3] at h1
      cases h1
      exact (Except.ok.inj h2).symm
  | sigproc =>
    unfold loadMeta at h
    cases ht : D.bytes f with
    | none => simp [ht] at h
    | some b =>
      simp only [ht] at h
      obtain ⟨hd, _, h⟩ := bind_ok_inv h
      obtain ⟨_, _, _, _, _, _, _, _, h3, _⟩ := metadataFromSigproc_inv h
      rw [h3] at h1
      cases h1
      exact (Except.ok.inj h2).symm

/-- **C118.** A run depends on the disk through the files that it is given, and the data files of these, only. -/
theorem C118_reads {D D' : Disk} (hr : D'.realpath = D.realpath) (hs : D'.parseSky = D.parseSky) (hg : D'.galactic = D.galactic)
    (hi : ∀ f, D.realpath (D.realpath f) = D.realpath f) {conf : PyVal} {files : List (List Char)}
    (hsame : ∀ v c, validatePipelineConfig conf = .ok v → runConfOf v = .ok c → ∀ f ∈ files, SameFile D D' c.1.prep.fmt f)
    (t : PipeTools) (s : PoolSchedule) : pipelineFiles D t conf files s = pipelineFiles D' t conf files s := by
  unfold pipelineFiles
  cases hv : validatePipelineConfig conf with
  | error e => simp only [Except.bind]
  | ok v =>
    cases hc : runConfOf v with
    | error e => simp only [Except.bind, hc]
    | ok c =>
      have hsame := hsame v c hv hc
      simp only [Except.bind, hc]
      have hmeta : ∀ f ∈ files, (loadMeta D c.1.prep.fmt f).bind (fileMetaOf D c.1.prep.fmt) = (loadMeta D' c.1.prep.fmt f).bind (fileMetaOf D' c.1.prep.fmt) := by
        intro f hf
        have h1 : loadMeta D c.1.prep.fmt f = loadMeta D' c.1.prep.fmt f := by
          have := hsame f hf
          cases hfmt : c.1.prep.fmt with
          | presto =>
            rw [hfmt] at this
            simp only [loadMeta, hr, hs, this.1]
          | sigproc =>
            rw [hfmt] at this
            simp only [loadMeta, hr, this.1]
        have h2 : fileMetaOf D c.1.prep.fmt = fileMetaOf D' c.1.prep.fmt := by
          funext md
          unfold fileMetaOf pyGalactic
          rw [hg]
        rw [h1, h2]
      have hms : loadMetas D c.1.prep.fmt files = loadMetas D' c.1.prep.fmt files := mapM_congr' hmeta
      rw [← hms]
      cases hl : loadMetas D c.1.prep.fmt files with
      | error e => simp only
      | ok ms =>
        refine pipelineRun_congr (t := t) (l := diskLoader D c.1.prep.fmt) (l' := diskLoader D' c.1.prep.fmt) fun m hm => ?_
        obtain ⟨f, hf, hfm⟩ := forall₂_mem_right (mapM_ok_inv _ _ _ hl) hm
        obtain ⟨md, hmd, hmm⟩ := bind_ok_inv hfm
        have hn := loadMeta_fname hi hmd hmm
        have := hsame f hf
        have hload : loadFile D c.1.prep.fmt (D.realpath f) = loadFile D' c.1.prep.fmt (D.realpath f) := by
          cases hfmt : c.1.prep.fmt with
          | presto =>
            rw [hfmt] at this
            simp only [loadFile, hr, hs, hi, this.2.1]
            cases D'.text (D.realpath f) with
            | none => rfl
            | some text => simp only [timeSeriesFromPresto, this.2.2]
          | sigproc =>
            rw [hfmt] at this
            simp only [loadFile, hr, this.2]
        unfold diskLoader
        rw [hn, String.toList_ofList, hload]

/-- Non-vacuity: disks that differ in a file that is not among the given ones. -/
example (D : Disk) (hD : D.realpath = id) : let D' : Disk := { D with text := fun f => if f = "notes".toList then none else D.text f, bytes := fun f => if f = "notes".toList then some [1] else D.bytes f }
    D'.realpath = D.realpath ∧ (∀ f, D.realpath (D.realpath f) = D.realpath f) ∧ ∀ fmt, ∀ f ∈ ["a.inf".toList, "b.inf".toList], SameFile D D' fmt f := by
  refine ⟨rfl, fun f => by rw [hD]; rfl, ?_⟩
  intro fmt f hf
  simp only [List.mem_cons, List.not_mem_nil, or_false] at hf
  have h1 : f ≠ "notes".toList := by rcases hf with rfl | rfl <;> decide +kernel
  have h2 : dataFname f ≠ "notes".toList := by rcases hf with rfl | rfl <;> decide +kernel
  cases fmt <;> simp only [SameFile, hD, id, if_neg h1, if_neg h2, and_self]

end Verif.Props
