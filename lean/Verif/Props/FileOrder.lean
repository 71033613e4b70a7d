import Verif.Props.Rffa

/-!
# C135: the order in which the files are given does not matter
-/

namespace Verif.Props

open Verif.Model Verif.Lemmas Verif.Spec

/-! ## Functions of a list that do not depend on its order -/

theorem fold_perm (op : ℝ → ℝ → ℝ) (ha : ∀ a b c, op (op a b) c = op a (op b c)) (hc : ∀ a b, op a b = op b a) (hi : ∀ a, op a a = a)
    {x y : ℝ} {u v : List ℝ} (h : (x :: u).Perm (y :: v)) : u.foldl op x = v.foldl op y := by
  have : RightCommutative op := ⟨fun a b c => by rw [ha, hc b c, ← ha]⟩
  have out : ∀ (w : List ℝ) (b c : ℝ), w.foldl op (op b c) = op b (w.foldl op c) := by
    intro w
    induction w with
    | nil => intro b c; rfl
    | cons d w ih => intro b c; rw [List.foldl_cons, List.foldl_cons, ha, ih]
  have twice : ∀ (w : List ℝ) (a : ℝ), (a :: w).foldl op a = w.foldl op a := by intro w a; rw [List.foldl_cons, hi]
  have mem : ∀ (w : List ℝ) (z b : ℝ), z ∈ w → op z (w.foldl op b) = w.foldl op b := by
    intro w
    induction w with
    | nil => intro z b hz; cases hz
    | cons d w ih =>
      intro z b hz
      rw [List.foldl_cons]
      rcases List.mem_cons.1 hz with rfl | hz
      · rw [hc b, out, ← ha, hi]
      · exact ih z _ hz
  rw [← twice u x, h.foldl_eq x, List.foldl_cons, out]
  rcases List.mem_cons.1 (h.mem_iff.1 List.mem_cons_self) with rfl | hx
  · rw [← out, hi]
  · exact mem v x y hx

theorem pyMin_perm {l l' : List ℝ} (h : l.Perm l') : pyMin l = pyMin l' := by
  cases l with
  | nil => rw [List.nil_perm.1 h]
  | cons x u =>
    cases l' with
    | nil => exact absurd (List.perm_nil.1 h) (by simp)
    | cons y v => simp only [pyMin]; rw [fold_perm min min_assoc min_comm min_self h]

theorem pyMax_perm {l l' : List ℝ} (h : l.Perm l') : pyMax l = pyMax l' := by
  cases l with
  | nil => rw [List.nil_perm.1 h]
  | cons x u =>
    cases l' with
    | nil => exact absurd (List.perm_nil.1 h) (by simp)
    | cons y v => simp only [pyMax]; rw [fold_perm max max_assoc max_comm max_self h]

theorem mergeSort_perm_eq {l l' : List ℝ} (h : l.Perm l') : l.mergeSort (fun a b => decide (a ≤ b)) = l'.mergeSort (fun a b => decide (a ≤ b)) := by
  have sorted : ∀ l : List ℝ, (l.mergeSort (fun a b => decide (a ≤ b))).Pairwise (· ≤ ·) := by
    intro l
    have := List.pairwise_mergeSort (le := fun a b : ℝ => decide (a ≤ b)) (by intro a b c h1 h2; simp only [decide_eq_true_eq] at *; exact h1.trans h2)
      (by intro a b; simp only [Bool.or_eq_true, decide_eq_true_eq]; exact le_total _ _) l
    simpa using this
  exact List.Perm.eq_of_pairwise (le := (· ≤ ·)) (fun a b _ _ h1 h2 => le_antisymm h1 h2) (sorted l) (sorted l')
    (((List.mergeSort_perm _ _).trans h).trans (List.mergeSort_perm _ _).symm)

/-- Whether all elements are equal to the first one does not depend on which is the first. -/
theorem all_same_perm {β : Type*} [DecidableEq β] {x y : β} {u v : List β} (h : (x :: u).Perm (y :: v)) :
    (x :: u).all (fun q => decide (x = q)) = (y :: v).all (fun q => decide (y = q)) ∧ ((x :: u).all (fun q => decide (x = q)) = true → x = y) := by
  have key : ∀ {x y : β} {u v : List β}, (x :: u).Perm (y :: v) → (x :: u).all (fun q => decide (x = q)) = true →
      x = y ∧ (y :: v).all (fun q => decide (y = q)) = true := by
    intro x y u v h ha
    rw [List.all_eq_true] at ha
    have hxy : x = y := by simpa using ha y (h.mem_iff.2 List.mem_cons_self)
    refine ⟨hxy, ?_⟩
    rw [List.all_eq_true]
    intro q hq
    have := ha q (h.mem_iff.2 hq)
    rwa [hxy] at this
  refine ⟨?_, fun ha => (key h ha).1⟩
  rw [Bool.eq_iff_iff]
  exact ⟨fun ha => (key h ha).2, fun ha => (key h.symm ha).2⟩

/-! ## Preparation of a run -/

theorem coordinates_perm {ms ms' : List FileMeta} (h : ms.Perm ms') : galacticCoordinates ms = galacticCoordinates ms' := by
  have form : ∀ (m : FileMeta) (ms : List FileMeta), galacticCoordinates (m :: ms) =
      if (((m.gl, m.gb) :: ms.map fun q => (q.gl, q.gb)).all fun q => decide ((m.gl, m.gb) = q)) = true then .ok (m.gl, m.gb) else .error .runtimeError := by
    intro m ms
    have e : (m :: ms).all (fun q => decide ((q.gl, q.gb) = (m.gl, m.gb))) = ((m.gl, m.gb) :: ms.map fun q => (q.gl, q.gb)).all fun q => decide ((m.gl, m.gb) = q) := by
      rw [← List.map_cons (f := fun q : FileMeta => (q.gl, q.gb)), List.all_map]
      congr 1
      funext q
      exact decide_eq_decide.2 eq_comm
    simp only [galacticCoordinates]
    rw [e]
  cases ms with
  | nil => rw [List.nil_perm.1 h]
  | cons x u =>
    cases ms' with
    | nil => exact absurd (List.perm_nil.1 h) (by simp)
    | cons y v =>
      rw [form, form]
      obtain ⟨h1, h2⟩ := all_same_perm (h.map fun q : FileMeta => (q.gl, q.gb))
      beta_reduce at h1 h2
      rw [← h1]
      split_ifs with ha
      · rw [h2 ha]
      · rfl

theorem band_perm {l l' : List (DmMeta ℝ)} (h : l.Perm l') (fmt : TsFormat) (band : Option (ℝ × ℝ × ℕ)) : bandOf l fmt band = bandOf l' fmt band := by
  have key : inferBandParams l fmt = inferBandParams l' fmt := by
    unfold inferBandParams
    cases fmt with
    | presto =>
      have e : ∀ l : List (DmMeta ℝ), l.mapM (fun m => getBandParams m .presto) = .ok (l.map fun m => (min m.fbot (m.fbot + (m.nchan : ℝ) * m.cbw), max m.fbot (m.fbot + (m.nchan : ℝ) * m.cbw), m.nchan)) :=
        fun l => mapM_ok _ _ l (fun _ _ => rfl)
      rw [e, e]
      have hp := h.map fun m : DmMeta ℝ => (min m.fbot (m.fbot + (m.nchan : ℝ) * m.cbw), max m.fbot (m.fbot + (m.nchan : ℝ) * m.cbw), m.nchan)
      revert hp
      generalize l.map (fun m : DmMeta ℝ => (min m.fbot (m.fbot + (m.nchan : ℝ) * m.cbw), max m.fbot (m.fbot + (m.nchan : ℝ) * m.cbw), m.nchan)) = a
      generalize l'.map (fun m : DmMeta ℝ => (min m.fbot (m.fbot + (m.nchan : ℝ) * m.cbw), max m.fbot (m.fbot + (m.nchan : ℝ) * m.cbw), m.nchan)) = b
      intro hp
      cases a with
      | nil => rw [List.nil_perm.1 hp]
      | cons x u =>
        cases b with
        | nil => exact absurd (List.perm_nil.1 hp) (by simp)
        | cons y v =>
          obtain ⟨h1, h2⟩ := all_same_perm hp
          change (if (x :: u).all (fun q => decide (x = q)) = true then Except.ok x else Except.error PyErr.runtimeError) =
            (if (y :: v).all (fun q => decide (y = q)) = true then Except.ok y else Except.error PyErr.runtimeError)
          rw [← h1]
          split_ifs with ha
          · rw [h2 ha]
          · rfl
    | sigproc =>
      cases l with
      | nil => rw [List.nil_perm.1 h]
      | cons x u =>
        cases l' with
        | nil => exact absurd (List.perm_nil.1 h) (by simp)
        | cons y v => rfl
  unfold bandOf
  rw [key]

theorem find_perm {β κ ν : Type*} [DecidableEq κ] (key : β → κ) (val : β → ν) {l l' : List β} (h : l.Perm l') (hn : (l.map key).Nodup) (k : κ) :
    dictGet (dictOf key val l) k = dictGet (dictOf key val l') k := by
  rw [(dictOf_spec key val l).2.2, (dictOf_spec key val l').2.2]
  have hp : l.reverse.Perm l'.reverse := (l.reverse_perm.trans h).trans l'.reverse_perm.symm
  have hn' : (l.reverse.map key).Nodup := (l.reverse_perm.map key).nodup_iff.2 hn
  congr 1
  rcases e : l.reverse.find? (fun x => decide (key x = k)) with _ | x
  · symm
    rw [List.find?_eq_none] at e ⊢
    exact fun y hy => e y (hp.mem_iff.2 hy)
  · rcases e' : l'.reverse.find? (fun x => decide (key x = k)) with _ | y
    · rw [List.find?_eq_none] at e'
      have := List.find?_some e
      exact absurd this (e' x (hp.mem_iff.1 (List.mem_of_find?_eq_some e)))
    · have h1 : key x = k := by simpa using List.find?_some e
      have h2 : key y = k := by simpa using List.find?_some e'
      have h3 := List.mem_of_find?_eq_some e
      have h4 := hp.mem_iff.2 (List.mem_of_find?_eq_some e')
      rw [List.inj_on_of_nodup_map hn' h3 h4 (h1.trans h2.symm)]

theorem keys_perm {β κ ν : Type*} [DecidableEq κ] (key : β → κ) (val : β → ν) {l l' : List β} (h : l.Perm l') :
    ((dictOf key val l).map Prod.fst).Perm ((dictOf key val l').map Prod.fst) := by
  obtain ⟨a1, a2, -⟩ := dictOf_spec key val l
  obtain ⟨b1, b2, -⟩ := dictOf_spec key val l'
  rw [List.perm_ext_iff_of_nodup a1 b1]
  intro k
  rw [a2, b2]
  exact (h.map key).mem_iff

/-- Two iterators that select the same DMs and find the same file for each DM. -/
def SameIter (a b : Except PyErr (DmIter ℝ)) : Prop :=
  match a, b with
  | .ok it, .ok it' => it.selectedDms = it'.selectedDms ∧ getFilename it = getFilename it'
  | .error e, .error e' => e = e'
  | _, _ => False

theorem iterator_perm {l l' : List (DmMeta ℝ)} (h : l.Perm l') (hn : (l.map (·.dm)).Nodup) (dm0 dm1 cap : Option ℝ) (fmt : TsFormat) (wmin : ℝ) (band : Option (ℝ × ℝ × ℕ)) :
    SameIter (dmIterator l dm0 dm1 cap fmt wmin band) (dmIterator l' dm0 dm1 cap fmt wmin band) := by
  have e0 : dmStartOf l dm0 = dmStartOf l' dm0 := by cases dm0 <;> simp only [dmStartOf]; exact pyMin_perm (h.map _)
  have e1 : dmEndOf l dm1 = dmEndOf l' dm1 := by cases dm1 <;> simp only [dmEndOf]; exact pyMax_perm (h.map _)
  unfold dmIterator
  rw [e0, e1, h.length_eq, band_perm h]
  rcases dmStartOf l' dm0 with e | a
  · exact Eq.refl e
  rcases dmEndOf l' dm1 with e | b
  · exact Eq.refl e
  simp only [Except.bind]
  split_ifs
  · exact Eq.refl PyErr.indexError
  rcases bandOf l' fmt band with e | c
  · exact Eq.refl e
  simp only
  have hs : selectDms ((dictOf (fun m : DmMeta ℝ => m.dm) (fun m => m.fname) l).map Prod.fst) a (applyCap cap b) c.1 c.2.1 (c.2.2 : ℝ) wmin =
      selectDms ((dictOf (fun m : DmMeta ℝ => m.dm) (fun m => m.fname) l').map Prod.fst) a (applyCap cap b) c.1 c.2.1 (c.2.2 : ℝ) wmin := by
    unfold selectDms
    rw [mergeSort_perm_eq ((keys_perm (fun m : DmMeta ℝ => m.dm) (fun m => m.fname) h).filter _)]
  rw [hs]
  rcases selectDms ((dictOf (fun m : DmMeta ℝ => m.dm) (fun m => m.fname) l').map Prod.fst) a (applyCap cap b) c.1 c.2.1 (c.2.2 : ℝ) wmin with e | sel
  · exact Eq.refl e
  refine ⟨rfl, ?_⟩
  funext dm
  unfold getFilename
  simp only
  rw [find_perm (fun m : DmMeta ℝ => m.dm) (fun m => m.fname) h hn]

theorem SameIter.bind_map {a b : Except PyErr (DmIter ℝ)} (h : SameIter a b) (x : Except PyErr ℝ) (f : ℝ → Except PyErr Unit) :
    SameIter (a.bind fun it => x.bind fun t => (f t).map fun _ => it) (b.bind fun it => x.bind fun t => (f t).map fun _ => it) := by
  rcases a with e | it <;> rcases b with e' | it'
  · exact h
  · exact h.elim
  · exact h.elim
  · simp only [Except.bind]
    rcases x with e | t
    · exact Eq.refl e
    · simp only
      rcases f t with e | u
      · exact Eq.refl e
      · exact h

theorem prepare_perm (c : PrepConf) {ms ms' : List FileMeta} (h : ms.Perm ms') (hn : (ms.map (·.dm)).Nodup) : SameIter (prepare c ms) (prepare c ms') := by
  have hm : (ms.map (·.toDmMeta)).Perm (ms'.map (·.toDmMeta)) := h.map _
  have hn' : ((ms.map (·.toDmMeta)).map (·.dm)).Nodup := by rw [List.map_map]; exact hn
  have hd : ∀ wmin, SameIter (dmIteratorOf ms c.dmMin c.dmMax c.dmsinbMax c.fmt wmin c.fmin c.fmax c.nchans)
      (dmIteratorOf ms' c.dmMin c.dmMax c.dmsinbMax c.fmt wmin c.fmin c.fmax c.nchans) := by
    intro wmin
    have e0 : dmStartOf (ms.map (·.toDmMeta)) c.dmMin = dmStartOf (ms'.map (·.toDmMeta)) c.dmMin := by
      cases c.dmMin <;> simp only [dmStartOf]; exact pyMin_perm (hm.map _)
    have e1 : dmEndOf (ms.map (·.toDmMeta)) c.dmMax = dmEndOf (ms'.map (·.toDmMeta)) c.dmMax := by
      cases c.dmMax <;> simp only [dmEndOf]; exact pyMax_perm (hm.map _)
    unfold dmIteratorOf
    rw [e0, e1, coordinates_perm h]
    clear e0 e1
    generalize dmStartOf _ c.dmMin = X
    generalize dmEndOf _ c.dmMax = Y
    generalize galacticCoordinates ms' = Z
    rcases X with e | a
    · exact Eq.refl e
    rcases Y with e | b
    · exact Eq.refl e
    rcases Z with e | g
    · exact Eq.refl e
    simp only [Except.bind]
    exact iterator_perm hm hn' _ _ _ _ _ _
  unfold prepare
  rw [show tsampMax ms = tsampMax ms' from pyMax_perm (h.map _)]
  rcases pipelineWmin c with e | wmin
  · exact Eq.refl e
  exact (hd wmin).bind_map _ _

/-- C135. The order of the files does not matter: if no two files have the same DM, a run on the files in any other order has the same peaks, clusters and candidates, or raises the same
exception. -/
theorem C135_run (t : PipeTools) (conf : PyVal) (s : PoolSchedule) {ms ms' : List FileMeta} (h : ms.Perm ms') (hn : (ms.map (·.dm)).Nodup) :
    pipelineRun t conf ms' s = pipelineRun t conf ms s := by
  unfold pipelineRun
  rcases validatePipelineConfig conf with e | v
  · simp only [Except.bind]
  simp only [Except.bind]
  rcases runConfOf v with e | c
  · rfl
  simp only
  have hp := prepare_perm c.1.prepConf h hn
  have hb : iterBand c.1.prepConf ms' = iterBand c.1.prepConf ms := (band_perm (h.map _) _ _).symm
  have ht : tobsMedian ms' = tobsMedian ms := by
    unfold tobsMedian npMedian
    rw [mergeSort_perm_eq (h.map _)]
  rw [hb, ht]
  revert hp
  generalize prepare c.1.prepConf ms = P
  generalize prepare c.1.prepConf ms' = P'
  intro hp
  rcases P with e | it <;> rcases P' with e' | it'
  · have : e = e' := hp
    rw [this]
  · exact hp.elim
  · exact hp.elim
  · obtain ⟨h1, h2⟩ := hp
    simp only
    rcases iterBand c.1.prepConf ms with e | b
    · rfl
    simp only
    rw [h1, h2]
    rcases it'.selectedDms.mapM (getFilename it') with e | fnames
    · rfl
    simp only
    have hj : pipelineJob (t.env c.2 (tobsMedian ms) b.1 b.2.1) c.1 ms' it' fnames = pipelineJob (t.env c.2 (tobsMedian ms) b.1 b.2.1) c.1 ms it fnames := by
      have hl : loadForDm (t.env c.2 (tobsMedian ms) b.1 b.2.1) c.1 it' = loadForDm (t.env c.2 (tobsMedian ms) b.1 b.2.1) c.1 it := by
        funext dm
        unfold loadForDm
        rw [h2]
      unfold pipelineJob
      rw [hl, ht]
    rw [hj]

theorem loadMetas_perm {D : Disk} {fmt : TsFormat} {fnames fnames' : List (List Char)} (h : fnames.Perm fnames') {ms : List FileMeta} (hl : loadMetas D fmt fnames = .ok ms) :
    ∃ ms', loadMetas D fmt fnames' = .ok ms' ∧ ms.Perm ms' := by
  let load := fun f => (loadMeta D fmt f).bind (fileMetaOf D fmt)
  let g : List Char → FileMeta := fun f => match load f with
    | .ok m => m
    | .error _ => ⟨⟨0, "", 0, 0, 0⟩, 0, 0, 0, 0⟩
  have hall : ∀ (l : List (List Char)) (ms : List FileMeta), l.mapM load = .ok ms → ∀ f ∈ l, load f = .ok (g f) := by
    intro l
    induction l with
    | nil => intro ms _ f hf; cases hf
    | cons a l ih =>
      intro ms hm f hf
      rw [List.mapM_cons] at hm
      obtain ⟨m, h1, h2⟩ := bind_ok_inv (x := load a) hm
      obtain ⟨ms1, h3, -⟩ := bind_ok_inv (x := l.mapM load) h2
      rcases List.mem_cons.1 hf with rfl | hf
      · show load f = .ok (match load f with | .ok m => m | .error _ => _)
        rw [h1]
      · exact ih ms1 h3 f hf
  have h1 := hall fnames ms hl
  have e : loadMetas D fmt fnames = .ok (fnames.map g) := mapM_ok _ g _ h1
  rw [hl] at e
  refine ⟨fnames'.map g, mapM_ok _ g _ (fun f hf => h1 f (h.mem_iff.2 hf)), ?_⟩
  rw [Except.ok.inj e]
  exact h.map g

/-- C135, from the files on the disk: if all files can be read and no two have the same DM, then the names can be given in any order. -/
theorem C135_files (D : Disk) (t : PipeTools) (conf : PyVal) (s : PoolSchedule) {fnames fnames' : List (List Char)} (h : fnames.Perm fnames')
    (hload : ∀ v c, validatePipelineConfig conf = .ok v → runConfOf v = .ok c → ∃ ms, loadMetas D c.1.prep.fmt fnames = .ok ms ∧ (ms.map (·.dm)).Nodup) :
    pipelineFiles D t conf fnames' s = pipelineFiles D t conf fnames s := by
  unfold pipelineFiles
  rcases hv : validatePipelineConfig conf with e | v
  · rfl
  simp only [Except.bind]
  rcases hc : runConfOf v with e | c
  · rfl
  simp only
  obtain ⟨ms, h1, h2⟩ := hload v c hv hc
  obtain ⟨ms', h3, h4⟩ := loadMetas_perm h h1
  rw [h1, h3]
  simp only
  exact C135_run _ conf s h4 h2

/-- C135, for the program: a run of `rffa` on the files in any other order leaves the same files and ends in the same way. -/
theorem C135_rffa (H : Host) (t : PipeTools) (o : CandOutput) (s : PoolSchedule) (a : RffaArgs) (config outdir : List Char) {files files' : List (List Char)} (h : files.Perm files')
    (F F' : Files) (out : RffaEnd)
    (hload : ∀ t0 t1 conf v c, H.logText t0 → H.logText t1 → readConfig H (withLog H F a t0) config = .ok conf → validatePipelineConfig conf = .ok v → runConfOf v = .ok c →
      ∃ ms, loadMetas (diskOf H (withLog H F a t1)) c.1.prep.fmt files = .ok ms ∧ (ms.map (·.dm)).Nodup) :
    RffaBody H t o s a config outdir files' F F' out ↔ RffaBody H t o s a config outdir files F F' out := by
  unfold RffaBody
  refine exists_congr fun t0 => exists_congr fun t1 => exists_congr fun t2 => ?_
  refine and_congr_right fun h0 => and_congr_right fun h1 => and_congr_right fun _ => ?_
  rcases hr : readConfig H (withLog H F a t0) config with e | conf
  · rfl
  simp only
  rw [C135_files (diskOf H (withLog H F a t1)) t conf s h (fun v c hv hc => hload t0 t1 conf v c h0 h1 hr hv hc)]

/-- C135. For a DM the file given last is searched, of all files with this DM. -/
theorem C135_last {l : List (DmMeta ℝ)} {dm0 dm1 cap : Option ℝ} {fmt : TsFormat} {wmin : ℝ} {band : Option (ℝ × ℝ × ℕ)} {it : DmIter ℝ}
    (h : dmIterator l dm0 dm1 cap fmt wmin band = .ok it) (dm : ℝ) (name : String) :
    getFilename it dm = .ok name ↔ ∃ before m after, l = before ++ m :: after ∧ m.dm = dm ∧ m.fname = name ∧ ∀ q ∈ after, q.dm ≠ dm := by
  unfold dmIterator at h
  obtain ⟨a, -, h⟩ := bind_ok_inv h
  obtain ⟨b, -, h⟩ := bind_ok_inv h
  split_ifs at h
  obtain ⟨c, -, h⟩ := bind_ok_inv h
  obtain ⟨sel, -, h⟩ := bind_ok_inv h
  rw [← Except.ok.inj h]
  unfold getFilename
  simp only
  rw [(dictOf_spec (fun m : DmMeta ℝ => m.dm) (fun m => m.fname) l).2.2]
  generalize e : l.reverse.find? _ = G
  rcases G with _ | m
  · constructor
    · intro h
      cases h
    rintro ⟨u, m, v, rfl, hm, -⟩
    rw [List.find?_eq_none] at e
    exact (e m (by simp) (by simpa using hm)).elim
  · rw [List.find?_eq_some_iff_append] at e
    obtain ⟨hm, u, v, huv, hu⟩ := e
    have hl : l = v.reverse ++ m :: u.reverse := by
      rw [← l.reverse_reverse, huv]
      simp
    constructor
    · intro h
      rw [← Except.ok.inj h]
      refine ⟨v.reverse, m, u.reverse, hl, by simpa using hm, rfl, fun q hq => ?_⟩
      simpa using hu q (List.mem_reverse.1 hq)
    · rintro ⟨u', m', v', h1, h2, rfl, h4⟩
      have h5 : l.reverse.find? (fun x => decide (x.dm = dm)) = some m' := by
        rw [List.find?_eq_some_iff_append]
        exact ⟨by simpa using h2, v'.reverse, u'.reverse, by rw [h1]; simp, fun q hq => by simpa using h4 q (List.mem_reverse.1 hq)⟩
      have h6 : l.reverse.find? (fun x => decide (x.dm = dm)) = some m := by
        rw [List.find?_eq_some_iff_append]
        exact ⟨hm, u, v, huv, hu⟩
      rw [h5] at h6
      rw [Option.some.inj h6]
      rfl

/-- C135. Of several files with the same DM the last one is used: the condition on the DMs is needed. -/
theorem C135_same_dm (x : ℝ) (f g : String) :
    let m : String → DmMeta ℝ := fun n => ⟨x, n, 1400, 1, 100⟩
    ∀ wmin : ℝ, ∃ it it', dmIterator [m f, m g] none none none .presto wmin none = .ok it ∧ dmIterator [m g, m f] none none none .presto wmin none = .ok it' ∧
      it.selectedDms = [x] ∧ it'.selectedDms = [x] ∧ getFilename it x = .ok g ∧ getFilename it' x = .ok f := by
  intro m wmin
  have key : ∀ f g : String, ∃ it, dmIterator [m f, m g] none none none .presto wmin none = .ok it ∧ it.selectedDms = [x] ∧ getFilename it x = .ok g := by
    intro f g
    have hd : dictOf (fun m : DmMeta ℝ => m.dm) (fun m => m.fname) [m f, m g] = [(x, g)] := by simp [dictOf, dictSet, m]
    have hb : bandOf [m f, m g] .presto none = .ok (min 1400 (1400 + ((1 : ℕ) : ℝ) * 100), max 1400 (1400 + ((1 : ℕ) : ℝ) * 100), 1) := by
      unfold bandOf inferBandParams
      rw [mapM_ok _ (fun _ => (min 1400 (1400 + ((1 : ℕ) : ℝ) * 100), max 1400 (1400 + ((1 : ℕ) : ℝ) * 100), 1)) _ (by
        intro a ha
        simp only [List.mem_cons, List.not_mem_nil, or_false] at ha
        rcases ha with rfl | rfl <;> rfl)]
      simp [bind, Except.bind]
    have hs : ∀ a b c : ℝ, selectDms [x] x x a b c wmin = .ok [x] := by
      intro a b c
      unfold selectDms
      rw [show ([x].filter fun y => decide (x ≤ y ∧ y ≤ x)) = [x] by simp, List.mergeSort_singleton]
      simp only [List.length_singleton, one_ne_zero, if_false]
      rw [selectLoop, dif_neg]
      · rfl
      · have := lt_largestInRange [x] (dmRadius a b c wmin) 0
        simp only [List.length_singleton]
        omega
    refine ⟨⟨[(x, g)], [x]⟩, ?_, rfl, ?_⟩
    · unfold dmIterator
      rw [show dmStartOf [m f, m g] none = .ok x by simp [dmStartOf, pyMin, m], show dmEndOf [m f, m g] none = .ok x by simp [dmEndOf, pyMax, m], hb, hd]
      simp only [Except.bind, applyCap, List.map_cons, List.map_nil]
      rw [hs]
      rfl
    · simp [getFilename, dictGet]
  obtain ⟨it, h1, h2, h3⟩ := key f g
  obtain ⟨it', h4, h5, h6⟩ := key g f
  exact ⟨it, it', h1, h4, h2, h5, h3, h6⟩

/-! ## Two files -/

/-- The second header: a DM of 20. -/
def secondBand : Fin 8 → InfLine :=
  ![exLine "Radio", exLine "1", exLine "20", exLine "1182", exLine "400", exLine "400", exLine "1", exLine "me"]

def secondText : List Char := linesText (List.ofFn pulsarCommon ++ ([] : List (InfLine × ℤ × ℤ)).map Prod.fst ++ List.ofFn secondBand) ++
  " Any additional notes:\n".toList

/-- The disk of C103 with a second header and data file. -/
noncomputable def twoDisk : Disk where
  text := fun f => if f = "b.inf".toList then some secondText else pulsarDisk.text f
  bytes := fun f => if f = "b.dat".toList then pulsarDisk.bytes "a.dat".toList else pulsarDisk.bytes f
  realpath := id
  parseSky := fun _ _ => .ok (.fin (1 / 240), .fin (-1))
  galactic := fun _ => (120, 30)

noncomputable def secondFile : FileMeta := ⟨⟨20, "b.inf", 1182, 400, 1⟩, 1, 1000, 120, 30⟩

theorem secondFile_meta {D : Disk} (h0 : D.realpath = id) (hs : ∀ a b, D.parseSky a b = .ok (.fin (1 / 240), .fin (-1))) (hg : ∀ x, D.galactic x = (120, 30))
    (ht : D.text "b.inf".toList = some secondText) : (loadMeta D .presto "b.inf".toList).bind (fileMetaOf D .presto) = .ok secondFile := by
  have h := C103_radio D "b.inf".toList pulsarCommon_values [] (by simp) (.inl rfl) secondBand
    (by intro i; fin_cases i <;> exact exLine_ok (by decide +kernel)) rfl exFloat1 (dm := 20) (fbot := 1182) (bw := 400) (nchan := 400)
    ⟨false, "20".toList, [], [], 20, 0, 0, ⟨[2, 0], by decide, by decide, by decide, by decide +kernel⟩,
      .inl ⟨rfl, rfl⟩, .inl ⟨rfl, rfl⟩, by decide +kernel, by norm_num⟩
    ⟨false, "1182".toList, [], [], 1182, 0, 0, ⟨[1, 1, 8, 2], by decide, by decide, by decide, by decide +kernel⟩,
      .inl ⟨rfl, rfl⟩, .inl ⟨rfl, rfl⟩, by decide +kernel, by norm_num⟩
    ⟨false, "400".toList, [], [], 400, 0, 0, ⟨[4, 0, 0], by decide, by decide, by decide, by decide +kernel⟩,
      .inl ⟨rfl, rfl⟩, .inl ⟨rfl, rfl⟩, by decide +kernel, by norm_num⟩
    ⟨400, .inl ⟨⟨[4, 0, 0], by decide, by decide, by decide, by decide +kernel⟩, rfl⟩⟩ exFloat1 " Any additional notes:\n".toList
    ht (sky := (.fin (1 / 240), .fin (-1))) (hs _ _) (by norm_num) (by norm_num) (by norm_num)
  obtain ⟨md, h1, h2⟩ := h
  rw [h1]
  simp only [Except.bind]
  rw [h2]
  simp [secondFile, h0, hg]

theorem firstFile_meta {D : Disk} (h0 : D.realpath = id) (hs : ∀ a b, D.parseSky a b = .ok (.fin (1 / 240), .fin (-1))) (hg : ∀ x, D.galactic x = (120, 30))
    (ht : D.text "a.inf".toList = some pulsarText) : (loadMeta D .presto "a.inf".toList).bind (fileMetaOf D .presto) = .ok pulsarFile := by
  have h := C103_radio D "a.inf".toList pulsarCommon_values [] (by simp) (.inl rfl) pulsarBand
    (by intro i; fin_cases i <;> exact exLine_ok (by decide +kernel)) rfl exFloat1 (dm := 10) (fbot := 1182) (bw := 400) (nchan := 400)
    ⟨false, "10".toList, [], [], 10, 0, 0, ⟨[1, 0], by decide, by decide, by decide, by decide +kernel⟩,
      .inl ⟨rfl, rfl⟩, .inl ⟨rfl, rfl⟩, by decide +kernel, by norm_num⟩
    ⟨false, "1182".toList, [], [], 1182, 0, 0, ⟨[1, 1, 8, 2], by decide, by decide, by decide, by decide +kernel⟩,
      .inl ⟨rfl, rfl⟩, .inl ⟨rfl, rfl⟩, by decide +kernel, by norm_num⟩
    ⟨false, "400".toList, [], [], 400, 0, 0, ⟨[4, 0, 0], by decide, by decide, by decide, by decide +kernel⟩,
      .inl ⟨rfl, rfl⟩, .inl ⟨rfl, rfl⟩, by decide +kernel, by norm_num⟩
    ⟨400, .inl ⟨⟨[4, 0, 0], by decide, by decide, by decide, by decide +kernel⟩, rfl⟩⟩ exFloat1 " Any additional notes:\n".toList
    ht (sky := (.fin (1 / 240), .fin (-1))) (hs _ _) (by norm_num) (by norm_num) (by norm_num)
  obtain ⟨md, h1, h2⟩ := h
  rw [h1]
  simp only [Except.bind]
  rw [h2]
  simp [pulsarFile, h0, hg]

theorem twoFiles_load {D : Disk} (h0 : D.realpath = id) (hs : ∀ a b, D.parseSky a b = .ok (.fin (1 / 240), .fin (-1))) (hg : ∀ x, D.galactic x = (120, 30))
    (ha : D.text "a.inf".toList = some pulsarText) (hb : D.text "b.inf".toList = some secondText) :
    loadMetas D .presto ["a.inf".toList, "b.inf".toList] = .ok [pulsarFile, secondFile] := by
  apply mapM_forall₂
  exact .cons (firstFile_meta h0 hs hg ha) (.cons (secondFile_meta h0 hs hg hb) .nil)

/-- The hypotheses of `C135_run` and `C135_files` are met by two files with the DMs 10 and 20. -/
theorem C135_example (s : PoolSchedule) :
    pipelineFiles twoDisk pulsarTools pulsarDict ["b.inf".toList, "a.inf".toList] s = pipelineFiles twoDisk pulsarTools pulsarDict ["a.inf".toList, "b.inf".toList] s := by
  refine C135_files twoDisk pulsarTools pulsarDict s (List.Perm.swap _ _ _) fun v c hv hc => ⟨[pulsarFile, secondFile], ?_, ?_⟩
  · obtain ⟨v', hv', -, -, hc'⟩ := pulsar_pipeline_ok.conf
    rw [hv] at hv'
    rw [Except.ok.inj hv', hc'] at hc
    rw [← Except.ok.inj hc]
    exact twoFiles_load rfl (fun _ _ => rfl) (fun _ => rfl)
      (by simp only [twoDisk, pulsarDisk, if_neg (show "a.inf".toList ≠ "b.inf".toList by decide), if_true]) (by simp only [twoDisk, if_true])
  · simp [pulsarFile, secondFile]

/-- The files of C118 with a second header and data file. -/
noncomputable def twoFiles : Files := fun p =>
  if p = "b.inf".toList then some (asciiEncode secondText)
  else if p = "b.dat".toList then some (pulsarRaw.map encodeSample).flatten
  else pulsarFiles p

/-- The hypotheses of `C135_rffa` are met by the program run on these files without a log file. -/
example (o : CandOutput) (s : PoolSchedule) (F' : Files) (out : RffaEnd) :
    RffaBody pulsarHost pulsarTools o s (pulsarArgs none) "c.yaml".toList "out".toList ["b.inf".toList, "a.inf".toList] twoFiles F' out ↔
    RffaBody pulsarHost pulsarTools o s (pulsarArgs none) "c.yaml".toList "out".toList ["a.inf".toList, "b.inf".toList] twoFiles F' out := by
  refine C135_rffa pulsarHost pulsarTools o s _ _ _ (List.Perm.swap _ _ _) _ _ _ fun t0 t1 conf v c _ _ hr hv hc => ⟨[pulsarFile, secondFile], ?_, ?_⟩
  · have hr' : readConfig pulsarHost (withLog pulsarHost twoFiles (pulsarArgs none) t0) "c.yaml".toList = readConfig pulsarHost pulsarFiles "c.yaml".toList := by
      have : withLog pulsarHost twoFiles (pulsarArgs none) t0 (pulsarHost.realpath "c.yaml".toList) = pulsarFiles (pulsarHost.realpath "c.yaml".toList) := by
        show twoFiles "c.yaml".toList = pulsarFiles "c.yaml".toList
        unfold twoFiles
        rw [if_neg (by decide +kernel), if_neg (by decide +kernel)]
      unfold readConfig
      rw [this]
    rw [hr', pulsarFiles_conf] at hr
    rw [← Except.ok.inj hr] at hv
    obtain ⟨v', hv', -, -, hc'⟩ := pulsar_pipeline_ok.conf
    rw [hv] at hv'
    rw [Except.ok.inj hv', hc'] at hc
    rw [← Except.ok.inj hc]
    refine twoFiles_load rfl (fun _ _ => rfl) (fun _ => rfl) ?_ ?_
    · show (twoFiles "a.inf".toList).map asciiDecode = _
      unfold twoFiles pulsarFiles
      rw [if_neg (by decide +kernel), if_neg (by decide +kernel), if_pos rfl, Option.map_some, pulsarText_text]
    · show (twoFiles "b.inf".toList).map asciiDecode = _
      unfold twoFiles
      rw [if_pos rfl, Option.map_some]
      decide +kernel
  · simp [pulsarFile, secondFile]

end Verif.Props
