import Verif.Model.PipelineFiles
import Verif.Props.PipelineConf
import Verif.Props.Presto
import Verif.Props.Sigproc
import Verif.Props.Metadata

/-!
# C103: a run of the pipeline on files
-/

namespace Verif.Props

open Verif.Model Verif.Lemmas Verif.Spec

/-- Resolving symbolic links: the path that results has none, and leads to the same file. -/
structure Resolves (D : Disk) : Prop where
  idem : ∀ f, D.realpath (D.realpath f) = D.realpath f
  text : ∀ f, D.text (D.realpath f) = D.text f
  bytes : ∀ f, D.bytes (D.realpath f) = D.bytes f

/-- The samples of a file are these numbers. For PRESTO files, they are in the file with extension `.dat` next to the real path of the header. -/
def HasSamples (D : Disk) (fmt : TsFormat) (f : List Char) (x : List ℝ) : Prop :=
  match fmt with
  | .presto => ∃ b, D.bytes (dataFname (D.realpath f)) = some b ∧ List.Forall₂ (fun r y => sampleReal r = .ok y) (readFloat32 b) x
  | .sigproc => ∃ b h raw, D.bytes f = some b ∧ sigHeader b [] = .ok h ∧ loadSigproc b h = .ok raw ∧
      List.Forall₂ (fun r y => sampleReal r = .ok y) raw x

theorem dictGet_metaVals (md : MetaDict) (k : String) : dictGet (metaVals md) k = (dictGet md (.str k)).map metaVal := by
  induction md with
  | nil => rfl
  | cons a l ih =>
    obtain ⟨k', v⟩ := a
    unfold metaVals at ih ⊢
    cases k' with
    | nonStr t =>
      simp only [List.filterMap_cons]
      rw [ih]
      simp [dictGet]
    | str s =>
      simp only [List.filterMap_cons]
      by_cases h : s = k
      · simp [dictGet, h]
      · simp only [dictGet, DKey.str.injEq, if_neg h]
        exact ih

theorem metaItem_ok {β : Type*} {conv : PyVal → Except PyErr β} {md : MetaDict} {k : String} {x : β} (h : metaItem conv md k = .ok x) :
    ∃ v, dictGet md (.str k) = some v ∧ conv v = .ok x := by
  unfold metaItem at h
  cases hg : dictGet md (.str k) with
  | none => rw [hg] at h; cases h
  | some v => rw [hg] at h; exact ⟨v, rfl, h⟩

theorem fileMetaOf_ok {D : Disk} {fmt : TsFormat} {md : MetaDict} {m : FileMeta} (h : fileMetaOf D fmt md = .ok m) :
    metaItem pyReal md "dm" = .ok m.dm ∧ metaItem pyStr md "fname" = .ok m.fname ∧ metaItem pyReal md "tobs" = .ok m.tobs ∧
    metaItem pyReal md "tsamp" = .ok m.tsamp ∧ metaBand md fmt = .ok (m.fbot, m.nchan, m.cbw) ∧
    metaItem (pyGalactic D) md "skycoord" = .ok (m.gl, m.gb) := by
  unfold fileMetaOf at h
  obtain ⟨dm, h1, h⟩ := bind_ok_inv h
  obtain ⟨g, h2, h⟩ := bind_ok_inv h
  obtain ⟨b, h3, h⟩ := bind_ok_inv h
  obtain ⟨f, h4, h⟩ := bind_ok_inv h
  obtain ⟨t, h5, h⟩ := bind_ok_inv h
  obtain ⟨ts, h6, rfl⟩ := map_ok_inv h
  exact ⟨h1, h4, h5, h6, h3, h2⟩

theorem dictGet_toMetaStr (k : String) : ∀ d : PyDict String PyVal, dictGet (d.map fun kv => (DKey.str kv.1, kv.2)) (.str k) = dictGet d k := by
  intro d
  induction d with
  | nil => rfl
  | cons b d ih =>
    obtain ⟨b1, b2⟩ := b
    simp only [List.map_cons, dictGet, DKey.str.injEq]
    split_ifs
    · rfl
    · exact ih

/-- What the metadata of a PRESTO file are. -/
theorem metadataFromPresto_inv {sky : PyVal → PyVal → Except PyErr (PyFloat × PyFloat)} {inf : PyDict String PyVal} {f : List Char} {md : MetaDict}
    (h : metadataFromPresto sky inf f = .ok md) :
    ∃ (t : PyFloat) (n : ℤ) (c : PyFloat × PyFloat) (items : MetaDict), dictItem inf "tsamp" = .ok (.float t) ∧ dictItem inf "nsamp" = .ok (.int n) ∧ metadataInit items = .ok md ∧
      dictGet md (.str "tsamp") = some (.float t) ∧ dictGet md (.str "fname") = some (.str (String.ofList f)) ∧
      dictGet md (.str "tobs") = some (.float (t.mulInt n)) ∧ dictGet md (.str "dm") = some ((dictGet inf "dm").getD .none) ∧
      dictGet md (.str "skycoord") = some (.sky c.1 c.2) ∧
      ∀ k ∉ reservedMetaKeys, dictGet md (.str k) = dictGet inf k := by
  unfold metadataFromPresto at h
  obtain ⟨raj, _, h⟩ := bind_ok_inv h
  obtain ⟨decj, _, h⟩ := bind_ok_inv h
  obtain ⟨c, _, h⟩ := bind_ok_inv h
  obtain ⟨ts, ht, h⟩ := bind_ok_inv h
  obtain ⟨ns, hn, h⟩ := bind_ok_inv h
  cases ts with
  | float t =>
    cases ns with
    | int n =>
      obtain ⟨h1, h2, _⟩ := C54_total _ _ h
      have key : ∀ k ∉ reservedMetaKeys, dictGet md (.str k) = dictGet inf k := by
        intro k hk
        rw [h2 (.str k) (fun r hr e => hk (by cases e; exact hr))]
        simp only [reservedMetaKeys, List.mem_cons, List.not_mem_nil, or_false, not_or] at hk
        simp only [dictGet_set, DKey.str.injEq]
        rw [if_neg (Ne.symm hk.2.2.2.2.1), if_neg (Ne.symm hk.2.2.2.2.2), if_neg (Ne.symm hk.2.1), dictGet_toMetaStr]
      refine ⟨t, n, c, _, ht, hn, h, ?_, ?_, ?_, ?_, ?_, key⟩
      · rw [key _ (by decide), dictItem_ok ht]
      · rw [h1 _ (by decide)]; simp [dictGet_set]
      · rw [h1 _ (by decide)]; simp [dictGet_set]
      · rw [h1 _ (by decide)]; simp [dictGet_set, dictGet_toMetaStr]
      · rw [h1 _ (by decide)]; simp [dictGet_set]
    | _ => cases h
  | _ => cases h

/-- What the metadata of a SIGPROC file are. -/
theorem metadataFromSigproc_inv {hd : SigHeader} {f : String} {md : MetaDict} (h : metadataFromSigproc hd f = .ok md) :
    ∃ (t : PyFloat) (n : ℤ) (c : PyFloat × PyFloat) (items : MetaDict), (dictItem hd.attrs "tsamp").bind SigVal.asFloat = .ok t ∧ hd.nsamp = .ok n ∧ metadataInit items = .ok md ∧
      dictGet md (.str "tsamp") = some (.float t) ∧ dictGet md (.str "fname") = some (.str f) ∧
      dictGet md (.str "tobs") = some (.float (t.mulInt n)) ∧ dictGet md (.str "dm") = some (headerEntry hd.attrs "refdm") ∧
      dictGet md (.str "skycoord") = some (.sky c.1 c.2) := by
  unfold metadataFromSigproc at h
  obtain ⟨_, _, h⟩ := bind_ok_inv h
  obtain ⟨c, _, h⟩ := bind_ok_inv h
  obtain ⟨tobs, ht, h⟩ := bind_ok_inv h
  unfold SigHeader.tobs at ht
  obtain ⟨n, hn, ht⟩ := bind_ok_inv ht
  obtain ⟨v, hv, ht⟩ := bind_ok_inv ht
  obtain ⟨t, hvt, rfl⟩ := map_ok_inv ht
  obtain ⟨h1, h2, _⟩ := C54_total _ _ h
  refine ⟨t, n, c, _, by rw [hv]; exact hvt, hn, h, ?_, ?_, ?_, ?_, ?_⟩
  · rw [h2 _ (by decide)]
    simp only [dictGet_set, DKey.str.injEq]
    simp only [show ("tobs" : String) ≠ "tsamp" by decide, show ("fname" : String) ≠ "tsamp" by decide, show ("mjd" : String) ≠ "tsamp" by decide,
      show ("source_name" : String) ≠ "tsamp" by decide, show ("skycoord" : String) ≠ "tsamp" by decide, show ("dm" : String) ≠ "tsamp" by decide,
      if_false, dictGet_toMeta, dictItem_ok hv]
    cases v <;> cases hvt
    rfl
  · rw [h1 _ (by decide)]; simp [dictGet_set]
  · rw [h1 _ (by decide)]; simp [dictGet_set]
  · rw [h1 _ (by decide)]
    simp only [dictGet_set, DKey.str.injEq]
    simp [headerEntry, getOrNone, dictGet_toMeta]
  · rw [h1 _ (by decide)]; simp [dictGet_set]

theorem mapM_forall₂ {α β ε : Type*} {f : α → Except ε β} {l : List α} {x : List β} (h : List.Forall₂ (fun a b => f a = .ok b) l x) :
    l.mapM f = .ok x := by
  induction h with
  | nil => rfl
  | cons h _ ih =>
    rw [List.mapM_cons, h, ih]
    rfl

/-- The series of a file whose metadata can be loaded. -/
theorem loadFile_ok {D : Disk} (hD : Resolves D) {fmt : TsFormat} {f : List Char} {md : MetaDict} (h : loadMeta D fmt f = .ok md) {x : List ℝ}
    (hx : HasSamples D fmt f x) :
    ∃ (raw : List RawSample) (t : PyFloat) (n : ℤ) (md' : MetaDict),
      loadFile D fmt (D.realpath f) = .ok ⟨raw, t, dictSet md' (.str "tobs") (.float (t.mulInt raw.length))⟩ ∧
      List.Forall₂ (fun r y => sampleReal r = .ok y) raw x ∧ (∀ k, dictGet md' k = dictGet md k) ∧
      dictGet md (.str "tsamp") = some (.float t) ∧ dictGet md (.str "tobs") = some (.float (t.mulInt n)) ∧
      dictGet md (.str "fname") = some (.str (String.ofList (D.realpath f))) ∧
      ∀ k v, dictGet md (.str k) = some v → EntryOK k v := by
  cases fmt with
  | presto =>
    simp only [loadMeta] at h
    cases ht : D.text f with
    | none => rw [ht] at h; cases h
    | some text =>
      rw [ht] at h
      simp only at h
      obtain ⟨inf, hinf, h⟩ := bind_ok_inv h
      obtain ⟨t, n, c, items, h1, h2, h3, h4, h5, h6, _⟩ := metadataFromPresto_inv h
      obtain ⟨md', hmd', hmd''⟩ := C54_idempotent _ _ h3
      obtain ⟨b, hb, hraw⟩ := hx
      refine ⟨readFloat32 b, t, n, md', ?_, hraw, hmd'', h4, h6, by rw [h5, hD.idem], (C54_total _ _ h3).2.2⟩
      simp only [loadFile]
      rw [hD.text, ht]
      simp only
      unfold timeSeriesFromPresto
      rw [hinf]
      simp only [Except.bind]
      rw [h]
      simp only
      rw [hD.idem, hb]
      simp only
      rw [h1]
      simp only
      rw [hmd']
      rfl
  | sigproc =>
    simp only [loadMeta] at h
    cases ht : D.bytes f with
    | none => rw [ht] at h; cases h
    | some b =>
      rw [ht] at h
      simp only at h
      obtain ⟨hd, hhd, h⟩ := bind_ok_inv h
      obtain ⟨t, n, c, items, h1, h2, h3, h4, h5, h6, _⟩ := metadataFromSigproc_inv h
      obtain ⟨md', hmd', hmd''⟩ := C54_idempotent _ _ h3
      obtain ⟨b', hd', raw, hb, hhd', hl, hraw⟩ := hx
      rw [ht] at hb
      cases hb
      rw [hhd] at hhd'
      cases hhd'
      refine ⟨raw, t, n, md', ?_, hraw, hmd'', h4, h6, h5, (C54_total _ _ h3).2.2⟩
      simp only [loadFile]
      rw [hD.bytes, ht, hD.idem]
      simp only
      unfold timeSeriesFromSigproc
      rw [hhd]
      simp only [Except.bind]
      rw [h]
      simp only
      rw [hl]
      simp only
      obtain ⟨v, hv, hvt⟩ := bind_ok_inv h1
      rw [hv]
      simp only
      rw [hvt]
      simp only
      rw [hmd']
      rfl

/-- **C103.** A file that the pipeline selects is loaded from the path in its metadata, with the samples that are on the disk, and with the DM and the
sampling time that were used to select it; the duration of the series is that of its samples. -/
theorem C103_file {D : Disk} (hD : Resolves D) {fmt : TsFormat} {f : List Char} {md : MetaDict} {m : FileMeta} (h1 : loadMeta D fmt f = .ok md)
    (h2 : fileMetaOf D fmt md = .ok m) (hts : 0 < m.tsamp) {x : List ℝ} (hx : HasSamples D fmt f x) (hne : x ≠ []) :
    ∃ w o, diskLoader D fmt m.fname = .ok (w, 0) ∧ w.objs[0]? = some o ∧ w.dataOf o = x ∧ o.tsamp = m.tsamp ∧ GoodSeries w o ∧
      dictGet (w.metaOf o) "dm" = some (.num m.dm) ∧ 0 < m.tobs ∧ 0 ≤ m.dm ∧ m.fname = String.ofList (D.realpath f) := by
  obtain ⟨raw, t, n, md', k1, k2, k3, k4, k5, k6, k7⟩ := loadFile_ok hD h1 hx
  obtain ⟨g1, g2, g3, g4, _, _⟩ := fileMetaOf_ok h2
  obtain ⟨v1, d1, e1⟩ := metaItem_ok g1
  obtain ⟨v2, d2, e2⟩ := metaItem_ok g2
  obtain ⟨v3, d3, e3⟩ := metaItem_ok g3
  obtain ⟨v4, d4, e4⟩ := metaItem_ok g4
  rw [k4] at d4
  cases d4
  rw [k5] at d3
  cases d3
  rw [k6] at d2
  cases d2
  have hfn : m.fname = String.ofList (D.realpath f) := (Except.ok.inj e2).symm
  -- the sampling time
  cases t with
  | fin q =>
    have hq : (q : ℝ) = m.tsamp := Except.ok.inj e4
    obtain ⟨dmq, hdm, hdm0, hdmq⟩ : ∃ dmq : ℚ, v1 = .float (.fin dmq) ∧ 0 ≤ dmq ∧ (dmq : ℝ) = m.dm := by
      obtain ⟨_, _, hk, _⟩ := k7 "dm" v1 d1
      rcases hk (by decide) with rfl | rfl | ⟨dq, rfl, h0⟩
      · cases e1
      · cases e1
      · exact ⟨dq, rfl, h0, Except.ok.inj e1⟩
    have htobs : 0 < m.tobs := by
      obtain ⟨_, _, _, hk, _⟩ := k7 "tobs" _ k5
      rcases hk rfl with h | h | ⟨dq, h, h0⟩
      · cases h
      · rw [h] at e3; cases e3
      · rw [h] at e3
        have : (dq : ℝ) = m.tobs := Except.ok.inj e3
        rw [← this]
        exact_mod_cast h0
    have hlen : raw.length = x.length := k2.length_eq
    refine ⟨⟨[x], [metaVals (dictSet md' (.str "tobs") (.float ((PyFloat.fin q).mulInt raw.length)))], [⟨0, m.tsamp, 0⟩]⟩, ⟨0, m.tsamp, 0⟩, ?_,
      rfl, rfl, rfl, ⟨by simp, ?_, ?_⟩, ?_, htobs, ?_, hfn⟩
    · unfold diskLoader
      rw [hfn, String.toList_ofList, k1]
      simp only [Except.bind]
      unfold worldOf
      rw [mapM_forall₂ k2]
      simp only [Except.bind]
      rw [e4]
      rfl
    · unfold World.lengthOf World.dataOf
      have : 0 < x.length := List.length_pos_iff.mpr hne
      simp only [List.getD_cons_zero]
      positivity
    · unfold World.metaOf World.lengthOf World.dataOf
      simp only [List.getD_cons_zero]
      rw [dictGet_metaVals, dictGet_set, if_pos rfl]
      simp only [Option.map_some, PyFloat.mulInt, metaVal, ← hq, hlen]
      norm_num
    · unfold World.metaOf
      simp only [List.getD_cons_zero]
      rw [dictGet_metaVals, dictGet_set, if_neg (by decide), k3, d1, hdm]
      simp only [Option.map_some, metaVal, hdmq]
    · rw [← hdmq]; exact_mod_cast hdm0
  | inf b => cases e4
  | nan => cases e4

/-! ## Runs -/

/-- What is assumed of a run on files: a configuration as in C102; metadata that can be loaded, with a sampling time above zero (and no range that
begins at exactly `candidates.bins` samples); a data file with at least one sample; the observing band from `lo` to `hi`. -/
structure FilesOK (D : Disk) (t : PipeTools) (conf : PyVal) (c : RunConf) (a : HarmConf) (fnames : List (List Char)) (ms : List FileMeta)
    (lo hi : ℝ) (n : ℕ) : Prop where
  disk : Resolves D
  conf : ∃ v, validatePipelineConfig conf = .ok v ∧ AllFinite v ∧ NoTypeError v ∧ runConfOf v = .ok (c, a)
  argsort : IsArgsort t.argsort
  frac : FracOK t.frac
  metas : loadMetas D c.prep.fmt fnames = .ok ms
  data : ∀ f ∈ fnames, ∃ x, HasSamples D c.prep.fmt f x ∧ x ≠ [] ∧ ∀ r ∈ c.ranges, IdxFor t.idx (x.length / r.search.binsMin)
  tsamp : ∀ m ∈ ms, 0 < m.tsamp ∧ ∀ r ∈ c.ranges, r.candBins * m.tsamp ≠ r.search.periodMin
  band : ObservedBand c.prepConf ms lo hi n

/-- **C103.** A run on files is a run of C102 on their metadata, in which every file can be used. -/
theorem C103_run {D : Disk} {t : PipeTools} {conf : PyVal} {c : RunConf} {a : HarmConf} {fnames : List (List Char)} {ms : List FileMeta}
    {lo hi : ℝ} {n : ℕ} (h : FilesOK D t conf c a fnames ms lo hi n) :
    PipelineOK { t with loader := diskLoader D c.prep.fmt } conf c a ms lo hi n ∧
    ∀ s, pipelineFiles D t conf fnames s = pipelineRun { t with loader := diskLoader D c.prep.fmt } conf ms s := by
  obtain ⟨v, h1, h2, h3, h4⟩ := h.conf
  refine ⟨⟨⟨v, h1, h2, h3, h4⟩, h.argsort, h.frac, ?_, h.band⟩, ?_⟩
  · intro m hm
    obtain ⟨f, hf, hfm⟩ := forall₂_mem_right (mapM_ok_inv _ _ _ h.metas) hm
    obtain ⟨md, hmd, hmm⟩ := bind_ok_inv hfm
    obtain ⟨x, hx, hne, hidx⟩ := h.data f hf
    obtain ⟨hts, hb⟩ := h.tsamp m hm
    obtain ⟨w, o, k1, k2, k3, k4, k5, k6, k7, _, _⟩ := C103_file h.disk hmd hmm hts hx hne
    exact ⟨w, 0, o, k1, k2, k5, k4, k6, k7, by rw [k3]; exact hidx, hb⟩
  · intro s
    unfold pipelineFiles
    rw [h1]
    simp only [Except.bind]
    rw [h4]
    simp only
    rw [h.metas]

/-- What the candidate `x` of a cluster with the peaks `peaks` consists of: it is folded from the samples of a file of this DM. -/
def FoldedFromDisk (D : Disk) (c : RunConf) (fnames : List (List Char)) (peaks : List (HPeak ℝ)) (params : HPeak ℝ) (x : CandObj ℝ) : Prop :=
  x.params = params ∧ x.peaks = peaks ∧ ∃ f ∈ fnames, ∃ (md : MetaDict) (m : FileMeta) (y rm : List ℝ),
    loadMeta D c.prep.fmt f = .ok md ∧ fileMetaOf D c.prep.fmt md = .ok m ∧ m.dm = params.dm ∧ HasSamples D c.prep.fmt f y ∧
    runningMedianOf y m.tsamp c.rmedWidth c.rmedMinpts = .ok rm ∧
    ∃ r ∈ c.ranges, r.search.periodMin ≤ params.period ∧ params.period < r.search.periodMax ∧
      x.profile = foldedProfile (normalised (subtractArrays y rm)) m.tsamp params.period r.candBins ∧
      HasSubints (normalised (subtractArrays y rm)) m.tsamp params.period r.candBins
        (candSubints r.candSubints params.period (y.length * m.tsamp)) x.subints

/-- **C103.** A run on files fails only if it cannot be prepared or one of the selected files cannot be searched, and no candidate is lost: each cluster
that passes the filters is folded from the samples on the disk of a file that has the DM of its brightest peak. -/
theorem C103_no_candidate_lost {D : Disk} {t : PipeTools} {conf : PyVal} {c : RunConf} {a : HarmConf} {fnames : List (List Char)}
    {ms : List FileMeta} {lo hi : ℝ} {n : ℕ} (h : FilesOK D t conf c a fnames ms lo hi n) (h0 : 0 < lo) (hlt : lo < hi) (s : PoolSchedule)
    (hs : RunSchedule c ms s) :
    ((∃ st, pipelineFiles D t conf fnames s = .ok st) ↔ ∃ it, prepare c.prepConf ms = .ok it ∧ ∀ dm ∈ it.selectedDms, ∃ f w id peaks,
      getFilename it dm = .ok f ∧ diskLoader D c.prep.fmt f = .ok (w, id) ∧
      processLoaded t.idx t.argsort t.fit c.rmedWidth c.rmedMinpts (c.ranges.map (·.conf)) w id = .ok peaks) ∧
    ∀ st, pipelineFiles D t conf fnames s = .ok st → st.candidates.length = st.filtered.length ∧
      (∀ x ∈ st.candidates, x.source ∈ st.filtered) ∧
      ∀ i ∈ st.filtered, ∃ x ∈ st.candidates, x.source = i ∧ (∀ y ∈ st.candidates, y.source = i → y = x) ∧
        (st.heap i).centre = .ok x.params ∧ FoldedFromDisk D c fnames (st.heap i).peaks x.params x.data := by
  obtain ⟨h1, h2⟩ := C103_run h
  obtain ⟨k1, k2⟩ := C102_no_candidate_lost h1 h0 hlt s hs
  rw [h2]
  refine ⟨k1.trans ?_, fun st hst => ?_⟩
  · constructor
    · rintro ⟨it, hit, hall⟩
      refine ⟨it, hit, fun dm hdm => ?_⟩
      obtain ⟨f, l, hf, hl⟩ := hall dm hdm
      unfold processFile at hl
      obtain ⟨⟨w, id⟩, hw, hl⟩ := bind_ok_inv hl
      obtain ⟨peaks, hp, _⟩ := map_ok_inv hl
      exact ⟨f, w, id, peaks, hf, hw, hp⟩
    · rintro ⟨it, hit, hall⟩
      refine ⟨it, hit, fun dm hdm => ?_⟩
      obtain ⟨f, w, id, peaks, hf, hw, hp⟩ := hall dm hdm
      refine ⟨f, peaks.map pipelinePeak, hf, ?_⟩
      unfold processFile
      have hw' : (PipeTools.env { t with loader := diskLoader D c.prep.fmt } a (tobsMedian ms) lo hi).loader f = .ok (w, id) := hw
      rw [hw']
      simp only [Except.bind]
      have hp' : processLoaded (PipeTools.env { t with loader := diskLoader D c.prep.fmt } a (tobsMedian ms) lo hi).idx
        (PipeTools.env { t with loader := diskLoader D c.prep.fmt } a (tobsMedian ms) lo hi).argsort
        (PipeTools.env { t with loader := diskLoader D c.prep.fmt } a (tobsMedian ms) lo hi).fit c.rmedWidth c.rmedMinpts (c.ranges.map (·.conf)) w id =
          .ok peaks := hp
      rw [hp']
      rfl
  · obtain ⟨b1, _, b3, b4⟩ := k2 st hst
    refine ⟨b1, b3, fun i hif => ?_⟩
    obtain ⟨x, hx, c1, c2, c3, c4, c5, m, hm, c6, w, id, o, rm, c7, c8, c9, c10⟩ := b4 i hif
    obtain ⟨f, hf, hfm⟩ := forall₂_mem_right (mapM_ok_inv _ _ _ h.metas) hm
    obtain ⟨md, hmd, hmm⟩ := bind_ok_inv hfm
    obtain ⟨y, hy, hne, _⟩ := h.data f hf
    obtain ⟨w', o', e1, e2, e3, e4, _⟩ := C103_file h.disk hmd hmm (h.tsamp m hm).1 hy hne
    have e1' : (PipeTools.env { t with loader := diskLoader D c.prep.fmt } a (tobsMedian ms) lo hi).loader m.fname = .ok (w', 0) := e1
    rw [c7] at e1'
    cases e1'
    rw [c8] at e2
    cases e2
    rw [e3, e4] at c9 c10
    exact ⟨x, hx, c1, c2, c3, c4, c5, f, hf, md, m, y, rm, hmd, hmm, c6, hy, c9, c10⟩

/-! ## Files as they are written -/

theorem jsonable_pairs (l : List (InfLine × ℤ × ℤ)) : jsonableList (l.map fun p => .list [.int p.2.1, .int p.2.2]) = true := by
  induction l with
  | nil => rfl
  | cons a l ih => simp [jsonableList, PyVal.jsonable, ih]

/-- The metadata of a `.inf` file with valid entries exist. -/
theorem loadMeta_presto {D : Disk} {f text : List Char} {inf : PyDict String PyVal} {raj decj : PyVal} {t : ℚ} {n : ℤ} {sky : PyFloat × PyFloat}
    (ht : D.text f = some text) (hinf : inf2dict text = .ok inf) (h1 : dictGet inf "raj" = some raj) (h2 : dictGet inf "decj" = some decj)
    (hsky : D.parseSky raj decj = .ok sky) (h3 : dictGet inf "tsamp" = some (.float (.fin t))) (h4 : dictGet inf "nsamp" = some (.int n))
    (hpos : 0 < n * t) (hall : ∀ kv ∈ inf, validMetaItem (.str kv.1) kv.2 = true) :
    ∃ md, loadMeta D .presto f = .ok md ∧ dictGet md (.str "fname") = some (.str (String.ofList (D.realpath (D.realpath f)))) ∧
      dictGet md (.str "tobs") = some (.float (.fin (n * t))) ∧ dictGet md (.str "skycoord") = some (.sky sky.1 sky.2) ∧
      dictGet md (.str "dm") = some ((dictGet inf "dm").getD .none) ∧ ∀ k ∉ reservedMetaKeys, dictGet md (.str k) = dictGet inf k := by
  have item : ∀ {k v}, dictGet inf k = some v → dictItem inf k = .ok v := by
    intro k v h; unfold dictItem; rw [h]
  have hval : ∀ kv ∈ dictSet (dictSet (dictSet (inf.map fun kv => (DKey.str kv.1, kv.2)) (.str "skycoord") (.sky sky.1 sky.2)) (.str "fname")
      (.str (String.ofList (D.realpath (D.realpath f))))) (.str "tobs") (.float ((PyFloat.fin t).mulInt n)), validMetaItem kv.1 kv.2 = true := by
    refine all_dictSet (all_dictSet (all_dictSet ?_ ?_) ?_) ?_
    · intro kv hkv
      rw [List.mem_map] at hkv
      obtain ⟨a, ha, rfl⟩ := hkv
      exact hall a ha
    · rfl
    · rfl
    · have : (0 : ℚ) < t * n ∨ (0 : ℚ) < n * t := .inr hpos
      simp [validMetaItem, validOptPos, PyFloat.mulInt, PyFloat.pos, hpos]
  obtain ⟨md, hmd⟩ : ∃ md, loadMeta D .presto f = .ok md := by
    simp only [loadMeta]
    rw [ht]
    simp only
    rw [hinf]
    simp only [Except.bind]
    unfold metadataFromPresto
    rw [item h1, item h2]
    simp only [Except.bind]
    rw [hsky, item h3, item h4]
    simp only
    unfold metadataInit
    rw [if_pos (List.all_eq_true.2 hval)]
    exact ⟨_, rfl⟩
  refine ⟨md, hmd, ?_⟩
  simp only [loadMeta] at hmd
  rw [ht] at hmd
  simp only at hmd
  rw [hinf] at hmd
  simp only [Except.bind] at hmd
  have hc := hmd
  unfold metadataFromPresto at hc
  rw [item h1, item h2] at hc
  simp only [Except.bind] at hc
  rw [hsky, item h3, item h4] at hc
  simp only at hc
  obtain ⟨g1, _, _⟩ := C54_total _ _ hc
  obtain ⟨t', n', c', _, k1, k2, _, _, k3, k4, k5, _, k7⟩ := metadataFromPresto_inv hmd
  rw [item h3] at k1
  rw [item h4] at k2
  cases k1
  cases k2
  refine ⟨k3, by rw [k4]; rfl, ?_, k5, k7⟩
  rw [g1 _ (by decide)]
  simp [dictGet_set]

/-- The items of the common part are valid. -/
theorem common_valid {c : Fin 12 → InfLine} {mjd : ℚ} {bary nsamp : ℤ} {tsamp : ℚ} {breaks : ℤ} (hmjd : 0 ≤ mjd) :
    ∀ kv ∈ infCommonItems c mjd bary nsamp tsamp breaks, validMetaItem (.str kv.1) kv.2 = true := by
  intro kv hkv
  simp only [infCommonItems, List.mem_cons, List.not_mem_nil, or_false] at hkv
  rcases hkv with rfl | rfl | rfl | rfl | rfl | rfl | rfl | rfl | rfl | rfl | rfl | rfl <;>
    simp [validMetaItem, PyVal.jsonable, validOptStr, validOptNonneg, PyFloat.nonneg, hmjd]

/-- **C103.** The metadata of a PRESTO file of a radio observation, as PRESTO writes it: DM, lowest frequency, number and width of channels and sampling
time are those written; the duration is that of the announced number of samples. -/
theorem C103_radio (D : Disk) (f : List Char) {c : Fin 12 → InfLine} {mjd : ℚ} {bary nsamp : ℤ} {tsamp : ℚ} {breaks : ℤ}
    (hc : InfCommonValues c mjd bary nsamp tsamp breaks) (pairs : List (InfLine × ℤ × ℤ))
    (hp : ∀ p ∈ pairs, p.1.OK ∧ PairText p.1.value p.2.1 p.2.2) (hb : pairs = [] ∨ breaks ≠ 0)
    (b : Fin 8 → InfLine) (hbo : ∀ i, (b i).OK) (hband : (b 0).value = "Radio".toList) {fov dm fbot bw cbw : ℚ} {nchan : ℕ}
    (h1 : FloatText (b 1).value fov) (h2 : FloatText (b 2).value dm) (h3 : FloatText (b 3).value fbot)
    (h4 : FloatText (b 4).value bw) (h5 : IntText (b 5).value nchan) (h6 : FloatText (b 6).value cbw) (tail : List Char)
    (ht : D.text f = some (linesText (List.ofFn c ++ pairs.map Prod.fst ++ List.ofFn b) ++ tail)) {sky : PyFloat × PyFloat}
    (hsky : D.parseSky (.str (String.ofList (c 4).value)) (.str (String.ofList (c 5).value)) = .ok sky)
    (hmjd : 0 ≤ mjd) (hdm : 0 ≤ dm) (htobs : 0 < nsamp * tsamp) :
    ∃ md, loadMeta D .presto f = .ok md ∧ fileMetaOf D .presto md = .ok
      ⟨⟨dm, String.ofList (D.realpath (D.realpath f)), fbot, nchan, cbw⟩, tsamp, nsamp * tsamp, (D.galactic (.sky sky.1 sky.2)).1,
        (D.galactic (.sky sky.1 sky.2)).2⟩ := by
  have hinf := C53_radio hc pairs hp hb b hbo hband h1 h2 h3 h4 h5 h6 tail
  obtain ⟨md, hmd, k1, k2, k3, k4, k5⟩ := loadMeta_presto ht hinf (by simp [infCommonItems, dictGet]) (by simp [infCommonItems, dictGet]) hsky
    (by simp [infCommonItems, dictGet]) (by simp [infCommonItems, dictGet]) htobs (by
      intro kv hkv
      rw [List.mem_append, List.mem_append] at hkv
      rcases hkv with (hkv | hkv) | hkv
      · exact common_valid hmjd kv hkv
      · rw [List.mem_singleton] at hkv
        subst hkv
        simp [validMetaItem, PyVal.jsonable, jsonable_pairs]
      · simp only [List.mem_cons, List.not_mem_nil, or_false] at hkv
        rcases hkv with rfl | rfl | rfl | rfl | rfl | rfl | rfl | rfl <;>
          simp [validMetaItem, PyVal.jsonable, validOptNonneg, PyFloat.nonneg, hdm])
  refine ⟨md, hmd, ?_⟩
  have q1 : dictGet md (.str "dm") = some (.float (.fin dm)) := by rw [k4]; simp [infCommonItems, dictGet]
  have q2 : dictGet md (.str "fbot") = some (.float (.fin fbot)) := by rw [k5 _ (by decide)]; simp [infCommonItems, dictGet]
  have q3 : dictGet md (.str "nchan") = some (.int nchan) := by rw [k5 _ (by decide)]; simp [infCommonItems, dictGet]
  have q4 : dictGet md (.str "cbw") = some (.float (.fin cbw)) := by rw [k5 _ (by decide)]; simp [infCommonItems, dictGet]
  have q5 : dictGet md (.str "tsamp") = some (.float (.fin tsamp)) := by rw [k5 _ (by decide)]; simp [infCommonItems, dictGet]
  unfold fileMetaOf metaBand metaItem
  simp only [q1, q2, q3, q4, q5, k1, k2, k3]
  simp [pyReal, pyGalactic, pyCount, pyStr, Except.bind, Except.map]

/-- **C103.** The metadata and the time series of a file of an X-ray or gamma ray observation are loaded, but the pipeline fails on every
list of files with such a file, whatever the configuration; specifying the observing band does not help. -/
theorem C103_high_energy {D : Disk} (hD : Resolves D) (f : List Char) {c : Fin 12 → InfLine} {mjd : ℚ} {bary nsamp : ℤ} {tsamp : ℚ} {breaks : ℤ}
    (hc : InfCommonValues c mjd bary nsamp tsamp breaks) (pairs : List (InfLine × ℤ × ℤ))
    (hp : ∀ p ∈ pairs, p.1.OK ∧ PairText p.1.value p.2.1 p.2.2) (hb : pairs = [] ∨ breaks ≠ 0)
    (b : Fin 5 → InfLine) (hbo : ∀ i, (b i).OK) (hband : (b 0).value = "X-ray".toList ∨ (b 0).value = "Gamma".toList)
    {fov energy bandpass : ℚ} (h1 : FloatText (b 1).value fov) (h2 : FloatText (b 2).value energy)
    (h3 : FloatText (b 3).value bandpass) (tail : List Char)
    (ht : D.text f = some (linesText (List.ofFn c ++ pairs.map Prod.fst ++ List.ofFn b) ++ tail)) {sky : PyFloat × PyFloat}
    (hsky : D.parseSky (.str (String.ofList (c 4).value)) (.str (String.ofList (c 5).value)) = .ok sky)
    (hmjd : 0 ≤ mjd) (htobs : 0 < nsamp * tsamp) {x : List ℝ} (hx : HasSamples D .presto f x) :
    (∃ md, loadMeta D .presto f = .ok md) ∧ (∃ s, loadFile D .presto (D.realpath f) = .ok s) ∧
    ∀ (t : PipeTools) (conf v : PyVal) (r : RunConf × HarmConf) (fnames : List (List Char)) (s : PoolSchedule), validatePipelineConfig conf = .ok v →
      runConfOf v = .ok r → r.1.prep.fmt = .presto → f ∈ fnames → ¬ ∃ st, pipelineFiles D t conf fnames s = .ok st := by
  have hinf := C53_high_energy hc pairs hp hb b hbo hband h1 h2 h3 tail
  obtain ⟨md, hmd, -, -, -, -, k5⟩ := loadMeta_presto ht hinf (by simp [infCommonItems, dictGet]) (by simp [infCommonItems, dictGet]) hsky
    (by simp [infCommonItems, dictGet]) (by simp [infCommonItems, dictGet]) htobs (by
      intro kv hkv
      rw [List.mem_append, List.mem_append] at hkv
      rcases hkv with (hkv | hkv) | hkv
      · exact common_valid hmjd kv hkv
      · rw [List.mem_singleton] at hkv
        subst hkv
        simp [validMetaItem, PyVal.jsonable, jsonable_pairs]
      · simp only [List.mem_cons, List.not_mem_nil, or_false] at hkv
        rcases hkv with rfl | rfl | rfl | rfl | rfl <;> simp [validMetaItem, PyVal.jsonable])
  obtain ⟨raw, t0, n0, md', hs, _⟩ := loadFile_ok hD hmd hx
  refine ⟨⟨md, hmd⟩, ⟨_, hs⟩, ?_⟩
  rintro t conf v r fnames s hv hr hfmt hf ⟨st, hst⟩
  unfold pipelineFiles at hst
  rw [hv] at hst
  simp only [Except.bind] at hst
  rw [hr] at hst
  simp only at hst
  obtain ⟨ms, hms, -⟩ := bind_ok_inv (f := fun ms => pipelineRun { t with loader := diskLoader D r.1.prep.fmt } conf ms s) hst
  obtain ⟨m, -, hm⟩ := forall₂_mem_left (mapM_ok_inv _ _ _ hms) hf
  rw [hfmt] at hm
  obtain ⟨md2, e1, e2⟩ := bind_ok_inv hm
  rw [hmd] at e1
  cases e1
  obtain ⟨-, -, -, -, hbnd, -⟩ := fileMetaOf_ok e2
  have q : dictGet md (.str "fbot") = none := by rw [k5 _ (by decide)]; simp [infCommonItems, dictGet]
  unfold metaBand metaItem at hbnd
  simp only [q] at hbnd
  cases hbnd

/-- **C103.** The metadata of a SIGPROC file as it is written, with its DM: DM and sampling time are those of the header, and the samples are those in
the file; the duration is that of these samples. -/
theorem C103_sigproc (D : Disk) (f : List Char) (kvs : List (String × SigVal)) (samples : List RawSample) (hnd : (kvs.map Prod.fst).Nodup)
    (hk : ∀ kv ∈ kvs, dictGet sigprocKeydb kv.1 = some (typeOf kv.2) ∧ InRange kv.2)
    (hch : dictGet kvs "nchans" = some (.int 1))
    (hdata : (dictGet kvs "nbits" = some (.int 32) ∧ ∀ x ∈ samples, IsFloat32 x) ∨
      (dictGet kvs "nbits" = some (.int 8) ∧ ∃ s, dictGet kvs "signed" = some (.bool s) ∧ ∀ x ∈ samples, IsInt8 s x))
    (hne : samples ≠ []) (tb : ℕ) (t : ℚ) (htb : dictGet kvs "tsamp" = some (.float tb)) (ht : decodeDouble tb = .fin t) (htpos : 0 < t)
    (rab decb : ℕ) (ra dec : ℚ) (hra : dictGet kvs "src_raj" = some (.float rab)) (hra' : decodeDouble rab = .fin ra)
    (hdec : dictGet kvs "src_dej" = some (.float decb)) (hdec' : decodeDouble decb = .fin dec)
    (dmb : ℕ) (dm : ℚ) (hdm : dictGet kvs "refdm" = some (.float dmb)) (hdm' : decodeDouble dmb = .fin dm) (hdm0 : 0 ≤ dm)
    (hmjd : ∀ b, dictGet kvs "tstart" = some (.float b) → (decodeDouble b).nonneg = true)
    (hf : D.bytes f = some (encodeHeader kvs ++ (samples.map encodeSample).flatten)) :
    (∃ md, loadMeta D .sigproc f = .ok md ∧ fileMetaOf D .sigproc md = .ok
      ⟨⟨dm, String.ofList (D.realpath f), 0, 0, 0⟩, t, samples.length * t,
        (D.galactic (.sky (.fin (15 * parseFloatCoord ra)) (.fin (parseFloatCoord dec)))).1,
        (D.galactic (.sky (.fin (15 * parseFloatCoord ra)) (.fin (parseFloatCoord dec)))).2⟩) ∧
    ∀ x, List.Forall₂ (fun r y => sampleReal r = .ok y) samples x → HasSamples D .sigproc f x := by
  obtain ⟨hd, md, e1, _, e2, m1, _, m3, m4, m5, m6, m7, m8, m9⟩ := sigprocFile_parts kvs samples (String.ofList (D.realpath f)) hnd hk hch hdata hne tb t htb ht
    htpos rab decb ra dec hra hra' hdec hdec' (by rintro b hb; rw [hdm] at hb; cases hb; rw [hdm']; simpa [PyFloat.nonneg] using hdm0) hmjd
  refine ⟨⟨md, ?_, ?_⟩, fun x hx => ⟨_, hd, samples, hf, e1, e2, hx⟩⟩
  · simp only [loadMeta]
    rw [hf]
    simp only
    rw [e1]
    exact m1
  · have q1 : dictGet md (.str "dm") = some (.float (.fin dm)) := by rw [m3, headerEntry, hdm]; simp [SigVal.toPy, hdm']
    have q5 : dictGet md (.str "tsamp") = some (.float (.fin t)) := by rw [m9 _ (by decide), htb]; simp [SigVal.toPy, ht]
    unfold fileMetaOf metaBand metaItem
    simp only [q1, q5, m6, m7, m8]
    simp [pyReal, pyGalactic, pyStr, Except.bind, Except.map]

/-! ## Example: from two files on the disk to a candidate -/

/-- The bits of the samples of `pulsarSamples`. -/
def pulsarBits (i : ℕ) : ℕ :=
  if i % 2 = 1 then (if (3 * i + 50) % 100 ≤ 9 then 0x41220000 else 0x3E000000) else (if (3 * i + 50) % 100 ≤ 9 then 0x41200000 else 0)

def pulsarRaw : List RawSample := (List.range 1000).map fun i => .float32 (pulsarBits i)

/-- The lines of the header. -/
def pulsarCommon : Fin 12 → InfLine :=
  ![exLine "a", exLine "Parkes", exLine "PMDAQ", exLine "J0000+0000", exLine "00:00:01.0000", exLine "-01:02:03.4",
    exLine "Unset", exLine "54000", exLine "1", exLine "1000", exLine "1", exLine "0"]

def pulsarBand : Fin 8 → InfLine :=
  ![exLine "Radio", exLine "1", exLine "10", exLine "1182", exLine "400", exLine "400", exLine "1", exLine "me"]

def pulsarText : List Char := linesText (List.ofFn pulsarCommon ++ ([] : List (InfLine × ℤ × ℤ)).map Prod.fst ++ List.ofFn pulsarBand) ++
  " Any additional notes:\n".toList

/-- A header and a data file. -/
noncomputable def pulsarDisk : Disk where
  text := fun f => if f = "a.inf".toList then some pulsarText else none
  bytes := fun f => if f = "a.dat".toList then some (pulsarRaw.map encodeSample).flatten else none
  realpath := id
  parseSky := fun _ _ => .ok (.fin (1 / 240), .fin (-1))
  galactic := fun _ => (120, 30)

theorem pulsarDisk_resolves : Resolves pulsarDisk := ⟨fun _ => rfl, fun _ => rfl, fun _ => rfl⟩

theorem pulsarCommon_values : InfCommonValues pulsarCommon 54000 1 1000 1 0 where
  lines := by
    intro i
    fin_cases i <;> exact exLine_ok (by decide +kernel)
  real := by decide +kernel
  mjd := ⟨false, "54000".toList, [], [], 54000, 0, 0, ⟨[5, 4, 0, 0, 0], by decide, by decide, by decide, by decide +kernel⟩,
    .inl ⟨rfl, rfl⟩, .inl ⟨rfl, rfl⟩, by decide +kernel, by norm_num⟩
  bary := ⟨1, .inl ⟨⟨[1], by decide, by decide, by decide, by decide +kernel⟩, rfl⟩⟩
  nsamp := ⟨1000, .inl ⟨⟨[1, 0, 0, 0], by decide, by decide, by decide, by decide +kernel⟩, rfl⟩⟩
  tsamp := exFloat1
  breaks := ⟨0, .inl ⟨⟨[0], by decide, by decide, by decide, by decide +kernel⟩, rfl⟩⟩

theorem pulsarFile_meta : ∃ md, loadMeta pulsarDisk .presto "a.inf".toList = .ok md ∧ fileMetaOf pulsarDisk .presto md = .ok pulsarFile := by
  have h := C103_radio pulsarDisk "a.inf".toList pulsarCommon_values [] (by simp) (.inl rfl) pulsarBand
    (by intro i; fin_cases i <;> exact exLine_ok (by decide +kernel)) rfl exFloat1 (dm := 10) (fbot := 1182) (bw := 400) (nchan := 400)
    ⟨false, "10".toList, [], [], 10, 0, 0, ⟨[1, 0], by decide, by decide, by decide, by decide +kernel⟩,
      .inl ⟨rfl, rfl⟩, .inl ⟨rfl, rfl⟩, by decide +kernel, by norm_num⟩
    ⟨false, "1182".toList, [], [], 1182, 0, 0, ⟨[1, 1, 8, 2], by decide, by decide, by decide, by decide +kernel⟩,
      .inl ⟨rfl, rfl⟩, .inl ⟨rfl, rfl⟩, by decide +kernel, by norm_num⟩
    ⟨false, "400".toList, [], [], 400, 0, 0, ⟨[4, 0, 0], by decide, by decide, by decide, by decide +kernel⟩,
      .inl ⟨rfl, rfl⟩, .inl ⟨rfl, rfl⟩, by decide +kernel, by norm_num⟩
    ⟨400, .inl ⟨⟨[4, 0, 0], by decide, by decide, by decide, by decide +kernel⟩, rfl⟩⟩ exFloat1 " Any additional notes:\n".toList
    (by simp only [pulsarDisk, if_true]; rfl) (sky := (.fin (1 / 240), .fin (-1))) rfl (by norm_num) (by norm_num) (by norm_num)
  obtain ⟨md, h1, h2⟩ := h
  refine ⟨md, h1, ?_⟩
  rw [h2]
  simp [pulsarFile, pulsarDisk]

theorem pulsarFile_samples : HasSamples pulsarDisk .presto "a.inf".toList pulsarSamples := by
  refine ⟨(pulsarRaw.map encodeSample).flatten, ?_, ?_⟩
  · have : dataFname (pulsarDisk.realpath "a.inf".toList) = "a.dat".toList := by
      show dataFname "a.inf".toList = "a.dat".toList
      decide +kernel
    rw [this]
    simp only [pulsarDisk, if_true]
  · rw [readFloat32_encode _ (by
      intro x hx
      simp only [pulsarRaw, List.mem_map] at hx
      obtain ⟨i, _, rfl⟩ := hx
      refine ⟨_, rfl, ?_⟩
      unfold pulsarBits
      split_ifs <;> norm_num)]
    rw [List.forall₂_iff_get]
    have hlen : pulsarRaw.length = 1000 := by simp [pulsarRaw]
    refine ⟨by rw [hlen, pulsarSamples_length], fun i h1 h2 => ?_⟩
    rw [hlen] at h1
    have e1 := pulsarSamples_get i h1
    rw [List.getElem?_eq_getElem h2, Option.some.injEq] at e1
    have d1 : decodeFloat 0x41220000 = .fin (81 / 8) := by decide +kernel
    have d2 : decodeFloat 0x3E000000 = .fin (1 / 8) := by decide +kernel
    have d3 : decodeFloat 0x41200000 = .fin 10 := by decide +kernel
    have d4 : decodeFloat 0 = .fin 0 := by decide +kernel
    rw [List.get_eq_getElem, List.get_eq_getElem, e1]
    simp only [pulsarRaw, List.getElem_map, List.getElem_range, sampleReal, pulsarBits]
    split_ifs
    · rw [d1]; norm_num
    · rw [d2]; norm_num
    · rw [d3]; norm_num
    · rw [d4]; norm_num

theorem pulsar_files_ok : FilesOK pulsarDisk pulsarTools pulsarDict pulsarConf pulsarHarm ["a.inf".toList] [pulsarFile] 1182 1582 400 where
  disk := pulsarDisk_resolves
  conf := pulsar_pipeline_ok.conf
  argsort := pulsar_pipeline_ok.argsort
  frac := pulsar_pipeline_ok.frac
  metas := by
    obtain ⟨md, h1, h2⟩ := pulsarFile_meta
    apply mapM_forall₂
    refine .cons ?_ .nil
    show (loadMeta pulsarDisk .presto "a.inf".toList).bind (fileMetaOf pulsarDisk .presto) = _
    rw [h1]
    exact h2
  data := by
    intro f hf
    rw [List.mem_singleton.mp hf]
    refine ⟨pulsarSamples, pulsarFile_samples, ?_, ?_⟩
    · intro h
      have := pulsarSamples_length
      rw [h] at this
      cases this
    · have h := (pulsarFile_ok fun _ _ => .ok (false, 1)).idx
      rw [pulsarWorld_data] at h
      exact h
  tsamp := by
    intro m hm
    rw [List.mem_singleton.mp hm]
    refine ⟨one_pos, fun r hr => ?_⟩
    simp only [pulsarConf, List.mem_singleton] at hr
    rw [hr]
    norm_num [pulsarRange, pulsarFile]
  band := pulsar_pipeline_ok.band

/-- The hypotheses of C103 are met: the run on these files succeeds and has a candidate with an S/N of at least 10. -/
theorem C103_example : ∃ st, pipelineFiles pulsarDisk pulsarTools pulsarDict ["a.inf".toList] ⟨fun _ => 1, fun _ => [0]⟩ = .ok st ∧
    ∃ x ∈ st.candidates, 10 ≤ x.params.snr ∧ x.data.profile.length = 16 := by
  obtain ⟨h1, h2⟩ := C103_run pulsar_files_ok
  rw [h2]
  obtain ⟨h3, h4⟩ := C102_run h1 ⟨fun _ => 1, fun _ => [0]⟩
  rw [h3]
  have hok := h4 (by norm_num) (by norm_num) pulsar_prepared
  obtain ⟨md, k1, k2⟩ := pulsarFile_meta
  obtain ⟨w, o, e1, e2, e3, e4, e5, e6, e7, _, _⟩ := C103_file pulsarDisk_resolves k1 k2 one_pos pulsarFile_samples (by
    intro h
    have := pulsarSamples_length
    rw [h] at this
    cases this)
  have e4' : o.tsamp = 1 := e4
  have hp : pulsarConf.prep.fmt = .presto := rfl
  rw [← hp] at e1
  clear h1 h2 h3 h4
  refine pulsar_candidate hok rfl (w := w) (id := 0) (o := o) ⟨?_, e2, e5, by rw [e4']; exact one_pos, e6, e7, ?_, ?_⟩ e3 e4'
  · simp only [PipeTools.env]
    exact e1
  · have h := (pulsarFile_ok fun _ _ => .ok (false, 1)).idx
    rw [pulsarWorld_data] at h
    rw [e3]
    exact h
  · intro r hr
    simp only [pulsarConf, List.mem_singleton] at hr
    rw [hr, e4']
    norm_num [pulsarRange]

/-- An X-ray observation with two samples. -/
noncomputable def xrayDisk : Disk where
  text := fun _ => some (linesText (List.ofFn exCommon ++ ([] : List (InfLine × ℤ × ℤ)).map Prod.fst ++
    List.ofFn ![exLine "X-ray", exLine "1", exLine "1", exLine "1", exLine "me"]) ++ [])
  bytes := fun _ => some [0, 0, 0, 0, 0, 0, 128, 63]
  realpath := id
  parseSky := fun _ _ => .ok (.fin 0, .fin 0)
  galactic := fun _ => (0, 0)

theorem xrayDisk_samples : HasSamples xrayDisk .presto "a.inf".toList [0, 1] := by
  refine ⟨_, rfl, ?_⟩
  have h : readFloat32 [0, 0, 0, 0, 0, 0, 128, 63] = [.float32 0, .float32 0x3F800000] := by decide +kernel
  rw [h]
  have d1 : decodeFloat 0 = .fin 0 := by decide +kernel
  have d2 : decodeFloat 0x3F800000 = .fin 1 := by decide +kernel
  refine .cons ?_ (.cons ?_ .nil)
  · simp [sampleReal, d1]
  · simp [sampleReal, d2]

example : ∃ md, loadMeta xrayDisk .presto "a.inf".toList = .ok md :=
  (C103_high_energy (D := xrayDisk) ⟨fun _ => rfl, fun _ => rfl, fun _ => rfl⟩ "a.inf".toList exCommon_values [] (by simp) (.inl rfl)
    ![exLine "X-ray", exLine "1", exLine "1", exLine "1", exLine "me"] (by intro i; fin_cases i <;> exact exLine_ok (by decide +kernel)) (.inl rfl)
    exFloat1 exFloat1 exFloat1 [] rfl rfl (by norm_num) (by norm_num) xrayDisk_samples).1

/-- A SIGPROC file with three signed samples. -/
noncomputable def sigprocDisk : Disk where
  text := fun _ => none
  bytes := fun _ => some (encodeHeader demoHeader ++ ([RawSample.int8 5, .int8 (-128), .int8 127].map encodeSample).flatten)
  realpath := id
  parseSky := fun _ _ => .ok (.fin 0, .fin 0)
  galactic := fun _ => (0, 0)

example : HasSamples sigprocDisk .sigproc "a.tim".toList [5, -128, 127] :=
  (C103_sigproc sigprocDisk "a.tim".toList demoHeader [.int8 5, .int8 (-128), .int8 127] (by decide +kernel) (by decide +kernel) (by decide +kernel)
    (.inr ⟨by decide +kernel, true, by decide +kernel, by
      intro x hx
      simp only [List.mem_cons, List.not_mem_nil, or_false] at hx
      rcases hx with rfl | rfl | rfl
      · exact ⟨5, rfl, by decide⟩
      · exact ⟨-128, rfl, by decide⟩
      · exact ⟨127, rfl, by decide⟩⟩) (by simp) 0x3FD0000000000000 (1 / 4) (by decide +kernel) (by decide +kernel) (by norm_num) 0 0 0 0
    (by decide +kernel) (by decide +kernel) (by decide +kernel) (by decide +kernel) 0x4050FF5C28F5C28F _ (by decide +kernel) rfl (by decide +kernel)
    (by intro b hb; simp [demoHeader, dictGet] at hb; try (subst hb; decide +kernel)) rfl).2 _ (by
      refine .cons ?_ (.cons ?_ (.cons ?_ .nil)) <;> simp [sampleReal])

end Verif.Props
