import Verif.Props.FileOrder
import Verif.Props.CandRun

/-!
# C137: files that are not selected do not matter
-/

namespace Verif.Props

open Verif.Model Verif.Lemmas Verif.Spec

/-! ## Selection of DMs -/

section
variable {K : Type*} [Field K] [LinearOrder K] [IsStrictOrderedRing K]

/-- The DM selected after `a`: the largest one whose range of coverage touches that of `a`, or the next one if there is none. -/
def NextDm (d : List K) (radius : K → K) (a b : K) : Prop :=
  b ∈ d ∧ a < b ∧ ((b - radius b - (a + radius a) ≤ 0 ∧ ∀ x ∈ d, b < x → 0 < x - radius x - (a + radius a)) ∨
    (0 < b - radius b - (a + radius a) ∧ ∀ x ∈ d, a < x → b ≤ x))

theorem NextDm.unique {d : List K} {radius : K → K} (hlo : ∀ a ∈ d, ∀ b ∈ d, a ≤ b → a - radius a ≤ b - radius b) {a b b' : K} (h : NextDm d radius a b)
    (h' : NextDm d radius a b') : b = b' := by
  obtain ⟨m, l, h⟩ := h
  obtain ⟨m', l', h'⟩ := h'
  rcases h with ⟨h1, h2⟩ | ⟨h1, h2⟩ <;> rcases h' with ⟨h3, h4⟩ | ⟨h3, h4⟩
  · rcases lt_trichotomy b b' with c | c | c
    · exact absurd (h2 b' m' c) (not_lt.2 h3)
    · exact c
    · exact absurd (h4 b m c) (not_lt.2 h1)
  · have := hlo b' m' b m (h4 b m l)
    linarith
  · have := hlo b m b' m' (h2 b' m' l')
    linarith
  · exact le_antisymm (h2 b' m' l') (h4 b m l)

omit [IsStrictOrderedRing K] in
theorem NextDm.subset {d d' : List K} {radius : K → K} (hs : ∀ x ∈ d', x ∈ d) {a b : K} (h : NextDm d radius a b) (hb : b ∈ d') : NextDm d' radius a b :=
  ⟨hb, h.2.1, h.2.2.imp (fun h => ⟨h.1, fun x hx => h.2 x (hs x hx)⟩) fun h => ⟨h.1, fun x hx => h.2 x (hs x hx)⟩⟩

theorem index_lt {d : List K} (hd : d.Pairwise (· < ·)) {i k : ℕ} (hi : i < d.length) (h : d.getD i 0 < d.getD k 0) : i < k := by
  by_contra hc
  rcases Nat.eq_or_lt_of_le (not_lt.1 hc) with e | e
  · rw [e] at h; exact lt_irrefl _ h
  · exact lt_asymm h (getD_strict hd e hi)

theorem mem_getD {d : List K} {x : K} (h : x ∈ d) : ∃ k, k < d.length ∧ d.getD k 0 = x := by
  obtain ⟨k, hk, rfl⟩ := List.mem_iff_getElem.1 h
  exact ⟨k, hk, getD_of_lt d hk⟩

theorem largest_next {d : List K} (hd : d.Pairwise (· < ·)) {radius : K → K} (hlo : ∀ a ∈ d, ∀ b ∈ d, a ≤ b → a - radius a ≤ b - radius b) {i : ℕ} (hi : i < d.length)
    (h : largestInRange d radius i < d.length) : NextDm d radius (d.getD i 0) (d.getD (largestInRange d radius i) 0) := by
  have hd' : d.Pairwise (· ≤ ·) := hd.imp le_of_lt
  refine ⟨getD_mem d h, getD_strict hd (lt_largestInRange d radius i) h, ?_⟩
  have hmono : ∀ j k, j ≤ k → k < d.length → d.getD j 0 - radius (d.getD j 0) ≤ d.getD k 0 - radius (d.getD k 0) := fun j k hj hk =>
    hlo _ (getD_mem d (by omega)) _ (getD_mem d hk) (getD_mono hd' hj hk)
  revert h
  unfold largestInRange
  split
  · rename_i j hj
    obtain ⟨hp, h1, h2, h3⟩ := range'_find_some hj
    simp only [dmGap, decide_eq_true_eq, gt_iff_lt] at hp
    intro h
    by_cases c : j ≤ i + 1
    · rw [max_eq_right (by omega)] at h ⊢
      refine .inr ⟨?_, ?_⟩
      · have := hmono j (i + 1) c h
        linarith
      · intro x hx hax
        obtain ⟨k, hk, rfl⟩ := mem_getD hx
        exact getD_mono hd' (index_lt hd hi hax) hk
    · rw [max_eq_left (by omega)] at h ⊢
      refine .inl ⟨?_, ?_⟩
      · have := h3 (j - 1) (by omega) (by omega)
        simpa [dmGap] using this
      · intro x hx hbx
        obtain ⟨k, hk, rfl⟩ := mem_getD hx
        have := index_lt hd h hbx
        have := hmono j k (by omega) hk
        linarith
  · rename_i hj
    have h3 := range'_find_none hj
    intro h
    have hle : i + 1 ≤ d.length - 1 := by omega
    rw [max_eq_left hle] at h ⊢
    refine .inl ⟨?_, ?_⟩
    · have := h3 (d.length - 1) (by omega) (by omega)
      simpa [dmGap] using this
    · intro x hx hbx
      obtain ⟨k, hk, rfl⟩ := mem_getD hx
      have := index_lt hd h hbx
      omega

theorem selectLoop_subset {d d' : List K} (hd : d.Pairwise (· < ·)) (hd' : d'.Pairwise (· < ·)) (hs : ∀ x ∈ d', x ∈ d) {radius : K → K}
    (hlo : ∀ a ∈ d, ∀ b ∈ d, a ≤ b → a - radius a ≤ b - radius b) (n : ℕ) : ∀ i i', d.length - i = n → i < d.length → i' < d'.length → d.getD i 0 = d'.getD i' 0 →
    (∀ x ∈ selectLoop d radius i, x ∈ d') → selectLoop d' radius i' = selectLoop d radius i := by
  have hlo' : ∀ a ∈ d', ∀ b ∈ d', a ≤ b → a - radius a ≤ b - radius b := fun a ha b hb => hlo a (hs a ha) b (hs b hb)
  induction n using Nat.strong_induction_on with
  | _ n ih =>
    intro i i' hn hi hi' he hall
    have hlt := lt_largestInRange d radius i
    obtain ⟨hc, -⟩ := largest_cases d radius i hi
    obtain ⟨hc', -⟩ := largest_cases d' radius i' hi'
    by_cases h : largestInRange d radius i < d.length
    · have hsel : selectLoop d radius i = d.getD (largestInRange d radius i) 0 :: selectLoop d radius (largestInRange d radius i) := by
        rw [selectLoop, dif_pos h]
      rw [hsel] at hall ⊢
      have hb : d.getD (largestInRange d radius i) 0 ∈ d' := hall _ List.mem_cons_self
      have hN := (largest_next hd hlo hi h).subset hs hb
      rw [he] at hN
      obtain ⟨k, hk, hk'⟩ := mem_getD hb
      have hik := index_lt hd' hi' (by rw [hk']; exact hN.2.1)
      have h' := hc' (by omega)
      have e := (largest_next hd' hlo' hi' h').unique hlo' hN
      rw [selectLoop, dif_pos h', e]
      rw [ih _ (by omega) (largestInRange d radius i) (largestInRange d' radius i') rfl h h' e.symm fun x hx => hall x (List.mem_cons_of_mem _ hx)]
    · have hlast : i + 1 = d.length := by
        by_contra hne
        exact h (hc (by omega))
      have h' : ¬ largestInRange d' radius i' < d'.length := by
        intro h'
        have h1 := getD_strict hd' (lt_largestInRange d' radius i') h'
        rw [← he] at h1
        obtain ⟨k, hk, hk'⟩ := mem_getD (hs _ (getD_mem d' h'))
        rw [← hk'] at h1
        have := index_lt hd hi h1
        omega
      rw [selectLoop, dif_neg h', selectLoop, dif_neg h]

/-- C137, for the selection of DMs: trial DMs that are not selected can be left out, also those out of range. The limits may change if the trials in range remain in range. -/
theorem C137_select {t t' : List K} (ht : t.Nodup) (ht' : t'.Nodup) (hs : ∀ x ∈ t', x ∈ t) {dm0 dm1 dm0' dm1' fmin fmax nchans wmin : K} (h0 : 0 < fmin) (h1 : fmin < fmax) (hn : 1 ≤ nchans)
    (hr : ∀ x ∈ t', dm0' ≤ x ∧ x ≤ dm1' ↔ dm0 ≤ x ∧ x ≤ dm1) {sel : List K} (h : selectDms t dm0 dm1 fmin fmax nchans wmin = .ok sel) (hsel : ∀ x ∈ sel, x ∈ t') :
    selectDms t' dm0' dm1' fmin fmax nchans wmin = .ok sel := by
  have e : ∀ (t : List K) (a b : K), selectDms t a b fmin fmax nchans wmin = if (availDms t a b).length = 0 then .error .valueError else
      .ok ((availDms t a b).getD 0 0 :: selectLoop (availDms t a b) (dmRadius fmin fmax nchans wmin) 0) := fun t a b => rfl
  have hrange : ∀ x ∈ sel, dm0 ≤ x ∧ x ≤ dm1 := fun x hx => ((C33_coverage t dm0 dm1 fmin fmax nchans wmin sel h).1 x hx).2
  rw [e] at h ⊢
  split_ifs at h with hz
  have h := Except.ok.inj h
  have hd := availDms_nodup t dm0 dm1 ht
  have hd' := availDms_nodup t' dm0' dm1' ht'
  have hsub : ∀ x ∈ availDms t' dm0' dm1', x ∈ availDms t dm0 dm1 := by
    intro x hx
    rw [availDms_mem] at hx ⊢
    exact ⟨hs x hx.1, (hr x hx.1).1 hx.2⟩
  have hin : ∀ x ∈ sel, x ∈ availDms t' dm0' dm1' := by
    intro x hx
    rw [availDms_mem]
    exact ⟨hsel x hx, (hr x (hsel x hx)).2 (hrange x hx)⟩
  have hfirst := hin _ (h ▸ List.mem_cons_self)
  obtain ⟨k, hk, hk'⟩ := mem_getD hfirst
  have hz' : 0 < (availDms t' dm0' dm1').length := by omega
  have e0 : (availDms t dm0 dm1).getD 0 0 = (availDms t' dm0' dm1').getD 0 0 := by
    apply le_antisymm
    · obtain ⟨j, hj, hj'⟩ := mem_getD (hsub _ (getD_mem _ hz'))
      rw [← hj']
      exact getD_mono (hd.imp le_of_lt) (Nat.zero_le _) hj
    · rw [← hk']
      exact getD_mono (hd'.imp le_of_lt) (Nat.zero_le _) hk
  rw [if_neg (by omega), ← e0, selectLoop_subset hd hd' hsub (fun a _ b _ hab => (dmRadius_mono fmin fmax nchans wmin h0 h1 hn a b hab).2) _ 0 0 rfl (by omega) hz' e0
    (fun x hx => hin x (h ▸ List.mem_cons_of_mem _ hx)), h]

end

/-! ## Stages of a run -/

theorem buildGroups_congr {K τ γ : Type*} {load load' : K → Except PyErr τ} {make : τ → ℕ → HPeak K → Except PyErr γ} : ∀ {g : PyDict K (List (ℕ × HPeak K))},
    (∀ e ∈ g, load e.1 = load' e.1) → buildGroups load make g = buildGroups load' make g
  | [], _ => rfl
  | (dm, cl) :: l, h => by
    rw [buildGroups, buildGroups, h (dm, cl) List.mem_cons_self, buildGroups_congr fun e he => h e (List.mem_cons_of_mem _ he)]

theorem exceptBind_congr {α β : Type*} {x : Except PyErr α} {f g : α → Except PyErr β} (h : ∀ a, x = .ok a → f a = g a) : x.bind f = x.bind g := by
  rcases x with e | a
  · simp only [Except.bind]
  · exact h a rfl

theorem maxSnr_mem {K : Type*} [LinearOrder K] : ∀ (p : HPeak K) (l : List (HPeak K)), maxSnr p l ∈ p :: l
  | p, [] => by simp [maxSnr]
  | p, q :: l => by
    rw [maxSnr]
    split_ifs
    · exact List.mem_cons_of_mem _ (maxSnr_mem q l)
    · rcases List.mem_cons.1 (maxSnr_mem p l) with h | h
      · rw [h]; exact List.mem_cons_self
      · exact List.mem_cons_of_mem _ (List.mem_cons_of_mem _ h)

/-- The time series of the DMs of peaks only are loaded again. -/
theorem process_load {j : PipeJob ℝ String (World × ℕ) (CandObj ℝ)} {load : ℝ → Except PyErr (World × ℕ)} (s : PoolSchedule)
    (h : ∀ x ∈ j.fnames, ∀ ys, j.searchFile x = .ok ys → ∀ p ∈ ys, j.load p.dm = load p.dm) :
    PipeState.fresh.process { j with load := load } s = PipeState.fresh.process j s := by
  show ((PipeState.fresh.search j s).bind fun st => (st.cluster j).bind fun st => (st.flag j).bind fun st => (st.filter j).bind fun st => st.build { j with load := load }) =
    (PipeState.fresh.search j s).bind fun st => (st.cluster j).bind fun st => (st.flag j).bind fun st => (st.filter j).bind fun st => st.build j
  refine exceptBind_congr fun st1 h1 => exceptBind_congr fun st2 h2 => exceptBind_congr fun st3 h3 => exceptBind_congr fun st4 h4 => ?_
  obtain ⟨ps, h5, rfl⟩ := map_ok_inv h1
  obtain ⟨q, h6, rfl⟩ := map_ok_inv h3
  obtain ⟨l, -, rfl⟩ := map_ok_inv h4
  have hps : ∀ p ∈ ps, j.load p.dm = load p.dm := by
    classical
    rw [pipelineSearch_congr (g := fun x => if x ∈ j.fnames then j.searchFile x else .error .valueError) (fun x hx => (if_pos hx).symm)] at h5
    obtain ⟨l', h7, rfl⟩ := map_ok_inv h5
    intro p hp
    obtain ⟨x, ys, h8, h9⟩ := searchLoop_mem h7 p ((List.mergeSort_perm _ _).mem_iff.1 hp)
    split_ifs at h8 with hx
    exact h x hx ys h8 p h9
  have h2' : ∀ i, ∀ p ∈ (st2.heap i).peaks, p ∈ ps := by
    unfold PipeState.cluster at h2
    split_ifs at h2
    · cases h2
      intro i p hp
      simp [PipeState.fresh] at hp
    · obtain ⟨new, h8, rfl⟩ := map_ok_inv h2
      intro i p hp
      simp only [PipeState.addClusters, PipeState.fresh, Nat.not_lt_zero, if_false, Nat.sub_zero, heapOf] at hp
      unfold clusterPeaks at h8
      split_ifs at h8
      obtain ⟨r, -, h9⟩ := bind_ok_inv h8
      cases h9
      cases e : (cluster1d j.argsort (ps.map fun p => p.freq) r true)[i]? with
      | none => simp [e] at hp
      | some ids =>
        simp only [List.getElem?_map, e, Option.map_some, Option.getD_some, List.mem_filterMap] at hp
        obtain ⟨k, -, hk⟩ := hp
        exact List.mem_of_getElem? hk
  unfold PipeState.build
  congr 1
  unfold buildCandidates
  refine exceptBind_congr fun cs hcs => ?_
  have hc : ∀ c ∈ cs, j.load c.2.dm = load c.2.dm := by
    intro c hc
    obtain ⟨i, -, hi⟩ := forall₂_mem_right (mapM_ok_inv _ _ _ hcs) hc
    obtain ⟨p, hp, rfl⟩ := map_ok_inv hi
    refine hps p (h2' i p ?_)
    rw [← flag_peaks h6 i]
    unfold PCluster.centre at hp
    split at hp
    · cases hp
    · rename_i p0 l0 e
      rw [← Except.ok.inj hp, e]
      exact maxSnr_mem _ _
  simp only
  split_ifs
  · rfl
  · congr 1
    apply buildGroups_congr
    obtain ⟨g1, g2, g3⟩ := groups_spec (sortBySnr cs) [] (by simp) (by simp)
    intro e he
    obtain ⟨c, l0, e0⟩ := List.exists_cons_of_ne_nil (g3 e he)
    have hce : c ∈ e.2 := by rw [e0]; exact List.mem_cons_self
    rw [← g2 e he c hce]
    have : c ∈ sortBySnr cs := by
      have := g1.mem_iff.1 (List.mem_flatten.2 ⟨e.2, List.mem_map_of_mem he, hce⟩)
      simpa using this
    exact (hc c ((sortBySnr_perm cs).mem_iff.1 this)).symm

/-! ## Preparation of a run -/

theorem filename_of {ms : List FileMeta} {it : DmIter ℝ} (hn : (ms.map (·.dm)).Nodup)
    (hd : it.metadataDict = dictOf (fun m : DmMeta ℝ => m.dm) (fun m => m.fname) (ms.map (·.toDmMeta))) {m : FileMeta} (hm : m ∈ ms) : getFilename it m.dm = .ok m.fname := by
  have hn' : (((ms.map (·.toDmMeta)).reverse).map (·.dm)).Nodup := by
    rw [((ms.map (·.toDmMeta)).reverse_perm.map _).nodup_iff, List.map_map]
    exact hn
  unfold getFilename
  rw [hd, (dictOf_spec (fun m : DmMeta ℝ => m.dm) (fun m => m.fname) (ms.map (·.toDmMeta))).2.2]
  have hm' : m.toDmMeta ∈ (ms.map (·.toDmMeta)).reverse := List.mem_reverse.2 (List.mem_map_of_mem hm)
  generalize e : (ms.map (·.toDmMeta)).reverse.find? _ = G
  rcases G with _ | x
  · rw [List.find?_eq_none] at e
    exact absurd (by simp) (e _ hm')
  · have h1 : x.dm = m.dm := by simpa using List.find?_some e
    rw [List.inj_on_of_nodup_map hn' (List.mem_of_find?_eq_some e) hm' h1]
    rfl

/-- What is left out of `ms` in `ms'` are files that are not selected. -/
structure LeavesOut (c : PrepConf) (ms ms' : List FileMeta) (it : DmIter ℝ) : Prop where
  prepared : prepare c ms = .ok it
  sublist : ms'.Sublist ms
  nodup : (ms.map (·.dm)).Nodup
  kept : ∀ m ∈ ms, m.dm ∈ it.selectedDms → m ∈ ms'
  cap : ∀ x, c.dmsinbMax = some x → 0 < x
  say : c.fmt = .sigproc ∨ ∃ lo hi n, FilesSay ms lo hi n
  band : ∀ lo hi n, ObservedBand c ms lo hi n → 0 < lo ∧ lo < hi ∧ 1 ≤ n

theorem LeavesOut.iter {c : PrepConf} {ms ms' : List FileMeta} {it : DmIter ℝ} (h : LeavesOut c ms ms' it) :
    ∃ it', prepare c ms' = .ok it' ∧ it'.selectedDms = it.selectedDms ∧ iterBand c ms' = iterBand c ms ∧ ∀ m ∈ ms', getFilename it' m.dm = .ok m.fname ∧ getFilename it m.dm = .ok m.fname := by
  have hsub : ∀ m ∈ ms', m ∈ ms := fun m hm => h.sublist.subset hm
  obtain ⟨wmin, dm0, dm1, gl, gb, b, t, hw, hne, hg, hb, hs, hd, hsel, -, -, -⟩ := prepare_inv h.prepared h.cap
  obtain ⟨a1, -, -, -, a5, a6⟩ := (C94_accepts c ms h.cap).1 ⟨it, h.prepared⟩
  obtain ⟨hc1, ⟨lo, hlo, -⟩, -⟩ := C33_coverage _ _ _ _ _ _ _ _ hsel
  have key : ∀ x ∈ it.selectedDms, ∃ m ∈ ms', m.dm = x ∧ Selectable c ms m := by
    intro x hx
    obtain ⟨k1, k2, k3⟩ := hc1 x hx
    rw [hd, (dictOf_spec (fun m : DmMeta ℝ => m.dm) (fun m => m.fname) (ms.map (·.toDmMeta))).2.1, List.mem_map] at k1
    obtain ⟨m', hm', e⟩ := k1
    obtain ⟨m, hm, rfl⟩ := List.mem_map.mp hm'
    exact ⟨m, h.kept m hm (by rw [e]; exact hx), e, (hs m hm).mpr (by rw [e]; exact ⟨k2, k3⟩)⟩
  have hob : ∀ lo hi n, ObservedBand c ms lo hi n → ObservedBand c ms' lo hi n := by
    rintro lo hi n (⟨k1, k2⟩ | ⟨k1, k2⟩)
    · exact .inl ⟨k1, fun m hm => k2 m (hsub m hm)⟩
    · rcases h.say with hf | ⟨lo', hi', n', hf⟩
      · exact .inr ⟨.inl hf, k2⟩
      · rcases k1 with k1 | k1
        · exact .inr ⟨.inl k1, k2⟩
        · exact absurd hf (k1 _ _ _)
  have hsel' : ∀ m ∈ ms', Selectable c ms' m ↔ Selectable c ms m := fun m hm => ⟨fun k => ⟨hsub m hm, k.2⟩, fun k => ⟨hm, k.2⟩⟩
  obtain ⟨m0, hm0, -, hm0'⟩ := key lo (List.mem_of_head? hlo)
  have hne' : ms' ≠ [] := List.ne_nil_of_mem hm0
  obtain ⟨it', hit'⟩ := (C94_accepts c ms' h.cap).2 ⟨a1, ⟨gl, gb, fun m hm => hg m (hsub m hm)⟩, ⟨_, _, _, hob _ _ _ hb⟩, ⟨m0, (hsel' m0 hm0).2 hm0'⟩,
    fun r hr m hm => a5 r hr m (hsub m hm), a6⟩
  obtain ⟨wmin', dm0', dm1', gl', gb', b', t', hw', -, -, hb', hs', hd', hsl', -, -, -⟩ := prepare_inv hit' h.cap
  have e1 : iterBand c ms = .ok b := (bandOf_iff hne).2 hb
  have e2 : iterBand c ms' = .ok b := (bandOf_iff hne').2 (hob _ _ _ hb)
  have e3 : iterBand c ms' = .ok b' := (bandOf_iff hne').2 hb'
  obtain rfl : b = b' := Except.ok.inj (e2.symm.trans e3)
  obtain rfl : wmin = wmin' := Except.ok.inj (hw.symm.trans hw')
  have hn' : (ms'.map (·.dm)).Nodup := h.nodup.sublist (h.sublist.map _)
  obtain ⟨g0, g1, g2⟩ := h.band _ _ _ hb
  have hk := dictOf_spec (fun m : DmMeta ℝ => m.dm) (fun m => m.fname) (ms.map (·.toDmMeta))
  have hk' := dictOf_spec (fun m : DmMeta ℝ => m.dm) (fun m => m.fname) (ms'.map (·.toDmMeta))
  have mem' : ∀ x ∈ it'.metadataDict.map Prod.fst, ∃ m ∈ ms', m.dm = x := by
    intro x hx
    rw [hd', hk'.2.1, List.map_map, List.mem_map] at hx
    exact hx
  have hfin := C137_select (t := it.metadataDict.map Prod.fst) (t' := it'.metadataDict.map Prod.fst) (by rw [hd]; exact hk.1) (by rw [hd']; exact hk'.1)
    (fun x hx => by
      obtain ⟨m, hm, rfl⟩ := mem' x hx
      rw [hd, hk.2.1, List.map_map]
      exact List.mem_map.2 ⟨m, hsub m hm, rfl⟩) g0 g1 (by exact_mod_cast g2) (dm0' := dm0') (dm1' := dm1')
    (fun x hx => by
      obtain ⟨m, hm, rfl⟩ := mem' x hx
      rw [← hs' m hm, ← hs m (hsub m hm), hsel' m hm]) hsel
    (fun x hx => by
      obtain ⟨m, hm, e, -⟩ := key x hx
      rw [hd', hk'.2.1, List.map_map, List.mem_map]
      exact ⟨m, hm, e⟩)
  exact ⟨it', hit', Except.ok.inj (hsl'.symm.trans hfin), e2.trans e1.symm, fun m hm => ⟨filename_of hn' hd' hm, filename_of h.nodup hd (hsub m hm)⟩⟩

/-- C137. Files whose DMs are not selected can be left out: the run has the same peaks, clusters and candidates, or raises the same exception. The loaded time series have the DMs of
the metadata, and the median of the lengths of the observations is the same. -/
theorem C137_run (t : PipeTools) (conf : PyVal) (s : PoolSchedule) {ms ms' : List FileMeta}
    (h : ∀ v c, validatePipelineConfig conf = .ok v → runConfOf v = .ok c → ∃ it, LeavesOut c.1.prepConf ms ms' it)
    (hl : ∀ m ∈ ms', ∀ w id o dm, t.loader m.fname = .ok (w, id) → w.obj id = .ok o → dmOf (w.metaOf o) = .ok dm → dm = m.dm)
    (ht : tobsMedian ms' = tobsMedian ms) : pipelineRun t conf ms' s = pipelineRun t conf ms s := by
  unfold pipelineRun
  refine exceptBind_congr fun v hv => exceptBind_congr fun c hc => ?_
  obtain ⟨it, hL⟩ := h v c hv hc
  obtain ⟨it', h1, h2, h3, h4⟩ := hL.iter
  rw [hL.prepared, h1, h3]
  have hfn : ∀ x ∈ it.selectedDms, ∃ m ∈ ms', m.dm = x := by
    intro x hx
    obtain ⟨_, _, _, _, _, _, _, _, _, _, _, _, hd, hsel, -, -, -⟩ := prepare_inv hL.prepared hL.cap
    obtain ⟨k1, -, -⟩ := (C33_coverage _ _ _ _ _ _ _ _ hsel).1 x hx
    rw [hd, (dictOf_spec (fun m : DmMeta ℝ => m.dm) (fun m => m.fname) (ms.map (·.toDmMeta))).2.1, List.map_map, List.mem_map] at k1
    obtain ⟨m, hm, e⟩ := k1
    exact ⟨m, hL.kept m hm (by rw [show m.dm = x from e]; exact hx), e⟩
  have hm : it.selectedDms.mapM (getFilename it') = it.selectedDms.mapM (getFilename it) := by
    refine mapM_congr' fun x hx => ?_
    obtain ⟨m, hm, rfl⟩ := hfn x hx
    rw [(h4 m hm).1, (h4 m hm).2]
  simp only [Except.bind]
  rw [h2, hm]
  rcases iterBand c.1.prepConf ms with e | b
  · rfl
  simp only
  rcases hF : it.selectedDms.mapM (getFilename it) with e | fnames
  · rfl
  simp only
  rw [ht]
  have hj : pipelineJob (t.env c.2 (tobsMedian ms) b.1 b.2.1) c.1 ms' it' fnames =
      { pipelineJob (t.env c.2 (tobsMedian ms) b.1 b.2.1) c.1 ms it fnames with load := loadForDm (t.env c.2 (tobsMedian ms) b.1 b.2.1) c.1 it' } := by
    unfold pipelineJob
    rw [ht]
  rw [hj]
  refine process_load s fun x hx ys hys p hp => ?_
  obtain ⟨dm, hdm, e⟩ := forall₂_mem_right (mapM_ok_inv _ _ _ hF) hx
  obtain ⟨m, hm, rfl⟩ := hfn dm hdm
  rw [(h4 m hm).2] at e
  obtain rfl := Except.ok.inj e
  have hpd : p.dm = m.dm := by
    obtain ⟨⟨w, id⟩, k1, k2⟩ := bind_ok_inv hys
    obtain ⟨l, k3, rfl⟩ := map_ok_inv k2
    obtain ⟨o, k4, k5⟩ := bind_ok_inv k3
    obtain ⟨dm, k6, k7⟩ := bind_ok_inv k5
    obtain ⟨_, -, k8⟩ := bind_ok_inv k7
    obtain ⟨_, -, k9⟩ := bind_ok_inv k8
    obtain ⟨q, -, rfl⟩ := map_ok_inv k9
    rw [List.map_map, List.mem_map] at hp
    obtain ⟨p', -, rfl⟩ := hp
    exact hl m hm w id o dm k1 k4 k6
  rw [hpd]
  show loadForDm _ _ _ _ = loadForDm _ _ _ _
  unfold loadForDm
  rw [(h4 m hm).1, (h4 m hm).2]

/-! ## Files on the disk -/

theorem npMedian_const {l : List ℝ} (hne : l ≠ []) {T : ℝ} (h : ∀ x ∈ l, x = T) : npMedian l = T := by
  obtain ⟨s, hs⟩ : ∃ s, s = l.mergeSort (fun a b => decide (a ≤ b)) := ⟨_, rfl⟩
  have hlen : s.length = l.length := by rw [hs]; exact List.length_mergeSort _
  have h0 : 0 < s.length := by rw [hlen]; exact List.length_pos_of_ne_nil hne
  have hget : ∀ i < s.length, s.getD i 0 = T := by
    intro i hi
    rw [getD_of_lt s hi]
    refine h _ ?_
    have hm : ∀ x ∈ s, x ∈ l := by
      intro x hx
      rw [hs, List.mem_mergeSort] at hx
      exact hx
    exact hm _ (List.getElem_mem hi)
  unfold npMedian
  simp only [← hs]
  split_ifs
  · exact hget _ (by omega)
  · rw [hget (s.length / 2) (by omega), hget (s.length / 2 - 1) (by omega)]
    ring

/-- The median of the lengths, where all files have the same length. -/
theorem tobsMedian_const {ms : List FileMeta} (hne : ms ≠ []) {T : ℝ} (h : ∀ m ∈ ms, m.tobs = T) : tobsMedian ms = T := by
  refine npMedian_const (by simpa using hne) fun x hx => ?_
  obtain ⟨m, hm, rfl⟩ := List.mem_map.mp hx
  exact h m hm

/-- C137, for files on the disk. `fnames'` are the files that are kept: their data can be read, while of the others only the headers have to exist. All observations are of the same length. -/
theorem C137_files {D : Disk} (hD : Resolves D) (t : PipeTools) (conf : PyVal) (s : PoolSchedule) {fnames fnames' : List (List Char)}
    (h : ∀ v c, validatePipelineConfig conf = .ok v → runConfOf v = .ok c → ∃ ms ms' it T, loadMetas D c.1.prep.fmt fnames = .ok ms ∧ loadMetas D c.1.prep.fmt fnames' = .ok ms' ∧
      LeavesOut c.1.prepConf ms ms' it ∧ (∀ m ∈ ms, m.tobs = T) ∧ (∀ m ∈ ms', 0 < m.tsamp) ∧ ∀ f ∈ fnames', ∃ x, HasSamples D c.1.prep.fmt f x ∧ x ≠ []) :
    pipelineFiles D t conf fnames' s = pipelineFiles D t conf fnames s := by
  unfold pipelineFiles
  rcases hv : validatePipelineConfig conf with e | v
  · rfl
  simp only [Except.bind]
  rcases hc : runConfOf v with e | c
  · rfl
  simp only
  obtain ⟨ms, ms', it, T, h1, h2, h3, h4, h5, h6⟩ := h v c hv hc
  rw [h1, h2]
  simp only
  obtain ⟨it', hp, -, -, -⟩ := h3.iter
  obtain ⟨_, _, _, _, _, _, _, _, hne', -⟩ := prepare_inv hp h3.cap
  obtain ⟨_, _, _, _, _, _, _, _, hne, -⟩ := prepare_inv h3.prepared h3.cap
  refine C137_run _ conf s (fun v' c' hv' hc' => ?_) ?_ ?_
  · rw [hv] at hv'
    cases hv'
    rw [hc] at hc'
    cases hc'
    exact ⟨it, h3⟩
  · intro m hm w id o dm k1 k2 k3
    obtain ⟨f, hf, hfm⟩ := forall₂_mem_right (mapM_ok_inv _ _ _ h2) hm
    obtain ⟨md, hmd, hmm⟩ := bind_ok_inv hfm
    obtain ⟨x, hx, hxne⟩ := h6 f hf
    obtain ⟨w', o', l1, l2, -, -, -, l3, -⟩ := C103_file hD hmd hmm (h5 m hm) hx hxne
    have k1 := l1.symm.trans k1
    cases k1
    unfold World.obj at k2
    rw [l2] at k2
    cases k2
    unfold dmOf at k3
    rw [l3] at k3
    exact (Except.ok.inj k3).symm
  · rw [tobsMedian_const hne h4, tobsMedian_const hne' fun m hm => h4 m (h3.sublist.subset hm)]

/-! ## A file that is out of range -/

/-- A header with a DM of 100. -/
def farBand : Fin 8 → InfLine :=
  ![exLine "Radio", exLine "1", exLine "100", exLine "1182", exLine "400", exLine "400", exLine "1", exLine "me"]

def farText : List Char := linesText (List.ofFn pulsarCommon ++ ([] : List (InfLine × ℤ × ℤ)).map Prod.fst ++ List.ofFn farBand) ++
  " Any additional notes:\n".toList

/-- The disk of C103 with this header, of which the data are missing. -/
noncomputable def farDisk : Disk where
  text := fun f => if f = "c.inf".toList then some farText else pulsarDisk.text f
  bytes := pulsarDisk.bytes
  realpath := id
  parseSky := fun _ _ => .ok (.fin (1 / 240), .fin (-1))
  galactic := fun _ => (120, 30)

noncomputable def farFile : FileMeta := ⟨⟨100, "c.inf", 1182, 400, 1⟩, 1, 1000, 120, 30⟩

theorem farFile_meta : (loadMeta farDisk .presto "c.inf".toList).bind (fileMetaOf farDisk .presto) = .ok farFile := by
  have h := C103_radio farDisk "c.inf".toList pulsarCommon_values [] (by simp) (.inl rfl) farBand
    (by intro i; fin_cases i <;> exact exLine_ok (by decide +kernel)) rfl exFloat1 (dm := 100) (fbot := 1182) (bw := 400) (nchan := 400)
    ⟨false, "100".toList, [], [], 100, 0, 0, ⟨[1, 0, 0], by decide, by decide, by decide, by decide +kernel⟩,
      .inl ⟨rfl, rfl⟩, .inl ⟨rfl, rfl⟩, by decide +kernel, by norm_num⟩
    ⟨false, "1182".toList, [], [], 1182, 0, 0, ⟨[1, 1, 8, 2], by decide, by decide, by decide, by decide +kernel⟩,
      .inl ⟨rfl, rfl⟩, .inl ⟨rfl, rfl⟩, by decide +kernel, by norm_num⟩
    ⟨false, "400".toList, [], [], 400, 0, 0, ⟨[4, 0, 0], by decide, by decide, by decide, by decide +kernel⟩,
      .inl ⟨rfl, rfl⟩, .inl ⟨rfl, rfl⟩, by decide +kernel, by norm_num⟩
    ⟨400, .inl ⟨⟨[4, 0, 0], by decide, by decide, by decide, by decide +kernel⟩, rfl⟩⟩ exFloat1 " Any additional notes:\n".toList
    (by simp only [farDisk, if_true]; rfl) (sky := (.fin (1 / 240), .fin (-1))) rfl (by norm_num) (by norm_num) (by norm_num)
  obtain ⟨md, h1, h2⟩ := h
  rw [h1]
  simp only [Except.bind]
  rw [h2]
  simp [farFile, farDisk]

theorem far_text : farDisk.text "a.inf".toList = some pulsarText := by
  simp only [farDisk, pulsarDisk, if_neg (show "a.inf".toList ≠ "c.inf".toList by decide), if_true]

theorem far_say : FilesSay [pulsarFile, farFile] 1182 1582 400 := by
  intro m hm
  rcases List.mem_pair.mp hm with rfl | rfl <;> norm_num [pulsarFile, farFile]

theorem far_prepared : ∃ it, prepare pulsarConf.prepConf [pulsarFile, farFile] = .ok it := by
  refine (C94_accepts pulsarConf.prepConf _ pulsar_cap).mpr ?_
  refine ⟨by simp [RunConf.prepConf, pulsarConf], ⟨120, 30, by simp [pulsarFile, farFile]⟩, ⟨1182, 1582, 400, Or.inl ⟨rfl, far_say⟩⟩,
    ⟨pulsarFile, by simp, ?_, ?_, ?_⟩, ?_, by simp [RunConf.prepConf, pulsarConf]⟩
  · rintro x ⟨⟩
  · rintro x ⟨⟩
  · rintro x ⟨⟩
    have := Real.abs_sin_le_one (pulsarFile.gb * Real.pi / 180)
    have h10 : pulsarFile.dm = 10 := rfl
    rw [h10]
    linarith
  · intro r hr m hm
    simp only [RunConf.prepConf, pulsarConf, List.mapIdx_cons, List.mapIdx_nil, List.mem_singleton] at hr
    rw [hr]
    rcases List.mem_pair.mp hm with rfl | rfl <;> norm_num [PipeRange.entry, pulsarRange, pulsarFile, farFile]

/-- The DM of 100 is above the limit of 45 / sin 30° = 90. -/
theorem far_unselected {it : DmIter ℝ} (h : prepare pulsarConf.prepConf [pulsarFile, farFile] = .ok it) : (100 : ℝ) ∉ it.selectedDms := by
  intro hx
  obtain ⟨_, _, _, _, _, _, _, _, _, _, _, hs, _, hsel, -, -, -⟩ := prepare_inv h pulsar_cap
  obtain ⟨-, k2, k3⟩ := (C33_coverage _ _ _ _ _ _ _ _ hsel).1 _ hx
  have := ((hs farFile (by simp)).mpr ⟨k2, k3⟩).2.2.2 45 rfl
  have h30 : (farFile.gb * Real.pi / 180 : ℝ) = Real.pi / 6 := by
    show (30 * Real.pi / 180 : ℝ) = Real.pi / 6
    ring
  rw [h30, Real.sin_pi_div_six, show farFile.dm = 100 from rfl] at this
  norm_num at this

theorem far_leaves {it : DmIter ℝ} (h : prepare pulsarConf.prepConf [pulsarFile, farFile] = .ok it) : LeavesOut pulsarConf.prepConf [pulsarFile, farFile] [pulsarFile] it where
  prepared := h
  sublist := by simp
  nodup := by simp [pulsarFile, farFile]
  kept := by
    intro m hm hd
    rcases List.mem_pair.mp hm with rfl | rfl
    · simp
    · exact absurd hd (far_unselected h)
  cap := pulsar_cap
  say := .inr ⟨_, _, _, far_say⟩
  band := by
    rintro lo hi n (⟨-, hb⟩ | ⟨hb | hb, -⟩)
    · obtain ⟨rfl, rfl, rfl⟩ := hb pulsarFile (by simp)
      norm_num [pulsarFile]
    · cases hb
    · exact absurd far_say (hb _ _ _)

/-- The hypotheses of `C137_run` and `C137_files` are met: the run with the second header, which has no data, is the run of C103. -/
theorem C137_example (s : PoolSchedule) :
    pipelineFiles farDisk pulsarTools pulsarDict ["a.inf".toList] s = pipelineFiles farDisk pulsarTools pulsarDict ["a.inf".toList, "c.inf".toList] s := by
  have hr : Resolves farDisk := ⟨fun _ => rfl, fun _ => rfl, fun _ => rfl⟩
  refine C137_files hr pulsarTools pulsarDict s fun v c hv hc => ?_
  obtain ⟨v', hv', -, -, hc'⟩ := pulsar_pipeline_ok.conf
  rw [hv] at hv'
  rw [Except.ok.inj hv', hc'] at hc
  rw [← Except.ok.inj hc]
  obtain ⟨it, hit⟩ := far_prepared
  have ha := firstFile_meta (D := farDisk) rfl (fun _ _ => rfl) (fun _ => rfl) far_text
  refine ⟨[pulsarFile, farFile], [pulsarFile], it, 1000, mapM_forall₂ (.cons ha (.cons farFile_meta .nil)), mapM_forall₂ (.cons ha .nil), far_leaves hit, ?_, ?_, ?_⟩
  · intro m hm
    rcases List.mem_pair.mp hm with rfl | rfl <;> rfl
  · intro m hm
    rw [List.mem_singleton.mp hm]
    exact one_pos
  · intro f hf
    rw [List.mem_singleton.mp hf]
    refine ⟨pulsarSamples, pulsarFile_samples, fun h => ?_⟩
    have := pulsarSamples_length
    rw [h] at this
    cases this

/-- The hypotheses of `C137_select` are met: the trial DM 1/1000 is not selected and can be left out, here together with another range. -/
example : selectDms [(30 : ℚ), 0, 1 / 500] (-1) 40 1182 1582 400 (1 / 1000) = .ok [0, 1 / 500, 30] := by
  refine C137_select (t := [30, 0, 1 / 1000, 1 / 500]) (by decide +kernel) (by decide +kernel) (by simp) (dm0 := 0) (dm1 := 30) (by norm_num) (by norm_num) (by norm_num) ?_ demo_select (by simp)
  intro x hx
  simp only [List.mem_cons, List.not_mem_nil, or_false] at hx
  rcases hx with rfl | rfl | rfl <;> norm_num

end Verif.Props
