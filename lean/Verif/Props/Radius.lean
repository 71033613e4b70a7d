import Verif.Props.Pool

/-!
# C144: a larger clustering radius merges clusters, and gives no new peaks
-/

namespace Verif.Props

open Verif.Model Verif.Spec Verif.Lemmas

set_option linter.unusedSectionVars false

/-! ## Runs -/

/-- Cutting at more places cuts the runs into runs. -/
theorem runs_refine {β : Type*} {br br' : β → β → Bool} (h : ∀ a b, br' a b = true → br a b = true) : ∀ l : List β, runs br l = (runs br' l).flatMap (runs br)
  | [] => rfl
  | [a] => rfl
  | a :: b :: l => by
    have ih := runs_refine h (b :: l)
    obtain ⟨c, cs, hc⟩ := runs_head br' b l
    by_cases h1 : br' a b = true
    · have h2 := h a b h1
      simp only [runs, h1, h2, if_true]
      rw [List.flatMap_cons, ← ih]
      rfl
    · rw [hc, List.flatMap_cons] at ih
      have e1 : runs br' (a :: b :: l) = (a :: b :: c) :: cs := by
        rw [runs, if_neg h1, hc]
      rw [e1, List.flatMap_cons]
      by_cases h2 : br a b = true
      · rw [runs, if_pos h2, ih, runs, if_pos h2]
        rfl
      · obtain ⟨e, es, he⟩ := runs_head br b c
        rw [runs, if_neg h2, ih, runs, if_neg h2, he]
        rfl

/-! ## The first maximum -/

section

variable {K : Type*} [LinearOrder K] {β : Type*}

/-- The first element with the largest key. -/
def firstMax (s : β → K) : List β → Option β
  | [] => none
  | a :: l => some (l.foldl (fun m b => if s m < s b then b else m) a)

theorem foldMax_cons (s : β → K) : ∀ (l : List β) (m b : β),
    (b :: l).foldl (fun m b => if s m < s b then b else m) m = if s m < s (l.foldl (fun m b => if s m < s b then b else m) b) then l.foldl (fun m b => if s m < s b then b else m) b else m
  | [], m, b => rfl
  | c :: l, m, b => by
    have h1 := foldMax_cons s l (if s m < s b then b else m) c
    have h2 := foldMax_cons s l b c
    rw [List.foldl_cons, h1, h2]
    generalize l.foldl (fun m b => if s m < s b then b else m) c = x
    rcases lt_or_ge (s m) (s b) with k1 | k1
    · rw [if_pos k1]
      rcases lt_or_ge (s b) (s x) with k2 | k2
      · rw [if_pos k2, if_pos (k1.trans k2)]
      · rw [if_neg k2.not_gt, if_pos k1]
    · rw [if_neg k1.not_gt]
      rcases lt_or_ge (s b) (s x) with k2 | k2
      · rw [if_pos k2]
      · rw [if_neg k2.not_gt, if_neg k1.not_gt, if_neg (k2.trans k1).not_gt]

theorem firstMax_append (s : β → K) (A B : List β) : firstMax s (A ++ B) = firstMax s A ∨ firstMax s (A ++ B) = firstMax s B ∧ B ≠ [] := by
  rcases A with _ | ⟨a, A⟩
  · rcases B with _ | ⟨b, B⟩
    · exact .inl rfl
    · exact .inr ⟨rfl, by simp⟩
  · rcases B with _ | ⟨b, B⟩
    · exact .inl (by rw [List.append_nil])
    · have : firstMax s (a :: A ++ b :: B) = some ((b :: B).foldl (fun m b => if s m < s b then b else m) (A.foldl (fun m b => if s m < s b then b else m) a)) := by
        show some (List.foldl _ a (A ++ b :: B)) = _
        rw [List.foldl_append]
      rw [this, foldMax_cons]
      split_ifs
      · exact .inr ⟨rfl, by simp⟩
      · exact .inl rfl

/-- The first maximum of several lists is the first maximum of one of them. -/
theorem firstMax_flatten (s : β → K) : ∀ Ls : List (List β), Ls ≠ [] → ∃ c ∈ Ls, firstMax s Ls.flatten = firstMax s c
  | [], h => absurd rfl h
  | c :: Ls, _ => by
    rw [List.flatten_cons]
    rcases firstMax_append s c Ls.flatten with h | ⟨h, hne⟩
    · exact ⟨c, List.mem_cons_self, h⟩
    · obtain ⟨d, hd, he⟩ := firstMax_flatten s Ls (by rintro rfl; exact hne rfl)
      exact ⟨d, List.mem_cons_of_mem _ hd, h.trans he⟩

theorem argmaxAux_first (s : ℕ → K) : ∀ (l pre : List ℕ) (m best : ℕ), pre[best]? = some m → (pre ++ l).getD (argmaxAux (l.map s) pre.length (s m) best) 0 = l.foldl (fun m b => if s m < s b then b else m) m
  | [], pre, m, best, h => by
    simp [argmaxAux, h]
  | a :: l, pre, m, best, h => by
    have e : pre ++ a :: l = (pre ++ [a]) ++ l := by simp
    have hlen : pre.length + 1 = (pre ++ [a]).length := by simp
    rw [List.map_cons, argmaxAux, List.foldl_cons, e, hlen]
    split_ifs
    · exact argmaxAux_first s l (pre ++ [a]) a pre.length (by simp)
    · refine argmaxAux_first s l (pre ++ [a]) m best ?_
      rw [List.getElem?_append_left (by rw [List.getElem?_eq_some_iff] at h; exact h.1)]
      exact h

theorem argmax_first (s : ℕ → K) (l : List ℕ) : l.getD (argmax (l.map s)) 0 = (firstMax s l).getD 0 := by
  rcases l with _ | ⟨a, l⟩
  · rfl
  · exact argmaxAux_first s l [a] a 0 rfl

/-- What is chosen from the parts contains what is chosen from the whole. -/
theorem sublist_pick {γ : Type*} {R : List β → List (List β)} {g : List β → γ} : ∀ {Ls : List (List β)}, (∀ c ∈ Ls, ∃ d ∈ R c, g c = g d) → (Ls.map g).Sublist ((Ls.flatMap R).map g)
  | [], _ => List.Sublist.refl _
  | c :: Ls, h => by
    obtain ⟨d, hd, he⟩ := h c List.mem_cons_self
    rw [List.map_cons, List.flatMap_cons, List.map_append]
    have h1 : [g c].Sublist ((R c).map g) := List.singleton_sublist.mpr (List.mem_map.mpr ⟨d, hd, he.symm⟩)
    exact h1.append (sublist_pick fun c hc => h c (List.mem_cons_of_mem _ hc))

end

/-! ## Clusters -/

section

variable {K : Type*} [Field K] [LinearOrder K] [IsStrictOrderedRing K]

/-- With a larger radius the clusters are unions of clusters. -/
theorem cluster1d_refine (argsort : List K → List ℕ) (ha : IsArgsort argsort) (x : List K) {r r' : K} (hr : r ≤ r') (b : Bool) :
    ∃ R : List ℕ → List (List ℕ), cluster1d argsort x r b = (cluster1d argsort x r' b).flatMap R ∧ ∀ c ∈ cluster1d argsort x r' b, (R c).flatten = c ∧ R c ≠ [] := by
  rw [cluster1d_eq_runs argsort ha, cluster1d_eq_runs argsort ha]
  refine ⟨runs _, runs_refine (fun i j h => ?_) _, fun c hc => ⟨runs_flatten _ c, fun h => ?_⟩⟩
  · rw [decide_eq_true_eq] at h ⊢
    exact lt_of_le_of_lt hr h
  · have := runs_flatten (fun i j => decide (|x.getD j 0 - x.getD i 0| > r)) c
    rw [h] at this
    exact runs_ne_nil _ _ c hc this.symm

/-- **C144.** A larger radius merges clusters: every cluster is a part (of consecutive elements) of one of the clusters with the larger radius, and there are at least as many. -/
theorem C144_cluster1d (argsort : List K → List ℕ) (ha : IsArgsort argsort) (x : List K) {r r' : K} (hr : r ≤ r') (b : Bool) :
    (∀ c ∈ cluster1d argsort x r b, ∃ c' ∈ cluster1d argsort x r' b, c.IsInfix c') ∧ (cluster1d argsort x r' b).length ≤ (cluster1d argsort x r b).length := by
  obtain ⟨R, h1, h2⟩ := cluster1d_refine argsort ha x hr b
  rw [h1]
  refine ⟨fun c hc => ?_, ?_⟩
  · obtain ⟨c', hc', hm⟩ := List.mem_flatMap.mp hc
    refine ⟨c', hc', ?_⟩
    rw [← (h2 c' hc').1]
    obtain ⟨A, B, hAB⟩ := List.append_of_mem hm
    exact ⟨A.flatten, B.flatten, by rw [hAB]; simp⟩
  · have := (sublist_pick (R := R) (g := fun _ => ()) (Ls := cluster1d argsort x r' b) fun c hc => by
      obtain ⟨d, hd⟩ := List.exists_mem_of_ne_nil _ (h2 c hc).2
      exact ⟨d, hd, rfl⟩).length_le
    simpa using this

theorem pick_refine {γ : Type*} {κ : Type*} [LinearOrder κ] (argsort : List K → List ℕ) (ha : IsArgsort argsort) (x : List K) {r r' : K} (hr : r ≤ r') (b : Bool) (s : γ → κ) (h : ℕ → Option γ) :
    ((cluster1d argsort x r' b).map fun c => firstMax s (c.filterMap h)).Sublist ((cluster1d argsort x r b).map fun c => firstMax s (c.filterMap h)) := by
  obtain ⟨R, h1, h2⟩ := cluster1d_refine argsort ha x hr b
  rw [h1]
  refine sublist_pick fun c hc => ?_
  obtain ⟨e1, e2⟩ := h2 c hc
  obtain ⟨d, hd, he⟩ := firstMax_flatten s ((R c).map (List.filterMap h)) (by simpa using e2)
  obtain ⟨d', hd', rfl⟩ := List.mem_map.mp hd
  refine ⟨d', hd', ?_⟩
  rw [← he, ← List.filterMap_flatten, e1]

/-! ## Peaks -/

theorem selectPeaks_radius (argsort : List K → List ℕ) (ha : IsArgsort argsort) (thr : K → K) (smin : K) {r r' : K} (hr : r ≤ r') (f s : List K) :
    (selectPeaks argsort thr smin r' f s).Sublist (selectPeaks argsort thr smin r f s) := by
  have key : ∀ radius, selectPeaks argsort thr smin radius f s = ((cluster1d argsort (((List.range f.length).filter (fun i => s.getD i 0 > thr (f.getD i 0) ∧ s.getD i 0 > smin)).map
      fun i => f.getD i 0) radius false).map fun c => firstMax (fun i => s.getD i 0) (c.filterMap fun k =>
        some (((List.range f.length).filter (fun i => s.getD i 0 > thr (f.getD i 0) ∧ s.getD i 0 > smin)).getD k 0))).map fun o => o.getD 0 := by
    intro radius
    unfold selectPeaks
    rw [List.map_map]
    refine List.map_congr_left fun c _ => ?_
    refine (argmax_first (fun i => s.getD i 0) _).trans ?_
    rw [Function.comp_apply, List.filterMap_eq_map']
  rw [key, key]
  exact (pick_refine argsort ha _ hr false _ _).map _

/-- **C144.** With a larger `clrad`, `find_peaks` succeeds as before and the peaks are some of those with the smaller one. -/
theorem C144_peaks [FloorSemiring K] (argsort : List K → List ℕ) (ha : IsArgsort argsort) (fit : List K → List K → K → K) (p : PeakParams K) {clrad' : K} (hc : p.clrad ≤ clrad') (g : Pgram K)
    (hT : 0 < g.tobs) {peaks : List (Peak K)} (h : findPeaks argsort fit p g = .ok peaks) :
    ∃ peaks', findPeaks argsort fit { p with clrad := clrad' } g = .ok peaks' ∧ peaks'.Subperm peaks := by
  have hr : p.clrad / g.tobs ≤ clrad' / g.tobs := div_le_div_of_nonneg_right hc hT.le
  unfold findPeaks at h ⊢
  obtain ⟨ls, h1, rfl⟩ := map_ok_inv h
  have key : ∀ (ws : List (ℕ × ℕ)) (ls : List (List (Peak K))), ws.mapM (fun wi : ℕ × ℕ => peaksOfWidth argsort fit p g wi.2 wi.1) = .ok ls →
      ∃ ls', ws.mapM (fun wi : ℕ × ℕ => peaksOfWidth argsort fit { p with clrad := clrad' } g wi.2 wi.1) = .ok ls' ∧ ls'.flatten.Sublist ls.flatten := by
    intro ws
    induction ws with
    | nil =>
      intro ls h
      cases h
      exact ⟨[], rfl, List.Sublist.refl _⟩
    | cons w ws ih =>
      intro ls h
      rw [List.mapM_cons] at h
      obtain ⟨a, ha1, h⟩ := bind_ok_inv h
      obtain ⟨as, ha2, h⟩ := bind_ok_inv h
      cases h
      obtain ⟨ls', e1, e2⟩ := ih as ha2
      unfold peaksOfWidth findPeaksSingle at ha1
      obtain ⟨ips, hi, rfl⟩ := map_ok_inv ha1
      obtain ⟨thr, ht, rfl⟩ := map_ok_inv hi
      have ht' : dynThreshold fit { p with clrad := clrad' } g.freqs (g.column w.2) g.tobs = .ok thr := ht
      have hw : peaksOfWidth argsort fit { p with clrad := clrad' } g w.2 w.1 = .ok ((selectPeaks argsort thr p.smin (clrad' / g.tobs) g.freqs (g.column w.2)).map fun ip =>
          { freq := g.freqs.getD ip 0, period := 1 / g.freqs.getD ip 0, width := w.1, ducy := (w.1 : K) / (g.foldbins.getD ip 0 : ℕ), iw := w.2, ip, snr := (g.column w.2).getD ip 0 }) := by
        unfold peaksOfWidth findPeaksSingle
        simp only
        rw [ht']
        rfl
      refine ⟨_, by rw [List.mapM_cons, hw, e1]; rfl, ?_⟩
      rw [List.flatten_cons, List.flatten_cons]
      exact ((selectPeaks_radius argsort ha thr p.smin hr g.freqs (g.column w.2)).map _).append e2
  obtain ⟨ls', e1, e2⟩ := key _ ls h1
  have e1' : (g.widths.zipIdx.mapM fun (width, iw) => peaksOfWidth argsort fit { p with clrad := clrad' } g iw width) = .ok ls' := e1
  rw [e1']
  refine ⟨_, rfl, ?_⟩
  unfold sortPeaks
  exact (List.mergeSort_perm _ _).subperm.trans (e2.subperm.trans (List.mergeSort_perm _ _).symm.subperm)

/-- **C144.** The table that `rseek` prints with a larger radius is a part of the table with the smaller one. -/
theorem C144_rseek (argsort : List K → List ℕ) (ha : IsArgsort argsort) (peaks : List (Peak K)) {r r' : K} (hr : r ≤ r') : (rseekTable argsort peaks r').Subperm (rseekTable argsort peaks r) := by
  have key : ∀ radius, ((cluster1d argsort (peaks.map fun p => p.freq) radius false).filterMap fun indices => maxPeak (indices.filterMap fun ii => peaks[ii]?)) =
      ((cluster1d argsort (peaks.map fun p => p.freq) radius false).map fun c => firstMax (fun p : Peak K => p.snr) (c.filterMap fun ii => peaks[ii]?)).filterMap id := by
    intro radius
    rw [List.filterMap_map]
    refine List.filterMap_congr fun c _ => ?_
    show maxPeak _ = firstMax _ _
    rcases c.filterMap fun ii => peaks[ii]? with _ | ⟨a, l⟩ <;> rfl
  unfold rseekTable
  simp only
  rw [key, key]
  unfold sortPeaks
  exact (List.mergeSort_perm _ _).subperm.trans (((pick_refine argsort ha _ hr false _ _).filterMap id).subperm.trans (List.mergeSort_perm _ _).symm.subperm)

/-- **C144.** With a larger radius the clusters of the pipeline are unions of the clusters with the smaller one, and their centres are among those. -/
theorem C144_clusters (argsort : List K → List ℕ) (ha : IsArgsort argsort) (peaks : List (HPeak K)) {radius radius' tmed : K} (ht : 0 < tmed) (hr : radius ≤ radius') :
    ∃ cs cs', clusterPeaks argsort peaks radius tmed = .ok cs ∧ clusterPeaks argsort peaks radius' tmed = .ok cs' ∧ cs'.length ≤ cs.length ∧
      (∀ c ∈ cs, ∃ c' ∈ cs', c.peaks.IsInfix c'.peaks) ∧ (cs'.map PCluster.centre).Sublist (cs.map PCluster.centre) := by
  have hd : ∀ r : K, pyDiv r tmed = .ok (r / tmed) := fun r => by
    unfold pyDiv
    rw [if_neg ht.ne']
  unfold clusterPeaks
  by_cases hz : peaks.length = 0
  · simp only [if_pos hz]
    exact ⟨[], [], rfl, rfl, le_rfl, by simp, by simp⟩
  simp only [if_neg hz, hd, Except.bind]
  have hr' : radius / tmed ≤ radius' / tmed := div_le_div_of_nonneg_right hr ht.le
  obtain ⟨h1, h2⟩ := C144_cluster1d argsort ha (peaks.map fun p => p.freq) hr' true
  refine ⟨_, _, rfl, rfl, by simpa using h2, ?_, ?_⟩
  · intro c hc
    obtain ⟨i, hi, rfl⟩ := List.mem_map.mp hc
    obtain ⟨i', hi', A, B, hAB⟩ := h1 i hi
    refine ⟨_, List.mem_map.mpr ⟨i', hi', rfl⟩, A.filterMap (fun i => peaks[i]?), B.filterMap (fun i => peaks[i]?), ?_⟩
    show _ ++ i.filterMap _ ++ _ = i'.filterMap _
    rw [← hAB, List.filterMap_append, List.filterMap_append]
  · have key : ∀ rad : K, ((cluster1d argsort (peaks.map fun p => p.freq) rad true).map fun ids => ({ peaks := ids.filterMap fun i => peaks[i]? } : PCluster K)).map PCluster.centre =
        ((cluster1d argsort (peaks.map fun p => p.freq) rad true).map fun c => firstMax (fun p : HPeak K => p.snr) (c.filterMap fun i => peaks[i]?)).map
          fun o => match o with | none => .error .valueError | some p => .ok p := by
      intro rad
      rw [List.map_map, List.map_map]
      refine List.map_congr_left fun c _ => ?_
      have hm : ∀ (l : List (HPeak K)) (p : HPeak K), maxSnr p l = l.foldl (fun m b => if m.snr < b.snr then b else m) p := by
        intro l
        induction l with
        | nil => intro p; rfl
        | cons a l ih =>
          intro p
          rw [maxSnr, List.foldl_cons]
          split_ifs <;> exact ih _
      simp only [Function.comp_apply]
      unfold PCluster.centre
      simp only
      rcases c.filterMap fun i => peaks[i]? with _ | ⟨a, l⟩
      · rfl
      · simp only [firstMax, hm]
    rw [key, key]
    exact (pick_refine argsort ha _ hr' true _ _).map _

end

/-! ## Examples -/

/-- Three frequencies: with radius 1 there are two clusters, with radius 3 there is one. -/
example : IsArgsort (insArgsort : List ℚ → List ℕ) ∧ (1 : ℚ) ≤ 3 ∧ cluster1d insArgsort [(5 : ℚ), 1, 2] 1 false = [[1, 2], [0]] ∧ cluster1d insArgsort [(5 : ℚ), 1, 2] 3 false = [[1, 2, 0]] :=
  ⟨insArgsort_ok, by norm_num, by decide +kernel, by decide +kernel⟩

/-- A periodogram for which `find_peaks` succeeds. In its second width trial there are two peaks with `clrad` 1, and only the first one is left with `clrad` 2. -/
theorem C144_example (fit : List ℚ → List ℚ → ℚ → ℚ) : 0 < demoPgram.tobs ∧ demoParams.clrad ≤ 2 ∧ (∃ peaks, findPeaks insArgsort fit demoParams demoPgram = .ok peaks) ∧
    findPeaksSingle insArgsort fit demoParams demoPgram.freqs (demoPgram.column 1) demoPgram.tobs = .ok [4, 2] ∧
      findPeaksSingle insArgsort fit { demoParams with clrad := 2 } demoPgram.freqs (demoPgram.column 1) demoPgram.tobs = .ok [2] := by
  have h2 : numSegments (8 : ℚ) 4 1 2 = 2 := by
    unfold numSegments
    rw [show |(4 : ℚ) - 8| / (2 / 1) = ((2 : ℕ) : ℚ) by norm_num, Nat.ceil_natCast]
  obtain ⟨fc, smed, sstd, hseg, hl, -⟩ := C32_segment_stats_partial demoPgram.freqs (demoPgram.column 1) demoPgram.tobs
    demoParams.segwidth 8 4 (by decide +kernel) (by decide +kernel) (by decide +kernel) (by decide +kernel) (by norm_num)
    (by simp only [demoPgram, demoParams]; rw [h2]; decide)
  have hnl : ¬ fc.length ≥ demoParams.minseg := by
    rw [hl]; simp only [demoPgram, demoParams]; rw [h2]; decide
  have ht : dynThreshold fit demoParams demoPgram.freqs (demoPgram.column 1) demoPgram.tobs = .ok fun _ => 6 := by
    unfold dynThreshold
    rw [hseg]
    simp only [Except.map, if_neg hnl]
    rfl
  have ht' : dynThreshold fit { demoParams with clrad := 2 } demoPgram.freqs (demoPgram.column 1) demoPgram.tobs = .ok fun _ => 6 := ht
  refine ⟨by decide +kernel, by decide +kernel, ?_, ?_, ?_⟩
  · exact findPeaks_ok insArgsort fit demoParams demoPgram (by decide +kernel) (by decide +kernel) 8 4
      (by decide +kernel) (by decide +kernel) (by norm_num)
      (by simp only [demoPgram, demoParams]; rw [h2]; decide)
  · unfold findPeaksSingle
    rw [ht]
    simp only [Except.map, Except.ok.injEq]
    decide +kernel
  · unfold findPeaksSingle
    rw [ht']
    simp only [Except.map, Except.ok.injEq]
    decide +kernel

/-- Three peaks in the table of `rseek`: two groups with radius 1, and one with radius 3. -/
example : let pk : ℚ → ℚ → Peak ℚ := fun f s => ⟨1 / f, f, 1, 1 / 8, 0, 0, s⟩
    (cluster1d insArgsort ([pk 1 9, pk 2 10, pk 5 8].map fun p => p.freq) 1 false).length = 2 ∧
      (cluster1d insArgsort ([pk 1 9, pk 2 10, pk 5 8].map fun p => p.freq) 3 false).length = 1 := by
  decide +kernel

/-- Three peaks of the pipeline: two clusters with radius 1, and one with radius 3. -/
example : (0 : ℚ) < 1 ∧ (1 : ℚ) ≤ 3 ∧ cluster1d insArgsort [(1 : ℚ), 2, 5] 1 true = [[0, 1], [2]] ∧ cluster1d insArgsort [(1 : ℚ), 2, 5] 3 true = [[0, 1, 2]] := by
  decide +kernel

end Verif.Props
