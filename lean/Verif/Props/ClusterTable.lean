import Verif.Model.ClusterTable
import Verif.Props.Pipeline

/-!
# C67: the centre of a cluster and the cluster table
-/

namespace Verif.Props

open Verif.Model Verif.Lemmas

set_option linter.unusedSectionVars false

variable {K : Type*} [LinearOrder K]

theorem maxSnr_split : ∀ (l : List (HPeak K)) (p : HPeak K), ∃ pre post, p :: l = pre ++ maxSnr p l :: post ∧
    (∀ q ∈ pre, q.snr < (maxSnr p l).snr) ∧ ∀ q ∈ post, q.snr ≤ (maxSnr p l).snr := by
  intro l
  induction l with
  | nil => intro p; exact ⟨[], [], rfl, by simp, by simp⟩
  | cons q l ih =>
    intro p
    unfold maxSnr
    split_ifs with h
    · obtain ⟨pre, post, e, h1, h2⟩ := ih q
      refine ⟨p :: pre, post, by rw [e]; rfl, ?_, h2⟩
      have hq : q.snr ≤ (maxSnr q l).snr := by
        have hm : q ∈ pre ++ maxSnr q l :: post := by rw [← e]; simp
        simp only [List.mem_append, List.mem_cons] at hm
        rcases hm with hm | hm | hm
        · exact (h1 q hm).le
        · rw [← hm]
        · exact h2 q hm
      intro x hx
      rcases List.mem_cons.1 hx with rfl | hx
      · exact h.trans_le hq
      · exact h1 x hx
    · obtain ⟨pre, post, e, h1, h2⟩ := ih p
      cases pre with
      | nil =>
        simp only [List.nil_append, List.cons.injEq] at e
        refine ⟨[], q :: post, by rw [← e.1, e.2]; rfl, by simp, ?_⟩
        intro x hx
        rcases List.mem_cons.1 hx with rfl | hx
        · rw [← e.1]; exact not_lt.1 h
        · exact h2 x hx
      | cons y pre =>
        simp only [List.cons_append, List.cons.injEq] at e
        obtain ⟨rfl, e⟩ := e
        refine ⟨p :: q :: pre, post, by rw [List.cons_append, List.cons_append, ← e], ?_, h2⟩
        intro x hx
        have hp := h1 p List.mem_cons_self
        rcases List.mem_cons.1 hx with rfl | hx
        · exact hp
        · rcases List.mem_cons.1 hx with rfl | hx
          · exact (not_lt.1 h).trans_lt hp
          · exact h1 x (List.mem_cons_of_mem _ hx)

theorem first_max_unique {pre post pre' post' : List (HPeak K)} {p p' : HPeak K} (e : pre ++ p :: post = pre' ++ p' :: post')
    (h2 : ∀ q ∈ post, q.snr ≤ p.snr) (h1' : ∀ q ∈ pre', q.snr < p'.snr)
    (h1 : ∀ q ∈ pre, q.snr < p.snr) (h2' : ∀ q ∈ post', q.snr ≤ p'.snr) : p = p' := by
  rcases List.append_eq_append_iff.1 e with ⟨a, ha, hb⟩ | ⟨a, ha, hb⟩
  · cases a with
    | nil => simp only [List.nil_append, List.cons.injEq] at hb; exact hb.1
    | cons x a =>
      simp only [List.cons_append, List.cons.injEq] at hb
      have h3 := h1' p (by rw [ha, hb.1]; simp)
      have h4 := h2 p' (by rw [hb.2]; simp)
      exact absurd h3 (not_lt.2 h4)
  · cases a with
    | nil => simp only [List.nil_append, List.cons.injEq] at hb; exact hb.1.symm
    | cons x a =>
      simp only [List.cons_append, List.cons.injEq] at hb
      have h3 := h1 p' (by rw [ha, hb.1]; simp)
      have h4 := h2' p (by rw [hb.2]; simp)
      exact absurd h3 (not_lt.2 h4)

/-- C67. The centre of a cluster is its brightest peak, the first one if several are equally bright; an empty cluster has none. -/
theorem C67_centre (c : PCluster K) :
    (∀ p, c.centre = .ok p ↔ ∃ pre post, c.peaks = pre ++ p :: post ∧ (∀ q ∈ pre, q.snr < p.snr) ∧ ∀ q ∈ post, q.snr ≤ p.snr) ∧
    (∀ e, c.centre = .error e ↔ c.peaks = [] ∧ e = .valueError) := by
  unfold PCluster.centre
  cases c.peaks with
  | nil => exact ⟨fun p => by simp, fun e => by simp [eq_comm]⟩
  | cons a l =>
    obtain ⟨pre, post, e, h1, h2⟩ := maxSnr_split l a
    refine ⟨fun p => ?_, fun e => by simp⟩
    simp only [Except.ok.injEq]
    constructor
    · rintro rfl
      exact ⟨pre, post, e, h1, h2⟩
    · rintro ⟨pre', post', e', h1', h2'⟩
      rw [e] at e'
      exact first_max_unique e' h2 h1' h1 h2'

example : (PCluster.mk [peakH, peakF, { peakF with dm := 11 }] none none none).centre = .ok peakF := by decide +kernel

/-! ## Ranks -/

theorem flagStep_keeps {test : HPeak K → HPeak K → Except PyErr (Bool × ℚ)} {heap h' : ℕ → PCluster K}
    {pair : (ℕ × HPeak K) × (ℕ × HPeak K)} (h : flagStep test heap pair = .ok h') (i : ℕ) : (h' i).rank = (heap i).rank := by
  unfold flagStep at h
  split_ifs at h with h1
  · cases h; rfl
  · cases hr : test pair.1.2 pair.2.2 with
    | error e => rw [hr] at h; cases h
    | ok r =>
      rw [hr] at h
      simp only [Except.bind] at h
      split_ifs at h
      · cases h
        by_cases hi : i = pair.2.1
        · subst hi; rw [Function.update_self]
        · rw [Function.update_of_ne hi]
      · cases h; rfl

theorem flagLoop_keeps {test : HPeak K → HPeak K → Except PyErr (Bool × ℚ)} : ∀ (l : List ((ℕ × HPeak K) × (ℕ × HPeak K)))
    {heap h' : ℕ → PCluster K}, flagLoop test heap l = .ok h' → ∀ i, (h' i).rank = (heap i).rank := by
  intro l
  induction l with
  | nil => intro heap h' h i; cases h; rfl
  | cons a l ih =>
    intro heap h' h i
    unfold flagLoop at h
    cases hs : flagStep test heap a with
    | error e => rw [hs] at h; cases h
    | ok h1 =>
      rw [hs] at h
      exact (ih h i).trans (flagStep_keeps hs i)

/-- The flagging numbers the clusters in the order of a stable sort. -/
theorem flag_rank {test : HPeak K → HPeak K → Except PyErr (Bool × ℚ)} {heap heap' : ℕ → PCluster K} {clusters : List ℕ}
    {c : ℕ → HPeak K} (hnd : clusters.Nodup) (hc : ∀ i ∈ clusters, (heap i).centre = .ok (c i))
    (h : flagHarmonics test heap clusters = .ok heap') (k : ℕ) (a : ℕ × HPeak K)
    (ha : (sortBySnr (clusters.map fun i => (i, c i)))[k]? = some a) : (heap' a.1).rank = some k := by
  unfold flagHarmonics at h
  split_ifs at h with h0
  · rw [List.length_eq_zero_iff.1 h0] at ha
    have := (sortBySnr_perm (([] : List ℕ).map fun i => (i, c i))).length_eq
    rw [List.getElem?_eq_none (by rw [this]; simp)] at ha
    cases ha
  · rw [withCentres_ok heap c clusters hc] at h
    simp only [Except.bind] at h
    rw [flagLoop_keeps _ h]
    have hids : ((sortBySnr (clusters.map fun i => (i, c i))).map Prod.fst).Nodup := by
      have := (sortBySnr_perm (clusters.map fun i => (i, c i))).map Prod.fst
      rw [List.map_map] at this
      have h3 : ((sortBySnr (clusters.map fun i => (i, c i))).map Prod.fst).Perm clusters := by
        simpa [Function.comp_def] using this
      exact h3.nodup_iff.2 hnd
    obtain ⟨hk, rfl⟩ := List.getElem?_eq_some_iff.1 ha
    have hsplit : sortBySnr (clusters.map fun i => (i, c i)) = (sortBySnr (clusters.map fun i => (i, c i))).take k ++
        (sortBySnr (clusters.map fun i => (i, c i)))[k] :: (sortBySnr (clusters.map fun i => (i, c i))).drop (k + 1) := by
      rw [List.getElem_cons_drop, List.take_append_drop]
    have := (assignRanks_spec _ heap 0 hids).2 _ _ _ hsplit
    rw [this]
    simp only [List.length_take, Option.some.injEq]
    omega

/-- C67. The table of the clusters after the flagging: one row per cluster, in order of decreasing S/N and of rank, with the
brightest peak of the cluster and the number of its peaks. `fundamental_rank` is the row of a fundamental, which is an earlier row
or the row itself; the fraction is 0/0 for a fundamental and otherwise, in lowest terms, the one found by the test of the two
centres. Two fundamentals are not related. -/
theorem C67_cluster_table (test : HPeak K → HPeak K → Except PyErr (Bool × ℚ)) (heap : ℕ → PCluster K) (clusters : List ℕ)
    (c : ℕ → HPeak K) (hnd : clusters.Nodup) (hne : clusters ≠ []) (hc : ∀ i ∈ clusters, (heap i).centre = .ok (c i))
    (hfresh : ∀ i ∈ clusters, (heap i).parent = none)
    (htot : ∀ i ∈ clusters, ∀ j ∈ clusters, ∃ r, test (c i) (c j) = .ok r) :
    ∃ (heap' : ℕ → PCluster K) (rows : List (ClusterRow K)) (order : List ℕ), flagHarmonics test heap clusters = .ok heap' ∧
      clustersToDataframe heap' clusters = .ok rows ∧ order.Perm clusters ∧ rows.length = order.length ∧
      rows.Pairwise (fun a b => b.snr ≤ a.snr) ∧
      (∀ (k i : ℕ) (row : ClusterRow K), order[k]? = some i → rows[k]? = some row →
        row.rank = some k ∧ row.npeaks = (heap i).peaks.length ∧ row.period = (c i).period ∧ row.dm = (c i).dm ∧
        row.snr = (c i).snr ∧ row.ducy = (c i).ducy ∧ row.freq = (c i).freq ∧
        ∃ (j f : ℕ) (frow : ClusterRow K), j ≤ k ∧ order[j]? = some f ∧ rows[j]? = some frow ∧ row.fundamentalRank = some j ∧
          frow.fundamentalRank = some j ∧ (j = k → row.hfracNum = 0 ∧ row.hfracDenom = 0) ∧
          (j < k → 0 < row.hfracDenom ∧ IsCoprime row.hfracNum row.hfracDenom ∧
            test (c f) (c i) = .ok (true, (row.hfracNum : ℚ) / row.hfracDenom))) ∧
      (∀ (k i : ℕ) (row : ClusterRow K) (k' i' : ℕ) (row' : ClusterRow K), k < k' → order[k]? = some i → rows[k]? = some row → order[k']? = some i' → rows[k']? = some row' →
        row.fundamentalRank = some k → row'.fundamentalRank = some k' → ∃ fr, test (c i) (c i') = .ok (false, fr)) := by
  obtain ⟨heap', rank, hrun, hpk, -, hrk, hperm, -, hharm, hfund⟩ := C44_flag_harmonics test heap clusters c hnd hc hfresh htot
  obtain ⟨srt, hsrt⟩ : ∃ srt, srt = sortBySnr (clusters.map fun i => (i, c i)) := ⟨_, rfl⟩
  have hsp : srt.Perm (clusters.map fun i => (i, c i)) := hsrt ▸ sortBySnr_perm _
  have hop : (srt.map Prod.fst).Perm clusters := by
    have := hsp.map Prod.fst
    rw [List.map_map] at this
    simpa [Function.comp_def] using this
  have hcen : ∀ i ∈ clusters, (heap' i).centre = .ok (c i) := by
    intro i hi
    have h1 := hc i hi
    unfold PCluster.centre at h1 ⊢
    rw [hpk i]
    exact h1
  have hsm : ∀ a ∈ srt, a.1 ∈ clusters ∧ a.2 = c a.1 := by
    intro a ha
    obtain ⟨i, hi, rfl⟩ := List.mem_map.1 (hsp.mem_iff.1 ha)
    exact ⟨hi, rfl⟩
  have hrank : ∀ (k : ℕ) a, srt[k]? = some a → (heap' a.1).rank = some k := by
    intro k a ha
    exact flag_rank hnd hc hrun k a (hsrt ▸ ha)
  -- the fraction of a flagged cluster
  have hparts : ∀ i ∈ clusters, ∃ n d, (heap' i).hfracParts = .ok (n, d) ∧ ((heap' i).parent = none → n = 0 ∧ d = 0) ∧
      ∀ f, (heap' i).parent = some f → 0 < d ∧ IsCoprime n d ∧ test (c f) (c i) = .ok (true, (n : ℚ) / d) := by
    intro i hi
    cases hp : (heap' i).parent with
    | none =>
      refine ⟨0, 0, ?_, fun _ => ⟨rfl, rfl⟩, by simp⟩
      unfold PCluster.hfracParts PCluster.isHarmonic
      rw [hp]; rfl
    | some f =>
      obtain ⟨-, -, -, -, ⟨fr, ht, hfr⟩, -⟩ := hharm i hi f hp
      refine ⟨fr.num, fr.den, ?_, by simp, ?_⟩
      · unfold PCluster.hfracParts PCluster.isHarmonic
        rw [hp, hfr]; rfl
      · rintro f' hf'
        cases hf'
        refine ⟨by exact_mod_cast fr.den_pos, ?_, ?_⟩
        · rw [Int.isCoprime_iff_gcd_eq_one, Int.gcd_def, Int.natAbs_natCast]
          exact fr.reduced
        · rw [ht]
          have := fr.num_div_den
          rw [Int.cast_natCast, this]
  choose! n d hnd1 hnd2 hnd3 using hparts
  have hrow : ∀ a ∈ srt, clusterRow heap' a = .ok
      { rank := (heap' a.1).rank, period := a.2.period, dm := a.2.dm, snr := a.2.snr, ducy := a.2.ducy, freq := a.2.freq,
        npeaks := (heap' a.1).peaks.length, hfracNum := n a.1, hfracDenom := d a.1,
        fundamentalRank := fundamentalRankOf heap' a.1 } := by
    intro a ha
    unfold clusterRow
    rw [hnd1 a.1 (hsm a ha).1]
    rfl
  obtain ⟨R, hR⟩ : ∃ R : ℕ × HPeak K → ClusterRow K, R = fun a =>
      { rank := (heap' a.1).rank, period := a.2.period, dm := a.2.dm, snr := a.2.snr, ducy := a.2.ducy, freq := a.2.freq,
        npeaks := (heap' a.1).peaks.length, hfracNum := n a.1, hfracDenom := d a.1,
        fundamentalRank := fundamentalRankOf heap' a.1 } := ⟨_, rfl⟩
  have hrows : srt.mapM (clusterRow heap') = .ok (srt.map R) := by
    have : ∀ l : List (ℕ × HPeak K), (∀ a ∈ l, clusterRow heap' a = .ok (R a)) → l.mapM (clusterRow heap') = .ok (l.map R) := by
      intro l
      induction l with
      | nil => intro _; rfl
      | cons a l ih =>
        intro h
        rw [List.mapM_cons, h a List.mem_cons_self, ih (fun b hb => h b (List.mem_cons_of_mem _ hb))]
        rfl
    exact this srt (fun a ha => by rw [hrow a ha, hR])
  have hlen0 : (srt.map R).length ≠ 0 := by
    rw [List.length_map, hsp.length_eq, List.length_map]
    exact fun h => hne (List.length_eq_zero_iff.1 h)
  -- where a cluster sits
  have hpos : ∀ f ∈ clusters, ∃ j : ℕ, srt[j]? = some (f, c f) := by
    intro f hf
    have : (f, c f) ∈ srt := hsp.mem_iff.2 (List.mem_map_of_mem hf)
    exact List.mem_iff_getElem?.1 this
  have hrk2 : ∀ (k : ℕ) a, srt[k]? = some a → rank a.1 = k := by
    intro k a ha
    have h1 := hrank k a ha
    rw [hrk a.1 (hsm a (List.mem_of_getElem? ha)).1] at h1
    exact Option.some.inj h1
  refine ⟨heap', srt.map R, srt.map Prod.fst, hrun, ?_, hop, by simp, ?_, ?_, ?_⟩
  · unfold clustersToDataframe
    rw [withCentres_ok heap' c clusters hcen]
    simp only [Except.bind]
    rw [← hsrt, hrows]
    simp only [selectColumns]
    rw [if_neg hlen0]
  · rw [List.pairwise_map, hR]
    exact hsrt ▸ sortBySnr_sorted _
  · intro k i row hi hr
    rw [List.getElem?_map, Option.map_eq_some_iff] at hi hr
    obtain ⟨a, ha, rfl⟩ := hi
    obtain ⟨a', ha', rfl⟩ := hr
    rw [ha] at ha'
    cases ha'
    have hmem := List.mem_of_getElem? ha
    obtain ⟨h1, h2⟩ := hsm a hmem
    rw [hR]
    simp only
    rw [← h2]
    refine ⟨hrank k a ha, by rw [hpk], rfl, rfl, rfl, rfl, rfl, ?_⟩
    cases hp : (heap' a.1).parent with
    | none =>
      have hf : fundamentalRankOf heap' a.1 = some k := by unfold fundamentalRankOf; rw [hp]; exact hrank k a ha
      refine ⟨k, a.1, R a, le_rfl, by simp [ha], by simp [ha, hR], hf, by rw [hR]; exact hf, fun _ => hnd2 a.1 h1 hp,
        fun h => absurd h (lt_irrefl _)⟩
    | some f =>
      obtain ⟨hfm, hfp, hlt, -, -, -⟩ := hharm a.1 h1 f hp
      obtain ⟨j, hj⟩ := hpos f hfm
      have hjr := hrk2 j _ hj
      have hkr := hrk2 k _ ha
      simp only at hjr
      have hf : fundamentalRankOf heap' a.1 = some j := by unfold fundamentalRankOf; rw [hp]; exact hrank j _ hj
      have hff : fundamentalRankOf heap' f = some j := by unfold fundamentalRankOf; rw [hfp]; exact hrank j _ hj
      refine ⟨j, f, R (f, c f), by omega, by simp [hj], by simp [hj, hR], hf, by rw [hR]; exact hff, fun h => by omega, fun _ => ?_⟩
      have := hnd3 a.1 h1 f hp
      rw [h2]
      exact this
  · intro k i row k' i' row' hkk hi hr hi' hr' hfk hfk'
    rw [List.getElem?_map, Option.map_eq_some_iff] at hi hr hi' hr'
    obtain ⟨a, ha, rfl⟩ := hi
    obtain ⟨a', ha', rfl⟩ := hi'
    obtain ⟨b, hb, rfl⟩ := hr
    obtain ⟨b', hb', rfl⟩ := hr'
    rw [ha] at hb
    cases hb
    rw [ha'] at hb'
    cases hb'
    have key : ∀ {k : ℕ} {a}, srt[k]? = some a → (R a).fundamentalRank = some k → (heap' a.1).parent = none := by
      intro k a ha hf
      have h1 := (hsm a (List.mem_of_getElem? ha)).1
      cases hp : (heap' a.1).parent with
      | none => rfl
      | some f =>
        obtain ⟨hfm, hfp, hlt, -, -, -⟩ := hharm a.1 h1 f hp
        rw [hR] at hf
        simp only [fundamentalRankOf, hp] at hf
        rw [hrk f hfm, Option.some.injEq] at hf
        have := hrk2 k a ha
        omega
    exact hfund a.1 (hsm a (List.mem_of_getElem? ha)).1 a'.1 (hsm a' (List.mem_of_getElem? ha')).1
      (by rw [hrk2 k a ha, hrk2 k' a' ha']; exact hkk) (key ha hfk) (key ha' hfk')

example : [0, 1, 2].Nodup ∧ [0, 1, 2] ≠ [] ∧ (∀ i ∈ [0, 1, 2], (exHeap i).centre = .ok (exCentre i)) ∧
    (∀ i ∈ [0, 1, 2], (exHeap i).parent = none) ∧
    (∀ i ∈ [0, 1, 2], ∀ j ∈ [0, 1, 2], ∃ r, exTest (exCentre i) (exCentre j) = .ok r) :=
  ⟨by decide, by decide, by decide +kernel, by decide, fun i _ j _ => ⟨_, rfl⟩⟩

end Verif.Props
