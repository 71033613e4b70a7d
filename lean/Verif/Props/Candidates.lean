import Verif.Props.Pipeline
import Verif.Props.Dm
import Mathlib.Data.Nat.Digits.Lemmas

/-!
# Claims about candidate filters and candidate building (C45, C46)
-/

namespace Verif.Props

open Verif.Model Verif.Spec Verif.Lemmas

set_option linter.unusedSectionVars false

variable {K : Type*} [LinearOrder K]

/-! ## C45 -/

/-- All enabled cuts are satisfied by cluster `i` with centre `p`. -/
def PassesCuts (f : FilterParams K) (heap : ℕ → PCluster K) (i : ℕ) (p : HPeak K) : Prop :=
  (∀ d, f.dmMin = some d → d ≤ p.dm) ∧ (∀ s, f.snrMin = some s → s ≤ p.snr) ∧
  (f.removeHarmonics = true → (heap i).parent = none)

theorem cuts_spec (f : FilterParams K) (heap : ℕ → PCluster K) (cs : List (ℕ × HPeak K)) :
    ∃ keep : ℕ × HPeak K → Bool, (∀ a, keep a = true ↔ PassesCuts f heap a.1 a.2) ∧
      filterHarmonics heap f.removeHarmonics (filterSnr f.snrMin (filterDm f.dmMin cs)) = cs.filter keep := by
  refine ⟨fun a => (match f.dmMin with | none => true | some d => decide (d ≤ a.2.dm)) &&
    (match f.snrMin with | none => true | some s => decide (s ≤ a.2.snr)) &&
    (!f.removeHarmonics || !(heap a.1).isHarmonic), ?_, ?_⟩
  · intro a
    unfold PassesCuts PCluster.isHarmonic
    cases f.dmMin <;> cases f.snrMin <;> cases f.removeHarmonics <;> simp [and_assoc]
  · unfold filterHarmonics filterSnr filterDm
    cases f.dmMin <;> cases f.snrMin <;> cases f.removeHarmonics <;>
      simp [List.filter_filter, Bool.and_comm, Bool.and_left_comm]

/-- C45 without a cap: exactly the clusters that pass all enabled cuts, in their original order. -/
theorem C45_no_cap (f : FilterParams K) (heap : ℕ → PCluster K) (clusters : List ℕ) (c : ℕ → HPeak K)
    (hc : ∀ i ∈ clusters, (heap i).centre = .ok (c i)) (hcap : f.maxNumber = none ∨ f.maxNumber = some 0) :
    ∃ l, applyFilters f heap clusters = .ok l ∧ l.Sublist clusters ∧
      ∀ i, i ∈ l ↔ i ∈ clusters ∧ PassesCuts f heap i (c i) := by
  obtain ⟨keep, hkeep, heq⟩ := cuts_spec f heap (clusters.map (fun i => (i, c i)))
  have hmapfilter : ((clusters.map (fun i => (i, c i))).filter keep).map Prod.fst
      = clusters.filter (fun i => keep (i, c i)) := by
    rw [List.filter_map, List.map_map]
    have : (Prod.fst ∘ fun i => (i, c i)) = id := rfl
    rw [this, List.map_id]
    rfl
  refine ⟨clusters.filter (fun i => keep (i, c i)), ?_, List.filter_sublist, ?_⟩
  · unfold applyFilters
    rw [withCentres_ok heap c clusters hc]
    simp only [Except.map]
    rw [heq]
    have : filterCap f.maxNumber ((clusters.map (fun i => (i, c i))).filter keep)
        = (clusters.map (fun i => (i, c i))).filter keep := by
      rcases hcap with h | h <;> rw [h] <;> rfl
    rw [this, hmapfilter]
  · intro i
    rw [List.mem_filter, hkeep]

/-- C45 with a cap `n`: `n` of the clusters that pass the cuts (all of them, if there are fewer), in order of decreasing S/N, and
none of those dropped is brighter than one that is kept. -/
theorem C45_cap (f : FilterParams K) (heap : ℕ → PCluster K) (clusters : List ℕ) (c : ℕ → HPeak K) (hnd : clusters.Nodup)
    (hc : ∀ i ∈ clusters, (heap i).centre = .ok (c i)) (n : ℕ) (hn : 0 < n) (hcap : f.maxNumber = some n) :
    ∃ l passing : List ℕ, applyFilters f heap clusters = .ok l ∧
      passing.Nodup ∧ (∀ i, i ∈ passing ↔ i ∈ clusters ∧ PassesCuts f heap i (c i)) ∧
      l.Nodup ∧ (∀ i ∈ l, i ∈ passing) ∧ l.length = min n passing.length ∧
      l.Pairwise (fun i j => (c j).snr ≤ (c i).snr) ∧
      ∀ i ∈ passing, i ∉ l → ∀ j ∈ l, (c i).snr ≤ (c j).snr := by
  obtain ⟨keep, hkeep, heq⟩ := cuts_spec f heap (clusters.map (fun i => (i, c i)))
  have hmapfilter : (clusters.map (fun i => (i, c i))).filter keep
      = (clusters.filter (fun i => keep (i, c i))).map (fun i => (i, c i)) := by
    rw [List.filter_map]; rfl
  obtain ⟨passing, hpass⟩ : ∃ passing, passing = clusters.filter (fun i => keep (i, c i)) := ⟨_, rfl⟩
  obtain ⟨sorted, hsrt⟩ : ∃ sorted, sorted = sortBySnr (passing.map (fun i => (i, c i))) := ⟨_, rfl⟩
  have hpnd : passing.Nodup := hpass ▸ hnd.filter _
  have hperm : sorted.Perm (passing.map (fun i => (i, c i))) := hsrt ▸ sortBySnr_perm _
  have hcen : ∀ a ∈ sorted, a.2 = c a.1 ∧ a.1 ∈ passing := by
    intro a ha
    obtain ⟨i, hi, rfl⟩ := List.mem_map.1 (hperm.mem_iff.1 ha)
    exact ⟨rfl, hi⟩
  have hids : (sorted.map Prod.fst).Perm passing := by
    have := hperm.map Prod.fst
    rw [List.map_map] at this
    simpa [Function.comp_def] using this
  have hpw : (sorted.map Prod.fst).Pairwise (fun i j => (c j).snr ≤ (c i).snr) := by
    rw [List.pairwise_map]
    have h1 : sorted.Pairwise (fun a b => b.2.snr ≤ a.2.snr) := hsrt ▸ sortBySnr_sorted _
    refine h1.imp_of_mem ?_
    intro a b ha hb h
    rwa [(hcen a ha).1, (hcen b hb).1] at h
  refine ⟨(sorted.map Prod.fst).take n, passing, ?_, hpnd, ?_, ?_, ?_, ?_, ?_, ?_⟩
  · unfold applyFilters
    rw [withCentres_ok heap c clusters hc]
    simp only [Except.map]
    rw [heq, hmapfilter, ← hpass, hcap]
    obtain ⟨m, rfl⟩ : ∃ m, n = m + 1 := ⟨n - 1, by omega⟩
    rw [← List.map_take, hsrt]
    rfl
  · intro i
    rw [hpass, List.mem_filter, hkeep]
  · exact (hids.nodup_iff.2 hpnd).sublist (List.take_sublist _ _)
  · intro i hi
    exact hids.mem_iff.1 (List.mem_of_mem_take hi)
  · rw [List.length_take, hids.length_eq]
  · exact hpw.sublist (List.take_sublist _ _)
  · intro i hi hni j hj
    have hi' := hids.mem_iff.2 hi
    rw [← List.take_append_drop n (sorted.map Prod.fst), List.mem_append] at hi'
    have hd := hi'.resolve_left hni
    rw [← List.take_append_drop n (sorted.map Prod.fst), List.pairwise_append] at hpw
    exact hpw.2.2 j hj i hd

example : [0, 1, 2].Nodup ∧ (∀ i ∈ [0, 1, 2], (exHeap i).centre = .ok (exCentre i)) ∧ 0 < 2 ∧
    (⟨some 5, some 8, true, some 2⟩ : FilterParams ℚ).maxNumber = some 2 := by decide +kernel
example : PassesCuts ⟨some 5, some 8, true, none⟩ exHeap 0 (exCentre 0) ∧
    ¬ PassesCuts ⟨some 5, some 8, true, none⟩ exHeap 1 (exCentre 1) := by
  constructor
  · refine ⟨fun d h => ?_, fun s h => ?_, fun _ => rfl⟩
    · simp only [Option.some.injEq] at h; rw [← h]; decide +kernel
    · simp only [Option.some.injEq] at h; rw [← h]; decide +kernel
  · rintro ⟨-, h, -⟩
    exact absurd (h 8 rfl) (by decide +kernel)

/-! ## C46 -/

theorem groupAppend_perm (c : ℕ × HPeak K) : ∀ (g : PyDict K (List (ℕ × HPeak K))),
    ((groupAppend g c).map Prod.snd).flatten.Perm ((g.map Prod.snd).flatten ++ [c]) := by
  intro g
  unfold groupAppend
  induction g with
  | nil => simp [dictSet, dictGet]
  | cons a g ih =>
    obtain ⟨k, v⟩ := a
    rw [dictSet, dictGet]
    by_cases h : k = c.2.dm
    · rw [if_pos h, if_pos h]
      simp only [List.map_cons, List.flatten_cons, Option.getD_some, List.append_assoc]
      refine List.Perm.append_left _ ?_
      exact List.perm_append_comm
    · rw [if_neg h, if_neg h]
      simp only [List.map_cons, List.flatten_cons, List.append_assoc]
      exact List.Perm.append_left _ ih

theorem mem_dictSet {κ ν : Type*} [DecidableEq κ] {k : κ} {v : ν} {a : κ × ν} : ∀ {d : PyDict κ ν},
    a ∈ dictSet d k v → a = (k, v) ∨ a ∈ d := by
  intro d
  induction d with
  | nil => intro h; left; simpa [dictSet] using h
  | cons b d ih =>
    obtain ⟨k', v'⟩ := b
    intro h
    rw [dictSet] at h
    by_cases hk : k' = k
    · rw [if_pos hk] at h
      rcases List.mem_cons.1 h with h | h
      · left; rw [h, hk]
      · right; exact List.mem_cons_of_mem _ h
    · rw [if_neg hk] at h
      rcases List.mem_cons.1 h with h | h
      · right; rw [h]; exact List.mem_cons_self
      · rcases ih h with h | h
        · exact Or.inl h
        · exact Or.inr (List.mem_cons_of_mem _ h)

theorem dictGet_mem {κ ν : Type*} [DecidableEq κ] {k : κ} {v : ν} : ∀ {d : PyDict κ ν}, dictGet d k = some v → (k, v) ∈ d := by
  intro d
  induction d with
  | nil => intro h; simp [dictGet] at h
  | cons b d ih =>
    obtain ⟨k', v'⟩ := b
    intro h
    rw [dictGet] at h
    by_cases hk : k' = k
    · rw [if_pos hk] at h
      simp only [Option.some.injEq] at h
      rw [hk, h]; exact List.mem_cons_self
    · rw [if_neg hk] at h
      exact List.mem_cons_of_mem _ (ih h)

/-- Groups hold all clusters, each under its own DM. -/
theorem groups_spec : ∀ (l : List (ℕ × HPeak K)) (g : PyDict K (List (ℕ × HPeak K))),
    (∀ e ∈ g, ∀ c ∈ e.2, c.2.dm = e.1) → (∀ e ∈ g, e.2 ≠ []) →
    ((l.foldl groupAppend g).map Prod.snd).flatten.Perm ((g.map Prod.snd).flatten ++ l) ∧
    (∀ e ∈ l.foldl groupAppend g, ∀ c ∈ e.2, c.2.dm = e.1) ∧ (∀ e ∈ l.foldl groupAppend g, e.2 ≠ []) := by
  intro l
  induction l with
  | nil => intro g hg hne; exact ⟨by simp, hg, hne⟩
  | cons c l ih =>
    intro g hg hne
    rw [List.foldl_cons]
    have h1 : ∀ e ∈ groupAppend g c, ∀ c ∈ e.2, c.2.dm = e.1 := by
      intro e he c' hc'
      rcases mem_dictSet he with rfl | he
      · rcases List.mem_append.1 hc' with h | h
        · cases hget : dictGet g c.2.dm with
          | none => rw [hget] at h; simp at h
          | some v =>
            rw [hget] at h
            exact hg _ (dictGet_mem hget) c' h
        · rw [List.mem_singleton] at h; rw [h]
      · exact hg e he c' hc'
    have h2 : ∀ e ∈ groupAppend g c, e.2 ≠ [] := by
      intro e he
      rcases mem_dictSet he with rfl | he
      · simp
      · exact hne e he
    obtain ⟨hp, hd, hn⟩ := ih _ h1 h2
    refine ⟨hp.trans ?_, hd, hn⟩
    refine (List.Perm.append_right l (groupAppend_perm c g)).trans ?_
    rw [List.append_assoc]; rfl

/-- The candidate made from a cluster, if making it succeeds. -/
def candidateOf {τ γ : Type*} (ts : K → τ) (make : τ → ℕ → HPeak K → Except PyErr γ) (i : ℕ) (p : HPeak K) :
    Option (PCandidate K γ) :=
  match make (ts p.dm) i p with
  | .ok d => some { params := p, source := i, data := d }
  | .error _ => none

theorem buildGroup_eq {τ γ : Type*} (make : τ → ℕ → HPeak K → Except PyErr γ) (ts : K → τ) (dm : K) :
    ∀ l : List (ℕ × HPeak K), (∀ c ∈ l, c.2.dm = dm) →
      buildGroup make (ts dm) l = l.filterMap (fun c => candidateOf ts make c.1 c.2) := by
  intro l
  induction l with
  | nil => intro _; rfl
  | cons c l ih =>
    intro h
    obtain ⟨i, p⟩ := c
    have hdm : p.dm = dm := h (i, p) List.mem_cons_self
    have hl := ih (fun c hc => h c (List.mem_cons_of_mem _ hc))
    rw [buildGroup, List.filterMap_cons, hl]
    simp only [candidateOf, hdm]
    cases make (ts dm) i p <;> rfl

theorem buildGroups_eq {τ γ : Type*} (load : K → Except PyErr τ) (make : τ → ℕ → HPeak K → Except PyErr γ) (ts : K → τ) :
    ∀ g : PyDict K (List (ℕ × HPeak K)), (∀ e ∈ g, load e.1 = .ok (ts e.1)) → (∀ e ∈ g, ∀ c ∈ e.2, c.2.dm = e.1) →
      buildGroups load make g = .ok ((g.map Prod.snd).flatten.filterMap (fun c => candidateOf ts make c.1 c.2)) := by
  intro g
  induction g with
  | nil => intro _ _; rfl
  | cons e g ih =>
    intro hload hdm
    obtain ⟨dm, l⟩ := e
    rw [buildGroups, hload (dm, l) List.mem_cons_self,
      ih (fun e he => hload e (List.mem_cons_of_mem _ he)) (fun e he => hdm e (List.mem_cons_of_mem _ he))]
    simp only [Except.bind, Except.map, List.map_cons, List.flatten_cons, List.filterMap_append]
    rw [buildGroup_eq make ts dm l (hdm (dm, l) List.mem_cons_self)]

/-- C46: whatever subset of the constructions fails, the candidates are, in order of decreasing S/N, those of the filtered clusters
whose construction succeeds, each made from the time series of its own DM. (`ts` gives the loaded time series.) -/
theorem C46_build_candidates {τ γ : Type*} (load : K → Except PyErr τ) (make : τ → ℕ → HPeak K → Except PyErr γ)
    (heap : ℕ → PCluster K) (clusters : List ℕ) (c : ℕ → HPeak K) (ts : K → τ)
    (hc : ∀ i ∈ clusters, (heap i).centre = .ok (c i)) (hload : ∀ i ∈ clusters, load (c i).dm = .ok (ts (c i).dm)) :
    ∃ cands, buildCandidates load make heap clusters [] = .ok cands ∧
      cands.Pairwise (fun a b => b.params.snr ≤ a.params.snr) ∧
      cands.Perm (clusters.filterMap (fun i => candidateOf ts make i (c i))) := by
  obtain ⟨order, horder⟩ : ∃ order, order = sortBySnr (clusters.map (fun i => (i, c i))) := ⟨_, rfl⟩
  have hperm : order.Perm (clusters.map (fun i => (i, c i))) := horder ▸ sortBySnr_perm _
  have hmem : ∀ a ∈ order, a.1 ∈ clusters ∧ a.2 = c a.1 := by
    intro a ha
    obtain ⟨i, hi, rfl⟩ := List.mem_map.1 (hperm.mem_iff.1 ha)
    exact ⟨hi, rfl⟩
  obtain ⟨hg, hdm, hne⟩ := groups_spec order [] (by simp) (by simp)
  simp only [List.map_nil, List.flatten_nil, List.nil_append] at hg
  have hl : ∀ e ∈ order.foldl groupAppend [], load e.1 = .ok (ts e.1) := by
    intro e he
    obtain ⟨a, ha⟩ := List.exists_mem_of_ne_nil _ (hne e he)
    have ha' : a ∈ order := hg.mem_iff.1 (List.mem_flatten.2 ⟨e.2, List.mem_map_of_mem he, ha⟩)
    rw [← hdm e he a ha, (hmem a ha').2]
    exact hload _ (hmem a ha').1
  have hfinal : (((order.foldl groupAppend []).map Prod.snd).flatten.filterMap (fun c => candidateOf ts make c.1 c.2)).Perm
      (clusters.filterMap (fun i => candidateOf ts make i (c i))) := by
    refine ((hg.trans hperm).filterMap _).trans ?_
    rw [List.filterMap_map]
    exact List.Perm.refl _
  unfold buildCandidates
  rw [withCentres_ok heap c clusters hc]
  simp only [Except.bind]
  rw [← horder]
  by_cases hz : order.length = 0
  · rw [if_pos hz]
    have h1 : clusters = [] := by
      have := hperm.length_eq
      rw [hz, List.length_map] at this
      exact List.eq_nil_of_length_eq_zero this.symm
    exact ⟨[], rfl, List.Pairwise.nil, by rw [h1]; rfl⟩
  · rw [if_neg hz, buildGroups_eq load make ts _ hl hdm]
    simp only [Except.map, List.nil_append]
    refine ⟨_, rfl, ?_, (List.mergeSort_perm _ _).trans hfinal⟩
    refine (List.pairwise_mergeSort (le := fun a b : PCandidate K γ => decide (b.params.snr ≤ a.params.snr)) ?_ ?_ _).imp ?_
    · intro a b c h1 h2; simp only [decide_eq_true_eq] at *; exact h2.trans h1
    · intro a b; simp only [Bool.or_eq_true, decide_eq_true_eq]; exact le_total _ _
    · intro a b h; simpa using h

/-- C46: in particular, each cluster whose construction succeeds has its candidate, and each candidate comes from one. -/
theorem C46_iff {τ γ : Type*} (load : K → Except PyErr τ) (make : τ → ℕ → HPeak K → Except PyErr γ)
    (heap : ℕ → PCluster K) (clusters : List ℕ) (c : ℕ → HPeak K) (ts : K → τ)
    (hc : ∀ i ∈ clusters, (heap i).centre = .ok (c i)) (hload : ∀ i ∈ clusters, load (c i).dm = .ok (ts (c i).dm)) :
    ∃ cands, buildCandidates load make heap clusters [] = .ok cands ∧
      ∀ x : PCandidate K γ, x ∈ cands ↔
        x.source ∈ clusters ∧ x.params = c x.source ∧ make (ts (c x.source).dm) x.source (c x.source) = .ok x.data := by
  obtain ⟨cands, hrun, -, hperm⟩ := C46_build_candidates load make heap clusters c ts hc hload
  refine ⟨cands, hrun, fun x => ?_⟩
  rw [hperm.mem_iff, List.mem_filterMap]
  constructor
  · rintro ⟨i, hi, h⟩
    unfold candidateOf at h
    cases hm : make (ts (c i).dm) i (c i) with
    | error e => rw [hm] at h; simp at h
    | ok d =>
      rw [hm] at h
      simp only [Option.some.injEq] at h
      subst h
      exact ⟨hi, rfl, hm⟩
  · rintro ⟨h1, h2, h3⟩
    refine ⟨x.source, h1, ?_⟩
    unfold candidateOf
    rw [h3, ← h2]

/-- C46 does not extend to the loading of the time series, which is outside the `try` block: if it fails for the DM of one cluster,
no candidate at all is built. -/
theorem C46_load_failure {τ γ : Type*} (make : τ → ℕ → HPeak K → Except PyErr γ) (load : K → Except PyErr τ)
    (heap : ℕ → PCluster K) (clusters : List ℕ) (c : ℕ → HPeak K) (before : List (PCandidate K γ))
    (hc : ∀ i ∈ clusters, (heap i).centre = .ok (c i)) (i : ℕ) (hi : i ∈ clusters) (e : PyErr)
    (hbad : load (c i).dm = .error e) : ∃ e', buildCandidates load make heap clusters before = .error e' := by
  have key : ∀ g : PyDict K (List (ℕ × HPeak K)), (∃ x ∈ g, load x.1 = .error e) → ∃ e', buildGroups load make g = .error e' := by
    intro g
    induction g with
    | nil => rintro ⟨x, hx, -⟩; simp at hx
    | cons a g ih =>
      rintro ⟨x, hx, hxe⟩
      obtain ⟨dm, l⟩ := a
      rw [buildGroups]
      cases hl : load dm with
      | error e' => exact ⟨e', rfl⟩
      | ok t =>
        simp only [Except.bind]
        rcases List.mem_cons.1 hx with h | h
        · rw [h, hl] at hxe; cases hxe
        · obtain ⟨e', he'⟩ := ih ⟨x, h, hxe⟩
          exact ⟨e', by rw [he']; rfl⟩
  obtain ⟨order, horder⟩ : ∃ order, order = sortBySnr (clusters.map (fun i => (i, c i))) := ⟨_, rfl⟩
  have hperm : order.Perm (clusters.map (fun i => (i, c i))) := horder ▸ sortBySnr_perm _
  have hio : (i, c i) ∈ order := hperm.mem_iff.2 (List.mem_map_of_mem hi)
  obtain ⟨hg, hdm, -⟩ := groups_spec order [] (by simp) (by simp)
  simp only [List.map_nil, List.flatten_nil, List.nil_append] at hg
  obtain ⟨l, hl, hil⟩ := List.mem_flatten.1 (hg.mem_iff.2 hio)
  obtain ⟨x, hx, rfl⟩ := List.mem_map.1 hl
  obtain ⟨e', he'⟩ := key (order.foldl groupAppend []) ⟨x, hx, by rw [← hdm x hx _ hil]; exact hbad⟩
  refine ⟨e', ?_⟩
  unfold buildCandidates
  rw [withCentres_ok heap c clusters hc]
  simp only [Except.bind]
  rw [← horder, if_neg (by intro h; rw [List.eq_nil_of_length_eq_zero h] at hio; simp at hio), he']
  rfl

theorem digitChar_inj : ∀ a < 10, ∀ b < 10, Nat.digitChar a = Nat.digitChar b → a = b := by decide

theorem map_digitChar_inj : ∀ (l l' : List ℕ), (∀ a ∈ l, a < 10) → (∀ a ∈ l', a < 10) →
    l.map Nat.digitChar = l'.map Nat.digitChar → l = l' := by
  intro l
  induction l with
  | nil => intro l' _ _ h; cases l' with
    | nil => rfl
    | cons => simp at h
  | cons a l ih =>
    intro l' h1 h2 h
    cases l' with
    | nil => simp at h
    | cons b l' =>
      simp only [List.map_cons, List.cons.injEq] at h
      rw [digitChar_inj a (h1 a List.mem_cons_self) b (h2 b List.mem_cons_self) h.1,
        ih l' (fun x hx => h1 x (List.mem_cons_of_mem _ hx)) (fun x hx => h2 x (List.mem_cons_of_mem _ hx)) h.2]

theorem fmt04_inj {m n : ℕ} (h : fmt04 m = fmt04 n) : m = n := by
  have hlt : ∀ n, ∀ a ∈ (Nat.digits 10 n ++ List.replicate (4 - (Nat.digits 10 n).length) 0).reverse, a < 10 := by
    intro n a ha
    rw [List.mem_reverse, List.mem_append] at ha
    rcases ha with ha | ha
    · exact Nat.digits_lt_base (by norm_num) ha
    · rw [List.eq_of_mem_replicate ha]; norm_num
  have h1 := map_digitChar_inj _ _ (hlt m) (hlt n) h
  have h2 := congrArg (Nat.ofDigits 10) (List.reverse_injective h1)
  rw [Nat.ofDigits_append_replicate_zero, Nat.ofDigits_append_replicate_zero, Nat.ofDigits_digits, Nat.ofDigits_digits] at h2
  exact h2

/-- C46: the files of different candidates have different names. -/
theorem C46_file_names_distinct (m n : ℕ) (ext : List Char) (h : candidateFileName m ext = candidateFileName n ext) : m = n := by
  unfold candidateFileName at h
  rw [List.append_assoc, List.append_assoc] at h
  exact fmt04_inj (List.append_cancel_right (List.append_cancel_left h))

/-- C46: a `.json` file never has the name of a `.png` file. -/
theorem C46_json_ne_png (m n : ℕ) : candidateFileName m ".json".toList ≠ candidateFileName n ".png".toList := by
  intro h
  have := congrArg (fun l => l.reverse.head?) h
  unfold candidateFileName at this
  simp only [List.reverse_append] at this
  exact absurd this (by simp)

example : (∀ i ∈ [0, 1, 2], (exHeap i).centre = .ok (exCentre i)) ∧
    (∀ i ∈ [0, 1, 2], (fun dm : ℚ => (.ok (dm + 1) : Except PyErr ℚ)) (exCentre i).dm = .ok ((exCentre i).dm + 1)) := by
  decide +kernel
example : String.ofList (candidateFileName 12 ".json".toList) = "candidate_0012.json" := by decide +kernel
example : String.ofList (candidateFileName 123456 ".png".toList) = "candidate_123456.png" := by decide +kernel

end Verif.Props
