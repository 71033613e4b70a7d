import Verif.Lemmas.Pipeline
import Verif.Lemmas.Cluster
import Verif.Props.Dm
import Verif.Props.Peaks

/-!
# Claims about the worker pool, the saved products and the clustering of peaks (C47, C48, C64)
-/

namespace Verif.Props

open Verif.Model Verif.Spec Verif.Lemmas

set_option linter.unusedSectionVars false

variable {K : Type*} [LinearOrder K]

/-! ## C47 -/

theorem mapM_error {α β ε : Type*} {f : α → Except ε β} : ∀ {l : List α} {e : ε}, l.mapM f = .error e → ∃ x ∈ l, f x = .error e := by
  intro l
  induction l with
  | nil => intro e h; cases h
  | cons a l ih =>
    intro e h
    rw [List.mapM_cons] at h
    cases ha : f a with
    | error e' =>
      rw [ha] at h
      have : e' = e := by cases h; rfl
      exact ⟨a, List.mem_cons_self, by rw [ha, this]⟩
    | ok b =>
      rw [ha] at h
      cases hl : l.mapM f with
      | error e' =>
        rw [hl] at h
        have : e' = e := by cases h; rfl
        obtain ⟨x, hx, hfx⟩ := ih (this ▸ hl)
        exact ⟨x, List.mem_cons_of_mem _ hx, hfx⟩
      | ok v => rw [hl] at h; cases h

theorem mapM_error_of_mem {α β ε : Type*} {f : α → Except ε β} {l : List α} {x : α} {e : ε} (hx : x ∈ l) (h : f x = .error e) :
    ∃ e', l.mapM f = .error e' := by
  induction l with
  | nil => simp at hx
  | cons a l ih =>
    rw [List.mapM_cons]
    cases ha : f a with
    | error e' => exact ⟨e', rfl⟩
    | ok b =>
      rcases List.mem_cons.1 hx with rfl | hx
      · rw [ha] at h; cases h
      · obtain ⟨e', he'⟩ := ih hx
        exact ⟨e', by rw [he']; rfl⟩

/-- All batches succeed: the slots hold the results of the batches that have arrived. -/
theorem pool_fold_ok {β γ : Type*} (f : β → Except PyErr γ) (bs : List (List β)) (v : List β → List γ)
    (hok : ∀ i, (bs.getD i []).mapM f = .ok (v (bs.getD i []))) : ∀ (order : List ℕ) (value : List (Option (List γ))),
    ∃ value', order.foldl (MapResult.set f bs) { value := value, failure := none } = { value := value', failure := none } ∧
      value'.length = value.length ∧
      ∀ i, i < value.length → value'[i]? = if i ∈ order then some (some (v (bs.getD i []))) else value[i]? := by
  intro order
  induction order with
  | nil => intro value; exact ⟨value, rfl, rfl, fun i _ => by simp⟩
  | cons k order ih =>
    intro value
    have hstep : MapResult.set f bs { value := value, failure := none } k
        = { value := value.set k (some (v (bs.getD k []))), failure := none } := by
      unfold MapResult.set
      rw [hok k]
    rw [List.foldl_cons, hstep]
    obtain ⟨value', hrun, hlen, hval⟩ := ih (value.set k (some (v (bs.getD k []))))
    refine ⟨value', hrun, by rw [hlen, List.length_set], ?_⟩
    intro i hi
    rw [hval i (by rw [List.length_set]; exact hi)]
    by_cases h1 : i ∈ order
    · rw [if_pos h1, if_pos (List.mem_cons_of_mem _ h1)]
    · rw [if_neg h1]
      by_cases h2 : k = i
      · subst h2
        rw [if_pos List.mem_cons_self, List.getElem?_set_self hi]
      · rw [if_neg (by rw [List.mem_cons, not_or]; exact ⟨fun h => h2 h.symm, h1⟩), List.getElem?_set_ne h2]

/-- Some batch fails: an exception is kept, and it is one that a task raised. -/
theorem pool_fold_error {β γ : Type*} (f : β → Except PyErr γ) (bs : List (List β)) : ∀ (order : List ℕ) (r : MapResult γ),
    (r.failure = none → ∃ i ∈ order, ∃ e, (bs.getD i []).mapM f = .error e) →
    ∃ e, (order.foldl (MapResult.set f bs) r).failure = some e ∧
      (r.failure = some e ∨ ∃ i ∈ order, ∃ x ∈ bs.getD i [], f x = .error e) := by
  intro order
  induction order with
  | nil =>
    intro r h
    cases hr : r.failure with
    | none => obtain ⟨i, hi, -⟩ := h hr; simp at hi
    | some e => exact ⟨e, hr, Or.inl rfl⟩
  | cons k order ih =>
    intro r h
    rw [List.foldl_cons]
    obtain ⟨r1, hr1⟩ : ∃ r1, r1 = MapResult.set f bs r k := ⟨_, rfl⟩
    rw [← hr1]
    have hcase : (r1.failure = none → ∃ i ∈ order, ∃ e, (bs.getD i []).mapM f = .error e) := by
      intro hn
      unfold MapResult.set at hr1
      cases hr : r.failure with
      | some e =>
        rw [hr] at hr1
        cases hb : (bs.getD k []).mapM f <;> rw [hb] at hr1 <;> simp only at hr1 <;> rw [hr1, hr] at hn <;> cases hn
      | none =>
        rw [hr] at hr1
        obtain ⟨i, hi, e, he⟩ := h hr
        rcases List.mem_cons.1 hi with rfl | hi
        · rw [he] at hr1
          simp only at hr1
          rw [hr1] at hn; cases hn
        · exact ⟨i, hi, e, he⟩
    obtain ⟨e, he, hsrc⟩ := ih r1 hcase
    refine ⟨e, he, ?_⟩
    rcases hsrc with h1 | ⟨i, hi, x, hx, hfx⟩
    · unfold MapResult.set at hr1
      cases hr : r.failure with
      | some e' =>
        rw [hr] at hr1
        left
        cases hb : (bs.getD k []).mapM f <;> rw [hb] at hr1 <;> simp only at hr1 <;> rw [hr1, hr] at h1 <;> exact h1
      | none =>
        rw [hr] at hr1
        cases hb : (bs.getD k []).mapM f with
        | ok v =>
          rw [hb] at hr1
          simp only at hr1
          rw [hr1] at h1
          simp [hr] at h1
        | error e' =>
          rw [hb] at hr1
          simp only at hr1
          rw [hr1] at h1
          simp only [Option.some.injEq] at h1
          obtain ⟨x, hx, hfx⟩ := mapM_error hb
          exact Or.inr ⟨k, List.mem_cons_self, x, hx, h1 ▸ hfx⟩
    · exact Or.inr ⟨i, List.mem_cons_of_mem _ hi, x, hx, hfx⟩

theorem filterMap_id_map_some {γ : Type*} : ∀ l : List γ, (l.map some).filterMap id = l := by
  intro l
  induction l with
  | nil => rfl
  | cons a l ih => simp

/-- `pool.map` under any schedule: the results in the order of the arguments. -/
theorem poolMap_ok {β γ : Type*} (f : β → Except PyErr γ) (g : β → γ) (size : ℕ) (hs : 1 ≤ size) (l : List β)
    (order : List ℕ) (ho : order.Perm (List.range (batches size l).length)) (hf : ∀ x ∈ l, f x = .ok (g x)) :
    poolMap f size order l = .ok (l.map g) := by
  have hflat : (batches size l).flatten = l := by
    have := (chunkLoop_spec size hs l [] hs).1
    simpa [batches] using this
  obtain ⟨bs, hbs⟩ : ∃ bs, bs = batches size l := ⟨_, rfl⟩
  rw [← hbs] at ho hflat
  have hin : ∀ i, ∀ x ∈ bs.getD i [], x ∈ l := by
    intro i x hx
    by_cases hi : i < bs.length
    · rw [List.getD_eq_getElem?_getD, List.getElem?_eq_getElem hi, Option.getD_some] at hx
      rw [← hflat]; exact List.mem_flatten.2 ⟨_, List.getElem_mem hi, hx⟩
    · rw [List.getD_eq_getElem?_getD, List.getElem?_eq_none (not_lt.1 hi)] at hx; simp at hx
  have hok : ∀ i, (bs.getD i []).mapM f = .ok ((fun b : List β => b.map g) (bs.getD i [])) := by
    intro i
    exact mapM_ok f g _ (fun x hx => hf x (hin i x hx))
  obtain ⟨value', hrun, hlen, hval⟩ := pool_fold_ok f bs (fun b => b.map g) hok order (List.replicate bs.length none)
  unfold poolMap
  simp only
  rw [← hbs, hrun]
  simp only
  have hv : value' = (bs.map (fun b => b.map g)).map some := by
    apply List.ext_getElem?
    intro i
    rw [List.length_replicate] at hlen hval
    by_cases hi : i < bs.length
    · rw [hval i hi, if_pos (ho.mem_iff.2 (List.mem_range.2 hi))]
      simp [List.getD_eq_getElem?_getD, List.getElem?_eq_getElem hi]
    · rw [List.getElem?_eq_none (by omega), List.getElem?_eq_none (by simp; omega)]
  rw [hv, filterMap_id_map_some, ← List.map_flatten, hflat]

theorem poolMap_error {β γ : Type*} (f : β → Except PyErr γ) (size : ℕ) (hs : 1 ≤ size) (l : List β)
    (order : List ℕ) (ho : order.Perm (List.range (batches size l).length)) (hf : ∃ x ∈ l, ∃ e, f x = .error e) :
    ∃ e, poolMap f size order l = .error e ∧ ∃ x ∈ l, f x = .error e := by
  have hflat : (batches size l).flatten = l := by
    have := (chunkLoop_spec size hs l [] hs).1
    simpa [batches] using this
  obtain ⟨bs, hbs⟩ : ∃ bs, bs = batches size l := ⟨_, rfl⟩
  rw [← hbs] at ho hflat
  obtain ⟨x, hx, e, he⟩ := hf
  rw [← hflat] at hx
  obtain ⟨b, hb, hxb⟩ := List.mem_flatten.1 hx
  obtain ⟨i, hi, rfl⟩ := List.mem_iff_getElem.1 hb
  have hget : bs.getD i [] = bs[i] := by rw [List.getD_eq_getElem?_getD, List.getElem?_eq_getElem hi, Option.getD_some]
  obtain ⟨e', he'⟩ := mapM_error_of_mem hxb he
  obtain ⟨e'', hfail, hsrc⟩ := pool_fold_error f bs order { value := List.replicate bs.length none, failure := none }
    (fun _ => ⟨i, ho.mem_iff.2 (List.mem_range.2 hi), e', by rw [hget]; exact he'⟩)
  refine ⟨e'', ?_, ?_⟩
  · unfold poolMap
    simp only
    rw [← hbs, hfail]
  · rcases hsrc with h | ⟨k, hk, y, hy, hfy⟩
    · cases h
    · refine ⟨y, ?_, hfy⟩
      have hk' : k < bs.length := List.mem_range.1 (ho.mem_iff.1 hk)
      rw [List.getD_eq_getElem?_getD, List.getElem?_eq_getElem hk', Option.getD_some] at hy
      rw [← hflat]; exact List.mem_flatten.2 ⟨_, List.getElem_mem hk', hy⟩

/-- A possible schedule for these chunks of files: batches have some positive size, and every batch completes once. -/
def ValidSchedule {β : Type*} (s : PoolSchedule) (k : ℕ) (chunks : List (List β)) : Prop :=
  ∀ i c, chunks[i]? = some c → 1 ≤ s.size (k + i) ∧ (s.order (k + i)).Perm (List.range (batches (s.size (k + i)) c).length)

theorem ValidSchedule.tail {β : Type*} {s : PoolSchedule} {k : ℕ} {c : List β} {l : List (List β)} (h : ValidSchedule s k (c :: l)) :
    ValidSchedule s (k + 1) l := by
  intro i c' hc'
  have := h (i + 1) c' (by simpa using hc')
  rwa [show k + (i + 1) = k + 1 + i by omega] at this

theorem searchLoop_ok {β γ : Type*} (f : β → Except PyErr (List γ)) (g : β → List γ) (s : PoolSchedule) :
    ∀ (chunks : List (List β)) (k : ℕ), ValidSchedule s k chunks → (∀ x ∈ chunks.flatten, f x = .ok (g x)) →
      searchLoop f s k chunks = .ok (chunks.flatten.flatMap g) := by
  intro chunks
  induction chunks with
  | nil => intro k _ _; rfl
  | cons c l ih =>
    intro k hv hf
    obtain ⟨hs, ho⟩ := hv 0 c rfl
    have hc : ∀ x ∈ c, f x = .ok (g x) := fun x hx => hf x (by rw [List.flatten_cons]; exact List.mem_append_left _ hx)
    have hl : ∀ x ∈ l.flatten, f x = .ok (g x) := fun x hx => hf x (by rw [List.flatten_cons]; exact List.mem_append_right _ hx)
    rw [searchLoop, processFnameList, poolMap_ok f g (s.size k) hs c (s.order k) ho hc, ih (k + 1) hv.tail hl]
    simp [Except.map, Except.bind, List.flatMap_def]

theorem searchLoop_error {β γ : Type*} (f : β → Except PyErr (List γ)) (s : PoolSchedule) :
    ∀ (chunks : List (List β)) (k : ℕ), ValidSchedule s k chunks → (∃ x ∈ chunks.flatten, ∃ e, f x = .error e) →
      ∃ e, searchLoop f s k chunks = .error e ∧ ∃ x ∈ chunks.flatten, f x = .error e := by
  intro chunks
  induction chunks with
  | nil => rintro k _ ⟨x, hx, -⟩; simp at hx
  | cons c l ih =>
    intro k hv hf
    obtain ⟨hs, ho⟩ := hv 0 c rfl
    rw [searchLoop, processFnameList]
    by_cases hce : ∃ x ∈ c, ∃ e, f x = .error e
    · obtain ⟨e, he, x, hx, hfx⟩ := poolMap_error f (s.size k) hs c (s.order k) ho hce
      refine ⟨e, ?_, x, by rw [List.flatten_cons]; exact List.mem_append_left _ hx, hfx⟩
      rw [he]; rfl
    · push Not at hce
      have hc : ∀ x ∈ c, f x = .ok ((fun x => match f x with | .ok v => v | .error _ => []) x) := by
        intro x hx
        simp only
        cases hfx : f x with
        | error e => exact absurd hfx (hce x hx e)
        | ok v => rfl
      have hle : ∃ x ∈ l.flatten, ∃ e, f x = .error e := by
        obtain ⟨x, hx, e, he⟩ := hf
        rw [List.flatten_cons, List.mem_append] at hx
        rcases hx with h | h
        · exact absurd he (hce x h e)
        · exact ⟨x, h, e, he⟩
      obtain ⟨e, he, x, hx, hfx⟩ := ih (k + 1) hv.tail hle
      refine ⟨e, ?_, x, by rw [List.flatten_cons]; exact List.mem_append_right _ hx, hfx⟩
      rw [poolMap_ok f _ (s.size k) hs c (s.order k) ho hc, he]
      rfl

/-- The search without a pool: one file after the other. -/
def sequentialSearch {β : Type*} (f : β → Except PyErr (List (HPeak K))) (fnames : List β) : Except PyErr (List (HPeak K)) :=
  (fnames.mapM f).map (fun r => sortByPeriod r.flatten)

/-- C47: for every number of processes and every schedule, the search yields the peaks of the sequential search, in the same
order; and it fails exactly if the sequential search fails, with an exception that the processing of one of the files raises. -/
theorem C47_schedule_independent {β : Type*} (f : β → Except PyErr (List (HPeak K))) (fnames : List β) (processes : ℕ)
    (hp : 1 ≤ processes) (s : PoolSchedule) (hv : ValidSchedule s 0 (chunkLoop processes fnames [])) :
    (∀ peaks, sequentialSearch f fnames = .ok peaks ↔ pipelineSearch f s processes fnames = .ok peaks) ∧
    (∀ e, pipelineSearch f s processes fnames = .error e → ∃ x ∈ fnames, f x = .error e) := by
  have hflat : (chunkLoop processes fnames []).flatten = fnames := by
    have := (chunkLoop_spec processes hp fnames [] hp).1
    simpa using this
  by_cases hall : ∃ x ∈ fnames, ∃ e, f x = .error e
  · obtain ⟨e, he, x, hx, hfx⟩ := searchLoop_error f s _ 0 hv (by rw [hflat]; exact hall)
    rw [hflat] at hx
    obtain ⟨y, hy, e1, hfy⟩ := hall
    obtain ⟨e', he'⟩ := mapM_error_of_mem hy hfy
    constructor
    · intro peaks
      unfold sequentialSearch pipelineSearch
      rw [he, he']
      constructor <;> intro h <;> cases h
    · intro e2 h2
      unfold pipelineSearch at h2
      rw [he] at h2
      have : e = e2 := by cases h2; rfl
      exact ⟨x, hx, this ▸ hfx⟩
  · push Not at hall
    have hg : ∀ x ∈ fnames, f x = .ok ((fun x => match f x with | .ok v => v | .error _ => []) x) := by
      intro x hx
      simp only
      cases hfx : f x with
      | error e => exact absurd hfx (hall x hx e)
      | ok v => rfl
    have h1 := searchLoop_ok f _ s _ 0 hv (by rw [hflat]; exact hg)
    have h2 := mapM_ok f _ fnames hg
    rw [hflat] at h1
    constructor
    · intro peaks
      unfold sequentialSearch pipelineSearch
      rw [h1, h2]
      simp only [Except.map, List.flatMap_def]
    · intro e he
      unfold pipelineSearch at he
      rw [h1] at he
      cases he

/-- C47: two runs with different numbers of processes and different schedules find the same peaks. -/
theorem C47_two_runs {β : Type*} (f : β → Except PyErr (List (HPeak K))) (fnames : List β) (p₁ p₂ : ℕ)
    (hp₁ : 1 ≤ p₁) (hp₂ : 1 ≤ p₂) (s₁ s₂ : PoolSchedule) (hv₁ : ValidSchedule s₁ 0 (chunkLoop p₁ fnames []))
    (hv₂ : ValidSchedule s₂ 0 (chunkLoop p₂ fnames [])) (peaks : List (HPeak K)) :
    pipelineSearch f s₁ p₁ fnames = .ok peaks ↔ pipelineSearch f s₂ p₂ fnames = .ok peaks :=
  ((C47_schedule_independent f fnames p₁ hp₁ s₁ hv₁).1 peaks).symm.trans
    ((C47_schedule_independent f fnames p₂ hp₂ s₂ hv₂).1 peaks)

-- three files, two processes, batches completing in reverse order
example : ValidSchedule { size := fun _ => 1, order := fun k => if k = 0 then [1, 0] else [0] } 0
    (chunkLoop 2 ["a", "b", "c"] []) := by
  have hch : chunkLoop 2 ["a", "b", "c"] [] = [["a", "b"], ["c"]] := by decide
  rw [hch]
  intro i c hc
  match i, hc with
  | 0, hc =>
    simp only [List.getElem?_cons_zero, Option.some.injEq] at hc
    subst hc
    exact ⟨le_rfl, by decide⟩
  | 1, hc =>
    simp only [List.getElem?_cons_succ, List.getElem?_cons_zero, Option.some.injEq] at hc
    subst hc
    exact ⟨le_rfl, by decide⟩
  | n + 2, hc => simp at hc

/-! ## C48 -/

theorem interleaving_perm {β : Type*} {ls : List (List β)} {t : List β} (h : Interleaving ls t) : t.Perm ls.flatten := by
  induction h with
  | nil h => rw [List.flatten_eq_nil_iff.2 h]
  | cons h ih =>
    rename_i pre x l post t
    refine (List.Perm.cons x ih).trans ?_
    simp only [List.flatten_append, List.flatten_cons, List.cons_append]
    exact List.perm_middle.symm

theorem interleaving_sublist {β : Type*} {ls : List (List β)} {t : List β} (h : Interleaving ls t) : ∀ l ∈ ls, l.Sublist t := by
  induction h with
  | nil h => intro l hl; rw [h l hl]
  | cons h ih =>
    rename_i pre x l post t
    intro l' hl'
    rcases List.mem_append.1 hl' with h1 | h1
    · exact (ih l' (List.mem_append_left _ h1)).cons x
    · rcases List.mem_cons.1 h1 with rfl | h1
      · exact (ih l (List.mem_append_right _ List.mem_cons_self)).cons_cons x
      · exact (ih l' (List.mem_append_right _ (List.mem_cons_of_mem _ h1))).cons x

/-- In a list without repetition, what stands before `b` is in every prefix that contains `b`. -/
theorem prefix_order {β : Type*} {t p : List β} {a b : β} (hnd : t.Nodup) (hab : [a, b].Sublist t) (hp : p <+: t) (hb : b ∈ p) :
    a ∈ p := by
  obtain ⟨q, rfl⟩ := hp
  obtain ⟨l1, l2, hl, h1, h2⟩ := List.sublist_append_iff.1 hab
  have hbq : b ∉ q := fun hq => (List.nodup_append.1 hnd).2.2 b hb b hq rfl
  match l1, hl with
  | [], hl =>
    simp only [List.nil_append] at hl
    rw [← hl] at h2
    exact absurd (h2.subset (by simp)) hbq
  | [c], hl =>
    simp only [List.cons_append, List.nil_append, List.cons.injEq] at hl
    rw [← hl.2] at h2
    exact absurd (h2.subset (by simp)) hbq
  | c :: d :: l, hl =>
    simp only [List.cons_append, List.cons.injEq] at hl
    rw [hl.1]
    exact h1.subset List.mem_cons_self

/-- The file an event is about. -/
def _root_.Verif.Model.FileEvent.file : FileEvent → Product
  | .create f => f
  | .complete f => f

theorem writeCandidate_file {plot : Bool} {r : ℕ} {e : FileEvent} (h : e ∈ writeCandidate plot r) :
    e.file = .candidateJson r ∨ (e.file = .candidatePng r ∧ plot = true) := by
  unfold writeCandidate writeFile at h
  cases plot <;> simp only [Bool.false_eq_true, if_false, if_true, List.append_nil, List.cons_append, List.nil_append,
    List.mem_cons, List.not_mem_nil, or_false] at h
  · rcases h with rfl | rfl <;> exact Or.inl rfl
  · rcases h with rfl | rfl | rfl | rfl
    · exact Or.inl rfl
    · exact Or.inl rfl
    · exact Or.inr ⟨rfl, rfl⟩
    · exact Or.inr ⟨rfl, rfl⟩

theorem candidates_nodup (plot : Bool) (n : ℕ) : ((List.range n).map (writeCandidate plot)).flatten.Nodup := by
  rw [List.nodup_flatten]
  constructor
  · intro l hl
    obtain ⟨r, -, rfl⟩ := List.mem_map.1 hl
    unfold writeCandidate writeFile
    cases plot <;> simp
  · rw [List.pairwise_map]
    refine List.nodup_range.imp ?_
    intro r r' hne e he he'
    rcases writeCandidate_file he with h | ⟨h, -⟩ <;> rcases writeCandidate_file he' with h' | ⟨h', -⟩ <;>
      rw [h] at h' <;> simp at h' <;> exact hne h'

theorem saveMain_file {nclusters ncands : ℕ} {e : FileEvent} (h : e ∈ saveMain nclusters ncands) :
    e.file = .peaksCsv ∨ (e.file = .clustersCsv ∧ nclusters ≠ 0) ∨ (e.file = .candidatesCsv ∧ ncands ≠ 0) := by
  unfold saveMain writeFile at h
  simp only [List.mem_append] at h
  rcases h with (h | h) | h
  · left
    simp only [List.mem_cons, List.not_mem_nil, or_false] at h
    rcases h with rfl | rfl <;> rfl
  · right; left
    by_cases hn : nclusters = 0
    · rw [if_pos hn] at h; simp at h
    · rw [if_neg hn] at h
      simp only [List.mem_cons, List.not_mem_nil, or_false] at h
      rcases h with rfl | rfl <;> exact ⟨rfl, hn⟩
  · right; right
    by_cases hn : ncands = 0
    · rw [if_pos hn] at h; simp at h
    · rw [if_neg hn] at h
      simp only [List.mem_cons, List.not_mem_nil, or_false] at h
      rcases h with rfl | rfl <;> exact ⟨rfl, hn⟩

theorem saveTrace_nodup {npeaks nclusters ncands : ℕ} {plot : Bool} {t : List FileEvent}
    (h : SaveTrace npeaks nclusters ncands plot t) : t.Nodup := by
  unfold SaveTrace at h
  by_cases hz : npeaks = 0
  · rw [if_pos hz] at h; rw [h]; exact List.nodup_nil
  · rw [if_neg hz] at h
    obtain ⟨u, hu, rfl⟩ := h
    have hperm := interleaving_perm hu
    rw [List.nodup_append]
    refine ⟨?_, hperm.nodup_iff.2 (candidates_nodup plot ncands), ?_⟩
    · unfold saveMain writeFile
      by_cases h1 : nclusters = 0 <;> by_cases h2 : ncands = 0 <;> simp [h1, h2]
    · intro a ha b hb hab
      subst hab
      have hb' := hperm.mem_iff.1 hb
      obtain ⟨l, hl, hbl⟩ := List.mem_flatten.1 hb'
      obtain ⟨r, -, rfl⟩ := List.mem_map.1 hl
      rcases writeCandidate_file hbl with h' | ⟨h', -⟩ <;> rcases saveMain_file ha with h | ⟨h, -⟩ | ⟨h, -⟩ <;>
        rw [h] at h' <;> cases h'

/-- C48: stop a run of `save_products` anywhere (`p` is what has happened until then). Nothing is written if there are no peaks.
Otherwise `clusters.csv` exists only if `peaks.csv` is complete, `candidates.csv` only if both of these are complete, a candidate
file only if all three tables are complete, a plot only if the `.json` file of the same candidate is complete; and every file is
written at most once. -/
theorem C48_prefix_consistent (npeaks nclusters ncands : ℕ) (plot : Bool) (t p : List FileEvent)
    (ht : SaveTrace npeaks nclusters ncands plot t) (hp : p <+: t) :
    (npeaks = 0 → p = []) ∧ p.Nodup ∧
    (∀ f, .complete f ∈ p → .create f ∈ p) ∧
    (.create .clustersCsv ∈ p → .complete .peaksCsv ∈ p) ∧
    (.create .candidatesCsv ∈ p → .complete .peaksCsv ∈ p ∧ (nclusters ≠ 0 → .complete .clustersCsv ∈ p)) ∧
    (∀ r, .create (.candidateJson r) ∈ p → r < ncands ∧ .complete .peaksCsv ∈ p ∧
      (nclusters ≠ 0 → .complete .clustersCsv ∈ p) ∧ .complete .candidatesCsv ∈ p) ∧
    (∀ r, .create (.candidatePng r) ∈ p → plot = true ∧ .complete (.candidateJson r) ∈ p) := by
  have hnd := saveTrace_nodup ht
  have hpnd : p.Nodup := hnd.sublist hp.sublist
  unfold SaveTrace at ht
  by_cases hz : npeaks = 0
  · rw [if_pos hz] at ht
    rw [ht, List.prefix_nil] at hp
    subst hp
    simp
  rw [if_neg hz] at ht
  obtain ⟨u, hu, rfl⟩ := ht
  have hperm := interleaving_perm hu
  have hsub := interleaving_sublist hu
  have hmem : ∀ e ∈ p, e ∈ saveMain nclusters ncands ∨ e ∈ u := fun e he => List.mem_append.1 (hp.subset he)
  have hu_cases : ∀ e ∈ u, ∃ r < ncands, e ∈ writeCandidate plot r := by
    intro e he
    obtain ⟨l, hl, hel⟩ := List.mem_flatten.1 (hperm.mem_iff.1 he)
    obtain ⟨r, hr, rfl⟩ := List.mem_map.1 hl
    exact ⟨r, List.mem_range.1 hr, hel⟩
  have hcand : ∀ r < ncands, (writeCandidate plot r).Sublist u := fun r hr =>
    hsub _ (List.mem_map_of_mem (List.mem_range.2 hr))
  have hord : ∀ a b, [a, b].Sublist (saveMain nclusters ncands ++ u) → b ∈ p → a ∈ p := fun a b h hb =>
    prefix_order hnd h hp hb
  -- pairs within the main process
  have hmain : ∀ a b, [a, b].Sublist (saveMain nclusters ncands) → b ∈ p → a ∈ p := fun a b h hb =>
    hord a b (h.trans (List.sublist_append_left _ _)) hb
  have hmainu : ∀ a b, a ∈ saveMain nclusters ncands → b ∈ u → b ∈ p → a ∈ p := fun a b ha hb hbp =>
    hord a b (List.Sublist.append (List.singleton_sublist.2 ha) (List.singleton_sublist.2 hb)) hbp
  have huu : ∀ r < ncands, ∀ a b, [a, b].Sublist (writeCandidate plot r) → b ∈ p → a ∈ p := fun r hr a b h hb =>
    hord a b ((h.trans (hcand r hr)).trans (List.sublist_append_right _ _)) hb
  have hpk : FileEvent.complete .peaksCsv ∈ saveMain nclusters ncands := by simp [saveMain, writeFile]
  have hcl : nclusters ≠ 0 → FileEvent.complete .clustersCsv ∈ saveMain nclusters ncands := by
    intro h; simp [saveMain, writeFile, h]
  have hcd : ncands ≠ 0 → FileEvent.complete .candidatesCsv ∈ saveMain nclusters ncands := by
    intro h; simp [saveMain, writeFile, h]
  refine ⟨fun h => absurd h hz, hpnd, ?_, ?_, ?_, ?_, ?_⟩
  · intro f hf
    rcases hmem _ hf with h | h
    · refine hmain _ _ ?_ hf
      rcases saveMain_file h with h' | ⟨h', hn⟩ | ⟨h', hn⟩
      all_goals (have h'' : f = _ := h'; subst h''; unfold saveMain writeFile)
      · by_cases h1 : nclusters = 0 <;> by_cases h2 : ncands = 0 <;> simp [h1, h2]
      · by_cases h2 : ncands = 0 <;> simp [hn, h2]
      · by_cases h1 : nclusters = 0
        · rw [if_pos h1, if_neg hn]; decide
        · rw [if_neg h1, if_neg hn]; decide
    · obtain ⟨r, hr, hw⟩ := hu_cases _ h
      refine huu r hr _ _ ?_ hf
      rcases writeCandidate_file hw with h' | ⟨h', hpl⟩
      all_goals (have h'' : f = _ := h'; subst h''; unfold writeCandidate writeFile)
      · cases plot <;> simp
      · rw [hpl]; simp
  · intro h
    rcases hmem _ h with h1 | h1
    · refine hmain _ _ ?_ h
      rcases saveMain_file h1 with h' | ⟨-, hn⟩ | ⟨h', -⟩
      · cases h'
      · unfold saveMain writeFile
        by_cases h2 : ncands = 0 <;> simp [hn, h2]
      · cases h'
    · obtain ⟨r, hr, hw⟩ := hu_cases _ h1
      rcases writeCandidate_file hw with h' | ⟨h', -⟩ <;> cases h'
  · intro h
    rcases hmem _ h with h1 | h1
    · rcases saveMain_file h1 with h' | ⟨h', -⟩ | ⟨-, hn⟩
      · cases h'
      · cases h'
      · refine ⟨hmain _ _ ?_ h, fun hc => hmain _ _ ?_ h⟩
        · unfold saveMain writeFile
          by_cases h2 : nclusters = 0 <;> simp [hn, h2]
        · unfold saveMain writeFile
          rw [if_neg hn, if_neg hc]; decide
    · obtain ⟨r, hr, hw⟩ := hu_cases _ h1
      rcases writeCandidate_file hw with h' | ⟨h', -⟩ <;> cases h'
  · intro r h
    rcases hmem _ h with h1 | h1
    · rcases saveMain_file h1 with h' | ⟨h', -⟩ | ⟨h', -⟩ <;> cases h'
    · obtain ⟨r', hr, hw⟩ := hu_cases _ h1
      have hrr : r = r' := by
        rcases writeCandidate_file hw with h' | ⟨h', -⟩
        · simpa [FileEvent.file] using h'
        · cases h'
      rw [hrr]
      exact ⟨hr, hmainu _ _ hpk h1 h, fun hc => hmainu _ _ (hcl hc) h1 h, hmainu _ _ (hcd (by omega)) h1 h⟩
  · intro r h
    rcases hmem _ h with h1 | h1
    · rcases saveMain_file h1 with h' | ⟨h', -⟩ | ⟨h', -⟩ <;> cases h'
    · obtain ⟨r', hr, hw⟩ := hu_cases _ h1
      rcases writeCandidate_file hw with h' | ⟨h', hpl⟩
      · cases h'
      · have hrr : r = r' := by simpa [FileEvent.file] using h'
        subst hrr
        refine ⟨hpl, huu r hr _ _ ?_ h⟩
        unfold writeCandidate writeFile
        rw [hpl]; simp

/-- C48: a run that is not interrupted writes all products. -/
theorem C48_complete (npeaks nclusters ncands : ℕ) (plot : Bool) (t : List FileEvent) (hz : npeaks ≠ 0)
    (ht : SaveTrace npeaks nclusters ncands plot t) :
    .complete .peaksCsv ∈ t ∧ (nclusters ≠ 0 → .complete .clustersCsv ∈ t) ∧ (ncands ≠ 0 → .complete .candidatesCsv ∈ t) ∧
    ∀ r < ncands, .complete (.candidateJson r) ∈ t ∧ (plot = true → .complete (.candidatePng r) ∈ t) := by
  unfold SaveTrace at ht
  rw [if_neg hz] at ht
  obtain ⟨u, hu, rfl⟩ := ht
  have hsub := interleaving_sublist hu
  refine ⟨by simp [saveMain, writeFile], fun h => by simp [saveMain, writeFile, h], fun h => by simp [saveMain, writeFile, h], ?_⟩
  intro r hr
  have h1 := (hsub _ (List.mem_map_of_mem (f := writeCandidate plot) (List.mem_range.2 hr))).subset
  refine ⟨List.mem_append_right _ (h1 (by simp [writeCandidate, writeFile])), fun hpl => List.mem_append_right _ (h1 ?_)⟩
  simp [writeCandidate, writeFile, hpl]

-- two candidates written concurrently
example : SaveTrace 5 3 2 false (saveMain 3 2 ++ [.create (.candidateJson 1), .create (.candidateJson 0),
    .complete (.candidateJson 0), .complete (.candidateJson 1)]) := by
  unfold SaveTrace
  rw [if_neg (by decide)]
  refine ⟨_, ?_, rfl⟩
  have e : (List.range 2).map (writeCandidate false) =
      [[FileEvent.create (.candidateJson 0), .complete (.candidateJson 0)],
        [.create (.candidateJson 1), .complete (.candidateJson 1)]] := by
    decide
  rw [e]
  refine Interleaving.cons (pre := [[FileEvent.create (.candidateJson 0), .complete (.candidateJson 0)]]) (post := []) ?_
  refine Interleaving.cons (pre := []) (post := [[FileEvent.complete (.candidateJson 1)]]) ?_
  refine Interleaving.cons (pre := []) (post := [[FileEvent.complete (.candidateJson 1)]]) ?_
  refine Interleaving.cons (pre := [[]]) (post := []) ?_
  exact Interleaving.nil (by simp)

/-! ## C64 -/

theorem sortByPeriod_sorted (l : List (HPeak K)) : (sortByPeriod l).Pairwise (fun a b => a.period ≤ b.period) := by
  refine (List.pairwise_mergeSort (le := fun a b : HPeak K => decide (a.period ≤ b.period)) ?_ ?_ _).imp ?_
  · intro a b c h1 h2; simp only [decide_eq_true_eq] at *; exact h1.trans h2
  · intro a b; simp only [Bool.or_eq_true, decide_eq_true_eq]; exact le_total _ _
  · intro a b h; simpa using h

theorem sortByPeriod_perm (l : List (HPeak K)) : (sortByPeriod l).Perm l := List.mergeSort_perm _ _

variable [Field K] [IsStrictOrderedRing K]

/-- C64: peaks sorted by period (as `Pipeline.search` leaves them) are clustered into the friends-of-friends groups of the
frequencies with linking length `radius / tmed`: every peak is in exactly one place, peaks of a cluster are linked by a chain of
peaks whose frequencies differ by at most the linking length, peaks of different clusters differ by more. -/
theorem C64_clusters (argsort : List K → List ℕ) (ha : IsArgsort argsort) (peaks : List (HPeak K)) (radius tmed : K)
    (ht : tmed ≠ 0) (hsort : peaks.Pairwise (fun a b => a.period ≤ b.period))
    (hfreq : ∀ p ∈ peaks, 0 < p.period ∧ p.freq = 1 / p.period) :
    ∃ clusters, clusterPeaks argsort peaks radius tmed = .ok clusters ∧
      (clusters.map (fun c => c.peaks)).flatten.Perm peaks ∧
      (∀ c ∈ clusters, c.peaks ≠ [] ∧ c.rank = none ∧ c.parent = none ∧ c.hfrac = none) ∧
      (∀ c ∈ clusters, ∀ p ∈ c.peaks, ∀ q ∈ c.peaks, Linked (· ∈ peaks) (fun p : HPeak K => p.freq) (radius / tmed) p q) ∧
      clusters.Pairwise (fun c c' => ∀ p ∈ c.peaks, ∀ q ∈ c'.peaks, radius / tmed < |p.freq - q.freq|) := by
  unfold clusterPeaks
  by_cases hz : peaks.length = 0
  · rw [if_pos hz]
    have : peaks = [] := List.eq_nil_of_length_eq_zero hz
    subst this
    exact ⟨[], rfl, by simp, by simp, by simp, List.Pairwise.nil⟩
  rw [if_neg hz]
  have e1 : pyDiv radius tmed = .ok (radius / tmed) := by unfold pyDiv; rw [if_neg ht]
  rw [e1]
  simp only [Except.bind]
  obtain ⟨r, hr⟩ : ∃ r, r = radius / tmed := ⟨_, rfl⟩
  rw [← hr]
  have hmono : (peaks.map (fun p => p.freq)).Pairwise (· ≥ ·) := by
    rw [List.pairwise_map]
    refine hsort.imp_of_mem ?_
    intro a b ha hb h
    rw [(hfreq a ha).2, (hfreq b hb).2]
    exact one_div_le_one_div_of_le (hfreq a ha).1 h
  have hspec := cluster1d_spec argsort ha (peaks.map (fun p => p.freq)) r true (fun _ => Or.inr hmono)
  have hfof := cluster1d_fof argsort ha (peaks.map (fun p => p.freq)) r true (fun _ => Or.inr hmono)
  generalize cluster1d argsort (peaks.map (fun p => p.freq)) r true = C at hspec hfof
  obtain ⟨hperm, hne, hfar, hchain⟩ := hspec
  rw [List.length_map] at hperm
  have hin : ∀ c ∈ C, ∀ i ∈ c, i < peaks.length := fun c hc i hi =>
    List.mem_range.1 (hperm.mem_iff.1 (List.mem_flatten.2 ⟨c, hc, hi⟩))
  obtain ⟨p0, hp0⟩ : ∃ p0, p0 ∈ peaks := List.exists_mem_of_ne_nil _ (fun h => hz (by rw [h]; rfl))
  obtain ⟨x, hx⟩ : ∃ x : ℕ → HPeak K, x = fun i => peaks.getD i p0 := ⟨_, rfl⟩
  have hxget : ∀ i < peaks.length, peaks[i]? = some (x i) := by
    intro i hi
    rw [hx]; simp [List.getD, List.getElem?_eq_getElem hi]
  have hxfreq : ∀ i < peaks.length, (peaks.map (fun p => p.freq)).getD i 0 = (x i).freq := by
    intro i hi
    rw [hx]; simp [List.getD, List.getElem?_eq_getElem hi]
  have hxmem : ∀ i < peaks.length, x i ∈ peaks := by
    intro i hi
    exact List.mem_of_getElem? (hxget i hi)
  have hfm : ∀ c : List ℕ, (∀ i ∈ c, i < peaks.length) → c.filterMap (fun i => peaks[i]?) = c.map x := by
    intro c
    induction c with
    | nil => intro _; rfl
    | cons a c ih =>
      intro h
      rw [List.filterMap_cons, hxget a (h a List.mem_cons_self), List.map_cons,
        ih (fun i hi => h i (List.mem_cons_of_mem _ hi))]
  have hlist : C.map (fun ids => ({ peaks := ids.filterMap (fun i => peaks[i]?) } : PCluster K))
      = C.map (fun ids => ({ peaks := ids.map x } : PCluster K)) := by
    apply List.map_congr_left
    intro c hc
    rw [hfm c (hin c hc)]
  refine ⟨_, rfl, ?_, ?_, ?_, ?_⟩
  · rw [hlist, List.map_map]
    have h1 : (C.map ((fun c : PCluster K => c.peaks) ∘ fun ids => { peaks := ids.map x })).flatten = C.flatten.map x := by
      rw [List.map_flatten]; rfl
    rw [h1]
    refine (hperm.map x).trans ?_
    have h2 : (List.range peaks.length).map x = peaks := by
      apply List.ext_getElem?
      intro i
      by_cases hi : i < peaks.length
      · rw [List.getElem?_map, List.getElem?_range hi, hxget i hi]; rfl
      · rw [List.getElem?_eq_none (by simp; omega), List.getElem?_eq_none (by omega)]
    rw [h2]
  · intro c hc
    rw [hlist] at hc
    obtain ⟨ids, hids, rfl⟩ := List.mem_map.1 hc
    refine ⟨?_, rfl, rfl, rfl⟩
    simp only [ne_eq, List.map_eq_nil_iff]
    exact hne ids hids
  · intro c hc p hp q hq
    rw [hlist] at hc
    obtain ⟨ids, hids, rfl⟩ := List.mem_map.1 hc
    obtain ⟨i, hi, rfl⟩ := List.mem_map.1 hp
    obtain ⟨j, hj, rfl⟩ := List.mem_map.1 hq
    have hl := (hfof.linked hids hi).1 hj
    refine Relation.ReflTransGen.lift x ?_ _ _ hl
    rintro a b ⟨h1, h2, h3⟩
    rw [List.length_map] at h1 h2
    simp only at h3
    rw [hxfreq a h1, hxfreq b h2] at h3
    exact ⟨hxmem a h1, hxmem b h2, h3⟩
  · rw [hlist, List.pairwise_map]
    refine hfar.imp_of_mem ?_
    intro c c' hc hc' h p hp q hq
    obtain ⟨i, hi, rfl⟩ := List.mem_map.1 hp
    obtain ⟨j, hj, rfl⟩ := List.mem_map.1 hq
    have := h i hi j hj
    rwa [hxfreq i (hin c hc i hi), hxfreq j (hin c' hc' j hj)] at this

/-- C64: the hypothesis on the order of the peaks holds for what `Pipeline.search` stores. -/
theorem C64_search_sorted {β : Type*} (f : β → Except PyErr (List (HPeak K))) (s : PoolSchedule) (processes : ℕ) (fnames : List β)
    (peaks : List (HPeak K)) (h : pipelineSearch f s processes fnames = .ok peaks) :
    peaks.Pairwise (fun a b => a.period ≤ b.period) := by
  obtain ⟨l, -, rfl⟩ := map_ok_inv h
  exact sortByPeriod_sorted l

/-- Three peaks, two of them close. -/
def exPeaks : List (HPeak ℚ) := [
  { freq := 2, snr := 9, ducy := 1 / 10, dm := 0, period := 1 / 2 },
  { freq := 1, snr := 8, ducy := 1 / 10, dm := 0, period := 1 },
  { freq := 100 / 101, snr := 10, ducy := 1 / 10, dm := 3, period := 101 / 100 }]

example : (600 : ℚ) ≠ 0 ∧ exPeaks.Pairwise (fun a b => a.period ≤ b.period) ∧
    ∀ p ∈ exPeaks, 0 < p.period ∧ p.freq = 1 / p.period := by decide +kernel
example : ∃ argsort : List ℚ → List ℕ, IsArgsort argsort := ⟨insArgsort, insArgsort_ok⟩

end Verif.Props
