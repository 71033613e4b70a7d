import Verif.Model.Periodogram
import Verif.Lemmas.Downsample
import Verif.Lemmas.Memory

namespace Verif.Lemmas

open Verif.Model Verif.Spec Finset

/-! ## Generic loop rules -/

theorem forE_inv {σ : Type*} (P : ℕ → σ → Prop) (body : ℕ → σ → Except CallErr σ) (n : ℕ) (st : σ) (h0 : P 0 st)
    (step : ∀ i < n, ∀ st, P i st → ∃ st', body i st = .ok st' ∧ P (i + 1) st') :
    ∃ st', forE body n st = .ok st' ∧ P n st' := by
  induction n with
  | zero => exact ⟨st, rfl, h0⟩
  | succ n ih =>
    obtain ⟨s1, e1, p1⟩ := ih (fun i hi => step i (by omega))
    obtain ⟨s2, e2, p2⟩ := step n (by omega) s1 p1
    exact ⟨s2, by rw [forE, e1]; exact e2, p2⟩

theorem forE_error {σ : Type*} (P : ℕ → σ → Prop) (body : ℕ → σ → Except CallErr σ) (n k : ℕ) (hk : k < n)
    (st : σ) (e : CallErr) (h0 : P 0 st)
    (step : ∀ i < k, ∀ st, P i st → ∃ st', body i st = .ok st' ∧ P (i + 1) st')
    (err : ∀ st, P k st → body k st = .error e) :
    forE body n st = .error e := by
  obtain ⟨s1, e1, p1⟩ := forE_inv P body k st h0 step
  induction n with
  | zero => omega
  | succ n ih =>
    by_cases h : k = n
    · subst h
      rw [forE, e1]; exact err s1 p1
    · rw [forE, ih (by omega)]; rfl

theorem storeSeq_spec {β : Type*} (a : ℕ) (v : ℕ → β) (n : ℕ) (mem : Mem β) (h : Alloc mem a n) :
    ∃ mem', storeSeq a v n mem = .ok mem' ∧ Holds mem' a n v ∧ SameOutside mem mem' a n := by
  unfold storeSeq
  apply forE_inv (fun i m => Holds m a i v ∧ SameOutside mem m a i)
  · exact ⟨fun i hi => absurd hi (by omega), fun _ _ => rfl⟩
  · intro i hi m ⟨h1, h2⟩
    refine ⟨_, by rw [store_of_alloc _ (by rw [h2 _ (by omega)]; exact h i hi)]; rfl, ?_, ?_⟩
    · intro j hj
      by_cases hji : j = i
      · subst hji; simp
      · simp only
        rw [if_neg (by omega)]
        exact h1 j (by omega)
    · intro b hb
      simp only
      rw [if_neg (by omega)]
      exact h2 b (by omega)

theorem loadRow_spec {mem : Mem ℝ} {a n : ℕ} {x : ℕ → ℝ} (h : Holds mem a n x) :
    loadRow mem a n = .ok (fun i => if i < n then x i else 0) := by
  unfold loadRow
  rw [if_pos]
  · congr 1
    funext i
    split_ifs with hi
    · rw [load_of_val (h i hi)]; rfl
    · rfl
  · rw [List.all_eq_true]
    intro i hi
    rw [load_of_val (h i (by simpa using hi))]
    rfl

/-- What `snr1` returns for a row of `n` bins. -/
noncomputable def snrRow (n : ℕ) (x : ℕ → ℝ) (widths : List ℕ) (std : ℝ) : List ℝ :=
  widths.map (snrWidth n (fun j => (circularPrefixSum (fun i => if i < n then x i else 0) n
    (n + maxWidth widths) j).getD 0) std)

theorem snrRow_length (n : ℕ) (x : ℕ → ℝ) (widths : List ℕ) (std : ℝ) :
    (snrRow n x widths std).length = widths.length := by
  simp [snrRow]

theorem snr2Mem_spec (mem : Mem ℝ) (block rows bins : ℕ) (hb : 1 ≤ bins) (widths : List ℕ) (hne : widths ≠ [])
    (std : ℝ) (out : ℕ) (snr : Mem ℝ) (x : ℕ → ℕ → ℝ) (hx : HoldsBlock mem block rows bins x)
    (ho : Alloc snr out (rows * widths.length)) :
    ∃ snr', snr2Mem mem block rows bins widths std out snr = .ok snr' ∧
      (∀ i < rows, ∀ k < widths.length,
        snr' (out + i * widths.length + k) = .val ((snrRow bins (x i) widths std).getD k 0)) ∧
      SameOutside snr snr' out (rows * widths.length) := by
  unfold snr2Mem
  set nw := widths.length with hnw
  have key := forE_inv (fun r m => (∀ i < r, ∀ k < nw,
      m (out + i * nw + k) = .val ((snrRow bins (x i) widths std).getD k 0)) ∧
      SameOutside snr m out (r * nw))
    (fun i snr => (loadRow mem (block + i * bins) bins).bind fun row =>
      (snr1 bins row widths std).bind fun vs =>
      storeSeq (out + i * nw) (fun k => vs.getD k 0) nw snr) rows snr
    ⟨fun i hi => absurd hi (by omega), fun _ _ => rfl⟩ ?_
  · exact key
  · intro i hi m ⟨h1, h2⟩
    have hrow : Holds mem (block + i * bins) bins (x i) := fun c hc => hx i hi c hc
    rw [loadRow_spec hrow]
    simp only [Except.bind]
    rw [snr1_ok bins hb _ widths hne std]
    simp only
    have hib := row_bound' (p := nw) hi
    obtain ⟨m', e, g, s⟩ := storeSeq_spec (out + i * nw) (fun k => (snrRow bins (x i) widths std).getD k 0) nw m
      (by
        intro k hk
        rw [h2 _ (by omega), Nat.add_assoc]
        exact ho _ (by omega))
    refine ⟨m', e, ?_, ?_⟩
    · intro i' hi' k hk
      by_cases h : i' = i
      · subst h; exact g k hk
      · have := row_bound' (p := nw) (show i' < i by omega)
        rw [s _ (by omega)]
        exact h1 i' (by omega) k hk
    · intro b hb'
      rw [Nat.succ_mul] at hb'
      rw [s b (by omega)]
      exact h2 b (by omega)

/-! ## Lists of trials -/

/-- Trials of one fold, one stage, the first stages. A trial is (stage, bins, shift). -/
noncomputable def foldTrials (a : PgArgs) (ids bins : ℕ) : List (ℕ × ℕ × ℕ) :=
  (List.range (a.rowsEval ids bins)).map (fun s => (ids, bins, s))

noncomputable def stagePrefix (a : PgArgs) (ids j : ℕ) : List (ℕ × ℕ × ℕ) :=
  (List.range j).flatMap (fun t => foldTrials a ids (a.bmin + t))

noncomputable def stageTrials (a : PgArgs) (ids : ℕ) : List (ℕ × ℕ × ℕ) :=
  stagePrefix a ids (a.bstop ids + 1 - a.bmin)

noncomputable def trialsPrefix (a : PgArgs) (i : ℕ) : List (ℕ × ℕ × ℕ) :=
  (List.range i).flatMap (stageTrials a)

noncomputable def trials (a : PgArgs) : List (ℕ × ℕ × ℕ) := trialsPrefix a a.numDs

theorem stagePrefix_succ (a : PgArgs) (ids j : ℕ) :
    stagePrefix a ids (j + 1) = stagePrefix a ids j ++ foldTrials a ids (a.bmin + j) := by
  simp [stagePrefix, List.range_succ]

theorem trialsPrefix_succ (a : PgArgs) (i : ℕ) :
    trialsPrefix a (i + 1) = trialsPrefix a i ++ stageTrials a i := by
  simp [trialsPrefix, List.range_succ]

theorem foldTrials_length (a : PgArgs) (ids bins : ℕ) : (foldTrials a ids bins).length = a.rowsEval ids bins := by
  simp [foldTrials]

theorem loopSum_mono (g : ℕ → ℕ) {i j : ℕ} (h : i ≤ j) : loopSum g i ≤ loopSum g j := by
  induction j, h using Nat.le_induction with
  | base => exact le_rfl
  | succ j _ ih => exact ih.trans (Nat.le_add_right _ _)

theorem stagePrefix_length (a : PgArgs) (ids j : ℕ) :
    (stagePrefix a ids j).length = loopSum (fun j => a.rowsEval ids (a.bmin + j)) j := by
  induction j with
  | zero => simp [stagePrefix, loopSum]
  | succ j ih => rw [stagePrefix_succ, List.length_append, ih, foldTrials_length, loopSum]

theorem trialsPrefix_length (a : PgArgs) (i : ℕ) :
    (trialsPrefix a i).length = loopSum (fun ids =>
      loopSum (fun j => a.rowsEval ids (a.bmin + j)) (a.bstop ids + 1 - a.bmin)) i := by
  induction i with
  | zero => simp [trialsPrefix, loopSum]
  | succ i ih => rw [trialsPrefix_succ, List.length_append, ih, stageTrials, stagePrefix_length, loopSum]

theorem periodogramLength_eq (a : PgArgs) (h : a.Valid) : periodogramLength a = .ok (trials a).length := by
  unfold periodogramLength
  rw [if_neg (by simpa using h), trials, trialsPrefix_length]

theorem mem_trials {a : PgArgs} {ids b s : ℕ} :
    (ids, b, s) ∈ trials a ↔ ids < a.numDs ∧ a.bmin ≤ b ∧ b ≤ a.bstop ids ∧ s < a.rowsEval ids b := by
  simp only [trials, trialsPrefix, stageTrials, stagePrefix, foldTrials, List.mem_flatMap, List.mem_range,
    List.mem_map, Prod.mk.injEq]
  constructor
  · rintro ⟨i, hi, j, hj, s', hs', rfl, rfl, rfl⟩
    exact ⟨hi, by omega, by omega, hs'⟩
  · rintro ⟨h1, h2, h3, h4⟩
    exact ⟨ids, h1, b - a.bmin, by omega, s, by rwa [Nat.add_sub_cancel' h2], rfl, by omega, rfl⟩

/-! ## Facts about the arguments -/

section args
variable {a : PgArgs} (hv : a.Valid)
include hv

theorem dsIni_ge : 1 ≤ a.dsIni := by
  obtain ⟨h1, h2, h3, h4, h5, h6⟩ := hv
  have hb : (0 : ℝ) < a.bmin := by exact_mod_cast (by omega : 0 < a.bmin)
  unfold PgArgs.dsIni
  rw [le_div_iff₀ (by positivity)]
  linarith

theorem dsGeo_gt : 1 < a.dsGeo := by
  obtain ⟨h1, h2, h3, h4, h5, h6⟩ := hv
  have hb : (0 : ℝ) < a.bmin := by exact_mod_cast (by omega : 0 < a.bmin)
  have : (a.bmin : ℝ) ≤ a.bmax := by exact_mod_cast h5
  unfold PgArgs.dsGeo
  rw [lt_div_iff₀ hb]
  linarith

theorem f_ge (ids : ℕ) : a.dsIni ≤ a.f ids := by
  have h1 := dsIni_ge hv
  have h2 := dsGeo_gt hv
  unfold PgArgs.f
  have : 1 ≤ a.dsGeo ^ ids := one_le_pow₀ h2.le
  nlinarith

theorem f_ge_one (ids : ℕ) : 1 ≤ a.f ids := (dsIni_ge hv).trans (f_ge hv ids)

omit hv in
theorem f_succ (ids : ℕ) : a.f (ids + 1) = a.f ids * a.dsGeo := by
  unfold PgArgs.f; rw [pow_succ]; ring

theorem f_mono {i j : ℕ} (h : i ≤ j) : a.f i ≤ a.f j := by
  induction j, h using Nat.le_induction with
  | base => exact le_rfl
  | succ j _ ih =>
    rw [f_succ]
    have := f_ge_one hv j
    have := dsGeo_gt hv
    nlinarith

theorem tau_pos (ids : ℕ) : 0 < a.tau ids := by
  have := f_ge_one hv ids
  have := hv.1
  unfold PgArgs.tau
  positivity

theorem tau_zero : a.tau 0 * a.bmin = a.pmin := by
  obtain ⟨h1, h2, h3, h4, h5, h6⟩ := hv
  have hb : (0 : ℝ) < a.bmin := by exact_mod_cast (by omega : 0 < a.bmin)
  unfold PgArgs.tau PgArgs.f PgArgs.dsIni
  field_simp

theorem tau_succ (ids : ℕ) : a.tau (ids + 1) * a.bmin = a.tau ids * (a.bmax + 1) := by
  have hb : (0 : ℝ) < a.bmin := by exact_mod_cast (by have := hv.2.2.2.1; omega : 0 < a.bmin)
  unfold PgArgs.tau
  rw [f_succ, PgArgs.dsGeo]
  field_simp

theorem n_le (ids : ℕ) : a.n ids ≤ downsampledSize a.size a.dsIni := by
  have h1 := dsIni_ge hv
  have h2 := f_ge hv ids
  unfold PgArgs.n downsampledSize
  apply Nat.floor_le_floor
  exact div_le_div_of_nonneg_left (Nat.cast_nonneg _) (by linarith) h2

theorem variance_pos (ids : ℕ) : 0 < downsampledVariance a.size (a.f ids) := by
  have h1 := f_ge_one hv ids
  unfold downsampledVariance
  simp only
  split_ifs
  · linarith
  · generalize (downsampledSize a.size (a.f ids) : ℝ) * (a.f ids - ⌊a.f ids⌋) = x
    nlinarith [sq_nonneg ((⌊a.f ids⌋ : ℝ) - 1), sq_nonneg (x - 3 / 4)]

end args

/-! ## The search -/

/-- The series searched at stage `ids`. -/
noncomputable def stageData (a : PgArgs) (x : ℕ → ℝ) (ids k : ℕ) : ℝ :=
  if a.f ids = 1 then x k else stepIntegral a.size x ((k : ℝ) * a.f ids) ((k : ℝ) * a.f ids + a.f ids)

noncomputable def perOf (a : PgArgs) (t : ℕ × ℕ × ℕ) : ℝ :=
  a.tau t.1 * t.2.1 * t.2.1 / (t.2.1 - t.2.2 / (((a.n t.1 / t.2.1 : ℕ) : ℝ) - 1))

noncomputable def stdOf (a : PgArgs) (t : ℕ × ℕ × ℕ) : ℝ :=
  Real.sqrt ((a.n t.1 / t.2.1 : ℕ) * downsampledVariance a.size (a.f t.1))

noncomputable def profOf (idx : IdxRule) (a : PgArgs) (x : ℕ → ℝ) (t : ℕ × ℕ × ℕ) : ℕ → ℝ :=
  transform (· + ·) idx (a.n t.1 / t.2.1) t.2.1 (fun r c => stageData a x t.1 (r * t.2.1 + c)) t.2.2

noncomputable def snrOf (idx : IdxRule) (a : PgArgs) (x : ℕ → ℝ) (widths : List ℕ) (t : ℕ × ℕ × ℕ) : List ℝ :=
  snrRow t.2.1 (profOf idx a x t) widths (stdOf a t)

/-- Invariant of the search after the trials `T`. -/
structure PgInv (idx : IdxRule) (a : PgArgs) (L : PgLayout) (x : ℕ → ℝ) (widths : List ℕ) (cap buf : ℕ)
    (T : List (ℕ × ℕ × ℕ)) (st : PgState) : Prop where
  ppos : st.ppos = T.length
  spos : st.spos = T.length * widths.length
  per : ∀ j (h : j < T.length), st.per j = .val (perOf a T[j])
  fb : ∀ j (h : j < T.length), st.fb j = .val T[j].2.1
  snr : ∀ j (h : j < T.length), ∀ k < widths.length,
    st.snr (j * widths.length + k) = .val ((snrOf idx a x widths T[j]).getD k 0)
  perAlloc : Alloc st.per 0 cap
  fbAlloc : Alloc st.fb 0 cap
  snrAlloc : Alloc st.snr 0 (cap * widths.length)
  data : Holds st.mem L.data a.size x
  inputAlloc : Alloc st.mem L.input buf
  bufAlloc : Alloc st.mem L.ffabuf buf
  outAlloc : Alloc st.mem L.ffaout buf

/-- The buffers do not overlap. -/
structure PgDisj (a : PgArgs) (L : PgLayout) (buf : ℕ) : Prop where
  di : Disj L.data a.size L.input buf
  db : Disj L.data a.size L.ffabuf buf
  dout : Disj L.data a.size L.ffaout buf
  ib : Disj L.input buf L.ffabuf buf
  io : Disj L.input buf L.ffaout buf
  bo : Disj L.ffabuf buf L.ffaout buf

theorem alloc_append {α : Type*} {mem mem' : Mem α} {c a n : ℕ} {v : ℕ → α} (h : Alloc mem 0 c)
    (g : Holds mem' a n v) (s : SameOutside mem mem' a n) : Alloc mem' 0 c := by
  intro i hi
  by_cases hc : a ≤ 0 + i ∧ 0 + i < a + n
  · obtain ⟨d, hd⟩ := Nat.exists_eq_add_of_le hc.1
    rw [hd, g d (by omega)]
    exact fun h => nomatch h
  · rw [s _ (by omega)]; exact h i hi

theorem fold_step {idx : IdxRule} {a : PgArgs} {L : PgLayout} {x : ℕ → ℝ} {widths : List ℕ} {cap buf : ℕ}
    (hv : a.Valid) (hne : widths ≠ []) (hidx : ∀ m ≤ a.size / a.bmin, 3 ≤ m → IdxOK idx m)
    (hd : PgDisj a L buf) (hbuf : buf = downsampledSize a.size a.dsIni) (ids bins input : ℕ)
    (hb1 : a.bmin ≤ bins) (hb2 : bins ≤ a.bstop ids)
    (hin : Disj input (a.n ids) L.ffabuf buf ∧ Disj input (a.n ids) L.ffaout buf)
    (T : List (ℕ × ℕ × ℕ)) (hcap : T.length + a.rowsEval ids bins ≤ cap) (st : PgState)
    (inv : PgInv idx a L x widths cap buf T st) (hxi : Holds st.mem input (a.n ids) (stageData a x ids)) :
    ∃ st', pgFold idx a L widths input ids bins st = .ok st' ∧
      PgInv idx a L x widths cap buf (T ++ foldTrials a ids bins) st' ∧
      Holds st'.mem input (a.n ids) (stageData a x ids) := by
  have hbm := hv.2.2.2.1
  have hbn : bins ≤ a.n ids := by
    unfold PgArgs.bstop at hb2
    exact hb2.trans ((min_le_left _ _).trans (min_le_right _ _))
  have hnb := n_le hv ids
  rw [← hbuf] at hnb
  have hnN : a.n ids ≤ a.size := by
    have h1 := f_ge_one hv ids
    unfold PgArgs.n downsampledSize
    apply Nat.floor_le_of_le
    exact div_le_self (Nat.cast_nonneg _) h1
  have hrows : 1 ≤ a.n ids / bins := (Nat.one_le_div_iff (by omega)).mpr hbn
  have hmul : a.n ids / bins * bins ≤ a.n ids := Nat.div_mul_le_self _ _
  have hrN : a.n ids / bins ≤ a.size / a.bmin := Nat.div_le_div hnN hb1 (by omega)
  have hre : a.rowsEval ids bins ≤ a.n ids / bins := min_le_left _ _
  unfold pgFold
  simp only
  have hro : a.rowsEval ids bins * bins ≤ a.n ids / bins * bins := Nat.mul_le_mul_right _ hre
  obtain ⟨mem', e1, hout, fr⟩ := transformMem_spec (α := ℝ) (· + ·) idx bins (by omega) (a.n ids / bins) hrows
    (fun m' h3 h4 => hidx m' (by omega) h4) input L.ffabuf L.ffaout st.mem
    (fun r c => stageData a x ids (r * bins + c))
    (fun r hr c hc => by
      have := row_bound hr hc
      rw [Nat.add_assoc]; exact hxi _ (by omega))
    (fun i hi => inv.bufAlloc i (by omega)) (fun i hi => inv.outAlloc i (by omega))
    (by unfold Disj at *; omega) (by unfold Disj at *; omega)
    (by have := hd.bo; unfold Disj at *; omega)
  rw [e1]
  simp only [orUB, Except.bind]
  -- S/N
  obtain ⟨snr', e2, hs, so⟩ := snr2Mem_spec mem' L.ffaout (a.rowsEval ids bins) bins (by omega) widths hne
    (Real.sqrt ((a.n ids / bins : ℕ) * downsampledVariance a.size (a.f ids))) st.spos st.snr _
    (fun r hr c hc => hout r (by omega) c hc)
    (by
      intro i hi
      have h1 := inv.snrAlloc (st.spos + i) (by
        rw [inv.spos]
        have := Nat.mul_le_mul_right widths.length hcap
        rw [Nat.add_mul] at this
        omega)
      rwa [Nat.zero_add] at h1)
  rw [e2]
  simp only
  obtain ⟨per', e3, hp, po⟩ := storeSeq_spec st.ppos
    (fun s => a.tau ids * bins * bins / (bins - s / (((a.n ids / bins : ℕ) : ℝ) - 1))) (a.rowsEval ids bins) st.per
    (by
      intro i hi
      have := inv.perAlloc (st.ppos + i) (by rw [inv.ppos]; omega)
      rwa [Nat.zero_add] at this)
  rw [e3]
  simp only
  obtain ⟨fb', e4, hf, fo⟩ := storeSeq_spec st.ppos (fun _ => bins) (a.rowsEval ids bins) st.fb
    (by
      intro i hi
      have := inv.fbAlloc (st.ppos + i) (by rw [inv.ppos]; omega)
      rwa [Nat.zero_add] at this)
  rw [e4]
  simp only
  have hpp := inv.ppos
  have hsp := inv.spos
  refine ⟨_, rfl, ?_, ?_⟩
  · have hlen : (T ++ foldTrials a ids bins).length = T.length + a.rowsEval ids bins := by
      rw [List.length_append, foldTrials_length]
    refine ⟨by rw [hlen, hpp], by rw [hlen, hsp, Nat.add_mul], ?_, ?_, ?_, ?_, ?_, ?_, ?_, ?_, ?_, ?_⟩
    · intro j hj
      simp only
      by_cases h : j < T.length
      · rw [po _ (by omega), inv.per j h, List.getElem_append_left h]
      · have h' : T.length ≤ j := by omega
        rw [hlen] at hj
        have := hp (j - T.length) (by omega)
        rw [show st.ppos + (j - T.length) = j by omega] at this
        rw [this, List.getElem_append_right h']
        simp [foldTrials, perOf]
    · intro j hj
      simp only
      by_cases h : j < T.length
      · rw [fo _ (by omega), inv.fb j h, List.getElem_append_left h]
      · have h' : T.length ≤ j := by omega
        rw [hlen] at hj
        have := hf (j - T.length) (by omega)
        rw [show st.ppos + (j - T.length) = j by omega] at this
        rw [this, List.getElem_append_right h']
        simp [foldTrials]
    · intro j hj k hk
      simp only
      by_cases h : j < T.length
      · have := row_bound h hk
        rw [so _ (by omega), inv.snr j h k hk, List.getElem_append_left h]
      · have h' : T.length ≤ j := by omega
        rw [hlen] at hj
        have := hs (j - T.length) (by omega) k hk
        rw [hsp, ← Nat.add_mul, show T.length + (j - T.length) = j by omega] at this
        rw [this, List.getElem_append_right h']
        simp [foldTrials, snrOf, profOf, stdOf]
    · exact alloc_append inv.perAlloc hp po
    · exact alloc_append inv.fbAlloc hf fo
    · have := inv.snrAlloc
      intro i hi
      by_cases hc : st.spos ≤ i ∧ i < st.spos + a.rowsEval ids bins * widths.length
      · have hw : 0 < widths.length := List.length_pos_iff.mpr hne
        have h1 := Nat.div_add_mod (i - st.spos) widths.length
        have h2 := Nat.mod_lt (i - st.spos) hw
        have h3 : (i - st.spos) / widths.length < a.rowsEval ids bins := by
          rw [Nat.div_lt_iff_lt_mul hw]; omega
        have h4 := hs _ h3 _ h2
        rw [Nat.add_assoc, Nat.mul_comm, h1, show st.spos + (i - st.spos) = i by omega] at h4
        rw [Nat.zero_add]
        simp only
        rw [h4]
        exact fun h => nomatch h
      · simp only
        rw [so _ (by omega)]; exact this i hi
    · intro i hi
      simp only
      have h1 := hd.db
      have h2 := hd.dout
      rw [fr.same _ (by unfold Disj at *; omega) (by unfold Disj at *; omega)]
      exact inv.data i hi
    · intro i hi
      simp only
      have h1 := hd.ib
      have h2 := hd.io
      rw [fr.same _ (by unfold Disj at *; omega) (by unfold Disj at *; omega)]
      exact inv.inputAlloc i hi
    · intro i hi
      simp only
      by_cases h : i < a.n ids / bins * bins
      · exact fr.tempAlloc i h
      · have h1 := hd.bo
        rw [fr.same _ (by unfold Disj at *; omega) (by unfold Disj at *; omega)]
        exact inv.bufAlloc i hi
    · intro i hi
      simp only
      by_cases h : i < a.n ids / bins * bins
      · exact fr.outAlloc i h
      · have h1 := hd.bo
        rw [fr.same _ (by unfold Disj at *; omega) (by unfold Disj at *; omega)]
        exact inv.outAlloc i hi
  · intro i hi
    simp only
    rw [fr.same _ (by unfold Disj at *; omega) (by unfold Disj at *; omega)]
    exact hxi i hi

theorem stage_step {idx : IdxRule} {a : PgArgs} {L : PgLayout} {x : ℕ → ℝ} {widths : List ℕ} {cap buf : ℕ}
    (hv : a.Valid) (hne : widths ≠ []) (hidx : ∀ m ≤ a.size / a.bmin, 3 ≤ m → IdxOK idx m)
    (hd : PgDisj a L buf) (hbuf : buf = downsampledSize a.size a.dsIni) (ids : ℕ)
    (hfs : a.f ids = 1 ∨ a.f ids ≤ a.size) (T : List (ℕ × ℕ × ℕ)) (hcap : T.length + (stageTrials a ids).length ≤ cap)
    (st : PgState) (inv : PgInv idx a L x widths cap buf T st) :
    ∃ st', pgStage idx a L widths ids st = .ok st' ∧
      PgInv idx a L x widths cap buf (T ++ stageTrials a ids) st' := by
  have hnb := n_le hv ids
  rw [← hbuf] at hnb
  unfold pgStage
  simp only
  -- the state after preparing the input
  obtain ⟨st1, e1, inv1, hx1, hin⟩ : ∃ st1,
      (if a.f ids = 1 then Except.ok st
        else (downsampleMem L.data a.size (a.f ids) L.input st.mem).bind fun mem =>
          Except.ok { st with mem }) = .ok st1 ∧
      PgInv idx a L x widths cap buf T st1 ∧
      Holds st1.mem (if a.f ids = 1 then L.data else L.input) (a.n ids) (stageData a x ids) ∧
      Disj (if a.f ids = 1 then L.data else L.input) (a.n ids) L.ffabuf buf ∧
        Disj (if a.f ids = 1 then L.data else L.input) (a.n ids) L.ffaout buf := by
    by_cases h1 : a.f ids = 1
    · have hn : a.n ids = a.size := by
        unfold PgArgs.n downsampledSize
        rw [h1, div_one, Nat.floor_natCast]
      simp only [h1, if_true]
      refine ⟨st, rfl, inv, ?_, ?_, ?_⟩
      · rw [hn]
        intro i hi
        rw [inv.data i hi]
        simp [stageData, h1]
      · rw [hn]; exact hd.db
      · rw [hn]; exact hd.dout
    · simp only [h1, if_false]
      have hf1 : 1 < a.f ids := lt_of_le_of_ne (f_ge_one hv ids) (Ne.symm h1)
      obtain ⟨mem', e, hh, so⟩ := downsampleMem_spec L.data a.size (a.f ids) L.input st.mem x
        ⟨hf1, hfs.resolve_left h1⟩ inv.data
        (fun i hi => inv.inputAlloc i (by unfold PgArgs.n at hnb; omega))
        (by have := hd.di; unfold Disj PgArgs.n at *; omega)
      rw [e]
      refine ⟨_, rfl, ?_, ?_, ?_, ?_⟩
      · have d1 := hd.di
        have d2 := hd.ib
        have d3 := hd.io
        unfold PgArgs.n at hnb
        refine { inv with data := ?_, inputAlloc := ?_, bufAlloc := ?_, outAlloc := ?_ }
        · intro i hi
          simp only
          rw [so _ (by unfold Disj at *; omega)]
          exact inv.data i hi
        · intro i hi
          simp only
          by_cases h : i < downsampledSize a.size (a.f ids)
          · rw [hh i h]; exact fun h => nomatch h
          · rw [so _ (by omega)]; exact inv.inputAlloc i hi
        · intro i hi
          simp only
          rw [so _ (by unfold Disj at *; omega)]
          exact inv.bufAlloc i hi
        · intro i hi
          simp only
          rw [so _ (by unfold Disj at *; omega)]
          exact inv.outAlloc i hi
      · intro i hi
        simp only
        rw [hh i hi]
        simp [stageData, h1]
      · have := hd.ib; unfold Disj at *; omega
      · have := hd.io; unfold Disj at *; omega
  rw [e1]
  simp only [Except.bind]
  generalize (if a.f ids = 1 then L.data else L.input) = input at *
  obtain ⟨st', e, p⟩ := forE_inv
    (fun j s => PgInv idx a L x widths cap buf (T ++ stagePrefix a ids j) s ∧
      Holds s.mem input (a.n ids) (stageData a x ids))
    (fun j => pgFold idx a L widths input ids (a.bmin + j)) (a.bstop ids + 1 - a.bmin) st1
    ⟨by simpa [stagePrefix] using inv1, hx1⟩
    (by
      intro j hj s ⟨i1, i2⟩
      have hl : loopSum (fun j => a.rowsEval ids (a.bmin + j)) (j + 1) ≤
          loopSum (fun j => a.rowsEval ids (a.bmin + j)) (a.bstop ids + 1 - a.bmin) := loopSum_mono _ hj
      rw [loopSum] at hl
      obtain ⟨s', e', p1, p2⟩ := fold_step hv hne hidx hd hbuf ids (a.bmin + j) input (by omega) (by omega) hin _
        (by
          rw [List.length_append, stagePrefix_length]
          rw [stageTrials, stagePrefix_length] at hcap
          omega) s i1 i2
      refine ⟨s', e', ?_, p2⟩
      rw [stagePrefix_succ, ← List.append_assoc]
      exact p1)
  exact ⟨st', e, p.1⟩

theorem stage_fails {idx : IdxRule} {a : PgArgs} {L : PgLayout} {widths : List ℕ}
    (ids : ℕ) (h1 : a.f ids ≠ 1) (h0 : (a.size : ℝ) < a.f ids) (st : PgState) :
    pgStage idx a L widths ids st = .error .valueError := by
  unfold pgStage
  simp only
  rw [if_neg h1]
  unfold downsampleMem
  rw [if_pos (by intro h; exact absurd h.2 (not_le.mpr h0))]
  rfl

theorem range_map_getD {β : Type*} (l : List β) (d : β) : (List.range l.length).map (fun j => l.getD j d) = l := by
  apply List.ext_getElem
  · simp
  · intro i h1 h2
    simp [h2]

theorem readArray_list {β : Type*} [Inhabited β] {mem : Mem β} {a : ℕ} (l : List β)
    (h : ∀ j (hj : j < l.length), mem (a + j) = .val l[j]) : readArray mem a l.length = .ok l := by
  rw [readArray_spec (g := fun j => l.getD j default) (fun j hj => by rw [h j hj]; simp [hj]), range_map_getD]

/-- The binding in closed form: either all stages can be downsampled and the output lists all trials, or `ValueError`. -/
theorem periodogramBinding_eq (idx : IdxRule) (data : List ℝ) (tsamp : ℝ) (widths : List ℕ) (hne : widths ≠ [])
    (pmin pmax : ℝ) (bmin bmax : ℕ) (a : PgArgs) (ha : a = ⟨data.length, tsamp, pmin, pmax, bmin, bmax⟩)
    (hidx : ∀ m ≤ data.length / bmin, 3 ≤ m → IdxOK idx m) :
    (¬ a.Valid → periodogramBinding idx data tsamp widths pmin pmax bmin bmax = .error .valueError) ∧
    (a.Valid → (∃ i < a.numDs, ¬ (a.f i = 1 ∨ a.f i ≤ a.size)) →
      periodogramBinding idx data tsamp widths pmin pmax bmin bmax = .error .valueError) ∧
    (a.Valid → (∀ i < a.numDs, a.f i = 1 ∨ a.f i ≤ a.size) →
      periodogramBinding idx data tsamp widths pmin pmax bmin bmax =
        .ok ((trials a).map (perOf a), (trials a).map (fun t => t.2.1),
          (trials a).map (snrOf idx a (fun i => data.getD i 0) widths))) := by
  subst ha
  set a : PgArgs := ⟨data.length, tsamp, pmin, pmax, bmin, bmax⟩ with ha
  set x : ℕ → ℝ := fun i => data.getD i 0 with hx
  set buf := downsampledSize a.size a.dsIni with hbuf
  have hsize : a.size = data.length := rfl
  set L : PgLayout :=
    { data := 0, input := data.length, ffabuf := data.length + buf, ffaout := data.length + buf + buf } with hL
  set st0 : PgState :=
    { mem := callMem data (buf + buf + buf), per := freshMem ℝ (trials a).length,
      fb := freshMem ℕ (trials a).length, snr := freshMem ℝ ((trials a).length * widths.length), ppos := 0,
      spos := 0 } with hst0
  have hd : PgDisj a L buf := by
    constructor <;> simp only [hL, hsize, Disj] <;> omega
  have hfresh : ∀ (β : Type) (n : ℕ), Alloc (freshMem β n) 0 n := by
    intro β n i hi
    simp [freshMem, hi]
  have hcall : ∀ o, o + buf ≤ buf + buf + buf → Alloc st0.mem (data.length + o) buf := by
    intro o ho i hi
    simp only [hst0, callMem]
    rw [dif_neg (by omega), if_pos (by omega)]
    exact fun h => nomatch h
  have inv0 : PgInv idx a L x widths (trials a).length buf (trialsPrefix a 0) st0 := by
    refine ⟨by simp [trialsPrefix, hst0], by simp [trialsPrefix, hst0], ?_, ?_, ?_, hfresh _ _, hfresh _ _,
      hfresh _ _, ?_, hcall 0 (by omega), hcall buf (by omega), ?_⟩
    · intro j hj; simp [trialsPrefix] at hj
    · intro j hj; simp [trialsPrefix] at hj
    · intro j hj; simp [trialsPrefix] at hj
    · intro i hi
      have hi' : i < data.length := hi
      simp only [hst0, hL, callMem, Nat.zero_add]
      rw [dif_pos hi']
      simp [hx, hi']
    · have := hcall (buf + buf) (by omega)
      rw [← Nat.add_assoc] at this
      exact this
  have step : ∀ (hv : a.Valid) (k : ℕ), k ≤ a.numDs → (∀ i < k, a.f i = 1 ∨ a.f i ≤ a.size) → ∀ i < k, ∀ st,
      PgInv idx a L x widths (trials a).length buf (trialsPrefix a i) st →
      ∃ st', pgStage idx a L widths i st = .ok st' ∧
        PgInv idx a L x widths (trials a).length buf (trialsPrefix a (i + 1)) st' := by
    intro hv k hk hfk i hi st inv
    rw [trialsPrefix_succ]
    apply stage_step hv hne hidx hd hbuf i (hfk i hi) _ _ st inv
    rw [← List.length_append, ← trialsPrefix_succ, trials, trialsPrefix_length, trialsPrefix_length]
    exact loopSum_mono _ (by omega)
  refine ⟨?_, ?_, ?_⟩
  · intro hv
    unfold periodogramBinding periodogramLength
    simp only
    rw [← ha, if_pos hv]
    rfl
  · intro hv hex
    classical
    have hk := Nat.find_spec hex
    have hmin := fun i => Nat.find_min hex (m := i)
    generalize Nat.find hex = k at hk hmin
    unfold periodogramBinding
    simp only
    rw [← ha, periodogramLength_eq a hv]
    simp only [Except.bind]
    rw [← hsize, ← hbuf]
    unfold periodogramMem
    rw [if_neg (by simpa using hv)]
    rw [forE_error (fun i st => PgInv idx a L x widths (trials a).length buf (trialsPrefix a i) st)
      (pgStage idx a L widths) a.numDs k hk.1 st0 .valueError inv0
      (step hv k hk.1.le (fun i hi => by
        by_contra hc
        exact hmin i hi ⟨by omega, hc⟩))
      (fun st _ => by
        have := hk.2
        push Not at this
        exact stage_fails k this.1 this.2 st)]
  · intro hv hall
    unfold periodogramBinding
    simp only
    rw [← ha, periodogramLength_eq a hv]
    simp only [Except.bind]
    unfold periodogramMem
    rw [if_neg (by simpa using hv)]
    obtain ⟨st', e, inv⟩ := forE_inv (fun i st => PgInv idx a L x widths (trials a).length buf (trialsPrefix a i) st)
      (pgStage idx a L widths) a.numDs st0 inv0 (step hv a.numDs le_rfl hall)
    rw [e]
    simp only
    have inv' : PgInv idx a L x widths (trials a).length buf (trials a) st' := inv
    have r1 := readArray_list (mem := st'.per) (a := 0) ((trials a).map (perOf a)) (fun j hj => by
      rw [List.length_map] at hj
      rw [Nat.zero_add, inv'.per j hj, List.getElem_map])
    have r2 := readArray_list (mem := st'.fb) (a := 0) ((trials a).map (fun t => t.2.1)) (fun j hj => by
      rw [List.length_map] at hj
      rw [Nat.zero_add, inv'.fb j hj, List.getElem_map])
    rw [List.length_map] at r1 r2
    rw [r1, r2]
    simp only
    rw [mapM_ok _ _ (fun j => snrOf idx a x widths ((trials a).getD j (0, 0, 0))) ?_]
    · have : (List.range (trials a).length).map (fun j => snrOf idx a x widths ((trials a).getD j (0, 0, 0))) =
          (trials a).map (snrOf idx a x widths) := by
        conv_rhs => rw [← range_map_getD (trials a) (0, 0, 0), List.map_map]
        rfl
      rw [this]
    · intro j hj
      have hj' : j < (trials a).length := by simpa using hj
      have hl : (snrOf idx a x widths ((trials a).getD j (0, 0, 0))).length = widths.length := snrRow_length _ _ _ _
      rw [← hl]
      apply readArray_list
      intro k hk
      rw [hl] at hk ⊢
      rw [inv'.snr j hj' k hk]
      have : (trials a).getD j (0, 0, 0) = (trials a)[j] := by simp [hj']
      have hk2 : k < (snrOf idx a x widths (trials a)[j]).length := by
        rw [snrOf, snrRow_length]; exact hk
      simp only [List.getD, List.getElem?_eq_getElem hk2, List.getElem?_eq_getElem hj', Option.getD_some]

end Verif.Lemmas
