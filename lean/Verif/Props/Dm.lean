import Verif.Model.Dm
import Mathlib.Algebra.Order.Field.Basic
import Mathlib.Data.List.Chain
import Mathlib.Tactic.Linarith
import Mathlib.Tactic.Ring
import Mathlib.Tactic.FieldSimp
import Mathlib.Tactic.Positivity
import Mathlib.Tactic.NormNum

/-! # Selection of trial DMs: properties C33 - C35 -/

namespace Verif.Props

open Verif.Model

set_option linter.unusedSectionVars false

variable {K : Type*} [Field K] [LinearOrder K] [IsStrictOrderedRing K]

/-- Coverage intervals `[a - r(a), a + r(a)]` and `[b - r(b), b + r(b)]` of two DMs `a ≤ b` leave no gap. -/
def Touch (radius : K → K) (a b : K) : Prop := b - radius b ≤ a + radius a

/-- The step from `a` to `b` is acceptable: nothing in between is left uncovered, or there is no available DM in between. -/
def StepOK (avail : List K) (radius : K → K) (a b : K) : Prop :=
  Touch radius a b ∨ ∀ c ∈ avail, c ≤ a ∨ b ≤ c

theorem getD_of_lt (d : List K) {i : ℕ} (h : i < d.length) : d.getD i 0 = d[i] := by
  simp [List.getD, List.getElem?_eq_getElem h]

theorem getD_mem (d : List K) {i : ℕ} (h : i < d.length) : d.getD i 0 ∈ d := by
  rw [getD_of_lt d h]; exact List.getElem_mem h

theorem getD_mono {d : List K} (hd : d.Pairwise (· ≤ ·)) {i j : ℕ} (hij : i ≤ j) (hj : j < d.length) :
    d.getD i 0 ≤ d.getD j 0 := by
  rw [getD_of_lt d hj, getD_of_lt d (lt_of_le_of_lt hij hj)]
  rcases Nat.eq_or_lt_of_le hij with h | h
  · subst h; exact le_rfl
  · exact List.pairwise_iff_getElem.mp hd i j _ _ h

theorem getD_strict {d : List K} (hd : d.Pairwise (· < ·)) {i j : ℕ} (hij : i < j) (hj : j < d.length) :
    d.getD i 0 < d.getD j 0 := by
  rw [getD_of_lt d hj, getD_of_lt d (lt_trans hij hj)]
  exact List.pairwise_iff_getElem.mp hd i j _ _ hij

theorem range'_find_some {s n j : ℕ} {p : ℕ → Bool} (h : (List.range' s n).find? p = some j) :
    p j = true ∧ s ≤ j ∧ j < s + n ∧ ∀ k, s ≤ k → k < j → p k = false := by
  rw [List.find?_eq_some_iff_getElem] at h
  obtain ⟨hp, i, hi, hij, hall⟩ := h
  rw [List.getElem_range'] at hij
  rw [List.length_range'] at hi
  refine ⟨hp, by omega, by omega, ?_⟩
  intro k hk hkj
  have := hall (k - s) (by omega)
  rw [List.getElem_range'] at this
  rw [show s + 1 * (k - s) = k by omega] at this
  simpa using this

theorem range'_find_none {s n : ℕ} {p : ℕ → Bool} (h : (List.range' s n).find? p = none) :
    ∀ k, s ≤ k → k < s + n → p k = false := by
  intro k h1 h2
  rw [List.find?_eq_none] at h
  have := h k (by rw [List.mem_range'_1]; exact ⟨h1, h2⟩)
  simpa using this

theorem largest_cases (d : List K) (radius : K → K) (i : ℕ) (hi : i < d.length) :
    (i + 1 < d.length → largestInRange d radius i < d.length) ∧
    (largestInRange d radius i = i + 1 ∨ dmGap d radius i (largestInRange d radius i) ≤ 0) := by
  unfold largestInRange
  split
  · rename_i j hj
    obtain ⟨hp, h1, h2, h3⟩ := range'_find_some hj
    refine ⟨by omega, ?_⟩
    by_cases h : j - 1 ≤ i + 1
    · left; omega
    · right
      rw [max_eq_left (by omega)]
      have := h3 (j - 1) (by omega) (by omega)
      simpa using this
  · rename_i hj
    have h3 := range'_find_none hj
    refine ⟨by omega, ?_⟩
    by_cases h : d.length - 1 ≤ i + 1
    · left; omega
    · right
      rw [max_eq_left (by omega)]
      have := h3 (d.length - 1) (by omega) (by omega)
      simpa using this

/-- What the loop appends: indices increase, steps are acceptable, it ends with the last DM. -/
theorem selectLoop_spec (d : List K) (hd : d.Pairwise (· ≤ ·)) (radius : K → K) (n : ℕ) : ∀ i, d.length - i = n → i < d.length →
    (∀ x ∈ selectLoop d radius i, x ∈ d) ∧
    (d.getD i 0 :: selectLoop d radius i).IsChain (fun a b => a ≤ b ∧ StepOK d radius a b) ∧
    (d.getD i 0 :: selectLoop d radius i).getLast? = some (d.getD (d.length - 1) 0) ∧
    (d.Pairwise (· < ·) → (d.getD i 0 :: selectLoop d radius i).IsChain (· < ·)) := by
  induction n using Nat.strong_induction_on with
  | _ n ih =>
    intro i hn hi
    have hlt := lt_largestInRange d radius i
    obtain ⟨hc1, hc2⟩ := largest_cases d radius i hi
    rw [selectLoop]
    split_ifs with h
    · obtain ⟨h1, h2, h3, h4⟩ := ih (d.length - largestInRange d radius i) (by omega) (largestInRange d radius i) rfl h
      refine ⟨?_, ?_, ?_, ?_⟩
      · intro x hx
        rcases List.mem_cons.mp hx with hx | hx
        · rw [hx]; exact getD_mem d h
        · exact h1 x hx
      · rw [List.isChain_cons_cons]
        refine ⟨⟨getD_mono hd hlt.le h, ?_⟩, h2⟩
        rcases hc2 with hc | hc
        · right
          intro c hc'
          obtain ⟨k, hk, rfl⟩ := List.mem_iff_getElem.mp hc'
          rw [hc] at h ⊢
          by_cases hki : k ≤ i
          · left; rw [← getD_of_lt d hk]; exact getD_mono hd hki hi
          · right; rw [← getD_of_lt d hk]; exact getD_mono hd (by omega) hk
        · left
          unfold dmGap at hc
          unfold Touch
          linarith
      · rw [List.getLast?_cons_cons]; exact h3
      · intro hs
        rw [List.isChain_cons_cons]
        exact ⟨getD_strict hs hlt h, h4 hs⟩
    · have : i + 1 = d.length := by
        by_contra hne
        exact h (hc1 (by omega))
      refine ⟨by simp, by simp, ?_, by simp⟩
      rw [show d.length - 1 = i by omega]
      rfl

/-- The available DMs in range, sorted. -/
def availDms (trialDms : List K) (dmStart dmEnd : K) : List K :=
  (trialDms.filter (fun x => dmStart ≤ x ∧ x ≤ dmEnd)).mergeSort (· ≤ ·)

theorem availDms_mem (t : List K) (a b x : K) : x ∈ availDms t a b ↔ x ∈ t ∧ a ≤ x ∧ x ≤ b := by
  unfold availDms
  rw [List.mem_mergeSort, List.mem_filter]
  simp

theorem availDms_sorted (t : List K) (a b : K) : (availDms t a b).Pairwise (· ≤ ·) := by
  have := List.pairwise_mergeSort (le := fun a b : K => decide (a ≤ b))
    (fun a b c h1 h2 => by simp only [decide_eq_true_eq] at *; exact le_trans h1 h2)
    (fun a b => by simp only [Bool.or_eq_true, decide_eq_true_eq]; exact le_total _ _)
    (t.filter (fun x => a ≤ x ∧ x ≤ b))
  exact this.imp (fun h => by simpa using h)

theorem availDms_nodup (t : List K) (a b : K) (ht : t.Nodup) : (availDms t a b).Pairwise (· < ·) := by
  have h1 : (availDms t a b).Nodup := by
    unfold availDms
    exact (List.mergeSort_perm _ _).nodup_iff.mpr (ht.filter _)
  exact ((availDms_sorted t a b).and h1).imp (fun h => lt_of_le_of_ne h.1 h.2)

/-- C33: `select_dms` raises `ValueError` exactly if no trial is in range. -/
theorem C33_error_iff (t : List K) (dmStart dmEnd fmin fmax nchans wmin : K) :
    (selectDms t dmStart dmEnd fmin fmax nchans wmin = .error .valueError ↔ ∀ x ∈ t, ¬ (dmStart ≤ x ∧ x ≤ dmEnd)) ∧
    ((∃ x ∈ t, dmStart ≤ x ∧ x ≤ dmEnd) → ∃ sel, selectDms t dmStart dmEnd fmin fmax nchans wmin = .ok sel) := by
  unfold selectDms
  simp only
  have h0 : ((t.filter (fun x => dmStart ≤ x ∧ x ≤ dmEnd)).mergeSort (· ≤ ·)).length = 0 ↔
      ∀ x ∈ t, ¬ (dmStart ≤ x ∧ x ≤ dmEnd) := by
    rw [List.length_mergeSort, List.length_eq_zero_iff, List.filter_eq_nil_iff]
    simp
  constructor
  · split_ifs with h
    · simp only [true_iff]; exact h0.mp h
    · simp only [false_iff]
      exact fun hh => h (h0.mpr hh)
  · rintro ⟨x, hx, hxx⟩
    rw [if_neg (fun hh => h0.mp hh x hx hxx)]
    exact ⟨_, rfl⟩

/-- C33: the selected DMs are available ones in range, in increasing order, start with the smallest and end with the largest, and
consecutive ones leave no gap unless there is no available DM in between. -/
theorem C33_coverage (t : List K) (dmStart dmEnd fmin fmax nchans wmin : K) (sel : List K)
    (h : selectDms t dmStart dmEnd fmin fmax nchans wmin = .ok sel) :
    let avail := t.filter (fun x => dmStart ≤ x ∧ x ≤ dmEnd)
    let radius := dmRadius fmin fmax nchans wmin
    (∀ x ∈ sel, x ∈ t ∧ dmStart ≤ x ∧ x ≤ dmEnd) ∧
    (∃ lo, sel.head? = some lo ∧ ∀ x ∈ avail, lo ≤ x) ∧ (∃ hi, sel.getLast? = some hi ∧ ∀ x ∈ avail, x ≤ hi) ∧
    sel.IsChain (fun a b => a ≤ b ∧ StepOK avail radius a b) ∧ (t.Nodup → sel.Pairwise (· < ·)) := by
  intro avail radius
  have hmem : ∀ x, x ∈ avail ↔ x ∈ availDms t dmStart dmEnd := by
    intro x; unfold availDms; rw [List.mem_mergeSort]
  unfold selectDms at h
  simp only at h
  split_ifs at h with h0
  simp only [Except.ok.injEq] at h
  change (availDms t dmStart dmEnd).length ≠ 0 at h0
  change (availDms t dmStart dmEnd).getD 0 0 :: selectLoop (availDms t dmStart dmEnd) radius 0 = sel at h
  have hs := availDms_sorted t dmStart dmEnd
  have hnd := availDms_nodup t dmStart dmEnd
  have hm := availDms_mem t dmStart dmEnd
  set d := availDms t dmStart dmEnd with hd
  obtain ⟨h1, h2, h3, h4⟩ := selectLoop_spec d hs radius d.length 0 (by omega) (by omega)
  rw [h] at h2 h3 h4
  refine ⟨?_, ?_, ?_, ?_, ?_⟩
  · intro x hx
    rw [← h] at hx
    rcases List.mem_cons.mp hx with hx | hx
    · rw [hx]; exact (hm _).mp (getD_mem d (by omega))
    · exact (hm x).mp (h1 x hx)
  · refine ⟨d.getD 0 0, by rw [← h]; rfl, ?_⟩
    intro x hx
    obtain ⟨k, hk, rfl⟩ := List.mem_iff_getElem.mp ((hmem x).mp hx)
    rw [← getD_of_lt d hk]
    exact getD_mono hs (Nat.zero_le _) hk
  · refine ⟨_, h3, ?_⟩
    intro x hx
    obtain ⟨k, hk, rfl⟩ := List.mem_iff_getElem.mp ((hmem x).mp hx)
    rw [← getD_of_lt d hk]
    exact getD_mono hs (by omega) (by omega)
  · refine h2.imp ?_
    rintro a b ⟨hab, hst⟩
    refine ⟨hab, ?_⟩
    rcases hst with hst | hst
    · exact Or.inl hst
    · exact Or.inr (fun c hc => hst c ((hmem c).mp hc))
  · intro ht
    exact List.isChain_iff_pairwise.mp (h4 (hnd ht))

/-- Greedy selection stays ahead of any other acceptable selection. -/
theorem greedy_ahead (d : List K) (hd : d.Pairwise (· < ·)) (radius : K → K)
    (hlo : ∀ a ∈ d, ∀ b ∈ d, a ≤ b → a - radius a ≤ b - radius b)
    (hhi : ∀ a ∈ d, ∀ b ∈ d, a ≤ b → a + radius a ≤ b + radius b) : ∀ (t : List K) (p i : ℕ), p ≤ i → i < d.length →
    (∀ x ∈ t, x ∈ d) → (d.getD p 0 :: t).IsChain (fun a b => a < b ∧ StepOK d radius a b) →
    (d.getD p 0 :: t).getLast? = some (d.getD (d.length - 1) 0) → (selectLoop d radius i).length ≤ t.length := by
  have hd' : d.Pairwise (· ≤ ·) := hd.imp (fun h => le_of_lt h)
  intro t
  induction t with
  | nil =>
    intro p i hpi hi _ _ hlast
    have hp : p = d.length - 1 := by
      by_contra hne
      have := getD_strict hd (show p < d.length - 1 by omega) (by omega)
      simp only [List.getLast?_singleton, Option.some.injEq] at hlast
      rw [hlast] at this
      exact lt_irrefl _ this
    have hlt := lt_largestInRange d radius i
    rw [selectLoop, dif_neg (by omega)]
  | cons b t ih =>
    intro p i hpi hi hmem hch hlast
    rw [List.isChain_cons_cons] at hch
    obtain ⟨⟨hpb, hst⟩, hch⟩ := hch
    obtain ⟨q, hq, hqb⟩ := List.mem_iff_getElem.mp (hmem b List.mem_cons_self)
    have hqb' : b = d.getD q 0 := by rw [getD_of_lt d hq, hqb]
    have hpq : p < q := by
      by_contra hn
      have := getD_mono hd' (not_lt.mp hn) (lt_of_le_of_lt hpi hi)
      rw [← hqb'] at this
      exact absurd hpb (not_lt.mpr this)
    by_cases hilast : i = d.length - 1
    · have hlt := lt_largestInRange d radius i
      rw [selectLoop, dif_neg (by omega)]
      simp
    have hg := (largest_cases d radius i hi).1 (by omega)
    rw [selectLoop, dif_pos hg, List.length_cons, List.length_cons]
    have hqg : q ≤ largestInRange d radius i := by
      have hlt := lt_largestInRange d radius i
      by_cases hqi : q ≤ i + 1
      · omega
      rcases hst with hst | hst
      · -- the gap from i to q is not positive
        unfold Touch at hst
        rw [hqb'] at hst
        have h1 := hhi _ (getD_mem d (lt_of_le_of_lt hpi hi)) _ (getD_mem d hi) (getD_mono hd' hpi hi)
        have hgap : ∀ k, k ≤ q → dmGap d radius i k ≤ 0 := by
          intro k hk
          have h2 := hlo _ (getD_mem d (lt_of_le_of_lt hk hq)) _ (getD_mem d hq) (getD_mono hd' hk hq)
          unfold dmGap
          linarith
        unfold largestInRange
        split
        · rename_i j hj
          obtain ⟨hpj, h1, h2, h3⟩ := range'_find_some hj
          have : q < j := by
            by_contra hn
            have := hgap j (by omega)
            simp only [gt_iff_lt, decide_eq_true_eq] at hpj
            exact absurd this (not_le.mpr hpj)
          omega
        · omega
      · rcases hst _ (getD_mem d (show p + 1 < d.length by omega)) with h' | h'
        · exact absurd h' (not_le.mpr (getD_strict hd (Nat.lt_succ_self p) (by omega)))
        · rw [hqb'] at h'
          by_contra _
          exact absurd h' (not_le.mpr (getD_strict hd (show p + 1 < q by omega) hq))
    rw [hqb'] at hch
    rw [List.getLast?_cons_cons, hqb'] at hlast
    have := ih q (largestInRange d radius i) hqg hg (fun x hx => hmem x (List.mem_cons_of_mem _ hx)) hch hlast
    omega

theorem kdisp_pos (fmin fmax : K) (h0 : 0 < fmin) (h1 : fmin < fmax) : 0 < kdisp fmin fmax := by
  have hK : (0 : K) < KDM := by unfold KDM; norm_num
  unfold kdisp
  refine mul_pos hK (sub_pos.mpr ?_)
  refine one_div_lt_one_div_of_lt (by positivity) ?_
  exact pow_lt_pow_left₀ h1 h0.le (by norm_num)

/-- Smearing in one channel is not more than the dispersion over the band. -/
theorem ksmear_bounds (fmin fmax nchans : K) (h0 : 0 < fmin) (h1 : fmin < fmax) (hn : 1 ≤ nchans) :
    0 < ksmear fmin fmax nchans ∧ ksmear fmin fmax nchans ≤ kdisp fmin fmax := by
  have hK : (0 : K) < KDM := by unfold KDM; norm_num
  have hn0 : (0 : K) < nchans := by linarith
  unfold ksmear kdisp
  simp only
  set cw := (fmax - fmin) / nchans with hcw
  have hc0 : 0 < cw := div_pos (by linarith) hn0
  have hc1 : cw ≤ fmax - fmin := div_le_self (by linarith) hn
  have ha : fmin ≤ (fmax + fmin) / 2 - cw / 2 := by linarith
  have hb : (fmax + fmin) / 2 + cw / 2 ≤ fmax := by linarith
  have hab : (fmax + fmin) / 2 - cw / 2 < (fmax + fmin) / 2 + cw / 2 := by linarith
  generalize (fmax + fmin) / 2 - cw / 2 = a at *
  generalize (fmax + fmin) / 2 + cw / 2 = b at *
  have ha0 : 0 < a := by linarith
  constructor
  · refine mul_pos hK (sub_pos.mpr ?_)
    refine one_div_lt_one_div_of_lt (by positivity) ?_
    exact pow_lt_pow_left₀ hab ha0.le (by norm_num)
  · refine mul_le_mul_of_nonneg_left ?_ hK.le
    have h2 : 1 / a ^ 2 ≤ 1 / fmin ^ 2 :=
      one_div_le_one_div_of_le (by positivity) (pow_le_pow_left₀ h0.le ha 2)
    have h3 : 1 / fmax ^ 2 ≤ 1 / b ^ 2 :=
      one_div_le_one_div_of_le (pow_pos (by linarith) 2) (pow_le_pow_left₀ (by linarith) hb 2)
    linarith

/-- Radii grow with DM, but not faster than DM itself. -/
theorem dmRadius_mono (fmin fmax nchans wmin : K) (h0 : 0 < fmin) (h1 : fmin < fmax) (hn : 1 ≤ nchans) (a b : K)
    (hab : a ≤ b) : dmRadius fmin fmax nchans wmin a ≤ dmRadius fmin fmax nchans wmin b ∧
      a - dmRadius fmin fmax nchans wmin a ≤ b - dmRadius fmin fmax nchans wmin b := by
  have hk := kdisp_pos fmin fmax h0 h1
  obtain ⟨hs0, hs1⟩ := ksmear_bounds fmin fmax nchans h0 h1 hn
  unfold dmRadius
  generalize kdisp fmin fmax = k at *
  generalize ksmear fmin fmax nchans = s at *
  have hsab : s * a ≤ s * b := mul_le_mul_of_nonneg_left hab hs0.le
  have hsk : s * (b - a) ≤ k * (b - a) := mul_le_mul_of_nonneg_right hs1 (by linarith)
  constructor
  · exact div_le_div_of_nonneg_right (max_le_max le_rfl hsab) hk.le
  · have h : max wmin (s * b) ≤ max wmin (s * a) + k * (b - a) := by
      apply max_le
      · have : 0 ≤ k * (b - a) := mul_nonneg hk.le (by linarith)
        linarith [le_max_left wmin (s * a)]
      · linarith [le_max_right wmin (s * a)]
    have h2 := div_le_div_of_nonneg_right h hk.le
    rw [add_div, mul_div_cancel_left₀ _ hk.ne'] at h2
    linarith

/-- C34: no acceptable selection of distinct available DMs has fewer elements. -/
theorem C34_minimal (t : List K) (ht : t.Nodup) (dmStart dmEnd fmin fmax nchans wmin : K) (h0 : 0 < fmin) (h1 : fmin < fmax)
    (hn : 1 ≤ nchans) (sel : List K) (h : selectDms t dmStart dmEnd fmin fmax nchans wmin = .ok sel)
    (other : List K) :
    let avail := t.filter (fun x => dmStart ≤ x ∧ x ≤ dmEnd)
    let radius := dmRadius fmin fmax nchans wmin
    (∀ x ∈ other, x ∈ avail) → other.head? = sel.head? → other.getLast? = sel.getLast? →
    other.IsChain (fun a b => a < b ∧ StepOK avail radius a b) → sel.length ≤ other.length := by
  intro avail radius hsub hhead hlast hch
  have hmem : ∀ x, x ∈ avail ↔ x ∈ availDms t dmStart dmEnd := by
    intro x; unfold availDms; rw [List.mem_mergeSort]
  unfold selectDms at h
  simp only at h
  split_ifs at h with hne
  simp only [Except.ok.injEq] at h
  change (availDms t dmStart dmEnd).length ≠ 0 at hne
  change (availDms t dmStart dmEnd).getD 0 0 :: selectLoop (availDms t dmStart dmEnd) radius 0 = sel at h
  have hs := availDms_nodup t dmStart dmEnd ht
  set d := availDms t dmStart dmEnd with hd
  obtain ⟨-, -, h3, -⟩ := selectLoop_spec d (hs.imp (fun h => le_of_lt h)) radius d.length 0 (by omega) (by omega)
  cases other with
  | nil => rw [← h] at hhead; simp at hhead
  | cons a other =>
    rw [← h] at hhead hlast ⊢
    simp only [List.head?_cons, Option.some.injEq] at hhead
    subst hhead
    rw [h3] at hlast
    have := greedy_ahead d hs radius
      (fun a _ b _ hab => (dmRadius_mono fmin fmax nchans wmin h0 h1 hn a b hab).2)
      (fun a _ b _ hab => by
        have := (dmRadius_mono fmin fmax nchans wmin h0 h1 hn a b hab).1
        change a + dmRadius fmin fmax nchans wmin a ≤ b + dmRadius fmin fmax nchans wmin b
        linarith) other 0 0 le_rfl (by omega)
      (fun x hx => (hmem x).mp (hsub x (List.mem_cons_of_mem _ hx)))
      (hch.imp (fun a b ⟨hab, hst⟩ => ⟨hab, hst.imp id (fun h c hc => h c ((hmem c).mpr hc))⟩)) hlast
    simp only [List.length_cons]
    omega

/-! ### Iteration over files -/

theorem chunkLoop_spec {β : Type*} (c : ℕ) (hc : 1 ≤ c) : ∀ (l chunk : List β), chunk.length < c →
    (chunkLoop c l chunk).flatten = chunk ++ l ∧
    (∀ x ∈ chunkLoop c l chunk, x ≠ [] ∧ x.length ≤ c) ∧
    (∀ x ∈ (chunkLoop c l chunk).dropLast, x.length = c) := by
  intro l
  induction l with
  | nil =>
    intro chunk hlt
    rw [chunkLoop]
    split_ifs with h
    · rw [List.length_eq_zero_iff] at h; subst h; simp
    · refine ⟨by simp, ?_, by simp⟩
      intro x hx
      rw [List.mem_singleton] at hx
      subst hx
      exact ⟨fun hh => h (by rw [hh]; rfl), hlt.le⟩
  | cons a l ih =>
    intro chunk hlt
    rw [chunkLoop]
    split_ifs with h
    · obtain ⟨h1, h2, h3⟩ := ih [] (by rw [List.length_nil]; omega)
      refine ⟨by rw [List.flatten_cons, h1]; simp, ?_, ?_⟩
      · intro x hx
        rcases List.mem_cons.mp hx with hx | hx
        · rw [hx]; exact ⟨by simp, h.le⟩
        · exact h2 x hx
      · intro x hx
        cases hcl : chunkLoop c l [] with
        | nil => rw [hcl] at hx; simp at hx
        | cons y ys =>
          rw [hcl] at hx h3
          rw [List.dropLast_cons_cons] at hx
          rcases List.mem_cons.mp hx with hx | hx
          · rw [hx]; exact h
          · exact h3 x hx
    · have hl : (chunk ++ [a]).length < c := by
        rw [List.length_append, List.length_singleton] at h ⊢
        omega
      obtain ⟨h1, h2, h3⟩ := ih (chunk ++ [a]) hl
      exact ⟨by rw [h1]; simp, h2, h3⟩

theorem dictGet_set {κ ν : Type*} [DecidableEq κ] (k : κ) (v : ν) (k' : κ) : ∀ d : PyDict κ ν,
    dictGet (dictSet d k v) k' = if k = k' then some v else dictGet d k' := by
  intro d
  induction d with
  | nil => rfl
  | cons a d ih =>
    obtain ⟨a, b⟩ := a
    rw [dictSet]
    by_cases h : a = k
    · rw [if_pos h, dictGet, dictGet]
      subst h
      split_ifs <;> rfl
    · rw [if_neg h, dictGet, dictGet, ih]
      by_cases h2 : a = k'
      · subst h2
        rw [if_pos rfl, if_neg (Ne.symm h), if_pos rfl]
      · rw [if_neg h2, if_neg h2]

theorem dictSet_keys {κ ν : Type*} [DecidableEq κ] (k : κ) (v : ν) : ∀ d : PyDict κ ν,
    (dictSet d k v).map Prod.fst = if k ∈ d.map Prod.fst then d.map Prod.fst else d.map Prod.fst ++ [k] := by
  intro d
  induction d with
  | nil => rfl
  | cons a d ih =>
    obtain ⟨a, b⟩ := a
    rw [dictSet]
    by_cases h : a = k
    · subst h; simp
    · rw [if_neg h, List.map_cons, ih]
      simp only [List.map_cons, List.mem_cons, Ne.symm h, false_or]
      split_ifs <;> simp

/-- Keys of a dictionary made from a list are distinct, and the value is that of the last entry with the key. -/
theorem dictOf_spec {κ ν β : Type*} [DecidableEq κ] (key : β → κ) (val : β → ν) (l : List β) :
    ((dictOf key val l).map Prod.fst).Nodup ∧ (∀ k, k ∈ (dictOf key val l).map Prod.fst ↔ k ∈ l.map key) ∧
    ∀ k, dictGet (dictOf key val l) k = (l.reverse.find? (fun x => key x = k)).map val := by
  unfold dictOf
  induction l using List.reverseRecOn with
  | nil => simp [dictGet]
  | append_singleton l x ih =>
    obtain ⟨h1, h2, h3⟩ := ih
    rw [List.foldl_append, List.foldl_cons, List.foldl_nil]
    refine ⟨?_, ?_, ?_⟩
    · rw [dictSet_keys]
      split_ifs with h
      · exact h1
      · rw [List.nodup_append]
        refine ⟨h1, by simp, ?_⟩
        intro a ha b hb
        rw [List.mem_singleton] at hb
        subst hb
        exact fun hh => h (hh ▸ ha)
    · intro k
      rw [dictSet_keys]
      split_ifs with h
      · rw [h2]
        constructor
        · intro hk; rw [List.map_append]; exact List.mem_append_left _ hk
        · intro hk
          rw [List.map_append] at hk
          rcases List.mem_append.mp hk with hk | hk
          · exact hk
          · simp at hk; rw [hk]; exact (h2 _).mp h
      · rw [List.mem_append, h2, List.map_append, List.mem_append]; simp
    · intro k
      rw [dictGet_set, List.reverse_append, List.reverse_singleton, List.singleton_append, List.find?_cons, h3]
      by_cases hk : key x = k
      · simp [hk]
      · simp [hk]

theorem mapM_ok {α β ε : Type*} (f : α → Except ε β) (g : α → β) : ∀ l : List α, (∀ a ∈ l, f a = .ok (g a)) →
    l.mapM f = .ok (l.map g) := by
  intro l
  induction l with
  | nil => intro _; rfl
  | cons a l ih =>
    intro h
    rw [List.mapM_cons, h a List.mem_cons_self, ih (fun b hb => h b (List.mem_cons_of_mem _ hb))]
    rfl

theorem bind_ok_inv {α β ε : Type*} {x : Except ε α} {f : α → Except ε β} {b : β} (h : x.bind f = .ok b) :
    ∃ a, x = .ok a ∧ f a = .ok b := by
  cases x with
  | error e => cases h
  | ok a => exact ⟨a, rfl, h⟩

theorem map_ok_inv {α β ε : Type*} {x : Except ε α} {f : α → β} {b : β} (h : x.map f = .ok b) :
    ∃ a, x = .ok a ∧ f a = b := by
  cases x with
  | error e => cases h
  | ok a => exact ⟨a, rfl, by simpa [Except.map] using h⟩

theorem dmIterator_inv (ms : List (DmMeta K)) (dmStart dmEnd cap : Option K) (fmt : TsFormat) (wmin : K)
    (band : Option (K × K × ℕ)) (it : DmIter K) (h : dmIterator ms dmStart dmEnd cap fmt wmin band = .ok it) :
    ∃ dm0 dm1 b, dmStartOf ms dmStart = .ok dm0 ∧ dmEndOf ms dmEnd = .ok dm1 ∧ ms.length ≠ 0 ∧ bandOf ms fmt band = .ok b ∧
      selectDms (it.metadataDict.map Prod.fst) dm0 (applyCap cap dm1) b.1 b.2.1 (b.2.2 : K) wmin = .ok it.selectedDms ∧
      it.metadataDict = dictOf (fun m => m.dm) (fun m => m.fname) ms := by
  unfold dmIterator at h
  obtain ⟨dm0, hdm0, h⟩ := bind_ok_inv h
  obtain ⟨dm1, hdm1, h⟩ := bind_ok_inv h
  split_ifs at h with h0
  obtain ⟨b, hb, h⟩ := bind_ok_inv h
  obtain ⟨sel, hs, rfl⟩ := map_ok_inv h
  exact ⟨dm0, dm1, b, hdm0, hdm1, h0, hb, hs, rfl⟩

/-- C35: the files of the selected DMs are visited in increasing DM order, each once, in chunks of the requested size except for the
last. -/
theorem C35_iterate_filenames (ms : List (DmMeta K)) (dmStart dmEnd cap : Option K) (fmt : TsFormat) (wmin : K)
    (band : Option (K × K × ℕ)) (it : DmIter K) (h : dmIterator ms dmStart dmEnd cap fmt wmin band = .ok it)
    (chunksize : ℕ) (hc : 1 ≤ chunksize) :
    ∃ chunks, iterateFilenames it chunksize = .ok chunks ∧
      (∀ c ∈ chunks, c ≠ [] ∧ c.length ≤ chunksize) ∧ (∀ c ∈ chunks.dropLast, c.length = chunksize) ∧
      it.selectedDms.Pairwise (· < ·) ∧
      List.Forall₂ (fun dm f => ∃ m ∈ ms, m.dm = dm ∧ m.fname = f) it.selectedDms chunks.flatten := by
  obtain ⟨dm0, dm1, b, -, -, -, -, hsel, hdict⟩ := dmIterator_inv ms dmStart dmEnd cap fmt wmin band it h
  set sel := it.selectedDms with hselq
  rw [hdict] at hsel
  obtain ⟨hd1, hd2, hd3⟩ := dictOf_spec (fun m : DmMeta K => m.dm) (fun m => m.fname) ms
  obtain ⟨hc1, -, -, -, hc5⟩ := C33_coverage _ _ _ _ _ _ _ _ hsel
  set D := dictOf (fun m : DmMeta K => m.dm) (fun m => m.fname) ms with hD
  have hget : ∀ dm ∈ sel, ∃ m ∈ ms, m.dm = dm ∧ dictGet D dm = some m.fname := by
    intro dm hdm
    have hk := (hd2 dm).mp (hc1 dm hdm).1
    obtain ⟨m0, hm0, hm0d⟩ := List.mem_map.mp hk
    rw [hd3]
    cases hf : ms.reverse.find? (fun x => decide (x.dm = dm)) with
    | none =>
      rw [List.find?_eq_none] at hf
      have := hf m0 (List.mem_reverse.mpr hm0)
      simp [hm0d] at this
    | some m =>
      have h1 := List.find?_some hf
      exact ⟨m, List.mem_reverse.mp (List.mem_of_find?_eq_some hf), by simpa using h1, rfl⟩
  have hmap := mapM_ok (getFilename it) (fun dm => (dictGet D dm).getD "") sel (by
      intro dm hdm
      obtain ⟨m, -, -, hm⟩ := hget dm hdm
      unfold getFilename
      rw [hdict, hm]; rfl)
  obtain ⟨hl1, hl2, hl3⟩ := chunkLoop_spec chunksize hc (sel.map (fun dm => (dictGet D dm).getD "")) [] (by rw [List.length_nil]; omega)
  refine ⟨_, ?_, hl2, hl3, hc5 hd1, ?_⟩
  · unfold iterateFilenames
    rw [← hselq, hmap]
    rfl
  · rw [hl1, List.nil_append, List.forall₂_map_right_iff, List.forall₂_same]
    intro dm hdm
    obtain ⟨m, hm, hmd, hmf⟩ := hget dm hdm
    exact ⟨m, hm, hmd, by rw [hmf]; rfl⟩

/-- Four files out of order, 400 channels between 1182 and 1582 MHz: the hypotheses of C33 to C35 are met and a DM is skipped. -/
def demoFiles : List (DmMeta ℚ) :=
  [⟨30, "c", 1182, 400, 1⟩, ⟨0, "a", 1182, 400, 1⟩, ⟨1/1000, "b", 1182, 400, 1⟩, ⟨1/500, "d", 1182, 400, 1⟩]

theorem demo_select : selectDms ([30, 0, 1/1000, 1/500] : List ℚ) 0 30 1182 1582 400 (1/1000) = .ok [0, 1/500, 30] := by
  have hs : (([30, 0, 1/1000, 1/500] : List ℚ).filter (fun x => 0 ≤ x ∧ x ≤ 30)).mergeSort (· ≤ ·) =
      [0, 1/1000, 1/500, 30] := by
    have hf : ([30, 0, 1/1000, 1/500] : List ℚ).filter (fun x => 0 ≤ x ∧ x ≤ 30) = [30, 0, 1/1000, 1/500] := by
      decide +kernel
    rw [hf]
    have hp : ([30, 0, 1/1000, 1/500] : List ℚ).Perm [0, 1/1000, 1/500, 30] := by decide +kernel
    have h1 : (([30, 0, 1/1000, 1/500] : List ℚ).mergeSort (· ≤ ·)).Pairwise (· ≤ ·) := by
      have := List.pairwise_mergeSort (le := fun a b : ℚ => decide (a ≤ b))
        (fun a b c h1 h2 => by simp only [decide_eq_true_eq] at *; exact le_trans h1 h2)
        (fun a b => by simp only [Bool.or_eq_true, decide_eq_true_eq]; exact le_total _ _) [30, 0, 1/1000, 1/500]
      exact this.imp (fun h => by simpa using h)
    have h2 : ([0, 1/1000, 1/500, 30] : List ℚ).Pairwise (· ≤ ·) := by decide +kernel
    exact List.Perm.eq_of_pairwise (fun a b _ _ h1 h2 => le_antisymm h1 h2) h1 h2 ((List.mergeSort_perm _ _).trans hp)
  unfold selectDms
  simp only
  rw [hs, if_neg (by decide)]
  rw [selectLoop, show largestInRange ([0, 1/1000, 1/500, 30] : List ℚ) (dmRadius 1182 1582 400 (1/1000)) 0 = 2 by
    decide +kernel, dif_pos (by decide), selectLoop,
    show largestInRange ([0, 1/1000, 1/500, 30] : List ℚ) (dmRadius 1182 1582 400 (1/1000)) 2 = 3 by decide +kernel,
    dif_pos (by decide), selectLoop,
    show largestInRange ([0, 1/1000, 1/500, 30] : List ℚ) (dmRadius 1182 1582 400 (1/1000)) 3 = 4 by decide +kernel,
    dif_neg (by decide)]
  rfl

/-- C34: the DMs must be distinct. With a repeated DM, `select_dms` returns it twice. (`DMIterator` passes the keys of a
dictionary, which are distinct.) -/
theorem C34_duplicates : selectDms ([0, 0, 30] : List ℚ) 0 100 1182 1582 400 (1/1000) = .ok [0, 0, 30] := by
  have hs : (([0, 0, 30] : List ℚ).filter (fun x => 0 ≤ x ∧ x ≤ 100)).mergeSort (· ≤ ·) = [0, 0, 30] := by
    have hf : ([0, 0, 30] : List ℚ).filter (fun x => 0 ≤ x ∧ x ≤ 100) = [0, 0, 30] := by decide +kernel
    rw [hf]
    exact List.mergeSort_of_pairwise (by decide +kernel)
  unfold selectDms
  simp only
  rw [hs, if_neg (by decide)]
  rw [selectLoop, show largestInRange ([0, 0, 30] : List ℚ) (dmRadius 1182 1582 400 (1/1000)) 0 = 1 by
    decide +kernel, dif_pos (by decide), selectLoop,
    show largestInRange ([0, 0, 30] : List ℚ) (dmRadius 1182 1582 400 (1/1000)) 1 = 2 by decide +kernel,
    dif_pos (by decide), selectLoop,
    show largestInRange ([0, 0, 30] : List ℚ) (dmRadius 1182 1582 400 (1/1000)) 2 = 3 by decide +kernel,
    dif_neg (by decide)]
  rfl

example : ([30, 0, 1/1000, 1/500] : List ℚ).Nodup ∧ (0 : ℚ) < 1182 ∧ (1182 : ℚ) < 1582 ∧ (1 : ℚ) ≤ 400 := by decide +kernel

/-! ### The iterator as a whole -/

theorem foldl_min_spec : ∀ (l : List K) (a : K), (l.foldl min a ∈ a :: l) ∧ ∀ x ∈ a :: l, l.foldl min a ≤ x := by
  intro l
  induction l with
  | nil => intro a; simp
  | cons b l ih =>
    intro a
    rw [List.foldl_cons]
    obtain ⟨h1, h2⟩ := ih (min a b)
    have h3 := h2 _ List.mem_cons_self
    refine ⟨?_, ?_⟩
    · rcases List.mem_cons.mp h1 with h | h
      · rw [h]; rcases min_choice a b with h' | h' <;> rw [h'] <;> simp
      · exact List.mem_cons_of_mem _ (List.mem_cons_of_mem _ h)
    · intro x hx
      rcases List.mem_cons.mp hx with h | h
      · rw [h]; exact le_trans h3 (min_le_left _ _)
      · rcases List.mem_cons.mp h with h | h
        · rw [h]; exact le_trans h3 (min_le_right _ _)
        · exact h2 x (List.mem_cons_of_mem _ h)

theorem foldl_max_spec : ∀ (l : List K) (a : K), (l.foldl max a ∈ a :: l) ∧ ∀ x ∈ a :: l, x ≤ l.foldl max a := by
  intro l
  induction l with
  | nil => intro a; simp
  | cons b l ih =>
    intro a
    rw [List.foldl_cons]
    obtain ⟨h1, h2⟩ := ih (max a b)
    have h3 := h2 _ List.mem_cons_self
    refine ⟨?_, ?_⟩
    · rcases List.mem_cons.mp h1 with h | h
      · rw [h]; rcases max_choice a b with h' | h' <;> rw [h'] <;> simp
      · exact List.mem_cons_of_mem _ (List.mem_cons_of_mem _ h)
    · intro x hx
      rcases List.mem_cons.mp hx with h | h
      · rw [h]; exact le_trans (le_max_left _ _) h3
      · rcases List.mem_cons.mp h with h | h
        · rw [h]; exact le_trans (le_max_right _ _) h3
        · exact h2 x (List.mem_cons_of_mem _ h)

/-- C60: band parameters are read from PRESTO metadata irrespective of the sign of the channel width. -/
theorem C60_band_params (m : DmMeta K) : ∃ fmin fmax, getBandParams m .presto = .ok (fmin, fmax, m.nchan) ∧
    fmax - fmin = (m.nchan : K) * |m.cbw| ∧ (m.fbot = fmin ∨ m.fbot = fmax) := by
  refine ⟨_, _, rfl, ?_, ?_⟩
  · rcases le_total 0 m.cbw with h | h
    · have : m.fbot ≤ m.fbot + (m.nchan : K) * m.cbw := by
        have := mul_nonneg (Nat.cast_nonneg (α := K) m.nchan) h
        linarith
      rw [min_eq_left this, max_eq_right this, abs_of_nonneg h]; ring
    · have : m.fbot + (m.nchan : K) * m.cbw ≤ m.fbot := by
        have := mul_nonpos_of_nonneg_of_nonpos (Nat.cast_nonneg (α := K) m.nchan) h
        linarith
      rw [min_eq_right this, max_eq_left this, abs_of_nonpos h]; ring
  · rcases le_total m.fbot (m.fbot + (m.nchan : K) * m.cbw) with h | h
    · left; rw [min_eq_left h]
    · right; rw [max_eq_left h]

theorem mapM_presto (ms : List (DmMeta K)) : ∃ ps, ms.mapM (fun m => getBandParams m .presto) = .ok ps ∧
    List.Forall₂ (fun m p => getBandParams m .presto = .ok p) ms ps := by
  induction ms with
  | nil => exact ⟨[], rfl, List.Forall₂.nil⟩
  | cons m ms ih =>
    obtain ⟨ps, h1, h2⟩ := ih
    obtain ⟨a, b, hp, -⟩ := C60_band_params m
    refine ⟨(a, b, m.nchan) :: ps, ?_, List.Forall₂.cons hp h2⟩
    rw [List.mapM_cons, hp, h1]
    rfl

/-- C60: the parameters inferred from PRESTO files hold for every file; they cannot be inferred from SIGPROC files. -/
theorem C60_inferred_for_all (ms : List (DmMeta K)) (b : K × K × ℕ) :
    (inferBandParams ms .presto = .ok b ↔ ms ≠ [] ∧ ∀ m ∈ ms, getBandParams m .presto = .ok b) ∧
    inferBandParams ms .sigproc ≠ .ok b := by
  constructor
  · obtain ⟨ps, h1, h2⟩ := mapM_presto ms
    unfold inferBandParams
    rw [h1]
    cases h2 with
    | nil => simp [bind, Except.bind]
    | cons hp h2 =>
      rename_i m p ms ps
      change (if (p :: ps).all (fun q => p = q) then (.ok p : Except PyErr _) else .error .runtimeError) = .ok b ↔ _
      have hall : (p :: ps).all (fun q => decide (p = q)) = true ↔ ∀ m' ∈ m :: ms, getBandParams m' .presto = .ok p := by
        clear h1
        simp only [List.all_cons, decide_true, Bool.true_and, List.mem_cons, forall_eq_or_imp, hp, true_and]
        induction h2 with
        | nil => simp
        | cons hq _ ih =>
          simp only [List.all_cons, Bool.and_eq_true, decide_eq_true_eq, List.mem_cons, forall_eq_or_imp, hq, ih,
            Except.ok.injEq]
          exact and_congr_left (fun _ => eq_comm)
      split_ifs with h
      · simp only [Except.ok.injEq, ne_eq, reduceCtorEq, not_false_eq_true, true_and]
        constructor
        · intro hpb m' hm'
          rw [hall.mp h m' hm', hpb]
        · intro hh
          have := hh m List.mem_cons_self
          rw [hp] at this
          simpa using this
      · simp only [reduceCtorEq, ne_eq, not_false_eq_true, true_and, false_iff]
        intro hh
        have hb := hh m List.mem_cons_self
        rw [hp] at hb
        simp only [Except.ok.injEq] at hb
        exact h (hall.mpr (by rw [hb]; exact hh))
  · unfold inferBandParams
    cases ms with
    | nil => simp [bind, Except.bind, pure, Except.pure]
    | cons m ms => simp [bind, Except.bind, getBandParams]

/-- C60: the iterator selects, among the DMs of the files between the bounds (by default, the smallest and the largest available DM) and not above the
cap, a set that contains the smallest and the largest of them. -/
theorem C60_iterator_range (ms : List (DmMeta K)) (dmStart dmEnd cap : Option K) (fmt : TsFormat) (wmin : K)
    (band : Option (K × K × ℕ)) (it : DmIter K) (h : dmIterator ms dmStart dmEnd cap fmt wmin band = .ok it) :
    let InRange := fun m : DmMeta K => m ∈ ms ∧ (∀ a, dmStart = some a → a ≤ m.dm) ∧ (∀ b, dmEnd = some b → m.dm ≤ b) ∧
      (∀ c, cap = some c → m.dm ≤ c)
    (∀ x ∈ it.selectedDms, ∃ m, InRange m ∧ m.dm = x) ∧
    (∃ lo, it.selectedDms.head? = some lo ∧ ∀ m, InRange m → lo ≤ m.dm) ∧
    (∃ hi, it.selectedDms.getLast? = some hi ∧ ∀ m, InRange m → m.dm ≤ hi) := by
  intro InRange
  obtain ⟨dm0, dm1, b, h0, h1, hne, hb, hsel, hdict⟩ := dmIterator_inv ms dmStart dmEnd cap fmt wmin band it h
  obtain ⟨-, hd2, -⟩ := dictOf_spec (fun m : DmMeta K => m.dm) (fun m => m.fname) ms
  obtain ⟨hc1, ⟨lo, hlo, hlo'⟩, ⟨hi, hhi, hhi'⟩, -, -⟩ := C33_coverage _ _ _ _ _ _ _ _ hsel
  rw [hdict] at hc1 hlo' hhi'
  have hlow : ∀ m ∈ ms, (∀ a, dmStart = some a → a ≤ m.dm) ↔ dm0 ≤ m.dm := by
    intro m hm
    cases dmStart with
    | some a =>
      simp only [dmStartOf, Except.ok.injEq] at h0
      subst h0; simp
    | none =>
      simp only [dmStartOf] at h0
      cases hl : ms.map (fun m => m.dm) with
      | nil => simp at hl; rw [hl] at hm; simp at hm
      | cons a l =>
        rw [hl] at h0
        simp only [pyMin, Except.ok.injEq] at h0
        have := (foldl_min_spec l a).2 m.dm (by rw [← hl]; exact List.mem_map_of_mem hm)
        rw [h0] at this
        simp [this]
  have hcap : ∀ x, x ≤ applyCap cap dm1 ↔ x ≤ dm1 ∧ (∀ c, cap = some c → x ≤ c) := by
    intro x
    cases cap with
    | some c => simp [applyCap]
    | none => simp [applyCap]
  have hupp : ∀ m ∈ ms, (∀ a, dmEnd = some a → m.dm ≤ a) ↔ m.dm ≤ dm1 := by
    intro m hm
    cases dmEnd with
    | some a =>
      simp only [dmEndOf, Except.ok.injEq] at h1
      subst h1; simp
    | none =>
      simp only [dmEndOf] at h1
      cases hl : ms.map (fun m => m.dm) with
      | nil => simp at hl; rw [hl] at hm; simp at hm
      | cons a l =>
        rw [hl] at h1
        simp only [pyMax, Except.ok.injEq] at h1
        have := (foldl_max_spec l a).2 m.dm (by rw [← hl]; exact List.mem_map_of_mem hm)
        rw [h1] at this
        simp [this]
  have hin : ∀ m, InRange m → m.dm ∈ ((dictOf (fun m : DmMeta K => m.dm) (fun m => m.fname) ms).map Prod.fst).filter
      (fun x => dm0 ≤ x ∧ x ≤ applyCap cap dm1) := by
    rintro m ⟨hm, ha, hb, hc⟩
    rw [List.mem_filter]
    refine ⟨(hd2 _).mpr (List.mem_map_of_mem hm), ?_⟩
    simp only [decide_eq_true_eq]
    exact ⟨(hlow m hm).mp ha, (hcap _).mpr ⟨(hupp m hm).mp hb, hc⟩⟩
  refine ⟨?_, ⟨lo, hlo, fun m hm => hlo' _ (hin m hm)⟩, ⟨hi, hhi, fun m hm => hhi' _ (hin m hm)⟩⟩
  intro x hx
  obtain ⟨hx1, hx2, hx3⟩ := hc1 x hx
  obtain ⟨m, hm, rfl⟩ := List.mem_map.mp ((hd2 x).mp hx1)
  have := (hcap _).mp hx3
  exact ⟨m, ⟨hm, (hlow m hm).mpr hx2, (hupp m hm).mpr this.1, this.2⟩, rfl⟩

/-- C60: if the files agree on the band, the arguments for the band are ignored, even wrong ones. -/
theorem C60_band_of_files (ms : List (DmMeta K)) (dmStart dmEnd cap : Option K) (wmin : K) (band : Option (K × K × ℕ)) (b : K × K × ℕ)
    (hne : ms ≠ []) (h : ∀ m ∈ ms, getBandParams m .presto = .ok b) :
    dmIterator ms dmStart dmEnd cap .presto wmin band = dmIterator ms dmStart dmEnd cap .sigproc wmin (some b) := by
  have h1 : bandOf ms .presto band = .ok b := by
    unfold bandOf
    rw [((C60_inferred_for_all ms b).1).2 ⟨hne, h⟩]
  have h2 : bandOf ms .sigproc (some b) = .ok b := by
    unfold bandOf
    cases hi : inferBandParams ms .sigproc with
    | error e => rfl
    | ok b' => exact absurd hi (C60_inferred_for_all ms b').2
  unfold dmIterator
  rw [h1, h2]

/-- C60: if the band cannot be inferred from the files, that of the arguments counts for the selection, and without it there is no
iterator. -/
theorem C60_band_of_arguments (ms : List (DmMeta K)) (dmStart dmEnd cap : Option K) (fmt : TsFormat) (wmin : K)
    (h : ∀ b, inferBandParams ms fmt ≠ .ok b) :
    (∀ it, dmIterator ms dmStart dmEnd cap fmt wmin none ≠ .ok it) ∧
    ∀ b it, dmIterator ms dmStart dmEnd cap fmt wmin (some b) = .ok it →
      ∃ dm0 dm1, selectDms (it.metadataDict.map Prod.fst) dm0 dm1 b.1 b.2.1 (b.2.2 : K) wmin = .ok it.selectedDms := by
  have hb : ∀ band, bandOf ms fmt band = match band with
      | some b => .ok b
      | none => .error .valueError := by
    intro band
    unfold bandOf
    cases hi : inferBandParams ms fmt with
    | error e => rfl
    | ok b' => exact absurd hi (h b')
  constructor
  · intro it hit
    obtain ⟨-, -, b, -, -, -, hb', -⟩ := dmIterator_inv ms dmStart dmEnd cap fmt wmin none it hit
    rw [hb] at hb'
    cases hb'
  · intro b it hit
    obtain ⟨dm0, dm1, b', -, -, -, hb', hsel, -⟩ := dmIterator_inv ms dmStart dmEnd cap fmt wmin (some b) it hit
    rw [hb] at hb'
    cases hb'
    exact ⟨dm0, _, hsel⟩

example : dmIterator demoFiles none none none .presto (1/1000) (some (1, 2, 3)) =
    dmIterator demoFiles none none none .sigproc (1/1000) (some (1182, 1582, 400)) :=
  C60_band_of_files demoFiles none none none (1/1000) (some (1, 2, 3)) (1182, 1582, 400) (by decide +kernel) (by decide +kernel)

example : ∀ it, dmIterator demoFiles none none none .sigproc (1/1000) none ≠ .ok it :=
  (C60_band_of_arguments demoFiles none none none .sigproc (1/1000) fun b => (C60_inferred_for_all demoFiles b).2).1

/-- The iterator over the four files, with default bounds: C35 and C60 apply. -/
example : dmIterator demoFiles none none none .presto (1/1000) none =
    .ok { metadataDict := [(30, "c"), (0, "a"), (1/1000, "b"), (1/500, "d")], selectedDms := [0, 1/500, 30] } := by
  have h1 : dmStartOf demoFiles none = .ok 0 := by decide +kernel
  have h2 : dmEndOf demoFiles none = .ok 30 := by decide +kernel
  have h3 : bandOf demoFiles .presto none = .ok (1182, 1582, 400) := by decide +kernel
  have h4 : dictOf (fun m : DmMeta ℚ => m.dm) (fun m => m.fname) demoFiles =
      [(30, "c"), (0, "a"), (1/1000, "b"), (1/500, "d")] := by decide +kernel
  unfold dmIterator
  rw [h1, h2, h3]
  simp only [Except.bind, h4, applyCap]
  rw [if_neg (by decide)]
  change (selectDms ([30, 0, 1/1000, 1/500] : List ℚ) 0 30 1182 1582 ((400 : ℕ) : ℚ) (1/1000)).map _ = _
  rw [show ((400 : ℕ) : ℚ) = 400 by norm_num, demo_select]
  rfl

end Verif.Props
