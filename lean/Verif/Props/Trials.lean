import Verif.Model.Trials
import Mathlib.Tactic.Linarith
import Mathlib.Tactic.FieldSimp
import Mathlib.Tactic.Ring
import Mathlib.Algebra.Order.Floor.Ring
import Mathlib.Data.Rat.Floor
import Mathlib.Data.List.Pairwise
import Mathlib.Tactic.NormNum

/-! # Property theorems for width trials and FFA trial frequencies: C23, C24 -/

namespace Verif.Props

open Verif.Model

variable {K : Type*} [Field K] [LinearOrder K] [IsStrictOrderedRing K] [FloorSemiring K]

/-- The documented recurrence `W(n+1) = max(floor(wtsp W(n)), W(n) + 1)`, `W(0) = 1` (search.py 36-41). -/
def widthSeq (wtsp : K) : ℕ → ℕ
  | 0 => 1
  | n + 1 => max ⌊wtsp * widthSeq wtsp n⌋₊ (widthSeq wtsp n + 1)

theorem width_step_eq (wtsp : K) (w : ℕ) : ⌊max ((w : K) + 1) (wtsp * w)⌋₊ = max ⌊wtsp * w⌋₊ (w + 1) := by
  rcases le_total ((w : K) + 1) (wtsp * w) with h | h
  · rw [max_eq_right h, max_eq_left]
    rw [Nat.le_floor_iff (le_trans (by positivity) h)]
    push_cast; exact h
  · rw [max_eq_left h, max_eq_right]
    · have : ((w : K) + 1) = ((w + 1 : ℕ) : K) := by push_cast; rfl
      rw [this, Nat.floor_natCast]
    · have := Nat.floor_le_floor h
      have e : ((w : K) + 1) = ((w + 1 : ℕ) : K) := by push_cast; rfl
      rwa [e, Nat.floor_natCast] at this

omit [IsStrictOrderedRing K] in
theorem widthSeq_lt (wtsp : K) (n : ℕ) : widthSeq wtsp n < widthSeq wtsp (n + 1) := by
  rw [widthSeq]
  exact lt_of_lt_of_le (Nat.lt_succ_self _) (le_max_right _ _)

omit [IsStrictOrderedRing K] in
theorem widthSeq_mono (wtsp : K) {i j : ℕ} (h : i < j) : widthSeq wtsp i < widthSeq wtsp j :=
  strictMono_nat_of_lt_succ (widthSeq_lt wtsp) h

theorem widthLoop_eq (wtsp : K) (wmax : ℕ) : ∀ (d n : ℕ), wmax + 1 - widthSeq wtsp n ≤ d →
    ∃ k, widthLoop wtsp wmax (widthSeq wtsp n) = (List.range k).map (fun i => widthSeq wtsp (n + i)) ∧
      wmax < widthSeq wtsp (n + k) ∧ ∀ i < k, widthSeq wtsp (n + i) ≤ wmax := by
  intro d
  induction d with
  | zero =>
    intro n h
    refine ⟨0, ?_, by rw [Nat.add_zero]; omega, by omega⟩
    rw [widthLoop, if_neg (by omega)]
    rfl
  | succ d ih =>
    intro n h
    by_cases hc : widthSeq wtsp n ≤ wmax
    · have hlt := widthSeq_lt wtsp n
      obtain ⟨k, e, h1, h2⟩ := ih (n + 1) (by omega)
      refine ⟨k + 1, ?_, by rw [show n + (k + 1) = n + 1 + k by omega]; exact h1, ?_⟩
      · rw [widthLoop, if_pos hc, width_step_eq, ← widthSeq, e, List.range_succ_eq_map]
        simp only [List.map_cons, Nat.add_zero, List.map_map]
        congr 1
        apply List.map_congr_left
        intro i _
        simp only [Function.comp_apply, Nat.succ_eq_add_one]
        rw [show n + (i + 1) = n + 1 + i by omega]
      · intro i hi
        rcases Nat.eq_zero_or_pos i with h0 | h0
        · subst h0; exact hc
        · have := h2 (i - 1) (by omega)
          rwa [show n + 1 + (i - 1) = n + i by omega] at this
    · refine ⟨0, ?_, by rw [Nat.add_zero]; omega, by omega⟩
      rw [widthLoop, if_neg hc]
      rfl

/-- C24. The width trials are exactly the elements of the documented sequence that do not exceed the
largest allowed width, in order; for every `wtsp`. (Termination of the loop is part of the definition of the model.) -/
theorem C24_width_trials (nbins : ℕ) (ducyMax wtsp : K) :
    (∃ k, generateWidthTrials nbins ducyMax wtsp = (List.range k).map (widthSeq wtsp) ∧ 1 ≤ k ∧
      (∀ i < k, widthSeq wtsp i ≤ max 1 ⌊ducyMax * nbins⌋₊) ∧ max 1 ⌊ducyMax * nbins⌋₊ < widthSeq wtsp k) ∧
    (generateWidthTrials nbins ducyMax wtsp).head? = some 1 ∧
    (generateWidthTrials nbins ducyMax wtsp).Pairwise (· < ·) := by
  have hw : ⌊max 1 (ducyMax * nbins)⌋₊ = max 1 ⌊ducyMax * (nbins : K)⌋₊ := by
    rcases le_total 1 (ducyMax * (nbins : K)) with h | h
    · rw [max_eq_right h, max_eq_right]
      rw [Nat.le_floor_iff (by linarith)]
      simpa using h
    · rw [max_eq_left h, max_eq_left, Nat.floor_one]
      have := Nat.floor_le_floor h
      rwa [Nat.floor_one] at this
  obtain ⟨k, e, h1, h2⟩ := widthLoop_eq wtsp (max 1 ⌊ducyMax * (nbins : K)⌋₊) _ 0 le_rfl
  simp only [Nat.zero_add] at e h1 h2
  have hk : 1 ≤ k := by
    by_contra hc
    have : k = 0 := by omega
    subst this
    rw [widthSeq] at h1
    have := le_max_left 1 ⌊ducyMax * (nbins : K)⌋₊
    omega
  have hg : generateWidthTrials nbins ducyMax wtsp = (List.range k).map (widthSeq wtsp) := by
    unfold generateWidthTrials
    simp only
    rw [hw]
    exact e
  refine ⟨⟨k, hg, hk, h2, h1⟩, ?_, ?_⟩
  · rw [hg]
    obtain ⟨k', rfl⟩ : ∃ k', k = k' + 1 := ⟨k - 1, by omega⟩
    rw [List.range_succ_eq_map]
    rfl
  · rw [hg, List.pairwise_map]
    exact List.pairwise_lt_range.imp (fun h => widthSeq_mono wtsp h)

/-- C24. With a duty cycle below one and at least two bins all widths are valid for profiles with `nbins` bins or more. -/
theorem C24_widths_valid (nbins : ℕ) (hn : 2 ≤ nbins) (ducyMax wtsp : K) (hd : ducyMax < 1) (bins : ℕ)
    (hb : nbins ≤ bins) : ∀ w ∈ generateWidthTrials nbins ducyMax wtsp, 0 < w ∧ w < bins := by
  obtain ⟨⟨k, e, _, h2, _⟩, _, _⟩ := C24_width_trials nbins ducyMax wtsp
  intro w hw
  rw [e, List.mem_map] at hw
  obtain ⟨i, hi, rfl⟩ := hw
  have h3 := h2 i (by simpa using hi)
  have hn0 : (0 : K) < nbins := by exact_mod_cast (by omega : 0 < nbins)
  have h4 : ⌊ducyMax * (nbins : K)⌋₊ < nbins := by
    rw [Nat.floor_lt' (by omega)]
    nlinarith
  refine ⟨?_, by omega⟩
  rcases Nat.eq_zero_or_pos i with h0 | h0
  · subst h0; simp [widthSeq]
  · have := widthSeq_mono wtsp h0
    omega

/-- The sequence given in the documentation of `ffa_search`: 1, 2, 3, 4, 6, 9, 13, 19 for `wtsp = 1.5`. -/
example : generateWidthTrials 100 (1 / 5 : ℚ) (3 / 2) = [1, 2, 3, 4, 6, 9, 13, 19] := by
  obtain ⟨⟨k, e, h1, h2, h3⟩, _⟩ := C24_width_trials 100 (1 / 5 : ℚ) (3 / 2)
  have hf : ⌊(1 / 5 : ℚ) * ((100 : ℕ) : ℚ)⌋₊ = 20 := by
    rw [Nat.floor_eq_iff (by norm_num)]; norm_num
  rw [hf] at h2 h3
  have s7 : widthSeq (3 / 2 : ℚ) 7 = 19 := by decide +kernel
  have s8 : widthSeq (3 / 2 : ℚ) 8 = 28 := by decide +kernel
  have hk : k = 8 := by
    rcases Nat.lt_trichotomy k 8 with h | h | h
    · have : widthSeq (3 / 2 : ℚ) k ≤ widthSeq (3 / 2 : ℚ) 7 := by
        rcases Nat.lt_or_ge k 7 with h' | h'
        · exact (widthSeq_mono _ h').le
        · have : k = 7 := by omega
          rw [this]
      omega
    · exact h
    · have := h2 8 h
      omega
  rw [e, hk]
  decide +kernel

/-! ## C23 -/

omit [IsStrictOrderedRing K] [FloorSemiring K] in
/-- C23. `ValueError` exactly outside the documented domain. -/
theorem C23_rejects (N p : ℤ) (dt : K) :
    (ffafreq N p dt = .error .valueError ↔ (N ≤ 0 ∨ p ≤ 1 ∨ N < p ∨ dt ≤ 0)) ∧
    (ffaprd N p dt = .error .valueError ↔ (N ≤ 0 ∨ p ≤ 1 ∨ N < p ∨ dt ≤ 0)) := by
  have h : ffafreq N p dt = .error .valueError ↔ (N ≤ 0 ∨ p ≤ 1 ∨ N < p ∨ dt ≤ 0) := by
    unfold ffafreq
    split_ifs with h1 h2 h3 h4
    · constructor
      · intro h; cases h
      · rintro (h | h | h | h)
        · omega
        · omega
        · omega
        · exact absurd h4 (not_lt.mpr h)
    · simp only [true_iff]
      exact Or.inr (Or.inr (Or.inr (not_lt.mp h4)))
    · simp only [true_iff]; omega
    · simp only [true_iff]; omega
    · simp only [true_iff]; omega
  refine ⟨h, ?_⟩
  rw [← h]
  unfold ffaprd
  cases ffafreq N p dt with
  | error e => simp [Except.map]
  | ok l => simp [Except.map]

omit [IsStrictOrderedRing K] [FloorSemiring K] in
theorem ffafreq_ok (N p : ℕ) (dt : K) (hp : 2 ≤ p) (hN : p ≤ N) (hdt : 0 < dt) :
    ffafreq (N : ℤ) (p : ℤ) dt = .ok ((List.range (N / p)).map
      (fun s : ℕ => (1 / (p : K) - s / (((N / p : ℕ) : K) - 1) * (1 / (p : K)) ^ 2) / dt)) := by
  unfold ffafreq
  rw [if_neg (by omega), if_neg (by omega), if_neg (by omega), if_neg (by simpa using hdt)]
  have hm : ((N : ℤ) / (p : ℤ)).toNat = N / p := by
    rw [← Int.natCast_div, Int.toNat_natCast]
  simp only [hm]
  congr 1
  split_ifs with h1
  · rw [h1]; simp
  · rw [List.map_map]
    apply List.map_congr_left
    intro s _
    simp

/-- C23. For valid arguments with at least two rows: `N // p` strictly decreasing positive frequencies from `1/(p dt)` to
`1/(p dt) - 1/(p² dt)`, and strictly increasing periods from `p dt` to `p²/(p-1) dt`. -/
theorem C23_values (N p : ℕ) (dt : K) (hp : 2 ≤ p) (hN : 2 * p ≤ N) (hdt : 0 < dt) :
    ∃ fr pr, ffafreq (N : ℤ) (p : ℤ) dt = .ok fr ∧ ffaprd (N : ℤ) (p : ℤ) dt = .ok pr ∧
      fr.length = N / p ∧ pr.length = N / p ∧
      fr.Pairwise (· > ·) ∧ pr.Pairwise (· < ·) ∧ (∀ f ∈ fr, 0 < f) ∧
      fr.head? = some (1 / (p * dt)) ∧ fr.getLast? = some (1 / (p * dt) - 1 / ((p : K) ^ 2 * dt)) ∧
      pr.head? = some (p * dt) ∧ pr.getLast? = some ((p : K) ^ 2 / (p - 1) * dt) ∧
      ∀ s (h : s < fr.length) (h' : s < pr.length), pr[s] = 1 / fr[s] ∧
        pr[s] = dt * p * p / (p - s / (((N / p : ℕ) : K) - 1)) := by
  have hm : 2 ≤ N / p := (Nat.le_div_iff_mul_le (by omega)).mpr hN
  have e := ffafreq_ok N p dt hp (by omega) hdt
  generalize hM : N / p = m at *
  have hp0 : (2 : K) ≤ p := by exact_mod_cast hp
  have hm0 : (2 : K) ≤ m := by exact_mod_cast hm
  have hpp : (0 : K) < p := by linarith
  have hmm : (0 : K) < (m : K) - 1 := by linarith
  set g : ℕ → K := fun s => (1 / (p : K) - s / ((m : K) - 1) * (1 / (p : K)) ^ 2) / dt with hg
  -- g as a single fraction
  have hgf : ∀ s : ℕ, g s = (p - s / ((m : K) - 1)) / (dt * p * p) := by
    intro s
    simp only [hg]
    field_simp
  have hden : ∀ s < m, 0 < (p : K) - s / ((m : K) - 1) := by
    intro s hs
    have h1 : (s : K) ≤ (m : K) - 1 := by
      have : ((s + 1 : ℕ) : K) ≤ m := by exact_mod_cast hs
      push_cast at this; linarith
    have : (s : K) / ((m : K) - 1) ≤ 1 := by rw [div_le_one hmm]; exact h1
    linarith
  have hpos : ∀ s < m, 0 < g s := by
    intro s hs
    rw [hgf]
    have := hden s hs
    positivity
  have hlt : ∀ s t : ℕ, s < t → g t < g s := by
    intro s t hst
    rw [hgf, hgf]
    apply div_lt_div_of_pos_right _ (by positivity)
    have : (s : K) < t := by exact_mod_cast hst
    have := div_lt_div_of_pos_right this hmm
    linarith
  obtain ⟨m', rfl⟩ : ∃ m', m = m' + 1 := ⟨m - 1, by omega⟩
  refine ⟨_, _, e, by unfold ffaprd; rw [e]; rfl, by simp, by simp, ?_, ?_, ?_, ?_, ?_, ?_, ?_, ?_⟩
  · rw [List.pairwise_map]
    exact List.pairwise_lt_range.imp (fun h => hlt _ _ h)
  · rw [List.pairwise_map, List.pairwise_map]
    refine List.Pairwise.imp_of_mem ?_ List.pairwise_lt_range
    intro s t hs ht h
    have hs' := hpos t (by simpa using ht)
    exact one_div_lt_one_div_of_lt hs' (hlt _ _ h)
  · intro f hf
    rw [List.mem_map] at hf
    obtain ⟨s, hs, rfl⟩ := hf
    exact hpos s (by simpa using hs)
  · rw [List.range_succ_eq_map]
    simp only [List.map_cons, List.head?_cons, Option.some.injEq, hg, Nat.cast_zero]
    field_simp
    ring
  · rw [List.range_succ]
    simp only [List.map_append, List.map_cons, List.map_nil, List.getLast?_append, List.getLast?_singleton,
      Option.some_or, Option.some.injEq, hg]
    push_cast
    push_cast at hmm
    have : ((m' : K) + 1 - 1) ≠ 0 := hmm.ne'
    have h2 : (m' : K) / ((m' : K) + 1 - 1) = 1 := by
      rw [add_sub_cancel_right] at this ⊢
      exact div_self this
    rw [h2]
    field_simp
  · rw [List.range_succ_eq_map]
    simp only [List.map_cons, List.head?_cons, Option.some.injEq]
    have := hgf 0
    rw [this]
    simp
    field_simp
  · rw [List.range_succ]
    simp only [List.map_append, List.map_cons, List.map_nil, List.getLast?_append, List.getLast?_singleton,
      Option.some_or, Option.some.injEq]
    have h3 := hgf m'
    rw [h3]
    push_cast
    push_cast at hmm
    have : ((m' : K) + 1 - 1) ≠ 0 := hmm.ne'
    have h2 : (m' : K) / ((m' : K) + 1 - 1) = 1 := by
      rw [add_sub_cancel_right] at this ⊢
      exact div_self this
    rw [h2]
    have : (p : K) - 1 ≠ 0 := by linarith
    field_simp
  · intro s h h'
    simp only [List.getElem_map, List.getElem_range, true_and]
    have h3 := hgf s
    rw [h3, one_div_div]

/-- C23. The single row case: one frequency, `1/(p dt)`. -/
theorem C23_single_row (N p : ℕ) (dt : K) (hp : 2 ≤ p) (h1 : p ≤ N) (h2 : N < 2 * p) (hdt : 0 < dt) :
    ffafreq (N : ℤ) (p : ℤ) dt = .ok [1 / (p : K) / dt] ∧ ffaprd (N : ℤ) (p : ℤ) dt = .ok [p * dt] := by
  have e := ffafreq_ok N p dt hp h1 hdt
  have hm : N / p = 1 := Nat.div_eq_of_lt_le (by omega) (by omega)
  rw [hm] at e
  have e' : ffafreq (N : ℤ) (p : ℤ) dt = .ok [1 / (p : K) / dt] := by rw [e]; simp
  refine ⟨e', ?_⟩
  unfold ffaprd
  rw [e']
  have : (0 : K) < p := by exact_mod_cast (by omega : 0 < p)
  simp [Except.map, mul_comm]

example : 2 ≤ 5 ∧ 2 * 5 ≤ 33 ∧ (0 : ℚ) < 1 / 1000 := by norm_num

end Verif.Props
