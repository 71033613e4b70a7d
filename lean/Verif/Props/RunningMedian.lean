import Verif.Lemmas.RunningMedian
import Mathlib.Algebra.Order.BigOperators.Group.List
import Mathlib.Algebra.Order.Field.Basic
import Mathlib.Algebra.BigOperators.Ring.List
import Mathlib.Data.Rat.Floor
import Mathlib.Tactic.Positivity
import Mathlib.Tactic.FieldSimp
import Mathlib.Tactic.Ring

/-! # Property theorems for the running median: C25 - C28 -/

set_option linter.unusedSectionVars false

namespace Verif.Props

open Verif.Model Verif.Spec Verif.Lemmas

variable {α : Type*} [LinearOrder α]

/-- C26. For every non-empty array and every `n < size`, `nth_element` terminates (with at most `size` nested calls), never
leaves the array, leaves a permutation of it, and returns the `n`-th smallest value. -/
theorem C26_quickselect (d : Buf α) (n : ℕ) (hn : n < d.size) :
    ∃ v d', nthElement d 0 (d.size - 1) n = some (v, d') ∧ d'.size = d.size ∧
      ((List.range d'.size).map d'.val).Perm ((List.range d.size).map d.val) ∧
      IsNth ((List.range d.size).map d.val) n v := by
  obtain ⟨v, d', e, hp, hs, _, hn'⟩ := nthElement_spec d hn
  exact ⟨v, d', e, hs, hp, hn'⟩

/-- The order statistic is unique, so C26 determines the result. -/
theorem C26_order_statistic_unique (l : List α) (n : ℕ) (v w : α) (hv : IsNth l n v) (hw : IsNth l n w) : v = w :=
  isNth_unique hv hw

example : 2 < (⟨5, fun i => (([3, 1, 3, 0, 2] : List ℕ).getD i 0)⟩ : Buf ℕ).size ∧
    IsNth ([3, 1, 3, 0, 2] : List ℕ) 2 2 := by
  refine ⟨by decide, [0, 1, 2, 3, 3], by decide, by decide, rfl⟩

/-- C26, sub-ranges: between `start` and `end` (inclusive) the value at `n` afterwards is at least every element before it and
at most every element after it, and nothing outside the range moves. -/
theorem C26_subrange (d : Buf α) (s e n : ℕ) (h1 : s ≤ n) (h2 : n ≤ e) (h3 : e < d.size) :
    ∃ v d', nthElement d s e n = some (v, d') ∧ d'.size = d.size ∧ d'.val n = v ∧
      (∀ k, s ≤ k → k ≤ n → d'.val k ≤ v) ∧ (∀ k, n ≤ k → k ≤ e → v ≤ d'.val k) ∧
      ∀ k, k < s ∨ e < k → d'.val k = d.val k := by
  obtain ⟨v, d', e', r, hv, lo, hi⟩ := nthLoop_spec n (e - s + 1) d s e h1 h2 h3 (by omega)
  exact ⟨v, d', e', r.1, hv, lo, hi, fun k hk => rearr_outside r hk⟩

/-- C25. `ValueError` exactly for an even width or a width that is not smaller than the data; otherwise the call succeeds
(no access outside the arrays, every output written) and output `i` is the median of the window centred at `i`. -/
theorem C25_running_median [Inhabited α] (x : List α) (w : ℕ) :
    (runningMedian x w = .error .valueError ↔ w % 2 = 0 ∨ x.length ≤ w) ∧
    (w % 2 = 1 → w < x.length → ∃ out, runningMedian x w = .ok out ∧ out.length = x.length ∧
      ∀ i (h : i < out.length), IsRunningMedian x w i out[i]) := by
  have hok : w % 2 = 1 → w < x.length → ∃ out, runningMedian x w = .ok out ∧ out.length = x.length ∧
      ∀ i (h : i < out.length), IsRunningMedian x w i out[i] := by
    intro h1 h2
    obtain ⟨out, e, hl, h⟩ := runningMedian_ok x w (by omega) h2
    refine ⟨out, e, hl, ?_⟩
    intro i hi
    exact ⟨medWin x w i, by simp [medWin],
      medWin_padded x w i (by intro hc; rw [hc] at h2; simp at h2), h i hi⟩
  refine ⟨⟨?_, ?_⟩, hok⟩
  · intro h
    by_contra hc
    push Not at hc
    obtain ⟨out, e, _⟩ := hok (by omega) hc.2
    rw [e] at h; cases h
  · rintro (h | h)
    · unfold runningMedian
      simp only
      rw [if_pos h]
    · unfold runningMedian
      simp only
      split_ifs with h1 h2
      · rfl
      · omega
      · rfl

theorem nth_map {β : Type*} [LinearOrder β] {f : α → β} (hf : Monotone f) {l : List α} {n : ℕ} {v : α}
    (h : IsNth l n v) : IsNth (l.map f) n (f v) := by
  obtain ⟨l', h1, h2, h3⟩ := h
  refine ⟨l'.map f, h1.map f, ?_, by simp [h3]⟩
  rw [List.pairwise_map]
  exact h2.imp (fun h => hf h)

/-- C25, consequence: the running median commutes with every non-decreasing map, in particular with adding a constant and with
multiplying by a positive number. -/
theorem C25_monotone_equivariant {β : Type*} [LinearOrder β] [Inhabited α] [Inhabited β] (f : α → β) (hf : Monotone f)
    (x : List α) (w : ℕ) : runningMedian (x.map f) w = (runningMedian x w).map (List.map f) := by
  by_cases hc : w % 2 = 1 ∧ w < x.length
  · obtain ⟨out, e, hl, h⟩ := runningMedian_ok x w (by omega) hc.2
    obtain ⟨out', e', hl', h'⟩ := runningMedian_ok (x.map f) w (by omega) (by simpa using hc.2)
    rw [e, e']
    simp only [Except.map, Except.ok.injEq]
    apply List.ext_getElem
    · simp [hl, hl']
    · intro i h1 h2
      rw [List.getElem_map]
      have h3 : medWin (x.map f) w i = (medWin x w i).map f := by
        unfold medWin
        rw [List.map_map]
        apply List.map_congr_left
        intro k _
        have : min (i + k - w / 2) ((x.map f).length - 1) < x.length := by
          rw [List.length_map]; omega
        simp only [List.length_map] at this
        simp [List.getD, List.length_map, this]
      have h4 := h' i h1
      rw [h3] at h4
      exact isNth_unique h4 (nth_map hf (h i (by simpa using h2)))
  · have h1 := (C25_running_median x w).1.mpr (by omega)
    have h2 := (C25_running_median (x.map f) w).1.mpr (by rw [List.length_map]; omega)
    rw [h1, h2]
    rfl

theorem nth_mem {l : List α} {n : ℕ} {v : α} (h : IsNth l n v) : v ∈ l := by
  obtain ⟨l', h1, _, h3⟩ := h
  exact h1.mem_iff.mp (List.mem_of_getElem? h3)

theorem runningMedian_mem [Inhabited α] {x : List α} {w : ℕ} {out : List α} (h : runningMedian x w = .ok out) :
    out.length = x.length ∧ w % 2 = 1 ∧ w < x.length ∧ ∀ v ∈ out, v ∈ x := by
  have hc : w % 2 = 1 ∧ w < x.length := by
    by_contra hc
    rw [(C25_running_median x w).1.mpr (by omega)] at h
    cases h
  obtain ⟨out', e, hl, hm⟩ := runningMedian_ok x w (by omega) hc.2
  rw [e] at h
  cases h
  refine ⟨hl, hc.1, hc.2, ?_⟩
  intro v hv
  obtain ⟨i, hi, rfl⟩ := List.getElem_of_mem hv
  have := nth_mem (hm i hi)
  unfold medWin at this
  rw [List.mem_map] at this
  obtain ⟨k, _, e⟩ := this
  rw [← e]
  have hlt : min (i + k - w / 2) (x.length - 1) < x.length := by omega
  simp only [List.getD, List.getElem?_eq_getElem hlt, Option.getD_some]
  exact List.getElem_mem hlt

/-! ## The approximate running median -/

variable {K : Type*} [Field K] [LinearOrder K] [IsStrictOrderedRing K] [FloorSemiring K] [Inhabited K]

omit [Inhabited K] in
theorem scrunchFactor_eq (w m : ℕ) : ⌊max 1 ((w : K) / m)⌋₊ = max 1 (w / m) := by
  rw [← Nat.floor_div_eq_div (K := K) w m]
  rcases le_total 1 ((w : K) / m) with h | h
  · rw [max_eq_right h, max_eq_right]
    rw [Nat.le_floor_iff (by linarith)]
    simpa using h
  · rw [max_eq_left h, max_eq_left, Nat.floor_one]
    exact Nat.floor_le_one_of_le_one h

omit [LinearOrder K] [IsStrictOrderedRing K] [FloorSemiring K] [Inhabited K] in
theorem scrunch_length (x : List K) (f : ℕ) : (scrunch x f).length = x.length / f := by
  simp [scrunch]

/-- C27, exact condition for `ValueError`, with `s = max(1, width // min_points)` the scrunching factor. -/
theorem C27_error_iff (x : List K) (w m : ℕ) :
    fastRunningMedian x w m = .error .valueError ↔
      m % 2 = 0 ∨ (w < 2 * m ∧ (w % 2 = 0 ∨ x.length ≤ w)) ∨ (2 * m ≤ w ∧ x.length / (w / m) ≤ m) := by
  unfold fastRunningMedian
  split_ifs with hm
  · simp [hm]
  simp only
  have hm0 : 0 < m := by omega
  rw [scrunchFactor_eq]
  have hs : 2 ≤ w / m ↔ 2 * m ≤ w := Nat.le_div_iff_mul_le hm0
  split_ifs with h1
  · have : w < 2 * m := by
      by_contra hc
      have := hs.mpr (by omega)
      omega
    rw [(C25_running_median x w).1]
    omega
  · have h2 : 2 ≤ w / m := by omega
    have h3 := hs.mp h2
    rw [max_eq_right (by omega)]
    constructor
    · intro h
      right; right
      refine ⟨h3, ?_⟩
      by_contra hc
      obtain ⟨out, e, _⟩ := runningMedian_ok (scrunch x (w / m)) m hm (by rw [scrunch_length]; omega)
      rw [e] at h
      cases h
    · intro h
      rw [(C25_running_median (scrunch x (w / m)) m).1.mpr (by rw [scrunch_length]; omega)]
      rfl

/-- C27 is false: a window of 4 samples fits in 6 samples, and a window of 6 samples fits in 7, but both calls fail. -/
theorem C27_false :
    fastRunningMedian (List.replicate 6 (0 : ℚ)) 4 101 = .error .valueError ∧
    fastRunningMedian (List.replicate 7 (0 : ℚ)) 6 3 = .error .valueError := by
  constructor
  · rw [C27_error_iff]; right; left; simp
  · rw [C27_error_iff]; right; right; simp

/-- C27, what holds: with odd `min_points`, a window that is odd or at least `2 min_points` samples long, and one scrunched sample
to spare, the call succeeds. Missing: even windows shorter than `2 min_points`, and windows within one scrunched sample of
the data length, for which the claim is false. -/
theorem C27_partial (x : List K) (w m : ℕ) (hm : m % 2 = 1) (hw : 2 * m ≤ w ∨ w % 2 = 1)
    (hx : w + max 1 (w / m) ≤ x.length) : ∃ out, fastRunningMedian x w m = .ok out := by
  cases h : fastRunningMedian x w m with
  | ok out => exact ⟨out, rfl⟩
  | error e =>
    exfalso
    have hne : fastRunningMedian x w m ≠ .error .valueError := by
      intro hc
      rcases (C27_error_iff x w m).mp hc with h1 | ⟨h1, h2 | h2⟩ | ⟨h1, h2⟩
      · omega
      · omega
      · omega
      · have hpos : 0 < w / m := Nat.div_pos (by omega) (by omega)
        have h3 : m + 1 ≤ x.length / (w / m) := by
          rw [Nat.le_div_iff_mul_le hpos, Nat.succ_mul]
          have := Nat.mul_div_le w m
          omega
        omega
    rw [h] at hne
    -- the only other error cannot occur
    unfold fastRunningMedian at h
    simp only at h
    split_ifs at h with h1 h2
    · omega
    · by_cases hc : w % 2 = 1 ∧ w < x.length
      · obtain ⟨out, e', _⟩ := runningMedian_ok x w (by omega) hc.2
        rw [e'] at h; cases h
      · rw [(C25_running_median x w).1.mpr (by omega)] at h
        cases h
        exact hne rfl
    · by_cases hc : m < (scrunch x ⌊max 1 ((w : K) / m)⌋₊).length
      · obtain ⟨out, e', _⟩ := runningMedian_ok (scrunch x ⌊max 1 ((w : K) / m)⌋₊) m h1 hc
        rw [e'] at h; cases h
      · rw [(C25_running_median (scrunch x ⌊max 1 ((w : K) / m)⌋₊) m).1.mpr (by omega)] at h
        cases h
        exact hne rfl

example : 101 % 2 = 1 ∧ (2 * 101 ≤ 4000 ∨ 4000 % 2 = 1) ∧ 4000 + max 1 (4000 / 101) ≤ (List.replicate 10000 (0 : ℚ)).length := by
  rw [List.length_replicate]; decide

/-- Facts about the interpolation index. -/
theorem interp_cases (n : ℕ) (hn : 1 ≤ n) (xp fp : ℕ → K) (hxp : ∀ i j, i < j → xp i < xp j) (x : K) :
    (∃ j < n, interp n xp fp x = fp j) ∨
    ∃ j θ, j + 1 < n ∧ 0 ≤ θ ∧ θ ≤ 1 ∧ θ = (x - xp j) / (xp (j + 1) - xp j) ∧ xp j ≤ x ∧ x < xp (j + 1) ∧
      interp n xp fp x = fp j + θ * (fp (j + 1) - fp j) := by
  unfold interp
  split_ifs with h0
  · exact Or.inl ⟨0, by omega, rfl⟩
  simp only
  have hmono : ∀ i j, i ≤ j → xp i ≤ xp j := by
    intro i j h
    rcases eq_or_lt_of_le h with h | h
    · rw [h]
    · exact (hxp i j h).le
  -- the filter selects an initial segment
  have hseg : ∀ n, ∃ c ≤ n, (List.range n).filter (fun j => xp j ≤ x) = List.range c ∧
      (∀ j < c, xp j ≤ x) ∧ ∀ j, c ≤ j → j < n → x < xp j := by
    intro n
    induction n with
    | zero => exact ⟨0, le_rfl, rfl, by intro j hj; omega, by intro j _ hj; omega⟩
    | succ n ih =>
      obtain ⟨c, hc, e, h1, h2⟩ := ih
      rw [List.range_succ, List.filter_append, e]
      by_cases hx : xp n ≤ x
      · have hcn : c = n := by
          by_contra hne
          have := h2 c le_rfl (by omega)
          have := hmono c n hc
          linarith
        refine ⟨n + 1, le_rfl, ?_, ?_, by intro j _ hj; omega⟩
        · subst hcn; simp [hx, List.range_succ]
        · intro j hj
          rcases Nat.lt_or_ge j n with h | h
          · exact h1 j (by omega)
          · rwa [show j = n by omega]
      · refine ⟨c, by omega, by simp [hx], h1, ?_⟩
        intro j hj1 hj2
        rcases Nat.lt_or_ge j n with h | h
        · exact h2 j hj1 h
        · rw [show j = n by omega]; exact not_le.mp hx
  obtain ⟨c, hc, e, h1, h2⟩ := hseg n
  rw [e, List.length_range]
  have hc1 : 1 ≤ c := by
    by_contra hcc
    exact h0 (h2 0 (by omega) (by omega))
  split_ifs with h3
  · exact Or.inl ⟨n - 1, by omega, rfl⟩
  · right
    have ha : xp (c - 1) ≤ x := h1 _ (by omega)
    have hb : x < xp (c - 1 + 1) := h2 _ (by omega) (by omega)
    have hd : 0 < xp (c - 1 + 1) - xp (c - 1) := by linarith
    refine ⟨c - 1, (x - xp (c - 1)) / (xp (c - 1 + 1) - xp (c - 1)), by omega, ?_, ?_, rfl, ha, hb, ?_⟩
    · exact div_nonneg (by linarith) hd.le
    · rw [div_le_one hd]; linarith
    · field_simp
      ring

theorem fast_ok_inv {x : List K} {w m : ℕ} {out : List K} (h : fastRunningMedian x w m = .ok out) :
    m % 2 = 1 ∧ ((w < 2 * m ∧ runningMedian x w = .ok out) ∨
      (2 * m ≤ w ∧ ∃ rmed, runningMedian (scrunch x (w / m)) m = .ok rmed ∧
        out = (List.range x.length).map (fun i : ℕ => interp (scrunch x (w / m)).length
          (fun j : ℕ => (j : K) * ((w / m : ℕ) : K) + 1 / 2 * (((w / m : ℕ) : K) - 1)) (fun j => rmed.getD j default)
            (i : K)))) := by
  unfold fastRunningMedian at h
  simp only at h
  split_ifs at h with h1 h2
  · rw [scrunchFactor_eq] at h2
    refine ⟨by omega, Or.inl ⟨?_, h⟩⟩
    by_contra hc
    have := (Nat.le_div_iff_mul_le (by omega : 0 < m)).mpr (not_lt.mp hc)
    omega
  · rw [scrunchFactor_eq] at h h2
    have h3 : 2 ≤ w / m := by omega
    rw [max_eq_right (by omega)] at h
    refine ⟨by omega, Or.inr ⟨(Nat.le_div_iff_mul_le (by omega : 0 < m)).mp h3, ?_⟩⟩
    cases hr : runningMedian (scrunch x (w / m)) m with
    | error e => rw [hr] at h; cases h
    | ok rmed =>
      rw [hr] at h
      simp only [Except.bind] at h
      cases h
      exact ⟨rmed, rfl, rfl⟩

theorem xlores_mono {f : ℕ} (hf : 1 ≤ f) : ∀ i j : ℕ, i < j →
    (i : K) * f + 1 / 2 * ((f : K) - 1) < (j : K) * f + 1 / 2 * ((f : K) - 1) := by
  intro i j h
  have h1 : (i : K) < j := by exact_mod_cast h
  have h2 : (0 : K) < f := by exact_mod_cast hf
  nlinarith

theorem mean_bounds {l : List K} {f : ℕ} (hf : 1 ≤ f) (hl : l.length = f) {lo hi : K}
    (h : ∀ v ∈ l, lo ≤ v ∧ v ≤ hi) : lo ≤ l.sum / f ∧ l.sum / f ≤ hi := by
  have h2 : (0 : K) < f := by exact_mod_cast hf
  have h3 := List.card_nsmul_le_sum l lo (fun v hv => (h v hv).1)
  have h4 := List.sum_le_card_nsmul l hi (fun v hv => (h v hv).2)
  rw [hl, nsmul_eq_mul] at h3 h4
  rw [le_div_iff₀ h2, div_le_iff₀ h2]
  constructor <;> linarith

theorem chunk_length {x : List K} {f i : ℕ} (hf : 1 ≤ f) (hi : i < x.length / f) :
    ((x.drop (i * f)).take f).length = f := by
  rw [List.length_take, List.length_drop]
  have h1 : (i + 1) * f ≤ x.length := (Nat.le_div_iff_mul_le hf).mp hi
  rw [Nat.succ_mul] at h1
  omega

/-- C28. A successful call returns one value per sample, each between any bounds of the data. -/
theorem C28_within_data_range (x : List K) (w m : ℕ) (out : List K) (h : fastRunningMedian x w m = .ok out) (lo hi : K)
    (hx : ∀ v ∈ x, lo ≤ v ∧ v ≤ hi) : out.length = x.length ∧ ∀ v ∈ out, lo ≤ v ∧ v ≤ hi := by
  obtain ⟨hm, ⟨_, h1⟩ | ⟨h2, rmed, h1, rfl⟩⟩ := fast_ok_inv h
  · obtain ⟨hl, _, _, hmem⟩ := runningMedian_mem h1
    exact ⟨hl, fun v hv => hx v (hmem v hv)⟩
  · refine ⟨by simp, ?_⟩
    have hf : 2 ≤ w / m := (Nat.le_div_iff_mul_le (by omega : 0 < m)).mpr h2
    generalize w / m = f at *
    obtain ⟨hl, _, hlt, hmem⟩ := runningMedian_mem h1
    have hb : ∀ j < rmed.length, lo ≤ rmed.getD j default ∧ rmed.getD j default ≤ hi := by
      intro j hj
      have h3 : rmed.getD j default ∈ rmed := by
        simp only [List.getD, List.getElem?_eq_getElem hj, Option.getD_some]
        exact List.getElem_mem hj
      have h4 := hmem _ h3
      unfold scrunch at h4
      rw [List.mem_map] at h4
      obtain ⟨i, hi, e⟩ := h4
      rw [← e]
      exact mean_bounds (by omega) (chunk_length (by omega) (List.mem_range.mp hi))
        (fun v hv => hx v (List.mem_of_mem_drop (List.mem_of_mem_take hv)))
    intro v hv
    rw [List.mem_map] at hv
    obtain ⟨i, _, rfl⟩ := hv
    rcases interp_cases (scrunch x f).length (by omega)
        (fun j : ℕ => (j : K) * (f : K) + 1 / 2 * ((f : K) - 1)) (fun j => rmed.getD j default)
        (xlores_mono (by omega)) (i : K) with ⟨j, hj, e⟩ | ⟨j, θ, hj, t0, t1, _, _, _, e⟩
    · rw [e]; exact hb j (by omega)
    · rw [e]
      have a := hb j (by omega)
      have b := hb (j + 1) (by omega)
      constructor <;> nlinarith

omit [Inhabited K] in
theorem interp_affine (n : ℕ) (xp fp : ℕ → K) (g c x : K) :
    interp n xp (fun j => g * fp j + c) x = g * interp n xp fp x + c := by
  unfold interp
  split_ifs with h0
  · rfl
  · simp only
    split_ifs
    · rfl
    · ring

omit [IsStrictOrderedRing K] [FloorSemiring K] [LinearOrder K] [Inhabited K] in
theorem sum_map_affine' (l : List K) (g c : K) : (l.map (fun v => g * v + c)).sum = g * l.sum + l.length * c := by
  induction l with
  | nil => simp
  | cons a l ih => simp [ih]; ring

/-- C28. Gain and offset of the data: the running median changes accordingly. -/
theorem C28_affine_equivariant (x : List K) (w m : ℕ) (g c : K) (hg : 0 ≤ g) :
    fastRunningMedian (x.map (fun v => g * v + c)) w m = (fastRunningMedian x w m).map (List.map (fun v => g * v + c)) := by
  have hmono : Monotone (fun v : K => g * v + c) := fun a b h => by
    have := mul_le_mul_of_nonneg_left h hg
    simpa using this
  unfold fastRunningMedian
  simp only
  split_ifs with h1 h2
  · rfl
  · exact C25_monotone_equivariant _ hmono x w
  · have hf : 1 ≤ ⌊max 1 ((w : K) / m)⌋₊ := by rw [scrunchFactor_eq]; exact le_max_left _ _
    generalize ⌊max 1 ((w : K) / m)⌋₊ = f at *
    have hf0 : (f : K) ≠ 0 := by
      have : (0 : K) < f := by exact_mod_cast hf
      exact this.ne'
    have hs : scrunch (x.map (fun v => g * v + c)) f = (scrunch x f).map (fun v => g * v + c) := by
      unfold scrunch
      rw [List.length_map, List.map_map]
      apply List.map_congr_left
      intro i hi
      simp only [Function.comp]
      rw [← List.map_drop, ← List.map_take, sum_map_affine', chunk_length hf (List.mem_range.mp hi)]
      field_simp
    rw [hs, C25_monotone_equivariant _ hmono]
    cases hr : runningMedian (scrunch x f) m with
    | error e => rfl
    | ok rmed =>
      obtain ⟨hl, _, hlt, _⟩ := runningMedian_mem hr
      simp only [Except.map, Except.bind, List.length_map, List.map_map]
      congr 1
      apply List.map_congr_left
      intro i _
      simp only [Function.comp]
      rw [← interp_affine]
      have hn : 1 ≤ (scrunch x f).length := by omega
      -- both interpolants only use points inside the table
      have hcongr : ∀ (fp gp : ℕ → K), (∀ j < (scrunch x f).length, fp j = gp j) →
          interp (scrunch x f).length (fun j : ℕ => (j : K) * (f : K) + 1 / 2 * ((f : K) - 1)) fp (i : K) =
          interp (scrunch x f).length (fun j : ℕ => (j : K) * (f : K) + 1 / 2 * ((f : K) - 1)) gp (i : K) := by
        intro fp gp hfg
        unfold interp
        split_ifs with h0
        · exact hfg 0 (by omega)
        · simp only
          split_ifs with h3
          · exact hfg _ (by omega)
          · rw [hfg _ (by omega), hfg _ (by omega)]
      apply hcongr
      intro j hj
      have hj' : j < rmed.length := by omega
      simp [List.getD, hj']

/-- C28. Adding a constant to the data adds it to the running median. -/
theorem C28_baseline_equivariant (x : List K) (w m : ℕ) (c : K) :
    fastRunningMedian (x.map (· + c)) w m = (fastRunningMedian x w m).map (List.map (· + c)) := by
  simpa using C28_affine_equivariant x w m 1 c zero_le_one

/-- C28. The running median of a constant series is the constant, so subtracting it gives exactly zero. -/
theorem C28_constant (N w m : ℕ) (c : K) (out : List K) (h : fastRunningMedian (List.replicate N c) w m = .ok out) :
    out = List.replicate N c ∧
    List.zipWith (· - ·) (List.replicate N c) out = List.replicate N 0 := by
  obtain ⟨hl, hb⟩ := C28_within_data_range _ w m out h c c (by
    intro v hv
    rw [List.eq_of_mem_replicate hv]
    exact ⟨le_rfl, le_rfl⟩)
  have e : out = List.replicate N c := by
    rw [List.eq_replicate_iff]
    refine ⟨by simpa using hl, ?_⟩
    intro v hv
    exact le_antisymm (hb v hv).2 (hb v hv).1
  refine ⟨e, ?_⟩
  rw [e, List.zipWith_replicate]
  simp

/-- A successful call with scrunching (factor 2), for which C28 is not vacuous. -/
example : ∃ out, fastRunningMedian ([1, 5, 2, 8, 3, 9, 4, 7, 6, 0] : List ℚ) 6 3 = .ok out :=
  C27_partial _ 6 3 (by norm_num) (Or.inl (by norm_num)) (by simp)

end Verif.Props
