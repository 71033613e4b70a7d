import Verif.Model.Ranges
import Mathlib.Data.Rat.Floor
import Mathlib.Algebra.Order.Field.Basic
import Mathlib.Data.List.Chain
import Mathlib.Tactic.Linarith
import Mathlib.Tactic.NormNum

/-! # Search ranges of the pipeline: properties C36, C37 -/

namespace Verif.Props

open Verif.Model

set_option linter.unusedSectionVars false

variable {K : Type*} [LinearOrder K]

theorem contiguity_iff (l : List (SearchRange K)) :
    contiguityLoop l = .ok () ↔ l.IsChain (fun a b => a.pmax = b.pmin) := by
  induction l with
  | nil => simp [contiguityLoop]
  | cons a l ih =>
    cases l with
    | nil => simp [contiguityLoop]
    | cons b l =>
      rw [List.isChain_cons_cons, ← ih]
      conv_lhs => unfold contiguityLoop
      by_cases h : a.pmax = b.pmin
      · simp [h]
      · simp [h]

/-- In a contiguous list of non-empty ranges every range ends at or before the start of all the later ones. -/
theorem contiguous_pairwise {l : List (SearchRange K)} (hc : l.IsChain (fun a b => a.pmax = b.pmin))
    (hp : ∀ r ∈ l, r.pmin < r.pmax) : l.Pairwise (fun a b => a.pmax ≤ b.pmin) := by
  induction l with
  | nil => exact .nil
  | cons a l ih =>
    have ih' := ih hc.tail (fun r hr => hp r (List.mem_cons_of_mem _ hr))
    refine List.Pairwise.cons ?_ ih'
    cases l with
    | nil => intro b hb; cases hb
    | cons b l =>
      rw [List.isChain_cons_cons] at hc
      intro c hc'
      rcases List.mem_cons.mp hc' with rfl | hc'
      · exact hc.1.le
      · rw [hc.1]
        exact (hp b (by simp)).le.trans ((List.pairwise_cons.mp ih').1 c hc')

theorem foldl_min_pmin (r : SearchRange K) (rs : List (SearchRange K)) (h : ∀ q ∈ rs, r.pmin ≤ q.pmin) :
    rs.foldl (fun m q => min m q.pmin) r.pmin = r.pmin := by
  induction rs with
  | nil => rfl
  | cons q rs ih =>
    rw [List.foldl_cons, min_eq_left (h q (by simp))]
    exact ih (fun q hq => h q (List.mem_cons_of_mem _ hq))

theorem foldl_max_pmax (r : SearchRange K) (rs : List (SearchRange K))
    (h : (r :: rs).Pairwise (fun a b => a.pmax ≤ b.pmax)) :
    rs.foldl (fun m q => max m q.pmax) r.pmax = (rs.getLastD r).pmax := by
  induction rs generalizing r with
  | nil => rfl
  | cons q rs ih =>
    rw [List.foldl_cons, max_eq_right ((List.pairwise_cons.mp h).1 q (by simp)), ih q (List.pairwise_cons.mp h).2]
    cases rs <;> simp [List.getLastD]

/-- C36. For a non-empty list of contiguous ranges (as enforced by the validation), each with `period_min < period_max` (as enforced
by the search): a period in the global range gets a range of the configuration that contains it, and there is only one such range;
shorter periods get the first range and longer ones the last. -/
theorem C36_right_range (ranges : List (SearchRange K)) (hne : ranges ≠ []) (hc : contiguityLoop ranges = .ok ())
    (hp : ∀ r ∈ ranges, r.pmin < r.pmax) (p : K) :
    ((ranges.head hne).pmin ≤ p → p < (ranges.getLast hne).pmax →
      ∃ i, ∃ hi : i < ranges.length, getSearchRange ranges p = .ok (some ranges[i]) ∧
        ranges[i].pmin ≤ p ∧ p < ranges[i].pmax ∧
        ∀ j, ∀ hj : j < ranges.length, ranges[j].pmin ≤ p → p < ranges[j].pmax → j = i) ∧
    (p < (ranges.head hne).pmin → getSearchRange ranges p = .ok (some (ranges.head hne))) ∧
    ((ranges.getLast hne).pmax ≤ p → getSearchRange ranges p = .ok (some (ranges.getLast hne))) := by
  rw [contiguity_iff] at hc
  have hpw := contiguous_pairwise hc hp
  have hpw' : ranges.Pairwise (fun a b => a.pmax ≤ b.pmax) :=
    hpw.imp_of_mem (fun {a b} _ hb h => h.trans (hp b hb).le)
  have hsort : ranges.mergeSort (fun a b => decide (a.pmax ≤ b.pmax)) = ranges :=
    List.mergeSort_of_pairwise (by simpa using hpw')
  unfold getSearchRange
  rw [hsort]
  cases ranges with
  | nil => exact absurd rfl hne
  | cons r rs =>
    have hmin : rs.foldl (fun m q => min m q.pmin) r.pmin = r.pmin :=
      foldl_min_pmin r rs (fun q hq => (hp r (by simp)).le.trans ((List.pairwise_cons.mp hpw).1 q hq))
    have hlast : (r :: rs).getLast hne = rs.getLastD r := by
      cases rs <;> simp [List.getLastD]
    simp only [List.head_cons, hmin, foldl_max_pmax r rs hpw', hlast]
    have hend : r.pmin < (rs.getLastD r).pmax := by
      have h1 : rs.getLastD r ∈ r :: rs := by rw [← hlast]; exact List.getLast_mem hne
      rcases List.mem_cons.mp h1 with h2 | h2
      · rw [h2]; exact hp r (by simp)
      · exact (hp r (by simp)).trans_le ((List.pairwise_cons.mp hpw').1 _ h2)
    refine ⟨?_, ?_, ?_⟩
    · intro h1 h2
      rw [if_neg (not_lt.mpr h1), if_neg (not_le.mpr h2)]
      -- there is a range that contains the period
      have hex : ∀ (l : List (SearchRange K)) (hl : l ≠ []), l.IsChain (fun a b => a.pmax = b.pmin) → (l.head hl).pmin ≤ p →
          p < (l.getLast hl).pmax → ∃ q ∈ l, q.pmin ≤ p ∧ p < q.pmax := by
        intro l
        induction l with
        | nil => intro hl; exact absurd rfl hl
        | cons a l ih =>
          intro hl hch ha hz
          by_cases hpa : p < a.pmax
          · exact ⟨a, by simp, ha, hpa⟩
          · cases l with
            | nil => exact absurd (by simpa using hz) hpa
            | cons b l =>
              rw [List.isChain_cons_cons] at hch
              obtain ⟨q, hq, h3⟩ := ih (by simp) hch.2 (by simpa [← hch.1] using hpa) (by simpa using hz)
              exact ⟨q, List.mem_cons_of_mem _ hq, h3⟩
      obtain ⟨q, hq, h3⟩ := hex _ hne hc h1 (by rw [hlast]; exact h2)
      cases hf : (r :: rs).find? (fun q => decide (q.pmin ≤ p ∧ p < q.pmax)) with
      | none =>
        rw [List.find?_eq_none] at hf
        exact absurd (by simpa using h3) (hf q hq)
      | some c =>
        obtain ⟨i, hi, rfl⟩ := List.mem_iff_getElem.mp (List.mem_of_find?_eq_some hf)
        have h4 := List.find?_some hf
        simp only [decide_eq_true_eq] at h4
        refine ⟨i, hi, rfl, h4.1, h4.2, ?_⟩
        intro j hj h5 h6
        rw [List.pairwise_iff_getElem] at hpw
        rcases lt_trichotomy j i with h | h | h
        · exact absurd (h6.trans_le (hpw j i hj hi h)) (not_lt.mpr h4.1)
        · exact h
        · exact absurd (h4.2.trans_le (hpw i j hi hj h)) (not_lt.mpr h5)
    · intro h
      rw [if_pos h]
    · intro h
      rw [if_neg (not_lt.mpr (hend.le.trans h)), if_pos h]

/-- C36. In particular the result is never `None` and never an error. -/
theorem C36_never_none (ranges : List (SearchRange K)) (hne : ranges ≠ []) (hc : contiguityLoop ranges = .ok ())
    (hp : ∀ r ∈ ranges, r.pmin < r.pmax) (p : K) : ∃ r ∈ ranges, getSearchRange ranges p = .ok (some r) := by
  obtain ⟨h1, h2, h3⟩ := C36_right_range ranges hne hc hp p
  by_cases ha : p < (ranges.head hne).pmin
  · exact ⟨_, List.head_mem _, h2 ha⟩
  · by_cases hb : (ranges.getLast hne).pmax ≤ p
    · exact ⟨_, List.getLast_mem _, h3 hb⟩
    · obtain ⟨i, hi, h4, _⟩ := h1 (not_lt.mp ha) (not_le.mp hb)
      exact ⟨_, List.getElem_mem hi, h4⟩

/-- Three ranges, as in the example configurations. -/
example : contiguityLoop [(⟨1, 2, 240, 256, 0⟩ : SearchRange ℚ), ⟨2, 5, 480, 512, 1⟩, ⟨5, 12, 960, 1024, 2⟩] = .ok () ∧
    (∀ r ∈ [(⟨1, 2, 240, 256, 0⟩ : SearchRange ℚ), ⟨2, 5, 480, 512, 1⟩, ⟨5, 12, 960, 1024, 2⟩], r.pmin < r.pmax) := by
  rw [contiguity_iff]
  simp
  norm_num

/-- C36: the condition `period_min < period_max` cannot be dropped (the validation alone does not enforce it): these
ranges pass the validation and `get_search_range(1.7)` returns `None`. -/
theorem C36_needs_nonempty_ranges :
    let ranges : List (SearchRange ℚ) := [⟨2, 3, 1, 1, 0⟩, ⟨3, 1, 1, 1, 1⟩, ⟨1, 3 / 2, 1, 1, 2⟩]
    validateRanges ranges 1 = .ok () ∧ getSearchRange ranges (17 / 10) = .ok none := by
  intro ranges
  constructor
  · simp only [ranges]
    norm_num [validateRanges, validateRangeLoop, validateRange, contiguityLoop, Except.bind]
  · have : ranges.mergeSort (fun a b => decide (a.pmax ≤ b.pmax)) =
        [⟨3, 1, 1, 1, 1⟩, ⟨1, 3 / 2, 1, 1, 2⟩, ⟨2, 3, 1, 1, 0⟩] := by
      apply List.Perm.eq_of_pairwise (le := fun a b : SearchRange ℚ => a.pmax ≤ b.pmax)
      · intro a b ha hb h1 h2
        have hab := le_antisymm h1 h2
        rw [List.mem_mergeSort] at ha
        simp only [ranges, List.mem_cons, List.not_mem_nil, or_false] at ha hb
        rcases ha with rfl | rfl | rfl <;> rcases hb with rfl | rfl | rfl <;> first | rfl | (norm_num at hab)
      · have := List.pairwise_mergeSort (le := fun a b : SearchRange ℚ => decide (a.pmax ≤ b.pmax))
          (by intro a b c h1 h2; simp only [decide_eq_true_eq] at *; exact h1.trans h2)
          (by intro a b; simp only [Bool.or_eq_true, decide_eq_true_eq]; exact le_total _ _) ranges
        simpa using this
      · simp
        norm_num
      · refine (List.mergeSort_perm _ _).trans ?_
        simp only [ranges]
        exact (List.perm_append_comm (l₁ := [(⟨2, 3, 1, 1, 0⟩ : SearchRange ℚ)]) (l₂ := [⟨3, 1, 1, 1, 1⟩, ⟨1, 3 / 2, 1, 1, 2⟩]))
    unfold getSearchRange
    rw [this]
    norm_num

end Verif.Props
