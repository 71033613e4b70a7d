import Verif.Model.PeaksF
import Verif.Lemmas.Cluster
import Verif.Spec.Double
import Mathlib.Tactic.Linarith
import Mathlib.Tactic.NormNum

/-! # Clustering with rounded differences -/

namespace Verif.Lemmas

open Verif.Model Verif.Spec

/-- Comparing rounded distances with a rounded radius is comparing the distances with a radius that is larger by two roundings at most. -/
theorem exists_radius {A : DArith} (hA : Sane A) (r : ℚ) : ∀ ds : List ℚ, (∀ d ∈ ds, 0 ≤ d) →
    ∃ r', r ≤ r' ∧ A.fl r' ≤ A.fl r ∧ ∀ d ∈ ds, (A.fl d > A.fl r ↔ d > r') := by
  intro ds
  induction ds with
  | nil => intro _; exact ⟨r, le_refl _, le_refl _, by simp⟩
  | cons d ds ih =>
    intro h
    obtain ⟨r', h1, h2, h3⟩ := ih (fun e he => h e (List.mem_cons_of_mem _ he))
    have hd := h d List.mem_cons_self
    by_cases hc : A.fl d ≤ A.fl r
    · refine ⟨max r' d, h1.trans (le_max_left _ _), ?_, ?_⟩
      · rcases max_choice r' d with e | e <;> rw [e] <;> assumption
      · intro e he
        rcases List.mem_cons.mp he with rfl | he
        · exact ⟨fun hh => absurd hh (not_lt.mpr hc), fun hh => absurd hh (not_lt.mpr (le_max_right _ _))⟩
        · rw [h3 e he]
          constructor
          · intro hh
            refine max_lt hh ?_
            by_contra hn
            have := hA.mono e d (h e (List.mem_cons_of_mem _ he)) (not_lt.mp hn)
            exact absurd ((h3 e he).mpr hh) (not_lt.mpr (this.trans hc))
          · intro hh
            exact lt_of_le_of_lt (le_max_left _ _) hh
    · refine ⟨r', h1, h2, ?_⟩
      intro e he
      rcases List.mem_cons.mp he with rfl | he
      · refine ⟨fun _ => ?_, fun _ => not_le.mp hc⟩
        by_contra hn
        exact hc ((hA.mono e r' hd (not_lt.mp hn)).trans h2)
      · exact h3 e he

/-- Two roundings. -/
theorem radius_le {A : DArith} (hA : Sane A) {r r' : ℚ} (hr : 0 ≤ r) (h1 : r ≤ r') (h2 : A.fl r' ≤ A.fl r) : r' ≤ (1 + 1 / 2 ^ 51) * r := by
  have e1 := abs_le.mp (hA.rel r hr)
  have e2 := abs_le.mp (hA.rel r' (hr.trans h1))
  unfold u53 at e1 e2
  have : (1 - 1 / 2 ^ 53) * r' ≤ (1 + 1 / 2 ^ 53) * r := by linarith
  have h3 : r' = r + (r' - r) := by ring
  by_contra hn
  have hn := not_lt.mpr this
  apply hn
  have : (1 + 1 / 2 ^ 51) * r < r' := by linarith
  nlinarith

/-- `cluster1d` with rounded differences and a rounded radius is `cluster1d` without rounding for another radius. -/
theorem cluster1d_rounded {A : DArith} (hA : Sane A) (argsort : List ℚ → List ℕ) (x : List ℚ) {r : ℚ} (hr : 0 ≤ r) (b : Bool) :
    ∃ r', r ≤ r' ∧ r' ≤ (1 + 1 / 2 ^ 51) * r ∧ A.cluster1d argsort x (A.fl r) b = Model.cluster1d argsort x r' b := by
  set indices := if b then List.range x.length else argsort x with hi
  set d := if b then diff x else diff (indices.map (fun i => x.getD i 0)) with hd
  obtain ⟨r', h1, h2, h3⟩ := exists_radius hA r (d.map (fun a => |a|)) (by
    intro a ha
    obtain ⟨c, _, rfl⟩ := List.mem_map.mp ha
    exact abs_nonneg c)
  refine ⟨r', h1, radius_le hA hr h1 h2, ?_⟩
  have hf : (List.range d.length).filter (fun i => A.fl |d.getD i 0| > A.fl r) = (List.range d.length).filter (fun i => |d.getD i 0| > r') := by
    apply List.filter_congr
    intro i hi
    rw [List.mem_range] at hi
    have hm : |d.getD i 0| ∈ d.map (fun a => |a|) := by
      refine List.mem_map.mpr ⟨d.getD i 0, ?_, rfl⟩
      rw [List.getD_eq_getElem?_getD, List.getElem?_eq_getElem hi, Option.getD_some]
      exact List.getElem_mem hi
    simp only [h3 _ hm]
  unfold DArith.cluster1d Model.cluster1d
  simp only [← hi, ← hd, hf]

/-- In a list that decreases up to `δ`, elements of different runs are far apart. -/
theorem runs_near {r δ : ℚ} (hδ : 0 ≤ δ) (hr : δ ≤ r) (x : ℕ → ℚ) : ∀ l : List ℕ, l.Pairwise (fun i j => x j ≤ x i + δ) →
    (runs (fun i j => decide (|x j - x i| > r)) l).Pairwise (fun c c' => ∃ p ∈ l, ∃ q, r < x p - x q ∧ (∀ i ∈ c, x p ≤ x i + δ) ∧ ∀ j ∈ c', x j ≤ x q + δ) := by
  intro l
  induction l with
  | nil => intro _; simp [runs]
  | cons a l ih =>
    intro hs
    obtain ⟨h1, h2⟩ := List.pairwise_cons.mp hs
    have ih := ih h2
    cases l with
    | nil => simp [runs]
    | cons b l =>
      have hmem : ∀ c ∈ runs (fun i j => decide (|x j - x i| > r)) (b :: l), ∀ j ∈ c, j ∈ b :: l := by
        intro c hc j hj
        rw [← runs_flatten (fun i j => decide (|x j - x i| > r)) (b :: l)]
        exact List.mem_flatten.mpr ⟨c, hc, hj⟩
      rw [runs]
      split_ifs with h
      · rw [List.pairwise_cons]
        refine ⟨?_, ih.imp ?_⟩
        · intro c hc
          refine ⟨a, List.mem_cons_self, b, ?_, ?_, ?_⟩
          · have h3 : r < |x b - x a| := by simpa using h
            have h4 := h1 b List.mem_cons_self
            rcases abs_cases (x b - x a) with ⟨e, _⟩ | ⟨e, _⟩ <;> rw [e] at h3 <;> linarith
          · intro i hi
            rw [List.mem_singleton] at hi
            rw [hi]
            linarith
          · intro j hj
            rcases List.mem_cons.mp (hmem c hc j hj) with rfl | hj
            · linarith
            · exact (List.pairwise_cons.mp h2).1 j hj
        · rintro c c' ⟨p, hp, q, hq⟩
          exact ⟨p, List.mem_cons_of_mem _ hp, q, hq⟩
      · obtain ⟨c0, cs, hrun⟩ := runs_head (fun i j => decide (|x j - x i| > r)) b l
        rw [hrun] at ih ⊢
        simp only
        rw [List.pairwise_cons] at ih ⊢
        refine ⟨?_, ih.2.imp ?_⟩
        · intro c hc
          obtain ⟨p, hp, q, q1, q2, q3⟩ := ih.1 c hc
          refine ⟨p, List.mem_cons_of_mem _ hp, q, q1, ?_, q3⟩
          intro i hi
          rcases List.mem_cons.mp hi with rfl | hi
          · exact h1 p hp
          · exact q2 i hi
        · rintro c c' ⟨p, hp, q, hq⟩
          exact ⟨p, List.mem_cons_of_mem _ hp, q, hq⟩

/-- `cluster1d(x, r, already_sorted=True)` of data that decrease up to `δ`. -/
theorem cluster1d_near {r δ : ℚ} (hδ : 0 ≤ δ) (hr : δ ≤ r) (argsort : List ℚ → List ℕ) (ha : IsArgsort argsort) (x : List ℚ) (hx : x.Pairwise (fun a b => b ≤ a + δ)) :
    (Model.cluster1d argsort x r true).flatten = List.range x.length ∧ (∀ c ∈ Model.cluster1d argsort x r true, c ≠ []) ∧
    (∀ c ∈ Model.cluster1d argsort x r true, c.IsChain (fun i j => |x.getD i 0 - x.getD j 0| ≤ r)) ∧
    (Model.cluster1d argsort x r true).Pairwise (fun c c' => ∀ i ∈ c, ∀ j ∈ c', r - 2 * δ < x.getD i 0 - x.getD j 0) := by
  rw [cluster1d_eq_runs argsort ha]
  simp only [if_true]
  refine ⟨runs_flatten _ _, runs_ne_nil _ _, ?_, ?_⟩
  · intro c hc
    refine List.IsChain.imp ?_ (runs_chain _ _ c hc)
    intro i j h
    simpa [abs_sub_comm] using h
  · have hp : (List.range x.length).Pairwise (fun i j => x.getD j 0 ≤ x.getD i 0 + δ) := by
      rw [← map_getD_range x] at hx
      exact List.pairwise_map.mp hx
    refine (runs_near hδ hr (fun i => x.getD i 0) _ hp).imp ?_
    rintro c c' ⟨p, _, q, h1, h2, h3⟩ i hi j hj
    have := h2 i hi
    have := h3 j hj
    linarith

end Verif.Lemmas
