import Verif.Model.Pipeline
import Mathlib.Data.List.Nodup
import Mathlib.Data.List.Perm.Basic
import Mathlib.Tactic.Linarith

/-!
# Lemmas about the pipeline model
-/

namespace Verif.Lemmas

open Verif.Model

set_option linter.unusedSectionVars false

variable {K : Type*} [LinearOrder K]

/-! ## Sorting by decreasing S/N -/

theorem sortBySnr_perm (l : List (ℕ × HPeak K)) : (sortBySnr l).Perm l := List.mergeSort_perm _ _

theorem sortBySnr_sorted (l : List (ℕ × HPeak K)) : (sortBySnr l).Pairwise (fun a b => b.2.snr ≤ a.2.snr) := by
  have h := List.pairwise_mergeSort (le := fun a b : ℕ × HPeak K => decide (b.2.snr ≤ a.2.snr))
    (fun a b c h1 h2 => by simp only [decide_eq_true_eq] at *; exact h2.trans h1)
    (fun a b => by simp only [Bool.or_eq_true, decide_eq_true_eq]; exact (le_total b.2.snr a.2.snr)) l
  exact h.imp (fun h => by simpa using h)

theorem withCentres_ok (heap : ℕ → PCluster K) (c : ℕ → HPeak K) : ∀ (l : List ℕ), (∀ i ∈ l, (heap i).centre = .ok (c i)) →
    withCentres heap l = .ok (l.map (fun i => (i, c i))) := by
  intro l
  induction l with
  | nil => intro _; rfl
  | cons a l ih =>
    intro h
    have h1 := h a List.mem_cons_self
    have h2 := ih (fun i hi => h i (List.mem_cons_of_mem _ hi))
    unfold withCentres at h2 ⊢
    rw [List.mapM_cons, h1, h2]
    rfl

/-! ## The flagging loop -/

theorem flagLoop_append (test : HPeak K → HPeak K → Except PyErr (Bool × ℚ)) (a b : List ((ℕ × HPeak K) × (ℕ × HPeak K))) :
    ∀ heap, flagLoop test heap (a ++ b) = (flagLoop test heap a).bind fun h => flagLoop test h b := by
  induction a with
  | nil => intro heap; rfl
  | cons x a ih =>
    intro heap
    simp only [List.cons_append, flagLoop]
    cases flagStep test heap x with
    | error e => rfl
    | ok h => simp only [Except.bind]; exact ih h

/-- One row of the loop: all the pairs with the same first component. -/
theorem row_spec (test : HPeak K → HPeak K → Except PyErr (Bool × ℚ)) (T : HPeak K → HPeak K → Bool × ℚ) (x : ℕ × HPeak K) :
    ∀ (l : List (ℕ × HPeak K)) (heap : ℕ → PCluster K), (l.map Prod.fst).Nodup → x.1 ∉ l.map Prod.fst →
      (∀ b ∈ l, test x.2 b.2 = .ok (T x.2 b.2)) →
      ∃ h', flagLoop test heap (l.map (fun y => (x, y))) = .ok h' ∧ (∀ j, j ∉ l.map Prod.fst → h' j = heap j) ∧
        ∀ b ∈ l, h' b.1 = if (heap x.1).isHarmonic || (heap b.1).isHarmonic || !(T x.2 b.2).1 then heap b.1
          else { heap b.1 with parent := some x.1, hfrac := some (T x.2 b.2).2 } := by
  intro l
  induction l with
  | nil => intro heap _ _ _; exact ⟨heap, rfl, fun _ _ => rfl, by simp⟩
  | cons b l ih =>
    intro heap hnd hx ht
    simp only [List.map_cons, List.nodup_cons, List.mem_cons, not_or] at hnd hx
    -- the heap after the first step
    obtain ⟨h1, hh1⟩ : ∃ h1 : ℕ → PCluster K, h1 = Function.update heap b.1
        (if (heap x.1).isHarmonic || (heap b.1).isHarmonic || !(T x.2 b.2).1 then heap b.1
          else { heap b.1 with parent := some x.1, hfrac := some (T x.2 b.2).2 }) := ⟨_, rfl⟩
    have hstep : flagStep test heap (x, b) = .ok h1 := by
      unfold flagStep
      simp only
      rw [ht b List.mem_cons_self, hh1]
      by_cases hp : ((heap x.1).isHarmonic || (heap b.1).isHarmonic) = true
      · rw [if_pos hp, hp, Bool.true_or, if_pos rfl, Function.update_eq_self]
      · rw [if_neg hp, Bool.not_eq_true _ |>.mp hp, Bool.false_or]
        simp only [Except.bind]
        cases hT : (T x.2 b.2).1 <;> simp
    have hx1 : h1 x.1 = heap x.1 := by rw [hh1, Function.update_of_ne hx.1]
    obtain ⟨h', hrun, hout, hin⟩ := ih h1 hnd.2 hx.2 (fun c hc => ht c (List.mem_cons_of_mem _ hc))
    refine ⟨h', ?_, ?_, ?_⟩
    · rw [List.map_cons, flagLoop, hstep]; exact hrun
    · intro j hj
      simp only [List.map_cons, List.mem_cons, not_or] at hj
      rw [hout j hj.2, hh1, Function.update_of_ne hj.1]
    · intro c hc
      rcases List.mem_cons.1 hc with rfl | hc
      · rw [hout _ hnd.1, hh1, Function.update_self]
      · have hne : c.1 ≠ b.1 := fun h => hnd.1 (h ▸ List.mem_map_of_mem hc)
        have h2 : h1 c.1 = heap c.1 := by rw [hh1, Function.update_of_ne hne]
        rw [hin c hc, hx1, h2]

/-- The whole loop, in terms of the final flags. -/
theorem loop_spec (test : HPeak K → HPeak K → Except PyErr (Bool × ℚ)) (T : HPeak K → HPeak K → Bool × ℚ) :
    ∀ (l : List (ℕ × HPeak K)) (heap : ℕ → PCluster K), (l.map Prod.fst).Nodup →
      (∀ a ∈ l, ∀ b ∈ l, test a.2 b.2 = .ok (T a.2 b.2)) →
      ∃ h', flagLoop test heap (combinations2 l) = .ok h' ∧ (∀ j, j ∉ l.map Prod.fst → h' j = heap j) ∧
        (∀ j, (heap j).isHarmonic = true → h' j = heap j) ∧
        ∀ pre b post, l = pre ++ b :: post → (heap b.1).isHarmonic = false →
          h' b.1 = match pre.find? (fun a => !(h' a.1).isHarmonic && (T a.2 b.2).1) with
            | none => heap b.1
            | some a => { heap b.1 with parent := some a.1, hfrac := some (T a.2 b.2).2 } := by
  intro l
  induction l with
  | nil =>
    intro heap _ _
    exact ⟨heap, rfl, fun _ _ => rfl, fun _ _ => rfl, fun pre b post h => by simp at h⟩
  | cons x l ih =>
    intro heap hnd ht
    simp only [List.map_cons, List.nodup_cons] at hnd
    obtain ⟨h1, hrun1, hout1, hin1⟩ := row_spec test T x l heap hnd.2 hnd.1
      (fun b hb => ht x List.mem_cons_self b (List.mem_cons_of_mem _ hb))
    obtain ⟨h', hrun, hout, hkeep, hspec⟩ := ih h1 hnd.2
      (fun a ha b hb => ht a (List.mem_cons_of_mem _ ha) b (List.mem_cons_of_mem _ hb))
    have hx1 : h1 x.1 = heap x.1 := hout1 _ hnd.1
    have hx' : h' x.1 = heap x.1 := by rw [hout _ hnd.1, hx1]
    refine ⟨h', ?_, ?_, ?_, ?_⟩
    · rw [combinations2, flagLoop_append, hrun1]; exact hrun
    · intro j hj
      simp only [List.map_cons, List.mem_cons, not_or] at hj
      rw [hout j hj.2, hout1 j hj.2]
    · intro j hj
      have h2 : h1 j = heap j := by
        by_cases hm : j ∈ l.map Prod.fst
        · obtain ⟨b, hb, rfl⟩ := List.mem_map.1 hm
          rw [hin1 b hb, hj, Bool.or_true, Bool.true_or, if_pos rfl]
        · exact hout1 j hm
      rw [hkeep j (by rw [h2]; exact hj), h2]
    · intro pre b post hsplit hb
      cases pre with
      | nil =>
        simp only [List.nil_append, List.cons.injEq] at hsplit
        rw [← hsplit.1, hx']
        rfl
      | cons y pre =>
        simp only [List.cons_append, List.cons.injEq] at hsplit
        obtain ⟨rfl, hl⟩ := hsplit
        have hbl : b ∈ l := by rw [hl]; simp
        have h1b := hin1 b hbl
        rw [List.find?_cons, hx']
        cases hxh : (heap x.1).isHarmonic with
        | true =>
          rw [hxh, Bool.true_or, Bool.true_or, if_pos rfl] at h1b
          simp only [Bool.not_true, Bool.false_and]
          have := hspec pre b post hl (by rw [h1b]; exact hb)
          rw [this, h1b]
        | false =>
          rw [hxh, hb] at h1b
          simp only [Bool.or_false, Bool.false_or] at h1b
          cases hT : (T x.2 b.2).1 with
          | true =>
            rw [hT] at h1b
            simp only [Bool.not_true, Bool.false_eq_true, if_false] at h1b
            simp only [Bool.not_false, Bool.and_true]
            rw [hkeep b.1 (by rw [h1b]; rfl), h1b]
          | false =>
            rw [hT] at h1b
            simp only [Bool.not_false, if_true] at h1b
            simp only [Bool.not_false, Bool.and_false]
            have := hspec pre b post hl (by rw [h1b]; exact hb)
            rw [this, h1b]

theorem assignRanks_spec : ∀ (l : List (ℕ × HPeak K)) (heap : ℕ → PCluster K) (r : ℕ), (l.map Prod.fst).Nodup →
    (∀ j, j ∉ l.map Prod.fst → assignRanks heap r l j = heap j) ∧
    ∀ pre b post, l = pre ++ b :: post → assignRanks heap r l b.1 = { heap b.1 with rank := some (r + pre.length) } := by
  intro l
  induction l with
  | nil => intro heap r _; exact ⟨fun _ _ => rfl, fun pre b post h => by simp at h⟩
  | cons x l ih =>
    intro heap r hnd
    simp only [List.map_cons, List.nodup_cons] at hnd
    obtain ⟨hout, hin⟩ := ih (Function.update heap x.1 { heap x.1 with rank := some r }) (r + 1) hnd.2
    have hdef : assignRanks heap r (x :: l) = assignRanks (Function.update heap x.1 { heap x.1 with rank := some r }) (r + 1) l :=
      rfl
    refine ⟨?_, ?_⟩
    · intro j hj
      simp only [List.map_cons, List.mem_cons, not_or] at hj
      rw [hdef, hout j hj.2, Function.update_of_ne hj.1]
    · intro pre b post hsplit
      rw [hdef]
      cases pre with
      | nil =>
        simp only [List.nil_append, List.cons.injEq] at hsplit
        rw [← hsplit.1, hout _ hnd.1, Function.update_self]
        rfl
      | cons y pre =>
        simp only [List.cons_append, List.cons.injEq] at hsplit
        obtain ⟨rfl, hl⟩ := hsplit
        have hne : b.1 ≠ x.1 := fun h => hnd.1 (h ▸ List.mem_map_of_mem (by rw [hl]; simp))
        rw [hin pre b post hl, Function.update_of_ne hne, List.length_cons, Nat.add_right_comm, Nat.add_assoc]

end Verif.Lemmas
