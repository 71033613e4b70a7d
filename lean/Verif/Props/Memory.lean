import Verif.Lemmas.Memory
import Verif.Lemmas.FFACor
import Verif.Props.FFA
import Mathlib.Tactic.IntervalCases

/-!
# Property theorems at the level of memory: C05, C08, C09, C10
-/

namespace Verif.Props

open Verif.Model Verif.Spec Verif.Lemmas Finset

/-- C05. One run of the transform: if the input block holds values and the two work areas are merely allocated
(initialised or not, with whatever contents), then every load finds a value, every store hits an allocated cell, the
output area holds the shifted stacks of the input, and no cell outside the `m*p` cells of the two areas changes. -/
theorem C05_transform_memory_safe (m : ℕ) (hm : 1 ≤ m) (hm64 : m ≤ 2 ^ 64) :
    ∃ σ : ℕ → ℕ → ℕ, ShiftTable m σ ∧
      ∀ (α : Type) [AddCommMonoid α] (p input temp out : ℕ) (mem : Mem α) (x : ℕ → ℕ → α), 1 ≤ p →
        HoldsBlock mem input m p x → Alloc mem temp (m * p) → Alloc mem out (m * p) →
        Disj input (m * p) temp (m * p) → Disj input (m * p) out (m * p) →
        Disj temp (m * p) out (m * p) →
        ∃ mem', transformMem (· + ·) exactIdx m p input temp out mem = some mem' ∧
          HoldsBlock mem' out m p (stack m p σ x) ∧ Frame mem mem' temp out (m * p) ∧
          HoldsBlock mem' input m p x := by
  refine ⟨sigma exactIdx m, sigma_table _ m hm (fun m' _ h => exactIdx_ok h), ?_⟩
  intro α _ p input temp out mem x hp hx ht ho d1 d2 d3
  obtain ⟨mem', e, h, f⟩ := transformMem_spec (· + ·) exactIdx p hp m hm (fun m' _ h => exactIdx_ok h)
    input temp out mem x hx ht ho d1 d2 d3
  refine ⟨mem', e, ?_, f, ?_⟩
  · intro r hr c hc
    rw [h r hr c hc, transform_eq_stack exactIdx p m hm hm64 (fun m' _ h => exactIdx_ok h) x r c hr hc]
  · intro r hr c hc
    have := row_bound hr hc
    rw [f.same _ (by unfold Disj at *; omega) (by unfold Disj at *; omega)]
    exact hx r hr c hc

/-- The layout of the `ffa2` binding (python_bindings.cpp 84-96): input, temp, out one after the other, the
last two uninitialised, satisfies the hypotheses for a 3 × 2 block. -/
example : HoldsBlock (callMem [1, 2, 3, 4, 5, 6] 12 : Mem ℤ) 0 3 2 (fun r c => ((2 * r + c + 1 : ℕ) : ℤ)) ∧
    Alloc (callMem [1, 2, 3, 4, 5, 6] 12 : Mem ℤ) 6 6 ∧
    Alloc (callMem [1, 2, 3, 4, 5, 6] 12 : Mem ℤ) 12 6 ∧ Disj 0 6 6 6 ∧ Disj 0 6 12 6 ∧ Disj 6 6 12 6 := by
  refine ⟨?_, ?_, ?_, by unfold Disj; omega, by unfold Disj; omega, by unfold Disj; omega⟩
  · intro r hr c hc
    interval_cases r <;> interval_cases c <;> rfl
  · intro i hi
    interval_cases i <;> simp [callMem]
  · intro i hi
    interval_cases i <;> simp [callMem]

/-- A sequence of transforms of different shapes on the same three buffers, as in the FFA loop of the periodogram
(periodogram.hpp 178-199: the same `input`, `ffabuf`, `ffaout` for every number of bins). -/
def runCalls {α : Type} (add : α → α → α) (idx : IdxRule) (input temp out : ℕ) :
    List (ℕ × ℕ) → Mem α → Option (Mem α)
  | [], mem => some mem
  | (m, p) :: calls, mem =>
    (transformMem add idx m p input temp out mem).bind (runCalls add idx input temp out calls)

/-- C05. Any sequence of calls with shapes that fit in the buffers runs to completion, leaves the input intact, and the
output of the last call does not depend on what the earlier calls left behind. -/
theorem C05_repeated_calls {α : Type} [AddCommMonoid α] (n input temp out : ℕ) (data : ℕ → α)
    (d1 : Disj input n temp n) (d2 : Disj input n out n) (d3 : Disj temp n out n) :
    ∀ (calls : List (ℕ × ℕ)) (mem : Mem α), Holds mem input n data → Alloc mem temp n →
      Alloc mem out n → (∀ mp ∈ calls, 1 ≤ mp.1 ∧ mp.1 ≤ 2 ^ 64 ∧ 1 ≤ mp.2 ∧ mp.1 * mp.2 ≤ n) →
      ∃ mem', runCalls (· + ·) exactIdx input temp out calls mem = some mem' ∧
        Holds mem' input n data ∧ Frame mem mem' temp out n ∧
        ∀ m p, calls.getLast? = some (m, p) → ∃ σ, ShiftTable m σ ∧
          HoldsBlock mem' out m p (stack m p σ (fun i j => data (i * p + j))) := by
  intro calls
  induction calls with
  | nil =>
    intro mem hx ht ho _
    exact ⟨mem, rfl, hx, ⟨fun _ _ _ => rfl, ht, ho⟩, by simp⟩
  | cons mp calls ih =>
    intro mem hx ht ho hcalls
    obtain ⟨m, p⟩ := mp
    obtain ⟨hm, hm64, hp, hmp⟩ := hcalls (m, p) (by simp)
    simp only at hm hm64 hp hmp
    obtain ⟨σ, hσ, H⟩ := C05_transform_memory_safe m hm hm64
    obtain ⟨mem1, e1, h1, f1, i1⟩ := H α p input temp out mem (fun i j => data (i * p + j)) hp
      (fun r hr c hc => by
        have := row_bound hr hc
        rw [Nat.add_assoc]; exact hx _ (by omega))
      (fun i hi => ht i (by omega)) (fun i hi => ho i (by omega))
      (by unfold Disj at *; omega) (by unfold Disj at *; omega) (by unfold Disj at *; omega)
    have hx1 : Holds mem1 input n data := by
      intro i hi
      rw [f1.same _ (by unfold Disj at *; omega) (by unfold Disj at *; omega)]
      exact hx i hi
    have ht1 : Alloc mem1 temp n := by
      intro i hi
      by_cases hi2 : i < m * p
      · exact f1.tempAlloc i hi2
      · rw [f1.same _ (by unfold Disj at *; omega) (by unfold Disj at *; omega)]
        exact ht i hi
    have ho1 : Alloc mem1 out n := by
      intro i hi
      by_cases hi2 : i < m * p
      · exact f1.outAlloc i hi2
      · rw [f1.same _ (by unfold Disj at *; omega) (by unfold Disj at *; omega)]
        exact ho i hi
    obtain ⟨mem2, e2, hx2, f2, l2⟩ := ih mem1 hx1 ht1 ho1 (fun q hq => hcalls q (by simp [hq]))
    refine ⟨mem2, by unfold runCalls; rw [e1]; exact e2, hx2,
      ⟨fun b hb1 hb2 => by rw [f2.same b hb1 hb2, f1.same b (by omega) (by omega)],
        f2.tempAlloc, f2.outAlloc⟩, ?_⟩
    intro m' p' hlast
    cases calls with
    | nil =>
      simp only [List.getLast?_singleton, Option.some.injEq, Prod.mk.injEq] at hlast
      obtain ⟨rfl, rfl⟩ := hlast
      simp only [runCalls, Option.some.injEq] at e2
      subst e2
      exact ⟨σ, hσ, h1⟩
    | cons q qs =>
      rw [List.getLast?_cons_cons] at hlast
      exact l2 m' p' hlast

example : ∀ mp ∈ [(3, 4), (2, 5), (2, 6)], 1 ≤ mp.1 ∧ mp.1 ≤ 2 ^ 64 ∧ 1 ≤ mp.2 ∧ mp.1 * mp.2 ≤ 13 := by
  decide

/-- C08. `rollback` on memory: runs without invalid access and rotates to the left by `shift` modulo the size. -/
theorem C08_rollback {α : Type} (x : List α) (shift : ℕ) (hx : x ≠ []) :
    ∃ mem', rollbackBinding x shift = some (mem', x.length, x.length) ∧
      (∀ i (_ : i < x.length), ∃ h, mem' (x.length + i) = .val (x[(i + shift) % x.length]'h)) ∧
      SameOutside (callMem x x.length) mem' x.length x.length := by
  have hn : 0 < x.length := List.length_pos_iff.mpr hx
  obtain ⟨mem', e, h, s⟩ := rollbackMem_spec 0 x.length shift x.length
    (fun i => x.getD i (x[0]'hn)) (callMem x x.length) hn
    (fun i hi => by simp [callMem, hi])
    (fun i hi => by simp [callMem, hi])
    (by unfold Disj; omega)
  refine ⟨mem', by simp [rollbackBinding, e], ?_, s⟩
  intro i hi
  have hl : (i + shift) % x.length < x.length := Nat.mod_lt _ hn
  refine ⟨hl, ?_⟩
  rw [h i hi, rollback_apply _ _ hi]
  simp [hl]

/-- C08. `fused_rollback_add`: `ValueError` exactly if the sizes differ, otherwise a run without invalid access giving
`x[i] + y[(i + shift) mod n]`. -/
theorem C08_fused_rollback_add {α : Type} (add : α → α → α) (x y : List α) (shift : ℕ) (hx : x ≠ []) :
    (x.length ≠ y.length ↔ fusedRollbackAddBinding add x y shift = .valueError) ∧
    (x.length = y.length → ∃ mem',
      fusedRollbackAddBinding add x y shift = .ran (some (mem', x.length + x.length, x.length)) ∧
      (∀ i (hi : i < x.length), ∃ h,
        mem' (x.length + x.length + i) = .val (add x[i] (y[(i + shift) % x.length]'h))) ∧
      SameOutside (callMem (x ++ y) x.length) mem' (x.length + x.length) x.length) := by
  have hn : 0 < x.length := List.length_pos_iff.mpr hx
  constructor
  · constructor
    · intro h; simp [fusedRollbackAddBinding, h]
    · intro h hc
      simp [fusedRollbackAddBinding, hc] at h
  · intro hxy
    obtain ⟨mem', e, h, s⟩ := fusedRollbackAddMem_spec add 0 x.length x.length shift
      (x.length + x.length) (fun i => x.getD i (x[0]'hn)) (fun i => y.getD i (y[0]'(by omega)))
      (callMem (x ++ y) x.length) hn
      (fun i hi => by simp [callMem, hi, Nat.lt_add_right])
      (fun i hi => by
        have : i < y.length := by omega
        simp [callMem, this])
      (fun i hi => by
        unfold callMem
        rw [dif_neg (by simp; omega), if_pos (by simp; omega)]
        simp)
      (by unfold Disj; omega) (by unfold Disj; omega)
    refine ⟨mem', by simp [fusedRollbackAddBinding, hxy] at e ⊢; simp [e], ?_, s⟩
    intro i hi
    have hl : (i + shift) % x.length < y.length := by
      have := Nat.mod_lt (i + shift) hn; omega
    refine ⟨hl, ?_⟩
    rw [h i hi, fusedRollbackAdd_apply _ _ _ _ hi]
    simp [hl, hi]

example : ([1, 2, 3] : List ℤ) ≠ [] ∧ ([1, 2, 3] : List ℤ).length = ([4, 5, 6] : List ℤ).length := by decide

/-- C09. The circular prefix sum, given room for `nsum` elements, writes at every position `j < nsum` the sum of the first
`j + 1` elements of the periodically repeated array, and touches nothing else. -/
theorem C09_circular_prefix_sum {α : Type} [Semiring α] (x out size nsum : ℕ) (f : ℕ → α) (mem : Mem α)
    (hs : 1 ≤ size) (hx : Holds mem x size f) (ho : Alloc mem out nsum) (d : Disj x size out nsum) :
    ∃ mem', circularPrefixSumMem x size nsum out mem = some mem' ∧
      Holds mem' out nsum (fun j => ∑ k ∈ range (j + 1), f (k % size)) ∧
      SameOutside mem mem' out nsum :=
  circularPrefixSumMem_spec x out size nsum f mem hs hx ho d

/-- More than two wraps: 2 elements, sum over 7. -/
example : Holds (callMem [3, 5] 7 : Mem ℤ) 0 2 (fun i => if i = 0 then 3 else 5) ∧
    Alloc (callMem [3, 5] 7 : Mem ℤ) 2 7 ∧ Disj 0 2 2 7 := by
  refine ⟨?_, ?_, by unfold Disj; omega⟩
  · intro i hi
    interval_cases i <;> rfl
  · intro i hi
    interval_cases i <;> simp [callMem]

/-- C10 is false: for every non-empty array and every `nsum` larger than its size, the binding writes beyond the end
of the array it has allocated (undefined behaviour). -/
theorem C10_binding_overflow {α : Type} [Semiring α] (x : List α) (hx : x ≠ []) (nsum : ℕ)
    (h : x.length < nsum) : circularPrefixSumBinding x nsum = none := by
  have hn : 0 < x.length := List.length_pos_iff.mpr hx
  unfold circularPrefixSumBinding
  simp only [Option.map_eq_none_iff]
  exact circularPrefixSumMem_overflow 0 x.length x.length nsum hn h (callMem x x.length)
    (fun i => x.getD i (x[0]'hn))
    (fun i hi => by simp [callMem, hi]) (fun i hi => by simp [callMem, hi]) (by unfold Disj; omega)
    (by simp [callMem])

/-- C10, concrete witness by evaluation. -/
theorem C10_false : ¬ ∀ (x : List ℤ) (nsum : ℕ), x ≠ [] → (circularPrefixSumBinding x nsum).isSome := by
  intro h
  have := h [1, 2] 3 (by decide)
  revert this
  decide

/-- C10, what does hold: if `nsum` is at most the size of the array the call is safe and the first `nsum` elements are right.
Missing with respect to the full property: `nsum` larger than the size (false), and the returned array has `size` elements
instead of `nsum`, the last `size - nsum` of them uninitialised. -/
theorem C10_partial {α : Type} [Semiring α] (x : List α) (hx : x ≠ []) (nsum : ℕ) (h : nsum ≤ x.length) :
    ∃ mem', circularPrefixSumBinding x nsum = some (mem', x.length, x.length) ∧
      (∀ j < nsum, mem' (x.length + j) = .val (x.take (j + 1)).sum) ∧
      (∀ j, nsum ≤ j → j < x.length → mem' (x.length + j) = .uninit) := by
  have hn : 0 < x.length := List.length_pos_iff.mpr hx
  obtain ⟨mem', e, hh, s⟩ := circularPrefixSumMem_spec 0 x.length x.length nsum
    (fun i => x.getD i (x[0]'hn)) (callMem x x.length) hn
    (fun i hi => by simp [callMem, hi]) (fun i hi => by
      have : i < x.length := by omega
      simp [callMem, this]) (by unfold Disj; omega)
  refine ⟨mem', by simp [circularPrefixSumBinding, e], ?_, ?_⟩
  · intro j hj
    rw [hh j hj]
    congr 1
    rw [list_take_sum x (x[0]'hn) (j + 1) (by omega)]
    apply Finset.sum_congr rfl
    intro k hk
    have := Finset.mem_range.mp hk
    rw [Nat.mod_eq_of_lt (by omega)]
  · intro j hj hj2
    rw [s _ (by omega)]
    simp [callMem, hj2]

example : ([4, 5, 6] : List ℤ) ≠ [] ∧ 2 ≤ ([4, 5, 6] : List ℤ).length := by decide

end Verif.Props
