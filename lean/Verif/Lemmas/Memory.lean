import Verif.Model.Memory
import Verif.Spec.Memory
import Verif.Lemmas.FFA

/-! # Helper lemmas for the memory-level model -/

namespace Verif.Lemmas

open Verif.Model Verif.Spec Finset

variable {α : Type*}

theorem addMem_spec (add : α → α → α) (x y z : ℕ) (f g : ℕ → α) : ∀ (size : ℕ) (mem : Mem α),
    Holds mem x size f → Holds mem y size g → Alloc mem z size →
    Disj x size z size → Disj y size z size →
    ∃ mem', addMem add x y size z mem = some mem' ∧ Holds mem' z size (fun i => add (f i) (g i)) ∧
      SameOutside mem mem' z size := by
  intro size
  induction size with
  | zero =>
    intro mem _ _ _ _ _
    exact ⟨mem, rfl, fun i hi => absurd hi (by omega), fun _ _ => rfl⟩
  | succ n ih =>
    intro mem hx hy hz dx dy
    obtain ⟨mem1, e1, h1, s1⟩ := ih mem (fun i hi => hx i (by omega)) (fun i hi => hy i (by omega))
      (fun i hi => hz i (by omega)) (by unfold Disj at *; omega) (by unfold Disj at *; omega)
    have lx : mem1 (x + n) = .val (f n) := by
      rw [s1 _ (by unfold Disj at *; omega)]; exact hx n (by omega)
    have ly : mem1 (y + n) = .val (g n) := by
      rw [s1 _ (by unfold Disj at *; omega)]; exact hy n (by omega)
    have lz : mem1 (z + n) ≠ .unalloc := by
      rw [s1 _ (by omega)]; exact hz n (by omega)
    refine ⟨fun b => if b = z + n then .val (add (f n) (g n)) else mem1 b, ?_, ?_, ?_⟩
    · unfold addMem at e1 ⊢
      unfold forLoop
      rw [e1]
      simp only [Option.bind_some, Mem.load, lx, ly, Mem.store]
    · intro i hi
      by_cases hin : i = n
      · subst hin; simp
      · simp only [Nat.add_left_cancel_iff, hin, if_false]
        exact h1 i (by omega)
    · intro b hb
      have : b ≠ z + n := by omega
      simp only [this, if_false]
      exact s1 b (by omega)

theorem memcpyMem_spec (dst src : ℕ) (f : ℕ → α) : ∀ (size : ℕ) (mem : Mem α),
    Holds mem src size f → Alloc mem dst size → Disj src size dst size →
    ∃ mem', memcpyMem dst src size mem = some mem' ∧ Holds mem' dst size f ∧
      SameOutside mem mem' dst size := by
  intro size
  induction size with
  | zero =>
    intro mem _ _ _
    exact ⟨mem, rfl, fun i hi => absurd hi (by omega), fun _ _ => rfl⟩
  | succ n ih =>
    intro mem hx hz dx
    obtain ⟨mem1, e1, h1, s1⟩ := ih mem (fun i hi => hx i (by omega))
      (fun i hi => hz i (by omega)) (by unfold Disj at *; omega)
    have lx : mem1 (src + n) = .val (f n) := by
      rw [s1 _ (by unfold Disj at *; omega)]; exact hx n (by omega)
    have lz : mem1 (dst + n) ≠ .unalloc := by
      rw [s1 _ (by omega)]; exact hz n (by omega)
    refine ⟨fun b => if b = dst + n then .val (f n) else mem1 b, ?_, ?_, ?_⟩
    · unfold memcpyMem at e1 ⊢
      unfold forLoop
      rw [e1]
      simp only [Option.bind_some, Mem.load, lx, Mem.store]
    · intro i hi
      by_cases hin : i = n
      · subst hin; simp
      · simp only [Nat.add_left_cancel_iff, hin, if_false]
        exact h1 i (by omega)
    · intro b hb
      have : b ≠ dst + n := by omega
      simp only [this, if_false]
      exact s1 b (by omega)

theorem fusedRollbackAddMem_spec (add : α → α → α) (x y size shift z : ℕ) (f g : ℕ → α) (mem : Mem α)
    (hs : 0 < size) (hx : Holds mem x size f) (hy : Holds mem y size g) (hz : Alloc mem z size)
    (dx : Disj x size z size) (dy : Disj y size z size) :
    ∃ mem', fusedRollbackAddMem add x y size shift z mem = some mem' ∧
      Holds mem' z size (fusedRollbackAdd add size shift f g) ∧ SameOutside mem mem' z size := by
  have hp : shift % size < size := Nat.mod_lt _ hs
  unfold fusedRollbackAddMem
  rw [if_neg (by omega)]
  simp only
  unfold fusedRollbackAdd
  generalize shift % size = p at hp
  obtain ⟨m1, e1, h1, s1⟩ := addMem_spec add x (y + p) z f (fun j => g (j + p)) (size - p) mem
    (fun i hi => hx i (by omega))
    (fun i hi => by
      have := hy (i + p) (by omega)
      rwa [show y + p + i = y + (i + p) by omega])
    (fun i hi => hz i (by omega)) (by unfold Disj at *; omega) (by unfold Disj at *; omega)
  obtain ⟨m2, e2, h2, s2⟩ := addMem_spec add (x + (size - p)) y (z + (size - p))
    (fun j => f (j + (size - p))) g p m1
    (fun i hi => by
      rw [s1 _ (by unfold Disj at *; omega)]
      have := hx (i + (size - p)) (by omega)
      rwa [show x + (size - p) + i = x + (i + (size - p)) by omega])
    (fun i hi => by
      rw [s1 _ (by unfold Disj at *; omega)]
      exact hy i (by omega))
    (fun i hi => by
      rw [s1 _ (by omega)]
      have := hz (i + (size - p)) (by omega)
      rwa [show z + (size - p) + i = z + (i + (size - p)) by omega])
    (by unfold Disj at *; omega) (by unfold Disj at *; omega)
  refine ⟨m2, by rw [e1]; exact e2, ?_, ?_⟩
  · intro i hi
    by_cases hc : i < size - p
    · simp only [hc, if_true, addArr]
      rw [s2 _ (by omega)]
      exact h1 i hc
    · simp only [hc, if_false, addArr]
      have := h2 (i - (size - p)) (by omega)
      rwa [show z + (size - p) + (i - (size - p)) = z + i by omega] at this
  · intro b hb
    rw [s2 b (by omega), s1 b (by omega)]

theorem rollbackMem_spec (x size shift z : ℕ) (f : ℕ → α) (mem : Mem α)
    (hs : 0 < size) (hx : Holds mem x size f) (hz : Alloc mem z size)
    (dx : Disj x size z size) :
    ∃ mem', rollbackMem x size shift z mem = some mem' ∧
      Holds mem' z size (rollback size shift f) ∧ SameOutside mem mem' z size := by
  have hp : shift % size < size := Nat.mod_lt _ hs
  unfold rollbackMem
  rw [if_neg (by omega)]
  simp only
  unfold rollback
  generalize shift % size = p at hp
  obtain ⟨m1, e1, h1, s1⟩ := memcpyMem_spec z (x + p) (fun j => f (j + p)) (size - p) mem
    (fun i hi => by
      have := hx (i + p) (by omega)
      rwa [show x + p + i = x + (i + p) by omega])
    (fun i hi => hz i (by omega)) (by unfold Disj at *; omega)
  obtain ⟨m2, e2, h2, s2⟩ := memcpyMem_spec (z + (size - p)) x f p m1
    (fun i hi => by
      rw [s1 _ (by unfold Disj at *; omega)]
      exact hx i (by omega))
    (fun i hi => by
      rw [s1 _ (by omega)]
      have := hz (i + (size - p)) (by omega)
      rwa [show z + (size - p) + i = z + (i + (size - p)) by omega])
    (by unfold Disj at *; omega)
  refine ⟨m2, by rw [e1]; exact e2, ?_, ?_⟩
  · intro i hi
    by_cases hc : i < size - p
    · simp only [hc, if_true]
      rw [s2 _ (by omega)]
      exact h1 i hc
    · simp only [hc, if_false]
      have := h2 (i - (size - p)) (by omega)
      rwa [show z + (size - p) + (i - (size - p)) = z + i by omega] at this
  · intro b hb
    rw [s2 b (by omega), s1 b (by omega)]

theorem row_bound {r m p c : ℕ} (hr : r < m) (hc : c < p) : r * p + c < m * p := by
  have : (r + 1) * p ≤ m * p := Nat.mul_le_mul_right _ hr
  rw [Nat.succ_mul] at this
  omega

theorem row_bound' {r m p : ℕ} (hr : r < m) : r * p + p ≤ m * p := by
  have : (r + 1) * p ≤ m * p := Nat.mul_le_mul_right _ hr
  rw [Nat.succ_mul] at this
  omega

theorem mergeMem_loop (add : α → α → α) (idx : IdxRule) (m p thead ttail out : ℕ)
    (th tt : ℕ → ℕ → α) (hp : 0 < p) (ok : IdxOK idx m) : ∀ (n : ℕ) (mem : Mem α), n ≤ m →
    HoldsBlock mem thead (m / 2) p th → HoldsBlock mem ttail (m - m / 2) p tt →
    Alloc mem out (m * p) →
    Disj thead (m / 2 * p) out (m * p) → Disj ttail ((m - m / 2) * p) out (m * p) →
    ∃ mem', forLoop (fun s mem =>
        let h := idx (m / 2) m s
        let t := idx (m - m / 2) m s
        fusedRollbackAddMem add (thead + h * p) (ttail + t * p) p (mergeShift s h t)
          (out + s * p) mem) n mem = some mem' ∧
      HoldsBlock mem' out n p (merge add idx m p th tt) ∧ SameOutside mem mem' out (n * p) := by
  intro n
  induction n with
  | zero =>
    intro mem _ _ _ _ _ _
    exact ⟨mem, rfl, fun r hr => absurd hr (by omega), fun _ _ => rfl⟩
  | succ n ih =>
    intro mem hn h1 h2 h3 d1 d2
    obtain ⟨mem1, e1, b1, s1⟩ := ih mem (by omega) h1 h2 h3 d1 d2
    have hnp : n * p + p ≤ m * p := row_bound' hn
    have hl := ok.h_lt n hn
    have tl := ok.t_lt n hn
    have hb := row_bound' (p := p) hl
    have tb := row_bound' (p := p) tl
    obtain ⟨mem2, e2, b2, s2⟩ := fusedRollbackAddMem_spec add (thead + idx (m / 2) m n * p)
      (ttail + idx (m - m / 2) m n * p) p
      (mergeShift n (idx (m / 2) m n) (idx (m - m / 2) m n)) (out + n * p)
      (th (idx (m / 2) m n)) (tt (idx (m - m / 2) m n)) mem1 hp
      (fun i hi => by
        rw [s1 _ (by unfold Disj at *; omega)]
        exact h1 _ hl i hi)
      (fun i hi => by
        rw [s1 _ (by unfold Disj at *; omega)]
        exact h2 _ tl i hi)
      (fun i hi => by
        rw [s1 _ (by omega), Nat.add_assoc]
        exact h3 _ (by omega))
      (by unfold Disj at *; omega) (by unfold Disj at *; omega)
    refine ⟨mem2, ?_, ?_, ?_⟩
    · unfold forLoop
      rw [e1]
      exact e2
    · intro r hr c hc
      by_cases hrn : r = n
      · subst hrn
        exact b2 c hc
      · have := row_bound (p := p) (c := c) (by omega : r < n) hc
        rw [s2 _ (by omega)]
        exact b1 r (by omega) c hc
    · intro b hb'
      rw [Nat.succ_mul] at hb'
      rw [s2 b (by omega), s1 b (by omega)]

theorem mergeMem_spec (add : α → α → α) (idx : IdxRule) (m p thead ttail out : ℕ)
    (th tt : ℕ → ℕ → α) (hp : 0 < p) (ok : IdxOK idx m) (mem : Mem α)
    (h1 : HoldsBlock mem thead (m / 2) p th) (h2 : HoldsBlock mem ttail (m - m / 2) p tt)
    (h3 : Alloc mem out (m * p))
    (d1 : Disj thead (m / 2 * p) out (m * p)) (d2 : Disj ttail ((m - m / 2) * p) out (m * p)) :
    ∃ mem', mergeMem add idx m p thead ttail out mem = some mem' ∧
      HoldsBlock mem' out m p (merge add idx m p th tt) ∧ SameOutside mem mem' out (m * p) :=
  mergeMem_loop add idx m p thead ttail out th tt hp ok m mem le_rfl h1 h2 h3 d1 d2

theorem transformMem_spec (add : α → α → α) (idx : IdxRule) (p : ℕ) (hp : 0 < p) : ∀ (m : ℕ),
    1 ≤ m → (∀ m' ≤ m, 3 ≤ m' → IdxOK idx m') →
    ∀ (input temp out : ℕ) (mem : Mem α) (x : ℕ → ℕ → α),
    HoldsBlock mem input m p x → Alloc mem temp (m * p) → Alloc mem out (m * p) →
    Disj input (m * p) temp (m * p) → Disj input (m * p) out (m * p) →
    Disj temp (m * p) out (m * p) →
    ∃ mem', transformMem add idx m p input temp out mem = some mem' ∧
      HoldsBlock mem' out m p (transform add idx m p x) ∧ Frame mem mem' temp out (m * p) := by
  intro m
  induction m using Nat.strong_induction_on with
  | _ m ih =>
    intro hm1 hok input temp out mem x hx ht ho d1 d2 d3
    rcases Nat.lt_or_ge m 3 with h3 | h3
    · obtain rfl | rfl : m = 1 ∨ m = 2 := by omega
      · obtain ⟨mem', e, h, s⟩ := memcpyMem_spec out input (x 0) p mem
          (fun i hi => by simpa using hx 0 (by omega) i hi) (by simpa using ho)
          (by simpa using d2)
        refine ⟨mem', ?_, ?_, ?_, ?_, ?_⟩
        · rw [transformMem]; simpa using e
        · intro r hr c hc
          rw [transform_le_one _ _ le_rfl]
          obtain rfl : r = 0 := by omega
          simpa using h c hc
        · intro b _ hb
          exact s b (by omega)
        · intro i hi
          rw [s _ (by unfold Disj at *; omega)]
          exact ht i hi
        · intro i hi
          have := h i (by omega)
          rw [this]; simp
      · obtain ⟨mem1, e1, h1, s1⟩ := addMem_spec add input (input + p) out (x 0) (x 1) p mem
          (fun i hi => by simpa using hx 0 (by omega) i hi)
          (fun i hi => by simpa using hx 1 (by omega) i hi)
          (fun i hi => ho i (by omega)) (by unfold Disj at *; omega) (by unfold Disj at *; omega)
        obtain ⟨mem2, e2, h2, s2⟩ := fusedRollbackAddMem_spec add input (input + p) p 1 (out + p)
          (x 0) (x 1) mem1 hp
          (fun i hi => by
            rw [s1 _ (by unfold Disj at *; omega)]; simpa using hx 0 (by omega) i hi)
          (fun i hi => by
            rw [s1 _ (by unfold Disj at *; omega)]; simpa using hx 1 (by omega) i hi)
          (fun i hi => by
            rw [s1 _ (by omega), Nat.add_assoc]; exact ho _ (by omega))
          (by unfold Disj at *; omega) (by unfold Disj at *; omega)
        refine ⟨mem2, ?_, ?_, ?_, ?_, ?_⟩
        · rw [transformMem]
          simp only [if_true, Nat.zero_mul, Nat.add_zero, Nat.one_mul]
          rw [e1]; exact e2
        · intro r hr c hc
          rw [transform_two]
          obtain rfl | rfl : r = 0 ∨ r = 1 := by omega
          · simp only [Nat.zero_mul, Nat.add_zero, if_true]
            rw [s2 _ (by omega)]
            exact h1 c hc
          · simp only [Nat.one_mul, one_ne_zero, if_false]
            exact h2 c hc
        · intro b _ hb
          rw [s2 b (by omega), s1 b (by omega)]
        · intro i hi
          rw [s2 _ (by unfold Disj at *; omega), s1 _ (by unfold Disj at *; omega)]
          exact ht i hi
        · intro i hi
          by_cases hip : i < p
          · rw [s2 _ (by omega), h1 i hip]; simp
          · have := h2 (i - p) (by omega)
            rw [show out + p + (i - p) = out + i by omega] at this
            rw [this]; simp
    · have ok := hok m le_rfl h3
      have hsplit : m * p = m / 2 * p + (m - m / 2) * p := by
        rw [← Nat.add_mul]; congr 1; omega
      have hok1 : ∀ m' ≤ m / 2, 3 ≤ m' → IdxOK idx m' := fun m' h => hok m' (by omega)
      have hok2 : ∀ m' ≤ m - m / 2, 3 ≤ m' → IdxOK idx m' := fun m' h => hok m' (by omega)
      -- head
      obtain ⟨mem1, e1, b1, f1⟩ := ih (m / 2) (by omega) (by omega) hok1 input out temp mem x
        (fun r hr => hx r (by omega)) (fun i hi => ho i (by omega)) (fun i hi => ht i (by omega))
        (by unfold Disj at *; omega) (by unfold Disj at *; omega) (by unfold Disj at *; omega)
      have in1 : HoldsBlock mem1 (input + m / 2 * p) (m - m / 2) p (fun i => x (m / 2 + i)) := by
        intro r hr c hc
        have := row_bound hr hc
        rw [f1.same _ (by unfold Disj at *; omega) (by unfold Disj at *; omega)]
        have := hx (m / 2 + r) (by omega) c hc
        rwa [Nat.add_mul, ← Nat.add_assoc] at this
      have to1 : Alloc mem1 (out + m / 2 * p) ((m - m / 2) * p) := by
        intro i hi
        rw [f1.same _ (by unfold Disj at *; omega) (by unfold Disj at *; omega), Nat.add_assoc]
        exact ho _ (by omega)
      have tt1 : Alloc mem1 (temp + m / 2 * p) ((m - m / 2) * p) := by
        intro i hi
        rw [f1.same _ (by unfold Disj at *; omega) (by unfold Disj at *; omega), Nat.add_assoc]
        exact ht _ (by omega)
      -- tail
      obtain ⟨mem2, e2, b2, f2⟩ := ih (m - m / 2) (by omega) (by omega) hok2 (input + m / 2 * p)
        (out + m / 2 * p) (temp + m / 2 * p) mem1 _ in1 to1 tt1
        (by unfold Disj at *; omega) (by unfold Disj at *; omega) (by unfold Disj at *; omega)
      have b1' : HoldsBlock mem2 temp (m / 2) p (transform add idx (m / 2) p x) := by
        intro r hr c hc
        have := row_bound hr hc
        rw [f2.same _ (by unfold Disj at *; omega) (by unfold Disj at *; omega)]
        exact b1 r hr c hc
      have oa2 : Alloc mem2 out (m * p) := by
        intro i hi
        by_cases hi2 : i < m / 2 * p
        · rw [f2.same _ (by unfold Disj at *; omega) (by unfold Disj at *; omega)]
          exact f1.tempAlloc i hi2
        · have := f2.tempAlloc (i - m / 2 * p) (by omega)
          rwa [show out + m / 2 * p + (i - m / 2 * p) = out + i by omega] at this
      have ta2 : Alloc mem2 temp (m * p) := by
        intro i hi
        by_cases hi2 : i < m / 2 * p
        · rw [f2.same _ (by unfold Disj at *; omega) (by unfold Disj at *; omega)]
          exact f1.outAlloc i hi2
        · have := f2.outAlloc (i - m / 2 * p) (by omega)
          rwa [show temp + m / 2 * p + (i - m / 2 * p) = temp + i by omega] at this
      obtain ⟨mem3, e3, b3, s3⟩ := mergeMem_spec add idx m p temp (temp + m / 2 * p) out _ _ hp ok mem2
        b1' b2 oa2 (by unfold Disj at *; omega) (by unfold Disj at *; omega)
      refine ⟨mem3, ?_, ?_, ?_, ?_, ?_⟩
      · rw [transformMem, if_neg (by omega), if_neg (by omega), if_neg (by omega)]
        simp only
        rw [e1]
        simp only [Option.bind_some]
        rw [e2]
        exact e3
      · rw [transform_ge_three _ _ h3]
        exact b3
      · intro b hb1 hb2
        rw [s3 b hb2, f2.same b (by omega) (by omega), f1.same b (by omega) (by omega)]
      · intro i hi
        rw [s3 _ (by unfold Disj at *; omega)]
        exact ta2 i hi
      · intro i hi
        have hr : i / p < m := by
          rw [Nat.div_lt_iff_lt_mul hp]; exact hi
        have := b3 (i / p) hr (i % p) (Nat.mod_lt _ hp)
        rw [Nat.add_assoc, Nat.div_add_mod' i p] at this
        rw [this]; simp

/-! ### Circular prefix sum -/

theorem prefixLoopMem_spec [AddCommMonoid α] (x out : ℕ) (f : ℕ → α) : ∀ (n : ℕ) (mem : Mem α),
    Holds mem x n f → Alloc mem out n → Disj x n out n →
    ∃ mem', prefixLoopMem x out n (mem, 0) = some (mem', ∑ k ∈ range n, f k) ∧
      Holds mem' out n (fun j => ∑ k ∈ range (j + 1), f k) ∧ SameOutside mem mem' out n := by
  intro n
  induction n with
  | zero =>
    intro mem _ _ _
    exact ⟨mem, rfl, fun i hi => absurd hi (by omega), fun _ _ => rfl⟩
  | succ n ih =>
    intro mem hx hz dx
    obtain ⟨mem1, e1, h1, s1⟩ := ih mem (fun i hi => hx i (by omega))
      (fun i hi => hz i (by omega)) (by unfold Disj at *; omega)
    have lx : mem1 (x + n) = .val (f n) := by
      rw [s1 _ (by unfold Disj at *; omega)]; exact hx n (by omega)
    have lz : mem1 (out + n) ≠ .unalloc := by
      rw [s1 _ (by omega)]; exact hz n (by omega)
    refine ⟨fun b => if b = out + n then .val (∑ k ∈ range (n + 1), f k) else mem1 b, ?_, ?_, ?_⟩
    · unfold prefixLoopMem at e1 ⊢
      unfold forLoop
      rw [e1]
      simp only [Option.bind_some, Mem.load, lx, Mem.store, Finset.sum_range_succ, Option.map_some]
    · intro i hi
      by_cases hin : i = n
      · subst hin; simp
      · simp only [Nat.add_left_cancel_iff, hin, if_false]
        exact h1 i (by omega)
    · intro b hb
      have : b ≠ out + n := by omega
      simp only [this, if_false]
      exact s1 b (by omega)

theorem addScalarMem_spec (add : α → α → α) (x z : ℕ) (a : α) (f : ℕ → α) : ∀ (size : ℕ) (mem : Mem α),
    Holds mem x size f → Alloc mem z size → Disj x size z size →
    ∃ mem', addScalarMem add x size a z mem = some mem' ∧ Holds mem' z size (fun i => add (f i) a) ∧
      SameOutside mem mem' z size := by
  intro size
  induction size with
  | zero =>
    intro mem _ _ _
    exact ⟨mem, rfl, fun i hi => absurd hi (by omega), fun _ _ => rfl⟩
  | succ n ih =>
    intro mem hx hz dx
    obtain ⟨mem1, e1, h1, s1⟩ := ih mem (fun i hi => hx i (by omega))
      (fun i hi => hz i (by omega)) (by unfold Disj at *; omega)
    have lx : mem1 (x + n) = .val (f n) := by
      rw [s1 _ (by unfold Disj at *; omega)]; exact hx n (by omega)
    have lz : mem1 (z + n) ≠ .unalloc := by
      rw [s1 _ (by omega)]; exact hz n (by omega)
    refine ⟨fun b => if b = z + n then .val (add (f n) a) else mem1 b, ?_, ?_, ?_⟩
    · unfold addScalarMem at e1 ⊢
      unfold forLoop
      rw [e1]
      simp only [Option.bind_some, Mem.load, lx, Mem.store]
    · intro i hi
      by_cases hin : i = n
      · subst hin; simp
      · simp only [Nat.add_left_cancel_iff, hin, if_false]
        exact h1 i (by omega)
    · intro b hb
      have : b ≠ z + n := by omega
      simp only [this, if_false]
      exact s1 b (by omega)

/-- Whole wraps of the periodic sum. -/
theorem sum_wraps [Semiring α] (x : ℕ → α) (size : ℕ) (_hs : 0 < size) (i k : ℕ) (hk : k ≤ size) :
    ∑ j ∈ range (i * size + k), x (j % size) =
      ∑ j ∈ range k, x j + (i : α) * ∑ j ∈ range size, x j := by
  induction i generalizing k with
  | zero =>
    simp only [Nat.zero_add, Nat.cast_zero, zero_mul, add_zero]
    apply Finset.sum_congr rfl
    intro j hj
    rw [Nat.mod_eq_of_lt (by have := Finset.mem_range.mp hj; omega)]
  | succ i ih =>
    rw [Finset.sum_range_add, Nat.succ_mul, ih size le_rfl]
    have : ∑ j ∈ range k, x ((i * size + size + j) % size) = ∑ j ∈ range k, x j := by
      apply Finset.sum_congr rfl
      intro j hj
      have := Finset.mem_range.mp hj
      rw [show i * size + size + j = j + size * (i + 1) by ring, Nat.add_mul_mod_self_left,
        Nat.mod_eq_of_lt (by omega)]
    rw [this]
    push_cast
    rw [add_mul, one_mul]
    abel

theorem wrapLoop_spec [Semiring α] (out size : ℕ) (hs : 0 < size) (f : ℕ → α) (q : ℕ) :
    ∀ (n : ℕ), n ≤ q → ∀ (mem : Mem α), Holds mem out size (fun j => ∑ k ∈ range (j + 1), f k) →
    Alloc mem out (q * size) →
    ∃ mem', forLoop (fun i mem => if i = 0 then some mem else
        addScalarMem (· + ·) out size ((i : α) * ∑ k ∈ range size, f k) (out + i * size) mem) n mem
          = some mem' ∧
      Holds mem' out (max 1 n * size) (fun j => ∑ k ∈ range (j + 1), f (k % size)) ∧
      SameOutside mem mem' out (max 1 n * size) := by
  intro n
  induction n with
  | zero =>
    intro _ mem h _
    refine ⟨mem, rfl, ?_, fun _ _ => rfl⟩
    intro i hi
    rw [h i (by simpa using hi)]
    congr 1
    apply Finset.sum_congr rfl
    intro j hj
    have := Finset.mem_range.mp hj
    rw [Nat.mod_eq_of_lt (by simp at hi; omega)]
  | succ n ih =>
    intro hn mem h ha
    obtain ⟨mem1, e1, h1, s1⟩ := ih (by omega) mem h ha
    by_cases hn0 : n = 0
    · subst hn0
      exact ⟨mem1, by unfold forLoop; rw [e1]; rfl, by simpa using h1, by simpa using s1⟩
    · have hmn : max 1 n = n := by omega
      have hmn1 : max 1 (n + 1) = n + 1 := by omega
      rw [hmn] at h1 s1
      have hsn : size ≤ n * size := Nat.le_mul_of_pos_left _ (by omega)
      have hnq : n * size + size ≤ q * size := by
        have := Nat.mul_le_mul_right size hn
        rwa [Nat.succ_mul] at this
      obtain ⟨mem2, e2, h2, s2⟩ := addScalarMem_spec (· + ·) out (out + n * size)
        ((n : α) * ∑ k ∈ range size, f k) (fun j => ∑ k ∈ range (j + 1), f k) size mem1
        (fun i hi => by
          rw [h1 i (by omega)]
          congr 1
          apply Finset.sum_congr rfl
          intro j hj
          have := Finset.mem_range.mp hj
          rw [Nat.mod_eq_of_lt (by omega)])
        (fun i hi => by
          rw [s1 _ (by omega), Nat.add_assoc]
          exact ha _ (by omega))
        (by unfold Disj; omega)
      refine ⟨mem2, ?_, ?_, ?_⟩
      · unfold forLoop
        rw [e1]
        simp only [Option.bind_some, hn0, if_false]
        exact e2
      · rw [hmn1]
        intro i hi
        rw [Nat.succ_mul] at hi
        by_cases hi2 : i < n * size
        · rw [s2 _ (by omega)]
          exact h1 i hi2
        · obtain ⟨k, rfl⟩ : ∃ k, i = n * size + k := ⟨i - n * size, by omega⟩
          rw [← Nat.add_assoc, h2 k (by omega)]
          show Cell.val _ = Cell.val (∑ k ∈ range (n * size + k + 1), f (k % size))
          rw [Nat.add_assoc (n * size),
            sum_wraps f size hs n (k + 1) (by omega)]
      · rw [hmn1]
        intro b hb
        rw [Nat.succ_mul] at hb
        rw [s2 b (by omega), s1 b (by omega)]

theorem circularPrefixSumMem_spec [Semiring α] (x out size nsum : ℕ) (f : ℕ → α) (mem : Mem α)
    (hs : 0 < size) (hx : Holds mem x size f) (ho : Alloc mem out nsum) (d : Disj x size out nsum) :
    ∃ mem', circularPrefixSumMem x size nsum out mem = some mem' ∧
      Holds mem' out nsum (fun j => ∑ k ∈ range (j + 1), f (k % size)) ∧
      SameOutside mem mem' out nsum := by
  unfold circularPrefixSumMem
  obtain ⟨mem1, e1, h1, s1⟩ := prefixLoopMem_spec x out f (min size nsum) mem
    (fun i hi => hx i (by omega)) (fun i hi => ho i (by omega)) (by unfold Disj at *; omega)
  rw [e1]
  simp only [Option.bind_some]
  by_cases hc : nsum ≤ size
  · rw [if_pos hc]
    rw [Nat.min_eq_right hc] at h1 s1
    refine ⟨mem1, rfl, ?_, s1⟩
    intro i hi
    rw [h1 i hi]
    congr 1
    apply Finset.sum_congr rfl
    intro j hj
    have := Finset.mem_range.mp hj
    rw [Nat.mod_eq_of_lt (by omega)]
  · rw [if_neg hc, if_neg (by omega)]
    rw [Nat.min_eq_left (by omega)] at h1 s1 ⊢
    have hdm := Nat.div_add_mod nsum size
    rw [Nat.mul_comm] at hdm
    have hrl : nsum % size < size := Nat.mod_lt _ hs
    have hq1 : 1 ≤ nsum / size := by rw [Nat.one_le_div_iff hs]; omega
    generalize nsum / size = q at *
    generalize nsum % size = r at *
    have hqs : size ≤ q * size := Nat.le_mul_of_pos_left _ (by omega)
    have ha1 : Alloc mem1 out nsum := by
      intro i hi
      by_cases hi2 : i < size
      · rw [h1 i hi2]; simp
      · rw [s1 _ (by omega)]; exact ho i hi
    obtain ⟨mem2, e2, h2, s2⟩ := wrapLoop_spec out size hs f q q le_rfl mem1 h1
      (fun i hi => ha1 i (by omega))
    rw [Nat.max_eq_right hq1] at h2 s2
    obtain ⟨mem3, e3, h3, s3⟩ := addScalarMem_spec (· + ·) out (out + q * size)
      ((q : α) * ∑ k ∈ range size, f k) (fun j => ∑ k ∈ range (j + 1), f k) r mem2
      (fun i hi => by
        rw [h2 i (by omega)]
        congr 1
        apply Finset.sum_congr rfl
        intro j hj
        have := Finset.mem_range.mp hj
        rw [Nat.mod_eq_of_lt (by omega)])
      (fun i hi => by
        rw [s2 _ (by omega), Nat.add_assoc]
        exact ha1 _ (by omega))
      (by unfold Disj; omega)
    refine ⟨mem3, ?_, ?_, ?_⟩
    · rw [e2]; exact e3
    · intro i hi
      by_cases hi2 : i < q * size
      · rw [s3 _ (by omega)]
        exact h2 i hi2
      · obtain ⟨k, rfl⟩ : ∃ k, i = q * size + k := ⟨i - q * size, by omega⟩
        rw [← Nat.add_assoc, h3 k (by omega)]
        show Cell.val _ = Cell.val (∑ k ∈ range (q * size + k + 1), f (k % size))
        rw [Nat.add_assoc (q * size),
          sum_wraps f size hs q (k + 1) (by omega)]
    · intro b hb
      rw [s3 b (by omega), s2 b (by omega), s1 b (by omega)]

theorem forLoop_none {σ : Type*} (body : ℕ → σ → Option σ) (st : σ) {n k : ℕ} (hnk : n ≤ k)
    (h : forLoop body n st = none) : forLoop body k st = none := by
  induction k, hnk using Nat.le_induction with
  | base => exact h
  | succ k _ ih => unfold forLoop; rw [ih]; rfl

theorem addScalarMem_fails (add : α → α → α) (x size : ℕ) (a : α) (out : ℕ) (mem : Mem α)
    (hs : 0 < size) (h : mem out = .unalloc) : addScalarMem add x size a out mem = none := by
  apply forLoop_none _ _ (n := 1) hs
  simp only [forLoop, Option.bind_some, Nat.add_zero, Mem.store, h]
  cases Mem.load mem x <;> rfl

theorem circularPrefixSumMem_overflow [Semiring α] (x out size nsum : ℕ) (hs : 0 < size)
    (hn : size < nsum) (mem : Mem α) (f : ℕ → α) (hx : Holds mem x size f) (ho : Alloc mem out size)
    (d : Disj x size out size) (hu : mem (out + size) = .unalloc) :
    circularPrefixSumMem x size nsum out mem = none := by
  unfold circularPrefixSumMem
  rw [Nat.min_eq_left (by omega)]
  obtain ⟨mem1, e1, h1, s1⟩ := prefixLoopMem_spec x out f size mem hx ho d
  rw [e1]
  simp only [Option.bind_some]
  rw [if_neg (by omega), if_neg (by omega)]
  have hu1 : mem1 (out + size) = .unalloc := by rw [s1 _ (by omega)]; exact hu
  have hdm := Nat.div_add_mod nsum size
  have hrl : nsum % size < size := Nat.mod_lt _ hs
  have hq1 : 1 ≤ nsum / size := by rw [Nat.one_le_div_iff hs]; omega
  generalize nsum / size = q at *
  generalize nsum % size = r at *
  rcases Nat.lt_or_ge q 2 with h2 | h2
  · obtain rfl : q = 1 := by omega
    simp only [forLoop, Option.bind_some, if_true]
    apply addScalarMem_fails _ _ _ _ _ _ (by omega)
    simpa using hu1
  · rw [forLoop_none _ _ h2]
    · rfl
    · simp only [forLoop, Option.bind_some, if_true, one_ne_zero, if_false]
      apply addScalarMem_fails _ _ _ _ _ _ hs
      simpa using hu1

theorem list_take_sum [AddCommMonoid α] (x : List α) (d : α) (n : ℕ) (hn : n ≤ x.length) :
    (x.take n).sum = ∑ k ∈ range n, x.getD k d := by
  induction n with
  | zero => simp
  | succ n ih =>
    rw [Finset.sum_range_succ, ← ih (by omega), List.take_add_one, List.sum_append]
    congr 1
    have : n < x.length := by omega
    simp [this]

end Verif.Lemmas
