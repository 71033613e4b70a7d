import Verif.Model.Downsample
import Verif.Spec.Downsample
import Verif.Spec.Memory
import Verif.Lemmas.Snr
import Mathlib.Algebra.BigOperators.Intervals
import Mathlib.Algebra.Order.Floor.Ring
import Mathlib.Tactic.Positivity
import Mathlib.Tactic.Linarith
import Mathlib.Tactic.FieldSimp
import Mathlib.Tactic.Ring

namespace Verif.Lemmas

open Verif.Model Verif.Spec Finset

/-! ## Overlaps -/

theorem overlap_nonneg (i : ℕ) (a b : ℝ) : 0 ≤ overlap i a b := le_max_left _ _

theorem overlap_left {i : ℕ} {a b : ℝ} (h : (i : ℝ) + 1 ≤ a) : overlap i a b = 0 := by
  unfold overlap
  apply max_eq_left
  have := min_le_left ((i : ℝ) + 1) b
  have := le_max_right (i : ℝ) a
  linarith

theorem overlap_right {i : ℕ} {a b : ℝ} (h : b ≤ (i : ℝ)) : overlap i a b = 0 := by
  unfold overlap
  apply max_eq_left
  have := min_le_right ((i : ℝ) + 1) b
  have := le_max_left (i : ℝ) a
  linarith

theorem overlap_first {i : ℕ} {a b : ℝ} (h1 : (i : ℝ) ≤ a) (h2 : a ≤ (i : ℝ) + 1) (h3 : (i : ℝ) + 1 ≤ b) :
    overlap i a b = (i : ℝ) + 1 - a := by
  unfold overlap
  rw [min_eq_left h3, max_eq_right h1, max_eq_right (by linarith)]

theorem overlap_last {i : ℕ} {a b : ℝ} (h1 : a ≤ (i : ℝ)) (h2 : (i : ℝ) ≤ b) (h3 : b ≤ (i : ℝ) + 1) :
    overlap i a b = b - i := by
  unfold overlap
  rw [min_eq_right h3, max_eq_left h1, max_eq_right (by linarith)]

theorem overlap_inner {i : ℕ} {a b : ℝ} (h1 : a ≤ (i : ℝ)) (h2 : (i : ℝ) + 1 ≤ b) : overlap i a b = 1 := by
  unfold overlap
  rw [min_eq_left h2, max_eq_left h1, max_eq_right (by linarith)]
  ring

/-- Sum of a function of the overlaps, written out. -/
theorem sum_overlap (N p q : ℕ) (a b : ℝ) (g : ℕ → ℝ → ℝ) (hg : ∀ i, g i 0 = 0) (hpq : p < q) (hq : q < N)
    (h1 : (p : ℝ) ≤ a) (h2 : a ≤ (p : ℝ) + 1) (h3 : (q : ℝ) ≤ b) (h4 : b ≤ (q : ℝ) + 1) :
    ∑ i ∈ range N, g i (overlap i a b) =
      g p ((p : ℝ) + 1 - a) + ∑ t ∈ range (q - (p + 1)), g (p + 1 + t) 1 + g q (b - q) := by
  have e0 : ∑ i ∈ range N, g i (overlap i a b) = ∑ i ∈ Ico p (q + 1), g i (overlap i a b) := by
    symm
    apply Finset.sum_subset
    · intro i hi
      rw [mem_Ico] at hi
      rw [mem_range]; omega
    · intro i _ hi
      rw [mem_Ico] at hi
      have : i < p ∨ q + 1 ≤ i := by omega
      rcases this with h | h
      · rw [overlap_left, hg]
        have : (i : ℝ) + 1 ≤ p := by exact_mod_cast h
        linarith
      · rw [overlap_right, hg]
        have : (q : ℝ) + 1 ≤ i := by exact_mod_cast h
        linarith
  have hpq' : (p : ℝ) + 1 ≤ q := by exact_mod_cast hpq
  rw [e0, Finset.sum_eq_sum_Ico_succ_bot (by omega), Finset.sum_Ico_succ_top (by omega),
    overlap_first h1 h2 (by linarith), overlap_last (by linarith) h3 h4, ← add_assoc]
  congr 2
  rw [Finset.sum_Ico_eq_sum_range]
  apply Finset.sum_congr rfl
  intro t ht
  have ht' := mem_range.mp ht
  rw [overlap_inner]
  · push_cast
    have : (0 : ℝ) ≤ t := Nat.cast_nonneg t
    linarith
  · have : ((p + 1 + t + 1 : ℕ) : ℝ) ≤ q := by exact_mod_cast (by omega : p + 1 + t + 1 ≤ q)
    push_cast at this ⊢
    linarith

theorem overlap_eq (i : ℕ) {a b : ℝ} (h : a ≤ b) :
    overlap i a b = min ((i : ℝ) + 1) (max (i : ℝ) b) - min ((i : ℝ) + 1) (max (i : ℝ) a) := by
  unfold overlap
  rcases le_total ((i : ℝ)) a with ha | ha
  · have hb : (i : ℝ) ≤ b := ha.trans h
    rw [max_eq_right ha, max_eq_right hb]
    rcases le_total ((i : ℝ) + 1) a with ha' | ha'
    · rw [min_eq_left ha', min_eq_left (ha'.trans h), max_eq_left (by linarith)]; ring
    · rw [min_eq_right ha', max_eq_right]
      have := le_min ha' h
      linarith
  · rw [max_eq_left ha, min_eq_right (a := (i : ℝ) + 1) (b := i) (by linarith)]
    rcases le_total ((i : ℝ)) b with hb | hb
    · rw [max_eq_right hb, max_eq_right]
      have := le_min (by linarith : (i : ℝ) ≤ i + 1) hb
      linarith
    · rw [max_eq_left hb, min_eq_right (a := (i : ℝ) + 1) (b := i) (by linarith), max_eq_left]
      · ring
      · have := min_le_right ((i : ℝ) + 1) b
        linarith

theorem overlap_add (i : ℕ) {a b c : ℝ} (h1 : a ≤ b) (h2 : b ≤ c) :
    overlap i a b + overlap i b c = overlap i a c := by
  rw [overlap_eq i h1, overlap_eq i h2, overlap_eq i (h1.trans h2)]
  ring

/-! ## Index arithmetic of one output sample -/

/-- Indices of the first and last input sample of output sample `k`. -/
theorem ds_idx {N k : ℕ} {f : ℝ} (h1 : 1 < f) (hk : ((k : ℝ) + 1) * f ≤ N) :
    ⌊(k : ℝ) * f⌋₊ < ⌊min (⌊(k : ℝ) * f + f⌋ : ℝ) ((N : ℝ) - 1)⌋₊ ∧
    ⌊min (⌊(k : ℝ) * f + f⌋ : ℝ) ((N : ℝ) - 1)⌋₊ < N ∧
    ((⌊min (⌊(k : ℝ) * f + f⌋ : ℝ) ((N : ℝ) - 1)⌋₊ : ℕ) : ℝ) ≤ (k : ℝ) * f + f ∧
    (k : ℝ) * f + f ≤ ((⌊min (⌊(k : ℝ) * f + f⌋ : ℝ) ((N : ℝ) - 1)⌋₊ : ℕ) : ℝ) + 1 ∧
    ((⌊(k : ℝ) * f⌋₊ : ℕ) : ℝ) ≤ (k : ℝ) * f ∧ (k : ℝ) * f ≤ ((⌊(k : ℝ) * f⌋₊ : ℕ) : ℝ) + 1 := by
  have hk0 : (0 : ℝ) ≤ k := Nat.cast_nonneg k
  have hs0 : 0 ≤ (k : ℝ) * f := by positivity
  have hstop : (k : ℝ) * f + f ≤ N := by linarith
  generalize hs : (k : ℝ) * f = s at *
  have hN1 : (1 : ℝ) < N := by linarith
  have hfl1 : (⌊s + f⌋ : ℝ) ≤ s + f := Int.floor_le _
  have hfl2 : s + f < (⌊s + f⌋ : ℝ) + 1 := Int.lt_floor_add_one _
  have hNN : 1 ≤ N := by
    rcases N with _ | N
    · simp at hN1; linarith
    · omega
  -- the real number under the outer floor is the natural number q
  obtain ⟨q, hq⟩ : ∃ q : ℕ, min (⌊s + f⌋ : ℝ) ((N : ℝ) - 1) = q := by
    rcases le_total (⌊s + f⌋ : ℝ) ((N : ℝ) - 1) with h | h
    · rw [min_eq_left h]
      have : 0 ≤ ⌊s + f⌋ := Int.floor_nonneg.mpr (by linarith)
      exact ⟨⌊s + f⌋.toNat, by
        have h2 := Int.toNat_of_nonneg this
        exact_mod_cast h2.symm⟩
    · rw [min_eq_right h]
      exact ⟨N - 1, by rw [Nat.cast_sub hNN]; simp⟩
  rw [hq, Nat.floor_natCast]
  have hq1 : (q : ℝ) ≤ ⌊s + f⌋ := by rw [← hq]; exact min_le_left _ _
  have hq2 : (q : ℝ) ≤ N - 1 := by rw [← hq]; exact min_le_right _ _
  have p1 : ((⌊s⌋₊ : ℕ) : ℝ) ≤ s := Nat.floor_le hs0
  have p2 : s < ((⌊s⌋₊ : ℕ) : ℝ) + 1 := Nat.lt_floor_add_one s
  have hstopq : s + f ≤ (q : ℝ) + 1 := by
    rw [← hq]
    rcases le_total (⌊s + f⌋ : ℝ) ((N : ℝ) - 1) with h | h
    · rw [min_eq_left h]; exact hfl2.le
    · rw [min_eq_right h]; linarith
  refine ⟨?_, ?_, by linarith, hstopq, p1, p2.le⟩
  · -- p + 1 ≤ q
    have : ((⌊s⌋₊ : ℕ) : ℝ) < q := by linarith
    exact_mod_cast this
  · have : (q : ℝ) < N := by linarith
    exact_mod_cast this

theorem ds_le {N k : ℕ} {f : ℝ} (h1 : 1 < f) (hk : k < downsampledSize N f) : ((k : ℝ) + 1) * f ≤ N := by
  unfold downsampledSize at hk
  have h : ((k + 1 : ℕ) : ℝ) ≤ (N : ℝ) / f := by
    have : k + 1 ≤ ⌊(N : ℝ) / f⌋₊ := hk
    exact (Nat.le_floor_iff (by positivity)).mp this
  rw [le_div_iff₀ (by linarith)] at h
  push_cast at h
  exact h

/-! ## Loops and memory -/

theorem forE_acc (c : ℕ → ℝ) (body : ℕ → ℝ → Except CallErr ℝ) (n : ℕ)
    (h : ∀ t < n, ∀ acc, body t acc = .ok (acc + c t)) (a : ℝ) :
    forE body n a = .ok (a + ∑ t ∈ range n, c t) := by
  induction n with
  | zero => simp [forE]
  | succ n ih =>
    rw [forE, ih (fun t ht => h t (by omega)), Finset.sum_range_succ, ← add_assoc]
    exact h n (by omega) _

theorem load_of_val {α : Type*} {mem : Mem α} {a : ℕ} {v : α} (h : mem a = .val v) : mem.load a = some v := by
  unfold Mem.load; rw [h]

theorem store_of_alloc {α : Type*} {mem : Mem α} {a : ℕ} (v : α) (h : mem a ≠ .unalloc) :
    mem.store a v = some (fun b => if b = a then .val v else mem b) := by
  unfold Mem.store
  split
  · rename_i h'; exact absurd h' h
  · rfl

/-- One output sample. -/
theorem downsampleBody_spec (inp N : ℕ) (f : ℝ) (out k : ℕ) (mem : Mem ℝ) (x : ℕ → ℝ) (h1 : 1 < f)
    (hk : ((k : ℝ) + 1) * f ≤ N) (hx : Holds mem inp N x) (ho : mem (out + k) ≠ .unalloc) :
    downsampleBody inp N f out k mem = .ok (fun b => if b = out + k then
      .val (stepIntegral N x ((k : ℝ) * f) ((k : ℝ) * f + f)) else mem b) := by
  obtain ⟨hpq, hq, b1, b2, a1, a2⟩ := ds_idx h1 hk
  unfold downsampleBody
  simp only
  generalize ⌊min (⌊(k : ℝ) * f + f⌋ : ℝ) ((N : ℝ) - 1)⌋₊ = q at *
  generalize ⌊(k : ℝ) * f⌋₊ = p at *
  rw [load_of_val (hx p (by omega)), load_of_val (hx q hq)]
  simp only [orUB, Except.bind]
  rw [forE_acc (fun t => x (p + 1 + t))]
  · simp only
    rw [store_of_alloc _ ho]
    simp only [Except.ok.injEq]
    funext b
    split_ifs
    · congr 1
      unfold stepIntegral
      rw [sum_overlap N p q _ _ (fun i o => x i * o) (by simp) hpq hq a1 a2 b1 b2]
      simp only [mul_one]
      ring
    · rfl
  · intro t ht acc
    rw [load_of_val (hx (p + 1 + t) (by omega))]

theorem downsampleMem_spec (inp N : ℕ) (f : ℝ) (out : ℕ) (mem : Mem ℝ) (x : ℕ → ℝ)
    (hf : DownsamplingFactorValid N f) (hx : Holds mem inp N x) (ho : Alloc mem out (downsampledSize N f))
    (d : Disj inp N out (downsampledSize N f)) :
    ∃ mem', downsampleMem inp N f out mem = .ok mem' ∧
      Holds mem' out (downsampledSize N f) (fun k => stepIntegral N x ((k : ℝ) * f) ((k : ℝ) * f + f)) ∧
      SameOutside mem mem' out (downsampledSize N f) := by
  unfold downsampleMem
  rw [if_neg (by simpa using hf)]
  have key : ∀ n ≤ downsampledSize N f, ∃ mem', forE (downsampleBody inp N f out) n mem = .ok mem' ∧
      Holds mem' out n (fun k => stepIntegral N x ((k : ℝ) * f) ((k : ℝ) * f + f)) ∧
      SameOutside mem mem' out n := by
    intro n
    induction n with
    | zero => intro _; exact ⟨mem, rfl, fun i hi => absurd hi (by omega), fun _ _ => rfl⟩
    | succ n ih =>
      intro hn
      obtain ⟨m1, e1, g1, s1⟩ := ih (by omega)
      have hx1 : Holds m1 inp N x := by
        intro i hi
        rw [s1 _ (by unfold Disj at d; omega)]
        exact hx i hi
      have e2 := downsampleBody_spec inp N f out n m1 x hf.1 (ds_le hf.1 hn) hx1
        (by rw [s1 _ (by omega)]; exact ho n hn)
      refine ⟨_, by rw [forE, e1]; exact e2, ?_, ?_⟩
      · intro i hi
        by_cases h : i = n
        · subst h; simp
        · simp only
          rw [if_neg (by omega)]
          exact g1 i (by omega)
      · intro b hb
        simp only
        rw [if_neg (by omega)]
        exact s1 b (by omega)
  exact key _ le_rfl

theorem readArray_spec {α : Type*} {mem : Mem α} {a n : ℕ} {g : ℕ → α} (h : Holds mem a n g) :
    readArray mem a n = .ok ((List.range n).map g) := by
  unfold readArray
  apply mapM_ok
  intro i hi
  rw [load_of_val (h i (by simpa using hi))]
  rfl

/-- The binding, in closed form. -/
theorem downsampleBinding_ok (x : List ℝ) (f : ℝ) (hf : DownsamplingFactorValid x.length f) :
    downsampleBinding x f = .ok ((List.range (downsampledSize x.length f)).map
      (fun k : ℕ => stepIntegral x.length (fun i => x.getD i 0) ((k : ℝ) * f) ((k : ℝ) * f + f))) := by
  obtain ⟨mem', e, h, _⟩ := downsampleMem_spec 0 x.length f x.length (callMem x (downsampledSize x.length f))
    (fun i => x.getD i 0) hf
    (by
      intro i hi
      unfold callMem
      simp [hi])
    (by
      intro i hi
      unfold callMem
      simp [hi])
    (by unfold Disj; omega)
  unfold downsampleBinding
  simp only
  rw [if_neg (by simpa using hf), e]
  exact readArray_spec h

theorem stepIntegral_add (N : ℕ) (x : ℕ → ℝ) {a b c : ℝ} (h1 : a ≤ b) (h2 : b ≤ c) :
    stepIntegral N x a b + stepIntegral N x b c = stepIntegral N x a c := by
  unfold stepIntegral
  rw [← Finset.sum_add_distrib]
  apply Finset.sum_congr rfl
  intro i _
  rw [← mul_add, overlap_add i h1 h2]

theorem stepIntegral_sum (N : ℕ) (x : ℕ → ℝ) {f : ℝ} (hf : 0 ≤ f) (n : ℕ) :
    ∑ k ∈ range n, stepIntegral N x ((k : ℝ) * f) ((k : ℝ) * f + f) = stepIntegral N x 0 (n * f) := by
  induction n with
  | zero =>
    unfold stepIntegral
    simp only [range_zero, sum_empty, Nat.cast_zero, zero_mul]
    symm
    apply Finset.sum_eq_zero
    intro i _
    rw [overlap_right (by positivity), mul_zero]
  | succ n ih =>
    rw [Finset.sum_range_succ, ih, stepIntegral_add N x (by positivity) (by linarith)]
    push_cast
    ring_nf

/-- The overlaps of an interval inside the data add up to its length. -/
theorem overlap_total (N : ℕ) {a b : ℝ} (h0 : 0 ≤ a) (hab : a ≤ b) (hN : b ≤ N) :
    ∑ i ∈ range N, overlap i a b = b - a := by
  have H : ∀ n : ℕ, ∑ i ∈ range n, overlap i a b = max 0 (min (n : ℝ) b - a) := by
    intro n
    induction n with
    | zero =>
      simp only [range_zero, sum_empty, Nat.cast_zero]
      rw [min_eq_left (by linarith), max_eq_left (by linarith)]
    | succ n ih =>
      rw [Finset.sum_range_succ, ih]
      unfold overlap
      push_cast
      have hn : (0 : ℝ) ≤ n := Nat.cast_nonneg n
      simp only [min_def, max_def]
      split_ifs <;> linarith
  rw [H N, min_eq_right hN, max_eq_right (by linarith)]

end Verif.Lemmas
