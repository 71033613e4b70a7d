import Verif.Spec.Nan
import Verif.Lemmas.AnyOrder
import Verif.Lemmas.SearchF
import Mathlib.Data.Prod.Lex

/-! # NaN and infinite samples -/

namespace Verif.Lemmas

open Verif.Model Verif.Spec

/-! ## NaN is absorbing -/

namespace FV

variable (r : ℚ → FVal)

theorem add_nan_left (a : FVal) : FVal.add r .nan a = .nan := by cases a <;> rfl
theorem add_nan_right (a : FVal) : FVal.add r a .nan = .nan := by cases a <;> rfl
theorem sub_nan_left (a : FVal) : FVal.sub r .nan a = .nan := add_nan_left r _
theorem sub_nan_right (a : FVal) : FVal.sub r a .nan = .nan := add_nan_right r _
theorem mul_nan_left (a : FVal) : FVal.mul r .nan a = .nan := by cases a <;> rfl
theorem mul_nan_right (a : FVal) : FVal.mul r a .nan = .nan := by cases a <;> rfl
theorem div_nan_left (a : FVal) : FVal.div r .nan a = .nan := by cases a <;> rfl
theorem div_nan_right (a : FVal) : FVal.div r a .nan = .nan := by cases a <;> rfl
theorem cast_nan : FVal.cast r .nan = .nan := rfl
theorem sqrt_nan : FVal.sqrt r .nan = .nan := rfl

theorem add_nan {a b : FVal} (h : a = .nan ∨ b = .nan) : FVal.add r a b = .nan := by
  rcases h with rfl | rfl
  · exact add_nan_left r _
  · exact add_nan_right r _

/-- An infinite operand gives the same infinity or NaN. -/
theorem add_inf {a b : FVal} {s : Bool} (h : a = .inf s ∨ a = .nan) : FVal.add r a b = .inf s ∨ FVal.add r a b = .nan := by
  rcases h with rfl | rfl
  · cases b with
    | fin q => exact Or.inl rfl
    | inf t =>
      by_cases e : s = t
      · left; simp [FVal.add, e]
      · right; simp [FVal.add, e]
    | nan => exact Or.inr rfl
  · exact Or.inr (add_nan_left r _)

theorem add_comm' (a b : FVal) : FVal.add r a b = FVal.add r b a := by
  cases a with
  | fin p =>
    cases b with
    | fin q => simp [FVal.add, add_comm]
    | inf t => rfl
    | nan => rfl
  | inf s =>
    cases b with
    | fin q => rfl
    | inf t =>
      by_cases e : s = t
      · simp [FVal.add, e]
      · simp [FVal.add, e, Ne.symm e]
    | nan => rfl
  | nan => cases b <;> rfl

/-- A value that is not a finite number stays so in a difference. -/
theorem sub_notfin {a b : FVal} (h : ∀ q, a ≠ .fin q) : ∀ q, FVal.sub r a b ≠ .fin q := by
  intro q
  cases a with
  | fin p => exact absurd rfl (h p)
  | inf s =>
    rcases add_inf r (a := .inf s) (b := b.neg) (Or.inl rfl) with e | e <;>
      · rw [FVal.sub, e]; exact fun h => nomatch h
  | nan => rw [sub_nan_left]; exact fun h => nomatch h

theorem cast_notfin {a : FVal} (h : ∀ q, a ≠ .fin q) : FVal.cast r a = a := by
  cases a with
  | fin p => exact absurd rfl (h p)
  | inf s => rfl
  | nan => rfl

end FV

theorem tree_nan (r : ℚ → FVal) (x : ℕ → FVal) {i : ℕ} (hi : x i = .nan) : ∀ t : SumTree, i ∈ t.leaves → t.sum r x = .nan := by
  intro t
  induction t with
  | leaf k =>
    intro h
    rw [SumTree.leaves, List.mem_singleton] at h
    rw [SumTree.sum, ← h, hi]
  | node a b iha ihb =>
    intro h
    rw [SumTree.leaves, List.mem_append] at h
    rw [SumTree.sum]
    exact FV.add_nan r (h.imp iha ihb)

theorem tree_inf (r : ℚ → FVal) (x : ℕ → FVal) {i : ℕ} {s : Bool} (hi : x i = .inf s) :
    ∀ t : SumTree, i ∈ t.leaves → t.sum r x = .inf s ∨ t.sum r x = .nan := by
  intro t
  induction t with
  | leaf k =>
    intro h
    rw [SumTree.leaves, List.mem_singleton] at h
    rw [SumTree.sum, ← h, hi]
    exact Or.inl rfl
  | node a b iha ihb =>
    intro h
    rw [SumTree.leaves, List.mem_append] at h
    rw [SumTree.sum]
    rcases h with h | h
    · exact FV.add_inf r (iha h)
    · rw [FV.add_comm']
      exact FV.add_inf r (ihb h)

section normalise

variable (N : NArith)

variable {N} (hN : AddsAll N)
include hN

theorem mem_leaves {n i : ℕ} (h : i < n) : i ∈ (N.tree n).leaves :=
  (hN n (by omega)).mem_iff.mpr (List.mem_range.mpr h)

theorem mean_nan {x : List FVal} (h : FVal.nan ∈ x) : N.mean x = .nan := by
  obtain ⟨i, hi, e⟩ := List.getElem_of_mem h
  have e' : x.getD i default = .nan := by simp [List.getD, hi, e]
  rw [NArith.mean, tree_nan N.double (fun i => x.getD i default) e' _ (mem_leaves hN hi), FV.div_nan_left]

theorem mean_inf {x : List FVal} {s : Bool} (h : FVal.inf s ∈ x) : N.mean x = .inf s ∨ N.mean x = .nan := by
  obtain ⟨i, hi, e⟩ := List.getElem_of_mem h
  have e' : x.getD i default = .inf s := by simp [List.getD, hi, e]
  rw [NArith.mean]
  rcases tree_inf N.double (fun i => x.getD i default) e' _ (mem_leaves hN hi) with h | h
  · left
    rw [h]
    have : ¬ ((x.length : ℚ) < 0) := not_lt.mpr (Nat.cast_nonneg _)
    simp [FVal.div, this]
  · right
    rw [h, FV.div_nan_left]

/-- One sample that is not a finite number makes the variance NaN. -/
theorem var_nan {x : List FVal} {v : FVal} (hv : v ∈ x) (hf : ∀ q, v ≠ .fin q) : N.var x = .nan := by
  apply mean_nan hN
  rw [List.mem_map]
  refine ⟨v, hv, ?_⟩
  have : FVal.sub N.double v (N.mean x) = .nan := by
    cases v with
    | fin q => exact absurd rfl (hf q)
    | inf s =>
      rcases mean_inf hN hv with e | e
      · rw [e]
        cases s <;> rfl
      · rw [e, FV.sub_nan_right]
    | nan => exact FV.sub_nan_left _ _
  rw [this, FV.mul_nan_left]

theorem normalise_nan {x : List FVal} {v : FVal} (hv : v ∈ x) (hf : ∀ q, v ≠ .fin q) :
    N.normalise x = List.replicate x.length .nan := by
  rw [NArith.normalise, List.eq_replicate_iff]
  refine ⟨by simp, ?_⟩
  intro b hb
  rw [List.mem_map] at hb
  obtain ⟨a, _, rfl⟩ := hb
  rw [var_nan hN hv hf, FV.sqrt_nan, FV.cast_nan, FV.div_nan_right, FV.cast_nan]

end normalise

/-! ## The transform -/

/-- A property that passes from either operand to the sum reaches every row of the transform. -/
theorem transform_absorb {α : Type*} (add : α → α → α) (P : α → Prop) (hP : ∀ a b, P a ∨ P b → P (add a b)) (idx : IdxRule)
    (p : ℕ) : ∀ m, (∀ m' ≤ m, 3 ≤ m' → IdxOK idx m') → ∀ (x : ℕ → ℕ → α) (s r c : ℕ), s < m → r < m → c < p →
      P (x r c) → ∃ c' < p, P (transform add idx m p x s c') := by
  intro m
  induction m using Nat.strong_induction_on with
  | _ m ih =>
    intro hok x s r c hs hr hc hx
    have hp : 0 < p := by omega
    -- a column of the second operand is reached from some column of the result
    have key : ∀ (y z : ℕ → α) (k : ℕ), (∃ c' < p, P (y c')) ∨ (∃ c' < p, P (z c')) →
        ∃ c' < p, P (fusedRollbackAdd add p k y z c') := by
      intro y z k h
      rcases h with ⟨c', h1, h2⟩ | ⟨c', h1, h2⟩
      · exact ⟨c', h1, by rw [fusedRollbackAdd_apply _ _ _ _ h1]; exact hP _ _ (Or.inl h2)⟩
      · have hk : k % p < p := Nat.mod_lt _ hp
        refine ⟨(c' + (p - k % p)) % p, Nat.mod_lt _ hp, ?_⟩
        rw [fusedRollbackAdd_apply _ _ _ _ (Nat.mod_lt _ hp)]
        apply hP
        right
        have : ((c' + (p - k % p)) % p + k) % p = c' := by
          rw [Nat.mod_add_mod, ← Nat.add_mod_mod, show c' + (p - k % p) + k % p = c' + p by omega, Nat.add_mod_right,
            Nat.mod_eq_of_lt h1]
        rw [this]
        exact h2
    rcases Nat.lt_or_ge m 3 with h3 | h3
    · rcases Nat.lt_or_ge m 2 with h2 | h2
      · rw [transform_le_one _ _ (by omega)]
        obtain rfl : s = r := by omega
        exact ⟨c, hc, hx⟩
      · obtain rfl : m = 2 := by omega
        rw [transform_two]
        have hcase : (∃ c' < p, P (x 0 c')) ∨ (∃ c' < p, P (x 1 c')) := by
          rcases (by omega : r = 0 ∨ r = 1) with rfl | rfl
          · exact Or.inl ⟨c, hc, hx⟩
          · exact Or.inr ⟨c, hc, hx⟩
        split_ifs
        · rcases hcase with ⟨c', h1, h2⟩ | ⟨c', h1, h2⟩
          · exact ⟨c', h1, hP _ _ (Or.inl h2)⟩
          · exact ⟨c', h1, hP _ _ (Or.inr h2)⟩
        · exact key _ _ _ hcase
    · have ok := hok m le_rfl h3
      rw [transform_ge_three _ _ h3]
      unfold merge
      apply key
      rcases Nat.lt_or_ge r (m / 2) with h | h
      · left
        exact ih (m / 2) (by omega) (fun m' h => hok m' (by omega)) x _ r c (ok.h_lt s hs) h hc hx
      · right
        refine ih (m - m / 2) (by omega) (fun m' h => hok m' (by omega)) _ _ (r - m / 2) c (ok.t_lt s hs) (by omega) hc ?_
        rw [Nat.add_sub_cancel' h]
        exact hx

/-- The transform only depends on the columns and rows of its input. -/
theorem transform_congr {α : Type*} (add : α → α → α) (idx : IdxRule) (p : ℕ) :
    ∀ m, (∀ m' ≤ m, 3 ≤ m' → IdxOK idx m') → ∀ (x y : ℕ → ℕ → α), (∀ r < m, ∀ c < p, x r c = y r c) →
      ∀ s < m, ∀ c < p, transform add idx m p x s c = transform add idx m p y s c := by
  intro m
  induction m using Nat.strong_induction_on with
  | _ m ih =>
    intro hok x y hxy s hs c hc
    have hp : 0 < p := by omega
    rcases Nat.lt_or_ge m 3 with h3 | h3
    · rcases Nat.lt_or_ge m 2 with h2 | h2
      · rw [transform_le_one _ _ (by omega), transform_le_one _ _ (by omega)]
        exact hxy s hs c hc
      · obtain rfl : m = 2 := by omega
        rw [transform_two, transform_two]
        split_ifs
        · simp only [addArr]
          rw [hxy 0 (by omega) c hc, hxy 1 (by omega) c hc]
        · rw [fusedRollbackAdd_apply _ _ _ _ hc, fusedRollbackAdd_apply _ _ _ _ hc, hxy 0 (by omega) c hc,
            hxy 1 (by omega) _ (Nat.mod_lt _ hp)]
    · have ok := hok m le_rfl h3
      rw [transform_ge_three _ _ h3, transform_ge_three _ _ h3]
      unfold merge
      rw [fusedRollbackAdd_apply _ _ _ _ hc, fusedRollbackAdd_apply _ _ _ _ hc,
        ih (m / 2) (by omega) (fun m' h => hok m' (by omega)) x y (fun r hr => hxy r (by omega)) _ (ok.h_lt s hs) c hc,
        ih (m - m / 2) (by omega) (fun m' h => hok m' (by omega)) _ (fun i => y (m / 2 + i))
          (fun r hr => hxy (m / 2 + r) (by omega)) _ (ok.t_lt s hs) _ (Nat.mod_lt _ hp)]

/-! ## S/N -/

theorem prefixAcc_nan (N : NArith) (x : ℕ → FVal) {i : ℕ} (hi : x i = .nan) : ∀ j, i < j → N.prefixAcc x j = .nan := by
  intro j
  induction j with
  | zero => intro h; omega
  | succ j ih =>
    intro h
    rw [NArith.prefixAcc]
    apply FV.add_nan
    rcases Nat.lt_or_ge i j with h' | h'
    · exact Or.inl (ih h')
    · obtain rfl : i = j := by omega
      exact Or.inr hi

/-- A profile with a NaN has no other S/N than NaN. -/
theorem snr1_nan (N : NArith) (n : ℕ) (x : ℕ → FVal) (std : FVal) (widths : List ℕ) {i : ℕ} (h : i < n) (hi : x i = .nan) :
    N.snr1 n x std widths = List.replicate widths.length .nan := by
  rw [NArith.snr1, List.eq_replicate_iff]
  refine ⟨by simp, ?_⟩
  intro b hb
  rw [List.mem_map] at hb
  obtain ⟨w, _, rfl⟩ := hb
  have e : N.circularPrefixSum x n (n - 1) = .nan := by
    rw [NArith.circularPrefixSum, if_pos (by omega), prefixAcc_nan N x hi _ (by omega), FV.cast_nan]
  simp only [NArith.snrWidth]
  rw [e, FV.mul_nan_right, FV.sub_nan_right, FV.div_nan_left]

theorem prefixAcc_congr (N : NArith) {n : ℕ} {x y : ℕ → FVal} (h : ∀ i < n, x i = y i) : ∀ j ≤ n, N.prefixAcc x j = N.prefixAcc y j := by
  intro j
  induction j with
  | zero => intro _; rfl
  | succ j ih =>
    intro hj
    rw [NArith.prefixAcc, NArith.prefixAcc, ih (by omega), h j (by omega)]

/-! ## One trial of the search -/

section trial

variable {A : DArith} (N : NArith) {a : DArgs}

/-- Input samples read for output sample `k` of the downsampling. -/
def readBy (A : DArith) (a : DArgs) (ids k : ℕ) : ℕ → Prop := fun i =>
  if A.f a ids = 1 then i = k
  else (dImin A (A.f a ids) k ≤ i ∧ i < max (dImin A (A.f a ids) k + 1) (dImax A a.size (A.f a ids) k)) ∨
    i = dImax A a.size (A.f a ids) k

theorem dAcc_nan (x : ℕ → FVal) (f : ℚ) (k i : ℕ) (hi : x i = .nan) :
    ∀ t, dImin A f k ≤ i → i < dImin A f k + 1 + t → dAcc A N.ops x f k t = .nan := by
  intro t
  induction t with
  | zero =>
    intro h1 h2
    obtain rfl : i = dImin A f k := by omega
    rw [dAcc, hi]
    exact FV.mul_nan_right _ _
  | succ t ih =>
    intro h1 h2
    rw [dAcc]
    apply FV.add_nan
    rcases Nat.lt_or_ge i (dImin A f k + 1 + t) with h | h
    · exact Or.inl (ih h1 h)
    · obtain rfl : i = dImin A f k + 1 + t := by omega
      exact Or.inr hi

theorem stage_nan (x : ℕ → FVal) {ids k i : ℕ} (hr : readBy A a ids k i) (hi : x i = .nan) :
    dStageData A a N.ops x ids k = .nan := by
  unfold readBy at hr
  unfold dStageData
  split_ifs at hr ⊢ with h1
  · rw [← hr, hi]
  · rw [dSample]
    apply FV.add_nan
    rcases hr with ⟨h2, h3⟩ | h2
    · left
      exact dAcc_nan N x _ k i hi _ h2 (by omega)
    · right
      rw [← h2, hi]
      exact FV.mul_nan_right _ _

theorem dAcc_congr {V : Type*} (O : VOps V) (x y : ℕ → V) (f : ℚ) (k : ℕ) :
    ∀ t, (∀ i, dImin A f k ≤ i → i < dImin A f k + 1 + t → x i = y i) → dAcc A O x f k t = dAcc A O y f k t := by
  intro t
  induction t with
  | zero => intro h; rw [dAcc, dAcc, h _ le_rfl (by omega)]
  | succ t ih =>
    intro h
    rw [dAcc, dAcc, ih (fun i h1 h2 => h i h1 (by omega)), h _ (by omega) (by omega)]

theorem stage_congr {V : Type*} (O : VOps V) (x y : ℕ → V) {ids k : ℕ} (h : ∀ i, readBy A a ids k i → x i = y i) :
    dStageData A a O x ids k = dStageData A a O y ids k := by
  unfold readBy at h
  unfold dStageData
  split_ifs at h ⊢ with h1
  · exact h k rfl
  · rw [dSample, dSample, h _ (Or.inr rfl), dAcc_congr O x y _ k _ (fun i h2 h3 => h i (Or.inl ⟨h2, by omega⟩))]

/-- A sample read by a trial is NaN: so are all S/N values of the trial. -/
theorem dSnr_nan (idx : IdxRule) (x : ℕ → FVal) (widths : List ℕ) (t : ℕ × ℕ × ℕ)
    (hok : ∀ m ≤ nN A a t.1 / t.2.1, 3 ≤ m → IdxOK idx m) (hs : t.2.2 < nN A a t.1 / t.2.1) {k i : ℕ}
    (hk : k < nN A a t.1 / t.2.1 * t.2.1) (hr : readBy A a t.1 k i) (hi : x i = .nan) (w : ℕ) (hw : w < widths.length) :
    dSnr A a N.ops idx x widths t w = .nan := by
  have hb : 0 < t.2.1 := by
    rcases Nat.eq_zero_or_pos t.2.1 with h | h
    · rw [h] at hk; simp at hk
    · exact h
  obtain ⟨c, hc, hn⟩ := transform_absorb N.ops.add (· = .nan) (fun _ _ h => FV.add_nan _ h) idx t.2.1
    (nN A a t.1 / t.2.1) hok (fun r c => dStageData A a N.ops x t.1 (r * t.2.1 + c)) t.2.2 (k / t.2.1) (k % t.2.1) hs
    ((Nat.div_lt_iff_lt_mul hb).mpr hk) (Nat.mod_lt _ hb) (by
      show dStageData A a N.ops x t.1 (k / t.2.1 * t.2.1 + k % t.2.1) = _
      rw [Nat.div_add_mod']
      exact stage_nan N x hr hi)
  unfold dSnr
  show (N.snr1 t.2.1 _ _ widths).getD w default = _
  rw [snr1_nan N t.2.1 _ _ widths hc (by rw [if_pos hc]; exact hn)]
  simp [List.getD, hw]

/-- The S/N values of a trial only depend on the samples it reads. -/
theorem dSnr_congr {V : Type*} [Inhabited V] (O : VOps V) (idx : IdxRule) (x y : ℕ → V) (widths : List ℕ) (t : ℕ × ℕ × ℕ)
    (hok : ∀ m ≤ nN A a t.1 / t.2.1, 3 ≤ m → IdxOK idx m) (hs : t.2.2 < nN A a t.1 / t.2.1)
    (h : ∀ k < nN A a t.1 / t.2.1 * t.2.1, ∀ i, readBy A a t.1 k i → x i = y i) (w : ℕ) :
    dSnr A a O idx x widths t w = dSnr A a O idx y widths t w := by
  unfold dSnr
  congr 1
  funext i
  split_ifs with hi
  · apply transform_congr _ _ _ _ hok _ _ _ _ hs _ hi
    intro r hr c hc
    apply stage_congr
    apply h
    calc r * t.2.1 + c < r * t.2.1 + t.2.1 := by omega
      _ = (r + 1) * t.2.1 := by ring
      _ ≤ _ := Nat.mul_le_mul_right _ hr
  · rfl

end trial

/-! ## Which samples are read -/

section extent

set_option linter.unusedSectionVars false

variable {A : DArith} (hA : Sane A) {a : DArgs} (hr : InRange A a)
include hA hr

theorem start_eq {k : ℕ} (hk : k ≤ 2 ^ 50) (f : ℚ) : dStart A f k = A.fl (k * f) := by
  rw [dStart, hA.nat k (by omega)]

/-- The end of a window, from below and from above. -/
theorem stop_bounds {k : ℕ} (hk : k < 2 ^ 50) {f : ℚ} (hf : 1 ≤ f) :
    (1 - u53) ^ 2 * ((k + 1 : ℕ) * f) ≤ dStop A f k ∧ dStop A f k ≤ (1 + u53) ^ 2 * ((k + 1 : ℕ) * f) := by
  have hk0 : (0 : ℚ) ≤ k := Nat.cast_nonneg k
  have hkf : (0 : ℚ) ≤ k * f := by positivity
  have hu : (0 : ℚ) < u53 := u53_pos
  have hu1 : u53 ≤ 1 / 4 := by norm_num [u53]
  have hx : (0 : ℚ) ≤ (k + 1) * f := by positivity
  unfold dStop
  push_cast
  split_ifs
  · rw [hA.nat k (by omega), show (k : ℚ) * f + f = (k + 1) * f by ring]
    have h1 := Dbl.fl_le hA hx
    have h2 := Dbl.fl_ge hA hx
    constructor <;> nlinarith [mul_nonneg hu.le hx, mul_nonneg (mul_nonneg hu.le hu.le) hx]
  · rw [start_eq hA hr hk.le]
    have h1 := Dbl.fl_le hA hkf
    have h2 := Dbl.fl_ge hA hkf
    have h0 := Dbl.fl_nonneg hA hkf
    have hy : 0 ≤ A.fl (k * f) + f := by linarith
    have h3 := Dbl.fl_le hA hy
    have h4 := Dbl.fl_ge hA hy
    have hf0 : 0 ≤ u53 * f := by positivity
    constructor
    · refine le_trans ?_ h4
      have : (1 - u53) * ((k + 1) * f) ≤ A.fl (k * f) + f := by nlinarith
      calc (1 - u53) ^ 2 * ((k + 1) * f) = (1 - u53) * ((1 - u53) * ((k + 1) * f)) := by ring
        _ ≤ _ := mul_le_mul_of_nonneg_left this (by linarith)
    · refine h3.trans ?_
      have : A.fl (k * f) + f ≤ (1 + u53) * ((k + 1) * f) := by nlinarith
      calc (1 + u53) * (A.fl (k * f) + f) ≤ (1 + u53) * ((1 + u53) * ((k + 1) * f)) :=
            mul_le_mul_of_nonneg_left this (by linarith)
        _ = _ := by ring

/-- The next window starts at most one sample after the end of the window. -/
theorem next_start {k : ℕ} (hk : k + 1 < 2 ^ 50) {f : ℚ} (hf : 1 ≤ f) {i : ℕ} (hi : i < 2 ^ 50)
    (h : i + 1 ≤ dImin A f (k + 1)) : i ≤ ⌊dStop A f k⌋.toNat := by
  have hx : (0 : ℚ) ≤ (k + 1 : ℕ) * f := by positivity
  have h0 : 0 ≤ dStart A f (k + 1) := by rw [start_eq hA hr hk.le]; exact Dbl.fl_nonneg hA hx
  have h1 : ((i + 1 : ℕ) : ℚ) ≤ dStart A f (k + 1) := by
    have e : ((i + 1 : ℕ) : ℤ) ≤ ⌊dStart A f (k + 1)⌋ := by
      have := Int.floor_nonneg.mpr h0
      unfold dImin at h
      omega
    exact_mod_cast Int.le_floor.mp e
  have h2 := (stop_bounds hA hr (k := k) (by omega) hf).1
  have h3 := Dbl.fl_le hA hx
  rw [start_eq hA hr hk.le] at h1
  set X : ℚ := (k + 1 : ℕ) * f with hX
  have hiq : (i : ℚ) < 2 ^ 50 := by exact_mod_cast hi
  have h4 : (i : ℚ) ≤ dStop A f k := by
    refine le_trans ?_ h2
    have h5 : (i : ℚ) + 1 ≤ (1 + u53) * X := by push_cast at h1; linarith
    have e1 : (0 : ℚ) < 1 + u53 := by norm_num [u53]
    have h6 : ((i : ℚ) + 1) / (1 + u53) ≤ X := by rw [div_le_iff₀ e1]; linarith
    refine le_trans ?_ (mul_le_mul_of_nonneg_left h6 (by positivity))
    rw [mul_div_assoc', le_div_iff₀ e1]
    unfold u53
    nlinarith
  have : ((i : ℕ) : ℤ) ≤ ⌊dStop A f k⌋ := Int.le_floor.mpr (by exact_mod_cast h4)
  omega

/-- Every sample up to the end of the `K` windows is read. -/
theorem read_cover {ids K i : ℕ} (hK : 1 ≤ K) (hKn : K ≤ nN A a ids) (hi : i < a.size)
    (h : (i : ℚ) ≤ (1 - 1 / 2 ^ 50) * (K * A.f a ids)) : ∃ k < K, readBy A a ids k i := by
  have hf := d_f_ge_one hA hr ids
  have hs := hr.size
  have hn := d_n_le_size hA hr ids
  have hKf : (0 : ℚ) < K * A.f a ids := by
    have : (0 : ℚ) < K := by exact_mod_cast hK
    positivity
  by_cases h1 : A.f a ids = 1
  · refine ⟨i, ?_, by rw [readBy, if_pos h1]⟩
    rw [h1, mul_one] at h hKf
    have : (i : ℚ) < K := by
      refine lt_of_le_of_lt h ?_
      have : (0 : ℚ) < 1 / 2 ^ 50 := by norm_num
      nlinarith
    exact_mod_cast this
  · simp only [readBy, if_neg h1]
    -- the last window that starts at or before `i`
    have h0 : dImin A (A.f a ids) 0 ≤ i := by
      have : dImin A (A.f a ids) 0 = 0 := by
        rw [dImin, start_eq hA hr (by norm_num)]
        simp [Dbl.fl_zero hA]
      omega
    obtain ⟨k, hk1, hk2, hk3⟩ : ∃ k, k < K ∧ dImin A (A.f a ids) k ≤ i ∧ (k + 1 < K → i < dImin A (A.f a ids) (k + 1)) := by
      by_contra hc
      push Not at hc
      have : ∀ k, k < K → dImin A (A.f a ids) k ≤ i := by
        intro k
        induction k with
        | zero => intro _; exact h0
        | succ k ih => intro hk; exact (hc k (by omega) (ih (by omega))).2
      obtain ⟨h4, _⟩ := hc (K - 1) (by omega) (this (K - 1) (by omega))
      omega
    refine ⟨k, hk1, ?_⟩
    have hle : i ≤ dImax A a.size (A.f a ids) k := by
      unfold dImax
      refine le_min ?_ (by omega)
      by_cases hlast : k + 1 < K
      · exact next_start hA hr (by omega) hf (by omega) (hk3 hlast)
      · obtain rfl : K = k + 1 := by omega
        have h2 := (stop_bounds hA hr (k := k) (by omega) hf).1
        have h4 : (i : ℚ) ≤ dStop A (A.f a ids) k := by
          refine h.trans (le_trans ?_ h2)
          apply mul_le_mul_of_nonneg_right _ hKf.le
          norm_num [u53]
        have : ((i : ℕ) : ℤ) ≤ ⌊dStop A (A.f a ids) k⌋ := Int.le_floor.mpr (by exact_mod_cast h4)
        omega
    rcases Nat.lt_or_ge i (dImax A a.size (A.f a ids) k) with h4 | h4
    · exact Or.inl ⟨hk2, by omega⟩
    · exact Or.inr (by omega)

/-- No sample after the `K` windows is read. -/
theorem read_bound {ids K k i : ℕ} (hk : k < K) (hKn : K ≤ nN A a ids) (h : readBy A a ids k i) :
    (i : ℚ) ≤ (1 + 1 / 2 ^ 50) * (K * A.f a ids) := by
  have hf := d_f_ge_one hA hr ids
  have hs := hr.size
  have hn := d_n_le_size hA hr ids
  have hkK : ((k + 1 : ℕ) : ℚ) ≤ K := by exact_mod_cast hk
  have hK0 : (0 : ℚ) ≤ K := Nat.cast_nonneg _
  have hKf : (0 : ℚ) ≤ K * A.f a ids := by positivity
  have hkf : ((k + 1 : ℕ) : ℚ) * A.f a ids ≤ K * A.f a ids := mul_le_mul_of_nonneg_right hkK (by linarith)
  unfold readBy at h
  split_ifs at h with h1
  · rw [h1, mul_one, h]
    push_cast at hkK
    have : (0 : ℚ) < 1 / 2 ^ 50 := by norm_num
    nlinarith
  · have hmin : (dImin A (A.f a ids) k : ℚ) ≤ (1 + 1 / 2 ^ 50) * (K * A.f a ids) := by
      have hx : (0 : ℚ) ≤ k * A.f a ids := by positivity
      have h0 : 0 ≤ dStart A (A.f a ids) k := by rw [start_eq hA hr (by omega)]; exact Dbl.fl_nonneg hA hx
      have h2 : ((dImin A (A.f a ids) k : ℕ) : ℚ) ≤ dStart A (A.f a ids) k := by
        have e : ((dImin A (A.f a ids) k : ℕ) : ℤ) ≤ ⌊dStart A (A.f a ids) k⌋ := by
          have := Int.floor_nonneg.mpr h0
          unfold dImin
          omega
        exact_mod_cast Int.le_floor.mp e
      rw [start_eq hA hr (by omega)] at h2
      have h3 := Dbl.fl_le hA hx
      have h4 : (k : ℚ) * A.f a ids ≤ K * A.f a ids := by push_cast at hkf; nlinarith
      have h5 : (1 + u53) * ((k : ℚ) * A.f a ids) ≤ (1 + 1 / 2 ^ 50) * (K * A.f a ids) :=
        mul_le_mul (by norm_num [u53]) h4 hx (by norm_num)
      linarith
    have hmax : (dImax A a.size (A.f a ids) k : ℚ) ≤ (1 + 1 / 2 ^ 50) * (K * A.f a ids) := by
      obtain ⟨b1, b2⟩ := stop_bounds hA hr (k := k) (by omega) hf
      have h0 : 0 ≤ dStop A (A.f a ids) k := le_trans (by positivity) b1
      have h2 : ((dImax A a.size (A.f a ids) k : ℕ) : ℚ) ≤ dStop A (A.f a ids) k := by
        have e : ((dImax A a.size (A.f a ids) k : ℕ) : ℤ) ≤ ⌊dStop A (A.f a ids) k⌋ := by
          have := Int.floor_nonneg.mpr h0
          unfold dImax
          omega
        exact_mod_cast Int.le_floor.mp e
      have h5 : (1 + u53) ^ 2 * (((k + 1 : ℕ) : ℚ) * A.f a ids) ≤ (1 + 1 / 2 ^ 50) * (K * A.f a ids) :=
        mul_le_mul (by norm_num [u53]) hkf (by positivity) (by norm_num)
      linarith
    rcases h with ⟨h2, h3⟩ | h2
    · rcases lt_max_iff.mp h3 with h4 | h4
      · obtain rfl : i = dImin A (A.f a ids) k := by omega
        exact hmin
      · have : (i : ℚ) ≤ dImax A a.size (A.f a ids) k := by exact_mod_cast h4.le
        linarith
    · rw [h2]; exact hmax

/-- All but the last period or so of the data take part in a fold. -/
theorem used_span {ids b : ℕ} (hb : 1 ≤ b) :
    (1 - 1 / 2 ^ 50) * (a.size : ℚ) - b * A.f a ids ≤ (nN A a ids / b * b : ℕ) * A.f a ids ∧
    ((nN A a ids / b * b : ℕ) : ℚ) * A.f a ids ≤ (1 + 1 / 2 ^ 50) * a.size := by
  have hf := d_f_ge_one hA hr ids
  have hq : (0 : ℚ) ≤ a.size / A.f a ids := by positivity
  have e : nN A a ids = ⌊A.fl (a.size / A.f a ids)⌋₊ := by rw [nN, d_size hA hr]
  have h1 := Dbl.fl_ge hA hq
  have h2 := Dbl.fl_le hA hq
  have hq0 := Dbl.fl_nonneg hA hq
  have h3 : (nN A a ids : ℚ) ≤ A.fl (a.size / A.f a ids) := by rw [e]; exact Nat.floor_le hq0
  have h4 : A.fl (a.size / A.f a ids) < nN A a ids + 1 := by rw [e]; exact Nat.lt_floor_add_one _
  have hmod : nN A a ids < nN A a ids / b * b + b := Nat.lt_div_mul_add (by omega)
  have hle : nN A a ids / b * b ≤ nN A a ids := Nat.div_mul_le_self _ _
  have h5 : (nN A a ids : ℚ) + 1 ≤ (nN A a ids / b * b : ℕ) + b := by exact_mod_cast hmod
  have h6 : ((nN A a ids / b * b : ℕ) : ℚ) ≤ nN A a ids := by exact_mod_cast hle
  have hc : (a.size : ℚ) / A.f a ids * A.f a ids = a.size := div_mul_cancel₀ _ (by linarith)
  have hs0 : (0 : ℚ) ≤ a.size := Nat.cast_nonneg _
  constructor
  · have h7 : (1 - u53) * (a.size / A.f a ids) ≤ (nN A a ids / b * b : ℕ) + b := by linarith
    have h8 := mul_le_mul_of_nonneg_right h7 (by linarith : (0 : ℚ) ≤ A.f a ids)
    rw [mul_assoc, hc, add_mul] at h8
    have h9 : (1 - 1 / 2 ^ 50) * (a.size : ℚ) ≤ (1 - u53) * a.size :=
      mul_le_mul_of_nonneg_right (by norm_num [u53]) hs0
    linarith
  · have h7 : ((nN A a ids / b * b : ℕ) : ℚ) ≤ (1 + u53) * (a.size / A.f a ids) := by linarith
    have h8 := mul_le_mul_of_nonneg_right h7 (by linarith : (0 : ℚ) ≤ A.f a ids)
    rw [mul_assoc, hc] at h8
    have h9 : (1 + u53) * (a.size : ℚ) ≤ (1 + 1 / 2 ^ 50) * a.size :=
      mul_le_mul_of_nonneg_right (by norm_num [u53]) hs0
    linarith

end extent

/-! ## The running median -/

/-- Numbers and infinities in their order. -/
def key : FVal → ℤ ×ₗ ℚ
  | .fin q => toLex (0, q)
  | .inf true => toLex (-1, 0)
  | .inf false => toLex (1, 0)
  | .nan => toLex (2, 0)

theorem key_lt {a b : FVal} (ha : a ≠ .nan) (hb : b ≠ .nan) : a.lt b = true ↔ key a < key b := by
  cases a with
  | nan => exact absurd rfl ha
  | fin p =>
    cases b with
    | nan => exact absurd rfl hb
    | fin q => simp [FVal.lt, key, Prod.Lex.toLex_lt_toLex]
    | inf t => cases t <;> simp [FVal.lt, key, Prod.Lex.toLex_lt_toLex]
  | inf s =>
    cases b with
    | nan => exact absurd rfl hb
    | fin q => cases s <;> simp [FVal.lt, key, Prod.Lex.toLex_lt_toLex]
    | inf t => cases s <;> cases t <;> simp [FVal.lt, key, Prod.Lex.toLex_lt_toLex]

theorem isNth_count {β : Type*} [LinearOrder β] {l : List β} {n : ℕ} {v : β} (h : IsNth l n v) :
    (l.filter (fun u => decide (u < v))).length ≤ n ∧ (l.filter (fun u => decide (v < u))).length + n + 1 ≤ l.length := by
  obtain ⟨s, hp, hs, hv⟩ := h
  obtain ⟨hn, hv'⟩ := List.getElem?_eq_some_iff.mp hv
  rw [← (hp.filter _).length_eq, ← (hp.filter _).length_eq, ← hp.length_eq]
  have hsplit : s = s.take n ++ v :: s.drop (n + 1) := by
    rw [← hv', List.cons_getElem_drop_succ, List.take_append_drop]
  have hs' := hs
  rw [hsplit, List.pairwise_append] at hs'
  obtain ⟨_, h2, h3⟩ := hs'
  rw [List.pairwise_cons] at h2
  have hlen : (s.take n).length = n := by simp; omega
  have hlen' : (s.drop (n + 1)).length + n + 1 = s.length := by simp; omega
  have f1 : (v :: s.drop (n + 1)).filter (fun u => decide (u < v)) = [] := by
    rw [List.filter_eq_nil_iff]
    intro u hu
    simp only [decide_eq_true_eq, not_lt]
    rcases List.mem_cons.mp hu with rfl | hu
    · exact le_rfl
    · exact h2.1 u hu
  have f2 : (s.take n).filter (fun u => decide (v < u)) = [] := by
    rw [List.filter_eq_nil_iff]
    intro u hu
    simp only [decide_eq_true_eq, not_lt]
    exact h3 u hu v (by simp)
  constructor
  · conv_lhs => rw [hsplit, List.filter_append, f1, List.append_nil]
    exact (List.length_filter_le _ _).trans hlen.le
  · have : (s.filter (fun u => decide (v < u))).length ≤ (s.drop (n + 1)).length := by
      conv_lhs => rw [hsplit, List.filter_append, f2, List.nil_append]
      rw [List.filter_cons_of_neg (by simp)]
      exact List.length_filter_le _ _
    omega

theorem selects_fval (N : NArith) {w : ℕ} (hw : w % 2 ≠ 0) :
    @Selects FVal ⟨fun a b => N.lt a b = true⟩ (fun a b => inferInstanceAs (Decidable (N.lt a b = true))) w
      (fun l v => v ∈ l ∧ (ComparesNumbers N → FVal.nan ∉ l → l.length = w → IsMedianOf l v)) := by
  let _ : LT FVal := ⟨fun a b => N.lt a b = true⟩
  let _ : DecidableLT FVal := fun a b => inferInstanceAs (Decidable (N.lt a b = true))
  refine ⟨?_, ?_⟩
  · intro d hd
    obtain ⟨v, d', e, hv⟩ := nthElement_any d (n := w / 2) (by rw [hd]; exact Nat.div_lt_self (by omega) (by norm_num))
    refine ⟨v, d', e, hv, ?_⟩
    intro hN hnan hlen
    obtain ⟨v', d'', e', _, hnth⟩ := nthElement_image key d (by
      intro a ha b hb
      show N.lt a b = true ↔ _
      have h1 : a ≠ .nan := fun h => hnan (h ▸ ha)
      have h2 : b ≠ .nan := fun h => hnan (h ▸ hb)
      rw [hN a b h1 h2]
      exact key_lt h1 h2) (n := w / 2) (by rw [hd]; exact Nat.div_lt_self (by omega) (by norm_num))
    rw [e] at e'
    obtain ⟨rfl, rfl⟩ : v = v' ∧ d' = d'' := by simpa using e'
    obtain ⟨c1, c2⟩ := isNth_count hnth
    rw [List.filter_map, List.length_map] at c1 c2
    rw [List.length_map] at c2
    have hv0 : v ≠ .nan := fun h => hnan (h ▸ hv)
    have g1 : (Buf.toList d).filter (fun u => u.lt v) = (Buf.toList d).filter ((fun u => decide (u < key v)) ∘ key) := by
      apply List.filter_congr
      intro u hu
      have hu0 : u ≠ .nan := fun h => hnan (h ▸ hu)
      have := key_lt hu0 hv0
      simp only [Function.comp]
      by_cases h : u.lt v = true
      · rw [h]; simp [this.mp h]
      · rw [Bool.not_eq_true] at h
        rw [h]
        have : ¬ key u < key v := fun h' => by rw [this.mpr h'] at h; exact absurd h (by simp)
        simp [this]
    have g2 : (Buf.toList d).filter (fun u => v.lt u) = (Buf.toList d).filter ((fun u => decide (key v < u)) ∘ key) := by
      apply List.filter_congr
      intro u hu
      have hu0 : u ≠ .nan := fun h => hnan (h ▸ hu)
      have := key_lt hv0 hu0
      simp only [Function.comp]
      by_cases h : v.lt u = true
      · rw [h]; simp [this.mp h]
      · rw [Bool.not_eq_true] at h
        rw [h]
        have : ¬ key v < key u := fun h' => by rw [this.mpr h'] at h; exact absurd h (by simp)
        simp [this]
    refine ⟨hv, ?_, ?_⟩
    · rw [g1, hlen]; omega
    · rw [g2, hlen]; omega
  · intro l l' v hp h
    refine ⟨hp.mem_iff.mp h.1, ?_⟩
    intro hN hnan hlen
    obtain ⟨_, m2, m3⟩ := h.2 hN (fun hc => hnan (hp.mem_iff.mp hc)) (hp.length_eq.trans hlen)
    refine ⟨hp.mem_iff.mp h.1, ?_, ?_⟩
    · rw [← (hp.filter _).length_eq, ← hp.length_eq]; exact m2
    · rw [← (hp.filter _).length_eq, ← hp.length_eq]; exact m3

theorem runningMedian_fval (N : NArith) (x : List FVal) (w : ℕ) (hodd : w % 2 ≠ 0) (hlt : w < x.length) :
    ∃ out, N.runningMedian x w = .ok out ∧ out.length = x.length ∧
      ∀ i (h : i < out.length), out[i] ∈ medWin x w i ∧
        (ComparesNumbers N → FVal.nan ∉ medWin x w i → IsMedianOf (medWin x w i) out[i]) := by
  let _ : LT FVal := ⟨fun a b => N.lt a b = true⟩
  let _ : DecidableLT FVal := fun a b => inferInstanceAs (Decidable (N.lt a b = true))
  obtain ⟨out, e, hl, h⟩ := runningMedian_gen x w hodd hlt (selects_fval N hodd)
  refine ⟨out, e, hl, ?_⟩
  intro i hi
  exact ⟨(h i hi).1, fun h1 h2 => (h i hi).2 h1 h2 (by simp [medWin])⟩

theorem runningMedian_err (N : NArith) (x : List FVal) (w : ℕ) (h : w % 2 = 0 ∨ x.length ≤ w) :
    N.runningMedian x w = .error .valueError := by
  unfold NArith.runningMedian Model.runningMedian
  simp only
  split_ifs with h1 h2
  · rfl
  · omega
  · rfl

/-! ## Preparing the data -/

/-- Whether and how the running median fails only depends on the number of samples. -/
theorem fast_len (N : NArith) (x : List FVal) (width minpts : ℕ) :
    (∃ out, N.fastRunningMedian x width minpts = .ok out ∧ out.length = x.length ∧
      (∀ y : List FVal, y.length = x.length → ∃ out', N.fastRunningMedian y width minpts = .ok out' ∧ out'.length = y.length)) ∨
    (∀ y : List FVal, y.length = x.length → N.fastRunningMedian y width minpts = .error .valueError) := by
  have key : ∀ w, ∀ z : List FVal, (w % 2 ≠ 0 ∧ w < z.length → ∃ out, N.runningMedian z w = .ok out ∧ out.length = z.length) := by
    intro w z ⟨h1, h2⟩
    obtain ⟨out, e, hl, _⟩ := runningMedian_fval N z w h1 h2
    exact ⟨out, e, hl⟩
  have err : ∀ w, ∀ z : List FVal, ¬ (w % 2 ≠ 0 ∧ w < z.length) → N.runningMedian z w = .error .valueError := by
    intro w z h
    exact runningMedian_err N z w (by omega)
  by_cases hm : minpts % 2 = 0
  · right
    intro y _
    rw [NArith.fastRunningMedian, if_pos hm]
  · by_cases hs : max 1 (width / minpts) = 1
    · by_cases hc : width % 2 ≠ 0 ∧ width < x.length
      · left
        have hy : ∀ y : List FVal, y.length = x.length →
            ∃ out', N.fastRunningMedian y width minpts = .ok out' ∧ out'.length = y.length := by
          intro y hy
          simp only [NArith.fastRunningMedian, if_neg hm, if_pos hs]
          exact key width y (by rw [hy]; exact hc)
        obtain ⟨out, e, hl⟩ := hy x rfl
        exact ⟨out, e, hl, hy⟩
      · right
        intro y hy
        simp only [NArith.fastRunningMedian, if_neg hm, if_pos hs]
        exact err width y (by rw [hy]; exact hc)
    · have hlen : ∀ y : List FVal, (N.scrunch y (max 1 (width / minpts))).length = y.length / max 1 (width / minpts) := by
        intro y; simp [NArith.scrunch]
      by_cases hc : minpts % 2 ≠ 0 ∧ minpts < x.length / max 1 (width / minpts)
      · left
        have hy : ∀ y : List FVal, y.length = x.length →
            ∃ out', N.fastRunningMedian y width minpts = .ok out' ∧ out'.length = y.length := by
          intro y hy
          simp only [NArith.fastRunningMedian, if_neg hm, if_neg hs]
          obtain ⟨out, e, _⟩ := key minpts (N.scrunch y (max 1 (width / minpts))) (by rw [hlen, hy]; exact hc)
          rw [e]
          exact ⟨_, rfl, by simp⟩
        obtain ⟨out, e, hl⟩ := hy x rfl
        exact ⟨out, e, hl, hy⟩
      · right
        intro y hy
        simp only [NArith.fastRunningMedian, if_neg hm, if_neg hs]
        rw [err minpts (N.scrunch y (max 1 (width / minpts))) (by rw [hlen, hy]; exact hc)]
        rfl

theorem prepare_len (N : NArith) (s : NSearchArgs) (x : List FVal) :
    (∀ y : List FVal, y.length = x.length → ∃ z, N.prepare s y = .ok z ∧ z.length = x.length) ∨
    (∀ y : List FVal, y.length = x.length → N.prepare s y = .error .valueError) := by
  have hn : ∀ z : List FVal, (if s.alreadyNormalised then z else N.normalise z).length = z.length := by
    intro z; split_ifs <;> simp [NArith.normalise]
  unfold NArith.prepare
  cases hd : s.deredden with
  | false =>
    left
    intro y hy
    exact ⟨_, rfl, (hn y).trans hy⟩
  | true =>
    simp only [if_true]
    rcases fast_len N x s.rmedSamples s.rmedMinpts with ⟨_, _, _, h⟩ | h
    · left
      intro y hy
      obtain ⟨r, e, hl⟩ := h y hy
      unfold NArith.deredden
      rw [e]
      refine ⟨_, rfl, ?_⟩
      rw [hn]
      simp [hl, hy]
    · right
      intro y hy
      unfold NArith.deredden
      rw [h y hy]
      rfl

/-- A sample that is not a finite number survives the subtraction of the running median. -/
theorem deredden_notfin (N : NArith) {x y : List FVal} {width minpts : ℕ} (h : N.deredden x width minpts = .ok y) {v : FVal}
    (hv : v ∈ x) (hf : ∀ q, v ≠ .fin q) : ∃ u ∈ y, ∀ q, u ≠ .fin q := by
  unfold NArith.deredden at h
  rcases fast_len N x width minpts with ⟨r, e, hl, _⟩ | h'
  · rw [e] at h
    simp only [Except.bind, Except.ok.injEq] at h
    obtain ⟨i, hi, rfl⟩ := List.getElem_of_mem hv
    rw [← h]
    refine ⟨FVal.cast N.single (FVal.sub N.work x[i] (r[i]'(by omega))), ?_, ?_⟩
    · rw [List.mem_iff_getElem]
      exact ⟨i, by simp; omega, by simp⟩
    · rw [FV.cast_notfin _ (FV.sub_notfin _ hf)]
      exact FV.sub_notfin _ hf
  · rw [h' x rfl] at h
    exact nomatch h

theorem prepare_nan {N : NArith} (hN : AddsAll N) {s : NSearchArgs} (hs : s.alreadyNormalised = false) {x y : List FVal}
    (h : N.prepare s x = .ok y) {v : FVal} (hv : v ∈ x) (hf : ∀ q, v ≠ .fin q) : y = List.replicate x.length .nan := by
  have hlen : y.length = x.length := by
    rcases prepare_len N s x with h' | h'
    · obtain ⟨z, e, hl⟩ := h' x rfl
      rw [h] at e
      rw [Except.ok.inj e, hl]
    · rw [h' x rfl] at h
      exact nomatch h
  rw [← hlen]
  unfold NArith.prepare at h
  cases hd : s.deredden with
  | false =>
    rw [hd, hs] at h
    simp only [Bool.false_eq_true, if_false, Except.bind, Except.ok.injEq] at h
    rw [← h, normalise_nan hN hv hf]
    simp
  | true =>
    rw [hd, hs] at h
    simp only [Bool.false_eq_true, if_true, if_false] at h
    rcases e : N.deredden x s.rmedSamples s.rmedMinpts with er | z
    · rw [e] at h; exact nomatch h
    · rw [e] at h
      simp only [Except.bind, Except.ok.injEq] at h
      obtain ⟨u, hu, huf⟩ := deredden_notfin N e hv hf
      rw [← h, normalise_nan hN hu huf]
      simp

end Verif.Lemmas
