import Verif.Props.Trend
import Mathlib.Algebra.Order.BigOperators.Group.Finset
import Mathlib.Order.Interval.Finset.Nat
import Mathlib.Order.Interval.Finset.Basic
import Mathlib.Tactic.IntervalCases

/-! # Robustness of the running median and of dereddening: property C96 -/

set_option linter.unusedSectionVars false

namespace Verif.Spec

variable {α : Type*} [LinearOrder α]

/-- `x` begins and ends inside `[lo, hi]`, and among any `w` consecutive elements at most `w / 2` (fewer than half, `w` odd) are
outside. -/
def MostlyWithin (x : List α) (w : ℕ) (lo hi : α) : Prop :=
  (∀ v ∈ x.head?, lo ≤ v ∧ v ≤ hi) ∧ (∀ v ∈ x.getLast?, lo ≤ v ∧ v ≤ hi) ∧
    ∀ a, a + w ≤ x.length → ((x.drop a).take w).countP (fun v => decide (¬ (lo ≤ v ∧ v ≤ hi))) ≤ w / 2

/-- The means of consecutive blocks of `f` samples. -/
def blockMeans {K : Type*} [Field K] (x : List K) (f : ℕ) : List K :=
  (List.range (x.length / f)).map fun j => ((x.drop (j * f)).take f).sum / f

/-- The samples in `on` come in pulses: pulse `k` begins with sample `S k` and has at most `D` samples, and the next one begins at least `Q`
samples later. -/
def InPulses (on : ℕ → Prop) (Q D : ℕ) : Prop :=
  ∃ S : ℤ → ℤ, (∀ k, S k + Q ≤ S (k + 1)) ∧ ∀ n : ℕ, on n → ∃ k, S k ≤ n ∧ (n : ℤ) < S k + D

end Verif.Spec

namespace Verif.Props

open Verif.Model Verif.Spec Verif.Lemmas

section

variable {α : Type*} [LinearOrder α]

theorem countP_range_map {β : Type*} (f : ℕ → β) (p : β → Bool) (w : ℕ) :
    ((List.range w).map f).countP p = ((Finset.range w).filter (fun k => p (f k) = true)).card := by
  induction w with
  | zero => simp
  | succ w ih =>
    rw [List.range_succ, List.map_append, List.countP_append, ih, Finset.range_add_one, Finset.filter_insert]
    by_cases h : p (f w) = true
    · rw [if_pos h, Finset.card_insert_of_notMem (by simp)]
      simp [h]
    · rw [if_neg h]
      simp [h]

/-- An order statistic is inside an interval if at most `n` elements are outside, and at most as many as follow the `n`-th. -/
theorem nth_within {l : List α} {n : ℕ} {v lo hi : α} (h : IsNth l n v)
    (h1 : l.countP (fun v => decide (¬ (lo ≤ v ∧ v ≤ hi))) ≤ n)
    (h2 : l.countP (fun v => decide (¬ (lo ≤ v ∧ v ≤ hi))) + n < l.length) : lo ≤ v ∧ v ≤ hi := by
  obtain ⟨l', hp, hs, hn⟩ := h
  rw [← hp.countP_eq, ] at h1 h2
  rw [← hp.length_eq] at h2
  obtain ⟨hlt, hv⟩ := List.getElem?_eq_some_iff.mp hn
  rw [List.pairwise_iff_getElem] at hs
  by_contra hc
  rw [not_and_or, not_le, not_le] at hc
  rcases hc with hc | hc
  · -- the first `n + 1` elements are below `lo`
    have hall : ∀ a ∈ l'.take (n + 1), decide (¬ (lo ≤ a ∧ a ≤ hi)) = true := by
      intro a ha
      obtain ⟨k, hk, rfl⟩ := List.getElem_of_mem ha
      rw [List.length_take] at hk
      rw [List.getElem_take]
      have : l'[k] ≤ v := by
        rw [← hv]
        rcases Nat.eq_or_lt_of_le (show k ≤ n by omega) with e | e
        · simp only [e]; exact le_rfl
        · exact hs _ _ _ _ e
      simp only [decide_eq_true_eq]
      exact fun hh => absurd hh.1 (not_le.mpr (this.trans_lt hc))
    have := List.countP_eq_length.mpr hall
    have h3 : (l'.take (n + 1)).countP (fun v => decide (¬ (lo ≤ v ∧ v ≤ hi))) ≤ l'.countP (fun v => decide (¬ (lo ≤ v ∧ v ≤ hi))) :=
      (List.take_sublist _ _).countP_le
    rw [this, List.length_take] at h3
    omega
  · have hall : ∀ a ∈ l'.drop n, decide (¬ (lo ≤ a ∧ a ≤ hi)) = true := by
      intro a ha
      obtain ⟨k, hk, rfl⟩ := List.getElem_of_mem ha
      rw [List.length_drop] at hk
      rw [List.getElem_drop]
      have : v ≤ l'[n + k] := by
        rw [← hv]
        rcases Nat.eq_or_lt_of_le (show n ≤ n + k by omega) with e | e
        · simp only [← e]; exact le_rfl
        · exact hs _ _ _ _ e
      simp only [decide_eq_true_eq]
      exact fun hh => absurd hh.2 (not_le.mpr (hc.trans_le this))
    have := List.countP_eq_length.mpr hall
    have h3 : (l'.drop n).countP (fun v => decide (¬ (lo ≤ v ∧ v ≤ hi))) ≤ l'.countP (fun v => decide (¬ (lo ≤ v ∧ v ≤ hi))) :=
      (List.drop_sublist _ _).countP_le
    rw [this, List.length_drop] at h3
    omega

theorem drop_take_map [Inhabited α] (x : List α) {a w : ℕ} (h : a + w ≤ x.length) :
    (x.drop a).take w = (List.range w).map (fun k => x.getD (a + k) default) := by
  apply List.ext_getElem
  · simp; omega
  · intro k h1 h2
    simp only [List.length_map, List.length_range] at h2
    simp only [List.getElem_take, List.getElem_drop, List.getElem_map, List.getElem_range, List.getD]
    rw [List.getElem?_eq_getElem (by omega)]
    rfl

/-- The windows of the running median have at most `w / 2` elements outside, also those that are padded. -/
theorem medWin_count [Inhabited α] {x : List α} {w : ℕ} {lo hi : α} (hw : w % 2 = 1) (hx : w < x.length)
    (h : MostlyWithin x w lo hi) (i : ℕ) (hi' : i < x.length) :
    (medWin x w i).countP (fun v => decide (¬ (lo ≤ v ∧ v ≤ hi))) ≤ w / 2 := by
  obtain ⟨h0, h1, h2⟩ := h
  obtain ⟨a, ha⟩ : ∃ a, a = min (i - w / 2) (x.length - w) := ⟨_, rfl⟩
  refine le_trans ?_ (h2 a (by omega))
  rw [drop_take_map x (by omega)]
  unfold medWin
  rw [countP_range_map, countP_range_map]
  have e0 : lo ≤ x.getD 0 default ∧ x.getD 0 default ≤ hi := by
    apply h0
    rw [List.head?_eq_getElem?, List.getD, List.getElem?_eq_getElem (by omega)]
    rfl
  have e1 : lo ≤ x.getD (x.length - 1) default ∧ x.getD (x.length - 1) default ≤ hi := by
    apply h1
    rw [List.getLast?_eq_getElem?, List.getD, List.getElem?_eq_getElem (by omega)]
    rfl
  apply Finset.card_le_card_of_injOn (fun k => min (i + k - w / 2) (x.length - 1) - a)
  · intro k hk
    simp only [Finset.coe_filter, Finset.mem_range, Set.mem_ofPred_eq, decide_eq_true_eq] at hk ⊢
    have n0 : min (i + k - w / 2) (x.length - 1) ≠ 0 := by
      intro e
      rw [e] at hk
      exact hk.2 e0
    have n1 : min (i + k - w / 2) (x.length - 1) ≠ x.length - 1 := by
      intro e
      rw [e] at hk
      exact hk.2 e1
    have e : a + (min (i + k - w / 2) (x.length - 1) - a) = min (i + k - w / 2) (x.length - 1) := by omega
    refine ⟨by omega, ?_⟩
    rw [e]
    exact hk.2
  · intro k hk l hl hkl
    simp only [Finset.coe_filter, Finset.mem_range, Set.mem_ofPred_eq, decide_eq_true_eq] at hk hl hkl
    have n0 : min (i + k - w / 2) (x.length - 1) ≠ 0 := by
      intro e
      rw [e] at hk
      exact hk.2 e0
    have n1 : min (i + k - w / 2) (x.length - 1) ≠ x.length - 1 := by
      intro e
      rw [e] at hk
      exact hk.2 e1
    have m0 : min (i + l - w / 2) (x.length - 1) ≠ 0 := by
      intro e
      rw [e] at hl
      exact hl.2 e0
    have m1 : min (i + l - w / 2) (x.length - 1) ≠ x.length - 1 := by
      intro e
      rw [e] at hl
      exact hl.2 e1
    omega

/-- C96. The running median does not see outliers: if the series begins and ends inside an interval and among any `w` consecutive elements fewer
than half are outside, every value of the running median is inside, however large the outliers are. -/
theorem C96_running_median [Inhabited α] {x : List α} {w : ℕ} {out : List α} (h : runningMedian x w = .ok out) {lo hi : α}
    (hx : MostlyWithin x w lo hi) : out.length = x.length ∧ ∀ v ∈ out, lo ≤ v ∧ v ≤ hi := by
  obtain ⟨hl, hodd, hlt, _⟩ := runningMedian_mem h
  refine ⟨hl, ?_⟩
  obtain ⟨out', e, _, hm⟩ := runningMedian_ok x w (by omega) hlt
  rw [e] at h
  cases h
  intro v hv
  obtain ⟨i, hi', rfl⟩ := List.getElem_of_mem hv
  have hc := medWin_count hodd hlt hx i (by omega)
  have hlen : (medWin x w i).length = w := by simp [medWin]
  exact nth_within (hm i hi') hc (by omega)

/-- Outliers of any size in 3 of 10 elements. -/
example (B : ℕ) : ∃ out, runningMedian [1, 2, B, 2, 1, 1, B, B, 1, 1] 5 = .ok out ∧ out.length = 10 ∧ ∀ v ∈ out, 1 ≤ v ∧ v ≤ 2 := by
  obtain ⟨out, e, _⟩ := (C25_running_median [1, 2, B, 2, 1, 1, B, B, 1, 1] 5).2 (by decide) (by simp)
  refine ⟨out, e, ?_⟩
  have h := C96_running_median e (lo := 1) (hi := 2) ⟨by simp, by simp, ?_⟩
  · exact h
  intro a ha
  have : a ≤ 5 := by simp only [List.length_cons, List.length_nil] at ha; omega
  clear ha
  by_cases hB : B = 0 ∨ 2 < B <;> interval_cases a <;> simp [hB]

/-- The limit `w / 2` cannot be raised: outliers in two of three elements are kept. -/
theorem C96_sharp (B : ℕ) (hB : 1 ≤ B) : runningMedian [1, 1, B, B, 1, 1, 1] 3 = .ok [1, 1, B, B, 1, 1, 1] := by
  have h : runningMedian ([0, 0, 1, 1, 0, 0, 0] : List ℕ) 3 = .ok [0, 0, 1, 1, 0, 0, 0] := by decide +kernel
  have e := C25_monotone_equivariant (fun v : ℕ => if v = 0 then 1 else B) (by
    intro a b hab
    simp only
    split_ifs <;> omega) [0, 0, 1, 1, 0, 0, 0] 3
  rw [h] at e
  exact e

end

section

variable {K : Type*} [Field K] [LinearOrder K] [IsStrictOrderedRing K] [FloorSemiring K] [Inhabited K]

theorem blockMeans_one (x : List K) : blockMeans x 1 = x := by
  apply List.ext_getElem
  · simp [blockMeans]
  · intro i h1 h2
    simp only [blockMeans, List.getElem_map, List.getElem_range, Nat.mul_one, Nat.cast_one, div_one]
    rw [List.drop_eq_getElem_cons h2, List.take_succ_cons, List.take_zero]
    simp

/-- C96. `fast_running_median(x, w, m)` averages blocks of `max 1 (w / m)` samples, and takes medians of `m` of them, or of `w` samples if there
is no averaging. If fewer than half of any so many consecutive block means are outside an interval, and neither the first nor the last, the
result is inside the interval everywhere. -/
theorem C96_fast {x : List K} {w m : ℕ} {out : List K} (h : fastRunningMedian x w m = .ok out) {lo hi : K}
    (hx : MostlyWithin (blockMeans x (max 1 (w / m))) (if w < 2 * m then w else m) lo hi) :
    out.length = x.length ∧ ∀ v ∈ out, lo ≤ v ∧ v ≤ hi := by
  obtain ⟨hm, ⟨h2, h1⟩ | ⟨h2, rmed, h1, rfl⟩⟩ := fast_ok_inv h
  · have hf : w / m < 2 := (Nat.div_lt_iff_lt_mul (by omega)).mpr h2
    rw [show max 1 (w / m) = 1 by omega, if_pos h2, blockMeans_one] at hx
    exact C96_running_median h1 hx
  · refine ⟨by simp, ?_⟩
    have hf : 2 ≤ w / m := (Nat.le_div_iff_mul_le (by omega : 0 < m)).mpr h2
    rw [show max 1 (w / m) = w / m by omega, if_neg (by omega)] at hx
    generalize w / m = f at *
    obtain ⟨hl, _, hlt, _⟩ := runningMedian_mem h1
    have hin := (C96_running_median h1 hx).2
    have hb : ∀ j < rmed.length, lo ≤ rmed.getD j default ∧ rmed.getD j default ≤ hi := by
      intro j hj
      apply hin
      simp only [List.getD, List.getElem?_eq_getElem hj, Option.getD_some]
      exact List.getElem_mem hj
    intro v hv
    rw [List.mem_map] at hv
    obtain ⟨i, _, rfl⟩ := hv
    rcases interp_cases (scrunch x f).length (by omega)
        (fun j : ℕ => (j : K) * (f : K) + 1 / 2 * ((f : K) - 1)) (fun j => rmed.getD j default)
        (xlores_mono (by omega)) (i : K) with ⟨j, hj, e⟩ | ⟨j, θ, hj, t0, t1, _, _, _, e⟩
    · rw [e]; exact hb j (by omega)
    · rw [e]
      have a := hb j (by omega)
      have b := hb (j + 1) (by omega)
      constructor <;> nlinarith

/-- A set of integers that are at most `c` apart. -/
theorem card_spread {T : Finset ℤ} {c : ℕ} (h : ∀ a ∈ T, ∀ b ∈ T, b - a ≤ c) : T.card ≤ c + 1 := by
  rcases T.eq_empty_or_nonempty with rfl | hne
  · simp
  have hsub : T ⊆ Finset.Icc (T.min' hne) (T.min' hne + c) := by
    intro b hb
    rw [Finset.mem_Icc]
    exact ⟨T.min'_le b hb, by have := h _ (T.min'_mem hne) b hb; omega⟩
  refine (Finset.card_le_card hsub).trans ?_
  rw [Int.card_Icc]
  omega

theorem starts_mono {S : ℤ → ℤ} {Q : ℕ} (h : ∀ k, S k + Q ≤ S (k + 1)) (k : ℤ) (n : ℕ) : S k + n * Q ≤ S (k + n) := by
  induction n with
  | zero => simp
  | succ n ih =>
    have := h (k + n)
    push_cast
    rw [← add_assoc]
    linarith

/-- Number of blocks of `f` samples, among `p` consecutive ones, that contain a part of a pulse. -/
theorem pulse_blocks {on : ℕ → Prop} {Q D f p a : ℕ} (hQ : 0 < Q) (hD : 0 < D) (hf : 0 < f) (hon : InPulses on Q D) {B : Finset ℕ}
    (hB : ∀ k ∈ B, k < p ∧ ∃ n, (a + k) * f ≤ n ∧ n < (a + k + 1) * f ∧ on n) :
    B.card ≤ ((D + f - 2) / f + 1) * ((p * f + D - 2) / Q + 1) := by
  obtain ⟨S, hS, hin⟩ := hon
  have hex : ∀ k ∈ B, ∃ l : ℤ, k < p ∧ ∃ n : ℕ, (a + k) * f ≤ n ∧ n < (a + k + 1) * f ∧ S l ≤ n ∧ (n : ℤ) < S l + D := by
    intro k hk
    obtain ⟨h1, n, h2, h3, h4⟩ := hB k hk
    obtain ⟨l, h5, h6⟩ := hin n h4
    exact ⟨l, h1, n, h2, h3, h5, h6⟩
  choose! l hl using hex
  refine (Finset.card_le_mul_card_image (f := l) B ((D + f - 2) / f + 1) ?_).trans (Nat.mul_le_mul_left _ ?_)
  · intro b _
    have hc : ((B.filter (fun k => l k = b)).image (fun k : ℕ => (k : ℤ))).card ≤ (D + f - 2) / f + 1 := by
      apply card_spread
      intro u hu v hv
      obtain ⟨k, hk, rfl⟩ := Finset.mem_image.mp hu
      obtain ⟨k', hk', rfl⟩ := Finset.mem_image.mp hv
      obtain ⟨hkB, e1⟩ := Finset.mem_filter.mp hk
      obtain ⟨hkB', e2⟩ := Finset.mem_filter.mp hk'
      obtain ⟨_, n, h2, h3, h4, h5⟩ := hl k hkB
      obtain ⟨_, n', h2', h3', h4', h5'⟩ := hl k' hkB'
      rw [e1] at h4 h5
      rw [e2] at h4' h5'
      by_cases hkk : k' ≤ k
      · exact le_trans (by omega : (k' : ℤ) - k ≤ 0) (Int.natCast_nonneg _)
      obtain ⟨d, rfl⟩ : ∃ d, k' = k + d := ⟨k' - k, by omega⟩
      have : d ≤ (D + f - 2) / f := by
        rw [Nat.le_div_iff_mul_le hf]
        have e3 : (a + (k + d)) * f = (a + k + 1) * f + d * f - f := by
          have : (a + (k + d)) * f + f = (a + k + 1) * f + d * f := by ring
          omega
        have e4 : f ≤ (a + k + 1) * f := Nat.le_mul_of_pos_left _ (by omega)
        omega
      omega
    rwa [Finset.card_image_of_injective _ (fun a b h => by exact_mod_cast h)] at hc
  · apply card_spread
    intro u hu v hv
    obtain ⟨k, hk, rfl⟩ := Finset.mem_image.mp hu
    obtain ⟨k', hk', rfl⟩ := Finset.mem_image.mp hv
    obtain ⟨g1, n, h2, h3, h4, h5⟩ := hl k hk
    obtain ⟨g1', n', h2', h3', h4', h5'⟩ := hl k' hk'
    by_cases hkk : l k' ≤ l k
    · exact le_trans (by omega : l k' - l k ≤ 0) (Int.natCast_nonneg _)
    obtain ⟨d, hd⟩ : ∃ d : ℕ, l k' = l k + d := ⟨(l k' - l k).toNat, by omega⟩
    have hm := starts_mono hS (l k) d
    rw [← hd] at hm
    have : d ≤ (p * f + D - 2) / Q := by
      rw [Nat.le_div_iff_mul_le hQ]
      have e1 : a * f ≤ (a + k) * f := Nat.mul_le_mul_right _ (by omega)
      have e2 : (a + k' + 1) * f ≤ (a + p) * f := Nat.mul_le_mul_right _ (by omega)
      rw [Nat.add_mul a p f] at e2
      have e3 : ((d * Q : ℕ) : ℤ) = (d : ℤ) * Q := by push_cast; ring
      omega
    omega

/-- Pulses are outliers in fewer than half of the blocks of each window. -/
theorem pulses_mostly {x : List K} {on : ℕ → Prop} {Q D f p : ℕ} {lo hi : K} (hQ : 0 < Q) (hD : 0 < D) (hf : 0 < f)
    (hon : InPulses on Q D) (hoff : ∀ n (h : n < x.length), ¬ on n → lo ≤ x[n] ∧ x[n] ≤ hi)
    (hends : ∀ n, on n → n / f ≠ 0 ∧ n / f + 1 ≠ x.length / f)
    (hfew : ((D + f - 2) / f + 1) * ((p * f + D - 2) / Q + 1) ≤ p / 2) : MostlyWithin (blockMeans x f) p lo hi := by
  classical
  have hlen : (blockMeans x f).length = x.length / f := by simp [blockMeans]
  have key : ∀ j (hj : j < (blockMeans x f).length), (∀ n, j * f ≤ n → n < (j + 1) * f → ¬ on n) →
      lo ≤ (blockMeans x f)[j] ∧ (blockMeans x f)[j] ≤ hi := by
    intro j hj hno
    simp only [blockMeans, List.getElem_map, List.getElem_range]
    apply mean_bounds hf (chunk_length hf (by omega))
    intro v hv
    obtain ⟨i, hi', rfl⟩ := List.getElem_of_mem hv
    rw [List.length_take, List.length_drop] at hi'
    simp only [List.getElem_take, List.getElem_drop]
    exact hoff _ _ (hno _ (by omega) (by rw [Nat.succ_mul]; omega))
  have hblock : ∀ j n, j * f ≤ n → n < (j + 1) * f → n / f = j := by
    intro j n h1 h2
    exact Nat.div_eq_of_lt_le h1 (by simpa using h2)
  refine ⟨?_, ?_, ?_⟩
  · intro v hv
    rw [List.head?_eq_getElem?, Option.mem_def, List.getElem?_eq_some_iff] at hv
    obtain ⟨h0, rfl⟩ := hv
    exact key 0 h0 fun n h1 h2 h3 => (hends n h3).1 (hblock 0 n h1 h2)
  · intro v hv
    rw [List.getLast?_eq_getElem?, Option.mem_def, List.getElem?_eq_some_iff] at hv
    obtain ⟨h0, rfl⟩ := hv
    refine key _ h0 fun n h1 h2 h3 => (hends n h3).2 ?_
    rw [hblock _ n h1 h2]
    omega
  · intro a ha
    rw [drop_take_map _ ha, countP_range_map]
    refine le_trans (pulse_blocks (a := a) (p := p) hQ hD hf hon ?_) hfew
    intro k hk
    simp only [Finset.mem_filter, Finset.mem_range, decide_eq_true_eq] at hk
    refine ⟨hk.1, ?_⟩
    by_contra hc
    push Not at hc
    apply hk.2
    have hlt : a + k < (blockMeans x f).length := by omega
    rw [List.getD, List.getElem?_eq_getElem hlt]
    exact key (a + k) hlt hc

end

/-- C96. Dereddening does not see pulses. If the samples in pulses are so few, compared to the window, that pulses touch fewer than half of the blocks
in any window (`n` samples, in blocks of `n / minpts`), and neither the first nor the last block, then what `deredden` subtracts lies everywhere
between the bounds of the samples outside pulses, however strong the pulses are. -/
theorem C96_deredden (w w' : World) (id : ℕ) (o : TsObj) (ho : w.objs[id]? = some o) (width : ℝ) (minpts : ℕ) (inplace : Bool)
    (r : Option ℕ) (h : tsDeredden w id width minpts inplace = .ok (w', r)) (n : ℕ) (hn : |width / o.tsamp - n| < 1 / 2)
    (on : ℕ → Prop) (Q D : ℕ) (hQ : 0 < Q) (hD : 0 < D) (hon : InPulses on Q D) (lo hi : ℝ)
    (hoff : ∀ i (h : i < (w.dataOf o).length), ¬ on i → lo ≤ (w.dataOf o)[i] ∧ (w.dataOf o)[i] ≤ hi)
    (hends : ∀ i, on i → i / max 1 (n / minpts) ≠ 0 ∧ i / max 1 (n / minpts) + 1 ≠ (w.dataOf o).length / max 1 (n / minpts))
    (hfew : ((D + max 1 (n / minpts) - 2) / max 1 (n / minpts) + 1) *
      (((if n < 2 * minpts then n else minpts) * max 1 (n / minpts) + D - 2) / Q + 1) ≤ (if n < 2 * minpts then n else minpts) / 2) :
    ∃ (o' : TsObj), w'.objs[resultOf id r]? = some o' ∧ o'.tsamp = o.tsamp ∧ (w'.dataOf o').length = (w.dataOf o).length ∧
      (∀ i (h1 : i < (w.dataOf o).length) (h2 : i < (w'.dataOf o').length), ∃ m, lo ≤ m ∧ m ≤ hi ∧
        (w'.dataOf o')[i] = (w.dataOf o)[i] - m) ∧
      (lo = hi → w'.dataOf o' = (w.dataOf o).map (fun v => v - lo)) := by
  obtain ⟨o', n', rmed, h1, h2, h3, _, h5, h6, h7⟩ := C66_deredden w w' id o ho width minpts inplace r h
  have hnn : n' = n := by
    have h8 : |(n' : ℝ) - n| < 1 := by
      rw [abs_lt] at hn ⊢
      rw [abs_le] at h3
      constructor <;> linarith
    have h9 : |(n' : ℤ) - n| < 1 := by exact_mod_cast h8
    rw [Int.abs_lt_one_iff] at h9
    omega
  subst hnn
  have hin := (C96_fast h5 (pulses_mostly hQ hD (by omega) hon hoff hends hfew)).2
  refine ⟨o', h1, h2, by rw [h7]; simp [h6], ?_, ?_⟩
  · intro i a1 a2
    obtain ⟨b1, b2⟩ := hin _ (List.getElem_mem (show i < rmed.length by omega))
    exact ⟨_, b1, b2, by simp [h7]⟩
  · intro he
    rw [h7]
    apply List.ext_getElem
    · simp [h6]
    · intro i a1 a2
      simp only [List.length_map] at a2
      obtain ⟨b1, b2⟩ := hin _ (List.getElem_mem (show i < rmed.length by omega))
      rw [List.getElem_zipWith, List.getElem_map, le_antisymm (b2.trans_eq he.symm) b1]

/-- Samples 10 and 22 of 40 have a pulse of any height on a constant. Dereddening with a window of 12 seconds in blocks of 4 samples leaves zeros and
the pulses as they were. -/
example (B : ℝ) : ∃ (w w' : World) (o o' : TsObj), w.objs[0]? = some o ∧
    w.dataOf o = (List.range 40).map (fun i => if i = 10 ∨ i = 22 then 5 + B else 5) ∧
    tsDeredden w 0 12 3 true = .ok (w', none) ∧ w'.objs[0]? = some o' ∧
    w'.dataOf o' = (List.range 40).map (fun i => if i = 10 ∨ i = 22 then B else 0) := by
  obtain ⟨x, hx⟩ : ∃ x : List ℝ, x = (List.range 40).map (fun i => if i = 10 ∨ i = 22 then 5 + B else 5) := ⟨_, rfl⟩
  have hlen : x.length = 40 := by rw [hx]; simp
  obtain ⟨out, hout⟩ : ∃ out, fastRunningMedian x 12 3 = .ok out :=
    C27_partial _ _ _ (by decide) (Or.inl (by decide)) (by rw [hlen]; decide)
  obtain ⟨w, hw⟩ : ∃ w : World, w = ⟨[x], [[]], [⟨0, 1, 0⟩]⟩ := ⟨_, rfl⟩
  have hd : w.dataOf ⟨0, 1, 0⟩ = x := by rw [hw]; rfl
  have ho : w.objs[0]? = some ⟨0, 1, 0⟩ := by rw [hw]; rfl
  have hp : pyRound ((12 : ℝ) / 1) = 12 := by
    have hfl : ⌊((12 : ℝ) / 1)⌋ = 12 := by rw [Int.floor_eq_iff]; norm_num
    unfold pyRound
    rw [hfl]
    norm_num
  have hr : runningMedianOf x 1 12 3 = .ok out := by
    unfold runningMedianOf
    rw [if_neg one_ne_zero]
    simp only [hp]
    rw [if_pos (by norm_num), show (12 : ℤ).toNat = 12 from rfl, hout]
    rfl
  obtain ⟨w', hw'⟩ : ∃ w', tsDeredden w 0 12 3 true = .ok (w', none) := by
    simp [tsDeredden, obj_ok_iff.mpr ho, Except.bind, hd, hr]
  obtain ⟨o', h1, _, _, _, h5⟩ := C96_deredden w w' 0 ⟨0, 1, 0⟩ ho 12 3 true none hw' 12 (by norm_num) (fun n => n = 10 ∨ n = 22) 12 1
    (by decide) (by decide) ⟨fun k => 10 + 12 * k, fun k => by push_cast; linarith, by
      rintro n (rfl | rfl)
      · exact ⟨0, by decide, by decide⟩
      · exact ⟨1, by decide, by decide⟩⟩ 5 5
    (by
      intro i hi hon
      rw [hd, hlen] at hi
      simp only [hd, hx, List.getElem_map, List.getElem_range, if_neg hon]
      exact ⟨le_rfl, le_rfl⟩)
    (by
      rw [hd, hlen]
      rintro n (rfl | rfl) <;> decide)
    (by decide)
  refine ⟨w, w', _, o', ho, hd.trans hx, hw', h1, ?_⟩
  rw [h5 rfl, hd, hx, List.map_map]
  apply List.map_congr_left
  intro i _
  simp only [Function.comp_apply]
  split_ifs <;> ring

end Verif.Props
