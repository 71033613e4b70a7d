import Verif.Model.TrialsF
import Verif.Spec.Double
import Verif.Props.Trials
import Verif.Lemmas.Double

/-!
# C127: the width trials in double precision
-/

namespace Verif.Props

open Verif.Model Verif.Spec Verif.Lemmas

/-- The documented recurrence with rounded products. -/
def widthSeqF (A : DArith) (wtsp : ℚ) : ℕ → ℕ
  | 0 => 1
  | n + 1 => max ⌊A.fl (wtsp * widthSeqF A wtsp n)⌋₊ (widthSeqF A wtsp n + 1)

theorem floor_max_succ (w : ℕ) (x : ℚ) : ⌊max ((w : ℚ) + 1) x⌋₊ = max ⌊x⌋₊ (w + 1) := by
  have e : ((w : ℚ) + 1) = ((w + 1 : ℕ) : ℚ) := by push_cast; rfl
  rcases le_total ((w : ℚ) + 1) x with h | h
  · rw [max_eq_right h, max_eq_left]
    rw [Nat.le_floor_iff (le_trans (by positivity) h)]
    push_cast; exact h
  · rw [max_eq_left h, max_eq_right]
    · rw [e, Nat.floor_natCast]
    · have := Nat.floor_le_floor h
      rwa [e, Nat.floor_natCast] at this

theorem widthSeqF_lt (A : DArith) (wtsp : ℚ) (n : ℕ) : widthSeqF A wtsp n < widthSeqF A wtsp (n + 1) := by
  rw [widthSeqF]
  exact lt_of_lt_of_le (Nat.lt_succ_self _) (le_max_right _ _)

theorem widthSeqF_mono (A : DArith) (wtsp : ℚ) {i j : ℕ} (h : i < j) : widthSeqF A wtsp i < widthSeqF A wtsp j :=
  strictMono_nat_of_lt_succ (widthSeqF_lt A wtsp) h

theorem widthLoopF_eq (A : DArith) (wtsp : ℚ) (wmax : ℕ) : ∀ (d n : ℕ), wmax + 1 - widthSeqF A wtsp n ≤ d →
    ∃ k, A.widthLoop wtsp wmax (widthSeqF A wtsp n) = (List.range k).map (fun i => widthSeqF A wtsp (n + i)) ∧
      wmax < widthSeqF A wtsp (n + k) ∧ ∀ i < k, widthSeqF A wtsp (n + i) ≤ wmax := by
  intro d
  induction d with
  | zero =>
    intro n h
    refine ⟨0, ?_, by rw [Nat.add_zero]; omega, by omega⟩
    rw [DArith.widthLoop, if_neg (by omega)]
    rfl
  | succ d ih =>
    intro n h
    by_cases hc : widthSeqF A wtsp n ≤ wmax
    · have hlt := widthSeqF_lt A wtsp n
      obtain ⟨k, e, h1, h2⟩ := ih (n + 1) (by omega)
      refine ⟨k + 1, ?_, by rw [show n + (k + 1) = n + 1 + k by omega]; exact h1, ?_⟩
      · rw [DArith.widthLoop, if_pos hc, floor_max_succ, ← widthSeqF.eq_2 A wtsp n, e, List.range_succ_eq_map]
        simp only [List.map_cons, Nat.add_zero, List.map_map]
        congr 1
        apply List.map_congr_left
        intro i _
        simp only [Function.comp_apply, Nat.succ_eq_add_one]
        rw [show n + (i + 1) = n + 1 + i by omega]
      · intro i hi
        rcases Nat.eq_zero_or_pos i with h0 | h0
        · subst h0; exact hc
        · have := h2 (i - 1) (by omega)
          rwa [show n + 1 + (i - 1) = n + i by omega] at this
    · refine ⟨0, ?_, by rw [Nat.add_zero]; omega, by omega⟩
      rw [DArith.widthLoop, if_neg hc]
      rfl

theorem floor_max_one (x : ℚ) : ⌊max 1 x⌋₊ = max 1 ⌊x⌋₊ := by
  have := floor_max_succ 0 x
  rw [Nat.cast_zero, zero_add, zero_add] at this
  rw [this, max_comm]

/-- The integer part of a rounded number: that of the number, or the next integer if it is rounded to it. -/
theorem floor_rounded {A : DArith} (hA : Sane A) {x : ℚ} (h0 : 0 ≤ x) (h1 : x < 2 ^ 53) :
    ⌊x⌋₊ ≤ ⌊A.fl x⌋₊ ∧ ⌊A.fl x⌋₊ ≤ ⌊x⌋₊ + 1 ∧ ((1 + u53) * x < ⌊x⌋₊ + 1 → ⌊A.fl x⌋₊ = ⌊x⌋₊) := by
  have hn : ⌊x⌋₊ < 2 ^ 53 := by
    rw [Nat.floor_lt h0]
    exact_mod_cast h1
  have l1 : (⌊x⌋₊ : ℚ) ≤ A.fl x := by
    rw [← hA.nat ⌊x⌋₊ hn.le]
    exact hA.mono _ _ (Nat.cast_nonneg _) (Nat.floor_le h0)
  have l2 : A.fl x ≤ ((⌊x⌋₊ + 1 : ℕ) : ℚ) := by
    rw [← hA.nat (⌊x⌋₊ + 1) hn]
    refine hA.mono _ _ h0 ?_
    push_cast
    exact (Nat.lt_floor_add_one x).le
  have f1 : ⌊x⌋₊ ≤ ⌊A.fl x⌋₊ := Nat.le_floor l1
  have f2 : ⌊A.fl x⌋₊ ≤ ⌊x⌋₊ + 1 := by
    have := Nat.floor_le_floor l2
    rwa [Nat.floor_natCast] at this
  refine ⟨f1, f2, fun hc => ?_⟩
  refine le_antisymm ?_ f1
  rw [← Nat.lt_succ_iff, Nat.floor_lt ((Nat.cast_nonneg _).trans l1)]
  have := (abs_le.1 (hA.rel x h0)).2
  push_cast
  linarith

/-- C127. The width trials in double precision follow the documented recurrence with rounded products, up to the rounded product of duty cycle and bins. They start with 1, increase, and are
all of them. -/
theorem C127_recurrence (A : DArith) (nbins : ℕ) (ducyMax wtsp : ℚ) :
    (∃ k, A.widthTrials nbins ducyMax wtsp = (List.range k).map (widthSeqF A wtsp) ∧ 1 ≤ k ∧
      (∀ i < k, widthSeqF A wtsp i ≤ max 1 ⌊A.fl (ducyMax * nbins)⌋₊) ∧ max 1 ⌊A.fl (ducyMax * nbins)⌋₊ < widthSeqF A wtsp k) ∧
    (A.widthTrials nbins ducyMax wtsp).head? = some 1 ∧ (A.widthTrials nbins ducyMax wtsp).Pairwise (· < ·) := by
  obtain ⟨k, e, h1, h2⟩ := widthLoopF_eq A wtsp (max 1 ⌊A.fl (ducyMax * nbins)⌋₊) _ 0 le_rfl
  simp only [Nat.zero_add] at e h1 h2
  have hk : 1 ≤ k := by
    by_contra hc
    have : k = 0 := by omega
    subst this
    rw [widthSeqF] at h1
    have := le_max_left 1 ⌊A.fl (ducyMax * nbins)⌋₊
    omega
  have hg : A.widthTrials nbins ducyMax wtsp = (List.range k).map (widthSeqF A wtsp) := by
    unfold DArith.widthTrials
    rw [floor_max_one]
    exact e
  refine ⟨⟨k, hg, hk, h2, h1⟩, ?_, ?_⟩
  · rw [hg]
    obtain ⟨k', rfl⟩ : ∃ k', k = k' + 1 := ⟨k - 1, by omega⟩
    rw [List.range_succ_eq_map]
    rfl
  · rw [hg, List.pairwise_map]
    exact List.pairwise_lt_range.imp (fun h => widthSeqF_mono A wtsp h)

/-- C127. The rounded recurrence: each width is `wtsp` times the one before, rounded down, or one more than that if the product is rounded up to an integer; at least one more than
the one before. -/
theorem C127_steps {A : DArith} (hA : Sane A) {wtsp : ℚ} (h0 : 0 ≤ wtsp) (n : ℕ) (hb : wtsp * widthSeqF A wtsp n < 2 ^ 53) :
    widthSeqF A wtsp 0 = 1 ∧
    max ⌊wtsp * widthSeqF A wtsp n⌋₊ (widthSeqF A wtsp n + 1) ≤ widthSeqF A wtsp (n + 1) ∧
    widthSeqF A wtsp (n + 1) ≤ max (⌊wtsp * widthSeqF A wtsp n⌋₊ + 1) (widthSeqF A wtsp n + 1) ∧
    ((1 + u53) * (wtsp * widthSeqF A wtsp n) < ⌊wtsp * widthSeqF A wtsp n⌋₊ + 1 →
      widthSeqF A wtsp (n + 1) = max ⌊wtsp * widthSeqF A wtsp n⌋₊ (widthSeqF A wtsp n + 1)) := by
  obtain ⟨f1, f2, f3⟩ := floor_rounded hA (x := wtsp * widthSeqF A wtsp n) (by positivity) hb
  refine ⟨rfl, ?_, ?_, fun hc => ?_⟩
  · rw [widthSeqF]
    exact max_le_max f1 le_rfl
  · rw [widthSeqF]
    exact max_le_max f2 le_rfl
  · rw [widthSeqF, f3 hc]

/-- C127. All widths are valid for profiles of `nbins` bins or more if the duty cycle is below 1 by at least `2^-52`. -/
theorem C127_valid {A : DArith} (hA : Sane A) (nbins : ℕ) (hn : 2 ≤ nbins) {ducyMax : ℚ} (wtsp : ℚ) (hd0 : 0 ≤ ducyMax) (hd : ducyMax ≤ 1 - 1 / 2 ^ 52) (bins : ℕ) (hb : nbins ≤ bins) :
    ∀ w ∈ A.widthTrials nbins ducyMax wtsp, 0 < w ∧ w < bins := by
  obtain ⟨⟨k, e, _, h2, _⟩, _, _⟩ := C127_recurrence A nbins ducyMax wtsp
  intro w hw
  rw [e, List.mem_map] at hw
  obtain ⟨i, hi, rfl⟩ := hw
  have h3 := h2 i (by simpa using hi)
  have hn0 : (0 : ℚ) < nbins := by exact_mod_cast (by omega : 0 < nbins)
  have hx0 : 0 ≤ ducyMax * nbins := by positivity
  have h4 : ⌊A.fl (ducyMax * nbins)⌋₊ < nbins := by
    rw [Nat.floor_lt' (by omega)]
    have h5 := (abs_le.1 (hA.rel _ hx0)).2
    have h6 : ducyMax * nbins ≤ (1 - 1 / 2 ^ 52) * nbins := mul_le_mul_of_nonneg_right hd hn0.le
    unfold u53 at h5
    nlinarith
  refine ⟨?_, by omega⟩
  rcases Nat.eq_zero_or_pos i with h0 | h0
  · subst h0; simp [widthSeqF]
  · have := widthSeqF_mono A wtsp h0
    omega

/-- C127. If no product that matters is rounded up to an integer, the trials are those of exact arithmetic. Missing: products that are, and parameters that are not floats themselves, see
`C127_false`. -/
theorem C127_equal_partial {A : DArith} (hA : Sane A) (nbins : ℕ) {ducyMax wtsp : ℚ} (hd : 0 ≤ ducyMax) (hw : 0 ≤ wtsp) (hN : ducyMax * nbins < 2 ^ 53)
    (hd1 : (1 + u53) * (ducyMax * nbins) < ⌊ducyMax * nbins⌋₊ + 1)
    (hw1 : ∀ w : ℕ, 1 ≤ w → w ≤ max 1 ⌊ducyMax * nbins⌋₊ → wtsp * w < 2 ^ 53 ∧ (1 + u53) * (wtsp * w) < ⌊wtsp * w⌋₊ + 1) :
    A.widthTrials nbins ducyMax wtsp = generateWidthTrials nbins ducyMax wtsp := by
  have hwm : ⌊A.fl (ducyMax * nbins)⌋₊ = ⌊ducyMax * (nbins : ℚ)⌋₊ := (floor_rounded hA (by positivity) hN).2.2 hd1
  unfold DArith.widthTrials generateWidthTrials
  simp only
  rw [floor_max_one, floor_max_one, hwm]
  set wmax := max 1 ⌊ducyMax * (nbins : ℚ)⌋₊ with hm
  have key : ∀ (d w : ℕ), 1 ≤ w → wmax + 1 - w ≤ d → A.widthLoop wtsp wmax w = widthLoop wtsp wmax w := by
    intro d
    induction d with
    | zero =>
      intro w _ h
      rw [DArith.widthLoop, widthLoop, if_neg (by omega), if_neg (by omega)]
    | succ d ih =>
      intro w h1 h
      rw [DArith.widthLoop, widthLoop]
      by_cases hc : w ≤ wmax
      · rw [if_pos hc, if_pos hc]
        obtain ⟨b1, b2⟩ := hw1 w h1 hc
        have e : ⌊max ((w : ℚ) + 1) (A.fl (wtsp * w))⌋₊ = ⌊max ((w : ℚ) + 1) (wtsp * w)⌋₊ := by
          rw [floor_max_succ, floor_max_succ, (floor_rounded hA (by positivity) b1).2.2 b2]
        rw [e, ih _ (le_trans (by omega) (width_step wtsp w)) (by have := width_step wtsp w; omega)]
      · rw [if_neg hc, if_neg hc]
  exact key _ 1 le_rfl le_rfl

/-- C127 fails for the numbers as they are written: with `ducy_max = 0.29` and 100 bins, widths up to 29 bins are allowed, but the float nearest to 0.29 times 100 is rounded to
`29 - 2^-48`, and the trials end at 28. With every width tried (`wtsp = 1`) the trial of 29 bins is missing. -/
theorem C127_false (log : ℚ → ℚ) (pow : ℚ → ℕ → ℚ) (f : Bool) :
    generateWidthTrials 100 (29 / 100 : ℚ) 1 = (List.range 29).map (· + 1) ∧
    (ieeeDouble log pow f).widthTrials 100 (rn 53 (29 / 100)) 1 = (List.range 28).map (· + 1) := by
  have hseq : ∀ n, widthSeq (1 : ℚ) n = n + 1 := by
    intro n
    induction n with
    | zero => rfl
    | succ n ih => rw [widthSeq, ih, one_mul, Nat.floor_natCast]; omega
  have hA : ∀ n : ℕ, n ≤ 100 → rn 53 (1 * ((n : ℕ) : ℚ)) = n := by
    have : ∀ n ∈ List.range 101, rn 53 (1 * ((n : ℕ) : ℚ)) = n := by decide +kernel
    exact fun n hn => this n (List.mem_range.2 (by omega))
  have hseqF : ∀ n, n ≤ 99 → widthSeqF (ieeeDouble log pow f) 1 n = n + 1 := by
    intro n
    induction n with
    | zero => intro _; rfl
    | succ n ih =>
      intro hn
      rw [widthSeqF, ih (by omega)]
      have : (ieeeDouble log pow f).fl (1 * ((n + 1 : ℕ) : ℚ)) = ((n + 1 : ℕ) : ℚ) := hA (n + 1) (by omega)
      rw [this, Nat.floor_natCast]
      omega
  have hx : ⌊(ieeeDouble log pow f).fl (rn 53 (29 / 100) * ((100 : ℕ) : ℚ))⌋₊ = 28 := by
    change ⌊rn 53 (rn 53 (29 / 100) * ((100 : ℕ) : ℚ))⌋₊ = 28
    decide +kernel
  constructor
  · obtain ⟨⟨k, e, _, h1, h2⟩, _⟩ := C24_width_trials 100 (29 / 100 : ℚ) 1
    have e29 : max 1 ⌊(29 / 100 : ℚ) * ((100 : ℕ) : ℚ)⌋₊ = 29 := by
      rw [show (29 / 100 : ℚ) * ((100 : ℕ) : ℚ) = ((29 : ℕ) : ℚ) by norm_num, Nat.floor_natCast]
      rfl
    rw [e29] at h1 h2
    rw [hseq] at h2
    have hk : k = 29 := by
      by_contra hne
      have := h1 29 (by omega)
      rw [hseq] at this
      omega
    subst hk
    rw [e]
    exact List.map_congr_left (fun i _ => hseq i)
  · obtain ⟨⟨k, e, _, h1, h2⟩, _⟩ := C127_recurrence (ieeeDouble log pow f) 100 (rn 53 (29 / 100)) 1
    rw [hx] at h1 h2
    have hk : k = 28 := by
      by_contra hne
      rcases Nat.lt_or_gt_of_ne hne with hlt | hlt
      · rw [hseqF k (by omega)] at h2
        have : max 1 28 = 28 := rfl
        omega
      · have := h1 28 hlt
        rw [hseqF 28 (by omega)] at this
        have : max 1 28 = 28 := rfl
        omega
    subst hk
    rw [e]
    exact List.map_congr_left (fun i hi => hseqF i (by have := List.mem_range.1 hi; omega))

/-- The hypotheses hold for duty cycles up to a quarter of 240 bins and steps of 3/2. -/
example : (ieeeDouble someLog (fun x k => rn 53 (x ^ k)) true).widthTrials 240 (1 / 4) (3 / 2) = generateWidthTrials 240 (1 / 4 : ℚ) (3 / 2) := by
  refine C127_equal_partial (sane_some true) 240 (by norm_num) (by norm_num) (by norm_num) ?_ ?_
  · rw [show (1 / 4 : ℚ) * ((240 : ℕ) : ℚ) = ((60 : ℕ) : ℚ) by norm_num, Nat.floor_natCast]
    norm_num [u53]
  · rw [show (1 / 4 : ℚ) * ((240 : ℕ) : ℚ) = ((60 : ℕ) : ℚ) by norm_num, Nat.floor_natCast]
    intro w h1 h2
    have h3 : max 1 60 = 60 := rfl
    have : ∀ w ∈ List.range 61, (3 / 2 : ℚ) * (w : ℕ) < 2 ^ 53 ∧ (1 + u53) * ((3 / 2 : ℚ) * (w : ℕ)) < ⌊(3 / 2 : ℚ) * (w : ℕ)⌋₊ + 1 := by
      unfold u53
      decide +kernel
    exact this w (List.mem_range.2 (by omega))

end Verif.Props
