import Verif.Lemmas.SnrF
import Verif.Props.Periodogram

/-! # Helper lemmas: rounding errors of downsampling and folding -/

namespace Verif.Lemmas

open Verif.Model Verif.Spec Finset

variable {A : FArith} {u v : ℝ}

theorem one_sub_pow_ge {u : ℝ} (h0 : 0 ≤ u) (h1 : u ≤ 1) (k : ℕ) : 1 - k * u ≤ (1 - u) ^ k := by
  induction k with
  | zero => simp
  | succ k ih =>
    rw [pow_succ]
    have : (0 : ℝ) ≤ k * u := by positivity
    push_cast
    nlinarith [mul_le_mul_of_nonneg_right ih (by linarith : 0 ≤ 1 - u)]

theorem grow_le_gam (h : Rounds A u v) (k : ℕ) (hk : k * u < 1) : grow u ^ k - 1 ≤ gam u k := by
  have h1 := one_sub_pow_ge h.u_nonneg h.u_lt.le k
  have h2 : 0 < 1 - k * u := by linarith
  unfold grow gam
  rw [div_pow, one_pow]
  have : 1 / (1 - u) ^ k ≤ 1 / (1 - k * u) := one_div_le_one_div_of_le h2 h1
  have e : (k : ℝ) * u / (1 - k * u) = 1 / (1 - k * u) - 1 := by field_simp; ring
  rw [e]; linarith

theorem dbl_le_grow (h : Rounds A u v) {n : ℕ} (hn : n * v ≤ u) : (1 + v) ^ n ≤ grow u := by
  have h0 := h.v_nonneg
  have h1 := one_sub_pow_ge h0 (by linarith [h.v_le, h.u_lt]) n
  have h2 : 0 < 1 - u := by linarith [h.u_lt]
  unfold grow
  rw [le_div_iff₀ h2]
  have h3 : (1 + v) ^ n * (1 - v) ^ n ≤ 1 := by
    rw [← mul_pow]
    have : (1 + v) * (1 - v) ≤ 1 := by nlinarith
    exact pow_le_one₀ (mul_nonneg (by linarith) (by linarith [h.v_le, h.u_lt])) this
  have h4 : (0 : ℝ) ≤ (1 + v) ^ n := by positivity
  calc (1 + v) ^ n * (1 - u) ≤ (1 + v) ^ n * (1 - v) ^ n := mul_le_mul_of_nonneg_left (by linarith) h4
    _ ≤ 1 := h3

/-! ### Downsampling -/

theorem dsAcc_close (h : Rounds A u v) (x : ℕ → ℝ) (imin : ℕ) {wmin w : ℝ} (hw : 0 ≤ w) (hn : NearR (grow u) 1 wmin w) (t : ℕ) :
    Close (grow u) (t + 2) (A.dsAcc x imin wmin t) (x imin * w + ∑ i ∈ range t, x (imin + 1 + i))
      (|x imin| * w + ∑ i ∈ range t, |x (imin + 1 + i)|) := by
  have hq := (grow_facts h).1
  induction t with
  | zero =>
    have := close_fl h (Close.mul hq hw hn (Close.exact (q := grow u) (x imin)))
    simpa [FArith.dsAcc, mul_comm] using this
  | succ t ih =>
    have := close_fl h (ih.add ((Close.exact (x (imin + 1 + t))).mono hq (by omega : 0 ≤ t + 2) le_rfl))
    rw [FArith.dsAcc, sum_range_succ, sum_range_succ, ← add_assoc, ← add_assoc]
    exact this

theorem downsample_close (h : Rounds A u v) {N k : ℕ} {f : ℝ} (x : ℕ → ℝ) (h1 : 1 < f) (hk : ((k : ℝ) + 1) * f ≤ N) :
    Close (grow u) (⌈f⌉₊ + 2) (A.downsample N x f k) (downsampled N x f k) (downsampled N (fun i => |x i|) f k) := by
  have hq := (grow_facts h).1
  obtain ⟨hpq, hqN, b1, b2, a1, a2⟩ := ds_idx h1 hk
  have a3 := Nat.lt_floor_add_one ((k : ℝ) * f)
  unfold FArith.downsample downsampled stepIntegral
  simp only
  have es : ((k : ℝ) + 1) * f = (k : ℝ) * f + f := by ring
  rw [es]
  generalize ⌊min (⌊(k : ℝ) * f + f⌋ : ℝ) ((N : ℝ) - 1)⌋₊ = q at *
  generalize ⌊(k : ℝ) * f⌋₊ = p at *
  rw [sum_overlap N p q _ _ (fun i o => x i * o) (by simp) hpq hqN a1 a2 b1 b2,
    sum_overlap N p q _ _ (fun i o => |x i| * o) (by simp) hpq hqN a1 a2 b1 b2]
  simp only [mul_one]
  have w1 : (0 : ℝ) ≤ (p : ℝ) + 1 - k * f := by linarith
  have w2 : (0 : ℝ) ≤ (k : ℝ) * f + f - q := by linarith
  have n1 := near_fl32 h w1 (NearR.refl (q := grow u) ((p : ℝ) + 1 - k * f))
  have n2 := near_fl32 h w2 (NearR.refl (q := grow u) ((k : ℝ) * f + f - q))
  have c1 := dsAcc_close h x p w1 n1 (q - (p + 1))
  have c2 := close_fused h (Close.mul hq w2 n2 (Close.exact (q := grow u) (x q)))
  have hlen : q - (p + 1) + 1 ≤ ⌈f⌉₊ := by
    have : (q : ℝ) - p < f + 1 := by linarith
    have h3 : ((q - p : ℕ) : ℝ) < ⌈f⌉₊ + 1 := by
      rw [Nat.cast_sub hpq.le]
      linarith [Nat.le_ceil f]
    have h4 : q - p < ⌈f⌉₊ + 1 := by exact_mod_cast h3
    omega
  have c3 := close_fl h ((c1.mono hq (k := ⌈f⌉₊ + 1) (by omega) le_rfl).add (c2.mono hq (k := ⌈f⌉₊ + 1) (by omega) le_rfl))
  rw [mul_comm ((k : ℝ) * f + f - q) (x q), mul_comm ((k : ℝ) * f + f - q) |x q|] at c3
  exact c3

theorem stageData_close (h : Rounds A u v) {N k : ℕ} {f : ℝ} (x : ℕ → ℝ) (h1 : 1 ≤ f) (hk : ((k : ℝ) + 1) * f ≤ N) :
    Close (grow u) (⌈f⌉₊ + 2) (A.stageData N x f k) (downsampled N x f k) (downsampled N (fun i => |x i|) f k) := by
  unfold FArith.stageData
  split_ifs with hf
  · subst hf
    have hkN : k < N := by
      have : (k : ℝ) + 1 ≤ N := by linarith
      exact_mod_cast this
    rw [Props.window_int N x k hkN, Props.window_int N _ k hkN]
    exact (Close.exact (x k)).mono (grow_facts h).1 (by omega) le_rfl
  · exact downsample_close h x (lt_of_le_of_ne h1 (Ne.symm hf)) hk

/-! ### Folding -/

theorem stack_nonneg {m p : ℕ} {σ : ℕ → ℕ → ℕ} {X : ℕ → ℕ → ℝ} (s c : ℕ) (hp : 0 < p) (hX : ∀ i < m, ∀ j < p, 0 ≤ X i j) :
    0 ≤ stack m p σ X s c := by
  unfold stack
  exact sum_nonneg (fun i hi => hX i (mem_range.mp hi) _ (Nat.mod_lt _ hp))

theorem transformF_close (h : Rounds A u v) (idx : IdxRule) {m p K : ℕ} (hm1 : 1 ≤ m) (hm64 : m ≤ 2 ^ 64) (hp : 0 < p)
    (hok : ∀ m' ≤ m, 3 ≤ m' → IdxOK idx m') {xf x X : ℕ → ℕ → ℝ}
    (hx : ∀ i < m, ∀ j < p, Close (grow u) K (xf i j) (x i j) (X i j)) {s c : ℕ} (hs : s < m) (hc : c < p) :
    Close (grow u) (K + Nat.clog 2 m) (transform A.add idx m p xf s c) (stack m p (sigma idx m) x s c)
      (stack m p (sigma idx m) X s c) := by
  obtain ⟨hq, hq2, _⟩ := grow_facts h
  have te := transform_error h.u_nonneg (fun a b => h.fl (a + b)) idx p m hm1 hm64 hok xf s c hs hc
  have hX : ∀ i < m, ∀ j < p, 0 ≤ X i j := fun i hi j hj => (hx i hi j hj).nonneg
  have hS := stack_nonneg (σ := sigma idx m) s c hp hX
  have e1 : |stack m p (sigma idx m) xf s c - stack m p (sigma idx m) x s c| ≤
      (grow u ^ K - 1) * stack m p (sigma idx m) X s c := by
    unfold stack
    rw [← sum_sub_distrib, mul_sum]
    refine (abs_sum_le_sum_abs _ _).trans (sum_le_sum ?_)
    intro i hi
    exact (hx i (mem_range.mp hi) _ (Nat.mod_lt _ hp)).1
  have e2 : stack m p (sigma idx m) (fun i j => |xf i j|) s c ≤ grow u ^ K * stack m p (sigma idx m) X s c := by
    unfold stack
    rw [mul_sum]
    apply sum_le_sum
    intro i hi
    exact (hx i (mem_range.mp hi) _ (Nat.mod_lt _ hp)).abs_le
  refine ⟨?_, ?_⟩
  · have p1 := pow_ge_one hq K
    have hu1 : (1 : ℝ) ≤ 1 + u := by linarith [h.u_nonneg]
    have p2 : (1 : ℝ) ≤ (1 + u) ^ Nat.clog 2 m := one_le_pow₀ hu1
    have p3 : (1 + u) ^ Nat.clog 2 m ≤ grow u ^ Nat.clog 2 m := pow_le_pow_left₀ (by linarith) hq2 _
    have e3 := abs_sub_le (transform A.add idx m p xf s c) (stack m p (sigma idx m) xf s c) (stack m p (sigma idx m) x s c)
    have te' : |transform A.add idx m p xf s c - stack m p (sigma idx m) xf s c| ≤
        (grow u ^ Nat.clog 2 m - 1) * (grow u ^ K * stack m p (sigma idx m) X s c) :=
      te.trans (mul_le_mul (by linarith) e2 (stack_nonneg s c hp (fun _ _ _ _ => abs_nonneg _)) (by linarith))
    rw [pow_add]
    calc _ ≤ _ := e3
      _ ≤ _ := add_le_add te' e1
      _ = _ := by ring
  · unfold stack
    refine (abs_sum_le_sum_abs _ _).trans (sum_le_sum ?_)
    intro i hi
    exact (hx i (mem_range.mp hi) _ (Nat.mod_lt _ hp)).2

/-- The bins of a stack add up to the samples that went in. -/
theorem sum_stack (m p : ℕ) (σ : ℕ → ℕ → ℕ) (X : ℕ → ℕ → ℝ) (s : ℕ) :
    ∑ c ∈ range p, stack m p σ X s c = ∑ i ∈ range m, ∑ c ∈ range p, X i c := by
  unfold stack
  rw [sum_comm]
  exact sum_congr rfl (fun i _ => sum_rotate p (σ s i) (X i))

theorem sum_rows (m p : ℕ) (g : ℕ → ℝ) : ∑ i ∈ range m, ∑ c ∈ range p, g (i * p + c) = ∑ k ∈ range (m * p), g k := by
  induction m with
  | zero => simp
  | succ m ih => rw [sum_range_succ, ih, Nat.succ_mul, sum_range_add]

theorem downsampled_sum_le (N : ℕ) (x : ℕ → ℝ) {f : ℝ} (hf : 0 ≤ f) (n : ℕ) :
    ∑ k ∈ range n, downsampled N (fun i => |x i|) f k ≤ ∑ i ∈ range N, |x i| := by
  have e : ∀ k : ℕ, downsampled N (fun i => |x i|) f k =
      stepIntegral N (fun i => |x i|) ((k : ℝ) * f) ((k : ℝ) * f + f) := fun k => by unfold downsampled; congr 1; ring
  rw [sum_congr rfl (fun k _ => e k), stepIntegral_sum N _ hf n]
  unfold stepIntegral
  apply sum_le_sum
  intro i _
  have : overlap i 0 (n * f) ≤ 1 := by
    unfold overlap
    apply max_le zero_le_one
    have := min_le_left ((i : ℝ) + 1) (n * f)
    have := le_max_left (i : ℝ) 0
    linarith
  exact mul_le_of_le_one_right (abs_nonneg _) this

end Verif.Lemmas
