import Verif.Model.DereddenF
import Verif.Lemmas.NormaliseF
import Verif.Props.RunningMedian
import Verif.Spec.Double

/-! # Helper lemmas: `deredden` in floating point -/

namespace Verif.Lemmas

open Verif.Model Verif.Spec Verif.Props Finset

/-! ### The scrunching factor -/

theorem scrunch_exact {A : DArith} (hA : Sane A) {w m : ℕ} (hm : 0 < m) (hw : w < 2 ^ 53) : A.scrunchFactor w m = max 1 (w / m) := by
  have hmQ : (0 : ℚ) < m := by exact_mod_cast hm
  have hwQ : (w : ℚ) < 2 ^ 53 := by exact_mod_cast hw
  have lo : ((w / m : ℕ) : ℚ) ≤ A.fl (w / m) := by
    have h1 : ((w / m : ℕ) : ℚ) ≤ (w : ℚ) / m := Nat.cast_div_le
    have h2 := hA.mono _ _ (Nat.cast_nonneg _) h1
    rwa [hA.nat (w / m) (le_trans (Nat.div_le_self _ _) hw.le)] at h2
  have hi : A.fl (w / m) < ((w / m : ℕ) : ℚ) + 1 := by
    have h1 := (abs_le.mp (hA.rel ((w : ℚ) / m) (by positivity))).2
    have h2 : (w : ℚ) / m + 1 / m ≤ ((w / m : ℕ) : ℚ) + 1 := by
      rw [← add_div, div_le_iff₀ hmQ]
      have := Nat.lt_div_mul_add hm (a := w)
      have h3 : w + 1 ≤ (w / m + 1) * m := by rw [Nat.add_mul, one_mul]; omega
      exact_mod_cast h3
    have h4 : u53 * ((w : ℚ) / m) < 1 / m := by
      unfold u53
      rw [← mul_div_assoc]
      apply div_lt_div_of_pos_right _ hmQ
      linarith
    linarith
  unfold DArith.scrunchFactor
  rcases Nat.eq_zero_or_pos (w / m) with h0 | h0
  · rw [h0, Nat.cast_zero, zero_add] at hi
    rw [h0, max_eq_left hi.le, Nat.floor_one]
    rfl
  · have h1 : (1 : ℚ) ≤ ((w / m : ℕ) : ℚ) := by exact_mod_cast h0
    rw [max_eq_right (h1.trans lo), Nat.max_eq_right h0, Nat.floor_eq_iff (by linarith)]
    exact ⟨lo, hi⟩

/-! ### Order statistics of two lists that are close -/

theorem nth_counts {l : List ℝ} {n : ℕ} {v : ℝ} (h : IsNth l n v) : n + 1 ≤ l.countP (fun a => decide (a ≤ v)) ∧ l.countP (fun a => decide (a < v)) ≤ n := by
  obtain ⟨s, hp, hs, hn⟩ := h
  rw [← hp.countP_eq, ← hp.countP_eq]
  obtain ⟨hl, rfl⟩ := List.getElem?_eq_some_iff.mp hn
  rw [List.pairwise_iff_getElem] at hs
  constructor
  · have h1 : (s.take (n + 1)).countP (fun a => decide (a ≤ s[n])) = (s.take (n + 1)).length := by
      rw [List.countP_eq_length]
      intro a ha
      obtain ⟨i, hi, rfl⟩ := List.getElem_of_mem ha
      rw [List.length_take] at hi
      rw [List.getElem_take]
      simp only [decide_eq_true_eq]
      rcases Nat.lt_or_ge i n with hc | hc
      · exact hs i n _ hl hc
      · have : i = n := by omega
        subst this
        exact le_rfl
    have h2 := (List.take_sublist (n + 1) s).countP_le (p := fun a => decide (a ≤ s[n]))
    rw [h1, List.length_take] at h2
    omega
  · have h1 : (s.drop n).countP (fun a => decide (a < s[n])) = 0 := by
      rw [List.countP_eq_zero]
      intro a ha
      obtain ⟨i, hi, rfl⟩ := List.getElem_of_mem ha
      rw [List.length_drop] at hi
      rw [List.getElem_drop]
      simp only [decide_eq_true_eq, not_lt]
      rcases Nat.eq_zero_or_pos i with hc | hc
      · subst hc
        simp
      · exact hs n (n + i) hl (by omega) (by omega)
    have h2 : s.countP (fun a => decide (a < s[n])) = (s.take n).countP (fun a => decide (a < s[n])) + (s.drop n).countP (fun a => decide (a < s[n])) := by
      rw [← List.countP_append, List.take_append_drop]
    rw [h2, h1]
    have := List.countP_le_length (l := s.take n) (p := fun a => decide (a < s[n]))
    rw [List.length_take] at this
    omega

theorem nth_close_le {w n : ℕ} {f g : ℕ → ℝ} {a b δ : ℝ} (hfg : ∀ k < w, f k ≤ g k + δ) (hf : IsNth ((List.range w).map f) n a)
    (hg : IsNth ((List.range w).map g) n b) : a ≤ b + δ := by
  by_contra hc
  push Not at hc
  have h1 := (nth_counts hg).1
  have h2 := (nth_counts hf).2
  rw [List.countP_map] at h1 h2
  have h3 : (List.range w).countP ((fun c => decide (c ≤ b)) ∘ g) ≤ (List.range w).countP ((fun c => decide (c < a)) ∘ f) := by
    apply List.countP_mono_left
    intro k hk hb
    simp only [Function.comp_apply, decide_eq_true_eq] at hb ⊢
    have := hfg k (List.mem_range.mp hk)
    linarith
  omega

theorem nth_close {w n : ℕ} {f g : ℕ → ℝ} {a b δ : ℝ} (hfg : ∀ k < w, |f k - g k| ≤ δ) (hf : IsNth ((List.range w).map f) n a)
    (hg : IsNth ((List.range w).map g) n b) : |a - b| ≤ δ := by
  have h1 := nth_close_le (fun k hk => by linarith [(abs_le.mp (hfg k hk)).2]) hf hg
  have h2 := nth_close_le (fun k hk => by linarith [(abs_le.mp (hfg k hk)).1]) hg hf
  rw [abs_le]
  constructor <;> linarith

/-- The running median changes at most as much as the data. -/
theorem runningMedian_close {x y rx ry : List ℝ} {w : ℕ} {δ : ℝ} (hl : x.length = y.length) (h : ∀ i < x.length, |x.getD i default - y.getD i default| ≤ δ)
    (hx : runningMedian x w = .ok rx) (hy : runningMedian y w = .ok ry) :
    rx.length = x.length ∧ ry.length = x.length ∧ ∀ i < x.length, |rx.getD i default - ry.getD i default| ≤ δ := by
  obtain ⟨lx, hodd, hlt, _⟩ := runningMedian_mem hx
  obtain ⟨ly, _, hlt', _⟩ := runningMedian_mem hy
  obtain ⟨rx', e, _, hm⟩ := runningMedian_ok x w (by omega) hlt
  obtain ⟨ry', e', _, hm'⟩ := runningMedian_ok y w (by omega) hlt'
  rw [e] at hx
  rw [e'] at hy
  cases hx
  cases hy
  refine ⟨lx, by omega, fun i hi => ?_⟩
  have n1 := hm i (by omega)
  have n2 := hm' i (by omega)
  rw [List.getD_eq_getElem?_getD, List.getD_eq_getElem?_getD, List.getElem?_eq_getElem (by omega : i < rx.length), List.getElem?_eq_getElem (by omega : i < ry.length)]
  unfold medWin at n1 n2
  refine nth_close (fun k _ => ?_) n1 n2
  rw [← hl]
  exact h _ (by omega)

/-! ### Block means -/

theorem narrowed_rounds {B : FArith} {u v : ℝ} (h : Rounds B u v) : Rounds B.narrowed u u :=
  ⟨h.u_nonneg, h.u_lt, h.u_nonneg, le_rfl, h.fl, h.fl, h.fused, h.sqrt⟩

theorem sum_abs_le {l : List ℝ} {M : ℝ} (h : ∀ a ∈ l, |a| ≤ M) : (l.map fun a => |a|).sum ≤ l.length * M := by
  induction l with
  | nil => simp
  | cons a l ih =>
    rw [List.map_cons, List.sum_cons, List.length_cons]
    have h1 := h a (by simp)
    have h2 := ih (fun b hb => h b (by simp [hb]))
    push_cast
    linarith

/-- One block mean. -/
theorem block_close {B : FArith} {u v : ℝ} (h : Rounds B u v) {l : List ℝ} {M t : ℝ} {f : ℕ} (hf : 1 ≤ f) (hl : l.length = f) (hM : ∀ a ∈ l, |a| ≤ M)
    (ht : DSum B.narrowed l t) : |B.fl (t / f) - l.sum / f| ≤ (grow u ^ f - 1) * M := by
  have hm := mean_close (narrowed_rounds h) (x := l) (m := B.fl (t / f)) ⟨t, ht, by rw [hl]; rfl⟩
  unfold meanOf at hm
  rw [hl] at hm
  refine hm.trans (mul_le_mul_of_nonneg_left ?_ ?_)
  · unfold meanAbs
    rw [hl, div_le_iff₀ (by exact_mod_cast hf)]
    have := sum_abs_le hM
    rw [hl] at this
    linarith
  · have := pow_ge_one (grow_facts h).1 f
    linarith

theorem scrunch_close {B : FArith} {u v : ℝ} (h : Rounds B u v) {x s : List ℝ} {M : ℝ} {f : ℕ} (hf : 1 ≤ f) (hM : ∀ a ∈ x, |a| ≤ M) (hs : ScrunchesTo B x f s) :
    s.length = (scrunch x f).length ∧ (∀ i < s.length, |s.getD i default - (scrunch x f).getD i default| ≤ (grow u ^ f - 1) * M) := by
  obtain ⟨hl, he⟩ := hs
  refine ⟨by simp [scrunch, hl], fun i hi => ?_⟩
  rw [hl] at hi
  obtain ⟨t, ht, e⟩ := he i hi
  have hlen : ((x.drop (i * f)).take f).length = f := by
    rw [List.length_take, List.length_drop]
    have : (i + 1) * f ≤ x.length := (Nat.mul_le_mul_right f hi).trans (Nat.div_mul_le_self _ _)
    rw [Nat.add_mul, one_mul] at this
    omega
  rw [List.getD_eq_getElem?_getD, e, Option.getD_some]
  unfold scrunch
  rw [List.getD_eq_getElem?_getD, List.getElem?_map, List.getElem?_range hi, Option.map_some, Option.getD_some]
  exact block_close h hf hlen (fun a ha => hM a (List.mem_of_mem_drop (List.mem_of_mem_take ha))) ht

theorem scrunch_abs {x : List ℝ} {M : ℝ} {f : ℕ} (hf : 1 ≤ f) (hM : ∀ a ∈ x, |a| ≤ M) : ∀ a ∈ scrunch x f, |a| ≤ M := by
  intro a ha
  unfold scrunch at ha
  obtain ⟨i, hi, rfl⟩ := List.mem_map.mp ha
  have hi := List.mem_range.mp hi
  have hlen : ((x.drop (i * f)).take f).length = f := by
    rw [List.length_take, List.length_drop]
    have : (i + 1) * f ≤ x.length := (Nat.mul_le_mul_right f hi).trans (Nat.div_mul_le_self _ _)
    rw [Nat.add_mul, one_mul] at this
    omega
  have hfR : (0 : ℝ) < f := by exact_mod_cast hf
  rw [abs_div, abs_of_pos hfR, div_le_iff₀ hfR]
  have h1 := sum_abs_le (l := (x.drop (i * f)).take f) (M := M) (fun a ha => hM a (List.mem_of_mem_drop (List.mem_of_mem_take ha)))
  rw [hlen] at h1
  have h2 : ∀ l : List ℝ, |l.sum| ≤ (l.map fun a => |a|).sum := by
    intro l
    induction l with
    | nil => simp
    | cons a l ih =>
      rw [List.map_cons, List.sum_cons, List.sum_cons]
      exact (abs_add_le _ _).trans (by linarith)
  have := h2 ((x.drop (i * f)).take f)
  linarith

/-! ### Interpolation -/

/-- The interval of the interpolation. -/
theorem interp_index {n : ℕ} {xp : ℕ → ℝ} (hxp : ∀ i j, i < j → xp i < xp j) {x : ℝ} (h0 : ¬x < xp 0)
    (h3 : ¬n - 1 ≤ ((List.range n).filter (fun j => decide (xp j ≤ x))).length - 1) :
    xp (((List.range n).filter (fun j => decide (xp j ≤ x))).length - 1) ≤ x ∧ x < xp (((List.range n).filter (fun j => decide (xp j ≤ x))).length - 1 + 1) := by
  have hmono : ∀ i j, i ≤ j → xp i ≤ xp j := by
    intro i j h
    rcases eq_or_lt_of_le h with h | h
    · rw [h]
    · exact (hxp i j h).le
  have hseg : ∀ n, ∃ c ≤ n, (List.range n).filter (fun j => decide (xp j ≤ x)) = List.range c ∧
      (∀ j < c, xp j ≤ x) ∧ ∀ j, c ≤ j → j < n → x < xp j := by
    intro n
    induction n with
    | zero => exact ⟨0, le_rfl, rfl, by intro j hj; omega, by intro j _ hj; omega⟩
    | succ n ih =>
      obtain ⟨c, hc, e, h1, h2⟩ := ih
      rw [List.range_succ, List.filter_append, e]
      by_cases hx : xp n ≤ x
      · have hcn : c = n := by
          by_contra hne
          have := h2 c le_rfl (by omega)
          have := hmono c n hc
          linarith
        refine ⟨n + 1, le_rfl, ?_, ?_, by intro j _ hj; omega⟩
        · subst hcn; simp [hx, List.range_succ]
        · intro j hj
          rcases Nat.lt_or_ge j n with h | h
          · exact h1 j (by omega)
          · rwa [show j = n by omega]
      · refine ⟨c, by omega, by simp [hx], h1, ?_⟩
        intro j hj1 hj2
        rcases Nat.lt_or_ge j n with h | h
        · exact h2 j hj1 h
        · rw [show j = n by omega]; exact not_le.mp hx
  obtain ⟨c, hc, e, h1, h2⟩ := hseg n
  rw [e, List.length_range] at h3 ⊢
  have hc1 : 1 ≤ c := by
    by_contra hcc
    exact h0 (h2 0 (by omega) (by omega))
  exact ⟨h1 _ (by omega), h2 _ (by omega) (by omega)⟩

theorem interp_close {n : ℕ} (hn : 1 ≤ n) {xp fp gp : ℕ → ℝ} {δ : ℝ} (hxp : ∀ i j, i < j → xp i < xp j) (h : ∀ j < n, |fp j - gp j| ≤ δ) (x : ℝ) :
    |interp n xp fp x - interp n xp gp x| ≤ δ := by
  unfold interp
  split_ifs with h0
  · exact h 0 (by omega)
  have key := interp_index hxp h0 (n := n)
  simp only
  generalize ((List.range n).filter (fun j => decide (xp j ≤ x))).length - 1 = j at *
  split_ifs with h1
  · exact h _ (by omega)
  obtain ⟨k1, k2⟩ := key h1
  have hd : 0 < xp (j + 1) - xp j := by linarith
  obtain ⟨θ, hθ⟩ : ∃ θ, θ = (x - xp j) / (xp (j + 1) - xp j) := ⟨_, rfl⟩
  have t0 : 0 ≤ θ := by rw [hθ]; exact div_nonneg (by linarith) hd.le
  have t1 : θ ≤ 1 := by rw [hθ, div_le_one hd]; linarith
  have e : ∀ p : ℕ → ℝ, (p (j + 1) - p j) / (xp (j + 1) - xp j) * (x - xp j) + p j = (1 - θ) * p j + θ * p (j + 1) := by
    intro p
    rw [hθ]
    field_simp
    ring
  rw [e, e]
  have a1 := abs_le.mp (h j (by omega))
  have a2 := abs_le.mp (h (j + 1) (by omega))
  rw [abs_le]
  constructor <;> nlinarith

/-- The interpolation in floating point. -/
theorem interpsTo_close {B : FArith} {u v : ℝ} (h : Rounds B u v) {n : ℕ} (hn : 1 ≤ n) {xp fp : ℕ → ℝ} {M : ℝ} (hxp : ∀ i j, i < j → xp i < xp j)
    (hM : ∀ j < n, |fp j| ≤ M) {x y : ℝ} (hy : InterpsTo B n xp fp x y) : |y - interp n xp fp x| ≤ (grow v ^ 4 - 1) * (3 * M) := by
  obtain ⟨q1, q2, q3⟩ := grow_facts (dblOnly_rounds h)
  have hM0 : 0 ≤ M := (abs_nonneg _).trans (hM 0 (by omega))
  have hz : 0 ≤ (grow v ^ 4 - 1) * (3 * M) := by
    have := pow_ge_one q1 4
    exact mul_nonneg (by linarith) (by linarith)
  unfold InterpsTo at hy
  unfold interp
  split_ifs at hy ⊢ with h0
  · rw [hy, sub_self, abs_zero]; exact hz
  have key := interp_index hxp h0 (n := n)
  simp only at hy ⊢
  generalize ((List.range n).filter (fun j => decide (xp j ≤ x))).length - 1 = j at *
  split_ifs at hy ⊢ with h1 h2
  · rw [hy, sub_self, abs_zero]; exact hz
  · rw [hy, h2, sub_self, mul_zero, zero_add, sub_self, abs_zero]; exact hz
  obtain ⟨k1, k2⟩ := key h1
  have hd : 0 < xp (j + 1) - xp j := by linarith
  obtain ⟨θ, hθ⟩ : ∃ θ, θ = (x - xp j) / (xp (j + 1) - xp j) := ⟨_, rfl⟩
  have t0 : 0 ≤ θ := by rw [hθ]; exact div_nonneg (by linarith) hd.le
  have t1 : θ ≤ 1 := by rw [hθ, div_le_one hd]; linarith
  -- the slope
  have c1 : Close (grow v) 1 (B.dbl (fp (j + 1) - fp j)) (fp (j + 1) - fp j) (2 * M) := by
    have e := Close.exact (q := grow v) (fp (j + 1) - fp j)
    have m1 := hM j (by omega)
    have m2 := hM (j + 1) (by omega)
    have m3 : |fp (j + 1) - fp j| ≤ 2 * M := (abs_sub _ _).trans (by linarith)
    exact (e.mono q1 le_rfl m3).round h.v_nonneg q2 (h.dbl _)
  have c2 := (Close.mul q1 (d := (xp (j + 1) - xp j)⁻¹) (inv_pos.mpr hd).le (NearR.refl (q := grow v) _) c1)
  have e1 : (xp (j + 1) - xp j)⁻¹ * B.dbl (fp (j + 1) - fp j) = B.dbl (fp (j + 1) - fp j) / (xp (j + 1) - xp j) := by ring
  rw [e1] at c2
  have c3 := c2.round h.v_nonneg q2 (h.dbl _)
  have c4 := Close.mul q1 (d := x - xp j) (by linarith) (NearR.refl (q := grow v) _) c3
  have c5 : Close (grow v) 2 (B.dbl (B.dbl (fp (j + 1) - fp j) / (xp (j + 1) - xp j)) * (x - xp j))
      ((fp (j + 1) - fp j) / (xp (j + 1) - xp j) * (x - xp j)) (2 * M) := by
    have e2 : (x - xp j) * ((xp (j + 1) - xp j)⁻¹ * (2 * M)) = θ * (2 * M) := by rw [hθ]; ring
    have e3 : (x - xp j) * ((xp (j + 1) - xp j)⁻¹ * (fp (j + 1) - fp j)) = (fp (j + 1) - fp j) / (xp (j + 1) - xp j) * (x - xp j) := by ring
    rw [e2, e3, mul_comm (x - xp j)] at c4
    exact c4.mono q1 (by omega) (by nlinarith)
  have c6 : ∀ p, (p = B.dbl (B.dbl (B.dbl (fp (j + 1) - fp j) / (xp (j + 1) - xp j)) * (x - xp j)) ∨
      p = B.dbl (B.dbl (fp (j + 1) - fp j) / (xp (j + 1) - xp j)) * (x - xp j)) →
      |B.dbl (p + fp j) - ((fp (j + 1) - fp j) / (xp (j + 1) - xp j) * (x - xp j) + fp j)| ≤ (grow v ^ 4 - 1) * (3 * M) := by
    intro p hp
    have c7 : Close (grow v) 3 p ((fp (j + 1) - fp j) / (xp (j + 1) - xp j) * (x - xp j)) (2 * M) := by
      rcases hp with rfl | rfl
      · exact c5.round h.v_nonneg q2 (h.dbl _)
      · exact c5.mono q1 (by omega) le_rfl
    have c8 := (Close.exact (q := grow v) (fp j)).mono q1 (Nat.zero_le 3) (hM j (by omega))
    have c9 := (c7.add c8).round h.v_nonneg q2 (h.dbl _)
    rw [show 2 * M + M = 3 * M by ring] at c9
    exact c9.1
  rcases hy with rfl | rfl
  · exact c6 _ (Or.inl rfl)
  · exact c6 _ (Or.inr rfl)

end Verif.Lemmas
