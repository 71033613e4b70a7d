import Verif.Model.NormaliseF
import Verif.Lemmas.TrialF
import Verif.Lemmas.Stability
import Verif.Props.TimeSeries
import Mathlib.Tactic.LinearCombination
import Mathlib.Analysis.SpecialFunctions.Exp

/-! # Helper lemmas: `normalise` in floating point -/

namespace Verif.Lemmas

open Verif.Model Verif.Spec Finset

variable {B : FArith} {u v : ℝ}

/-- The same arithmetic with double precision only. -/
noncomputable def dblOnly (B : FArith) : FArith := ⟨B.dbl, B.dbl, B.dbl, Real.sqrt⟩

theorem dblOnly_rounds (h : Rounds B u v) : Rounds (dblOnly B) v v :=
  ⟨h.v_nonneg, lt_of_le_of_lt h.v_le h.u_lt, h.v_nonneg, le_rfl, h.dbl, h.dbl, h.dbl, fun x _ => by
    have := h.v_nonneg
    simp only [dblOnly, sub_self, abs_zero]
    positivity⟩

theorem _root_.Verif.Model.DSum.ne_nil {l : List ℝ} {s : ℝ} (h : DSum B l s) : l ≠ [] := by
  induction h with
  | one x => simp
  | node hp _ _ h1 _ =>
    intro e
    subst e
    have := hp.length_eq
    simp only [List.length_nil, List.length_append] at this
    exact h1 (List.length_eq_zero_iff.mp (by omega))

theorem dsum_exists (B : FArith) : ∀ l : List ℝ, l ≠ [] → ∃ s, DSum B l s
  | [x], _ => ⟨x, .one x⟩
  | x :: y :: l, _ => by
    obtain ⟨s, hs⟩ := dsum_exists B (y :: l) (by simp)
    exact ⟨_, .node (l₁ := [x]) (.refl _) (.one x) hs⟩

theorem _root_.Verif.Model.DSum.close (h : Rounds B u v) {l : List ℝ} {s : ℝ} (hs : DSum B l s) :
    Close (grow v) (l.length - 1) s l.sum (l.map fun a => |a|).sum := by
  obtain ⟨q1, q2, q3⟩ := grow_facts (dblOnly_rounds h)
  induction hs with
  | one x => simpa using Close.exact (q := grow v) x
  | @node l l₁ l₂ a b hp h1 h2 c1 c2 =>
    have n1 := List.length_pos_of_ne_nil h1.ne_nil
    have n2 := List.length_pos_of_ne_nil h2.ne_nil
    have hl := hp.length_eq
    rw [List.length_append] at hl
    have e1 := hp.sum_eq
    have e2 := (hp.map fun a => |a|).sum_eq
    rw [List.sum_append] at e1
    rw [List.map_append, List.sum_append] at e2
    rw [e1, e2]
    have c := ((c1.mono q1 (by omega : l₁.length - 1 ≤ l.length - 2) le_rfl).add
      (c2.mono q1 (by omega : l₂.length - 1 ≤ l.length - 2) le_rfl)).round h.v_nonneg q2 (h.dbl _)
    have : l.length - 2 + 1 = l.length - 1 := by omega
    rwa [this] at c

theorem _root_.Verif.Model.DSum.near (h : Rounds B u v) {l : List ℝ} {s : ℝ} (hs : DSum B l s) (h0 : ∀ a ∈ l, 0 ≤ a) :
    NearR (grow v) (l.length - 1) s l.sum := by
  obtain ⟨q1, q2, q3⟩ := grow_facts (dblOnly_rounds h)
  induction hs with
  | one x => simpa using NearR.refl (q := grow v) x
  | @node l l₁ l₂ a b hp h1 h2 c1 c2 =>
    have n1 := List.length_pos_of_ne_nil h1.ne_nil
    have n2 := List.length_pos_of_ne_nil h2.ne_nil
    have hl := hp.length_eq
    rw [List.length_append] at hl
    have e1 := hp.sum_eq
    rw [List.sum_append] at e1
    rw [e1]
    have p1 : ∀ a ∈ l₁, 0 ≤ a := fun a ha => h0 a (hp.mem_iff.mpr (List.mem_append_left _ ha))
    have p2 : ∀ a ∈ l₂, 0 ≤ a := fun a ha => h0 a (hp.mem_iff.mpr (List.mem_append_right _ ha))
    have s1 := List.sum_nonneg p1
    have s2 := List.sum_nonneg p2
    have d1 := c1 p1
    have d2 := c2 p2
    have a0 := d1.nonneg q1 s1
    have b0 := d2.nonneg q1 s2
    have c := ((d1.mono q1 (by omega : l₁.length - 1 ≤ l.length - 2) a0 s1).add
      (d2.mono q1 (by omega : l₂.length - 1 ≤ l.length - 2) b0 s2)).round h.v_nonneg (lt_of_le_of_lt h.v_le h.u_lt) q3 (by positivity) (h.dbl _)
    have : l.length - 2 + 1 = l.length - 1 := by omega
    rwa [this] at c

/-! ### Mean and variance -/

/-- Mean of the absolute values. -/
noncomputable def meanAbs (x : List ℝ) : ℝ := (x.map fun a => |a|).sum / x.length

theorem meanAbs_nonneg (x : List ℝ) : 0 ≤ meanAbs x := by
  unfold meanAbs
  refine div_nonneg (List.sum_nonneg ?_) (Nat.cast_nonneg _)
  intro a ha
  obtain ⟨b, _, rfl⟩ := List.mem_map.mp ha
  exact abs_nonneg b

theorem mean_close (h : Rounds B u v) {x : List ℝ} {m : ℝ} (hm : IsMeanF B x m) :
    |m - meanOf x| ≤ (grow v ^ x.length - 1) * meanAbs x := by
  obtain ⟨q1, q2, q3⟩ := grow_facts (dblOnly_rounds h)
  obtain ⟨s, hs, rfl⟩ := hm
  have hn := List.length_pos_of_ne_nil hs.ne_nil
  have hn' : (0 : ℝ) < x.length := by exact_mod_cast hn
  have c := Close.mul q1 (d := (x.length : ℝ)⁻¹) (by positivity) (NearR.refl (q := grow v) _) (hs.close h)
  have c' := Close.round h.v_nonneg q2 (h.dbl (s / x.length)) (k := 0 + (x.length - 1)) (v := meanOf x) (M := meanAbs x) (by
    have e1 : s / x.length = (x.length : ℝ)⁻¹ * s := by ring
    have e2 : meanOf x = (x.length : ℝ)⁻¹ * x.sum := by unfold meanOf; ring
    have e3 : meanAbs x = (x.length : ℝ)⁻¹ * (x.map fun a => |a|).sum := by unfold meanAbs; ring
    rw [e1, e2, e3]
    exact c)
  have : 0 + (x.length - 1) + 1 = x.length := by omega
  rw [this] at c'
  exact c'.1

theorem sum_map_near {q : ℝ} (hq : 1 ≤ q) {k : ℕ} (f g : ℝ → ℝ) : ∀ l : List ℝ, (∀ a ∈ l, NearR q k (f a) (g a)) →
    NearR q k (l.map f).sum (l.map g).sum
  | [], _ => by constructor <;> simp
  | a :: l, h => by
    rw [List.map_cons, List.map_cons, List.sum_cons, List.sum_cons]
    exact (h a (by simp)).add (sum_map_near hq f g l (fun b hb => h b (by simp [hb])))

/-- Moments about another point. -/
theorem sum_sq_shift (x : List ℝ) (c m : ℝ) : (x.map fun a => (a - m) ^ 2).sum =
    (x.map fun a => (a - c) ^ 2).sum + 2 * (c - m) * (x.sum - x.length * c) + x.length * (c - m) ^ 2 := by
  induction x with
  | nil => simp
  | cons a x ih =>
    simp only [List.map_cons, List.sum_cons, List.length_cons, ih]
    push_cast
    ring

theorem var_shift {x : List ℝ} (hx : x ≠ []) (m : ℝ) : (x.map fun a => (a - m) ^ 2).sum / x.length = varOf x + (m - meanOf x) ^ 2 := by
  have hn : (0 : ℝ) < x.length := by exact_mod_cast List.length_pos_of_ne_nil hx
  rw [sum_sq_shift x (meanOf x) m]
  have : x.sum = x.length * meanOf x := by unfold meanOf; field_simp
  unfold varOf
  rw [← this]
  field_simp
  ring

theorem var_near (h : Rounds B u v) {x : List ℝ} {V : ℝ} (hV : IsVarF B x V) :
    ∃ m, IsMeanF B x m ∧ NearR (grow v) (x.length + 3) V (varOf x + (m - meanOf x) ^ 2) := by
  obtain ⟨q1, q2, q3⟩ := grow_facts (dblOnly_rounds h)
  obtain ⟨m, s, hm, hs, rfl⟩ := hV
  refine ⟨m, hm, ?_⟩
  have hv1 := lt_of_le_of_lt h.v_le h.u_lt
  have hx : x ≠ [] := fun e => hs.ne_nil (by rw [e]; rfl)
  have hn := List.length_pos_of_ne_nil hx
  have hn' : (0 : ℝ) < x.length := by exact_mod_cast hn
  -- one square
  have one : ∀ a : ℝ, NearR (grow v) 3 (B.dbl (B.dbl (a - m) * B.dbl (a - m))) ((a - m) ^ 2) := by
    intro a
    have r1 : NearR (grow v) 1 |B.dbl (a - m)| |a - m| := by
      have : |(|B.dbl (a - m)| - |a - m|)| ≤ v * |(|a - m|)| := by
        rw [abs_abs]
        exact (abs_abs_sub_abs_le _ _).trans (h.dbl _)
      exact (NearR.refl (q := grow v) _).round h.v_nonneg hv1 q3 (abs_nonneg _) this
    have r2 := r1.mul q1 (abs_nonneg _) (abs_nonneg _) (abs_nonneg _) (abs_nonneg _) r1
    rw [abs_mul_abs_self, abs_mul_abs_self] at r2
    have r3 := r2.round h.v_nonneg hv1 q3 (mul_self_nonneg _) (h.dbl _)
    rw [sq]
    exact r3
  have sq0 : 0 ≤ (x.map fun a => (a - m) ^ 2).sum := List.sum_nonneg (by
    intro b hb
    obtain ⟨a, _, rfl⟩ := List.mem_map.mp hb
    positivity)
  have t1 := sum_map_near q1 (fun a => B.dbl (B.dbl (a - m) * B.dbl (a - m))) (fun a => (a - m) ^ 2) x (fun a _ => one a)
  have t2 := (hs.near h (by
    intro b hb
    obtain ⟨a, _, rfl⟩ := List.mem_map.mp hb
    exact (one a).nonneg q1 (sq_nonneg _))).trans q1 t1
  rw [List.length_map] at t2
  have s0 := t2.nonneg q1 sq0
  have t3 := t2.div q1 s0 sq0 hn' hn' (NearR.refl (q := grow v) _)
  have t4 := t3.round h.v_nonneg hv1 q3 (by positivity) (h.dbl _)
  rw [var_shift hx] at t4
  have : x.length - 1 + 3 + 0 + 1 = x.length + 3 := by omega
  rwa [this] at t4

theorem root_near (h : Rounds B u v) (hv : v ≤ 1 / 3) {root : ℝ → ℝ} (hroot : ∀ a, 0 ≤ a → |root a - Real.sqrt a| ≤ 2 * v * Real.sqrt a) {a : ℝ}
    (ha : 0 ≤ a) : NearR (grow v) 3 (root a) (Real.sqrt a) := by
  have h0 := h.v_nonneg
  have h1 : 0 < 1 - v := by linarith
  have hs := Real.sqrt_nonneg a
  have hr := abs_le.mp (hroot a ha)
  have p : 0 < (1 - v) ^ 3 := by positivity
  have e : (1 - v) ^ 3 = 1 - 3 * v + 3 * v ^ 2 - v ^ 3 := by ring
  constructor
  · unfold grow
    rw [div_pow, one_pow, mul_one_div, le_div_iff₀ p]
    have : (1 - v) ^ 3 ≤ 1 - 2 * v := by
      rw [e]
      have : 0 ≤ v * (1 - 3 * v) := by apply mul_nonneg h0; linarith
      have : 0 ≤ v ^ 3 := by positivity
      linarith
    calc Real.sqrt a * (1 - v) ^ 3 ≤ Real.sqrt a * (1 - 2 * v) := mul_le_mul_of_nonneg_left this hs
      _ ≤ root a := by linarith
  · unfold grow
    rw [div_pow, one_pow, mul_one_div, le_div_iff₀ p]
    have : (1 + 2 * v) * (1 - v) ^ 3 ≤ 1 := by
      have h2 : (1 - v) ^ 3 ≤ (1 - v) ^ 2 := by nlinarith [sq_nonneg (1 - v)]
      have h3 : (1 + 2 * v) * (1 - v) ^ 2 ≤ 1 := by nlinarith [sq_nonneg v, mul_nonneg h0 (sq_nonneg v)]
      calc _ ≤ (1 + 2 * v) * (1 - v) ^ 2 := mul_le_mul_of_nonneg_left h2 (by linarith)
        _ ≤ 1 := h3
    calc root a * (1 - v) ^ 3 ≤ (1 + 2 * v) * Real.sqrt a * (1 - v) ^ 3 := mul_le_mul_of_nonneg_right (by linarith) p.le
      _ = Real.sqrt a * ((1 + 2 * v) * (1 - v) ^ 3) := by ring
      _ ≤ Real.sqrt a * 1 := mul_le_mul_of_nonneg_left this hs
      _ = _ := mul_one _

end Verif.Lemmas
