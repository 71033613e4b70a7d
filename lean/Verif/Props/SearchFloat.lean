import Verif.Lemmas.SearchFloat
import Verif.Props.Nan
import Verif.Props.SnrF
import Verif.Props.Snr

/-!
# C113: accuracy of the compiled search
-/

namespace Verif.Props

open Verif.Model Verif.Lemmas Verif.Spec Finset

/-! ## The function `downsample` of the extension module -/

theorem dummy_range {A : DArith} (hA : Sane A) {N : ℕ} (hN : N ≤ 2 ^ 50) : InRange A ⟨N, 1, 2, 3, 2, 2⟩ := by
  refine ⟨⟨by norm_num, by norm_num, by norm_num, by norm_num, by norm_num, ?_⟩, hN, by norm_num, by norm_num⟩
  have e2 : A.fl ((2 : ℕ) : ℚ) = (2 : ℕ) := hA.nat 2 (by norm_num)
  simp only
  rw [e2, one_mul, e2]
  norm_num

theorem call_eq {A : DArith} (hA : Sane A) {V : Type*} [Inhabited V] (O : VOps V) (data : List V) {f : ℚ} (hN : data.length ≤ 2 ^ 50)
    (h1 : 1 < f) (h2 : f ≤ data.length) : A.downsampleCall O data f =
      .ok ((List.range ⌊A.fl (A.fl data.length / f)⌋₊).map (dSample A O data.length (fun i => data.getD i default) f)) := by
  have hr := dummy_range hA hN
  set a : DArgs := ⟨data.length, 1, 2, 3, 2, 2⟩ with ha
  have e1 : A.fl (data.length : ℚ) = data.length := d_size hA hr
  have e2 : A.dsSize data.length f = .ok ⌊A.fl (A.fl data.length / f)⌋₊ := d_dsSize hA hr h1.le
  unfold DArith.downsampleCall
  rw [if_neg (by rw [e1]; exact not_not.mpr ⟨h1, h2⟩), e2]
  simp only [Except.bind]
  generalize hn : ⌊A.fl (A.fl data.length / f)⌋₊ = n
  obtain ⟨mem', m1, m2, _⟩ := d_downsample hA hr O 0 h1 h2 data.length (callMem data n) (fun i => data.getD i default)
    (by
      intro i hi
      have hi' : i < data.length := hi
      simp only [callMem, Nat.zero_add]
      rw [dif_pos hi']
      simp [List.getD, hi'])
    (by
      intro i hi
      have hi' : i < n := by rw [← hn]; exact hi
      simp only [callMem]
      rw [dif_neg (by omega), if_pos (by omega)]
      exact fun h => nomatch h)
    (Or.inl (by simp [ha]))
  have m1' : A.downsample O 0 data.length f data.length (callMem data n) = .ok mem' := m1
  rw [m1']
  simp only
  refine Lemmas.mapM_ok _ _ _ ?_
  intro i hi
  have hi' : i < n := List.mem_range.mp hi
  rw [load_of_val (m2 i (by rw [← hn] at hi'; exact hi'))]
  rfl

/-- The number of samples after downsampling. -/
theorem count_bounds {A : DArith} (hA : Sane A) {N : ℕ} (hN : N ≤ 2 ^ 50) {f : ℚ} (hf : 1 ≤ f) :
    ((⌊A.fl (A.fl N / f)⌋₊ : ℕ) : ℚ) * f ≤ (1 + 1 / 2 ^ 53) * N ∧
      (1 - 1 / 2 ^ 53) * (N : ℚ) < (((⌊A.fl (A.fl N / f)⌋₊ : ℕ) : ℚ) + 1) * f := by
  have hf0 : 0 < f := by linarith
  have hq0 : (0 : ℚ) ≤ (N : ℚ) / f := by positivity
  rw [hA.nat N (by omega)]
  constructor
  · have e2 := (Nat.floor_le (Dbl.fl_nonneg hA hq0)).trans (Dbl.fl_le hA hq0)
    have e3 := mul_le_mul_of_nonneg_right e2 hf0.le
    have e4 : (1 + u53) * ((N : ℚ) / f) * f = (1 + u53) * N := by field_simp
    rw [e4] at e3
    exact e3
  · have e2 := lt_of_le_of_lt (Dbl.fl_ge hA hq0) (Nat.lt_floor_add_one _)
    have e3 := mul_lt_mul_of_pos_right e2 hf0
    have e4 : (1 - u53) * ((N : ℚ) / f) * f = (1 - u53) * N := by field_simp
    rw [e4] at e3
    exact e3

/-- C113. The function `downsample` of the extension module, for any type of samples and up to 2^50 of them: `ValueError` exactly if not
`1 < f ≤ size`, otherwise no access outside the arrays, and an output of `n ≥ 1` samples, where `n` is the number of windows in the data up to
rounding. -/
theorem C113_downsample_safe (A : DArith) (hA : Sane A) {V : Type*} [Inhabited V] (O : VOps V) (data : List V) (f : ℚ)
    (hN : data.length ≤ 2 ^ 50) :
    (¬ (1 < f ∧ f ≤ data.length) → A.downsampleCall O data f = .error .valueError) ∧
    (1 < f → f ≤ data.length → ∃ out, A.downsampleCall O data f = .ok out ∧ 1 ≤ out.length ∧
      (out.length : ℚ) * f ≤ (1 + 1 / 2 ^ 53) * data.length ∧ (1 - 1 / 2 ^ 53) * data.length < ((out.length : ℚ) + 1) * f) := by
  have e1 := hA.nat data.length (by omega)
  constructor
  · intro hc
    unfold DArith.downsampleCall
    rw [if_pos (by rw [e1]; exact hc)]
  · intro h1 h2
    refine ⟨_, call_eq hA O data hN h1 h2, ?_⟩
    rw [List.length_map, List.length_range]
    refine ⟨?_, count_bounds hA hN h1.le⟩
    rw [Nat.one_le_floor_iff, e1]
    have : ((1 : ℕ) : ℚ) ≤ (data.length : ℚ) / f := by
      rw [Nat.cast_one, one_le_div (by linarith)]
      exact h2
    exact_mod_cast Dbl.fl_ge_nat hA (by norm_num) this

/-- C113. Accuracy of `downsample`, with the window bounds in double precision and the samples in single precision: every output sample
is within `γ_{⌈f⌉+5}` of the integral of the data over the exact window `[k f, (k + 1) f]`, relative to the integral of the absolute value plus
half the sum of the absolute values of the samples that touch the window, widened by 1/4. -/
theorem C113_downsample {A : DArith} {B : FArith} {u v : ℝ} (hA : Sane A) (hG : Grid A) (h : Rounds B u v) (hu : 1 / 2 ^ 24 ≤ u)
    (data : List ℝ) (hN : data.length ≤ 2 ^ 25) (f : ℚ) (hd : A.fl f = f) (hK : (⌈f⌉₊ + 5 : ℕ) * u < 1) (out : List ℝ)
    (hout : A.downsampleCall (B.searchOps A) data f = .ok out) (k : ℕ) (y : ℝ) (hk : out[k]? = some y) :
    |y - stepIntegral data.length (fun i => data.getD i 0) ((k : ℝ) * f) (((k : ℝ) + 1) * f)| ≤
      gam u (⌈f⌉₊ + 5) * (stepIntegral data.length (fun i => |data.getD i 0|) ((k : ℝ) * f) (((k : ℝ) + 1) * f) +
        1 / 2 * touch data.length (fun i => data.getD i 0) ((k : ℝ) * f) (((k : ℝ) + 1) * f)) := by
  by_cases hc : 1 < f ∧ f ≤ data.length
  · rw [call_eq hA _ data (by omega) hc.1 hc.2] at hout
    simp only [Except.ok.injEq] at hout
    subst hout
    rw [List.getElem?_map] at hk
    rcases e : (List.range ⌊A.fl (A.fl data.length / f)⌋₊)[k]? with _ | k'
    · rw [e] at hk; exact nomatch hk
    rw [e] at hk
    simp only [Option.map_some, Option.some.injEq] at hk
    obtain ⟨hk1, hk2⟩ := List.getElem?_eq_some_iff.mp e
    rw [List.getElem_range] at hk2
    rw [List.length_range] at hk1
    subst hk2 hk
    have hgap : 1 + 2 * u53 ≤ f := by
      have := hG.gap f (by rw [hd]; exact hc.1)
      rw [hd] at this
      exact this
    have c := dSample_close hA h hu (fun i => data.getD i 0) hN hgap hk1
    exact c.1.trans (mul_le_mul_of_nonneg_right (grow_le_gam h _ hK) c.nonneg)
  · rw [(C113_downsample_safe A hA _ data f (by omega)).1 hc] at hout
    exact nomatch hout

/-- Non-vacuity: 1000 samples, downsampling factor 2.5. -/
example : ∃ out, (ieeeDouble someLog (fun x k => rn 53 (x ^ k)) true).downsampleCall
      (single.searchOps (ieeeDouble someLog (fun x k => rn 53 (x ^ k)) true)) (List.replicate 1000 (1 : ℝ)) (5 / 2) = .ok out ∧
    400 ≤ out.length + 1 ∧ (ieeeDouble someLog (fun x k => rn 53 (x ^ k)) true).fl (5 / 2) = 5 / 2 ∧
    ((⌈(5 / 2 : ℚ)⌉₊ + 5 : ℕ) : ℝ) * (1 / 2 ^ 24) < 1 := by
  have hA := sane_some true
  obtain ⟨out, e, _, _, e2⟩ := (C113_downsample_safe _ hA
    (single.searchOps (ieeeDouble someLog (fun x k => rn 53 (x ^ k)) true)) (List.replicate 1000 (1 : ℝ)) (5 / 2)
    (by rw [List.length_replicate]; norm_num)).2 (by norm_num) (by rw [List.length_replicate]; norm_num)
  refine ⟨out, e, ?_, ?_, ?_⟩
  · rw [List.length_replicate] at e2
    have : ((399 : ℕ) : ℚ) < ((out.length + 1 : ℕ) : ℚ) := by
      push_cast at e2 ⊢
      linarith
    have : 399 < out.length + 1 := by exact_mod_cast this
    omega
  · exact rn_rep (by norm_num) ⟨5, -1, by norm_num, by norm_num⟩ (by norm_num)
  · have e : ⌈(5 / 2 : ℚ)⌉₊ = 3 := by rw [Nat.ceil_eq_iff (by norm_num)]; norm_num
    rw [e]
    norm_num

/-! ## The search -/

/-- The exact profile of a trial: sums over the rows, shifted, of the integrals of the data over the windows of width `f`. -/
noncomputable def exactProfile (idx : IdxRule) (data : List ℝ) (t : DTrial) : ℕ → ℝ :=
  stack t.m t.b (sigma idx t.m) (fun r c => downsampled data.length (fun i => data.getD i 0) t.f (r * t.b + c)) t.s

/-- Number of operations in a row on one sample. -/
def trialOps (t : DTrial) : ℕ := 26 + ⌈t.f⌉₊ + Nat.clog 2 t.m

section trial

variable {A : DArith} {B : FArith} {u v : ℝ} (hA : Sane A) (hG : Grid A) (h : Rounds B u v) (hu : 1 / 2 ^ 24 ≤ u) {a : DArgs}
  (hr : InRange A a) (hN : a.size ≤ 2 ^ 25)
include hA hr

/-- The trial `t` of the plan as a `DTrial`. -/
def toTrial (A : DArith) (a : DArgs) (t : ℕ × ℕ × ℕ) : DTrial := ⟨A.f a t.1, nN A a t.1, t.2.1, nN A a t.1 / t.2.1, t.2.2⟩

theorem toTrial_ok {t : ℕ × ℕ × ℕ} (ht : t ∈ dTrials A a) : (toTrial A a t).OK a.size a.bmin a.bmax := by
  obtain ⟨h1, h2, h3, h4, h5⟩ := trial_rows ht
  have hf := d_f_ge_one hA hr t.1
  have hc := count_bounds hA hr.size hf
  exact ⟨hf, ⟨h2, h3.trans ((min_le_left _ _).trans (min_le_left _ _))⟩, hc.1, hc.2, rfl, (d_trial hA hr h2 h3 h4).1, h5⟩

theorem toTrial_period {t : ℕ × ℕ × ℕ} (ht : t ∈ dTrials A a) :
    |dPer A a t - (toTrial A a t).period a.tsamp| ≤ 1 / 2 ^ 50 * (toTrial A a t).period a.tsamp := by
  obtain ⟨h1, h2, h3, h4, h5⟩ := trial_rows ht
  obtain ⟨n1, n2, n3⟩ := d_label_near hA hr h2 h3 h4
  have ht0 := hr.valid.1
  have hf := d_f_ge_one hA hr t.1
  have hft : 0 < A.f a t.1 * a.tsamp := by positivity
  have htau := d_tau_pos hA hr t.1
  have n4 := near_tau hA hr t.1
  have hd : (0 : ℚ) < (t.2.1 : ℚ) - t.2.2 / (((nN A a t.1 / t.2.1 : ℕ) : ℚ) - 1) := by linarith
  have hbb : (0 : ℚ) ≤ (t.2.1 : ℚ) * t.2.1 / ((t.2.1 : ℚ) - t.2.2 / (((nN A a t.1 / t.2.1 : ℕ) : ℚ) - 1)) := by positivity
  have n5 := Near.mul htau.le hft.le hbb hbb n4 (near_refl _)
  have e1 : A.tau a t.1 * ((t.2.1 : ℚ) * t.2.1 / ((t.2.1 : ℚ) - t.2.2 / (((nN A a t.1 / t.2.1 : ℕ) : ℚ) - 1))) =
      exactLabel (A.tau a t.1) t.2.1 (nN A a t.1 / t.2.1) t.2.2 := by
    unfold exactLabel
    ring
  have e2 : A.f a t.1 * a.tsamp * ((t.2.1 : ℚ) * t.2.1 / ((t.2.1 : ℚ) - t.2.2 / (((nN A a t.1 / t.2.1 : ℕ) : ℚ) - 1))) =
      (toTrial A a t).period a.tsamp := by
    unfold DTrial.period toTrial
    simp only
    ring
  have hP : 0 ≤ (toTrial A a t).period a.tsamp := by
    rw [← e2]
    positivity
  rw [e1, e2] at n5
  have n6 := n1.trans n5
  obtain ⟨g1, g2⟩ := n6
  change _ ≤ dPer A a t at g1
  change dPer A a t * _ ≤ _ at g2
  generalize dPer A a t = p at *
  generalize (toTrial A a t).period a.tsamp = P at *
  unfold u53 at g1 g2
  norm_num at g1 g2
  rw [abs_le]
  constructor <;> linarith

include hG h hu hN in
theorem trial_close (idx : IdxRule) (widths : List ℕ) (hne : widths ≠ [])
    (hidx : IdxFor idx (a.size / a.bmin)) (hb : a.bmax * v ≤ u) (hw : ∀ w ∈ widths, 0 < w ∧ w < a.bmin) {t : ℕ × ℕ × ℕ} (ht : t ∈ dTrials A a) :
    ∃ V : ℚ, (toTrial A a t).IsVariance V ∧ 1 / 2 ≤ V ∧ ∀ data : List ℝ, data.length = a.size →
      (trialOps (toTrial A a t) * u < 1 → ∀ k (_ : k < widths.length),
      ∃ e, IsMatchedSnr t.2.1 widths[k] (exactProfile idx data (toTrial A a t)) (Real.sqrt ((toTrial A a t).m * V)) e ∧
        |dSnr A a (B.searchOps A) idx (fun i => data.getD i default) widths t k - e| ≤ gam u (trialOps (toTrial A a t)) *
          (10 * Real.sqrt ((t.2.1 : ℝ) / (widths[k] * (t.2.1 - widths[k]))) * (∑ i ∈ range data.length, |data.getD i 0|) /
            Real.sqrt ((toTrial A a t).m * V))) := by
  have hok := toTrial_ok hA hr ht
  obtain ⟨h1, h2, h3, h4, h5⟩ := trial_rows ht
  obtain ⟨i, b, s⟩ := t
  simp only at h1 h2 h3 h4 h5
  have hq := (grow_facts h).1
  have hf := d_f_ge_one hA hr i
  have hns := d_n_le_size hA hr i
  have hbm := hr.valid.2.2.2.1
  have hm2 : 2 ≤ nN A a i / b := hok.two
  have hmb : nN A a i / b * b ≤ nN A a i := Nat.div_mul_le_self _ _
  have hmn : nN A a i / b ≤ nN A a i := Nat.div_le_self _ _
  have hm : nN A a i / b ≤ a.size / a.bmin := by
    calc _ ≤ a.size / b := Nat.div_le_div_right hns
      _ ≤ _ := Nat.div_le_div_left h2 (by omega)
  have hfN : A.f a i ≤ 2 ^ 25 := by
    have f1 : ((nN A a i : ℕ) : ℚ) * A.f a i ≤ (1 + 1 / 2 ^ 53) * a.size := hok.fits
    have f2 : (2 : ℚ) ≤ ((nN A a i : ℕ) : ℚ) := by exact_mod_cast hm2.trans hmn
    have f3 := mul_le_mul_of_nonneg_right f2 (by linarith : 0 ≤ A.f a i)
    have f4 : (a.size : ℚ) ≤ 2 ^ 25 := by exact_mod_cast hN
    linarith
  obtain ⟨V, v1, v2, v3⟩ := d_variance hA hG (hns.trans hN) hf hfN b (nN A a i / b) s
  refine ⟨V, v1, v2, ?_⟩
  intro data hdata hK k hk
  have hwm := hw _ (List.getElem_mem hk)
  have hV : (0 : ℝ) < V := by
    have : (0 : ℚ) < V := by linarith
    exact_mod_cast this
  have hmR : (0 : ℝ) < ((nN A a i / b : ℕ) : ℝ) := by exact_mod_cast (by omega : 0 < nN A a i / b)
  have hmv : 0 < ((nN A a i / b : ℕ) : ℝ) * V := by positivity
  have n3 := stdNoise_near (A := A) (size := a.size) (f := A.f a i) hA h hu (rows := nN A a i / b) (by omega) (by omega) v2 v3
  have c1 : ∀ r < nN A a i / b, ∀ c < b, Close (grow u) (⌈A.f a i⌉₊ + 5)
      (dStageData A a (B.searchOps A) (fun i => data.getD i 0) i (r * b + c))
      (downsampled a.size (fun i => data.getD i 0) (A.f a i) (r * b + c))
      (downsampled a.size (fun i => |data.getD i 0|) (A.f a i) (r * b + c) +
        1 / 2 * touch a.size (fun i => data.getD i 0) (((r * b + c : ℕ) : ℝ) * A.f a i) ((((r * b + c : ℕ) : ℝ) + 1) * A.f a i)) := by
    intro r hr' c hc
    apply dStage_close hA hG h hu hr _ hN
    have : (r + 1) * b ≤ nN A a i / b * b := Nat.mul_le_mul_right _ hr'
    rw [Nat.add_mul, one_mul] at this
    omega
  have c2 : ∀ c < b, Close (grow u) (⌈A.f a i⌉₊ + 5 + Nat.clog 2 (nN A a i / b))
      (if c < b then dProf A a (B.searchOps A) idx (fun i => data.getD i 0) (i, b, s) c else default)
      (stack (nN A a i / b) b (sigma idx (nN A a i / b)) (fun r c => downsampled a.size (fun i => data.getD i 0) (A.f a i) (r * b + c)) s c)
      (stack (nN A a i / b) b (sigma idx (nN A a i / b)) (fun r c => downsampled a.size (fun i => |data.getD i 0|) (A.f a i) (r * b + c) +
        1 / 2 * touch a.size (fun i => data.getD i 0) (((r * b + c : ℕ) : ℝ) * A.f a i) ((((r * b + c : ℕ) : ℝ) + 1) * A.f a i)) s c) := by
    intro c hc
    rw [if_pos hc]
    exact transformF_close h idx (by omega) (by omega) (by omega) (fun m' a1 a2 => hidx.ok m' (a1.trans hm) a2) c1 h5 hc
  have hbv : (b : ℝ) * v ≤ u := by
    have : (b : ℝ) ≤ a.bmax := by exact_mod_cast hok.bins.2
    exact (mul_le_mul_of_nonneg_right this h.v_nonneg).trans hb
  obtain ⟨out, e, hl, g⟩ := snr1F_close h c2 (dbl_le_grow h hbv) widths hne
    (fun w hwm => ⟨(hw w hwm).1, (hw w hwm).2.trans_le h2⟩) (Real.sqrt_pos.mpr hmv) n3
  obtain ⟨e', he', _⟩ := C11_matched_filter_unique b widths[k] hwm.1 (hwm.2.trans_le h2)
    (exactProfile idx data (toTrial A a (i, b, s))) (Real.sqrt (((nN A a i / b : ℕ) : ℝ) * V)) (Real.sqrt_pos.mpr hmv)
  refine ⟨e', he', ?_⟩
  have hk' : k < out.length := by omega
  have ed : dSnr A a (B.searchOps A) idx (fun i => data.getD i default) widths (i, b, s) k = out[k] := by
    unfold dSnr FArith.searchOps
    simp only
    change (match B.snr1 b (fun c => if c < b then dProf A a (B.searchOps A) idx (fun i => data.getD i 0) (i, b, s) c else default) widths
      (B.stdNoise A (nN A a i / b) a.size (A.f a i)) with
      | .ok l => l.getD k 0
      | .error _ => 0) = _
    rw [e]
    simp [List.getD, hk']
  rw [ed]
  have hE : IsMatchedSnr b widths[k] (stack (nN A a i / b) b (sigma idx (nN A a i / b))
      (fun r c => downsampled a.size (fun i => data.getD i 0) (A.f a i) (r * b + c)) s) (Real.sqrt (((nN A a i / b : ℕ) : ℝ) * V)) e' := by
    rw [← hdata]
    exact he'
  refine (g k hk hk' e' hE).trans ?_
  have hX : ∑ j ∈ range b, stack (nN A a i / b) b (sigma idx (nN A a i / b)) (fun r c =>
      downsampled a.size (fun i => |data.getD i 0|) (A.f a i) (r * b + c) +
        1 / 2 * touch a.size (fun i => data.getD i 0) (((r * b + c : ℕ) : ℝ) * A.f a i) ((((r * b + c : ℕ) : ℝ) + 1) * A.f a i)) s j ≤
      5 / 2 * ∑ i ∈ range data.length, |data.getD i 0| := by
    rw [sum_stack, sum_rows _ b (fun k => downsampled a.size (fun i => |data.getD i 0|) (A.f a i) k +
        1 / 2 * touch a.size (fun i => data.getD i 0) ((k : ℝ) * A.f a i) (((k : ℝ) + 1) * A.f a i)), sum_add_distrib, ← mul_sum, hdata]
    have hfR : (1 : ℝ) ≤ A.f a i := by exact_mod_cast hf
    have s1 := downsampled_sum_le a.size (fun i => data.getD i 0) (f := (A.f a i : ℝ)) (by linarith) (nN A a i / b * b)
    have s2 := touch_sum a.size (fun i => data.getD i 0) (A.f a i : ℝ) hfR (nN A a i / b * b)
    linarith
  have hX0 : 0 ≤ ∑ j ∈ range b, stack (nN A a i / b) b (sigma idx (nN A a i / b)) (fun r c =>
      downsampled a.size (fun i => |data.getD i 0|) (A.f a i) (r * b + c) +
        1 / 2 * touch a.size (fun i => data.getD i 0) (((r * b + c : ℕ) : ℝ) * A.f a i) ((((r * b + c : ℕ) : ℝ) + 1) * A.f a i)) s j :=
    sum_nonneg (fun i hi => (c2 i (mem_range.mp hi)).nonneg)
  apply mul_le_mul
  · have eo : ⌈A.f a i⌉₊ + 5 + Nat.clog 2 (nN A a i / b) + (18 + 3) = trialOps (toTrial A a (i, b, s)) := by
      simp only [trialOps, toTrial]
      omega
    rw [eo]
    exact grow_le_gam h _ hK
  · apply div_le_div_of_nonneg_right _ (Real.sqrt_nonneg _)
    have := mul_le_mul_of_nonneg_left hX (by positivity : (0 : ℝ) ≤ 4 * Real.sqrt ((b : ℝ) / (widths[k] * (b - widths[k]))))
    refine this.trans (le_of_eq ?_)
    ring
  · positivity
  · unfold gam
    apply div_nonneg (mul_nonneg (Nat.cast_nonneg _) h.u_nonneg)
    linarith

end trial

/-- C113. The compiled search, with its bookkeeping in double precision and the samples in single precision. If it succeeds, then every entry
of the output has a trial `(f, n, b, m, s)` that the data allow. The stored number of bins is the one of the trial, the stored period is the period
of the trial to 2^-50, and the stored S/N for boxcar width `w` is within
`γ_K · 10 √(b / (w (b - w))) · Σ|data| / √(m V)` of the exact matched filter output for the exact profile of the trial, where
`K = 26 + ⌈f⌉ + ⌈log₂ m⌉` counts the operations in a row on one sample, and `V` is the documented noise variance. -/
theorem C113_search {A : DArith} {B : FArith} {u v : ℝ} (hA : Sane A) (hG : Grid A) (h : Rounds B u v) (hu : 1 / 2 ^ 24 ≤ u) (idx : IdxRule)
    (data : List ℝ) (tsamp : ℚ) (widths : List ℕ) (hne : widths ≠ []) (pmin pmax : ℚ) (bmin bmax : ℕ) (hb : bmax * v ≤ u)
    (hbins : bmax < 2 ^ 32) (hidx : IdxFor idx (data.length / bmin)) (hN : data.length ≤ 2 ^ 25) (hpmax : pmax ≤ 2 ^ 62 * tsamp)
    (hw : ∀ w ∈ widths, 0 < w ∧ w < bmin) (per : List ℚ) (fb : List ℕ) (snr : List (List ℝ))
    (hs : A.binding (B.searchOps A) idx data tsamp widths pmin pmax bmin bmax = .ok (per, fb, snr)) :
    fb.length = per.length ∧ snr.length = per.length ∧ ∀ (j : ℕ) (p : ℚ), per[j]? = some p →
      ∃ (t : DTrial) (V : ℚ) (row : List ℝ), t.OK data.length bmin bmax ∧ t.IsVariance V ∧ 1 / 2 ≤ V ∧
        fb[j]? = some t.b ∧ |p - t.period tsamp| ≤ 1 / 2 ^ 50 * t.period tsamp ∧ snr[j]? = some row ∧ row.length = widths.length ∧
        ((26 + ⌈t.f⌉₊ + Nat.clog 2 t.m : ℕ) * u < 1 → ∀ (k w : ℕ), widths[k]? = some w → ∃ S e, row[k]? = some S ∧
          IsMatchedSnr t.b w (stack t.m t.b (sigma idx t.m)
            (fun r c => downsampled data.length (fun i => data.getD i 0) t.f (r * t.b + c)) t.s) (Real.sqrt (t.m * V)) e ∧
          |S - e| ≤ gam u (26 + ⌈t.f⌉₊ + Nat.clog 2 t.m) *
            (10 * Real.sqrt ((t.b : ℝ) / (w * (t.b - w))) * (∑ i ∈ range data.length, |data.getD i 0|) / Real.sqrt (t.m * V))) := by
  rcases binding_cases hA (B.searchOps A) idx data.length tsamp widths hne pmin pmax bmin bmax hidx (by omega) (by omega) hpmax with h' | ⟨hr, h'⟩
  · rw [h' data rfl] at hs
    exact nomatch hs
  set a : DArgs := ⟨data.length, tsamp, pmin, pmax, bmin, bmax⟩ with ha
  rw [h' data rfl] at hs
  simp only [Except.ok.injEq, Prod.mk.injEq] at hs
  obtain ⟨rfl, rfl, rfl⟩ := hs
  refine ⟨by simp, by simp, ?_⟩
  intro j p hj
  rw [List.getElem?_map] at hj
  rcases ht : (dTrials A a)[j]? with _ | t
  · rw [ht] at hj; exact nomatch hj
  rw [ht] at hj
  simp only [Option.map_some, Option.some.injEq] at hj
  subst hj
  have htm := List.mem_of_getElem? ht
  have hok := toTrial_ok hA hr htm
  obtain ⟨V, v1, v2, v3⟩ := trial_close hA hG h hu hr hN idx widths hne hidx hb hw htm
  refine ⟨toTrial A a t, V, _, hok, v1, v2, ?_, toTrial_period hA hr htm, by rw [List.getElem?_map, ht]; rfl, by simp, ?_⟩
  · rw [List.getElem?_map, ht, Option.map_some, Nat.mod_eq_of_lt]
    · rfl
    · exact lt_of_le_of_lt hok.bins.2 hbins
  · intro hK k w hk
    obtain ⟨hk', rfl⟩ := List.getElem?_eq_some_iff.mp hk
    obtain ⟨e, e1, e2⟩ := v3 data rfl hK k hk'
    exact ⟨_, e, by rw [List.getElem?_map, List.getElem?_range hk']; rfl, e1, e2⟩

/-- Non-vacuity: a search of 48 samples in single and double precision, with 11 trials. -/
example : ∃ per fb snr, Sane (ieeeDouble someLog (fun x k => rn 53 (x ^ k)) true) ∧
    Grid (ieeeDouble someLog (fun x k => rn 53 (x ^ k)) true) ∧ Rounds single (1 / 2 ^ 24) (1 / 2 ^ 53) ∧
    ((7 : ℕ) : ℝ) * (1 / 2 ^ 53) ≤ 1 / 2 ^ 24 ∧ IdxFor float32Idx ((List.replicate 48 (1 : ℝ)).length / 6) ∧
    (∀ w ∈ ([1, 2] : List ℕ), 0 < w ∧ w < 6) ∧
    (7853151850227303 / 1125899906842624 : ℚ) ≤ 2 ^ 62 * (8106479329266893 / 9007199254740992) ∧
    (ieeeDouble someLog (fun x k => rn 53 (x ^ k)) true).binding (single.searchOps (ieeeDouble someLog (fun x k => rn 53 (x ^ k)) true))
      float32Idx (List.replicate 48 (1 : ℝ)) (8106479329266893 / 9007199254740992) [1, 2] (3039929748475085 / 562949953421312)
      (7853151850227303 / 1125899906842624) 6 7 = .ok (per, fb, snr) ∧ per.length = 11 := by
  have hi : IdxFor float32Idx 8 := Or.inr ⟨Or.inl rfl, by norm_num⟩
  obtain ⟨per, fb, snr, e, hl, _⟩ := C76_false someLog (fun x => Classical.choose_spec (exists_log x)) true
    (single.searchOps (ieeeDouble someLog (fun x k => rn 53 (x ^ k)) true)) float32Idx hi (List.replicate 48 (1 : ℝ))
    (by rw [List.length_replicate]) [1, 2] (by simp)
  refine ⟨per, fb, snr, sane_some true, grid_ieee _ _ _, single_rounds, by norm_num, ?_, by intro w hw; fin_cases hw <;> decide, by norm_num, e, hl⟩
  rw [List.length_replicate]
  exact hi

end Verif.Props
