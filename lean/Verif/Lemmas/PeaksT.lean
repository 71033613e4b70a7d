import Verif.Lemmas.Fit
import Verif.Props.Peaks
import Mathlib.Data.List.GetD

/-! # Peak detection after a change of units of time and an affine change of the S/N -/

namespace Verif.Lemmas

open Verif.Model Verif.Props

set_option linter.unusedSectionVars false

/-- A percentile lies between two elements. -/
theorem percentile_between (x : List ℝ) (hx : x ≠ []) (q : ℝ) (h0 : 0 ≤ q) (h1 : q ≤ 100) :
    (∃ u ∈ x, u ≤ percentile x q) ∧ ∃ u ∈ x, percentile x q ≤ u := by
  set t := x.mergeSort (· ≤ ·) with ht
  have hlen : t.length = x.length := List.length_mergeSort x
  have hn : 1 ≤ x.length := List.length_pos_iff.mpr hx
  have hnK : (0 : ℝ) ≤ (x.length : ℝ) - 1 := by
    have : ((1 : ℕ) : ℝ) ≤ x.length := Nat.cast_le.mpr hn
    push_cast at this
    linarith
  have hsort : t.Pairwise (· ≤ ·) := by
    have := List.pairwise_mergeSort (le := fun a b : ℝ => decide (a ≤ b))
      (fun a b c h1 h2 => by simp only [decide_eq_true_eq] at *; exact le_trans h1 h2)
      (fun a b => by simp only [Bool.or_eq_true, decide_eq_true_eq]; exact le_total _ _) x
    exact this.imp (fun h => by simpa using h)
  have hmem : ∀ i, i < x.length → t.getD i 0 ∈ x := by
    intro i hi
    rw [← hlen] at hi
    rw [List.getD_eq_getElem _ _ hi]
    exact List.mem_mergeSort.mp (List.getElem_mem hi)
  unfold percentile
  simp only [← ht]
  set v := ((x.length : ℝ) - 1) * q / 100
  have hv0 : 0 ≤ v := by positivity
  have hv1 : v ≤ (x.length : ℝ) - 1 := by
    rw [div_le_iff₀ (by norm_num)]
    exact mul_le_mul_of_nonneg_left h1 hnK
  have hfl : (⌊v⌋₊ : ℝ) ≤ v := Nat.floor_le hv0
  have hfu : v < ⌊v⌋₊ + 1 := Nat.lt_floor_add_one v
  have hlt : ⌊v⌋₊ < x.length := by
    have h1 : (⌊v⌋₊ : ℝ) < (x.length : ℝ) := by linarith
    exact_mod_cast h1
  by_cases h : ⌊v⌋₊ + 1 < x.length
  · have hm : t.getD ⌊v⌋₊ 0 ≤ t.getD (⌊v⌋₊ + 1) 0 := by
      rw [List.getD_eq_getElem _ _ (by omega), List.getD_eq_getElem _ _ (by omega)]
      exact List.pairwise_iff_getElem.mp hsort _ _ _ _ (by omega)
    refine ⟨⟨_, hmem _ hlt, ?_⟩, ⟨_, hmem _ h, ?_⟩⟩
    · have := mul_nonneg (sub_nonneg.mpr hfl) (sub_nonneg.mpr hm)
      linarith
    · have := mul_nonneg (show 0 ≤ 1 - (v - ⌊v⌋₊) by linarith) (sub_nonneg.mpr hm)
      linarith
  · have h2 : ⌊v⌋₊ + 1 = x.length := by omega
    have h3 : ((⌊v⌋₊ : ℝ)) = (x.length : ℝ) - 1 := by rw [← h2]; push_cast; ring
    have h4 : v - ⌊v⌋₊ = 0 := by linarith
    rw [h4, zero_mul, add_zero]
    exact ⟨⟨_, hmem _ hlt, le_rfl⟩, ⟨_, hmem _ hlt, le_rfl⟩⟩

/-- A percentile follows an increasing affine change of the data. -/
theorem percentile_affine (x : List ℝ) (hx : x ≠ []) (q : ℝ) (h0 : 0 ≤ q) (h1 : q ≤ 100) (α β : ℝ) (hα : 0 < α) :
    percentile (x.map fun v => α * v + β) q = α * percentile x q + β := by
  have hs : (x.map fun v => α * v + β).mergeSort (· ≤ ·) = (x.mergeSort (· ≤ ·)).map fun v => α * v + β := by
    rw [List.map_mergeSort]
    intro a _ b _
    simp only [add_le_add_iff_right, mul_le_mul_iff_right₀ hα]
  unfold percentile
  simp only [hs, List.length_map]
  set t := x.mergeSort (· ≤ ·) with ht
  have hlen : t.length = x.length := List.length_mergeSort x
  have hn : 1 ≤ x.length := List.length_pos_iff.mpr hx
  have hnK : (0 : ℝ) ≤ (x.length : ℝ) - 1 := by
    have : ((1 : ℕ) : ℝ) ≤ x.length := Nat.cast_le.mpr hn
    push_cast at this
    linarith
  set v := ((x.length : ℝ) - 1) * q / 100
  have hv0 : 0 ≤ v := by positivity
  have hv1 : v ≤ (x.length : ℝ) - 1 := by
    rw [div_le_iff₀ (by norm_num)]
    exact mul_le_mul_of_nonneg_left h1 hnK
  have hfl : (⌊v⌋₊ : ℝ) ≤ v := Nat.floor_le hv0
  have hfu : v < ⌊v⌋₊ + 1 := Nat.lt_floor_add_one v
  have hlt : ⌊v⌋₊ < x.length := by
    have h1 : (⌊v⌋₊ : ℝ) < (x.length : ℝ) := by linarith
    exact_mod_cast h1
  have hget : ∀ i, i < x.length → (t.map fun v => α * v + β).getD i 0 = α * t.getD i 0 + β := by
    intro i hi
    rw [← hlen] at hi
    rw [List.getD_eq_getElem _ _ hi, List.getD_eq_getElem _ _ (by simpa using hi), List.getElem_map]
  rw [hget _ hlt]
  by_cases h : ⌊v⌋₊ + 1 < x.length
  · rw [hget _ h]
    ring
  · have h2 : ⌊v⌋₊ + 1 = x.length := by omega
    have h3 : ((⌊v⌋₊ : ℝ)) = (x.length : ℝ) - 1 := by rw [← h2]; push_cast; ring
    have h4 : v - ⌊v⌋₊ = 0 := by linarith
    rw [h4]
    ring

theorem reshapeRow_map (p : ℕ) (x : List ℝ) (i : ℕ) (g : ℝ → ℝ) : reshapeRow p (x.map g) i = (reshapeRow p x i).map g := by
  unfold reshapeRow
  rw [List.map_take, List.map_drop]

theorem reshapeRow_length {p m i : ℕ} {x : List ℝ} (hi : i < m) (hx : m * p ≤ x.length) :
    (reshapeRow p (x.take (m * p)) i).length = p := by
  unfold reshapeRow
  have h := Nat.mul_le_mul_right p (show i + 1 ≤ m from hi)
  rw [Nat.add_mul, Nat.one_mul] at h
  simp only [List.length_take, List.length_drop]
  rw [Nat.min_eq_left hx]
  omega

/-- The change of the control points. -/
theorem segmentStats_transform (f s : List ℝ) (hfs : f.length = s.length) (T segwidth c α β : ℝ) (hc : 0 < c) (hα : 0 < α) :
    segmentStats (f.map (· / c)) (s.map fun v => α * v + β) (c * T) segwidth =
      (segmentStats f s T segwidth).map fun r =>
        (r.1.map (· / c), r.2.1.map (fun v => α * v + β), r.2.2.map (α * ·)) := by
  unfold segmentStats
  have hT : (c * T = 0) ↔ T = 0 := by simp [hc.ne']
  simp only [hT]
  by_cases h0 : T = 0
  · simp only [h0, if_true]
    rfl
  simp only [h0, if_false]
  rw [List.head?_map, List.getLast?_map]
  cases f.head? with
  | none => rfl
  | some f0 =>
    cases f.getLast? with
    | none => rfl
    | some f1 =>
      simp only [Option.map_some]
      have hw : segwidth / (c * T) = 0 ↔ segwidth / T = 0 := by
        simp [hc.ne', h0]
      simp only [hw]
      by_cases h1 : segwidth / T = 0
      · simp only [h1, if_true]
        rfl
      simp only [h1, if_false]
      have hr : |f1 / c - f0 / c| / (segwidth / (c * T)) = |f1 - f0| / (segwidth / T) := by
        rw [← sub_div, abs_div, abs_of_pos hc]
        have : segwidth ≠ 0 := by intro e; rw [e] at h1; simp at h1
        field_simp
      rw [hr]
      set m := ⌈|f1 - f0| / (segwidth / T)⌉₊ with hm
      by_cases h2 : m = 0
      · simp only [h2, if_true]
        rfl
      simp only [h2, if_false, List.length_map]
      by_cases h3 : f.length / m = 0
      · simp only [h3, if_true]
        rfl
      simp only [h3, if_false, Except.map, Except.ok.injEq, Prod.mk.injEq]
      set p := f.length / m with hp
      have hmp : m * p ≤ f.length := Nat.mul_div_le _ _
      have row : ∀ (x : List ℝ), m * p ≤ x.length → ∀ (q : ℝ), 0 ≤ q → q ≤ 100 → ∀ u v : ℝ, 0 < u →
          (List.range m).map (fun i => percentile (reshapeRow p ((x.map fun z => u * z + v).take (m * p)) i) q) =
          ((List.range m).map (fun i => percentile (reshapeRow p (x.take (m * p)) i) q)).map fun z => u * z + v := by
        intro x hx q hq0 hq1 u v hu
        rw [List.map_map]
        apply List.map_congr_left
        intro i hi
        simp only [Function.comp]
        rw [← List.map_take, reshapeRow_map, percentile_affine _ _ q hq0 hq1 u v hu]
        have := reshapeRow_length (List.mem_range.mp hi) hx
        intro hcon
        rw [hcon] at this
        simp only [List.length_nil] at this
        exact h3 this.symm
      have hf : f.map (· / c) = f.map fun z => c⁻¹ * z + 0 := by
        apply List.map_congr_left
        intro z _
        rw [div_eq_inv_mul, add_zero]
      refine ⟨?_, ?_, ?_⟩
      · rw [hf, row f hmp 50 (by norm_num) (by norm_num) c⁻¹ 0 (inv_pos.mpr hc)]
        apply List.map_congr_left
        intro z _
        rw [div_eq_inv_mul, add_zero]
      · exact row s (by omega) 50 (by norm_num) (by norm_num) α β hα
      · rw [row s (by omega) 75 (by norm_num) (by norm_num) α β hα, row s (by omega) 25 (by norm_num) (by norm_num) α β hα]
        rw [List.zipWith_map_left, List.zipWith_map_right, List.map_zipWith]
        congr 1
        funext a b
        ring

/-- The control frequencies of decreasing positive frequencies are positive and all different. -/
theorem control_freqs {f s : List ℝ} {T segwidth : ℝ} {fc smed sstd : List ℝ} (hd : f.Pairwise (· > ·)) (hpos : ∀ v ∈ f, 0 < v)
    (h : segmentStats f s T segwidth = .ok (fc, smed, sstd)) : fc.Nodup ∧ (∀ v ∈ fc, 0 < v) ∧ smed.length = fc.length ∧
      sstd.length = fc.length := by
  unfold segmentStats at h
  split_ifs at h with hT
  split at h
  · rename_i f0 f1 h0 h1
    simp only at h
    split_ifs at h with hw hm hp
    simp only [Except.ok.injEq, Prod.mk.injEq] at h
    obtain ⟨e1, e2, e3⟩ := h
    set m := ⌈|f1 - f0| / (segwidth / T)⌉₊ with hm'
    set p := f.length / m with hp'
    have hmp : m * p ≤ f.length := Nat.mul_div_le _ _
    have hne : ∀ i, i < m → reshapeRow p (f.take (m * p)) i ≠ [] := by
      intro i hi hcon
      have := reshapeRow_length hi hmp
      rw [hcon] at this
      simp only [List.length_nil] at this
      exact hp this.symm
    have hmem : ∀ i, i < m → ∀ v ∈ reshapeRow p (f.take (m * p)) i, ∃ k, ∃ hk : k < f.length, i * p ≤ k ∧ k < (i + 1) * p ∧ f[k] = v := by
      intro i hi v hv
      obtain ⟨j, hj, rfl⟩ := List.mem_iff_getElem.mp hv
      have hl := reshapeRow_length hi hmp
      have hjp : j < p := by omega
      have hh := Nat.mul_le_mul_right p (show i + 1 ≤ m from hi)
      rw [Nat.add_mul, Nat.one_mul] at hh
      refine ⟨i * p + j, by omega, by omega, by rw [Nat.add_mul, Nat.one_mul]; omega, ?_⟩
      simp [reshapeRow]
    refine ⟨?_, ?_, ?_, ?_⟩
    · rw [← e1]
      rw [List.Nodup, List.pairwise_map]
      have hpr : (List.range m).Pairwise (fun i j => i < j ∧ j < m) := by
        rw [List.pairwise_iff_getElem]
        intro i j hi hj hij
        simp only [List.length_range] at hi hj
        simp only [List.getElem_range]
        exact ⟨hij, hj⟩
      refine hpr.imp ?_
      rintro i j ⟨hij, hj⟩ heq
      obtain ⟨⟨u, hu, hul⟩, -⟩ := percentile_between _ (hne i (by omega)) 50 (by norm_num) (by norm_num)
      obtain ⟨-, ⟨u', hu', hul'⟩⟩ := percentile_between _ (hne j hj) 50 (by norm_num) (by norm_num)
      obtain ⟨k, hk, _, k2, rfl⟩ := hmem i (by omega) u hu
      obtain ⟨k', hk', k3, _, rfl⟩ := hmem j hj u' hu'
      have hkk : k < k' := by
        have := Nat.mul_le_mul_right p (show i + 1 ≤ j from hij)
        omega
      have := List.pairwise_iff_getElem.mp hd k k' hk hk' hkk
      rw [heq] at hul
      linarith
    · rw [← e1]
      intro v hv
      rw [List.mem_map] at hv
      obtain ⟨i, hi, rfl⟩ := hv
      have hi := List.mem_range.mp hi
      obtain ⟨⟨u, hu, hul⟩, -⟩ := percentile_between _ (hne i hi) 50 (by norm_num) (by norm_num)
      obtain ⟨k, hk, _, _, rfl⟩ := hmem i hi u hu
      exact lt_of_lt_of_le (hpos _ (List.getElem_mem hk)) hul
    · rw [← e1, ← e2]; simp
    · rw [← e1, ← e3]; simp
  · cases h

/-- The fitted threshold after a change of the unit of frequency and an affine change of the control values. -/
theorem fit_transform {d : ℕ} {fit : List ℝ → List ℝ → ℝ → ℝ} (hfit : IsFitThreshold d fit) (fc tc : List ℝ)
    (hl : tc.length = fc.length) (hnd : fc.Nodup) (hpos : ∀ v ∈ fc, 0 < v) (hd : d < fc.length) (c α β : ℝ) (hc : 0 < c)
    (hα : 0 < α) (f : ℝ) (hf : 0 < f) :
    fit (fc.map (· / c)) (tc.map fun v => α * v + β) (f / c) = α * fit fc tc f + β := by
  obtain ⟨q, hq, eq⟩ := hfit fc tc
  obtain ⟨r, hr, er⟩ := hfit (fc.map (· / c)) (tc.map fun v => α * v + β)
  have hpts : logPoints (fc.map (· / c)) (tc.map fun v => α * v + β) =
      (logPoints fc tc).map fun z => (z.1 - Real.log c, α * z.2 + β) := by
    unfold logPoints
    rw [List.zip_map, List.map_map, List.map_map]
    apply List.map_congr_left
    intro z hz
    have := hpos z.1 (List.of_mem_zip hz).1
    simp only [Function.comp, Prod.map]
    rw [Real.log_div this.ne' hc.ne']
  rw [hpts] at hr
  have ht := polyfit_transform hq (Real.log c) α β hα
  have hcard : d < (((logPoints fc tc).map fun z => (z.1 - Real.log c, α * z.2 + β)).map Prod.fst).toFinset.card := by
    have e : (((logPoints fc tc).map fun z => (z.1 - Real.log c, α * z.2 + β)).map Prod.fst) =
        fc.map fun v => Real.log v - Real.log c := by
      unfold logPoints
      rw [List.map_map, List.map_map]
      have : fc = (fc.zip tc).map Prod.fst := by
        rw [List.map_fst_zip]
        omega
      conv_rhs => rw [this]
      rw [List.map_map]
      rfl
    rw [e, List.toFinset_card_of_nodup, List.length_map]
    · exact hd
    · rw [List.nodup_map_iff_inj_on hnd]
      intro x hx y hy hxy
      exact Real.log_injOn_pos (hpos x hx) (hpos y hy) (by linarith)
  rw [polyfit_unique hr ht hcard] at er
  rw [er, eq, Real.log_div hf.ne' hc.ne']
  simp

/-- The dynamic threshold after the changes. -/
theorem dynThreshold_transform {d : ℕ} {fit : List ℝ → List ℝ → ℝ → ℝ} (hfit : IsFitThreshold d fit) (p : PeakParams ℝ)
    (hd : d < p.minseg) (f s : List ℝ) (hfs : f.length = s.length) (hdec : f.Pairwise (· > ·)) (hpos : ∀ v ∈ f, 0 < v)
    (T c α β : ℝ) (hc : 0 < c) (hα : 0 < α) :
    (∀ e, dynThreshold fit p f s T = .error e →
      dynThreshold fit { p with smin := α * p.smin + β } (f.map (· / c)) (s.map fun v => α * v + β) (c * T) = .error e) ∧
    ∀ thr, dynThreshold fit p f s T = .ok thr →
      ∃ thr', dynThreshold fit { p with smin := α * p.smin + β } (f.map (· / c)) (s.map fun v => α * v + β) (c * T) = .ok thr' ∧
        ∀ v, 0 < v → thr' (v / c) = α * thr v + β := by
  unfold dynThreshold
  simp only [segmentStats_transform f s hfs T p.segwidth c α β hc hα]
  cases hs : segmentStats f s T p.segwidth with
  | error e => exact ⟨fun e' h => h, fun thr h => nomatch h⟩
  | ok r =>
    obtain ⟨fc, smed, sstd⟩ := r
    obtain ⟨g1, g2, g3, g4⟩ := control_freqs hdec hpos hs
    simp only [Except.map, List.length_map]
    refine ⟨fun e h => (nomatch h), fun thr h => ?_⟩
    refine ⟨_, rfl, ?_⟩
    cases h
    by_cases hm : fc.length ≥ p.minseg
    · simp only [hm, if_true]
      intro v hv
      have e : List.zipWith (fun a b => a + p.nstd * b) (smed.map fun v => α * v + β) (sstd.map (α * ·)) =
          (List.zipWith (fun a b => a + p.nstd * b) smed sstd).map fun v => α * v + β := by
        rw [List.zipWith_map_left, List.zipWith_map_right, List.map_zipWith]
        congr 1
        funext a b
        ring
      rw [e]
      exact fit_transform hfit _ _ (by simp [g3, g4]) g1 g2 (by omega) c α β hc hα v hv
    · simp only [hm, if_false]
      intro v _
      trivial

theorem cluster1d_scale {argsort : List ℝ → List ℕ} (ho : ByOrder argsort) (x : List ℝ) (r c : ℝ) (hc : 0 < c) (b : Bool) :
    cluster1d argsort (x.map (· / c)) (r / c) b = cluster1d argsort x r b := by
  have hget : ∀ i, (x.map (· / c)).getD i 0 = x.getD i 0 / c := by
    intro i
    simp only [List.getD, List.getElem?_map]
    cases x[i]? <;> simp
  have ha : argsort (x.map (· / c)) = argsort x := by
    refine (ho x (x.map (· / c)) (by simp) ?_).symm
    intro i j _ _
    rw [hget, hget, div_le_div_iff_of_pos_right hc]
  have hdiff : ∀ l : List ℝ, diff (l.map (· / c)) = (diff l).map (· / c) := by
    intro l
    unfold diff
    rw [← List.map_tail, List.zipWith_map_left, List.zipWith_map_right, List.map_zipWith]
    congr 1
    funext a b
    ring
  unfold cluster1d
  simp only [List.length_map, ha]
  have hmap : ∀ l : List ℕ, l.map (fun i => (x.map (· / c)).getD i 0) = (l.map fun i => x.getD i 0).map (· / c) := by
    intro l
    rw [List.map_map]
    apply List.map_congr_left
    intro i _
    rw [hget]
    rfl
  simp only [hmap, hdiff]
  have hd : ∀ l : List ℝ, (List.range (l.map (· / c)).length).filter (fun i => |(l.map (· / c)).getD i 0| > r / c) =
      (List.range l.length).filter (fun i => |l.getD i 0| > r) := by
    intro l
    rw [List.length_map]
    apply List.filter_congr
    intro i _
    have : (l.map (· / c)).getD i 0 = l.getD i 0 / c := by
      simp only [List.getD, List.getElem?_map]
      cases l[i]? <;> simp
    rw [this, abs_div, abs_of_pos hc]
    simp only [gt_iff_lt, div_lt_div_iff_of_pos_right hc]
  cases b with
  | true => simp only [if_true, hd]
  | false => simp only [Bool.false_eq_true, if_false, hd]

theorem argmaxAux_affine (α β : ℝ) (hα : 0 < α) (l : List ℝ) : ∀ (i : ℕ) (v : ℝ) (best : ℕ),
    argmaxAux (l.map fun z => α * z + β) i (α * v + β) best = argmaxAux l i v best := by
  induction l with
  | nil => intro i v best; rfl
  | cons a l ih =>
    intro i v best
    simp only [List.map_cons, argmaxAux]
    have : (α * v + β < α * a + β) ↔ v < a := by
      rw [add_lt_add_iff_right, mul_lt_mul_iff_right₀ hα]
    simp only [this]
    split_ifs
    · exact ih _ _ _
    · exact ih _ _ _

theorem argmax_affine (α β : ℝ) (hα : 0 < α) (l : List ℝ) : argmax (l.map fun z => α * z + β) = argmax l := by
  cases l with
  | nil => rfl
  | cons a l => exact argmaxAux_affine α β hα l 1 a 0

theorem selectPeaks_transform {argsort : List ℝ → List ℕ} (ho : ByOrder argsort) (hs : IsArgsort argsort) (thr thr' : ℝ → ℝ)
    (smin radius : ℝ) (f s : List ℝ) (hfs : f.length = s.length) (hpos : ∀ v ∈ f, 0 < v) (c α β : ℝ) (hc : 0 < c) (hα : 0 < α)
    (hthr : ∀ v, 0 < v → thr' (v / c) = α * thr v + β) :
    selectPeaks argsort thr' (α * smin + β) (radius / c) (f.map (· / c)) (s.map fun v => α * v + β) =
      selectPeaks argsort thr smin radius f s := by
  have hgf : ∀ i, (f.map (· / c)).getD i 0 = f.getD i 0 / c := by
    intro i
    simp only [List.getD, List.getElem?_map]
    cases f[i]? <;> simp
  have hgs : ∀ i, i < f.length → (s.map fun v => α * v + β).getD i 0 = α * s.getD i 0 + β := by
    intro i hi
    rw [hfs] at hi
    simp only [List.getD, List.getElem?_map, List.getElem?_eq_getElem hi, Option.map_some, Option.getD_some]
  have hidx : (List.range (f.map (· / c)).length).filter (fun i => (s.map fun v => α * v + β).getD i 0 >
        thr' ((f.map (· / c)).getD i 0) ∧ (s.map fun v => α * v + β).getD i 0 > α * smin + β) =
      (List.range f.length).filter (fun i => s.getD i 0 > thr (f.getD i 0) ∧ s.getD i 0 > smin) := by
    rw [List.length_map]
    apply List.filter_congr
    intro i hi
    have hi := List.mem_range.mp hi
    rw [hgs i hi, hgf, hthr]
    · simp only [gt_iff_lt, add_lt_add_iff_right, mul_lt_mul_iff_right₀ hα]
    · rw [List.getD_eq_getElem _ _ hi]
      exact hpos _ (List.getElem_mem hi)
  unfold selectPeaks
  simp only [hidx]
  set indices := (List.range f.length).filter (fun i => s.getD i 0 > thr (f.getD i 0) ∧ s.getD i 0 > smin) with hI
  have hfsel : indices.map (fun i => (f.map (· / c)).getD i 0) = (indices.map fun i => f.getD i 0).map (· / c) := by
    rw [List.map_map]
    apply List.map_congr_left
    intro i _
    rw [hgf]
    rfl
  rw [hfsel, cluster1d_scale ho _ _ _ hc]
  apply List.map_congr_left
  intro cl hcl
  have hlt : ∀ k ∈ cl, k < indices.length := by
    intro k hk
    have h := (cluster1d_spec argsort hs (indices.map fun i => f.getD i 0) radius false (by simp)).1.mem_iff (a := k)
    have := h.mp (List.mem_flatten.mpr ⟨cl, hcl, hk⟩)
    simpa using this
  have hmem : ∀ i ∈ cl.map (fun k => indices.getD k 0), i < f.length := by
    intro i hi
    rw [List.mem_map] at hi
    obtain ⟨k, hk, rfl⟩ := hi
    rw [List.getD_eq_getElem _ _ (hlt k hk)]
    have hall : ∀ v ∈ indices, v < f.length := by
      intro v hv
      rw [hI, List.mem_filter, List.mem_range] at hv
      exact hv.1
    exact hall _ (List.getElem_mem (hlt k hk))
  have e : (cl.map fun k => indices.getD k 0).map (fun i => (s.map fun v => α * v + β).getD i 0) =
      ((cl.map fun k => indices.getD k 0).map fun i => s.getD i 0).map fun z => α * z + β := by
    rw [List.map_map (g := fun z => α * z + β)]
    apply List.map_congr_left
    intro i hi
    exact hgs i (hmem i hi)
  rw [e, argmax_affine α β hα]

/-- A periodogram with times multiplied by `c` and S/N changed to `α S + β`. -/
noncomputable def pgramT (c α β : ℝ) (g : Pgram ℝ) : Pgram ℝ :=
  { g with periods := g.periods.map (c * ·), snrs := g.snrs.map (fun row => row.map fun v => α * v + β), tobs := c * g.tobs }

/-- A peak with times multiplied by `c` and S/N changed to `α S + β`. -/
noncomputable def peakT (c α β : ℝ) (p : Peak ℝ) : Peak ℝ :=
  { p with period := c * p.period, freq := p.freq / c, snr := α * p.snr + β }

/-- A periodogram with increasing positive trial periods. -/
structure Shaped (g : Pgram ℝ) : Prop where
  ok : PgramOK g
  inc : g.periods.Pairwise (· < ·)
  pos : ∀ p ∈ g.periods, 0 < p

theorem freqs_T (c α β : ℝ) (g : Pgram ℝ) : (pgramT c α β g).freqs = g.freqs.map (· / c) := by
  unfold Pgram.freqs pgramT
  rw [List.map_map, List.map_map]
  apply List.map_congr_left
  intro p _
  simp only [Function.comp]
  rw [div_div, mul_comm]

theorem column_T (c α β : ℝ) (g : Pgram ℝ) (hg : Shaped g) {iw : ℕ} (h : iw < g.widths.length) :
    (pgramT c α β g).column iw = (g.column iw).map fun v => α * v + β := by
  unfold Pgram.column pgramT
  rw [List.map_map, List.map_map]
  apply List.map_congr_left
  intro row hrow
  have := hg.ok.row row hrow
  simp only [Function.comp, List.getD, List.getElem?_map]
  rw [List.getElem?_eq_getElem (by omega)]
  rfl

theorem freqs_facts {g : Pgram ℝ} (hg : Shaped g) (iw : ℕ) : g.freqs.length = (g.column iw).length ∧
    g.freqs.Pairwise (· > ·) ∧ ∀ v ∈ g.freqs, 0 < v := by
  refine ⟨by simp [Pgram.freqs, Pgram.column, hg.ok.snrs], ?_, ?_⟩
  · unfold Pgram.freqs
    rw [List.pairwise_map]
    refine (List.pairwise_iff_getElem.mpr ?_)
    intro i j hi hj hij
    have h1 := List.pairwise_iff_getElem.mp hg.inc i j hi hj hij
    exact one_div_lt_one_div_of_lt (hg.pos _ (List.getElem_mem hi)) h1
  · intro v hv
    unfold Pgram.freqs at hv
    rw [List.mem_map] at hv
    obtain ⟨p, hp, rfl⟩ := hv
    exact one_div_pos.mpr (hg.pos p hp)

theorem peaksOfWidth_transform {argsort : List ℝ → List ℕ} (ho : ByOrder argsort) (hs : IsArgsort argsort) {d : ℕ}
    {fit : List ℝ → List ℝ → ℝ → ℝ} (hfit : IsFitThreshold d fit) (p : PeakParams ℝ) (hd : d < p.minseg) (g : Pgram ℝ)
    (hg : Shaped g) (iw width : ℕ) (hiw : iw < g.widths.length) (c α β : ℝ) (hc : 0 < c) (hα : 0 < α) :
    peaksOfWidth argsort fit { p with smin := α * p.smin + β } (pgramT c α β g) iw width =
      (peaksOfWidth argsort fit p g iw width).map (List.map (peakT c α β)) := by
  obtain ⟨k1, k2, k3⟩ := freqs_facts hg iw
  obtain ⟨t1, t2⟩ := dynThreshold_transform hfit p hd g.freqs (g.column iw) k1 k2 k3 g.tobs c α β hc hα
  unfold peaksOfWidth findPeaksSingle
  simp only [column_T c α β g hg hiw, freqs_T]
  have hT : (pgramT c α β g).tobs = c * g.tobs := rfl
  have hfb : (pgramT c α β g).foldbins = g.foldbins := rfl
  rw [hT, hfb]
  cases hdyn : dynThreshold fit p g.freqs (g.column iw) g.tobs with
  | error e =>
    rw [t1 e hdyn]
    rfl
  | ok thr =>
    obtain ⟨thr', ht, hthr⟩ := t2 thr hdyn
    rw [ht]
    simp only [Except.map, Except.ok.injEq]
    have hr : p.clrad / (c * g.tobs) = p.clrad / g.tobs / c := by rw [div_div, mul_comm]
    rw [hr, selectPeaks_transform ho hs thr thr' p.smin _ g.freqs _ k1 k3 c α β hc hα hthr, List.map_map]
    apply List.map_congr_left
    intro ip hip
    have hlt : ip < g.freqs.length := by
      have := selectPeaks_lt argsort hs thr p.smin (p.clrad / g.tobs) g hg.ok iw ip hip
      simpa [Pgram.freqs] using this
    have e1 : (g.freqs.map (· / c)).getD ip 0 = g.freqs.getD ip 0 / c := by
      simp only [List.getD, List.getElem?_map]
      cases g.freqs[ip]? <;> simp
    have e2 : ((g.column iw).map fun v => α * v + β).getD ip 0 = α * (g.column iw).getD ip 0 + β := by
      rw [k1] at hlt
      simp only [List.getD, List.getElem?_map, List.getElem?_eq_getElem hlt, Option.map_some, Option.getD_some]
    simp only [Function.comp, peakT, e1, e2, Peak.mk.injEq, and_true]
    rw [one_div_div, mul_one_div]

theorem mapM_transform {ε A B B' : Type} {f : A → Except ε B} {f' : A → Except ε B'} {h : B → B'} {l : List A}
    (H : ∀ x ∈ l, f' x = (f x).map h) : l.mapM f' = (l.mapM f).map (List.map h) := by
  induction l with
  | nil => rfl
  | cons a l ih =>
    rw [List.mapM_cons, List.mapM_cons, ih (fun x hx => H x (List.mem_cons_of_mem _ hx)), H a (List.mem_cons_self ..)]
    cases f a with
    | error e => rfl
    | ok b =>
      cases l.mapM f with
      | error e => rfl
      | ok r => rfl

/-- `find_peaks` after a change of the unit of time and an affine change of the S/N. -/
theorem findPeaks_transform {argsort : List ℝ → List ℕ} (ho : ByOrder argsort) (hs : IsArgsort argsort) {d : ℕ}
    {fit : List ℝ → List ℝ → ℝ → ℝ} (hfit : IsFitThreshold d fit) (p : PeakParams ℝ) (hd : d < p.minseg) (g : Pgram ℝ)
    (hg : Shaped g) (c α β : ℝ) (hc : 0 < c) (hα : 0 < α) :
    findPeaks argsort fit { p with smin := α * p.smin + β } (pgramT c α β g) =
      (findPeaks argsort fit p g).map (List.map (peakT c α β)) := by
  unfold findPeaks
  have hw : (pgramT c α β g).widths = g.widths := rfl
  rw [hw, mapM_transform (f := fun x : ℕ × ℕ => peaksOfWidth argsort fit p g x.2 x.1) (h := List.map (peakT c α β))]
  · cases g.widths.zipIdx.mapM (fun x : ℕ × ℕ => peaksOfWidth argsort fit p g x.2 x.1) with
    | error e => rfl
    | ok ls =>
      simp only [Except.map, Except.ok.injEq]
      unfold sortPeaks
      rw [← List.map_flatten, List.map_mergeSort]
      intro a _ b _
      simp only [peakT, add_le_add_iff_right, mul_le_mul_iff_right₀ hα]
  · rintro ⟨width, iw⟩ hx
    have := (List.mem_zipIdx' hx).1
    exact peaksOfWidth_transform ho hs hfit p hd g hg iw width this c α β hc hα

end Verif.Lemmas
