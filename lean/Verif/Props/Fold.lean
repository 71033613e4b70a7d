import Verif.Props.TimeSeries
import Verif.Props.Ranges
import Mathlib.Algebra.Order.Floor.Semifield

/-! # Folding: properties C37, C38 -/

namespace Verif.Props

open Verif.Model Verif.Spec Verif.Lemmas Finset

/-- The value that belongs in phase bin `j` of period `i` when the data `x` are cut into periods of `bins` bins of `f` samples:
the integral of the data over the bin, times `1 / sqrt(m f)`. -/
noncomputable def foldValue (x : List ℝ) (f : ℝ) (bins m i j : ℕ) : ℝ :=
  stepIntegral x.length (fun k => x.getD k 0) (((i * bins + j : ℕ) : ℝ) * f) ((((i * bins + j : ℕ) : ℝ) + 1) * f) /
    Real.sqrt (m * f)

/-- Sum over the rows. -/
noncomputable def integrated (bins : ℕ) : NdArray → List ℝ
  | .d1 x => x
  | .d2 rows => (List.range bins).map (fun j => (rows.map (fun r => r.getD j 0)).sum)

theorem list_getD_drop_take (x : List ℝ) {a n j : ℕ} (hj : j < n) : ((x.drop a).take n).getD j 0 = x.getD (a + j) 0 := by
  simp [List.getD, hj, List.getElem?_drop]

theorem reshape_eq (x : List ℝ) (m bins : ℕ) (h : m * bins ≤ x.length) :
    reshape x m bins = (List.range m).map (fun i => (List.range bins).map (fun j => x.getD (i * bins + j) 0)) := by
  unfold reshape
  apply List.map_congr_left
  intro i hi
  rw [List.mem_range] at hi
  have h1 : i * bins + bins ≤ x.length := by
    have : (i + 1) * bins ≤ m * bins := Nat.mul_le_mul_right _ hi
    linarith
  apply List.ext_getElem
  · simp; omega
  · intro j h2 h3
    simp only [List.length_map, List.length_range] at h3
    simp only [List.getElem_take, List.getElem_drop, List.getElem_map, List.getElem_range]
    rw [List.getD, List.getElem?_eq_getElem (by omega)]
    rfl

theorem column_eq (m bins : ℕ) (g : ℕ → ℕ → ℝ) {j : ℕ} (hj : j < bins) :
    column ((List.range m).map (fun i => (List.range bins).map (fun j => g i j))) j = (List.range m).map (fun i => g i j) := by
  unfold column
  rw [List.map_map]
  apply List.map_congr_left
  intro i _
  simp [List.getD, hj]

theorem overlap_full {N i : ℕ} (hi : i < N) : overlap i 0 N = 1 := by
  unfold overlap
  have h1 : ((i : ℝ) + 1) ≤ N := by exact_mod_cast hi
  have h2 : (0 : ℝ) ≤ i := by positivity
  rw [min_eq_left h1, max_eq_left h2]
  norm_num

theorem stepIntegral_full (N : ℕ) (g : ℕ → ℝ) : stepIntegral N g 0 N = ∑ i ∈ range N, g i := by
  unfold stepIntegral
  apply Finset.sum_congr rfl
  intro i hi
  rw [overlap_full (Finset.mem_range.mp hi), mul_one]

theorem foldChecks_iff (length tsamp period : ℝ) (bins : ℕ) (hb : 0 < bins) (subints : Option ℤ) :
    (foldChecks length tsamp period bins subints = .ok () ↔
      period ≤ length ∧ tsamp < period / bins ∧ ∀ s, subints = some s → 1 ≤ s ∧ (s : ℝ) ≤ length / period) ∧
    (foldChecks length tsamp period bins subints = .ok () ∨
      foldChecks length tsamp period bins subints = .error .valueError) := by
  unfold foldChecks
  by_cases h1 : period > length
  · simp [h1]
  · by_cases h2 : period / bins > tsamp
    · cases subints with
      | none => simp [h1, hb.ne', h2, not_lt.mp h1]
      | some s =>
        by_cases h3 : s ≥ 1
        · by_cases h4 : (s : ℝ) > length / period
          · simp [h1, hb.ne', h2, h3, h4, not_lt.mp h1]
          · simp [h1, hb.ne', h2, h3, h4, not_lt.mp h1, not_lt.mp h4]
        · simp [h1, hb.ne', h2, h3]
    · simp [h1, hb.ne', h2]

/-- Vertical downsampling of an array with entries `g i j` by `m / s`, where `1 < s < m`: there are `s` rows. -/
theorem downsampleVertical_ok (m bins : ℕ) (hb : 0 < bins) (g : ℕ → ℕ → ℝ) (s : ℕ) (hs1 : 1 < s) (hsm : s < m) :
    downsampleVertical ((List.range m).map (fun i => (List.range bins).map (fun j => g i j))) bins ((m : ℝ) / s) =
      .ok ((List.range s).map (fun k : ℕ => (List.range bins).map (fun j =>
        stepIntegral m (fun i => g i j) ((k : ℝ) * ((m : ℝ) / s)) ((k : ℝ) * ((m : ℝ) / s) + (m : ℝ) / s)))) := by
  have hs0 : (0 : ℝ) < s := by positivity
  have hm0 : (0 : ℝ) < m := by
    have : 0 < m := by omega
    positivity
  have hvf1 : 1 < (m : ℝ) / s := by
    rw [lt_div_iff₀ hs0]; simpa using hsm
  have hvf2 : (m : ℝ) / s < m := by
    rw [div_lt_iff₀ hs0]
    have : (1 : ℝ) < s := by exact_mod_cast hs1
    nlinarith
  have hsize : downsampledSize m ((m : ℝ) / s) = s := by
    unfold downsampledSize
    rw [show (m : ℝ) / ((m : ℝ) / s) = s by field_simp]
    exact Nat.floor_natCast s
  have hcol : ∀ j ∈ List.range bins, liftCall (downsampleBinding
      (column ((List.range m).map (fun i => (List.range bins).map (fun j => g i j))) j) ((m : ℝ) / s)) =
      .ok ((List.range s).map (fun k : ℕ =>
        stepIntegral m (fun i => g i j) ((k : ℝ) * ((m : ℝ) / s)) ((k : ℝ) * ((m : ℝ) / s) + (m : ℝ) / s))) := by
    intro j hj
    rw [List.mem_range] at hj
    rw [column_eq m bins g hj, downsampleBinding_ok _ _ (by
      simp only [List.length_map, List.length_range]
      exact ⟨hvf1, hvf2.le⟩)]
    simp only [List.length_map, List.length_range, hsize, liftCall]
    congr 1
    apply List.map_congr_left
    intro k _
    unfold stepIntegral
    apply Finset.sum_congr rfl
    intro i hi
    simp [List.getD, Finset.mem_range.mp hi]
  unfold downsampleVertical
  simp only [List.length_map, List.length_range]
  rw [if_neg (by simpa using hvf1), if_neg (by simpa using hvf2), mapM_ok _ _ _ hcol]
  simp only [Except.bind]
  congr 1
  have h0 : (((List.range bins).map (fun j => (List.range s).map (fun k : ℕ =>
        stepIntegral m (fun i => g i j) ((k : ℝ) * ((m : ℝ) / s)) ((k : ℝ) * ((m : ℝ) / s) + (m : ℝ) / s)))).getD 0
          []).length = s := by
    simp [List.getD, hb]
  rw [h0]
  apply List.map_congr_left
  intro k hk
  rw [List.mem_range] at hk
  rw [List.map_map]
  apply List.map_congr_left
  intro j _
  simp [List.getD, hk]

/-- Integral of a step function over one step. -/
theorem stepIntegral_one {N k : ℕ} (hk : k < N) (g : ℕ → ℝ) : stepIntegral N g k ((k : ℝ) + 1) = g k := by
  unfold stepIntegral
  rw [Finset.sum_eq_single k]
  · unfold overlap
    simp
  · intro i _ hik
    unfold overlap
    rw [max_eq_left, mul_zero]
    rcases lt_or_gt_of_ne hik with h | h
    · have : (i : ℝ) + 1 ≤ k := by exact_mod_cast h
      have h1 := min_le_left ((i : ℝ) + 1) ((k : ℝ) + 1)
      have h2 := le_max_right (i : ℝ) (k : ℝ)
      linarith
    · have : (k : ℝ) + 1 ≤ i := by exact_mod_cast h
      have h1 := min_le_right ((i : ℝ) + 1) ((k : ℝ) + 1)
      have h2 := le_max_left (i : ℝ) (k : ℝ)
      linarith
  · intro h
    exact absurd (Finset.mem_range.mpr hk) h

/-- `rows` has the shape `(r, bins)` and row `k` is the integral of the rows `g 0, g 1, ... , g (m-1)` over
`[k m/r, (k+1) m/r]`. -/
def IsSubints (m bins r : ℕ) (g : ℕ → ℕ → ℝ) (rows : List (List ℝ)) : Prop :=
  rows.length = r ∧ (∀ row ∈ rows, row.length = bins) ∧
  ∀ k < r, ∀ j < bins, (rows.getD k []).getD j 0 =
    stepIntegral m (fun i => g i j) ((k : ℝ) * ((m : ℝ) / r)) (((k : ℝ) + 1) * ((m : ℝ) / r))

theorem isSubints_full (m bins : ℕ) (hm : 0 < m) (g : ℕ → ℕ → ℝ) :
    IsSubints m bins m g ((List.range m).map (fun i => (List.range bins).map (fun j => g i j))) := by
  refine ⟨by simp, ?_, ?_⟩
  · intro row hrow
    obtain ⟨i, _, rfl⟩ := List.mem_map.mp hrow
    simp
  · intro k hk j hj
    have : (m : ℝ) ≠ 0 := by positivity
    rw [div_self this, mul_one, mul_one, stepIntegral_one hk]
    simp [List.getD, hk, hj]

theorem list_sum_map_range (n : ℕ) (g : ℕ → ℝ) : ((List.range n).map g).sum = ∑ k ∈ range n, g k :=
  list_map_range_sum n g

/-- The final part of `fold` for an array with entries `g i j`. -/
theorem foldOutput_ok (m bins : ℕ) (hb : 0 < bins) (hm : 0 < m) (g : ℕ → ℕ → ℝ) (subints : Option ℤ)
    (hs : ∀ s, subints = some s → 1 ≤ s ∧ s ≤ m) :
    ∃ out, foldOutput ((List.range m).map (fun i => (List.range bins).map (fun j => g i j))) m bins subints = .ok out ∧
      ((subints.getD m = 1 ∧ ∃ x, out = .d1 x ∧ x.length = bins) ∨
       (subints.getD m ≠ 1 ∧ ∃ rows r, out = .d2 rows ∧ ((r : ℕ) : ℤ) = subints.getD m ∧ IsSubints m bins r g rows)) ∧
      integrated bins out = (List.range bins).map (fun j => ∑ i ∈ range m, g i j) := by
  have hcolsum : ∀ j ∈ List.range bins,
      (column ((List.range m).map (fun i => (List.range bins).map (fun j => g i j))) j).sum = ∑ i ∈ range m, g i j := by
    intro j hj
    rw [column_eq m bins g (List.mem_range.mp hj), list_map_range_sum]
  unfold foldOutput
  by_cases h1 : subints = some 1 ∨ m = 1
  · rw [if_pos h1]
    refine ⟨_, rfl, Or.inl ⟨?_, _, rfl, by simp⟩, ?_⟩
    · rcases h1 with h1 | h1
      · simp [h1]
      · cases subints with
        | none => simp [h1]
        | some s =>
          have := hs s rfl
          simp
          omega
    · unfold integrated
      exact List.map_congr_left hcolsum
  · rw [if_neg h1]
    push Not at h1
    have hfull : integrated bins (.d2 ((List.range m).map (fun i => (List.range bins).map (fun j => g i j)))) =
        (List.range bins).map (fun j => ∑ i ∈ range m, g i j) := by
      unfold integrated
      exact List.map_congr_left hcolsum
    cases subints with
    | none => exact ⟨_, rfl, Or.inr ⟨by simpa using h1.2, _, m, rfl, by simp, isSubints_full m bins hm g⟩, hfull⟩
    | some s =>
      have hs' := hs s rfl
      have hs1 : s ≠ 1 := by simpa using h1.1
      simp only
      by_cases h2 : s = m
      · rw [if_pos h2]
        exact ⟨_, rfl, Or.inr ⟨by simpa using hs1, _, m, rfl, by simp [h2], isSubints_full m bins hm g⟩, hfull⟩
      · rw [if_neg h2]
        obtain ⟨t, rfl⟩ : ∃ t : ℕ, s = t := ⟨s.toNat, by omega⟩
        have ht1 : 1 < t := by omega
        have htm : t < m := by omega
        have := downsampleVertical_ok m bins hb g t ht1 htm
        rw [Int.cast_natCast, this]
        refine ⟨_, rfl, Or.inr ⟨by simpa using hs1, _, t, rfl, by simp, by simp, ?_, ?_⟩, ?_⟩
        · intro row hrow
          obtain ⟨i, _, rfl⟩ := List.mem_map.mp hrow
          simp
        · intro k hk j hj
          simp only [List.getD, List.getElem?_map, List.getElem?_range hk, List.getElem?_range hj, Option.map_some,
            Option.getD_some]
          congr 1
          ring
        · unfold integrated
          apply List.map_congr_left
          intro j hj
          have hj' := List.mem_range.mp hj
          have := column_eq t bins (fun k j => stepIntegral m (fun i => g i j)
            ((k : ℝ) * ((m : ℝ) / t)) ((k : ℝ) * ((m : ℝ) / t) + (m : ℝ) / t)) hj'
          unfold column at this
          rw [this, list_map_range_sum, stepIntegral_sum _ _ (by positivity)]
          have ht0 : (t : ℝ) ≠ 0 := by positivity
          rw [show (t : ℝ) * ((m : ℝ) / t) = m by field_simp, stepIntegral_full]

/-- The number of periods found by `fold` is the number of full periods in the data. -/
theorem fold_periods (N bins : ℕ) (hb : 0 < bins) (tsamp period : ℝ) (hts : 0 < tsamp) (hp : 0 < period) :
    downsampledSize N (period / bins / tsamp) / bins = ⌊(N : ℝ) * tsamp / period⌋₊ := by
  unfold downsampledSize
  rw [← Nat.floor_div_natCast]
  congr 1
  have : (bins : ℝ) ≠ 0 := by positivity
  field_simp

theorem scaled_getD (x : List ℝ) (n k : ℕ) (c : ℝ) (hk : k < n) (hn : n ≤ x.length) :
    ((x.take n).map (· * c) ++ x.drop n).getD k 0 = x.getD k 0 * c := by
  have h1 : k < ((x.take n).map (· * c)).length := by simp; omega
  rw [List.getD, List.getElem?_append_left h1, List.getElem?_map, List.getElem?_take, if_pos hk,
    List.getElem?_eq_getElem (by omega)]
  simp [List.getD, List.getElem?_eq_getElem (show k < x.length by omega)]

/-- C38. When `fold` raises `ValueError`, when it succeeds, and what it returns. `m` is the number of full periods and `r` the number
of sub-integrations (the requested number, or `m` if `subints` is `None`). With one sub-integration the result is an array of
`bins` elements, otherwise it has the shape `(r, bins)` and its rows are the folded data integrated over `m / r` periods
each. In all cases the integrated profile (the sum over the rows) is the same. -/
theorem C38_shape_and_flux (w : World) (id : ℕ) (o : TsObj) (ho : w.objs[id]? = some o) (t : ℝ) (ht : 0 < t)
    (htobs : dictGet (w.metaOf o) "tobs" = some (.num t)) (hts : 0 < o.tsamp) (period : ℝ) (bins : ℕ) (hb : 0 < bins)
    (subints : Option ℤ) :
    let x := w.dataOf o
    let L := (x.length : ℝ) * o.tsamp
    let m := ⌊L / period⌋₊
    let f := period / bins / o.tsamp
    let accepted := period ≤ L ∧ o.tsamp < period / bins ∧ ∀ s, subints = some s → 1 ≤ s ∧ (s : ℝ) ≤ L / period
    (¬ accepted → tsFold w id period bins subints = .error .valueError) ∧
    (accepted → ∃ w' out, tsFold w id period bins subints = .ok (w', out) ∧
      ((subints.getD m = 1 ∧ ∃ y, out = .d1 y ∧ y.length = bins) ∨
       (subints.getD m ≠ 1 ∧ ∃ rows r, out = .d2 rows ∧ ((r : ℕ) : ℤ) = subints.getD m ∧
        IsSubints m bins r (foldValue x f bins m) rows)) ∧
      integrated bins out = (List.range bins).map (fun j => ∑ i ∈ range m, foldValue x f bins m i j)) := by
  intro x L m f accepted
  obtain ⟨hc1, hc2⟩ := foldChecks_iff L o.tsamp period bins hb subints
  have hobj : w.obj id = .ok o := obj_ok_iff.mpr ho
  constructor
  · intro hna
    have h1 : foldChecks L o.tsamp period bins subints = .error .valueError := by
      rcases hc2 with h | h
      · exact absurd (hc1.mp h) hna
      · exact h
    unfold tsFold
    rw [hobj]
    show ((foldChecks L o.tsamp period bins subints).bind _) = _
    rw [h1]
    rfl
  · intro hacc
    have h1 := hc1.mpr hacc
    obtain ⟨ha1, ha2, ha3⟩ := hacc
    have hb0 : (0 : ℝ) < bins := by positivity
    have hp : 0 < period := by
      by_contra hc
      have : period / bins ≤ 0 := div_nonpos_of_nonpos_of_nonneg (not_lt.mp hc) hb0.le
      linarith
    have hf1 : 1 < f := by
      show 1 < period / bins / o.tsamp
      rw [lt_div_iff₀ hts]
      linarith
    have hf0 : 0 < f := by linarith
    have hfN : f ≤ x.length := by
      show period / bins / o.tsamp ≤ x.length
      rw [div_le_iff₀ hts, div_le_iff₀ hb0]
      have hb1 : (1 : ℝ) ≤ bins := by exact_mod_cast hb
      have hL0 : 0 ≤ (x.length : ℝ) * o.tsamp := by positivity
      have hpL : period ≤ (x.length : ℝ) * o.tsamp := ha1
      nlinarith
    have hds := downsampleBinding_ok x f ⟨hf1, hfN⟩
    obtain ⟨xd, hxd⟩ : ∃ xd, xd = (List.range (downsampledSize x.length f)).map
      (fun k : ℕ => stepIntegral x.length (fun i => x.getD i 0) ((k : ℝ) * f) ((k : ℝ) * f + f)) := ⟨_, rfl⟩
    rw [← hxd] at hds
    have hxdl : xd.length = downsampledSize x.length f := by rw [hxd]; simp
    have hmd : xd.length / bins = m := by
      rw [hxdl]
      exact fold_periods x.length bins hb o.tsamp period hts hp
    have hm : 0 < m := by
      show 0 < ⌊L / period⌋₊
      rw [Nat.floor_pos, le_div_iff₀ hp]
      linarith
    -- creation of the downsampled series
    obtain ⟨md, hmdc⟩ : ∃ md, metadataCopy (w.metaOf o) = .ok md := by
      unfold metadataCopy
      rw [htobs]
      simp [ht]
    have hnew : ∃ md', tsNew w xd (f * o.tsamp) (w.metaOf o) = .ok (⟨w.arrays ++ [xd], w.metas ++ [md'],
        w.objs ++ [⟨w.arrays.length, f * o.tsamp, w.metas.length⟩]⟩, w.objs.length) := by
      refine ⟨dictSet md "tobs" (.num (xd.length * (f * o.tsamp))), ?_⟩
      simp [tsNew, World.newArray, tsInit, hmdc, Except.bind, List.getD]
    obtain ⟨md', hnew⟩ := hnew
    have hdown : tsDownsample w id f false = .ok (⟨w.arrays ++ [xd], w.metas ++ [md'],
        w.objs ++ [⟨w.arrays.length, f * o.tsamp, w.metas.length⟩]⟩, some w.objs.length) := by
      unfold tsDownsample
      rw [hobj]
      simp only [Except.bind]
      have ex : w.dataOf o = x := rfl
      rw [ex, hds]
      simp only [liftCall, Bool.false_eq_true, if_false, hnew]
    obtain ⟨c, hc⟩ : ∃ c, c = (Real.sqrt (m * f))⁻¹ := ⟨_, rfl⟩
    have hmb : m * bins ≤ xd.length := by rw [← hmd]; exact Nat.div_mul_le_self _ _
    obtain ⟨sc, hsc⟩ : ∃ sc, sc = (xd.take (m * bins)).map (· * c) ++ xd.drop (m * bins) := ⟨_, rfl⟩
    have hscl : sc.length = xd.length := by rw [hsc]; simp; omega
    have hfolded : reshape sc m bins =
        (List.range m).map (fun i => (List.range bins).map (fun j => foldValue x f bins m i j)) := by
      rw [reshape_eq sc m bins (by omega)]
      apply List.map_congr_left
      intro i hi
      apply List.map_congr_left
      intro j hj
      rw [List.mem_range] at hi hj
      have hk : i * bins + j < m * bins := by
        have : (i + 1) * bins ≤ m * bins := Nat.mul_le_mul_right _ hi
        linarith
      rw [hsc, scaled_getD xd _ _ c hk hmb, hc]
      have : xd.getD (i * bins + j) 0 = stepIntegral x.length (fun i => x.getD i 0)
          (((i * bins + j : ℕ) : ℝ) * f) (((i * bins + j : ℕ) : ℝ) * f + f) := by
        rw [hxd]
        rw [List.getD, List.getElem?_map, List.getElem?_range (by omega)]
        rfl
      rw [this]
      unfold foldValue
      rw [div_eq_mul_inv]
      congr 2
      ring
    obtain ⟨out, ho1, ho2, ho3⟩ := foldOutput_ok m bins hb hm (foldValue x f bins m) subints (by
      intro s hs
      obtain ⟨h2, h3⟩ := ha3 s hs
      refine ⟨h2, ?_⟩
      have : s.toNat ≤ m := by
        apply Nat.le_floor
        rw [show ((s.toNat : ℕ) : ℝ) = (s : ℝ) by
          have : ((s.toNat : ℕ) : ℤ) = s := Int.toNat_of_nonneg (by omega)
          exact_mod_cast congrArg (Int.cast : ℤ → ℝ) this]
        exact h3
      omega)
    refine ⟨⟨(w.arrays ++ [xd]).set w.arrays.length sc, w.metas ++ [md'],
        w.objs ++ [⟨w.arrays.length, f * o.tsamp, w.metas.length⟩]⟩, out, ?_, ho2, ho3⟩
    unfold tsFold
    rw [hobj]
    show ((foldChecks L o.tsamp period bins subints).bind _) = _
    rw [h1]
    simp only [Except.bind]
    rw [if_neg hts.ne']
    have ef : period / bins / o.tsamp = f := rfl
    rw [ef, hdown]
    simp only [Option.getD_some]
    have hobj2 : World.obj ⟨w.arrays ++ [xd], w.metas ++ [md'],
        w.objs ++ [⟨w.arrays.length, f * o.tsamp, w.metas.length⟩]⟩ w.objs.length =
        .ok ⟨w.arrays.length, f * o.tsamp, w.metas.length⟩ := by
      rw [obj_ok_iff]; simp
    rw [hobj2]
    simp only
    have hdat : World.dataOf ⟨w.arrays ++ [xd], w.metas ++ [md'],
        w.objs ++ [⟨w.arrays.length, f * o.tsamp, w.metas.length⟩]⟩ ⟨w.arrays.length, f * o.tsamp, w.metas.length⟩ = xd := by
      simp [World.dataOf, List.getD]
    rw [hdat, hmd, if_neg hm.ne']
    have hdat2 : World.dataOf ⟨(w.arrays ++ [xd]).set w.arrays.length sc, w.metas ++ [md'],
        w.objs ++ [⟨w.arrays.length, f * o.tsamp, w.metas.length⟩]⟩ ⟨w.arrays.length, f * o.tsamp, w.metas.length⟩ = sc := by
      simp [World.dataOf, List.getD]
    rw [← hc, ← hsc, hdat2, hfolded, ho1]

/-- C38. The integrated profile does not depend on the number of sub-integrations. -/
theorem C38_profile_independent_of_subints (w : World) (id : ℕ) (o : TsObj) (ho : w.objs[id]? = some o) (t : ℝ) (ht : 0 < t)
    (htobs : dictGet (w.metaOf o) "tobs" = some (.num t)) (hts : 0 < o.tsamp) (period : ℝ) (bins : ℕ) (hb : 0 < bins)
    (s₁ s₂ : Option ℤ) (w₁ w₂ : World) (out₁ out₂ : NdArray) (h₁ : tsFold w id period bins s₁ = .ok (w₁, out₁))
    (h₂ : tsFold w id period bins s₂ = .ok (w₂, out₂)) : integrated bins out₁ = integrated bins out₂ := by
  obtain ⟨e1, k1⟩ := C38_shape_and_flux w id o ho t ht htobs hts period bins hb s₁
  obtain ⟨e2, k2⟩ := C38_shape_and_flux w id o ho t ht htobs hts period bins hb s₂
  have a1 := by_contra fun hc => by rw [e1 hc] at h₁; cases h₁
  have a2 := by_contra fun hc => by rw [e2 hc] at h₂; cases h₂
  obtain ⟨w1, o1, q1, _, r1⟩ := k1 a1
  obtain ⟨w2, o2, q2, _, r2⟩ := k2 a2
  rw [h₁] at q1
  rw [h₂] at q2
  cases q1
  cases q2
  rw [r1, r2]

/-- A series of 60 samples of 1 second folded at 10 seconds with 4 bins and 3 sub-integrations meets the hypotheses. -/
example : ∃ (w : World) (o : TsObj), w.objs[0]? = some o ∧ dictGet (w.metaOf o) "tobs" = some (.num 60) ∧
    (10 : ℝ) ≤ ((w.dataOf o).length : ℝ) * o.tsamp ∧ o.tsamp < 10 / (4 : ℕ) ∧
    ∀ s, some 3 = some s → 1 ≤ s ∧ ((s : ℤ) : ℝ) ≤ ((w.dataOf o).length : ℝ) * o.tsamp / 10 := by
  refine ⟨⟨[List.replicate 60 1], [[("tobs", .num 60)]], [⟨0, 1, 0⟩]⟩, ⟨0, 1, 0⟩, rfl, ?_, ?_, ?_, ?_⟩
  · simp [World.metaOf, List.getD, dictGet]
  · norm_num [World.dataOf, List.getD]
  · norm_num
  · intro s hs
    cases hs
    norm_num [World.dataOf, List.getD]

/-! ## C37 -/

/-- C37 is false: with `period_min` equal to the candidate bins times the sampling time, the range is accepted but
a candidate at `period_min` cannot be folded. -/
theorem C37_false : ∃ (rg : SearchRange ℝ) (w : World) (o : TsObj),
    w.objs[0]? = some o ∧ validateRanges [rg] o.tsamp = .ok () ∧ rg.pmin < rg.pmax ∧
    rg.pmin ≤ ((w.dataOf o).length : ℝ) * o.tsamp ∧
    tsFold w 0 rg.pmin rg.candBins none = .error .valueError := by
  refine ⟨⟨4, 8, 2, 4, 0⟩, ⟨[List.replicate 60 1], [[("tobs", .num 60)]], [⟨0, 1, 0⟩]⟩, ⟨0, 1, 0⟩, rfl, ?_, ?_, ?_, ?_⟩
  · norm_num [validateRanges, validateRangeLoop, validateRange, contiguityLoop, Except.bind]
  · norm_num
  · norm_num [World.dataOf, List.getD]
  · refine (C38_shape_and_flux _ 0 ⟨0, 1, 0⟩ rfl 60 (by norm_num) ?_ (by norm_num) 4 4 (by norm_num) none).1 ?_
    · simp [World.metaOf, List.getD, dictGet]
    · norm_num

theorem validateRange_ok {K : Type*} [LinearOrder K] [NatCast K] [Mul K] {rg : SearchRange K} {ts : K} (h : validateRange rg ts = .ok ()) :
    rg.binsMin * ts ≤ rg.pmin ∧ rg.candBins * ts ≤ rg.pmin := by
  unfold validateRange at h
  split_ifs at h with h1 h2
  exact ⟨not_lt.mp h1, not_lt.mp h2⟩

theorem validateRangeLoop_ok {K : Type*} [LinearOrder K] [NatCast K] [Mul K] {ranges : List (SearchRange K)} {ts : K}
    (h : validateRangeLoop ts ranges = .ok ()) :
    ∀ rg ∈ ranges, validateRange rg ts = .ok () := by
  induction ranges with
  | nil => intro rg hrg; cases hrg
  | cons a l ih =>
    unfold validateRangeLoop at h
    obtain ⟨_, h1, h2⟩ := bind_ok_inv h
    intro rg hrg
    rcases List.mem_cons.mp hrg with rfl | hrg
    · exact h1
    · exact ih h2 rg hrg

/-- C37, what holds: if the ranges are accepted for the largest sampling time `tsMax`, then every period of a range can be folded
with the candidate bins of the range, provided the period is not exactly `period_min` or the sampling time of the series is
less than `tsMax`, and the data contain one period. Missing: a period equal to `period_min` in the series with the
longest sampling time, for which the claim is false. -/
theorem C37_partial (ranges : List (SearchRange ℝ)) (tsMax : ℝ) (h : validateRanges ranges tsMax = .ok ())
    (rg : SearchRange ℝ) (hrg : rg ∈ ranges) (hcb : 0 < rg.candBins) (w : World) (id : ℕ) (o : TsObj)
    (ho : w.objs[id]? = some o) (t : ℝ) (ht : 0 < t) (htobs : dictGet (w.metaOf o) "tobs" = some (.num t))
    (hts : 0 < o.tsamp) (hmax : o.tsamp ≤ tsMax) (p : ℝ) (hp : rg.pmin ≤ p) (hstrict : rg.pmin < p ∨ o.tsamp < tsMax)
    (hlen : p ≤ ((w.dataOf o).length : ℝ) * o.tsamp) :
    ∃ w' out, tsFold w id p rg.candBins none = .ok (w', out) := by
  obtain ⟨_, h1, _⟩ := bind_ok_inv h
  obtain ⟨_, h2⟩ := validateRange_ok (validateRangeLoop_ok h1 rg hrg)
  have hc0 : (0 : ℝ) < rg.candBins := by positivity
  obtain ⟨w', out, h3, _⟩ := (C38_shape_and_flux w id o ho t ht htobs hts p rg.candBins hcb none).2 (by
    refine ⟨hlen, ?_, by simp⟩
    rw [lt_div_iff₀ hc0]
    rcases hstrict with h4 | h4 <;> nlinarith)
  exact ⟨w', out, h3⟩

/-- Two ranges as in the example configurations, with a largest sampling time of 1 ms. -/
example : validateRanges [(⟨1, 2, 240, 256, 0⟩ : SearchRange ℝ), ⟨2, 5, 480, 512, 1⟩] (1 / 1000) = .ok () := by
  norm_num [validateRanges, validateRangeLoop, validateRange, contiguityLoop, Except.bind]

end Verif.Props
