import Verif.Props.RunningMedian
import Verif.Props.TimeSeries
import Mathlib.Tactic.Linarith

/-!
# C65, C66: running median of monotone data and of linear trends; `deredden`
-/

set_option linter.unusedSectionVars false

namespace Verif.Props

open Verif.Model Verif.Spec Verif.Lemmas

section

variable {α : Type*} [LinearOrder α]

theorem isNth_of_sorted {l : List α} (h : l.Pairwise (· ≤ ·)) {n : ℕ} (hn : n < l.length) : IsNth l n l[n] :=
  ⟨l, .refl l, h, by simp [hn]⟩

theorem isNth_of_sorted_rev {l : List α} (h : l.Pairwise (· ≥ ·)) {n : ℕ} (hn : n < l.length) :
    IsNth l n (l[l.length - 1 - n]'(by omega)) := by
  refine ⟨l.reverse, l.reverse_perm, by rw [List.pairwise_reverse]; exact h, ?_⟩
  rw [List.getElem?_reverse hn]
  simp

/-- C65. The running median of a non-decreasing or non-increasing series is the series itself, up to its ends: edges are kept. -/
theorem C65_monotone [Inhabited α] {x : List α} {w : ℕ} (hw : w % 2 = 1) (hx : w < x.length)
    (hm : x.Pairwise (· ≤ ·) ∨ x.Pairwise (· ≥ ·)) : runningMedian x w = .ok x := by
  obtain ⟨out, e, hl, h⟩ := runningMedian_ok x w (by omega) hx
  rw [e]
  congr 1
  apply List.ext_getElem hl
  intro i h1 h2
  have h3 := h i h1
  have hlen : (medWin x w i).length = w := by simp [medWin]
  have hget : ∀ k (hk : k < (medWin x w i).length),
      (medWin x w i)[k] = x[min (i + k - w / 2) (x.length - 1)]'(by omega) := by
    intro k hk
    have hlt : min (i + k - w / 2) (x.length - 1) < x.length := by omega
    simp only [medWin, List.getElem_map, List.getElem_range]
    simp only [List.getD, List.getElem?_eq_getElem hlt, Option.getD_some]
  have hmid : ∀ k (hk : k < (medWin x w i).length), k = w / 2 → (medWin x w i)[k] = x[i] := by
    intro k hk e
    rw [hget k hk]
    congr 1
    omega
  rcases hm with hm | hm
  · have hs : (medWin x w i).Pairwise (· ≤ ·) := by
      rw [List.pairwise_iff_getElem]
      intro a b ha hb hab
      rw [hget a ha, hget b hb]
      rw [List.pairwise_iff_getElem] at hm
      rcases Nat.eq_or_lt_of_le (show min (i + a - w / 2) (x.length - 1) ≤ min (i + b - w / 2) (x.length - 1) by omega) with he | he
      · simp only [he]; exact le_rfl
      · exact hm _ _ _ _ he
    have h4 := isNth_unique h3 (isNth_of_sorted hs (n := w / 2) (by omega))
    rw [h4, hmid _ _ rfl]
  · have hs : (medWin x w i).Pairwise (· ≥ ·) := by
      rw [List.pairwise_iff_getElem]
      intro a b ha hb hab
      rw [hget a ha, hget b hb]
      rw [List.pairwise_iff_getElem] at hm
      rcases Nat.eq_or_lt_of_le (show min (i + a - w / 2) (x.length - 1) ≤ min (i + b - w / 2) (x.length - 1) by omega) with he | he
      · simp only [he]; exact le_rfl
      · exact hm _ _ _ _ he
    have h4 := isNth_unique h3 (isNth_of_sorted_rev hs (n := w / 2) (by omega))
    rw [h4, hmid _ _ (by omega)]

/-- A step. -/
example : runningMedian ([0, 0, 0, 1, 1, 1, 1] : List ℕ) 5 = .ok [0, 0, 0, 1, 1, 1, 1] :=
  C65_monotone (by decide) (by decide) (Or.inl (by decide))

end

variable {K : Type*} [Field K] [LinearOrder K] [IsStrictOrderedRing K] [FloorSemiring K] [Inhabited K]

/-- `N` samples of a straight line. -/
def lineSeries (N : ℕ) (a b : K) : List K := (List.range N).map fun i : ℕ => a + b * (i : K)

theorem sum_range_cast (f : ℕ) : ((List.range f).map fun i : ℕ => (i : K)).sum = (f : K) * ((f : K) - 1) / 2 := by
  induction f with
  | zero => simp
  | succ f ih =>
    rw [List.range_succ, List.map_append, List.sum_append, ih]
    push_cast
    simp
    ring

theorem sum_line (f : ℕ) (a b : K) : ((List.range f).map fun i : ℕ => a + b * (i : K)).sum = (f : K) * a + b * ((f : K) * ((f : K) - 1) / 2) := by
  induction f with
  | zero => simp
  | succ f ih =>
    rw [List.range_succ, List.map_append, List.sum_append, ih]
    push_cast
    simp
    ring

theorem drop_take_line (N : ℕ) (a b : K) {f i : ℕ} (h : (i + 1) * f ≤ N) :
    ((lineSeries N a b).drop (i * f)).take f = (List.range f).map fun k : ℕ => (a + b * ((i * f : ℕ) : K)) + b * (k : K) := by
  rw [Nat.succ_mul] at h
  apply List.ext_getElem
  · simp [lineSeries]; omega
  · intro k h1 h2
    simp [lineSeries]
    ring

theorem scrunch_line (N : ℕ) (a b : K) {f : ℕ} (hf : 1 ≤ f) :
    scrunch (lineSeries N a b) f = lineSeries (N / f) (a + b * (1 / 2 * ((f : K) - 1))) (b * f) := by
  unfold scrunch
  have hl : (lineSeries N a b).length = N := by simp [lineSeries]
  rw [hl]
  conv_rhs => unfold lineSeries
  apply List.map_congr_left
  intro i hi
  rw [List.mem_range] at hi
  have h1 : (i + 1) * f ≤ N := (Nat.le_div_iff_mul_le hf).mp hi
  rw [drop_take_line N a b h1, sum_line]
  have hf0 : (f : K) ≠ 0 := by
    have : (0 : K) < f := by exact_mod_cast hf
    exact this.ne'
  field_simp
  push_cast
  ring

theorem line_sorted (N : ℕ) (a b : K) : (lineSeries N a b).Pairwise (· ≤ ·) ∨ (lineSeries N a b).Pairwise (· ≥ ·) := by
  unfold lineSeries
  rcases le_total 0 b with h | h
  · left
    rw [List.pairwise_map]
    refine List.pairwise_lt_range.imp ?_
    intro i j hij
    have : (i : K) ≤ j := by exact_mod_cast hij.le
    have := mul_le_mul_of_nonneg_left this h
    linarith
  · right
    rw [List.pairwise_map]
    refine List.pairwise_lt_range.imp ?_
    intro i j hij
    have : (i : K) ≤ j := by exact_mod_cast hij.le
    have := mul_le_mul_of_nonpos_left this h
    show a + b * (j : K) ≤ a + b * (i : K)
    linarith

theorem interp_line {n : ℕ} (hn : 1 ≤ n) {xp fp : ℕ → K} (hxp : ∀ i j, i < j → xp i < xp j) {a b x : K}
    (hfp : ∀ j < n, fp j = a + b * xp j) (h0 : xp 0 ≤ x) (h1 : x ≤ xp (n - 1)) : interp n xp fp x = a + b * x := by
  have hmono : ∀ i j, i ≤ j → xp i ≤ xp j := by
    intro i j h
    rcases eq_or_lt_of_le h with h | h
    · rw [h]
    · exact (hxp i j h).le
  rcases interp_cases n hn xp fp hxp x with ⟨j, hj, e⟩ | ⟨j, θ, hj, -, -, hθ, h2, h3, e⟩
  · -- the abscissa is the last point
    unfold interp at e ⊢
    rw [if_neg (not_lt.2 h0)] at e ⊢
    simp only at e ⊢
    split_ifs at e ⊢ with h4
    · rw [hfp (n - 1) (by omega)]
      have hlast : x = xp (n - 1) := by
        refine le_antisymm h1 ?_
        by_contra hc
        have hsub : ((List.range n).filter (fun j => xp j ≤ x)).length ≤ n - 1 := by
          have : (List.range n).filter (fun j => xp j ≤ x) = (List.range (n - 1)).filter (fun j => xp j ≤ x) := by
            conv_lhs => rw [show n = n - 1 + 1 by omega, List.range_succ, List.filter_append]
            simp [not_le.1 hc]
          rw [this]
          exact (List.length_filter_le _ _).trans (by simp)
        have hn1 : n = 1 ∨ 2 ≤ n := by omega
        rcases hn1 with rfl | hn2
        · exact hc h0
        · omega
      rw [hlast]
    · generalize hJ : ((List.range n).filter (fun j => xp j ≤ x)).length - 1 = J at *
      have hne : xp (J + 1) - xp J ≠ 0 := by
        exact (sub_pos.2 (hxp J (J + 1) (by omega))).ne'
      rw [hfp J (by omega), hfp (J + 1) (by omega)]
      field_simp
      ring
  · have hne : xp (j + 1) - xp j ≠ 0 := (sub_pos.2 (hxp j (j + 1) (by omega))).ne'
    rw [e, hfp j (by omega), hfp (j + 1) hj, hθ]
    field_simp
    ring

/-- C65. Away from the ends, the approximate running median of a straight line is the line: with a scrunching factor `f = w / m ≥ 2`, at all
samples from the centre of the first block of `f` samples to that of the last; with shorter windows, everywhere. -/
theorem C65_linear_trend (N w m : ℕ) (a b : K) (out : List K) (h : fastRunningMedian (lineSeries N a b) w m = .ok out) :
    out.length = N ∧ ∀ i (hi : i < out.length),
      (w < 2 * m ∨ (w / m - 1 ≤ 2 * i ∧ 2 * i ≤ 2 * ((N / (w / m) - 1) * (w / m)) + (w / m - 1))) → out[i] = a + b * (i : K) := by
  have hl : (lineSeries N a b).length = N := by simp [lineSeries]
  obtain ⟨hm, ⟨hwm, h1⟩ | ⟨h2, rmed, h1, rfl⟩⟩ := fast_ok_inv h
  · obtain ⟨hlen, hw, hlt, -⟩ := runningMedian_mem h1
    rw [C65_monotone hw hlt (line_sorted N a b)] at h1
    cases h1
    refine ⟨hl, ?_⟩
    intro i hi _
    simp [lineSeries]
  · refine ⟨by simp [hl], ?_⟩
    intro i hi hc
    have hf : 2 ≤ w / m := (Nat.le_div_iff_mul_le (by omega : 0 < m)).mpr h2
    have hc := hc.resolve_left (by omega)
    simp only [List.getElem_map, List.getElem_range]
    rw [scrunch_line N a b (by omega)] at h1 ⊢
    generalize w / m = f at *
    obtain ⟨hlen, hw, hlt, -⟩ := runningMedian_mem h1
    rw [C65_monotone hw hlt (line_sorted _ _ _)] at h1
    cases h1
    have hl' : ∀ c d : K, (lineSeries (N / f) c d).length = N / f := by intro c d; simp [lineSeries]
    rw [hl'] at hlt
    rw [hl']
    apply interp_line (by omega) (xlores_mono (by omega))
    · intro j hj
      simp [lineSeries, hj]
      ring
    · have h3 : ((f - 1 : ℕ) : K) ≤ ((2 * i : ℕ) : K) := by exact_mod_cast hc.1
      rw [Nat.cast_sub (by omega)] at h3
      push_cast at h3 ⊢
      linarith
    · have h3 : ((2 * i : ℕ) : K) ≤ ((2 * ((N / f - 1) * f) + (f - 1) : ℕ) : K) := by exact_mod_cast hc.2
      rw [Nat.cast_add, Nat.cast_sub (by omega : 1 ≤ f)] at h3
      push_cast at h3 ⊢
      linarith

/-- The hypotheses can be met, with and without scrunching: a line of 40 samples, windows of 12 and 5 samples, 3 points. -/
example (a b : ℚ) : (∃ out, fastRunningMedian (lineSeries 40 a b) 12 3 = .ok out) ∧ ∃ out, fastRunningMedian (lineSeries 40 a b) 5 3 = .ok out :=
  ⟨C27_partial _ _ _ (by decide) (Or.inl (by decide)) (by simp [lineSeries]),
    C27_partial _ _ _ (by decide) (Or.inr (by decide)) (by simp [lineSeries])⟩

/-! ## `TimeSeries.deredden` -/

theorem pyRound_nearest (x : ℝ) : |x - pyRound x| ≤ 1 / 2 ∧ (|x - pyRound x| = 1 / 2 → pyRound x % 2 = 0) := by
  have h1 := Int.floor_le x
  have h2 := Int.lt_floor_add_one x
  unfold pyRound
  split_ifs with h3 h4 h5
  · rw [abs_of_nonneg (by linarith)]
    exact ⟨h3.le, fun h => absurd h h3.ne⟩
  · push_cast
    rw [abs_of_neg (by linarith)]
    exact ⟨by linarith, fun h => absurd h (by linarith)⟩
  · rw [abs_of_nonneg (by linarith)]
    exact ⟨by linarith, fun _ => h5⟩
  · push_cast
    rw [abs_of_neg (by linarith)]
    exact ⟨by linarith, fun _ => by omega⟩

/-- C66. `deredden`, in place or not, subtracts from the data the approximate running median in a window of the number of samples
nearest to `width / tsamp` (the even one of two equally near); length and sampling time are kept. -/
theorem C66_deredden (w w' : World) (id : ℕ) (o : TsObj) (ho : w.objs[id]? = some o) (width : ℝ) (minpts : ℕ) (inplace : Bool)
    (r : Option ℕ) (h : tsDeredden w id width minpts inplace = .ok (w', r)) :
    ∃ (o' : TsObj) (n : ℕ) (rmed : List ℝ), w'.objs[resultOf id r]? = some o' ∧ o'.tsamp = o.tsamp ∧
      |width / o.tsamp - n| ≤ 1 / 2 ∧ (|width / o.tsamp - n| = 1 / 2 → n % 2 = 0) ∧
      fastRunningMedian (w.dataOf o) n minpts = .ok rmed ∧ rmed.length = (w.dataOf o).length ∧
      w'.dataOf o' = List.zipWith (· - ·) (w.dataOf o) rmed := by
  have key : ∀ {rmed : List ℝ}, runningMedianOf (w.dataOf o) o.tsamp width minpts = .ok rmed → ∃ n : ℕ,
      |width / o.tsamp - n| ≤ 1 / 2 ∧ (|width / o.tsamp - n| = 1 / 2 → n % 2 = 0) ∧
      fastRunningMedian (w.dataOf o) n minpts = .ok rmed := by
    intro rmed hr
    have hn := pyRound_nearest (width / o.tsamp)
    unfold runningMedianOf at hr
    simp only at hr
    split_ifs at hr with h1 h2
    obtain ⟨n, hn'⟩ := Int.eq_ofNat_of_zero_le h2
    rw [hn'] at hr hn
    refine ⟨n, by exact_mod_cast hn.1, fun he => ?_, ?_⟩
    · have := hn.2 (by exact_mod_cast he)
      omega
    · simp only [Int.toNat_natCast] at hr
      cases hf : fastRunningMedian (w.dataOf o) n minpts with
      | error e => rw [hf] at hr; cases e <;> simp [liftCall] at hr
      | ok out => rw [hf] at hr; simp only [liftCall, Except.ok.injEq] at hr; rw [hr]
  cases inplace with
  | false =>
    obtain ⟨o1, i, rmed, h1, rfl, h2, h3⟩ := deredden_new_inv h
    rw [ho] at h1
    cases h1
    obtain ⟨n, hn⟩ := key h2
    obtain ⟨rfl, h4, h5, _⟩ := tsNew_inv h3
    exact ⟨⟨w.arrays.length, o.tsamp, w.metas.length⟩, n, rmed, by simp [resultOf, h5], rfl, hn.1, hn.2.1, hn.2.2,
      runningMedianOf_length h2, by simp [World.dataOf, h4, List.getD, subtractArrays]⟩
  | true =>
    obtain ⟨o1, h1, h2⟩ := bind_ok_inv h
    rw [obj_ok_iff, ho] at h1
    cases h1
    obtain ⟨rmed, h3, h4⟩ := bind_ok_inv h2
    simp only [if_true] at h4
    cases h4
    obtain ⟨n, hn⟩ := key h3
    refine ⟨o, n, rmed, by simpa [resultOf] using ho, rfl, hn.1, hn.2.1, hn.2.2, runningMedianOf_length h3, ?_⟩
    have hd : o.data < w.arrays.length := by
      by_contra hc
      have he : w.dataOf o = [] := by simp [World.dataOf, List.getD, hc]
      rw [he] at hn
      obtain ⟨hm, ⟨_, h6⟩ | ⟨_, rmed', h6, _⟩⟩ := fast_ok_inv hn.2.2
      · have := (runningMedian_mem h6).2.2.1
        simp at this
      · have := (runningMedian_mem h6).2.2.1
        simp [scrunch] at this
    simp [World.dataOf, subtractArrays, List.getD, hd]

/-- C66. `deredden` in place leaves in the array what the other form puts in the new series. -/
theorem C66_inplace_agrees (w w₁ w₂ : World) (id : ℕ) (o : TsObj) (ho : w.objs[id]? = some o) (width : ℝ) (minpts : ℕ)
    (r₁ r₂ : Option ℕ) (h₁ : tsDeredden w id width minpts false = .ok (w₁, r₁)) (h₂ : tsDeredden w id width minpts true = .ok (w₂, r₂)) :
    r₂ = none ∧ ∃ i o₁ o₂, r₁ = some i ∧ w₁.objs[i]? = some o₁ ∧ w₂.objs[id]? = some o₂ ∧ w₁.dataOf o₁ = w₂.dataOf o₂ ∧
      o₁.tsamp = o₂.tsamp := by
  obtain ⟨o1, i, rmed, h1, hr, h2, h3⟩ := deredden_new_inv h₁
  rw [ho] at h1
  cases h1
  obtain ⟨o2, h4, h5⟩ := bind_ok_inv h₂
  rw [obj_ok_iff, ho] at h4
  cases h4
  obtain ⟨rmed', h6, h7⟩ := bind_ok_inv h5
  rw [h2] at h6
  cases h6
  simp only [if_true] at h7
  cases h7
  obtain ⟨o₁, n₁, m₁, a1, a2, -, -, -, -, -⟩ := C66_deredden w w₁ id o ho width minpts false r₁ h₁
  obtain ⟨o₂, n₂, m₂, b1, b2, -, -, b5, b6, b7⟩ := C66_deredden w _ id o ho width minpts true none h₂
  subst hr
  refine ⟨rfl, i, o₁, o₂, rfl, a1, b1, ?_, by rw [a2, b2]⟩
  obtain ⟨rfl, h8, h9, _⟩ := tsNew_inv h3
  have ho2 : o₂ = o := by
    simp only [resultOf, Option.getD_none] at b1
    rw [ho] at b1
    cases b1; rfl
  subst ho2
  simp [resultOf, h9] at a1
  subst a1
  have hd : o₂.data < w.arrays.length := by
    by_contra hc
    have he : w.dataOf o₂ = [] := by simp [World.dataOf, List.getD, hc]
    rw [he] at b5
    obtain ⟨hm, ⟨_, h6⟩ | ⟨_, rmed', h6, _⟩⟩ := fast_ok_inv b5
    · have := (runningMedian_mem h6).2.2.1
      simp at this
    · have := (runningMedian_mem h6).2.2.1
      simp [scrunch] at this
  simp [World.dataOf, h8, List.getD, hd]

/-- C66. A linear trend is removed exactly, except for less than one block of `n / minpts` samples at the ends. -/
theorem C66_linear_trend (w w' : World) (id : ℕ) (o : TsObj) (ho : w.objs[id]? = some o) (N : ℕ) (a b : ℝ)
    (hx : w.dataOf o = lineSeries N a b) (width : ℝ) (minpts : ℕ) (inplace : Bool)
    (r : Option ℕ) (h : tsDeredden w id width minpts inplace = .ok (w', r)) :
    ∃ (o' : TsObj) (n : ℕ), w'.objs[resultOf id r]? = some o' ∧ |width / o.tsamp - n| ≤ 1 / 2 ∧ (w'.dataOf o').length = N ∧
      ∀ i (hi : i < (w'.dataOf o').length), n / minpts ≤ i → i + 2 * (n / minpts) ≤ N → (w'.dataOf o')[i] = 0 := by
  obtain ⟨o', n, rmed, h1, -, h3, -, h5, h6, h7⟩ := C66_deredden w w' id o ho width minpts inplace r h
  rw [hx] at h5 h6 h7
  have hlen : (lineSeries N a b).length = N := by simp [lineSeries]
  obtain ⟨h8, h9⟩ := C65_linear_trend N n minpts a b rmed h5
  refine ⟨o', n, h1, h3, by rw [h7]; simp [hlen, h8], ?_⟩
  intro i hi hlo hhi
  simp only [h7, List.getElem_zipWith]
  rw [h9]
  · simp [lineSeries]
  · by_cases hc : n < 2 * minpts
    · exact Or.inl hc
    · right
      have hm0 : 0 < minpts := by
        by_contra h0
        have : minpts = 0 := by omega
        subst this
        obtain ⟨hm, -⟩ := fast_ok_inv h5
        omega
      have hf : 2 ≤ n / minpts := (Nat.le_div_iff_mul_le hm0).mpr (by omega)
      generalize n / minpts = f at *
      refine ⟨by omega, ?_⟩
      have h10 : N / f * f + N % f = N := Nat.div_add_mod' N f
      have h11 := Nat.mod_lt N (show 0 < f by omega)
      have h12 : (N / f - 1) * f = N / f * f - f := by rw [Nat.sub_mul, one_mul]
      omega

/-- A series of 40 samples of 1 second with a linear trend can be dereddened with a window of 12 seconds. -/
example : ∃ (w : World) (o : TsObj), w.objs[0]? = some o ∧ w.dataOf o = lineSeries 40 1 2 ∧
    ∃ w' r, tsDeredden w 0 12 3 true = .ok (w', r) := by
  obtain ⟨out, hout⟩ : ∃ out, fastRunningMedian (lineSeries 40 (1 : ℝ) 2) 12 3 = .ok out :=
    C27_partial _ _ _ (by decide) (Or.inl (by decide)) (by simp [lineSeries])
  refine ⟨⟨[lineSeries 40 1 2], [[]], [⟨0, 1, 0⟩]⟩, ⟨0, 1, 0⟩, rfl, rfl, ?_⟩
  have hp : pyRound ((12 : ℝ) / 1) = 12 := by
    have hfl : ⌊((12 : ℝ) / 1)⌋ = 12 := by rw [Int.floor_eq_iff]; norm_num
    unfold pyRound
    rw [hfl]
    norm_num
  have hr : runningMedianOf (lineSeries 40 (1 : ℝ) 2) 1 12 3 = .ok out := by
    unfold runningMedianOf
    rw [if_neg one_ne_zero]
    simp only [hp]
    rw [if_pos (by norm_num), show (12 : ℤ).toNat = 12 from rfl, hout]
    rfl
  simp [tsDeredden, World.obj, Except.bind, World.dataOf, List.getD, hr]

end Verif.Props
