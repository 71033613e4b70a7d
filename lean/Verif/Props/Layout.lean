import Verif.Model.Layout
import Verif.Props.TimeSeries
import Verif.Props.Snr

/-! # The layout of arrays in memory: property C109 -/

namespace Verif.Props

open Verif.Model Verif.Spec

variable {β : Type*}

/-! ## Elements and cells -/

theorem view_raw {v : View1 β} (h : v.contiguous = true) : v.raw = v.elems := by
  simp only [View1.contiguous, Bool.or_eq_true, decide_eq_true_eq] at h
  simp only [View1.raw, View1.elems]
  refine List.map_congr_left fun i hi => ?_
  have hi := List.mem_range.mp hi
  rcases h with h | h
  · have : i = 0 := by omega
    subst this
    simp [View1.elem]
  · simp [View1.elem, h]

theorem view_elems_length (v : View1 β) : v.elems.length = v.size := by simp [View1.elems]

theorem ofList_elems [Inhabited β] (x : List β) : (View1.ofList x).elems = x := by
  apply List.ext_getElem
  · simp [View1.elems, View1.ofList]
  · intro i h1 h2
    simp [View1.elems, View1.ofList, View1.elem, List.getElem?_eq_getElem h2]

theorem ofList_contiguous [Inhabited β] (x : List β) : (View1.ofList x).contiguous = true := by
  simp [View1.contiguous, View1.ofList]

theorem passed_elems [Inhabited β] (v : View1 β) : v.passed.elems = v.elems := by
  unfold View1.passed
  split_ifs
  · rfl
  · exact ofList_elems _

theorem passed_size [Inhabited β] (v : View1 β) : v.passed.size = v.size := by
  rw [← view_elems_length, passed_elems, view_elems_length]

/-- An array with one dimension that the C++ functions do not accept: it has the type that they take, at least two elements, and
these are not next to each other in their order. -/
def Scattered (v : View1 β) : Prop := v.native = true ∧ 2 ≤ v.size ∧ v.stride ≠ 1

theorem passed_contiguous [Inhabited β] (v : View1 β) : v.passed.contiguous = true ↔ ¬ Scattered v := by
  unfold View1.passed Scattered
  by_cases hn : v.native = true
  · simp only [hn, if_true, View1.contiguous, Bool.or_eq_true, decide_eq_true_eq]
    constructor
    · rintro (h | h) ⟨_, h2, h3⟩
      · omega
      · exact h3 h
    · intro h
      by_cases h1 : v.size ≤ 1
      · exact Or.inl h1
      · exact Or.inr (by by_contra h3; exact h ⟨trivial, by omega, h3⟩)
  · simp only [hn]
    simp [ofList_contiguous]

theorem assertContiguous_bind (flag : Bool) (f : Unit → Except PyErr β) :
    (assertContiguous flag).bind f = if flag then f () else .error .valueError := by
  cases flag <;> rfl

/-- What a C++ function gets: the elements, or `ValueError`. -/
theorem passed_call {γ : Type*} [Inhabited β] (v : View1 β) (f : List β → Except PyErr γ) :
    (Scattered v → ((assertContiguous v.passed.contiguous).bind fun _ => f v.passed.raw) = .error .valueError) ∧
    (¬ Scattered v → ((assertContiguous v.passed.contiguous).bind fun _ => f v.passed.raw) = f v.elems) := by
  constructor
  · intro h
    have : v.passed.contiguous ≠ true := fun hc => (passed_contiguous v).mp hc h
    simp only [Bool.not_eq_true] at this
    simp [this, assertContiguous, Except.bind]
  · intro h
    have hc := (passed_contiguous v).mpr h
    rw [view_raw hc, passed_elems]
    simp [hc, assertContiguous, Except.bind]

/-! ## Two dimensions -/

theorem view2_raw {v : View2} (h : v.contiguous = true) : v.raw = v.elems := by
  simp only [View2.contiguous, Bool.or_eq_true, Bool.and_eq_true, decide_eq_true_eq] at h
  simp only [View2.raw, View2.elems]
  refine List.map_congr_left fun i hi => List.map_congr_left fun j hj => ?_
  have hi := List.mem_range.mp hi
  have hj := List.mem_range.mp hj
  rcases h with (h | h) | ⟨hc, hr⟩
  · omega
  · omega
  · have h1 : (j : ℤ) * v.colStride = j := by
      rcases hc with hc | hc
      · have : j = 0 := by omega
        simp [this]
      · simp [hc]
    have h2 : (i : ℤ) * v.rowStride = i * v.cols := by
      rcases hr with hr | hr
      · have : i = 0 := by omega
        simp [this]
      · simp [hr]
    simp only [View2.elem, h1, h2]

theorem copyC_elem (v : View2) {i j : ℕ} (hj : j < v.cols) : v.copyC.elem i j = v.elem i j := by
  have h : ((i : ℤ) * v.cols + j * 1).toNat = i * v.cols + j := by
    rw [mul_one]; exact_mod_cast Int.toNat_natCast (i * v.cols + j)
  simp only [View2.elem, View2.copyC]
  rw [h]
  congr 3
  · rw [Nat.add_comm, Nat.add_mul_div_right _ _ (by omega), Nat.div_eq_of_lt hj, Nat.zero_add]
  · rw [Nat.add_comm, Nat.add_mul_mod_self_right, Nat.mod_eq_of_lt hj]

theorem copyF_elem (v : View2) {i j : ℕ} (hi : i < v.rows) : v.copyF.elem i j = v.elem i j := by
  have h : ((i : ℤ) * 1 + j * v.rows).toNat = i + j * v.rows := by
    rw [mul_one]; exact_mod_cast Int.toNat_natCast (i + j * v.rows)
  simp only [View2.elem, View2.copyF]
  rw [h]
  congr 3
  · rw [Nat.add_mul_mod_self_right, Nat.mod_eq_of_lt hi]
  · rw [Nat.add_mul_div_right _ _ (by omega), Nat.div_eq_of_lt hi, Nat.zero_add]

theorem elems2_congr {v w : View2} (hr : v.rows = w.rows) (hc : v.cols = w.cols)
    (h : ∀ i j, i < v.rows → j < v.cols → v.elem i j = w.elem i j) : v.elems = w.elems := by
  simp only [View2.elems, ← hr, ← hc]
  exact List.map_congr_left fun i hi => List.map_congr_left fun j hj => h i j (List.mem_range.mp hi) (List.mem_range.mp hj)

theorem copyC_elems (v : View2) : v.copyC.elems = v.elems :=
  elems2_congr rfl rfl fun _ _ _ hj => copyC_elem v hj

theorem copyF_elems (v : View2) : v.copyF.elems = v.elems :=
  elems2_congr rfl rfl fun _ _ hi _ => copyF_elem v hi

theorem castK_cases (v : View2) : v.castK = v.copyC ∨ v.castK = v.copyF := by
  unfold View2.castK
  split_ifs <;> simp

theorem castK_elems (v : View2) : v.castK.elems = v.elems := by
  rcases castK_cases v with h | h <;> rw [h]
  · exact copyC_elems v
  · exact copyF_elems v

theorem castK_native (v : View2) : v.castK.native = true := by
  rcases castK_cases v with h | h <;> rw [h] <;> rfl

theorem castK_shape (v : View2) : v.castK.rows = v.rows ∧ v.castK.cols = v.cols := by
  rcases castK_cases v with h | h <;> rw [h] <;> exact ⟨rfl, rfl⟩

/-- An array with at least two rows and two columns where consecutive elements of a column are nearer to each other than consecutive
elements of a row: for instance the transpose of an array that is stored by rows. -/
def ByColumns (v : View2) : Prop := 2 ≤ v.rows ∧ 2 ≤ v.cols ∧ |v.rowStride| < |v.colStride|

theorem copyC_contiguous (v : View2) : v.copyC.contiguous = true := by
  simp [View2.contiguous, View2.copyC]

theorem copyF_contiguous (v : View2) : v.copyF.contiguous = true ↔ ¬ (2 ≤ v.rows ∧ 2 ≤ v.cols) := by
  have hd : v.copyF.contiguous = (decide (v.rows = 0) || decide (v.cols = 0) ||
      ((decide (v.cols = 1) || decide ((v.rows : ℤ) = 1)) && (decide (v.rows = 1) || decide ((1 : ℤ) = v.cols)))) := rfl
  rw [hd]
  simp only [Bool.or_eq_true, Bool.and_eq_true, decide_eq_true_eq]
  constructor
  · rintro ((h | h) | ⟨h1, h2⟩) ⟨h3, h4⟩
    · omega
    · omega
    · rcases h1 with h1 | h1
      · omega
      · omega
  · intro h
    by_cases h0 : v.rows = 0
    · exact Or.inl (Or.inl h0)
    · by_cases h1 : v.cols = 0
      · exact Or.inl (Or.inr h1)
      · refine Or.inr ⟨?_, ?_⟩ <;> omega

theorem castK_contiguous (v : View2) : v.castK.contiguous = true ↔ ¬ ByColumns v := by
  unfold View2.castK ByColumns
  by_cases hc : v.contiguous = true
  · rw [if_pos hc]
    simp only [copyC_contiguous, true_iff]
    rintro ⟨h1, h2, h3⟩
    simp only [View2.contiguous, Bool.or_eq_true, Bool.and_eq_true, decide_eq_true_eq] at hc
    rcases hc with (h | h) | ⟨h4, h5⟩
    · omega
    · omega
    · have h4 : v.colStride = 1 := by omega
      have h5 : v.rowStride = v.cols := by omega
      rw [h4, h5] at h3
      simp only [Nat.abs_cast, abs_one] at h3
      omega
  · rw [if_neg hc]
    by_cases hf : v.fortran = true
    · rw [if_pos hf, copyF_contiguous]
      simp only [View2.fortran, Bool.or_eq_true, Bool.and_eq_true, decide_eq_true_eq] at hf
      constructor
      · rintro h ⟨h1, h2, _⟩
        exact h ⟨h1, h2⟩
      · rintro h ⟨h1, h2⟩
        apply h
        refine ⟨h1, h2, ?_⟩
        rcases hf with (h | h) | ⟨h4, h5⟩
        · omega
        · omega
        · have h4 : v.rowStride = 1 := by omega
          have h5 : v.colStride = v.rows := by omega
          rw [h4, h5]
          simp only [Nat.abs_cast, abs_one]
          omega
    · rw [if_neg hf]
      by_cases ho : |v.colStride| ≤ |v.rowStride|
      · rw [if_pos ho]
        simp only [copyC_contiguous, true_iff]
        rintro ⟨_, _, h3⟩
        exact absurd h3 (not_lt.mpr ho)
      · rw [if_neg ho, copyF_contiguous]
        have ho := not_le.mp ho
        constructor
        · rintro h ⟨h1, h2, _⟩
          exact h ⟨h1, h2⟩
        · rintro h ⟨h1, h2⟩
          exact h ⟨h1, h2, ho⟩

/-- An array with two dimensions that `ffa2` does not accept. -/
def Refused2 (v : View2) : Prop :=
  (v.native = true ∧ 1 ≤ v.rows ∧ 1 ≤ v.cols ∧ ((2 ≤ v.cols ∧ v.colStride ≠ 1) ∨ (2 ≤ v.rows ∧ v.rowStride ≠ v.cols))) ∨
  (v.native = false ∧ ByColumns v)

theorem passed2_contiguous (v : View2) : v.passed.contiguous = true ↔ ¬ Refused2 v := by
  unfold View2.passed Refused2
  by_cases hn : v.native = true
  · simp only [hn, if_true, View2.contiguous, Bool.or_eq_true, Bool.and_eq_true, decide_eq_true_eq]
    constructor
    · rintro h (⟨-, h1, h2, h3⟩ | ⟨h, -⟩)
      · rcases h with (h | h) | ⟨h4, h5⟩
        · omega
        · omega
        · rcases h3 with ⟨h6, h7⟩ | ⟨h6, h7⟩
          · rcases h4 with h4 | h4
            · omega
            · exact h7 h4
          · rcases h5 with h5 | h5
            · omega
            · exact h7 h5
      · cases h
    · intro h
      by_cases h0 : v.rows = 0
      · exact Or.inl (Or.inl h0)
      · by_cases h1 : v.cols = 0
        · exact Or.inl (Or.inr h1)
        · refine Or.inr ⟨?_, ?_⟩
          · by_contra hc
            push Not at hc
            exact h (Or.inl ⟨trivial, by omega, by omega, Or.inl ⟨by omega, hc.2⟩⟩)
          · by_contra hc
            push Not at hc
            exact h (Or.inl ⟨trivial, by omega, by omega, Or.inr ⟨by omega, hc.2⟩⟩)
  · have hn' : v.native = false := by simpa using hn
    simp only [hn', Bool.false_eq_true, if_false, false_and, false_or, true_and]
    exact castK_contiguous v

theorem passed2_elems (v : View2) : v.passed.elems = v.elems := by
  unfold View2.passed
  split_ifs
  · rfl
  · exact castK_elems v

/-- `ffa2` of the rows of an array. -/
noncomputable def rowsFfa2 (idx : IdxRule) (m p : ℕ) (x : List (List ℝ)) : Except PyErr (List (List ℝ)) :=
  match ffa2 (· + ·) idx m p (fun i j => (x.getD i []).getD j 0) with
  | none => .error .unspecified
  | some y => .ok ((List.range m).map (fun i => (List.range p).map (y i)))

theorem viewFfa2_eq (idx : IdxRule) (v : View2) :
    (Refused2 v → viewFfa2 idx v = .error .valueError) ∧
    (¬ Refused2 v → viewFfa2 idx v = rowsFfa2 idx v.rows v.cols v.elems) := by
  unfold viewFfa2
  constructor
  · intro h
    have : v.passed.contiguous ≠ true := fun hc => (passed2_contiguous v).mp hc h
    simp only [Bool.not_eq_true] at this
    simp [this, assertContiguous, Except.bind]
  · intro h
    have hc := (passed2_contiguous v).mpr h
    rw [view2_raw hc, passed2_elems, assertContiguous_bind, if_pos hc]
    rfl

theorem reshape2_elem (v : View1 ℝ) (m p i j : ℕ) : (v.reshape2 m p).elem i j = v.elem (i * p + j) := by
  simp only [View2.elem, View1.reshape2, View1.elem]
  congr 1
  push_cast
  ring

theorem elem_of_elems {v w : View1 β} (h : v.elems = w.elems) {i : ℕ} (hi : i < v.size) : v.elem i = w.elem i := by
  have hs : v.size = w.size := by rw [← view_elems_length, h, view_elems_length]
  have h1 : v.elems[i]? = some (v.elem i) := by simp [View1.elems, hi]
  have h2 : w.elems[i]? = some (w.elem i) := by simp [View1.elems, hs ▸ hi]
  rw [h, h2] at h1
  exact (Option.some.inj h1).symm

theorem size_of_elems {v w : View1 β} (h : v.elems = w.elems) : v.size = w.size := by
  rw [← view_elems_length, h, view_elems_length]

theorem reshape2_elems {v w : View1 ℝ} (h : v.elems = w.elems) {m p : ℕ} (hm : m * p ≤ v.size) :
    (v.reshape2 m p).elems = (w.reshape2 m p).elems := by
  refine elems2_congr rfl rfl fun i j hi hj => ?_
  rw [reshape2_elem, reshape2_elem]
  have hi : i < m := hi
  have hj : j < p := hj
  refine elem_of_elems h (lt_of_lt_of_le ?_ hm)
  calc i * p + j < i * p + p := by omega
    _ = (i + 1) * p := by ring
    _ ≤ m * p := Nat.mul_le_mul_right _ hi

theorem reshape2_refused {v : View1 ℝ} (h : ¬ Scattered v) {m p : ℕ} (hm : m * p ≤ v.size) : ¬ Refused2 (v.reshape2 m p) := by
  rintro (⟨hn, h1, h2, h3⟩ | ⟨hn, h1, h2, h3⟩)
  · have h1 : 1 ≤ m := h1
    have h2 : 1 ≤ p := h2
    have hstride : v.stride = 1 := by
      by_contra hc
      refine h ⟨hn, ?_, hc⟩
      refine le_trans ?_ hm
      rcases h3 with ⟨h3, -⟩ | ⟨h3, -⟩
      · have h3 : 2 ≤ p := h3
        nlinarith
      · have h3 : 2 ≤ m := h3
        nlinarith
    rcases h3 with ⟨-, h3⟩ | ⟨-, h3⟩
    · exact h3 hstride
    · apply h3
      show (p : ℤ) * v.stride = p
      rw [hstride, mul_one]
  · have h3 : |(p : ℤ) * v.stride| < |v.stride| := h3
    have h2 : 2 ≤ p := h2
    rw [abs_mul, Nat.abs_cast] at h3
    have : |v.stride| ≤ (p : ℤ) * |v.stride| := le_mul_of_one_le_left (abs_nonneg _) (by omega)
    omega

/-- A `float32` array with one dimension and a stride other than one is refused by `ffa1` (unless there is only one element). -/
theorem reshape2_scattered {v : View1 ℝ} (h : Scattered v) {m p : ℕ} (h1 : 1 ≤ m) (h2 : 1 ≤ p) (h3 : 2 ≤ m * p) :
    Refused2 (v.reshape2 m p) := by
  refine Or.inl ⟨h.1, h1, h2, ?_⟩
  by_cases hp : 2 ≤ p
  · exact Or.inl ⟨hp, h.2.2⟩
  · have : p = 1 := by omega
    subst this
    refine Or.inr ⟨show 2 ≤ m by omega, ?_⟩
    show ((1 : ℕ) : ℤ) * v.stride ≠ (1 : ℕ)
    simpa using h.2.2

/-! ## C109: functions of `libffa.py` -/

/-- C109, functions that take an array with one dimension. `downsample` returns the result for the elements of the array, or raises
`ValueError`, and it does the latter for reasons of layout exactly if the array is of type `float32`, and its elements are not next to each other.
The running median is that of the elements for every layout. -/
theorem C109_one_dimension (v : View1 ℝ) :
    (∀ factor, ¬ Scattered v → viewDownsample v factor = liftCall (downsampleBinding v.elems factor)) ∧
    (∀ factor, Scattered v → viewDownsample v factor = .error .valueError) ∧
    (∀ width, viewRunningMedian v width = liftCall (runningMedian v.elems width)) ∧
    ∀ width minPoints, viewFastRunningMedian v width minPoints = liftCall (fastRunningMedian v.elems width minPoints) := by
  have hmed : ∀ (v : View1 ℝ) width, viewRunningMedian v width = liftCall (runningMedian v.elems width) := by
    intro v width
    have h1 : v.ascontiguous.elems = v.elems ∧ v.ascontiguous.contiguous = true := by
      unfold View1.ascontiguous
      by_cases hc : v.contiguous = true
      · rw [if_pos hc]; exact ⟨rfl, hc⟩
      · rw [if_neg hc]; exact ⟨ofList_elems v.elems, ofList_contiguous v.elems⟩
    have h2 : ¬ Scattered v.ascontiguous := by
      rintro ⟨_, h3, h4⟩
      have := h1.2
      simp only [View1.contiguous, Bool.or_eq_true, decide_eq_true_eq] at this
      rcases this with h | h
      · omega
      · exact h4 h
    have := (passed_call v.ascontiguous fun x => liftCall (runningMedian x width)).2 h2
    rw [h1.1] at this
    exact this
  refine ⟨fun factor h => (passed_call v fun x => liftCall (downsampleBinding x factor)).2 h,
    fun factor h => (passed_call v fun x => liftCall (downsampleBinding x factor)).1 h, hmed v, ?_⟩
  intro width minPoints
  unfold viewFastRunningMedian fastRunningMedian
  by_cases h0 : minPoints % 2 = 0
  · simp [h0, liftCall]
  · simp only [if_neg h0]
    by_cases h1 : ⌊max 1 ((width : ℝ) / minPoints)⌋₊ = 1
    · simp only [if_pos h1]
      exact hmed v width
    · simp only [if_neg h1, hmed, ofList_elems, view_elems_length]
      cases runningMedian (scrunch v.elems ⌊max 1 ((width : ℝ) / minPoints)⌋₊) minPoints with
      | error e => cases e <;> rfl
      | ok r => rfl

/-- C109, the transform: its result depends on the elements only, except that arrays of certain layouts are refused with `ValueError`. -/
theorem C109_transform (idx : IdxRule) :
    (∀ v : View2, Refused2 v → viewFfa2 idx v = .error .valueError) ∧
    (∀ v w : View2, v.rows = w.rows → v.cols = w.cols → v.elems = w.elems → ¬ Refused2 v → ¬ Refused2 w →
      viewFfa2 idx v = viewFfa2 idx w) ∧
    (∀ (v w : View1 ℝ) (p : ℤ), v.elems = w.elems → ¬ Scattered v → ¬ Scattered w → viewFfa1 idx v p = viewFfa1 idx w p) ∧
    ∀ (v : View1 ℝ) (p : ℤ), Scattered v → 0 < p → viewFfa1 idx v p = .error .valueError := by
  refine ⟨fun v h => (viewFfa2_eq idx v).1 h, ?_, ?_, ?_⟩
  · intro v w hr hc he hv hw
    rw [(viewFfa2_eq idx v).2 hv, (viewFfa2_eq idx w).2 hw, hr, hc, he]
  · intro v w p he hv hw
    have hs := size_of_elems he
    unfold viewFfa1
    by_cases h1 : ¬ 0 < p
    · rw [if_pos h1, if_pos h1]
    · rw [if_neg h1, if_neg h1, hs]
      by_cases h2 : (w.size : ℤ) < p
      · rw [if_pos h2, if_pos h2]
      · rw [if_neg h2, if_neg h2]
        have hm : w.size / p.toNat * p.toNat ≤ w.size := Nat.div_mul_le_self _ _
        rw [(viewFfa2_eq idx _).2 (reshape2_refused hv (hs ▸ hm)), (viewFfa2_eq idx _).2 (reshape2_refused hw hm),
          reshape2_elems he (hs ▸ hm)]
        rfl
  · intro v p hv hp
    unfold viewFfa1
    rw [if_neg (by omega)]
    by_cases h2 : (v.size : ℤ) < p
    · rw [if_pos h2]
    · rw [if_neg h2]
      apply (viewFfa2_eq idx _).1
      have hq : 1 ≤ p.toNat := by omega
      have hle : p.toNat ≤ v.size := by omega
      have hdiv : 1 ≤ v.size / p.toNat := Nat.div_pos hle hq
      refine reshape2_scattered hv hdiv hq ?_
      by_cases hp2 : 2 ≤ p.toNat
      · nlinarith
      · have : p = 1 := by omega
        subst this
        simpa using hv.2.1

/-- `boxcar_snr` of the rows of an array. -/
noncomputable def rowsSnr (m n : ℕ) (x : List (List ℝ)) (widths : List ℕ) (std : ℝ) : Except PyErr (List (List ℝ)) :=
  liftCall (boxcarSnr m n (fun i j => (x.getD i []).getD j 0) widths std)

theorem bindingSnr2_eq (v : View2) (widths : View1 ℕ) (std : ℝ) :
    (Refused2 v ∨ Scattered widths → bindingSnr2 v widths std = .error .valueError) ∧
    (¬ Refused2 v → ¬ Scattered widths → bindingSnr2 v widths std = rowsSnr v.rows v.cols v.elems widths.elems std) := by
  unfold bindingSnr2
  constructor
  · intro h
    by_cases hr : v.passed.contiguous = true
    · have h : Scattered widths := h.resolve_left ((passed2_contiguous v).mp hr)
      rw [assertContiguous_bind, if_pos hr]
      exact (passed_call widths fun ws =>
        liftCall (boxcarSnr v.rows v.cols (fun i j => (v.passed.raw.getD i []).getD j 0) ws std)).1 h
    · rw [assertContiguous_bind, if_neg hr]
  · intro h1 h2
    have hr := (passed2_contiguous v).mpr h1
    rw [assertContiguous_bind, if_pos hr]
    have := (passed_call widths fun ws =>
        liftCall (boxcarSnr v.rows v.cols (fun i j => (v.passed.raw.getD i []).getD j 0) ws std)).2 h2
    simp only at this ⊢
    rw [this, view2_raw hr, passed2_elems]
    rfl

theorem castK_refused (v : View2) : Refused2 v.castK ↔ ByColumns v := by
  have h := castK_contiguous v
  have h2 := passed2_contiguous v.castK
  rw [show v.castK.passed = v.castK by simp [View2.passed, castK_native v]] at h2
  rw [h] at h2
  exact (not_iff_not.mp h2).symm

theorem passed_scattered [Inhabited β] (v : View1 β) : Scattered v.passed ↔ Scattered v := by
  unfold View1.passed
  split_ifs with h
  · rfl
  · constructor
    · rintro ⟨_, _, h3⟩
      exact absurd rfl h3
    · rintro ⟨h1, _⟩
      exact absurd h1 h

/-- C109, `boxcar_snr`: the result depends on the elements only, except that `ValueError` is raised for data with two dimensions that are
stored by columns (whatever their type), and for an array of `uint64` widths whose elements are not next to each other. -/
theorem C109_boxcar (v : View2) (widths : View1 ℕ) (std : ℝ) :
    (ByColumns v ∨ Scattered widths → viewBoxcarSnr v widths std = .error .valueError) ∧
    (¬ ByColumns v → ¬ Scattered widths → 0 < v.cols →
      viewBoxcarSnr v widths std = rowsSnr v.rows v.cols v.elems widths.elems std) ∧
    (∀ x : View1 ℝ, ¬ Scattered widths → 0 < x.size →
      viewBoxcarSnr1 x widths std = (rowsSnr 1 x.size [x.elems] widths.elems std).map fun out => out.getD 0 []) := by
  refine ⟨?_, ?_, ?_⟩
  · intro h
    unfold viewBoxcarSnr
    by_cases h0 : v.cols = 0
    · rw [if_pos h0]
    · rw [if_neg h0]
      refine (bindingSnr2_eq _ _ std).1 ?_
      rwa [castK_refused, passed_scattered]
  · intro h1 h2 h0
    unfold viewBoxcarSnr
    rw [if_neg (by omega), (bindingSnr2_eq _ _ std).2 (by rwa [castK_refused]) (by rwa [passed_scattered]), castK_elems, passed_elems,
      (castK_shape v).1, (castK_shape v).2]
  · intro x h2 h0
    unfold viewBoxcarSnr1
    have hb : ¬ ByColumns (x.reshape2 1 x.size) := by
      rintro ⟨h, -⟩
      have h : 2 ≤ 1 := h
      omega
    have he : (x.reshape2 1 x.size).elems = [x.elems] := by
      show (List.range 1).map _ = _
      simp only [List.range_one, List.map_cons, List.map_nil, View1.elems]
      congr 1
      refine List.map_congr_left fun j _ => ?_
      rw [reshape2_elem]
      congr 1
      omega
    rw [if_neg (by omega), (bindingSnr2_eq _ _ std).2 (by rwa [castK_refused]) (by rwa [passed_scattered]), castK_elems, passed_elems,
      (castK_shape _).1, (castK_shape _).2, he]
    rfl

/-! ## C109: time series -/

/-- Two series with the same samples, sampling time and metadata, whatever the layout of their arrays. -/
def SameSeries (a b : ViewSeries) : Prop := a.data.elems = b.data.elems ∧ a.tsamp = b.tsamp ∧ a.items = b.items

theorem viewMedianOf_eq (v : View1 ℝ) (tsamp width : ℝ) (minpts : ℕ) :
    viewMedianOf v tsamp width minpts = runningMedianOf v.elems tsamp width minpts := by
  unfold viewMedianOf runningMedianOf
  simp only [(C109_one_dimension v).2.2.2]

theorem ofList_passed [Inhabited β] (x : List β) : (View1.ofList x).passed = View1.ofList x := rfl

/-- A series made from a new array. -/
noncomputable def seriesOf (x : List ℝ) (tsamp : ℝ) (items : PyDict String MVal) : Except PyErr ViewSeries :=
  (metadataCopy items).map fun md => ⟨View1.ofList x, tsamp, dictSet md "tobs" (.num ((x.length : ℝ) * tsamp))⟩

theorem viewSeries_ofList (x : List ℝ) (tsamp : ℝ) (items : PyDict String MVal) :
    viewSeries (View1.ofList x) tsamp items false = seriesOf x tsamp items := rfl

/-- C109, a series that holds a copy: `TimeSeries(data, tsamp, metadata, copy=True)` is the same object for all arrays with these elements, of
whatever type and layout, and so is a series made from an array that has to be converted. Its array is contiguous. -/
theorem C109_copy (v : View1 ℝ) (tsamp : ℝ) (items : PyDict String MVal) :
    viewSeries v tsamp items true = seriesOf v.elems tsamp items ∧
    (v.native = false → viewSeries v tsamp items false = seriesOf v.elems tsamp items) ∧
    (∀ copy ts, viewSeries v tsamp items copy = .ok ts → ts.data.elems = v.elems ∧ (copy = true → ts.data.contiguous = true)) := by
  have h1 : viewSeries v tsamp items true = seriesOf v.elems tsamp items := by
    simp only [viewSeries, if_true, seriesOf, passed_elems]
    rfl
  refine ⟨h1, ?_, ?_⟩
  · intro h
    have : v.passed = View1.ofList v.elems := by simp [View1.passed, h]
    simp only [viewSeries, Bool.false_eq_true, if_false, this, seriesOf]
    rfl
  · intro copy ts h
    cases copy with
    | true =>
      rw [h1, seriesOf] at h
      obtain ⟨md, _, rfl⟩ := map_ok_inv h
      exact ⟨ofList_elems _, fun _ => ofList_contiguous _⟩
    | false =>
      simp only [viewSeries, Bool.false_eq_true, if_false] at h
      obtain ⟨md, _, rfl⟩ := map_ok_inv h
      exact ⟨passed_elems v, fun h => by cases h⟩

/-- The array of a series (of type `float32`) is not contiguous. -/
def ScatteredSeries (ts : ViewSeries) : Prop := Scattered ts.data

theorem same_normalise {a b : ViewSeries} (h : SameSeries a b) : viewNormalise a = viewNormalise b := by
  unfold viewNormalise
  rw [h.1, h.2.1, h.2.2]

theorem same_deredden {a b : ViewSeries} (h : SameSeries a b) (width : ℝ) (minpts : ℕ) :
    viewDeredden a width minpts = viewDeredden b width minpts := by
  unfold viewDeredden
  rw [viewMedianOf_eq, viewMedianOf_eq, h.1, h.2.1, h.2.2]

theorem same_downsample {a b : ViewSeries} (h : SameSeries a b) (ha : ¬ ScatteredSeries a) (hb : ¬ ScatteredSeries b) (factor : ℝ) :
    viewTsDownsample a factor = viewTsDownsample b factor := by
  unfold viewTsDownsample
  rw [(C109_one_dimension a.data).1 factor ha, (C109_one_dimension b.data).1 factor hb, h.1, h.2.1, h.2.2]

theorem same_fold {a b : ViewSeries} (h : SameSeries a b) (ha : ¬ ScatteredSeries a) (hb : ¬ ScatteredSeries b) (period : ℝ)
    (bins : ℕ) (subints : Option ℤ) : viewFold a period bins subints = viewFold b period bins subints := by
  unfold viewFold
  simp only [same_downsample h ha hb, size_of_elems h.1, h.2.1]

theorem same_periodogram (idx : IdxRule) {v w : View1 ℝ} (h : v.elems = w.elems) (hv : ¬ Scattered v) (hw : ¬ Scattered w) (tsamp : ℝ)
    (widths : List ℕ) (s : SearchArgs) : viewPeriodogram idx v tsamp widths s = viewPeriodogram idx w tsamp widths s := by
  have h1 := (passed_call v fun x =>
    liftCall (periodogramBinding idx x tsamp widths s.periodMin s.periodMax s.binsMin s.binsMax)).2 hv
  have h2 := (passed_call w fun x =>
    liftCall (periodogramBinding idx x tsamp widths s.periodMin s.periodMax s.binsMin s.binsMax)).2 hw
  unfold viewPeriodogram
  rw [h1, h2, h]

theorem seriesOf_data {x : List ℝ} {tsamp : ℝ} {items : PyDict String MVal} {ts : ViewSeries} (h : seriesOf x tsamp items = .ok ts) :
    ¬ Scattered ts.data := by
  obtain ⟨md, _, rfl⟩ := map_ok_inv h
  rintro ⟨_, _, h3⟩
  exact h3 rfl

/-- C109 for series: the outcome of `normalise` and `deredden` depends only on the samples, the sampling time and the metadata. So does that
of `ffa_search`, if it dereddens or normalises the series. For the other functions this holds as long as the array of the series is contiguous
(or has fewer than two samples). -/
theorem C109_series_partial (idx : IdxRule) (a b : ViewSeries) (h : SameSeries a b) :
    viewNormalise a = viewNormalise b ∧
    (∀ width minpts, viewDeredden a width minpts = viewDeredden b width minpts) ∧
    (∀ s : SearchArgs, s.deredden = true ∨ s.alreadyNormalised = false → viewSearch idx a s = viewSearch idx b s) ∧
    (¬ ScatteredSeries a → ¬ ScatteredSeries b →
      (∀ factor, viewTsDownsample a factor = viewTsDownsample b factor) ∧
      (∀ period bins subints, viewFold a period bins subints = viewFold b period bins subints) ∧
      ∀ s : SearchArgs, (viewSearch idx a s).map Prod.snd = (viewSearch idx b s).map Prod.snd) := by
  refine ⟨same_normalise h, same_deredden h, ?_, ?_⟩
  · intro s hs
    unfold viewSearch
    by_cases hd : s.deredden = true
    · simp only [hd, if_true]
      rw [same_deredden h]
    · have hn : s.alreadyNormalised = false := hs.resolve_left hd
      simp only [hd, hn, Except.bind, Bool.false_eq_true, if_false]
      rw [same_normalise h]
  · intro ha hb
    refine ⟨same_downsample h ha hb, same_fold h ha hb, ?_⟩
    intro s
    unfold viewSearch
    by_cases hd : s.deredden = true
    · simp only [hd, if_true]
      rw [same_deredden h]
    · by_cases hn : s.alreadyNormalised = true
      · simp only [hd, hn, Except.bind, Bool.false_eq_true, if_false, if_true]
        rw [same_periodogram idx h.1 ha hb, h.2.1]
        cases viewPeriodogram idx b.data b.tsamp (generateWidthTrials s.binsMin s.ducyMax s.wtsp) s <;> rfl
      · simp only [hd, hn, Except.bind, Bool.false_eq_true, if_false]
        rw [same_normalise h]

/-- C109, what happens otherwise: for a series whose array is not contiguous `downsample` raises `ValueError`, `fold` does not succeed, and a
search of the series as it is raises `ValueError`. -/
theorem C109_series_refused (idx : IdxRule) (ts : ViewSeries) (h : ScatteredSeries ts) :
    (∀ factor, viewTsDownsample ts factor = .error .valueError) ∧
    (∀ period bins subints r, viewFold ts period bins subints ≠ .ok r) ∧
    ∀ s : SearchArgs, s.deredden = false → s.alreadyNormalised = true → viewSearch idx ts s = .error .valueError := by
  have hd : ∀ factor, viewTsDownsample ts factor = .error .valueError := by
    intro factor
    unfold viewTsDownsample
    rw [(C109_one_dimension ts.data).2.1 factor h]
    rfl
  refine ⟨hd, ?_, ?_⟩
  · intro period bins subints r hr
    unfold viewFold at hr
    obtain ⟨u, _, hr⟩ := bind_ok_inv hr
    by_cases ht : ts.tsamp = 0
    · rw [if_pos ht] at hr
      cases hr
    · rw [if_neg ht] at hr
      simp only [hd] at hr
      cases hr
  · intro s h1 h2
    unfold viewSearch
    simp only [h1, h2, Except.bind, Bool.false_eq_true, if_false, if_true]
    have := (passed_call ts.data fun x => liftCall (periodogramBinding idx x ts.tsamp
      (generateWidthTrials s.binsMin s.ducyMax s.wtsp) s.periodMin s.periodMax s.binsMin s.binsMax)).1 h
    unfold viewPeriodogram
    rw [this]
    rfl

/-- `deredden` in place on a view changes the elements of the view, to the values that `deredden` returns otherwise, and no other cell
of the memory. -/
theorem C109_in_place (ts ts' : ViewSeries) (width : ℝ) (minpts : ℕ) (hs : ts.data.stride ≠ 0)
    (h : viewDereddenInPlace ts width minpts = .ok ts') :
    (∃ rmed, runningMedianOf ts.data.elems ts.tsamp width minpts = .ok rmed ∧
      ts'.data.elems = (List.range ts.data.size).map (fun i => (subtractArrays ts.data.elems rmed).getD i 0)) ∧
    ts'.tsamp = ts.tsamp ∧ ts'.items = ts.items ∧ ts'.data.size = ts.data.size ∧ ts'.data.stride = ts.data.stride ∧
    ∀ k, (∀ i : ℕ, i < ts.data.size → (i : ℤ) * ts.data.stride ≠ k) → ts'.data.cell k = ts.data.cell k := by
  unfold viewDereddenInPlace at h
  obtain ⟨rmed, hr, rfl⟩ := map_ok_inv h
  rw [viewMedianOf_eq] at hr
  refine ⟨⟨rmed, hr, ?_⟩, rfl, rfl, rfl, rfl, ?_⟩
  · simp only [View1.elems, View1.assign]
    refine List.map_congr_left fun i hi => ?_
    have hfind : (List.range ts.data.size).find? (fun (j : ℕ) => (j : ℤ) * ts.data.stride = i * ts.data.stride) = some i := by
      rw [List.find?_eq_some_iff_getElem]
      refine ⟨by simp, i, by simpa using hi, by simp, ?_⟩
      intro j hj
      have : (j : ℤ) ≠ i := by omega
      simp [this, hs]
    simp only [View1.elem, hfind]
    rfl
  · intro k hk
    have hfind : (List.range ts.data.size).find? (fun (j : ℕ) => (j : ℤ) * ts.data.stride = k) = none := by
      rw [List.find?_eq_none]
      intro j hj
      simpa using hk j (List.mem_range.mp hj)
    simp only [View1.assign, hfind]

/-- The heap that holds one series. -/
noncomputable def seriesHeap (ts : ViewSeries) : World := ⟨[ts.data.elems], [ts.items], [⟨0, ts.tsamp, 0⟩]⟩

theorem reshape_scaled (x : List ℝ) (c : ℝ) (m bins : ℕ) :
    reshape ((x.take (m * bins)).map (· * c) ++ x.drop (m * bins)) m bins = reshape (x.map (· * c)) m bins := by
  unfold reshape
  refine List.map_congr_left fun i hi => ?_
  have hi := List.mem_range.mp hi
  have hb : i * bins + bins ≤ m * bins := by
    calc i * bins + bins = (i + 1) * bins := by ring
      _ ≤ m * bins := Nat.mul_le_mul_right _ hi
  apply List.ext_getElem?
  intro k
  by_cases hk : k < bins
  · simp only [List.getElem?_take, hk, if_true, List.getElem?_drop]
    by_cases hx : i * bins + k < x.length
    · rw [List.getElem?_append_left (by simp; omega)]
      simp only [List.getElem?_map, List.getElem?_take]
      rw [if_pos (by omega)]
    · rw [List.getElem?_eq_none (by simp; omega), List.getElem?_eq_none (by simp; omega)]
  · simp only [List.getElem?_take, hk, if_false]

/-- A series on the heap with given samples, sampling time and metadata. -/
def OnHeap (w : World) (id : ℕ) (ts : ViewSeries) : Prop :=
  ∃ o, w.obj id = .ok o ∧ w.dataOf o = ts.data.elems ∧ o.tsamp = ts.tsamp ∧ w.metaOf o = ts.items

/-- Both fail with the same exception, or both succeed with the same series, which is a new one. -/
def SameOutcome : Except PyErr (World × ℕ) → Except PyErr ViewSeries → Prop
  | .error e, .error e' => e = e'
  | .ok r, .ok ts => OnHeap r.1 r.2 ts ∧ ¬ Scattered ts.data
  | _, _ => False

theorem tsNew_same (w : World) (x : List ℝ) (tsamp : ℝ) (items : PyDict String MVal) :
    SameOutcome (tsNew w x tsamp items) (viewSeries (View1.ofList x) tsamp items false) := by
  rw [viewSeries_ofList]
  unfold tsNew tsInit seriesOf
  simp only [World.newArray]
  cases metadataCopy items with
  | error e => exact rfl
  | ok md =>
    refine ⟨⟨⟨w.arrays.length, tsamp, w.metas.length⟩, ?_, ?_, rfl, ?_⟩, fun h => h.2.2 rfl⟩
    · simp [World.obj]
    · simp [World.dataOf, ofList_elems]
    · simp [World.metaOf]

theorem deredden_same {w : World} {id : ℕ} {ts : ViewSeries} (h : OnHeap w id ts) (width : ℝ) (minpts : ℕ) :
    SameOutcome ((tsDeredden w id width minpts false).bind fun (w, i) => .ok (w, i.getD 0)) (viewDeredden ts width minpts) := by
  obtain ⟨o, ho, hd, ht, hm⟩ := h
  unfold tsDeredden viewDeredden
  rw [ho, viewMedianOf_eq, ← hd, ← ht, ← hm]
  simp only [Except.bind]
  cases runningMedianOf (w.dataOf o) o.tsamp width minpts with
  | error e => exact rfl
  | ok rmed =>
    have := tsNew_same w (subtractArrays (w.dataOf o) rmed) o.tsamp (w.metaOf o)
    simp only [Bool.false_eq_true, if_false]
    cases h1 : tsNew w (subtractArrays (w.dataOf o) rmed) o.tsamp (w.metaOf o) with
    | error e => rw [h1] at this; exact this
    | ok r => rw [h1] at this; exact this

theorem normalise_same {w : World} {id : ℕ} {ts : ViewSeries} (h : OnHeap w id ts) :
    SameOutcome ((tsNormalise w id false).bind fun (w, i) => .ok (w, i.getD 0)) (viewNormalise ts) := by
  obtain ⟨o, ho, hd, ht, hm⟩ := h
  unfold tsNormalise viewNormalise
  rw [ho, ← hd, ← ht, ← hm]
  simp only [Except.bind, Bool.false_eq_true, if_false]
  have := tsNew_same w (normalised (w.dataOf o)) o.tsamp (w.metaOf o)
  cases h1 : tsNew w (normalised (w.dataOf o)) o.tsamp (w.metaOf o) with
  | error e => rw [h1] at this; exact this
  | ok r => rw [h1] at this; exact this

theorem downsample_same {w : World} {id : ℕ} {ts : ViewSeries} (h : OnHeap w id ts) (hs : ¬ Scattered ts.data) (factor : ℝ) :
    SameOutcome ((tsDownsample w id factor false).bind fun (w, i) => .ok (w, i.getD 0)) (viewTsDownsample ts factor) := by
  obtain ⟨o, ho, hd, ht, hm⟩ := h
  unfold tsDownsample viewTsDownsample
  rw [ho, (C109_one_dimension ts.data).1 factor hs, ← hd, ← ht, ← hm]
  simp only [Except.bind]
  cases liftCall (downsampleBinding (w.dataOf o) factor) with
  | error e => exact rfl
  | ok x =>
    have := tsNew_same w x (factor * o.tsamp) (w.metaOf o)
    simp only [Bool.false_eq_true, if_false]
    cases h1 : tsNew w x (factor * o.tsamp) (w.metaOf o) with
    | error e => rw [h1] at this; exact this
    | ok r => rw [h1] at this; exact this

theorem seriesHeap_onHeap (ts : ViewSeries) : OnHeap (seriesHeap ts) 0 ts := ⟨⟨0, ts.tsamp, 0⟩, rfl, rfl, rfl, rfl⟩

theorem periodogram_same (idx : IdxRule) {w : World} {id : ℕ} {ts : ViewSeries} (h : OnHeap w id ts) (hs : ¬ Scattered ts.data)
    (s : SearchArgs) :
    ((viewPeriodogram idx ts.data ts.tsamp (generateWidthTrials s.binsMin s.ducyMax s.wtsp) s).map
        fun r => (ts, generateWidthTrials s.binsMin s.ducyMax s.wtsp, r)).map Prod.snd =
    ((w.obj id).bind fun o =>
      (liftCall (periodogramBinding idx (w.dataOf o) o.tsamp (generateWidthTrials s.binsMin s.ducyMax s.wtsp) s.periodMin s.periodMax
        s.binsMin s.binsMax)).bind fun (periods, foldbins, snrs) =>
          Except.ok (w, id, SearchResult.mk (generateWidthTrials s.binsMin s.ducyMax s.wtsp) periods foldbins snrs o.metadata)).map
      fun r => (r.2.2.widths, r.2.2.periods, r.2.2.foldbins, r.2.2.snrs) := by
  obtain ⟨o, ho, hd, ht, hm⟩ := h
  have h1 := (passed_call ts.data fun x => liftCall (periodogramBinding idx x ts.tsamp
    (generateWidthTrials s.binsMin s.ducyMax s.wtsp) s.periodMin s.periodMax s.binsMin s.binsMax)).2 hs
  unfold viewPeriodogram
  rw [h1, ho]
  simp only [Except.bind, hd, ht]
  cases liftCall (periodogramBinding idx ts.data.elems ts.tsamp (generateWidthTrials s.binsMin s.ducyMax s.wtsp) s.periodMin s.periodMax
    s.binsMin s.binsMax) <;> rfl

theorem searchTail_same (idx : IdxRule) {w : World} {id : ℕ} {ts : ViewSeries} (h : OnHeap w id ts) (s : SearchArgs)
    (hs : s.alreadyNormalised = true → ¬ Scattered ts.data) :
    ((if s.alreadyNormalised then .ok ts else viewNormalise ts).bind fun ts =>
      (viewPeriodogram idx ts.data ts.tsamp (generateWidthTrials s.binsMin s.ducyMax s.wtsp) s).map
        fun r => (ts, generateWidthTrials s.binsMin s.ducyMax s.wtsp, r)).map Prod.snd =
    ((searchNormalise w id s).bind fun (w, id) => (w.obj id).bind fun o =>
      (liftCall (periodogramBinding idx (w.dataOf o) o.tsamp (generateWidthTrials s.binsMin s.ducyMax s.wtsp) s.periodMin s.periodMax
        s.binsMin s.binsMax)).bind fun (periods, foldbins, snrs) =>
          Except.ok (w, id, SearchResult.mk (generateWidthTrials s.binsMin s.ducyMax s.wtsp) periods foldbins snrs o.metadata)).map
      fun r => (r.2.2.widths, r.2.2.periods, r.2.2.foldbins, r.2.2.snrs) := by
  unfold searchNormalise
  by_cases hn : s.alreadyNormalised = true
  · simp only [hn, if_true]
    exact periodogram_same idx h (hs hn) s
  · simp only [hn, Bool.false_eq_true, if_false]
    have := normalise_same h
    revert this
    generalize ((tsNormalise w id false).bind fun (w, i) => Except.ok (w, i.getD 0)) = a
    generalize viewNormalise ts = b
    intro this
    cases a with
    | error e =>
      cases b with
      | error e' => cases this; rfl
      | ok ts' => exact this.elim
    | ok r =>
      cases b with
      | error e' => exact this.elim
      | ok ts' => exact periodogram_same idx this.1 this.2 s

/-- The functions of this file agree with those of `Verif.Model.TimeSeries`, to which the other properties refer, for
series with a contiguous array. -/
theorem C109_agrees (idx : IdxRule) (ts : ViewSeries) (h : ¬ ScatteredSeries ts) :
    (∀ period bins subints, viewFold ts period bins subints = (tsFold (seriesHeap ts) 0 period bins subints).map Prod.snd) ∧
    ∀ s : SearchArgs, (viewSearch idx ts s).map Prod.snd =
      (ffaSearch idx (seriesHeap ts) 0 s).map fun r => (r.2.2.widths, r.2.2.periods, r.2.2.foldbins, r.2.2.snrs) := by
  constructor
  · intro period bins subints
    unfold viewFold tsFold
    have ho : (seriesHeap ts).obj 0 = .ok ⟨0, ts.tsamp, 0⟩ := rfl
    have hl : (seriesHeap ts).lengthOf ⟨0, ts.tsamp, 0⟩ = (ts.data.size : ℝ) * ts.tsamp := by
      simp [World.lengthOf, seriesHeap, World.dataOf, view_elems_length]
    rw [ho]
    simp only [Except.bind, hl]
    cases foldChecks ((ts.data.size : ℝ) * ts.tsamp) ts.tsamp period bins subints with
    | error e => rfl
    | ok u =>
      simp only
      by_cases ht : ts.tsamp = 0
      · simp only [if_pos ht]; rfl
      · simp only [if_neg ht]
        have := downsample_same (seriesHeap_onHeap ts) h (period / bins / ts.tsamp)
        revert this
        generalize tsDownsample (seriesHeap ts) 0 (period / bins / ts.tsamp) false = a
        generalize viewTsDownsample ts (period / bins / ts.tsamp) = b
        intro this
        cases a with
        | error e =>
          cases b with
          | error e' => cases this; rfl
          | ok ts' => exact this.elim
        | ok r =>
          cases b with
          | error e' => exact this.elim
          | ok ts' =>
            obtain ⟨⟨o, ho, hd, _, _⟩, _⟩ := this
            simp only at ho hd
            simp only [ho]
            have hlen : (r.1.dataOf o).length = ts'.data.size := by rw [hd, view_elems_length]
            simp only [hlen]
            by_cases hm : ts'.data.size / bins = 0
            · simp only [if_pos hm]; rfl
            · simp only [if_neg hm]
              have hin : o.data < r.1.arrays.length := by
                by_contra hc
                have : r.1.dataOf o = [] := by simp [World.dataOf, List.getElem?_eq_none (not_lt.mp hc)]
                rw [this] at hlen
                apply hm
                rw [← hlen]
                simp
              have hset : ∀ y : List ℝ, World.dataOf ⟨r.1.arrays.set o.data y, r.1.metas, r.1.objs⟩ o = y := by
                intro y
                simp [World.dataOf, hin]
              simp only [hset, reshape_scaled, hd]
              cases foldOutput (reshape (ts'.data.elems.map
                fun x => x * (Real.sqrt (((ts'.data.size / bins : ℕ) : ℝ) * (period / bins / ts.tsamp)))⁻¹) (ts'.data.size / bins) bins)
                (ts'.data.size / bins) bins subints <;> rfl
  · intro s
    unfold viewSearch ffaSearch searchDeredden
    by_cases hd : s.deredden = true
    · simp only [hd, if_true]
      have := deredden_same (seriesHeap_onHeap ts) s.rmedWidth s.rmedMinpts
      revert this
      generalize ((tsDeredden (seriesHeap ts) 0 s.rmedWidth s.rmedMinpts false).bind fun (w, i) => Except.ok (w, i.getD 0)) = a
      generalize viewDeredden ts s.rmedWidth s.rmedMinpts = b
      intro this
      cases a with
      | error e =>
        cases b with
        | error e' => cases this; rfl
        | ok ts' => exact this.elim
      | ok r =>
        cases b with
        | error e' => exact this.elim
        | ok ts' => exact searchTail_same idx this.1 s fun _ => this.2
    · simp only [hd, Bool.false_eq_true, if_false]
      exact searchTail_same idx (seriesHeap_onHeap ts) s fun _ => h

/-- C109, slices: element `k` of `x[start::step]` is element `start + k * step` of `x`, also if `x` is itself a slice; a slice of a new array
is scattered exactly if it has at least two elements and its step is not 1. -/
theorem C109_slice {β : Type*} (v : View1 β) (start count : ℕ) (step : ℤ) :
    (∀ (k j : ℕ), (j : ℤ) = start + k * step → (v.slice start count step).elem k = v.elem j) ∧
    ∀ [Inhabited β] (x : List β), Scattered ((View1.ofList x).slice start count step) ↔ 2 ≤ count ∧ step ≠ 1 := by
  refine ⟨?_, ?_⟩
  · intro k j hj
    simp only [View1.elem, View1.slice]
    rw [hj]
    congr 1
    ring
  · intro _ x
    simp [Scattered, View1.slice, View1.ofList]

/-- Non-vacuity: the last two elements, backwards, of every second element of a list. -/
example : (((View1.ofList [1, 2, 3, 4, 5, 6]).slice 0 3 2).slice 2 2 (-1)).elems = [5, 3] ∧
    Scattered ((View1.ofList [1, 2, 3, 4, 5, 6]).slice 0 3 2) :=
  ⟨by decide, ((C109_slice (View1.ofList [1]) 0 3 2).2 _).2 ⟨by decide, by decide⟩⟩

/-! ## C109 is false as stated -/

/-- Every second sample of `[1, 0, 2, 0, 3, 0, 4, 0]`, as a view of that array. -/
noncomputable def everySecond : View1 ℝ := (View1.ofList [1, 0, 2, 0, 3, 0, 4, 0]).slice 0 4 2

/-- The samples in reverse order, `x[::-1]`. -/
noncomputable def reversedView : View1 ℝ := (View1.ofList [4, 3, 2, 1]).slice 3 4 (-1)

theorem everySecond_elems : everySecond.elems = [1, 2, 3, 4] := by
  simp [View1.elems, View1.elem, everySecond, View1.slice, View1.ofList, List.range_succ]

theorem reversedView_elems : reversedView.elems = [1, 2, 3, 4] := by
  simp [View1.elems, View1.elem, reversedView, View1.slice, View1.ofList, List.range_succ]

theorem everySecond_scattered : Scattered everySecond := by
  refine ⟨rfl, by decide, ?_⟩
  show (2 : ℤ) * 1 ≠ 1
  decide

theorem reversedView_scattered : Scattered reversedView := by
  refine ⟨rfl, by decide, ?_⟩
  show (-1 : ℤ) * 1 ≠ 1
  decide

/-- The array of shape (3, 2) that is the transpose of one stored by rows. -/
noncomputable def transposedView : View2 := ((View1.ofList [1, 2, 3, 4, 5, 6]).reshape2 2 3).transpose

theorem transposedView_byColumns : ByColumns transposedView := by
  refine ⟨by decide, by decide, ?_⟩
  show |(1 : ℤ)| < |((3 : ℕ) : ℤ) * 1|
  decide

/-- C109 is false: `downsample(x[::2], 2.0)` raises `ValueError` for a `float32` array, and returns the sums of pairs for a copy of the same
elements; the S/N of the rows of a transposed array raises it, and that of a copy is computed; a series that holds a view can be normalised and not
downsampled. -/
theorem C109_false :
    (∃ v w : View1 ℝ, v.elems = w.elems ∧ v.native = true ∧ w.native = true ∧
      (viewDownsample v 2 = .error .valueError) ∧ ∃ r, viewDownsample w 2 = .ok r ∧ r.length = 2) ∧
    (∃ (v w : View2), v.elems = w.elems ∧ v.rows = w.rows ∧ v.cols = w.cols ∧
      viewBoxcarSnr v (View1.ofList [1]) 1 = .error .valueError ∧ ∃ r, viewBoxcarSnr w (View1.ofList [1]) 1 = .ok r) ∧
    ∃ ts, viewSeries everySecond 1 [] false = .ok ts ∧ (∃ r, viewNormalise ts = .ok r) ∧
      viewTsDownsample ts 2 = .error .valueError := by
  refine ⟨?_, ?_, ?_⟩
  · refine ⟨everySecond, View1.ofList [1, 2, 3, 4], ?_, rfl, rfl, (C109_one_dimension _).2.1 _ everySecond_scattered, ?_⟩
    · rw [everySecond_elems, ofList_elems]
    · rw [(C109_one_dimension _).1 2 (fun h => h.2.2 rfl), ofList_elems,
        Lemmas.downsampleBinding_ok _ _ (by constructor <;> norm_num)]
      refine ⟨_, rfl, ?_⟩
      simp only [List.length_map, List.length_range, downsampledSize, List.length_cons, List.length_nil]
      norm_num
  · refine ⟨transposedView, transposedView.copyC, (copyC_elems _).symm, rfl, rfl,
      (C109_boxcar _ _ _).1 (Or.inl transposedView_byColumns), ?_⟩
    rw [(C109_boxcar _ _ _).2.1 (by
      rintro ⟨-, -, h⟩
      have h : |((2 : ℕ) : ℤ)| < |(1 : ℤ)| := h
      revert h
      decide) (fun h => h.2.2 rfl) (by decide)]
    obtain ⟨out, ho, -⟩ := (C13_boxcar_snr_validation transposedView.copyC.rows transposedView.copyC.cols
      (fun i j => (transposedView.copyC.elems.getD i []).getD j 0) (View1.ofList [1]).elems (by rw [ofList_elems]; simp) 1).2
      (by norm_num) (by rw [ofList_elems]; decide)
    exact ⟨out, by rw [rowsSnr, ho]; rfl⟩
  · obtain ⟨ts, hts, hdata, hmd⟩ : ∃ ts, viewSeries everySecond 1 [] false = .ok ts ∧ ts.data = everySecond ∧
        dictGet ts.items "tobs" = some (.num 4) := by
      refine ⟨_, rfl, rfl, ?_⟩
      show dictGet (dictSet (reservedKeys.foldl setDefaultNone []) "tobs" (MVal.num (((4 : ℕ) : ℝ) * 1))) "tobs" = some (MVal.num 4)
      rw [dictGet_set, if_pos rfl]
      norm_num
    refine ⟨ts, hts, ?_, (C109_series_refused exactIdx ts (by unfold ScatteredSeries; rw [hdata]; exact everySecond_scattered)).1 2⟩
    have : ∃ md, metadataCopy ts.items = .ok md := by simp [metadataCopy, hmd]
    obtain ⟨md, hmd⟩ := this
    simp [viewNormalise, viewSeries, hmd, Except.map]

/-- The hypotheses of the theorems are met: a view and its copy are the same series; a slice of consecutive samples is not scattered;
an array stored by rows is accepted, and its transpose is not. -/
example : everySecond.elems = (View1.ofList [1, 2, 3, 4]).elems ∧ everySecond.elems = reversedView.elems ∧ Scattered everySecond ∧
    Scattered reversedView ∧ ¬ Scattered (View1.ofList [(1 : ℝ), 2, 3, 4]) ∧
    ¬ Scattered ((View1.ofList [(1 : ℝ), 2, 3, 4]).slice 1 3 1) ∧ ByColumns transposedView ∧ Refused2 transposedView ∧
    ¬ Refused2 transposedView.copyC ∧ everySecond.stride ≠ 0 := by
  refine ⟨by rw [everySecond_elems, ofList_elems], by rw [everySecond_elems, reversedView_elems], everySecond_scattered,
    reversedView_scattered, fun h => h.2.2 rfl, fun h => h.2.2 rfl, transposedView_byColumns, ?_, ?_, ?_⟩
  · exact Or.inl ⟨rfl, by decide, by decide, Or.inl ⟨by decide, by show ((3 : ℕ) : ℤ) * 1 ≠ 1; decide⟩⟩
  · rw [← passed2_contiguous]
    exact copyC_contiguous transposedView
  · show (2 : ℤ) * 1 ≠ 0
    decide

/-- `deredden` in place succeeds for every second of eight samples, with a window of three samples: the hypotheses of `C109_in_place` are met
for an array that is not contiguous. -/
example : ∃ ts ts', viewSeries everySecond 1 [] false = .ok ts ∧ ScatteredSeries ts ∧ ts.data.stride ≠ 0 ∧
    viewDereddenInPlace ts 3 101 = .ok ts' := by
  obtain ⟨ts, hts, hdata, ht⟩ : ∃ ts, viewSeries everySecond 1 [] false = .ok ts ∧ ts.data = everySecond ∧ ts.tsamp = 1 :=
    ⟨_, rfl, rfl, rfl⟩
  have hr : ∃ rmed, viewMedianOf ts.data ts.tsamp 3 101 = .ok rmed := by
    rw [viewMedianOf_eq, hdata, everySecond_elems, ht]
    obtain ⟨out, hout⟩ := C27_partial ([1, 2, 3, 4] : List ℝ) 3 101 (by decide) (Or.inr (by decide)) (by simp)
    have hp : pyRound ((3 : ℝ) / 1) = 3 := by
      have hfl : ⌊((3 : ℝ) / 1)⌋ = 3 := by rw [Int.floor_eq_iff]; norm_num
      unfold pyRound
      rw [hfl]
      norm_num
    refine ⟨out, ?_⟩
    unfold runningMedianOf
    rw [if_neg one_ne_zero]
    simp only [hp]
    rw [if_pos (by norm_num), show (3 : ℤ).toNat = 3 from rfl, hout]
    rfl
  obtain ⟨rmed, hr⟩ := hr
  refine ⟨ts, { ts with data := ts.data.assign (subtractArrays ts.data.elems rmed) }, hts, ?_, ?_, ?_⟩
  · unfold ScatteredSeries
    rw [hdata]
    exact everySecond_scattered
  · rw [hdata]
    show (2 : ℤ) * 1 ≠ 0
    decide
  · unfold viewDereddenInPlace
    rw [hr]
    rfl

end Verif.Props
