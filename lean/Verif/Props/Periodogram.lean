import Verif.Lemmas.Cover
import Verif.Spec.Periodogram
import Verif.Props.Float
import Verif.Props.Snr
import Verif.Props.Trials
import Verif.Props.Downsample

/-! # Property theorems for the periodogram: C17 - C21, C23, C58, C59 -/

namespace Verif.Props

open Verif.Model Verif.Spec Verif.Lemmas Finset

/-- Admissible index arithmetic for transforms of up to `M` rows: exact, or single precision (with or without fused
multiply-add) up to 2^22 rows. -/
def IdxFor (idx : IdxRule) (M : ℕ) : Prop :=
  idx = exactIdx ∨ ((idx = float32Idx ∨ idx = float32IdxFma) ∧ M ≤ 2 ^ 22)

theorem IdxFor.ok {idx : IdxRule} {M : ℕ} (h : IdxFor idx M) : ∀ m ≤ M, 3 ≤ m → IdxOK idx m := by
  intro m hm h3
  rcases h with rfl | ⟨h1, h2⟩
  · exact exactIdx_ok h3
  · obtain ⟨_, _⟩ := C06_float_index_in_range m h3 (by omega) idx h1 0 (by omega)
    exact ⟨fun s hs => (C06_float_index_in_range m h3 (by omega) idx h1 s hs).1,
      fun s hs => (C06_float_index_in_range m h3 (by omega) idx h1 s hs).2.1,
      fun s hs => (C06_float_index_in_range m h3 (by omega) idx h1 s hs).2.2.1,
      fun s hs => (C06_float_index_in_range m h3 (by omega) idx h1 s hs).2.2.2⟩

/-- What a successful call returns. -/
theorem pg_ok_inv {idx : IdxRule} {data : List ℝ} {tsamp : ℝ} {widths : List ℕ} (hne : widths ≠ [])
    {pmin pmax : ℝ} {bmin bmax : ℕ} (hidx : IdxFor idx (data.length / bmin))
    {per : List ℝ} {fb : List ℕ} {snr : List (List ℝ)}
    (h : periodogramBinding idx data tsamp widths pmin pmax bmin bmax = .ok (per, fb, snr)) :
    ∃ a : PgArgs, a = ⟨data.length, tsamp, pmin, pmax, bmin, bmax⟩ ∧ a.Valid ∧
      (∀ i < a.numDs, a.f i = 1 ∨ a.f i ≤ a.size) ∧ per = (trials a).map (perOf a) ∧
      fb = (trials a).map (fun t => t.2.1) ∧
      snr = (trials a).map (snrOf idx a (fun i => data.getD i 0) widths) := by
  obtain ⟨h1, h2, h3⟩ := periodogramBinding_eq idx data tsamp widths hne pmin pmax bmin bmax _ rfl hidx.ok
  by_cases hv : PgArgs.Valid ⟨data.length, tsamp, pmin, pmax, bmin, bmax⟩
  · by_cases hall : ∃ i < PgArgs.numDs ⟨data.length, tsamp, pmin, pmax, bmin, bmax⟩,
        ¬ (PgArgs.f ⟨data.length, tsamp, pmin, pmax, bmin, bmax⟩ i = 1 ∨
          PgArgs.f ⟨data.length, tsamp, pmin, pmax, bmin, bmax⟩ i ≤
            (PgArgs.size ⟨data.length, tsamp, pmin, pmax, bmin, bmax⟩ : ℝ))
    · rw [h2 hv hall] at h; cases h
    · push Not at hall
      have hall' : ∀ i < PgArgs.numDs ⟨data.length, tsamp, pmin, pmax, bmin, bmax⟩,
          PgArgs.f ⟨data.length, tsamp, pmin, pmax, bmin, bmax⟩ i = 1 ∨
          PgArgs.f ⟨data.length, tsamp, pmin, pmax, bmin, bmax⟩ i ≤
            (PgArgs.size ⟨data.length, tsamp, pmin, pmax, bmin, bmax⟩ : ℝ) := by
        intro i hi
        by_contra hc
        exact hc (by have := hall i hi; tauto)
      rw [h3 hv hall'] at h
      cases h
      exact ⟨_, rfl, hv, hall', rfl, rfl, rfl⟩
  · rw [h1 hv] at h; cases h

/-- C17. The search writes exactly the announced number of entries: with output arrays of exactly the announced length no
store is out of bounds, and no cell of the returned arrays is left unwritten (either would be `undefinedBehaviour`). -/
theorem C17_outputs_filled_exactly (idx : IdxRule) (data : List ℝ) (tsamp : ℝ) (widths : List ℕ) (hne : widths ≠ [])
    (pmin pmax : ℝ) (bmin bmax : ℕ) (hidx : IdxFor idx (data.length / bmin)) :
    periodogramBinding idx data tsamp widths pmin pmax bmin bmax ≠ .error .undefinedBehaviour ∧
    ∀ per fb snr, periodogramBinding idx data tsamp widths pmin pmax bmin bmax = .ok (per, fb, snr) →
      periodogramLength ⟨data.length, tsamp, pmin, pmax, bmin, bmax⟩ = .ok per.length ∧
      fb.length = per.length ∧ snr.length = per.length ∧ ∀ row ∈ snr, row.length = widths.length := by
  constructor
  · obtain ⟨h1, h2, h3⟩ := periodogramBinding_eq idx data tsamp widths hne pmin pmax bmin bmax _ rfl hidx.ok
    intro h
    by_cases hv : PgArgs.Valid ⟨data.length, tsamp, pmin, pmax, bmin, bmax⟩
    · by_cases hall : ∃ i < PgArgs.numDs ⟨data.length, tsamp, pmin, pmax, bmin, bmax⟩,
          ¬ (PgArgs.f ⟨data.length, tsamp, pmin, pmax, bmin, bmax⟩ i = 1 ∨
            PgArgs.f ⟨data.length, tsamp, pmin, pmax, bmin, bmax⟩ i ≤
              (PgArgs.size ⟨data.length, tsamp, pmin, pmax, bmin, bmax⟩ : ℝ))
      · rw [h2 hv hall] at h; cases h
      · rw [h3 hv (by
          intro i hi
          by_contra hc
          exact hall ⟨i, hi, hc⟩)] at h
        cases h
    · rw [h1 hv] at h; cases h
  · intro per fb snr h
    obtain ⟨a, ha, hv, _, rfl, rfl, rfl⟩ := pg_ok_inv hne hidx h
    rw [← ha, periodogramLength_eq a hv]
    refine ⟨by simp, by simp, by simp, ?_⟩
    intro row hrow
    rw [List.mem_map] at hrow
    obtain ⟨t, _, rfl⟩ := hrow
    exact snrRow_length _ _ _ _

/-- C18. Strictly increasing trial periods in `[pmin, pmax)`, numbers of bins in `[bmin, bmax]`. -/
theorem C18_periods_increasing (idx : IdxRule) (data : List ℝ) (tsamp : ℝ) (widths : List ℕ) (hne : widths ≠ [])
    (pmin pmax : ℝ) (bmin bmax : ℕ) (hidx : IdxFor idx (data.length / bmin)) (per : List ℝ) (fb : List ℕ)
    (snr : List (List ℝ))
    (h : periodogramBinding idx data tsamp widths pmin pmax bmin bmax = .ok (per, fb, snr)) :
    per.Pairwise (· < ·) ∧ (∀ p ∈ per, pmin ≤ p ∧ p < pmax) ∧ ∀ b ∈ fb, bmin ≤ b ∧ b ≤ bmax := by
  obtain ⟨a, ha, hv, _, rfl, rfl, rfl⟩ := pg_ok_inv hne hidx h
  have e1 : a.pmin = pmin := by rw [ha]
  have e2 : a.pmax = pmax := by rw [ha]
  have e3 : a.bmin = bmin := by rw [ha]
  have e4 : a.bmax = bmax := by rw [ha]
  refine ⟨?_, ?_, ?_⟩
  · rw [List.pairwise_map]; exact trials_sorted hv
  · intro p hp
    rw [List.mem_map] at hp
    obtain ⟨⟨i, b, s⟩, ht, rfl⟩ := hp
    rw [← e1, ← e2]
    exact ⟨per_ge_pmin hv ht, per_lt_pmax hv ht⟩
  · intro b hb
    rw [List.mem_map] at hb
    obtain ⟨⟨i, b', s⟩, ht, rfl⟩ := hb
    rw [← e3, ← e4]
    obtain ⟨_, h2, h3, _⟩ := mem_trials.mp ht
    exact ⟨h2, h3.trans ((min_le_left _ _).trans (min_le_left _ _))⟩

/-- C19. If the data contain at least two periods of `pmax`, the search succeeds, the first trial is `pmin`, the trial
frequencies within a fold are equally spaced by `step` (this is the definition of `Trial.freq`), and there
are no holes: every period `P` in the searched range has a trial whose frequency is at most one step above `1/P`. -/
theorem C19_no_holes (idx : IdxRule) (data : List ℝ) (tsamp : ℝ) (widths : List ℕ) (hne : widths ≠ [])
    (pmin pmax : ℝ) (bmin bmax : ℕ) (hidx : IdxFor idx (data.length / bmin))
    (hv : PgArgs.Valid ⟨data.length, tsamp, pmin, pmax, bmin, bmax⟩) (h2 : 2 * pmax ≤ data.length * tsamp) :
    ∃ (per : List ℝ) (fb : List ℕ) (snr : List (List ℝ)) (lab : List Trial),
      periodogramBinding idx data tsamp widths pmin pmax bmin bmax = .ok (per, fb, snr) ∧
      lab.length = per.length ∧ per.head? = some pmin ∧
      (∀ j (h : j < per.length) (h' : j < fb.length) (h'' : j < lab.length),
        lab[j].OK data.length tsamp pmin bmin bmax ∧ lab[j].b = fb[j] ∧ 1 / per[j] = lab[j].freq tsamp) ∧
      ∀ P, pmin ≤ P → P < pmax → ∃ j, ∃ (h : j < per.length) (h' : j < lab.length),
        per[j] ≤ P ∧ 1 / per[j] - 1 / P < lab[j].step tsamp := by
  obtain ⟨_, _, h3⟩ := periodogramBinding_eq idx data tsamp widths hne pmin pmax bmin bmax _ rfl hidx.ok
  generalize ha : PgArgs.mk data.length tsamp pmin pmax bmin bmax = a at *
  have e0 : a.size = data.length := by rw [← ha]
  have e1 : a.pmin = pmin := by rw [← ha]
  have e2 : a.pmax = pmax := by rw [← ha]
  have e3 : a.bmin = bmin := by rw [← ha]
  have e4 : a.bmax = bmax := by rw [← ha]
  have e5 : a.tsamp = tsamp := by rw [← ha]
  rw [← e0, ← e2, ← e5] at h2
  have hall := stages_ok hv (by
    have h4 : (2 : ℝ) ≤ a.bmin := by exact_mod_cast hv.2.2.2.1
    have h5 : 0 < a.pmax := hv.2.1.trans hv.2.2.1
    have h6 : (0 : ℝ) ≤ a.size * a.tsamp := by linarith
    nlinarith)
  refine ⟨_, _, _, (trials a).map (labelOf a), h3 hv hall, by simp, ?_, ?_, ?_⟩
  · -- the first trial
    obtain ⟨t, ht, hle, _⟩ := cover hv h2 a.pmin le_rfl hv.2.2.1
    have hge : a.pmin ≤ perOf a t := by obtain ⟨i, b, s⟩ := t; exact per_ge_pmin hv ht
    have heq : perOf a t = a.pmin := le_antisymm hle hge
    have hsort := trials_sorted hv
    have hallge : ∀ t ∈ trials a, a.pmin ≤ perOf a t := by
      rintro ⟨i, b, s⟩ h; exact per_ge_pmin hv h
    cases hl : trials a with
    | nil => rw [hl] at ht; simp at ht
    | cons t0 l =>
      rw [hl] at ht hsort hallge
      simp only [List.map_cons, List.head?_cons, Option.some.injEq]
      rw [← e1]
      rcases List.mem_cons.mp ht with h | h
      · rw [← h]; exact heq
      · have := (List.pairwise_cons.mp hsort).1 t h
        have := hallge t0 (by simp)
        linarith
  · intro j h h' h''
    simp only [List.length_map] at h
    simp only [List.getElem_map]
    have hm : (trials a)[j] ∈ trials a := List.getElem_mem h
    rw [← e0, ← e1, ← e3, ← e4, ← e5]
    exact ⟨label_ok hv hm, rfl, label_freq hv hm⟩
  · intro P h1 h2'
    rw [← e1] at h1
    rw [← e2] at h2'
    obtain ⟨t, ht, g1, g2, _⟩ := cover hv h2 P h1 h2'
    obtain ⟨j, hj, rfl⟩ := List.getElem_of_mem ht
    refine ⟨j, by simpa using hj, by simpa using hj, ?_, ?_⟩
    · simpa using g1
    · simpa [← e5] using g2

/-- The hypotheses of C17 - C19 hold for a search of 1000 samples of 1 s, periods 8 to 40 s, 8 to 10 bins, with single
precision indices. -/
example : IdxFor float32Idx (1000 / 8) ∧ PgArgs.Valid ⟨1000, 1, 8, 40, 8, 10⟩ ∧ (2 : ℝ) * 40 ≤ (1000 : ℕ) * 1 := by
  refine ⟨Or.inr ⟨Or.inl rfl, by norm_num⟩, ?_, by norm_num⟩
  refine ⟨?_, ?_, ?_, ?_, ?_, ?_⟩ <;> norm_num

/-- C20. In every stage that is searched, the downsampled series, and the `rows × bins` cells of every fold, fit in buffers
with the size of the first stage, and every fold has at least one row. (That no load or store of the search leaves its
array or reads an unwritten cell is part of C17.) -/
theorem C20_buffers_large_enough (a : PgArgs) (hv : a.Valid) (i : ℕ) :
    a.n i ≤ downsampledSize a.size a.dsIni ∧
    ∀ b, a.bmin ≤ b → b ≤ a.bstop i →
      1 ≤ a.n i / b ∧ a.n i / b * b ≤ downsampledSize a.size a.dsIni := by
  refine ⟨n_le hv i, ?_⟩
  intro b h1 h2
  have hb : 0 < b := by have := hv.2.2.2.1; omega
  have hn : b ≤ a.n i := h2.trans ((min_le_left _ _).trans (min_le_right _ _))
  exact ⟨(Nat.le_div_iff_mul_le hb).mpr (by omega), (Nat.div_mul_le_self _ _).trans (n_le hv i)⟩

/-- C21, exact condition: with valid arguments the search fails exactly when some stage below `pmax` has a downsampling factor
larger than the number of samples. -/
theorem C21_fails_iff (idx : IdxRule) (data : List ℝ) (tsamp : ℝ) (widths : List ℕ) (hne : widths ≠ [])
    (pmin pmax : ℝ) (bmin bmax : ℕ) (hidx : IdxFor idx (data.length / bmin))
    (hv : PgArgs.Valid ⟨data.length, tsamp, pmin, pmax, bmin, bmax⟩) :
    periodogramBinding idx data tsamp widths pmin pmax bmin bmax = .error .valueError ↔
      ∃ i, stageFactor tsamp pmin bmin bmax i * tsamp * bmin < pmax ∧ stageFactor tsamp pmin bmin bmax i ≠ 1 ∧
        data.length < stageFactor tsamp pmin bmin bmax i := by
  obtain ⟨_, h2, h3⟩ := periodogramBinding_eq idx data tsamp widths hne pmin pmax bmin bmax _ rfl hidx.ok
  have key : (∃ i < PgArgs.numDs ⟨data.length, tsamp, pmin, pmax, bmin, bmax⟩,
        ¬ (PgArgs.f ⟨data.length, tsamp, pmin, pmax, bmin, bmax⟩ i = 1 ∨
          PgArgs.f ⟨data.length, tsamp, pmin, pmax, bmin, bmax⟩ i ≤
            (PgArgs.size ⟨data.length, tsamp, pmin, pmax, bmin, bmax⟩ : ℝ))) ↔
      ∃ i, stageFactor tsamp pmin bmin bmax i * tsamp * bmin < pmax ∧ stageFactor tsamp pmin bmin bmax i ≠ 1 ∧
        data.length < stageFactor tsamp pmin bmin bmax i := by
    apply exists_congr
    intro i
    rw [lt_numDs hv, not_or, not_le]
    rfl
  rw [← key]
  constructor
  · intro h
    by_contra hc
    rw [h3 hv (by
      intro i hi
      by_contra hc'
      exact hc ⟨i, hi, hc'⟩)] at h
    cases h
  · exact h2 hv

/-- C21 is false: searching 4 samples of 1 s from 2 s to 1000 s with 2 phase bins raises `ValueError` instead of stopping at the
longest period the data allow. -/
theorem C21_false (idx : IdxRule) (hidx : IdxFor idx 2) :
    PgArgs.Valid ⟨4, 1, 2, 1000, 2, 2⟩ ∧
    periodogramBinding idx [0, 0, 0, 0] 1 [1] 2 1000 2 2 = .error .valueError := by
  have hv : PgArgs.Valid ⟨([0, 0, 0, 0] : List ℝ).length, 1, 2, 1000, 2, 2⟩ := by
    refine ⟨?_, ?_, ?_, ?_, ?_, ?_⟩ <;> norm_num
  refine ⟨hv, ?_⟩
  rw [C21_fails_iff idx [0, 0, 0, 0] 1 [1] (by simp) 2 1000 2 2 hidx hv]
  refine ⟨4, ?_, ?_, ?_⟩ <;> norm_num [stageFactor]

/-- C21, what holds: the search succeeds if `pmax` is at most `bmin` times the length of the data, in particular for every
`pmax` up to the length of the data. Missing: larger `pmax`, for which the claim is false. -/
theorem C21_partial (idx : IdxRule) (data : List ℝ) (tsamp : ℝ) (widths : List ℕ) (hne : widths ≠ [])
    (pmin pmax : ℝ) (bmin bmax : ℕ) (hidx : IdxFor idx (data.length / bmin))
    (hv : PgArgs.Valid ⟨data.length, tsamp, pmin, pmax, bmin, bmax⟩) (h : pmax ≤ data.length * tsamp * bmin) :
    ∃ out, periodogramBinding idx data tsamp widths pmin pmax bmin bmax = .ok out := by
  obtain ⟨_, _, h3⟩ := periodogramBinding_eq idx data tsamp widths hne pmin pmax bmin bmax _ rfl hidx.ok
  exact ⟨_, h3 hv (stages_ok hv h)⟩

example : PgArgs.Valid ⟨1000, 1, 8, 1000, 8, 10⟩ ∧ (1000 : ℝ) ≤ (1000 : ℕ) * 1 * (8 : ℕ) := by
  refine ⟨?_, by norm_num⟩
  refine ⟨?_, ?_, ?_, ?_, ?_, ?_⟩ <;> norm_num

/-- C23, last part. The trial period of a periodogram entry is entry `s` of `ffaprd` for the same fold. -/
theorem C23_agrees_with_periodogram (idx : IdxRule) (data : List ℝ) (tsamp : ℝ) (widths : List ℕ) (hne : widths ≠ [])
    (pmin pmax : ℝ) (bmin bmax : ℕ) (hidx : IdxFor idx (data.length / bmin)) (per : List ℝ) (fb : List ℕ)
    (snr : List (List ℝ))
    (h : periodogramBinding idx data tsamp widths pmin pmax bmin bmax = .ok (per, fb, snr))
    (j : ℕ) (hj : j < per.length) :
    ∃ t : Trial, t.OK data.length tsamp pmin bmin bmax ∧ fb[j]? = some t.b ∧
      ∃ pr, ffaprd (⌊(data.length : ℝ) / t.f⌋₊ : ℤ) (t.b : ℤ) (t.f * tsamp) = .ok pr ∧ pr[t.s]? = some per[j] := by
  obtain ⟨a, ha, hv, _, rfl, rfl, rfl⟩ := pg_ok_inv hne hidx h
  simp only [List.length_map] at hj
  have e0 : a.size = data.length := by rw [ha]
  have e1 : a.pmin = pmin := by rw [ha]
  have e3 : a.bmin = bmin := by rw [ha]
  have e4 : a.bmax = bmax := by rw [ha]
  have e5 : a.tsamp = tsamp := by rw [ha]
  have hm : (trials a)[j] ∈ trials a := List.getElem_mem hj
  have hok := label_ok hv hm
  rw [← e0, ← e1, ← e3, ← e4, ← e5]
  refine ⟨labelOf a (trials a)[j], hok, ?_, ?_⟩
  · simp [hj, labelOf]
  · simp only [List.getElem_map]
    generalize (trials a)[j] = t at *
    obtain ⟨i, b, s⟩ := t
    obtain ⟨h1, h2, h3, _⟩ := trial_facts hv hm
    have hb : 0 < b := by omega
    obtain ⟨fr, pr, _, g2, _, g4, _, _, _, _, _, _, _, g5⟩ :=
      C23_values (a.n i) b (a.tau i) (by omega) ((Nat.le_div_iff_mul_le hb).mp h1) (tau_pos hv i)
    refine ⟨pr, g2, ?_⟩
    have hs : s < pr.length := by omega
    simp only [labelOf]
    rw [List.getElem?_eq_getElem hs, (g5 s (by omega) hs).2]
    rfl

/-! ## C58 -/

theorem window_int (N : ℕ) (x : ℕ → ℝ) (k : ℕ) (hk : k < N) : downsampled N x 1 k = x k := by
  unfold downsampled stepIntegral
  have := sum_overlap_int N k 1 (by omega) (fun i o => x i * o) (by simp)
  simp only [Nat.cast_one, mul_one] at this ⊢
  rw [this]
  simp

theorem matched_congr {n w : ℕ} {x y : ℕ → ℝ} {std v : ℝ} (h : ∀ i < n, x i = y i) (hx : IsMatchedSnr n w x std v) :
    IsMatchedSnr n w y std v := by
  have e : ∀ t : ℕ → ℝ, ∑ i ∈ range n, x i * t i = ∑ i ∈ range n, y i * t i := fun t =>
    Finset.sum_congr rfl (fun i hi => by rw [h i (mem_range.mp hi)])
  obtain ⟨⟨φ, hφ, t, ht, hv⟩, hub⟩ := hx
  exact ⟨⟨φ, hφ, t, ht, by rw [← e]; exact hv⟩, fun φ hφ t ht => by rw [← e]; exact hub φ hφ t ht⟩

theorem snrRow_matched (n : ℕ) (x : ℕ → ℝ) (widths : List ℕ) (hne : widths ≠ [])
    (hw : ∀ w ∈ widths, 0 < w ∧ w < n) (std : ℝ) (hstd : 0 < std) (k : ℕ) (h : k < widths.length)
    (h' : k < (snrRow n x widths std).length) : IsMatchedSnr n widths[k] x std (snrRow n x widths std)[k] := by
  have hn : 1 ≤ n := by
    obtain ⟨w, hwm⟩ := List.exists_mem_of_ne_nil _ hne
    have := hw w hwm
    omega
  obtain ⟨out, e, _, g⟩ := C11_snr_is_matched_filter n (fun i => if i < n then x i else 0) widths hne hw std hstd
  have e' : snr1 n (fun i => if i < n then x i else 0) widths std = .ok (snrRow n x widths std) :=
    snr1_ok n hn _ widths hne std
  rw [e'] at e
  cases e
  exact matched_congr (fun i hi => if_pos hi) (g k h h')

theorem shifts_for {idx : IdxRule} {M : ℕ} (h : IdxFor idx M) {m : ℕ} (h2 : 2 ≤ m) (hm : m ≤ M) :
    ShiftTable m (sigma idx m) ∧ ∀ s < m, ∀ i < m,
        |(sigma idx m s i : ℚ) - (s : ℚ) * i / ((m : ℚ) - 1)| ≤ (1 / 2 + (m : ℚ) / 2 ^ 23) * ((Nat.clog 2 m : ℚ) - 1) := by
  have ok : ∀ m' ≤ m, 3 ≤ m' → IdxOK idx m' := fun m' h1 h2 => h.ok m' (by omega) h2
  refine ⟨sigma_table _ m (by omega) ok, ?_⟩
  apply sigma_deviation idx _ (by positivity) m h2 ok
  intro m' h1 h3 s hs
  have hmm : (m' : ℚ) ≤ m := by exact_mod_cast h1
  rcases h with rfl | ⟨hidx, hM⟩
  · have := exactIdx_nearM h3 s hs
    have h0 : (0 : ℚ) ≤ (m : ℚ) / 2 ^ 23 := by positivity
    exact ⟨this.1.trans (by linarith), this.2.trans (by linarith)⟩
  · have sw : Sandwich idx m' := by
      rcases hidx with rfl | rfl
      · exact sandwich_float h3 (by omega)
      · exact sandwich_fma h3 (by omega)
    have := sandwich_near h3 (by omega) sw s hs
    exact ⟨this.1.trans (by linarith), this.2.trans (by linarith)⟩

/-- The entries of a successful search, with the shift tables of the transform. -/
theorem search_entries (idx : IdxRule) (data : List ℝ) (tsamp : ℝ) (widths : List ℕ) (hne : widths ≠ [])
    (pmin pmax : ℝ) (bmin bmax : ℕ) (hidx : IdxFor idx (data.length / bmin)) (hN : data.length ≤ 2 ^ 64)
    (hw : ∀ w ∈ widths, 0 < w ∧ w < bmin) (per : List ℝ) (fb : List ℕ) (snr : List (List ℝ))
    (h : periodogramBinding idx data tsamp widths pmin pmax bmin bmax = .ok (per, fb, snr)) :
    ∃ lab : List Trial, lab = (trials ⟨data.length, tsamp, pmin, pmax, bmin, bmax⟩).map
        (labelOf ⟨data.length, tsamp, pmin, pmax, bmin, bmax⟩) ∧
      lab.length = per.length ∧ fb.length = per.length ∧ snr.length = per.length ∧
      ∀ j (h1 : j < per.length) (h2 : j < fb.length) (h3 : j < snr.length) (h4 : j < lab.length),
        lab[j].OK data.length tsamp pmin bmin bmax ∧ fb[j] = lab[j].b ∧ 1 / per[j] = lab[j].freq tsamp ∧
        ShiftTable lab[j].m (sigma idx lab[j].m) ∧
        (∀ s < lab[j].m, ∀ i < lab[j].m, |(sigma idx lab[j].m s i : ℚ) - (s : ℚ) * i / ((lab[j].m : ℚ) - 1)| ≤
          (1 / 2 + (lab[j].m : ℚ) / 2 ^ 23) * ((Nat.clog 2 lab[j].m : ℚ) - 1)) ∧
        0 < downsampledVariance data.length lab[j].f ∧ 1 ≤ lab[j].f ∧
        ∀ k (hk : k < widths.length), ∃ v, snr[j][k]? = some v ∧
          IsMatchedSnr lab[j].b widths[k]
            (stack lab[j].m lab[j].b (sigma idx lab[j].m)
              (fun r c => downsampled data.length (fun i => data.getD i 0) lab[j].f (r * lab[j].b + c)) lab[j].s)
            (Real.sqrt (lab[j].m * downsampledVariance data.length lab[j].f)) v := by
  obtain ⟨a, ha, hv, _, rfl, rfl, rfl⟩ := pg_ok_inv hne hidx h
  have e0 : a.size = data.length := by rw [ha]
  have e1 : a.pmin = pmin := by rw [ha]
  have e3 : a.bmin = bmin := by rw [ha]
  have e4 : a.bmax = bmax := by rw [ha]
  have e5 : a.tsamp = tsamp := by rw [ha]
  refine ⟨(trials a).map (labelOf a), by rw [ha], by simp, by simp, by simp, ?_⟩
  intro j h1 h2 h3 h4
  simp only [List.length_map] at h1
  have hm : (trials a)[j] ∈ trials a := List.getElem_mem h1
  have hok := label_ok hv hm
  have hfr := label_freq hv hm
  simp only [List.getElem_map]
  rw [← e0, ← e1, ← e3, ← e4, ← e5]
  rw [← e0, ← e3] at hidx
  rw [← e3] at hw
  rw [← e0] at hN
  generalize (trials a)[j] = t at *
  obtain ⟨i, b, s⟩ := t
  obtain ⟨hm2, hs, hb, _⟩ := trial_facts hv hm
  obtain ⟨_, hbmin, _⟩ := mem_trials.mp hm
  have hvar := variance_pos hv i
  have hf1 := f_ge_one hv i
  have hnle : a.n i ≤ a.size := by
    unfold PgArgs.n downsampledSize
    rw [← Nat.floor_natCast (R := ℝ) a.size]
    apply Nat.floor_le_floor
    rw [Nat.floor_natCast]
    exact div_le_self (Nat.cast_nonneg _) hf1
  have hM : a.n i / b ≤ a.size / a.bmin :=
    (Nat.div_le_div_right hnle).trans (Nat.div_le_div_left hbmin (by have := hv.2.2.2.1; omega))
  obtain ⟨s1, s2⟩ := shifts_for hidx hm2 hM
  refine ⟨hok, rfl, hfr, s1, s2, hvar, hf1, ?_⟩
  intro k hk
  have hk' : k < (snrOf idx a (fun i => data.getD i 0) widths (i, b, s)).length := by
    unfold snrOf; rw [snrRow_length]; exact hk
  refine ⟨_, List.getElem?_eq_getElem hk', ?_⟩
  have hstd : 0 < stdOf a (i, b, s) := by
    unfold stdOf
    apply Real.sqrt_pos.mpr
    have : (0 : ℝ) < (a.n i / b : ℕ) := by exact_mod_cast (by omega : 0 < a.n i / b)
    exact mul_pos this hvar
  have key := snrRow_matched b (profOf idx a (fun i => data.getD i 0) (i, b, s)) widths hne
    (fun w hwm => ⟨(hw w hwm).1, (hw w hwm).2.trans_le hbmin⟩) (stdOf a (i, b, s)) hstd k hk hk'
  refine matched_congr ?_ key
  intro c hc
  unfold profOf
  simp only
  rw [transform_eq_stack idx b (a.n i / b) (by omega)
    ((Nat.div_le_self _ _).trans (hnle.trans hN)) (fun m' h1 h2 => hidx.ok m' (by omega) h2) _ s c hs hc]
  unfold stack labelOf
  simp only
  apply Finset.sum_congr rfl
  intro r hr
  have hr' := mem_range.mp hr
  unfold stageData
  split_ifs with hf
  · rw [hf, window_int]
    have h5 : (c + sigma idx (a.n i / b) s r) % b < b := Nat.mod_lt _ (by omega)
    have h6 : r * b + b ≤ a.n i / b * b := by
      rw [← Nat.succ_mul]; exact Nat.mul_le_mul_right _ hr'
    have h7 := Nat.div_mul_le_self (a.n i) b
    omega
  · unfold downsampled
    congr 1
    ring

/-- C58. Entry `(j, k)` of a successful search is the matched filter S/N, for boxcar width `widths[k]`, of the shifted stack
of the downsampled data with the number of bins, number of rows and shift of trial `j`, in units of the square root of
rows × `downsampledVariance` (for the latter see C16). The period of the trial is the one of its label, and the shifts
of the stack are those of C01/C02/C06: from 0 to the labelled shift, growing by 0 or 1, within
`(1/2 + m/2^23)(⌈log2 m⌉ - 1)` bins of the straight line. Since the right hand sides depend only on the data and the
label, nothing leaks from one fold to another through the shared buffers. -/
theorem C58_end_to_end (idx : IdxRule) (data : List ℝ) (tsamp : ℝ) (widths : List ℕ) (hne : widths ≠ [])
    (pmin pmax : ℝ) (bmin bmax : ℕ) (hidx : IdxFor idx (data.length / bmin)) (hN : data.length ≤ 2 ^ 64)
    (hw : ∀ w ∈ widths, 0 < w ∧ w < bmin) (per : List ℝ) (fb : List ℕ) (snr : List (List ℝ))
    (h : periodogramBinding idx data tsamp widths pmin pmax bmin bmax = .ok (per, fb, snr)) :
    ∃ (lab : List Trial) (σ : ℕ → ℕ → ℕ → ℕ), lab.length = per.length ∧ fb.length = per.length ∧ snr.length = per.length ∧
      ∀ j (h1 : j < per.length) (h2 : j < fb.length) (h3 : j < snr.length) (h4 : j < lab.length),
        lab[j].OK data.length tsamp pmin bmin bmax ∧ fb[j] = lab[j].b ∧ 1 / per[j] = lab[j].freq tsamp ∧
        ShiftTable lab[j].m (σ lab[j].m) ∧
        (∀ s < lab[j].m, ∀ i < lab[j].m, |(σ lab[j].m s i : ℚ) - (s : ℚ) * i / ((lab[j].m : ℚ) - 1)| ≤
          (1 / 2 + (lab[j].m : ℚ) / 2 ^ 23) * ((Nat.clog 2 lab[j].m : ℚ) - 1)) ∧
        0 < downsampledVariance data.length lab[j].f ∧
        ∀ k (hk : k < widths.length), ∃ v, snr[j][k]? = some v ∧
          IsMatchedSnr lab[j].b widths[k]
            (stack lab[j].m lab[j].b (σ lab[j].m)
              (fun r c => downsampled data.length (fun i => data.getD i 0) lab[j].f (r * lab[j].b + c)) lab[j].s)
            (Real.sqrt (lab[j].m * downsampledVariance data.length lab[j].f)) v := by
  obtain ⟨lab, _, l1, l2, l3, key⟩ := search_entries idx data tsamp widths hne pmin pmax bmin bmax hidx hN hw per fb snr h
  refine ⟨lab, sigma idx, l1, l2, l3, ?_⟩
  intro j h1 h2 h3 h4
  obtain ⟨k1, k2, k3, k4, k5, k6, _, k7⟩ := key j h1 h2 h3 h4
  exact ⟨k1, k2, k3, k4, k5, k6, k7⟩

/-- C59, the part in the compiled search: widths from `generate_width_trials(bins_min, ...)` with `ducy_max < 1` are valid for
every number of bins of the returned folds. -/
theorem C59_widths_valid_in_search (idx : IdxRule) (data : List ℝ) (tsamp ducyMax wtsp : ℝ) (hd : ducyMax < 1)
    (pmin pmax : ℝ) (bmin bmax : ℕ) (hidx : IdxFor idx (data.length / bmin)) (per : List ℝ) (fb : List ℕ)
    (snr : List (List ℝ))
    (h : periodogramBinding idx data tsamp (generateWidthTrials bmin ducyMax wtsp) pmin pmax bmin bmax =
      .ok (per, fb, snr)) :
    generateWidthTrials bmin ducyMax wtsp ≠ [] ∧
    ∀ b ∈ fb, ∀ w ∈ generateWidthTrials bmin ducyMax wtsp, 0 < w ∧ w < b ∧ 0 < ((b : ℝ) - w) * w := by
  have hne : generateWidthTrials bmin ducyMax wtsp ≠ [] := by
    intro hc
    have := (C24_width_trials bmin ducyMax wtsp).2.1
    rw [hc] at this
    simp at this
  refine ⟨hne, ?_⟩
  obtain ⟨a, ha, hv, _, _, _, _⟩ := pg_ok_inv hne hidx h
  have hb2 : 1 < bmin := by have := hv.2.2.2.1; rwa [ha] at this
  intro b hb w hw
  have hbb := (C18_periods_increasing idx data tsamp _ hne pmin pmax bmin bmax hidx per fb snr h).2.2 b hb
  obtain ⟨h1, h2⟩ := C24_widths_valid bmin hb2 ducyMax wtsp hd b hbb.1 w hw
  refine ⟨h1, h2, ?_⟩
  have h3 : (0 : ℝ) < w := by exact_mod_cast h1
  have h4 : (w : ℝ) < b := by exact_mod_cast h2
  exact mul_pos (by linarith) h3

example : (0.2 : ℝ) < 1 ∧ PgArgs.Valid ⟨1000, 1, 8, 40, 8, 10⟩ := by
  refine ⟨by norm_num, ?_⟩
  refine ⟨?_, ?_, ?_, ?_, ?_, ?_⟩ <;> norm_num

end Verif.Props
