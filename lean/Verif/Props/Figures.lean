import Verif.Model.Figures
import Verif.Props.Saving
import Verif.Props.RseekFiles
import Verif.Props.Candidate
import Mathlib.Data.List.GetD

/-!
# C116 and C117: what the figures show
-/

namespace Verif.Spec

open Verif.Model

/-- The value that an image shows at the point `(x, y)` of its axes: the extent is divided into equal strips, from left to right for the
columns and from the top to the bottom for the rows. -/
noncomputable def _root_.Verif.Model.ImagePanel.valueAt (p : ImagePanel) (x y : ℝ) : Option ℝ :=
  let row := p.cells[⌊(y - p.top) / (p.bottom - p.top) * p.cells.length⌋₊]?
  row.bind fun r => r[⌊(x - p.left) / (p.right - p.left) * r.length⌋₊]?

/-- The height of the bar at `x`. -/
noncomputable def _root_.Verif.Model.BarPanel.heightAt (p : BarPanel) (x : ℝ) : Option ℝ := p.heights[⌊x + 1 / 2⌋₊]?

/-- The median of the values in a list: the middle one, or the mean of the two in the middle. -/
def MedianOf (l : List ℝ) (c : ℝ) : Prop :=
  ∃ s : List ℝ, s.Perm l ∧ s.Pairwise (· ≤ ·) ∧ ((∃ k x, s.length = 2 * k + 1 ∧ s[k]? = some x ∧ c = x) ∨
    ∃ k x y, s.length = 2 * k + 2 ∧ s[k]? = some x ∧ s[k + 1]? = some y ∧ c = (x + y) / 2)

/-- A decimal number with `k` decimals that is the value `v`, rounded. -/
def ShowsNumber (k : ℕ) (text : List Char) (v : ℝ) : Prop :=
  ∃ q : ℚ, FloatText text q ∧ |(q : ℝ) - v| ≤ 1 / 2 * (1 / 10 ^ k) ∧ ∃ a b, text = a ++ '.' :: b ∧ b.length = k

/-- The lines with numbers in the table of a candidate: name, value and unit. -/
structure ShowsParams (t : List TableLine) (period dm ducy snr mjd : ℝ) (width : ℕ) : Prop where
  period : ∃ v, ⟨"Period".toList, v, "ms".toList⟩ ∈ t ∧ ShowsNumber 6 v (1000 * period)
  dm : ∃ v, ⟨"DM".toList, v, "pc cm$^{-3}$".toList⟩ ∈ t ∧ ShowsNumber 2 v dm
  width : ∃ v, ⟨"Width".toList, v, "bins".toList⟩ ∈ t ∧ IntText v width
  ducy : ∃ v, ⟨"Duty cycle".toList, v, "%".toList⟩ ∈ t ∧ ShowsNumber 2 v (100 * ducy)
  snr : ∃ v, ⟨"S/N".toList, v, []⟩ ∈ t ∧ ShowsNumber 1 v snr
  mjd : ∃ v, ⟨"MJD".toList, v, []⟩ ∈ t ∧ ShowsNumber 6 v mjd
  names : (t.filter fun l => decide (l.name ≠ [])).map (·.name) = ["Period".toList, "DM".toList, "Width".toList, "Duty cycle".toList,
    "S/N".toList, "Source".toList, "RA".toList, "Dec".toList, "MJD".toList, "UTC".toList]

end Verif.Spec

namespace Verif.Props

open Verif.Model Verif.Spec Verif.Lemmas

/-! ## Lists -/

theorem foldl_min_le (l : List ℝ) (a : ℝ) : l.foldl min a ≤ a ∧ (∀ x ∈ l, l.foldl min a ≤ x) ∧ (l.foldl min a = a ∨ l.foldl min a ∈ l) := by
  induction l generalizing a with
  | nil => simp
  | cons b l ih =>
    obtain ⟨h1, h2, h3⟩ := ih (min a b)
    simp only [List.foldl_cons]
    refine ⟨h1.trans (min_le_left _ _), ?_, ?_⟩
    · intro x hx
      rcases List.mem_cons.mp hx with rfl | hx
      · exact h1.trans (min_le_right _ _)
      · exact h2 x hx
    · rcases h3 with h3 | h3
      · rw [h3]
        rcases min_choice a b with h | h
        · exact .inl h
        · exact .inr (by rw [h]; simp)
      · exact .inr (List.mem_cons_of_mem _ h3)

theorem le_foldl_max (l : List ℝ) (a : ℝ) : a ≤ l.foldl max a ∧ (∀ x ∈ l, x ≤ l.foldl max a) ∧ (l.foldl max a = a ∨ l.foldl max a ∈ l) := by
  induction l generalizing a with
  | nil => simp
  | cons b l ih =>
    obtain ⟨h1, h2, h3⟩ := ih (max a b)
    simp only [List.foldl_cons]
    refine ⟨(le_max_left _ _).trans h1, ?_, ?_⟩
    · intro x hx
      rcases List.mem_cons.mp hx with rfl | hx
      · exact (le_max_right _ _).trans h1
      · exact h2 x hx
    · rcases h3 with h3 | h3
      · rw [h3]
        rcases max_choice a b with h | h
        · exact .inl h
        · exact .inr (by rw [h]; simp)
      · exact .inr (List.mem_cons_of_mem _ h3)

/-- One and a half periods of a list. -/
theorem extended_get (l : List ℝ) {j : ℕ} (hj : j < l.length + l.length / 2) : (l ++ l.take (l.length / 2))[j]? = l[j % l.length]? := by
  by_cases h : j < l.length
  · rw [List.getElem?_append_left h, Nat.mod_eq_of_lt h]
  · have h' := not_lt.mp h
    rw [List.getElem?_append_right h', List.getElem?_take_of_lt (by omega)]
    have : j % l.length = j - l.length := by
      rw [Nat.mod_eq_sub_mod h', Nat.mod_eq_of_lt (by omega)]
    rw [this]

theorem extended_length (l : List ℝ) : (l ++ l.take (l.length / 2)).length = l.length + l.length / 2 := by
  rw [List.length_append, List.length_take]
  omega

theorem number_shown {k : ℕ} (hk : 0 < k) (x : ℝ) : ShowsNumber k (fixedText k x) x := by
  obtain ⟨h1, h2, h3⟩ := C106_number hk x
  exact ⟨_, h1, h2, h3⟩

/-! ## C116 -/

/-- C116, sub-integrations: the image shows one and a half periods. At phase bin `x` (bin `j` from `j - 1/2` to `j + 1/2`) and time `t` it has the value of
the sub-integration that contains `t` at the phase bin `x`, modulo the number of bins. -/
theorem C116_subints {rows : List (List ℝ)} {n : ℕ} (hne : rows ≠ []) (hrows : ∀ r ∈ rows, r.length = n) {T : ℝ} (hT : 0 < T)
    {p : ImagePanel} (h : drawSubints T (.d2 rows) = .ok p) :
    p.xlim = (-(1 / 2), ((n + n / 2 : ℕ) : ℝ) - 1 / 2) ∧ ∀ (i j : ℕ) (x t : ℝ), i < rows.length → j < n + n / 2 → (j : ℝ) - 1 / 2 ≤ x → x < j + 1 / 2 →
      i * (T / rows.length) ≤ t → t < (i + 1) * (T / rows.length) → ∃ r, rows[i]? = some r ∧ p.valueAt x t = r[j % n]? := by
  have hn : (rows.headD []).length = n := by
    cases rows with
    | nil => exact absurd rfl hne
    | cons r l => exact hrows r (by simp)
  unfold drawSubints at h
  simp only [hn] at h
  cases h
  refine ⟨by push_cast; rfl, ?_⟩
  intro i j x t hi hj hx1 hx2 ht1 ht2
  have hm : (0 : ℝ) < rows.length := by exact_mod_cast (by omega : 0 < rows.length)
  have hr : rows[i].length = n := hrows _ (List.getElem_mem hi)
  refine ⟨rows[i], List.getElem?_eq_getElem hi, ?_⟩
  unfold ImagePanel.valueAt
  simp only [List.length_map, sub_zero]
  have e1 : ⌊t / T * rows.length⌋₊ = i := by
    have h0 : 0 ≤ t := le_trans (by positivity) ht1
    rw [Nat.floor_eq_iff (by positivity)]
    have ee : t / T * rows.length = t / (T / rows.length) := by field_simp
    rw [ee]
    constructor
    · rw [le_div_iff₀ (by positivity)]; exact ht1
    · rw [div_lt_iff₀ (by positivity)]; exact ht2
  rw [e1, List.getElem?_map, List.getElem?_eq_getElem hi, Option.map_some, Option.bind_some]
  have e2 : (rows[i] ++ rows[i].take (n / 2)).length = n + n / 2 := by
    have := extended_length rows[i]
    rwa [hr] at this
  have hpos : (0 : ℝ) < ((n + n / 2 : ℕ) : ℝ) := by exact_mod_cast (by omega : 0 < n + n / 2)
  have e3 : ⌊(x - -(1 / 2)) / ((((n + n / 2 : ℕ) : ℝ) - 1 / 2) - -(1 / 2)) * ((rows[i] ++ rows[i].take (n / 2)).length : ℝ)⌋₊ = j := by
    rw [e2]
    have hx0 : 0 ≤ x + 1 / 2 := by
      have : (0 : ℝ) ≤ j := Nat.cast_nonneg j
      linarith
    have ee : (x - -(1 / 2)) / ((((n + n / 2 : ℕ) : ℝ) - 1 / 2) - -(1 / 2)) * ((n + n / 2 : ℕ) : ℝ) = x + 1 / 2 := by
      rw [show (((n + n / 2 : ℕ) : ℝ) - 1 / 2) - -(1 / 2) = ((n + n / 2 : ℕ) : ℝ) by ring, div_mul_cancel₀ _ hpos.ne']
      ring
    rw [ee, Nat.floor_eq_iff hx0]
    constructor <;> linarith
  rw [e3]
  have := extended_get rows[i] (j := j) (by rw [hr]; exact hj)
  rwa [hr] at this

/-- C116, table: the texts are the parameters of the candidate, rounded to the stated numbers of decimals, with their units. -/
theorem C116_table {a : AstroTexts} {p : HPeak ℝ} {md : MetaDict} {t : List TableLine} (h : drawTable a p md = .ok t) :
    ∃ (ra dec : PyFloat) (v : PyVal) (mjd : ℝ) (utc : List Char) (source : String),
      dictGet md (.str "skycoord") = some (.sky ra dec) ∧ dictGet md (.str "mjd") = some v ∧ a.time v = .ok (mjd, utc) ∧
      dictGet md (.str "source_name") = some (.str source) ∧
      ShowsParams t p.period p.dm p.ducy p.snr mjd p.tag ∧ ⟨"Source".toList, source.toList, []⟩ ∈ t ∧
      ⟨"RA".toList, a.ra (.sky ra dec), []⟩ ∈ t ∧ ⟨"Dec".toList, a.dec (.sky ra dec), []⟩ ∈ t ∧ ⟨"UTC".toList, utc, []⟩ ∈ t := by
  unfold drawTable at h
  obtain ⟨c, h1, h⟩ := bind_ok_inv h
  obtain ⟨tm, h2, h⟩ := bind_ok_inv h
  obtain ⟨source, h3, h⟩ := map_ok_inv h
  obtain ⟨v1, d1, e1⟩ := metaItem_ok h1
  obtain ⟨v2, d2, e2⟩ := metaItem_ok h2
  obtain ⟨v3, d3, e3⟩ := metaItem_ok h3
  cases v1 <;> simp [skyTexts] at e1
  cases v3 <;> simp [pyStr] at e3
  rename_i ra dec s
  subst e1
  subst e3
  obtain ⟨mjd, utc⟩ := tm
  subst h
  refine ⟨ra, dec, v2, mjd, utc, _, d1, d2, e2, d3, ?_, by simp, by simp, by simp, by simp⟩
  exact
    { period := ⟨fixedText 6 (p.period * 1000), by simp, by rw [mul_comm]; exact number_shown (by norm_num) _⟩
      dm := ⟨fixedText 2 p.dm, by simp, number_shown (by norm_num) _⟩
      width := ⟨natText p.tag, by simp, natText_ok _⟩
      ducy := ⟨fixedText 2 (p.ducy * 100), by simp, by rw [mul_comm]; exact number_shown (by norm_num) _⟩
      snr := ⟨fixedText 1 p.snr, by simp, number_shown (by norm_num) _⟩
      mjd := ⟨fixedText 6 mjd, by simp, number_shown (by norm_num) _⟩
      names := by simp [List.filter] }

/-- C116, DM curve: the points are those of the DM curve (C72), all of them are inside the limits, and the limits are an interval. -/
theorem C116_dm {curve : List (ℝ × ℝ)} {p : LinePanel} (h : drawDmCurve curve = .ok p) :
    p.points = curve ∧ p.xlim.1 < p.xlim.2 ∧ (∀ q ∈ curve, p.xlim.1 ≤ q.1 ∧ q.1 ≤ p.xlim.2) ∧
    ((∃ q ∈ curve, ∃ q' ∈ curve, q.1 ≠ q'.1) → (∃ q ∈ curve, q.1 = p.xlim.1) ∧ ∃ q ∈ curve, q.1 = p.xlim.2) := by
  cases curve with
  | nil => cases h
  | cons q l =>
    unfold drawDmCurve at h
    simp only at h
    cases h
    obtain ⟨a1, a2, a3⟩ := foldl_min_le (l.map Prod.fst) q.1
    obtain ⟨b1, b2, b3⟩ := le_foldl_max (l.map Prod.fst) q.1
    generalize (l.map Prod.fst).foldl min q.1 = lo at *
    generalize (l.map Prod.fst).foldl max q.1 = hi at *
    have hall : ∀ x ∈ q :: l, lo ≤ x.1 ∧ x.1 ≤ hi := by
      intro x hx
      rcases List.mem_cons.mp hx with rfl | hx
      · exact ⟨a1, b1⟩
      · exact ⟨a2 _ (List.mem_map_of_mem hx), b2 _ (List.mem_map_of_mem hx)⟩
    refine ⟨rfl, ?_⟩
    by_cases he : lo = hi
    · simp only [if_pos he]
      refine ⟨by linarith, fun x hx => ?_, ?_⟩
      · have := hall x hx
        constructor <;> linarith
      · rintro ⟨x, hx, y, hy, hne⟩
        have hx := hall x hx
        have hy := hall y hy
        exact absurd (le_antisymm (by linarith) (by linarith)) hne
    · simp only [if_neg he]
      refine ⟨lt_of_le_of_ne (a1.trans b1) he, hall, fun _ => ⟨?_, ?_⟩⟩
      · rcases a3 with a3 | a3
        · exact ⟨q, by simp, a3.symm⟩
        · obtain ⟨x, hx, e⟩ := List.mem_map.mp a3
          exact ⟨x, List.mem_cons_of_mem _ hx, e⟩
      · rcases b3 with b3 | b3
        · exact ⟨q, by simp, b3.symm⟩
        · obtain ⟨x, hx, e⟩ := List.mem_map.mp b3
          exact ⟨x, List.mem_cons_of_mem _ hx, e⟩

/-- C116: the figure of a candidate is drawn exactly if saving the plot succeeds (C105), with the same error otherwise, and its panels are those above. -/
theorem C116_draws (a : AstroTexts) (md : MetaDict) (x : CandObj ℝ) :
    (drawCandidate a md x).map (fun _ => ()) = plotCandidate (fun v => (a.time v).map fun _ => ()) md x := by
  have hmi : ∀ {α β : Type} (f : PyVal → Except PyErr α) (k : α → β) (n : String),
      (metaItem f md n).map k = metaItem (fun v => (f v).map k) md n := by
    intro α β f k n
    unfold metaItem
    cases dictGet md (.str n) <;> rfl
  have hsky : metaItem pySky md "skycoord" = (metaItem (skyTexts a) md "skycoord").map fun _ => () := by
    rw [hmi]
    congr 1
    funext v
    cases v <;> rfl
  have htab : (drawTable a x.params md).map (fun _ => ()) = plotTable (fun v => (a.time v).map fun _ => ()) md := by
    unfold drawTable plotTable
    rw [hsky, ← hmi a.time]
    cases metaItem (skyTexts a) md "skycoord" with
    | error e => rfl
    | ok c =>
      cases metaItem a.time md "mjd" with
      | error e => rfl
      | ok t => cases metaItem pyStr md "source_name" <;> rfl
  unfold drawCandidate plotCandidate
  rw [← htab]
  cases metaItem pyReal md "tobs" with
  | error e => rfl
  | ok T =>
    cases hs : x.subints with
    | d1 v => rfl
    | d2 rows =>
      cases drawTable a x.params md with
      | error e => rfl
      | ok t => cases hd : x.dmCurve <;> rfl

/-- C116: the panels of the figure of a candidate. -/
theorem C116_candidate {a : AstroTexts} {md : MetaDict} {x : CandObj ℝ} {f : CandFigure} (h : drawCandidate a md x = .ok f) :
    ∃ T, metaItem pyReal md "tobs" = .ok T ∧ drawSubints T x.subints = .ok f.subints ∧ drawTable a x.params md = .ok f.table ∧
      drawDmCurve x.dmCurve = .ok f.dm ∧ f.profile = drawProfile x.profile := by
  unfold drawCandidate at h
  obtain ⟨T, h1, h⟩ := bind_ok_inv h
  obtain ⟨s, h2, h⟩ := bind_ok_inv h
  obtain ⟨t, h3, h⟩ := bind_ok_inv h
  obtain ⟨d, h4, h⟩ := map_ok_inv h
  subst h
  exact ⟨T, h1, h2, h3, h4, rfl⟩

theorem rowMax_spec {l : List ℝ} {v : ℝ} (h : rowMax l = .ok v) : v ∈ l ∧ ∀ x ∈ l, x ≤ v := by
  cases l with
  | nil => cases h
  | cons b l =>
    cases h
    obtain ⟨h1, h2, h3⟩ := le_foldl_max l b
    refine ⟨?_, ?_⟩
    · rcases h3 with h3 | h3
      · rw [h3]; simp
      · exact List.mem_cons_of_mem _ h3
    · intro x hx
      rcases List.mem_cons.mp hx with rfl | hx
      · exact h1
      · exact h2 x hx

theorem mapM_rowMax {rows : List (List ℝ)} {l : List ℝ} (h : rows.mapM rowMax = .ok l) :
    l.length = rows.length ∧ ∀ (i : ℕ) (r : List ℝ) (v : ℝ), rows[i]? = some r → l[i]? = some v → v ∈ r ∧ ∀ x ∈ r, x ≤ v := by
  induction rows generalizing l with
  | nil =>
    cases h
    simp
  | cons r rows ih =>
    rw [List.mapM_cons] at h
    obtain ⟨v, h1, h⟩ := bind_ok_inv h
    obtain ⟨l', h2, h⟩ := bind_ok_inv h
    cases h
    obtain ⟨ih1, ih2⟩ := ih h2
    refine ⟨by simp [ih1], ?_⟩
    intro i r' v' hr hv
    cases i with
    | zero =>
      simp only [List.getElem?_cons_zero, Option.some.injEq] at hr hv
      subst hr hv
      exact rowMax_spec h1
    | succ i =>
      simp only [List.getElem?_cons_succ] at hr hv
      exact ih2 i r' v' hr hv

theorem mapM_rowMax_ok {rows : List (List ℝ)} (h : ∀ r ∈ rows, r ≠ []) : ∃ l, rows.mapM rowMax = .ok l := by
  induction rows with
  | nil => exact ⟨[], rfl⟩
  | cons r rows ih =>
    obtain ⟨l, hl⟩ := ih fun x hx => h x (List.mem_cons_of_mem _ hx)
    cases r with
    | nil => exact absurd rfl (h [] (by simp))
    | cons b r => exact ⟨r.foldl max b :: l, by rw [List.mapM_cons, hl]; rfl⟩

/-- What an index of a python sequence of length `n` means. -/
theorem npIndex_spec (n : ℕ) (i : ℤ) : (∀ k, npIndex n i = .ok k ↔ k < n ∧ ((k : ℤ) = i ∨ (k : ℤ) = n + i)) ∧
    (¬(-(n : ℤ) ≤ i ∧ i < n) → npIndex n i = .error .indexError) := by
  unfold npIndex
  constructor
  · intro k
    by_cases h1 : 0 ≤ i ∧ i < n
    · rw [if_pos h1]
      constructor
      · intro h; cases h; omega
      · rintro ⟨h, h'⟩; congr 1; omega
    · rw [if_neg h1]
      by_cases h2 : i < 0 ∧ -(n : ℤ) ≤ i
      · rw [if_pos h2]
        constructor
        · intro h; cases h; omega
        · rintro ⟨h, h'⟩; congr 1; omega
      · rw [if_neg h2]
        constructor
        · intro h; cases h
        · rintro ⟨h, h'⟩; omega
  · intro h
    rw [if_neg (by omega), if_neg (by omega)]

/-- C116, periodogram: one point for each trial period, at that period; the height is the greatest S/N of any width, or that of the width with the
index asked for, where a negative one counts from the end. All points are inside the limits, which are two of the periods. -/
theorem C116_periodogram {g : Pgram ℝ} (hl : g.snrs.length = g.periods.length) (hw : ∀ row ∈ g.snrs, row.length = g.widths.length) {iw : Option ℤ}
    {p : LinePanel} {title : List Char} (h : drawPeriodogram g iw = .ok (p, title)) :
    p.points.map Prod.fst = g.periods ∧
    (∀ (i : ℕ) (q : ℝ × ℝ) (row : List ℝ), p.points[i]? = some q → g.snrs[i]? = some row →
      match iw with
      | none => q.2 ∈ row ∧ ∀ x ∈ row, x ≤ q.2
      | some j => ∃ k : ℕ, ((k : ℤ) = j ∨ (k : ℤ) = g.widths.length + j) ∧ row[k]? = some q.2) ∧
    (∀ q ∈ p.points, p.xlim.1 ≤ q.1 ∧ q.1 ≤ p.xlim.2) ∧ p.xlim.1 ∈ g.periods ∧ p.xlim.2 ∈ g.periods ∧
    (match iw with
      | none => title = "Best S/N at any trial width".toList
      | some j => ∃ (k w : ℕ) (t : List Char), ((k : ℤ) = j ∨ (k : ℤ) = g.widths.length + j) ∧ g.widths[k]? = some w ∧
          title = "S/N at trial width = ".toList ++ t ∧ IntText t w) := by
  unfold drawPeriodogram at h
  obtain ⟨snr, h1, h⟩ := bind_ok_inv h
  obtain ⟨lim, h2, h⟩ := bind_ok_inv h
  obtain ⟨tt, h3, h⟩ := map_ok_inv h
  cases h
  have hlen : snr.length = g.snrs.length := by
    cases iw with
    | none => exact (mapM_rowMax h1).1
    | some j =>
      unfold plotSnrs at h1
      obtain ⟨k, -, h1⟩ := map_ok_inv h1
      subst h1
      simp
  have hfst : (g.periods.zip snr).map Prod.fst = g.periods := List.map_fst_zip (by rw [hlen, hl])
  have hlim : (∀ x ∈ g.periods, lim.1 ≤ x ∧ x ≤ lim.2) ∧ lim.1 ∈ g.periods ∧ lim.2 ∈ g.periods := by
    cases hp : g.periods with
    | nil => rw [hp] at h2; cases h2
    | cons b l =>
      rw [hp] at h2
      cases h2
      obtain ⟨a1, a2, a3⟩ := foldl_min_le l b
      obtain ⟨b1, b2, b3⟩ := le_foldl_max l b
      refine ⟨fun x hx => ?_, ?_, ?_⟩
      · rcases List.mem_cons.mp hx with rfl | hx
        · exact ⟨a1, b1⟩
        · exact ⟨a2 x hx, b2 x hx⟩
      · rcases a3 with a3 | a3
        · simp only [a3]; simp
        · exact List.mem_cons_of_mem _ a3
      · rcases b3 with b3 | b3
        · simp only [b3]; simp
        · exact List.mem_cons_of_mem _ b3
  refine ⟨hfst, ?_, ?_, hlim.2.1, hlim.2.2, ?_⟩
  · intro i q row hq hr
    have hq2 : snr[i]? = some q.2 := by
      rw [List.getElem?_zip_eq_some] at hq
      exact hq.2
    cases iw with
    | none => exact (mapM_rowMax h1).2 i row q.2 hr hq2
    | some j =>
      unfold plotSnrs at h1
      obtain ⟨k, hk, h1⟩ := map_ok_inv h1
      subst h1
      obtain ⟨hk1, hk2⟩ := ((npIndex_spec g.widths.length j).1 k).mp hk
      refine ⟨k, hk2, ?_⟩
      rw [List.getElem?_map, hr] at hq2
      simp only [Option.map_some, Option.some.injEq] at hq2
      have := hw row (List.mem_of_getElem? hr)
      rw [← hq2, List.getElem?_eq_getElem (by omega), List.getD_eq_getElem _ _ (by omega)]
  · intro q hq
    exact hlim.1 q.1 (by rw [← hfst]; exact List.mem_map_of_mem hq)
  · cases iw with
    | none => cases h3; rfl
    | some j =>
      unfold plotTitle at h3
      obtain ⟨k, hk, h3⟩ := map_ok_inv h3
      subst h3
      obtain ⟨hk1, hk2⟩ := ((npIndex_spec g.widths.length j).1 k).mp hk
      exact ⟨k, g.widths[k], _, hk2, List.getElem?_eq_getElem hk1, rfl, by rw [List.getD_eq_getElem _ _ hk1]; exact natText_ok _⟩

/-- C116: the periodogram is drawn exactly if there is a trial and a width, or the index is that of a width; otherwise `IndexError` or `ValueError`. -/
theorem C116_periodogram_errors {g : Pgram ℝ} (hl : g.snrs.length = g.periods.length) (hw : ∀ row ∈ g.snrs, row.length = g.widths.length) (iw : Option ℤ) :
    ((∃ r, drawPeriodogram g iw = .ok r) ↔ g.periods ≠ [] ∧ match iw with
      | none => g.widths ≠ []
      | some j => -(g.widths.length : ℤ) ≤ j ∧ j < g.widths.length) ∧
    (∀ j, iw = some j → ¬(-(g.widths.length : ℤ) ≤ j ∧ j < g.widths.length) → drawPeriodogram g iw = .error .indexError) := by
  have hidx : ∀ j : ℤ, (-(g.widths.length : ℤ) ≤ j ∧ j < g.widths.length) → ∃ k, npIndex g.widths.length j = .ok k := by
    intro j hj
    by_cases h0 : 0 ≤ j
    · exact ⟨j.toNat, ((npIndex_spec _ j).1 _).mpr (by omega)⟩
    · exact ⟨(g.widths.length + j).toNat, ((npIndex_spec _ j).1 _).mpr (by omega)⟩
  constructor
  · constructor
    · rintro ⟨r, h⟩
      unfold drawPeriodogram at h
      obtain ⟨snr, h1, h⟩ := bind_ok_inv h
      obtain ⟨lim, h2, h⟩ := bind_ok_inv h
      have hp : g.periods ≠ [] := by rintro e; rw [e] at h2; cases h2
      refine ⟨hp, ?_⟩
      cases iw with
      | none =>
        intro e
        have hs : g.snrs ≠ [] := by
          intro e'
          rw [e'] at hl
          exact hp (List.eq_nil_of_length_eq_zero hl.symm)
        cases hg : g.snrs with
        | nil => exact hs hg
        | cons row l =>
          have : row.length = 0 := by rw [hw row (by rw [hg]; simp), e]; rfl
          unfold plotSnrs at h1
          rw [hg, List.eq_nil_of_length_eq_zero this, List.mapM_cons] at h1
          cases h1
      | some j =>
        by_contra hc
        simp only [plotSnrs] at h1
        rw [(npIndex_spec _ j).2 hc] at h1
        cases h1
    · rintro ⟨hp, h⟩
      obtain ⟨lim, h2⟩ : ∃ lim, periodLimits g.periods = .ok lim := by
        cases e : g.periods with
        | nil => exact absurd e hp
        | cons b l => exact ⟨_, rfl⟩
      unfold drawPeriodogram
      cases iw with
      | none =>
        obtain ⟨snr, h1⟩ := mapM_rowMax_ok (rows := g.snrs) fun r hr e => by
          have := hw r hr
          rw [e] at this
          exact h (List.eq_nil_of_length_eq_zero this.symm)
        exact ⟨_, by unfold plotSnrs; rw [h1, h2]; rfl⟩
      | some j =>
        obtain ⟨k, hk⟩ := hidx j h
        exact ⟨_, by simp only [plotSnrs, plotTitle]; rw [hk, h2]; rfl⟩
  · rintro j rfl hj
    simp only [drawPeriodogram, plotSnrs]
    rw [(npIndex_spec _ j).2 hj]
    rfl

/-! ## C117 -/

theorem median_unique {l : List ℝ} {c c' : ℝ} (h : MedianOf l c) (h' : MedianOf l c') : c = c' := by
  obtain ⟨s, p, o, m⟩ := h
  obtain ⟨s', p', o', m'⟩ := h'
  have e : s = s' := (p.trans p'.symm).eq_of_pairwise (fun a b _ _ h1 h2 => le_antisymm h1 h2) o o'
  subst e
  rcases m with ⟨k, x, h1, h2, rfl⟩ | ⟨k, x, y, h1, h2, h3, rfl⟩ <;> rcases m' with ⟨k', x', h1', h2', rfl⟩ | ⟨k', x', y', h1', h2', h3', rfl⟩
  · obtain rfl : k = k' := by omega
    simpa [h2] using h2'
  · omega
  · omega
  · obtain rfl : k = k' := by omega
    rw [h2] at h2'
    rw [h3] at h3'
    cases h2'
    cases h3'
    rfl

theorem npMedian_median {l : List ℝ} (hne : l ≠ []) : MedianOf l (npMedian l) := by
  have hp := List.mergeSort_perm l fun a b => decide (a ≤ b)
  have hs : (l.mergeSort fun a b => decide (a ≤ b)).Pairwise (· ≤ ·) := by
    have := List.pairwise_mergeSort (le := fun a b : ℝ => decide (a ≤ b)) (fun a b c h1 h2 => by simp at *; linarith)
      (fun a b => by simp [le_total]) l
    exact this.imp fun h => by simpa using h
  refine ⟨_, hp, hs, ?_⟩
  unfold npMedian
  have hlen : 0 < (l.mergeSort fun a b => decide (a ≤ b)).length := by
    rw [hp.length_eq]
    exact List.length_pos_of_ne_nil hne
  generalize (l.mergeSort fun a b => decide (a ≤ b)) = s at *
  simp only
  by_cases h : s.length % 2 = 1
  · rw [if_pos h]
    exact .inl ⟨s.length / 2, s[s.length / 2], by omega, List.getElem?_eq_getElem _, List.getD_eq_getElem _ _ (by omega)⟩
  · rw [if_neg h]
    refine .inr ⟨s.length / 2 - 1, s[s.length / 2 - 1], s[s.length / 2], by omega, List.getElem?_eq_getElem _, ?_, ?_⟩
    · rw [show s.length / 2 - 1 + 1 = s.length / 2 by omega]
      exact List.getElem?_eq_getElem _
    · rw [List.getD_eq_getElem _ _ (by omega), List.getD_eq_getElem _ _ (by omega)]

theorem median_sub {l : List ℝ} {c : ℝ} (h : MedianOf l c) (d : ℝ) : MedianOf (l.map fun x => x - d) (c - d) := by
  obtain ⟨s, p, o, m⟩ := h
  refine ⟨s.map fun x => x - d, p.map _, List.pairwise_map.mpr (o.imp fun h => by linarith), ?_⟩
  rcases m with ⟨k, x, h1, h2, rfl⟩ | ⟨k, x, y, h1, h2, h3, rfl⟩
  · exact .inl ⟨k, c - d, by simpa using h1, by simp [h2], rfl⟩
  · exact .inr ⟨k, x - d, y - d, by simpa using h1, by simp [h2], by simp [h3], by ring⟩

theorem median_between {l : List ℝ} {c : ℝ} (h : MedianOf l c) : (∃ x ∈ l, x ≤ c) ∧ ∃ x ∈ l, c ≤ x := by
  obtain ⟨s, p, o, m⟩ := h
  rcases m with ⟨k, x, h1, h2, rfl⟩ | ⟨k, x, y, h1, h2, h3, rfl⟩
  · have := p.mem_iff.mp (List.mem_of_getElem? h2)
    exact ⟨⟨_, this, le_rfl⟩, _, this, le_rfl⟩
  · have hx := p.mem_iff.mp (List.mem_of_getElem? h2)
    have hy := p.mem_iff.mp (List.mem_of_getElem? h3)
    have hxy : x ≤ y := by
      obtain ⟨h2a, rfl⟩ := List.getElem?_eq_some_iff.mp h2
      obtain ⟨h3a, rfl⟩ := List.getElem?_eq_some_iff.mp h3
      exact List.pairwise_iff_getElem.mp o k (k + 1) h2a h3a (by omega)
    exact ⟨⟨x, hx, by linarith⟩, y, hy, by linarith⟩

/-- C117, partial: the bars are one and a half periods of the profile minus a number between its least and its greatest value. That number is the
median of one and a half periods, so that the median of the *bars* is zero. What is shaded inside the limits of the panel lies in bins that
are shown for the second time. Missing: the number is not the median of the profile, and half of the first repeated bin is not shaded. -/
theorem C117_partial {P : List ℝ} (hP : P ≠ []) : ∃ c, MedianOf (P ++ P.take (P.length / 2)) c ∧ (∃ x ∈ P, x ≤ c) ∧ (∃ x ∈ P, c ≤ x) ∧
    MedianOf (drawProfile P).heights 0 ∧
    (∀ (j : ℕ) (x : ℝ), j < P.length + P.length / 2 → (j : ℝ) - 1 / 2 ≤ x → x < j + 1 / 2 →
      (drawProfile P).heightAt x = P[j % P.length]?.map fun v => v - c) ∧
    (drawProfile P).xlim = (-(1 / 2), ((P.length + P.length / 2 : ℕ) : ℝ) - 1 / 2) ∧
    ∀ x : ℝ, (drawProfile P).shade.1 ≤ x → x < (drawProfile P).xlim.2 → x ≤ (drawProfile P).shade.2 ∧ ∃ j : ℕ, P.length ≤ j ∧ j < P.length + P.length / 2 ∧
      (j : ℝ) - 1 / 2 ≤ x ∧ x < j + 1 / 2 := by
  have hne : P ++ P.take (P.length / 2) ≠ [] := by simp [hP]
  have hm := npMedian_median hne
  have hmem : ∀ x ∈ P ++ P.take (P.length / 2), x ∈ P := by
    intro x hx
    rcases List.mem_append.mp hx with hx | hx
    · exact hx
    · exact List.mem_of_mem_take hx
  have hlen := extended_length P
  refine ⟨_, hm, ?_, ?_, ?_, ?_, ?_, ?_⟩
  · obtain ⟨x, hx, h⟩ := (median_between hm).1
    exact ⟨x, hmem x hx, h⟩
  · obtain ⟨x, hx, h⟩ := (median_between hm).2
    exact ⟨x, hmem x hx, h⟩
  · have := median_sub hm (npMedian (P ++ P.take (P.length / 2)))
    rwa [sub_self] at this
  · intro j x hj h1 h2
    have e : ⌊x + 1 / 2⌋₊ = j := by
      have : (0 : ℝ) ≤ j := Nat.cast_nonneg j
      rw [Nat.floor_eq_iff (by linarith)]
      constructor <;> linarith
    unfold BarPanel.heightAt drawProfile
    simp only [e, List.getElem?_map]
    rw [extended_get P hj]
  · unfold drawProfile
    simp only [hlen]
  · intro x h1 h2
    unfold drawProfile at h1 h2 ⊢
    simp only [hlen] at h1 h2 ⊢
    have h0 : (0 : ℝ) ≤ P.length := Nat.cast_nonneg _
    have hf := Nat.floor_le (a := x + 1 / 2) (by linarith)
    have hf' := Nat.lt_floor_add_one (x + 1 / 2)
    refine ⟨by linarith, ⌊x + 1 / 2⌋₊, Nat.le_floor (by linarith), ?_, by linarith, by linarith⟩
    exact_mod_cast (show ((⌊x + 1 / 2⌋₊ : ℕ) : ℝ) < ((P.length + P.length / 2 : ℕ) : ℝ) by linarith)

/-- C117 is false: the profile `[0, 1]` has the median 1/2, but the bars show 0, 1, 0; and the bin shown for the second time, from 3/2 to 5/2, is
shaded from 2 only. -/
theorem C117_false : MedianOf [0, 1] (1 / 2) ∧ (drawProfile [0, 1]).heights = [0, 1, 0] ∧
    (drawProfile [0, 1]).heights ≠ [0 - 1 / 2, 1 - 1 / 2, 0 - 1 / 2] ∧ (drawProfile [0, 1]).shade.1 = 2 ∧
    (drawProfile [0, 1]).heightAt (7 / 4) = some 0 := by
  have hm : npMedian ([0, 1] ++ [(0 : ℝ), 1].take ([(0 : ℝ), 1].length / 2)) = (0 : ℝ) := by
    refine median_unique (npMedian_median (by simp)) ⟨[0, 0, 1], ?_, by simp, .inl ⟨1, 0, rfl, rfl, rfl⟩⟩
    show [0, 0, 1].Perm [(0 : ℝ), 1, 0]
    exact List.Perm.cons _ (List.Perm.swap _ _ _)
  have hh : (drawProfile [0, 1]).heights = [0, 1, 0] := by
    change [0, 1, 0].map (fun x => x - npMedian ([0, 1] ++ [(0 : ℝ), 1].take ([(0 : ℝ), 1].length / 2))) = _
    rw [hm]
    simp
  refine ⟨⟨[0, 1], List.Perm.refl _, by simp, .inr ⟨0, 0, 1, rfl, rfl, rfl, by norm_num⟩⟩, hh, ?_, ?_, ?_⟩
  · rw [hh]
    norm_num
  · unfold drawProfile
    norm_num
  · unfold BarPanel.heightAt
    rw [hh]
    have : ⌊(7 / 4 + 1 / 2 : ℝ)⌋₊ = 2 := by rw [Nat.floor_eq_iff (by norm_num)]; norm_num
    rw [this]
    rfl

/-! ## Examples -/

/-- The metadata of the example. -/
def figMeta : MetaDict := [(.str "tobs", .float (.fin 100)), (.str "skycoord", .sky (.fin 10) (.fin 20)), (.str "mjd", .float (.fin 59000)),
  (.str "source_name", .str "J0000+00")]

/-- The candidate of the example: two sub-integrations of three bins. -/
noncomputable def figCand : CandObj ℝ :=
  { params := { freq := 1, snr := 8, ducy := 1 / 3, dm := 10, period := 1, tag := 1 }, tsmeta := 0,
    peaks := [{ freq := 1, snr := 8, ducy := 1 / 3, dm := 10, period := 1, tag := 1 }], subints := .d2 [[1, 2, 3], [4, 5, 6]] }

example : ∃ (a : AstroTexts) (f : CandFigure), drawCandidate a figMeta figCand = .ok f ∧ f.subints.valueAt 3 75 = some 4 := by
  let a : AstroTexts := ⟨fun _ => [], fun _ => [], fun _ => .ok (59000, [])⟩
  have h := C116_draws a figMeta figCand
  rw [(C105_plot _ figMeta figCand (by simp [figCand])).mpr ⟨⟨_, rfl⟩, ⟨.float (.fin 100), 100, rfl, by simp [pyReal]⟩, ⟨_, _, rfl⟩, ⟨_, rfl, rfl⟩, _, rfl⟩] at h
  obtain ⟨f, hf, -⟩ := map_ok_inv h
  obtain ⟨T, hT, hs, -⟩ := C116_candidate hf
  have ht : metaItem pyReal figMeta "tobs" = .ok 100 := by
    simp [metaItem, figMeta, dictGet, pyReal]
  rw [ht] at hT
  cases hT
  refine ⟨a, f, hf, ?_⟩
  obtain ⟨r, hr, hv⟩ := (C116_subints (n := 3) (by simp) (by simp) (by norm_num) hs).2 1 3 3 75 (by simp) (by norm_num) (by norm_num) (by norm_num)
    (by norm_num) (by norm_num)
  cases hr
  exact hv

example : ∃ r, drawPeriodogram ⟨[1, 2], [1, 2, 3], [8, 8, 8], [[1, 2], [5, 4], [0, 1]], 10⟩ (some (-1)) = .ok r ∧ r.1.points[1]? = some (2, 4) := ⟨_, rfl, rfl⟩

example : [(3 : ℝ), 1, 2] ≠ [] := by simp

end Verif.Props
