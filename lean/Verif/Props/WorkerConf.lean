import Verif.Model.WorkerConf
import Verif.Props.Config
import Verif.Props.Rseek

/-! # From a validated configuration to the peaks of a file: property C84 -/

namespace Verif.Spec

open Verif.Model

/-- The number that a python object is. -/
def HasValue (v : PyVal) (x : ℝ) : Prop :=
  (∃ q : ℚ, v = .float (.fin q) ∧ x = q) ∨ (∃ i : ℤ, v = .int i ∧ x = i) ∨ (v = .bool true ∧ x = 1) ∨ (v = .bool false ∧ x = 0)

/-- The value of an entry, or its default. -/
def Given (d : List (String × PyVal)) (k : String) (dflt x : ℝ) : Prop :=
  (∃ v, dictGet d k = some v ∧ HasValue v x) ∨ (dictGet d k = none ∧ x = dflt)

mutual

/-- No number in the tree is infinite or NaN. -/
def AllFinite : PyVal → Prop
  | .float x => ∃ q, x = .fin q
  | .list l => AllFiniteList l
  | .dict d => AllFiniteDict d
  | _ => True

def AllFiniteList : List PyVal → Prop
  | [] => True
  | v :: l => AllFinite v ∧ AllFiniteList l

def AllFiniteDict : List (String × PyVal) → Prop
  | [] => True
  | (_, v) :: l => AllFinite v ∧ AllFiniteDict l

end

end Verif.Spec

namespace Verif.Props

open Verif.Model Verif.Spec Verif.Lemmas

theorem allFiniteDict_mem {d : List (String × PyVal)} (h : AllFiniteDict d) : ∀ {k v}, (k, v) ∈ d → AllFinite v := by
  induction d with
  | nil => intro k v hm; cases hm
  | cons a d ih =>
    obtain ⟨k', v'⟩ := a
    unfold AllFiniteDict at h
    intro k v hm
    rcases List.mem_cons.mp hm with e | e
    · cases e; exact h.1
    · exact ih h.2 e

theorem allFiniteList_mem {l : List PyVal} (h : AllFiniteList l) : ∀ {v}, v ∈ l → AllFinite v := by
  induction l with
  | nil => intro v hm; cases hm
  | cons a d ih =>
    unfold AllFiniteList at h
    intro v hm
    rcases List.mem_cons.mp hm with e | e
    · subst e; exact h.1
    · exact ih h.2 e

theorem dictGet_some_of_mem {d : List (String × PyVal)} {k : String} {v : PyVal} (h : (k, v) ∈ d) : ∃ u, dictGet d k = some u := by
  induction d with
  | nil => cases h
  | cons a d ih =>
    obtain ⟨k', v'⟩ := a
    unfold dictGet
    by_cases hk : k' = k
    · exact ⟨v', by rw [if_pos hk]⟩
    · rw [if_neg hk]
      rcases List.mem_cons.mp h with e | e
      · cases e; exact absurd rfl hk
      · exact ih e

theorem section_get {fields : List (String × Bool × (PyVal → Prop))} {d : List (String × PyVal)} (h : Section fields (.dict d))
    {k : String} {v : PyVal} (hk : dictGet d k = some v) : ∃ o P, (k, o, P) ∈ fields ∧ P v := by
  obtain ⟨d', e, h1, _⟩ := h
  cases e
  exact h1 k v (dictGet_mem hk)

theorem section_req {fields : List (String × Bool × (PyVal → Prop))} {d : List (String × PyVal)} (h : Section fields (.dict d))
    {k : String} {P : PyVal → Prop} (hk : (k, false, P) ∈ fields) : ∃ v, dictGet d k = some v := by
  obtain ⟨d', e, _, h2⟩ := h
  cases e
  obtain ⟨x, hx⟩ := h2 k P hk
  exact dictGet_some_of_mem hx

theorem keyword_real {d : List (String × PyVal)} (hf : AllFiniteDict d) (k : String) (dflt : ℝ)
    (hv : ∀ v, dictGet d k = some v → (∃ x, v = .float x) ∨ PosInt v) :
    ∃ x, keyword pyReal dflt d k = .ok x ∧ Given d k dflt x := by
  unfold keyword
  cases hd : dictGet d k with
  | none => exact ⟨dflt, rfl, Or.inr ⟨hd, rfl⟩⟩
  | some v =>
    rcases hv v hd with ⟨x, rfl⟩ | ⟨i, rfl, _⟩ | rfl
    · obtain ⟨q, rfl⟩ : ∃ q, x = .fin q := by
        have := allFiniteDict_mem hf (dictGet_mem hd)
        unfold AllFinite at this
        exact this
      exact ⟨q, rfl, Or.inl ⟨_, hd, Or.inl ⟨q, rfl, rfl⟩⟩⟩
    · exact ⟨i, rfl, Or.inl ⟨_, hd, Or.inr (Or.inl ⟨i, rfl, rfl⟩)⟩⟩
    · exact ⟨1, by simp [pyReal], Or.inl ⟨_, hd, Or.inr (Or.inr (Or.inl ⟨rfl, rfl⟩))⟩⟩

theorem keyword_count {d : List (String × PyVal)} (k : String) (dflt : ℕ) (hv : ∀ v, dictGet d k = some v → PosInt v) :
    ∃ n, keyword pyCount dflt d k = .ok n ∧ Given d k dflt n := by
  unfold keyword
  cases hd : dictGet d k with
  | none => exact ⟨dflt, rfl, Or.inr ⟨hd, rfl⟩⟩
  | some v =>
    rcases hv v hd with ⟨i, rfl, hi⟩ | rfl
    · refine ⟨i.toNat, by simp [pyCount, hi.le], Or.inl ⟨_, hd, Or.inr (Or.inl ⟨i, rfl, ?_⟩)⟩⟩
      exact_mod_cast Int.toNat_of_nonneg hi.le
    · exact ⟨1, by simp [pyCount], Or.inl ⟨_, hd, Or.inr (Or.inr (Or.inl ⟨rfl, by norm_num⟩))⟩⟩

/-- The keyword arguments `s` and `p` that a range gives for `ffa_search` and `find_peaks`, with the documented default values. -/
structure RangeArgs (s p : List (String × PyVal)) (c : Model.RangeConf) : Prop where
  periodMin : Given s "period_min" 1 c.search.periodMin
  periodMax : Given s "period_max" 30 c.search.periodMax
  binsMin : Given s "bins_min" 240 c.search.binsMin
  binsMax : Given s "bins_max" 260 c.search.binsMax
  fpmin : Given s "fpmin" 8 c.search.fpmin
  ducyMax : Given s "ducy_max" (1 / 5) c.search.ducyMax
  wtsp : Given s "wtsp" (3 / 2) c.search.wtsp
  smin : Given p "smin" 6 c.peaks.smin
  segwidth : Given p "segwidth" 5 c.peaks.segwidth
  nstd : Given p "nstd" 6 c.peaks.nstd
  minseg : Given p "minseg" 10 c.peaks.minseg
  clrad : Given p "clrad" (1 / 10) c.peaks.clrad

/-- What the conversion of the values accepts. -/
theorem posFloat_number {v : PyVal} (h : PosFloat v) : (∃ x, v = .float x) ∨ PosInt v := by
  obtain ⟨x, rfl, _⟩ := h
  exact Or.inl ⟨x, rfl⟩

theorem searchArgsOf_ok {s : List (String × PyVal)} (hf : AllFiniteDict s)
    (hs : Section [("period_min", false, PosFloat), ("period_max", false, PosFloat), ("bins_min", false, PosInt),
      ("bins_max", false, PosInt), ("fpmin", true, PosInt), ("wtsp", true, fun v => ∃ x, v = .float x ∧ Above 1 x),
      ("ducy_max", true, fun v => ∃ q : ℚ, v = .float (.fin q) ∧ 0 < q ∧ q < 1)] (.dict s)) :
    ∃ a, searchArgsOf s = .ok a ∧ Given s "period_min" 1 a.periodMin ∧ Given s "period_max" 30 a.periodMax ∧
      Given s "bins_min" 240 a.binsMin ∧ Given s "bins_max" 260 a.binsMax ∧ Given s "fpmin" 8 a.fpmin ∧
      Given s "ducy_max" (1 / 5) a.ducyMax ∧ Given s "wtsp" (3 / 2) a.wtsp ∧ a.deredden = false ∧ a.alreadyNormalised = true := by
  obtain ⟨x1, h1, g1⟩ := keyword_real hf "period_min" 1 (by
    intro v hv
    obtain ⟨o, P, hP, hx⟩ := section_get hs hv
    simp at hP
    obtain ⟨-, rfl⟩ := hP
    exact posFloat_number hx)
  obtain ⟨x2, h2, g2⟩ := keyword_real hf "period_max" 30 (by
    intro v hv
    obtain ⟨o, P, hP, hx⟩ := section_get hs hv
    simp at hP
    obtain ⟨-, rfl⟩ := hP
    exact posFloat_number hx)
  obtain ⟨x3, h3, g3⟩ := keyword_count (d := s) "fpmin" 8 (by
    intro v hv
    obtain ⟨o, P, hP, hx⟩ := section_get hs hv
    simp at hP
    obtain ⟨-, rfl⟩ := hP
    exact hx)
  obtain ⟨x4, h4, g4⟩ := keyword_count (d := s) "bins_min" 240 (by
    intro v hv
    obtain ⟨o, P, hP, hx⟩ := section_get hs hv
    simp at hP
    obtain ⟨-, rfl⟩ := hP
    exact hx)
  obtain ⟨x5, h5, g5⟩ := keyword_count (d := s) "bins_max" 260 (by
    intro v hv
    obtain ⟨o, P, hP, hx⟩ := section_get hs hv
    simp at hP
    obtain ⟨-, rfl⟩ := hP
    exact hx)
  obtain ⟨x6, h6, g6⟩ := keyword_real hf "ducy_max" (1 / 5) (by
    intro v hv
    obtain ⟨o, P, hP, hx⟩ := section_get hs hv
    simp at hP
    obtain ⟨-, rfl⟩ := hP
    obtain ⟨q, rfl, _⟩ := hx
    exact Or.inl ⟨_, rfl⟩)
  obtain ⟨x7, h7, g7⟩ := keyword_real hf "wtsp" (3 / 2) (by
    intro v hv
    obtain ⟨o, P, hP, hx⟩ := section_get hs hv
    simp at hP
    obtain ⟨-, rfl⟩ := hP
    obtain ⟨q, rfl, _⟩ := hx
    exact Or.inl ⟨_, rfl⟩)
  refine ⟨⟨x1, x2, x3, x4, x5, x6, x7, false, 4, 101, true⟩, ?_, g1, g2, g4, g5, ?_, g6, g7, rfl, rfl⟩
  · unfold searchArgsOf
    simp only [h1, h2, h3, h4, h5, h6, h7, Except.bind]
  · simpa using g3

theorem peakParamsOf_ok {s : List (String × PyVal)} (hf : AllFiniteDict s)
    (hs : Section [("smin", true, PosFloat), ("segwidth", true, PosFloat), ("nstd", true, PosFloat),
      ("minseg", true, PosInt), ("polydeg", true, PosFloat), ("clrad", true, OrBlank PosFloat)] (.dict s)) :
    (dictGet s "clrad" ≠ some .none → ∃ a, peakParamsOf s = .ok a ∧ Given s "smin" 6 a.smin ∧ Given s "segwidth" 5 a.segwidth ∧
      Given s "nstd" 6 a.nstd ∧ Given s "minseg" 10 a.minseg ∧ Given s "clrad" (1 / 10) a.clrad) ∧
    (dictGet s "clrad" = some .none → peakParamsOf s = .error .typeError) := by
  obtain ⟨x1, h1, g1⟩ := keyword_real hf "smin" 6 (by
    intro v hv
    obtain ⟨o, P, hP, hx⟩ := section_get hs hv
    simp at hP
    obtain ⟨-, rfl⟩ := hP
    exact posFloat_number hx)
  obtain ⟨x2, h2, g2⟩ := keyword_real hf "segwidth" 5 (by
    intro v hv
    obtain ⟨o, P, hP, hx⟩ := section_get hs hv
    simp at hP
    obtain ⟨-, rfl⟩ := hP
    exact posFloat_number hx)
  obtain ⟨x3, h3, g3⟩ := keyword_real hf "nstd" 6 (by
    intro v hv
    obtain ⟨o, P, hP, hx⟩ := section_get hs hv
    simp at hP
    obtain ⟨-, rfl⟩ := hP
    exact posFloat_number hx)
  obtain ⟨x4, h4, g4⟩ := keyword_count (d := s) "minseg" 10 (by
    intro v hv
    obtain ⟨o, P, hP, hx⟩ := section_get hs hv
    simp at hP
    obtain ⟨-, rfl⟩ := hP
    exact hx)
  constructor
  · intro hc
    obtain ⟨x5, h5, g5⟩ := keyword_real hf "clrad" (1 / 10) (by
      intro v hv
      obtain ⟨o, P, hP, hx⟩ := section_get hs hv
      simp at hP
      obtain ⟨-, rfl⟩ := hP
      rcases hx with rfl | hx
      · exact absurd hv hc
      · exact posFloat_number hx)
    refine ⟨⟨x1, x2, x3, x4, x5⟩, ?_, g1, g2, g3, g4, g5⟩
    unfold peakParamsOf
    simp only [h1, h2, h3, h4, h5, Except.bind]
  · intro hc
    unfold peakParamsOf
    simp only [h1, h2, h3, h4, Except.bind]
    unfold keyword
    rw [hc]
    rfl

/-- C84. The search ranges of a validated configuration without infinite numbers become arguments of the search and of the peak detection:
the values given, or the documented defaults. The exception is `clrad: null`, which is a TypeError. -/
theorem C84_arguments {conf v : PyVal} (h : validatePipelineConfig conf = .ok v) (hf : AllFinite v) :
    ∃ d der ranges, v = .dict d ∧ dictGet d "dereddening" = some (.dict der) ∧
      (∃ x y, dictGet der "rmed_width" = some x ∧ PosPlain x ∧ dictGet der "rmed_minpts" = some y ∧ PosPlain y) ∧
      dictGet d "ranges" = some (.list ranges) ∧
      ∀ r ∈ ranges, ∃ rr s p, r = .dict rr ∧ dictGet rr "ffa_search" = some (.dict s) ∧ dictGet rr "find_peaks" = some (.dict p) ∧
        (dictGet p "clrad" ≠ some .none → ∃ c, rangeConfOf r = .ok c ∧ RangeArgs s p c ∧ c.search.deredden = false ∧
          c.search.alreadyNormalised = true) ∧
        (dictGet p "clrad" = some .none → rangeConfOf r = .error .typeError) := by
  have hv := C55_types h
  unfold ValidatedConf at hv
  obtain ⟨d, rfl, _⟩ := id hv
  unfold AllFinite at hf
  obtain ⟨vd, hvd⟩ := section_req hv (k := "dereddening") (P := Section [("rmed_width", false, PosPlain), ("rmed_minpts", false, PosPlain)])
    (by simp)
  obtain ⟨vr, hvr⟩ := section_req hv (k := "ranges") (by
    right; right; right; right; left)
  obtain ⟨o, P, hP, hx⟩ := section_get hv hvd
  simp at hP
  obtain ⟨-, rfl⟩ := hP
  obtain ⟨der, rfl, _⟩ := id hx
  obtain ⟨o, P, hP, hy⟩ := section_get hv hvr
  simp at hP
  obtain ⟨-, rfl⟩ := hP
  obtain ⟨ranges, rfl, hrs⟩ := id hy
  obtain ⟨x1, hx1⟩ := section_req hx (k := "rmed_width") (P := PosPlain) (by simp)
  obtain ⟨x2, hx2⟩ := section_req hx (k := "rmed_minpts") (P := PosPlain) (by simp)
  refine ⟨d, der, ranges, rfl, hvd, ⟨x1, x2, hx1, ?_, hx2, ?_⟩, hvr, ?_⟩
  · obtain ⟨o, P, hP, hz⟩ := section_get hx hx1
    simp at hP
    obtain ⟨-, rfl⟩ := hP
    exact hz
  · obtain ⟨o, P, hP, hz⟩ := section_get hx hx2
    simp at hP
    obtain ⟨-, rfl⟩ := hP
    exact hz
  · intro r hr
    have hsec := hrs r hr
    have hfr : AllFinite r := by
      have := allFiniteDict_mem hf (dictGet_mem hvr)
      unfold AllFinite at this
      exact allFiniteList_mem this hr
    obtain ⟨rr, rfl, _⟩ := id hsec
    unfold AllFinite at hfr
    obtain ⟨v1, hv1⟩ := section_req hsec (k := "ffa_search") (by right; left)
    obtain ⟨v2, hv2⟩ := section_req hsec (k := "find_peaks") (by right; right; left)
    obtain ⟨o, P, hP, h1⟩ := section_get hsec hv1
    simp at hP
    obtain ⟨-, rfl⟩ := hP
    obtain ⟨s, rfl, _⟩ := id h1
    obtain ⟨o, P, hP, h2⟩ := section_get hsec hv2
    simp at hP
    obtain ⟨-, rfl⟩ := hP
    obtain ⟨p, rfl, _⟩ := id h2
    have f1 := allFiniteDict_mem hfr (dictGet_mem hv1)
    have f2 := allFiniteDict_mem hfr (dictGet_mem hv2)
    unfold AllFinite at f1 f2
    obtain ⟨a, ha, a1, a2, a3, a4, a5, a6, a7, a8, a9⟩ := searchArgsOf_ok f1 h1
    obtain ⟨k1, k2⟩ := peakParamsOf_ok f2 h2
    refine ⟨rr, s, p, rfl, hv1, hv2, ?_, ?_⟩
    · intro hc
      obtain ⟨b, hb, b1, b2, b3, b4, b5⟩ := k1 hc
      refine ⟨⟨a, b⟩, ?_, ⟨a1, a2, a3, a4, a5, a6, a7, b1, b2, b3, b4, b5⟩, a8, a9⟩
      unfold rangeConfOf required pyDict
      simp only [Except.bind, hv1, hv2, ha, hb]
    · intro hc
      unfold rangeConfOf required pyDict
      simp only [Except.bind, hv1, hv2, ha, k2 hc]

/-! ## Success -/

theorem processNum_int (idx : IdxRule) (argsort : List ℝ → List ℕ) (fit : List ℝ → List ℝ → ℝ → ℝ) (rmedWidth : ℝ) (n : ℕ)
    (confs : List Model.RangeConf) (w : World) (id : ℕ) :
    processNum idx argsort fit rmedWidth (.int n) confs w id = processLoaded idx argsort fit rmedWidth n confs w id := by
  unfold processNum processLoaded tsDereddenNum tsDeredden
  cases w.obj id with
  | error e => rfl
  | ok o =>
    simp only [Except.bind, runningMedianNum_int]
    cases dmOf (w.metaOf o) with
    | error e => rfl
    | ok dm =>
      simp only
      cases runningMedianOf (w.dataOf o) o.tsamp rmedWidth n with
      | error e => rfl
      | ok rmed =>
        simp only [Bool.false_eq_true, if_false]
        cases tsNew w (subtractArrays (w.dataOf o) rmed) o.tsamp (w.metaOf o) <;> rfl

/-- A search range fits the data: at least two phase bins, not finer than the sampling, an increasing range of periods that is not
narrower than the resolution, two periods in the data, and segments of the peak detection that are not finer than the resolution. -/
def FitsData (c : Model.RangeConf) (nsamp : ℕ) (tsamp : ℝ) : Prop :=
  2 ≤ c.search.binsMin ∧ c.search.binsMin ≤ c.search.binsMax ∧ tsamp * c.search.binsMin ≤ c.search.periodMin ∧
  c.search.periodMin < c.search.periodMax ∧ 2 * c.search.periodMax ≤ nsamp * tsamp ∧
  3 / (c.search.binsMin * (nsamp * tsamp)) < 1 / c.search.periodMin - 1 / c.search.periodMax ∧
  3 / c.search.binsMin ≤ c.peaks.segwidth

/-- The window of the running median fits the data, see C27: `n` is `rmed_minpts`. -/
def WindowFits (width tsamp : ℝ) (n nsamp : ℕ) : Prop :=
  ∃ k : ℕ, pyRound (width / tsamp) = k ∧ (2 * n ≤ k ∨ k % 2 = 1) ∧ k + max 1 (k / n) ≤ nsamp

/-- C84, what does hold: a file is searched without error with a validated configuration (no infinite numbers, no `clrad: null`)
if all search ranges fit the data, `rmed_minpts` is an odd integer, and the window of the running median fits the data. -/
theorem C84_partial {conf v : PyVal} (h : validatePipelineConfig conf = .ok v) (hf : AllFinite v)
    (idx : IdxRule) (argsort : List ℝ → List ℕ) (fit : List ℝ → List ℝ → ℝ → ℝ)
    (d der : List (String × PyVal)) (ranges : List PyVal) (hd : v = .dict d) (hder : dictGet d "dereddening" = some (.dict der))
    (hran : dictGet d "ranges" = some (.list ranges)) (n : ℕ) (hn : dictGet der "rmed_minpts" = some (.int n)) (hodd : n % 2 = 1)
    (w : World) (id : ℕ) (o : TsObj) (ho : w.objs[id]? = some o) (hg : GoodSeries w o) (ht : 0 < o.tsamp) (dm : ℝ)
    (hdm : dictGet (w.metaOf o) "dm" = some (.num dm))
    (hwin : ∀ x width, dictGet der "rmed_width" = some x → HasValue x width → WindowFits width o.tsamp n (w.dataOf o).length)
    (hfit : ∀ r ∈ ranges, ∃ rr p, r = .dict rr ∧ dictGet rr "find_peaks" = some (.dict p) ∧ dictGet p "clrad" ≠ some .none ∧
      ∀ c s, dictGet rr "ffa_search" = some (.dict s) → RangeArgs s p c → FitsData c (w.dataOf o).length o.tsamp ∧
        IdxFor idx ((w.dataOf o).length / c.search.binsMin)) :
    ∃ peaks, processConf idx argsort fit v w id = .ok peaks := by
  obtain ⟨d', der', ranges', rfl, e1, ⟨x1, x2, g1, p1, g2, p2⟩, e2, key⟩ := C84_arguments h hf
  cases hd
  rw [hder] at e1
  cases e1
  rw [hran] at e2
  cases e2
  unfold AllFinite at hf
  -- the width of the window
  obtain ⟨width, hw1, hw2⟩ : ∃ width, required pyReal der "rmed_width" = .ok width ∧ HasValue x1 width := by
    unfold required
    rw [g1]
    simp only
    rcases p1 with (⟨i, rfl, _⟩ | rfl) | ⟨x, rfl, _⟩
    · exact ⟨i, rfl, Or.inr (Or.inl ⟨i, rfl, rfl⟩)⟩
    · exact ⟨1, by simp [pyReal], Or.inr (Or.inr (Or.inl ⟨rfl, rfl⟩))⟩
    · have f1 := allFiniteDict_mem hf (dictGet_mem hder)
      unfold AllFinite at f1
      have f2 := allFiniteDict_mem f1 (dictGet_mem g1)
      unfold AllFinite at f2
      obtain ⟨q, rfl⟩ := f2
      exact ⟨q, rfl, Or.inl ⟨q, rfl, rfl⟩⟩
  obtain ⟨k, hk1, hk2, hk3⟩ := hwin x1 width g1 hw2
  -- the arguments of the ranges
  have hconf : ∀ r ∈ ranges, ∃ c, rangeConfOf r = .ok c ∧ FitsData c (w.dataOf o).length o.tsamp ∧
      IdxFor idx ((w.dataOf o).length / c.search.binsMin) := by
    intro r hr
    obtain ⟨rr, s, p, rfl, q1, q2, q3, _⟩ := key r hr
    obtain ⟨rr', p', e3, e4, e5, e6⟩ := hfit _ hr
    cases e3
    rw [q2] at e4
    cases e4
    obtain ⟨c, hc, hargs, _⟩ := q3 e5
    exact ⟨c, hc, e6 c s q1 hargs⟩
  have : Nonempty Model.RangeConf := ⟨⟨⟨0, 0, 0, 0, 0, 0, 0, false, 0, 0, false⟩, ⟨0, 0, 0, 0, 0⟩⟩⟩
  choose! g hg1 hg2 using hconf
  have hmap := mapM_ok rangeConfOf g ranges hg1
  -- the running median
  obtain ⟨rmed, hrm⟩ : ∃ r, runningMedianOf (w.dataOf o) o.tsamp width n = .ok r := by
    obtain ⟨out, hout⟩ := C27_partial (w.dataOf o) k n hodd hk2 hk3
    refine ⟨out, ?_⟩
    unfold runningMedianOf
    rw [if_neg ht.ne']
    simp only [hk1]
    rw [if_pos (by omega), Int.toNat_natCast, hout]
    rfl
  have hlen : (normalised (subtractArrays (w.dataOf o) rmed)).length = (w.dataOf o).length := by
    rw [normalised, List.length_map, subtract_length (runningMedianOf_length hrm)]
  have hpk : ∀ c ∈ ranges.map g, ∃ peaks,
      peaksOfData idx argsort fit (normalised (subtractArrays (w.dataOf o) rmed)) o.tsamp c.search c.peaks = .ok peaks := by
    intro c hc
    obtain ⟨r, hr, rfl⟩ := List.mem_map.mp hc
    obtain ⟨⟨b1, b2, b3, b4, b5, b6, b7⟩, b8⟩ := hg2 r hr
    have hb : (0 : ℝ) < (g r).search.binsMin := by exact_mod_cast (by omega : 0 < (g r).search.binsMin)
    apply C81_search_and_find idx argsort fit _ o.tsamp (g r).search (g r).peaks (by rw [hlen]; exact b8)
    · rw [hlen]
      exact ⟨ht, lt_of_lt_of_le (by positivity) b3, b4, by simp only; omega, b2, b3⟩
    · rw [hlen]; exact b5
    · rw [hlen]; exact b6
    · simpa using b7
  choose! pk hpk' using hpk
  have hproc := processLoaded_eq idx argsort fit width n (ranges.map g) w id o ho hg dm hdm
  rw [hrm] at hproc
  simp only [Except.bind] at hproc
  rw [mapM_ok _ pk _ hpk'] at hproc
  refine ⟨(((ranges.map g).map pk).flatten).map fun p => (p, dm), ?_⟩
  unfold processConf
  have hder' : required pyDict d "dereddening" = .ok der := by unfold required; rw [hder]; rfl
  have hran' : required pyList d "ranges" = .ok ranges := by unfold required; rw [hran]; rfl
  have hn' : required pyNum der "rmed_minpts" = .ok (.int n) := by
    unfold required
    rw [hn]
    simp [pyNum]
  have hpd : pyDict (.dict d) = .ok d := rfl
  simp only [hpd, hder', hw1, hn', hran', hmap, Except.bind]
  rw [processNum_int, hproc]
  rfl

/-- C84. The peaks of a file that is searched without error are those that separate calls of `ffa_search` (with dereddening and
normalisation) and `find_peaks` give with the arguments of the ranges, range by range, with the DM of the file. -/
theorem C84_peaks {conf v : PyVal} (h : validatePipelineConfig conf = .ok v) (hf : AllFinite v)
    (idx : IdxRule) (argsort : List ℝ → List ℕ) (fit : List ℝ → List ℝ → ℝ → ℝ)
    (d der : List (String × PyVal)) (ranges : List PyVal) (hd : v = .dict d) (hder : dictGet d "dereddening" = some (.dict der))
    (hran : dictGet d "ranges" = some (.list ranges)) (n : ℕ) (hn : dictGet der "rmed_minpts" = some (.int n))
    (x : PyVal) (width : ℝ) (hx : dictGet der "rmed_width" = some x) (hx' : HasValue x width)
    (w : World) (id : ℕ) (o : TsObj) (ho : w.objs[id]? = some o) (hg : GoodSeries w o) (dm : ℝ)
    (hdm : dictGet (w.metaOf o) "dm" = some (.num dm)) (peaks : List (Peak ℝ × ℝ))
    (hok : processConf idx argsort fit v w id = .ok peaks) :
    ∃ lists : List (List (Peak ℝ)),
      List.Forall₂ (fun r l => ∃ rr s p c, r = .dict rr ∧ dictGet rr "ffa_search" = some (.dict s) ∧
        dictGet rr "find_peaks" = some (.dict p) ∧ RangeArgs s p c ∧
        separateSearch idx argsort fit width n w id c = .ok l) ranges lists ∧
      peaks = lists.flatten.map fun p => (p, dm) := by
  obtain ⟨d', der', ranges', rfl, e1, _, e2, key⟩ := C84_arguments h hf
  cases hd
  rw [hder] at e1
  cases e1
  rw [hran] at e2
  cases e2
  have hder' : required pyDict d "dereddening" = .ok der := by unfold required; rw [hder]; rfl
  have hran' : required pyList d "ranges" = .ok ranges := by unfold required; rw [hran]; rfl
  have hn' : required pyNum der "rmed_minpts" = .ok (.int n) := by unfold required; rw [hn]; simp [pyNum]
  have hw' : required pyReal der "rmed_width" = .ok width := by
    unfold required
    rw [hx]
    rcases hx' with ⟨q, rfl, rfl⟩ | ⟨i, rfl, rfl⟩ | ⟨rfl, rfl⟩ | ⟨rfl, rfl⟩ <;> simp [pyReal]
  have hpd : pyDict (.dict d) = .ok d := rfl
  unfold processConf at hok
  simp only [hpd, hder', hw', hn', hran', Except.bind] at hok
  obtain ⟨confs, h1, h2⟩ := bind_ok_inv hok
  rw [processNum_int, processLoaded_eq idx argsort fit width n confs w id o ho hg dm hdm] at h2
  obtain ⟨lists, h3, rfl⟩ := map_ok_inv h2
  obtain ⟨rmed, h4, h5⟩ := bind_ok_inv h3
  refine ⟨lists, ?_, rfl⟩
  have f1 := mapM_ok_inv _ _ _ h1
  have f2 := mapM_ok_inv _ _ _ h5
  have hmem : ∀ r ∈ ranges, ∀ c, rangeConfOf r = .ok c → ∀ l,
      peaksOfData idx argsort fit (normalised (subtractArrays (w.dataOf o) rmed)) o.tsamp c.search c.peaks = .ok l →
      ∃ rr s p c, r = .dict rr ∧ dictGet rr "ffa_search" = some (.dict s) ∧ dictGet rr "find_peaks" = some (.dict p) ∧ RangeArgs s p c ∧
        separateSearch idx argsort fit width n w id c = .ok l := by
    intro r hr c hc l hl
    obtain ⟨rr, s, p, rfl, q1, q2, q3, q4⟩ := key r hr
    by_cases hcl : dictGet p "clrad" = some .none
    · rw [q4 hcl] at hc; cases hc
    · obtain ⟨c', hc', hargs, _⟩ := q3 hcl
      rw [hc] at hc'
      cases hc'
      refine ⟨rr, s, p, c, rfl, q1, q2, hargs, ?_⟩
      unfold separateSearch
      rw [searchAndFind_eq idx argsort fit w id o ho hg]
      simp only [prepared, ownPreparation, if_true, Bool.false_eq_true, if_false, h4, Except.map, Except.bind]
      exact hl
  clear key h1 h2 h3 h5 hok hran hran'
  induction f1 generalizing lists with
  | nil => cases f2; exact .nil
  | cons a l ih =>
    cases f2 with
    | cons b m =>
      exact .cons (hmem _ (by simp) _ a _ b) (ih _ m (fun r hr => hmem r (by simp [hr])))

/-! ## Failure -/

theorem runningMedianNum_even (x : List ℝ) (tsamp width : ℝ) (ht : tsamp ≠ 0) (n : ℕ) (hn : n % 2 = 0) :
    runningMedianNum x tsamp width (.int n) = .error .valueError := by
  unfold runningMedianNum fastRunningMedianNum fastRunningMedian PyNum.Even
  simp [ht, hn, liftCall]

theorem runningMedianNum_float (x : List ℝ) (tsamp width : ℝ) (ht : tsamp ≠ 0) (n : ℕ) (hn : n % 2 = 1)
    (hk : 2 * (n : ℤ) ≤ pyRound (width / tsamp)) : runningMedianNum x tsamp width (.float n) = .error .typeError := by
  unfold runningMedianNum fastRunningMedianNum
  simp only [ht, if_false]
  rw [if_pos (by omega), if_neg, if_neg]
  · obtain ⟨k, hk'⟩ : ∃ k : ℕ, pyRound (width / tsamp) = k := ⟨(pyRound (width / tsamp)).toNat, by omega⟩
    rw [hk'] at hk ⊢
    rw [Int.toNat_natCast]
    have hn0 : (0 : ℝ) < n := by exact_mod_cast (by omega : 0 < n)
    have h2 : (2 : ℝ) ≤ max 1 ((k : ℝ) / n) := by
      refine le_max_of_le_right ?_
      rw [le_div_iff₀ hn0]
      exact_mod_cast hk
    have := Nat.le_floor (n := 2) (a := max 1 ((k : ℝ) / n)) (by exact_mod_cast h2)
    omega
  · intro h
    have h1 : (n : ℤ) = 2 * ⌊(n : ℝ) / 2⌋ := by exact_mod_cast h
    omega

theorem processConf_reddening_error {conf v : PyVal} (h : validatePipelineConfig conf = .ok v) (hf : AllFinite v)
    (idx : IdxRule) (argsort : List ℝ → List ℕ) (fit : List ℝ → List ℝ → ℝ → ℝ)
    (d der : List (String × PyVal)) (ranges : List PyVal) (hd : v = .dict d) (hder : dictGet d "dereddening" = some (.dict der))
    (hran : dictGet d "ranges" = some (.list ranges))
    (hclrad : ∀ r ∈ ranges, ∀ rr p, r = .dict rr → dictGet rr "find_peaks" = some (.dict p) → dictGet p "clrad" ≠ some .none)
    (w : World) (id : ℕ) (o : TsObj) (ho : w.objs[id]? = some o) (dm : ℝ) (hdm : dictGet (w.metaOf o) "dm" = some (.num dm))
    (x y : PyVal) (width : ℝ) (m : PyNum) (e : PyErr) (hx : dictGet der "rmed_width" = some x) (hx' : HasValue x width)
    (hy : dictGet der "rmed_minpts" = some y) (hy' : pyNum y = .ok m)
    (herr : runningMedianNum (w.dataOf o) o.tsamp width m = .error e) :
    processConf idx argsort fit v w id = .error e := by
  obtain ⟨d', der', ranges', rfl, e1, _, e2, key⟩ := C84_arguments h hf
  cases hd
  rw [hder] at e1
  cases e1
  rw [hran] at e2
  cases e2
  have hconf : ∀ r ∈ ranges, ∃ c, rangeConfOf r = .ok c := by
    intro r hr
    obtain ⟨rr, s, p, rfl, q1, q2, q3, _⟩ := key r hr
    obtain ⟨c, hc, _⟩ := q3 (hclrad _ hr rr p rfl q2)
    exact ⟨c, hc⟩
  have : Nonempty Model.RangeConf := ⟨⟨⟨0, 0, 0, 0, 0, 0, 0, false, 0, 0, false⟩, ⟨0, 0, 0, 0, 0⟩⟩⟩
  choose! g hg1 using hconf
  have hmap := mapM_ok rangeConfOf g ranges hg1
  unfold processConf
  have hder' : required pyDict d "dereddening" = .ok der := by unfold required; rw [hder]; rfl
  have hran' : required pyList d "ranges" = .ok ranges := by unfold required; rw [hran]; rfl
  have hn' : required pyNum der "rmed_minpts" = .ok m := by unfold required; rw [hy]; exact hy'
  have hw' : required pyReal der "rmed_width" = .ok width := by
    unfold required
    rw [hx]
    rcases hx' with ⟨q, rfl, rfl⟩ | ⟨i, rfl, rfl⟩ | ⟨rfl, rfl⟩ | ⟨rfl, rfl⟩ <;> simp [pyReal]
  have hpd : pyDict (.dict d) = .ok d := rfl
  simp only [hpd, hder', hw', hn', hran', hmap, Except.bind]
  unfold processNum tsDereddenNum
  rw [obj_ok_iff.mpr ho]
  simp only [Except.bind, dmOf, hdm, herr]

/-- C84. The validation of a configuration lets pass values of `rmed_minpts` with which no file can be searched: an even integer is a
ValueError for every time series, a `float` such as `101.0` is a TypeError for every time series if the window has at least twice
that many samples. -/
theorem C84_rmed_minpts {conf v : PyVal} (h : validatePipelineConfig conf = .ok v) (hf : AllFinite v)
    (idx : IdxRule) (argsort : List ℝ → List ℕ) (fit : List ℝ → List ℝ → ℝ → ℝ)
    (d der : List (String × PyVal)) (ranges : List PyVal) (hd : v = .dict d) (hder : dictGet d "dereddening" = some (.dict der))
    (hran : dictGet d "ranges" = some (.list ranges))
    (hclrad : ∀ r ∈ ranges, ∀ rr p, r = .dict rr → dictGet rr "find_peaks" = some (.dict p) → dictGet p "clrad" ≠ some .none)
    (w : World) (id : ℕ) (o : TsObj) (ho : w.objs[id]? = some o) (ht : 0 < o.tsamp) (dm : ℝ)
    (hdm : dictGet (w.metaOf o) "dm" = some (.num dm)) (x : PyVal) (width : ℝ) (hx : dictGet der "rmed_width" = some x)
    (hx' : HasValue x width) (n : ℕ) :
    (n % 2 = 0 → dictGet der "rmed_minpts" = some (.int n) → processConf idx argsort fit v w id = .error .valueError) ∧
    (n % 2 = 1 → dictGet der "rmed_minpts" = some (.float (.fin n)) → 2 * (n : ℤ) ≤ pyRound (width / o.tsamp) →
      processConf idx argsort fit v w id = .error .typeError) := by
  constructor
  · intro hn hy
    exact processConf_reddening_error h hf idx argsort fit d der ranges hd hder hran hclrad w id o ho dm hdm x _ width (.int n) _ hx hx' hy
      (by simp [pyNum]) (runningMedianNum_even _ _ _ ht.ne' n hn)
  · intro hn hy hk
    exact processConf_reddening_error h hf idx argsort fit d der ranges hd hder hran hclrad w id o ho dm hdm x _ width (.float n) _ hx hx' hy
      (by simp [pyNum]) (runningMedianNum_float _ _ _ ht.ne' n hn hk)

/-- The example configuration with another `rmed_minpts`. -/
def minptsConf (minpts : PyVal) : PyVal := .dict [
  ("processes", .int 4),
  ("data", .dict [("format", .str "presto"), ("fmin", .none), ("fmax", .none), ("nchans", .none)]),
  ("dmselect", .dict [("min", .float (.fin 0)), ("max", .float (.fin 1000)), ("dmsinb_max", .float (.fin 45))]),
  ("dereddening", .dict [("rmed_width", .float (.fin 5)), ("rmed_minpts", minpts)]),
  ("ranges", .list [.dict [("name", .str "short"),
    ("ffa_search", .dict [("period_min", .float (.fin (1 / 5))), ("period_max", .float (.fin (1 / 2))), ("bins_min", .int 240),
      ("bins_max", .int 260), ("fpmin", .int 8), ("wtsp", .float (.fin (3 / 2)))]),
    ("find_peaks", .dict [("smin", .float (.fin 6))]),
    ("candidates", .dict [("bins", .int 256), ("subints", .int 32)])]]),
  ("clustering", .dict [("radius", .float (.fin (1 / 5)))]),
  ("harmonic_flagging", .dict [("denom_max", .int 100), ("phase_distance_max", .float (.fin 1)), ("dm_distance_max", .float (.fin 3)),
    ("snr_distance_max", .float (.fin 3))]),
  ("candidate_filters", .dict [("dm_min", .none), ("snr_min", .float (.fin 7)), ("remove_harmonics", .bool true), ("max_number", .none)]),
  ("plot_candidates", .bool false)]

theorem minptsConf_finite (m : PyVal) (hm : AllFinite m) : AllFinite (minptsConf m) := by
  unfold minptsConf
  simp only [AllFinite, AllFiniteDict, AllFiniteList, PyFloat.fin.injEq, exists_eq', and_true, true_and]
  exact hm

theorem given_fin {d : List (String × PyVal)} {k : String} {dflt x : ℝ} {q : ℚ} (h : Given d k dflt x)
    (hk : dictGet d k = some (.float (.fin q))) : x = q := by
  obtain ⟨v, hv, h1⟩ | ⟨h1, _⟩ := h
  · rw [hk] at hv
    cases hv
    obtain ⟨q', e, rfl⟩ | ⟨i, e, _⟩ | ⟨e, _⟩ | ⟨e, _⟩ := h1 <;> cases e
    rfl
  · rw [hk] at h1; cases h1

theorem given_int {d : List (String × PyVal)} {k : String} {dflt x : ℝ} {i : ℤ} (h : Given d k dflt x)
    (hk : dictGet d k = some (.int i)) : x = i := by
  obtain ⟨v, hv, h1⟩ | ⟨h1, _⟩ := h
  · rw [hk] at hv
    cases hv
    obtain ⟨q', e, _⟩ | ⟨i, e, rfl⟩ | ⟨e, _⟩ | ⟨e, _⟩ := h1 <;> cases e
    rfl
  · rw [hk] at h1; cases h1

theorem given_none {d : List (String × PyVal)} {k : String} {dflt x : ℝ} (h : Given d k dflt x) (hk : dictGet d k = none) :
    x = dflt := by
  obtain ⟨v, hv, h1⟩ | ⟨_, h1⟩ := h
  · rw [hk] at hv; cases hv
  · exact h1

/-- C84 is false. For a series of 6 s, 7200 samples, three configurations are accepted by the validation that only differ in
`rmed_minpts`, 101, 101.0 and 100: the file is searched with the first one, the other ones stop with TypeError and ValueError. -/
theorem C84_false (fit : List ℝ → List ℝ → ℝ → ℝ) : ∃ (w : World) (o : TsObj), w.objs[0]? = some o ∧ GoodSeries w o ∧ 0 < o.tsamp ∧
    (∀ m ∈ [PyVal.int 101, .float (.fin 101), .int 100], validatePipelineConfig (minptsConf m) = .ok (minptsConf m)) ∧
    (∃ peaks, processConf float32Idx insArgsort fit (minptsConf (.int 101)) w 0 = .ok peaks) ∧
    processConf float32Idx insArgsort fit (minptsConf (.float (.fin 101))) w 0 = .error .typeError ∧
    processConf float32Idx insArgsort fit (minptsConf (.int 100)) w 0 = .error .valueError := by
  obtain ⟨z, hz⟩ : ∃ z : List ℝ, z = List.replicate 7200 1 := ⟨_, rfl⟩
  obtain ⟨w, hw⟩ : ∃ w : World, w = ⟨[z], [[("tobs", .num 6), ("dm", .num 10)]], [⟨0, 1 / 1200, 0⟩]⟩ := ⟨_, rfl⟩
  have hdata : w.dataOf ⟨0, 1 / 1200, 0⟩ = List.replicate 7200 1 := by rw [hw, ← hz]; rfl
  have hlen : w.lengthOf ⟨0, 1 / 1200, 0⟩ = 6 := by
    unfold World.lengthOf
    rw [hdata]
    norm_num
  have hg : GoodSeries w ⟨0, 1 / 1200, 0⟩ := by
    refine ⟨by simp [hw], by rw [hlen]; norm_num, ?_⟩
    rw [hlen, hw]
    simp [World.metaOf, List.getD, dictGet]
  have ho : w.objs[0]? = some ⟨0, 1 / 1200, 0⟩ := by rw [hw]; rfl
  have hdm : dictGet (w.metaOf ⟨0, 1 / 1200, 0⟩) "dm" = some (.num 10) := by
    rw [hw]
    simp [World.metaOf, List.getD, dictGet]
  have hr : pyRound (5 / (1 / 1200)) = 6000 := by norm_num [pyRound]
  have h1 : validatePipelineConfig (minptsConf (.int 101)) = .ok (minptsConf (.int 101)) := by with_unfolding_all rfl
  have h2 : validatePipelineConfig (minptsConf (.float (.fin 101))) = .ok (minptsConf (.float (.fin 101))) := by with_unfolding_all rfl
  have h3 : validatePipelineConfig (minptsConf (.int 100)) = .ok (minptsConf (.int 100)) := by with_unfolding_all rfl
  have hwid : HasValue (.float (.fin 5)) 5 := Or.inl ⟨5, rfl, by norm_num⟩
  refine ⟨w, ⟨0, 1 / 1200, 0⟩, ho, hg, by norm_num, ?_, ?_, ?_, ?_⟩
  · intro m hm
    simp only [List.mem_cons, List.not_mem_nil, or_false] at hm
    rcases hm with rfl | rfl | rfl <;> assumption
  · refine C84_partial h1 (minptsConf_finite _ trivial) float32Idx insArgsort fit _ _ _ rfl rfl rfl 101 rfl (by norm_num) w 0 _ ho hg
      (by norm_num) 10 hdm ?_ ?_
    · intro x width hx hv
      cases hx
      obtain ⟨q, hq, rfl⟩ | ⟨i, hq, _⟩ | ⟨hq, _⟩ | ⟨hq, _⟩ := hv
      · cases hq
        refine ⟨6000, by push_cast; exact hr, by norm_num, by rw [hdata, List.length_replicate]; norm_num⟩
      · cases hq
      · cases hq
      · cases hq
    · intro r hr
      rw [List.mem_singleton] at hr
      subst hr
      refine ⟨_, _, rfl, rfl, by simp [dictGet], ?_⟩
      intro c s hs hc
      cases hs
      have g1 := given_fin hc.periodMin rfl
      have g2 := given_fin hc.periodMax rfl
      have g3 := given_int hc.binsMin rfl
      have g4 := given_int hc.binsMax rfl
      have g5 := given_none hc.segwidth rfl
      have g3' : c.search.binsMin = 240 := by exact_mod_cast g3
      have g4' : c.search.binsMax = 260 := by exact_mod_cast g4
      rw [hdata, List.length_replicate]
      refine ⟨⟨?_, ?_, ?_, ?_, ?_, ?_, ?_⟩, ?_⟩
      · omega
      · omega
      · rw [g1, g3']; norm_num
      · rw [g1, g2]; norm_num
      · rw [g2]; norm_num
      · rw [g1, g2, g3']; norm_num
      · rw [g5, g3']; norm_num
      · rw [g3']
        exact Or.inr ⟨Or.inl rfl, by norm_num⟩
  · exact (C84_rmed_minpts h2 (minptsConf_finite _ ⟨_, rfl⟩) float32Idx insArgsort fit _ _ _ rfl rfl rfl (by
      intro r hr rr p e1 e2
      rw [List.mem_singleton] at hr
      subst hr
      cases e1
      cases e2
      simp [dictGet]) w 0 _ ho (by norm_num) 10 hdm _ 5 rfl hwid 101).2 (by norm_num) rfl (by rw [hr]; norm_num)
  · exact (C84_rmed_minpts h3 (minptsConf_finite _ trivial) float32Idx insArgsort fit _ _ _ rfl rfl rfl (by
      intro r hr rr p e1 e2
      rw [List.mem_singleton] at hr
      subst hr
      cases e1
      cases e2
      simp [dictGet]) w 0 _ ho (by norm_num) 10 hdm _ 5 rfl hwid 100).1 (by norm_num) rfl

/-- The hypotheses of C84 (arguments) are met by the example configuration, whose only range gives some arguments and leaves out others. -/
example : validatePipelineConfig (minptsConf (.int 101)) = .ok (minptsConf (.int 101)) ∧ AllFinite (minptsConf (.int 101)) :=
  ⟨by with_unfolding_all rfl, minptsConf_finite _ trivial⟩

end Verif.Props
