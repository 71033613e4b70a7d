import Verif.Props.ConfOrder

/-!
# C141: names of search ranges, and entries given with their default value, do not matter
-/

namespace Verif.Spec

open Verif.Model

/-- The default values of the optional arguments of `ffa_search`, search.py 11-12. -/
def searchDefaults : List (String × PyVal) := [("fpmin", .int 8), ("wtsp", .float (.fin (3 / 2))), ("ducy_max", .float (.fin (1 / 5)))]

/-- The default values of the arguments of `find_peaks`, peak_detection.py 146, except for the degree of the polynomial. -/
def peaksDefaults : List (String × PyVal) :=
  [("smin", .float (.fin 6)), ("segwidth", .float (.fin 5)), ("nstd", .float (.fin 6)), ("minseg", .int 10), ("clrad", .float (.fin (1 / 10)))]

/-- Two search ranges of a configuration that differ only in the name, in the order of entries, and in optional entries that one of them leaves out and the other gives with the default value. -/
inductive SameRange : PyVal → PyVal → Prop
  | order (v w : PyVal) (h : SameEntries v w) : SameRange v w
  | name (r : List (String × PyVal)) (s s' : String) (hs : dictGet r "name" = some (.str s')) : SameRange (.dict r) (.dict (dictSet r "name" (.str s)))
  | search (r f : List (String × PyVal)) (k : String) (v : PyVal) (hf : dictGet r "ffa_search" = some (.dict f)) (hk : dictGet f k = none) (hv : (k, v) ∈ searchDefaults) :
      SameRange (.dict r) (.dict (dictSet r "ffa_search" (.dict (dictSet f k v))))
  | peaks (r f : List (String × PyVal)) (k : String) (v : PyVal) (hf : dictGet r "find_peaks" = some (.dict f)) (hk : dictGet f k = none) (hv : (k, v) ∈ peaksDefaults) :
      SameRange (.dict r) (.dict (dictSet r "find_peaks" (.dict (dictSet f k v))))
  | symm (v w : PyVal) (h : SameRange v w) : SameRange w v
  | trans (u v w : PyVal) (h : SameRange u v) (h' : SameRange v w) : SameRange u w

end Verif.Spec

namespace Verif.Props

open Verif.Model Verif.Spec Verif.Lemmas

theorem keyword_set {β : Type*} (conv : PyVal → Except PyErr β) (b : β) {d : List (String × PyVal)} {k k' : String} (h : k ≠ k') (v : PyVal) :
    keyword conv b (dictSet d k v) k' = keyword conv b d k' := by
  unfold keyword
  rw [dictGet_set, if_neg h]

theorem keyword_default {β : Type*} {conv : PyVal → Except PyErr β} {b : β} {d : List (String × PyVal)} {k : String} {v : PyVal} (h : dictGet d k = none) (hv : conv v = .ok b) :
    keyword conv b (dictSet d k v) k = keyword conv b d k := by
  unfold keyword
  rw [dictGet_set, if_pos rfl, h]
  exact hv

/-- `ffa_search` is called with the same arguments. -/
theorem searchArgsOf_default {f : List (String × PyVal)} {k : String} {v : PyVal} (hk : dictGet f k = none) (hv : (k, v) ∈ searchDefaults) :
    searchArgsOf (dictSet f k v) = searchArgsOf f := by
  simp only [searchDefaults, List.mem_cons, Prod.mk.injEq, List.not_mem_nil, or_false] at hv
  unfold searchArgsOf
  rcases hv with ⟨rfl, rfl⟩ | ⟨rfl, rfl⟩ | ⟨rfl, rfl⟩
  · rw [keyword_default (v := .int 8) (conv := pyCount) (b := 8) hk rfl]
    simp only [keyword_set _ _ (show "fpmin" ≠ "period_min" by decide), keyword_set _ _ (show "fpmin" ≠ "period_max" by decide), keyword_set _ _ (show "fpmin" ≠ "bins_min" by decide),
      keyword_set _ _ (show "fpmin" ≠ "bins_max" by decide), keyword_set _ _ (show "fpmin" ≠ "ducy_max" by decide), keyword_set _ _ (show "fpmin" ≠ "wtsp" by decide)]
  · rw [keyword_default (v := .float (.fin (3 / 2))) (conv := pyReal) (b := 3 / 2) hk (by simp [pyReal])]
    simp only [keyword_set _ _ (show "wtsp" ≠ "period_min" by decide), keyword_set _ _ (show "wtsp" ≠ "period_max" by decide), keyword_set _ _ (show "wtsp" ≠ "bins_min" by decide),
      keyword_set _ _ (show "wtsp" ≠ "bins_max" by decide), keyword_set _ _ (show "wtsp" ≠ "ducy_max" by decide), keyword_set _ _ (show "wtsp" ≠ "fpmin" by decide)]
  · rw [keyword_default (v := .float (.fin (1 / 5))) (conv := pyReal) (b := 1 / 5) hk (by simp [pyReal])]
    simp only [keyword_set _ _ (show "ducy_max" ≠ "period_min" by decide), keyword_set _ _ (show "ducy_max" ≠ "period_max" by decide),
      keyword_set _ _ (show "ducy_max" ≠ "bins_min" by decide), keyword_set _ _ (show "ducy_max" ≠ "bins_max" by decide), keyword_set _ _ (show "ducy_max" ≠ "fpmin" by decide),
      keyword_set _ _ (show "ducy_max" ≠ "wtsp" by decide)]

/-- `find_peaks` is called with the same arguments. -/
theorem peakParamsOf_default {f : List (String × PyVal)} {k : String} {v : PyVal} (hk : dictGet f k = none) (hv : (k, v) ∈ peaksDefaults) :
    peakParamsOf (dictSet f k v) = peakParamsOf f := by
  simp only [peaksDefaults, List.mem_cons, Prod.mk.injEq, List.not_mem_nil, or_false] at hv
  unfold peakParamsOf
  rcases hv with ⟨rfl, rfl⟩ | ⟨rfl, rfl⟩ | ⟨rfl, rfl⟩ | ⟨rfl, rfl⟩ | ⟨rfl, rfl⟩
  · rw [keyword_default (v := .float (.fin 6)) (conv := pyReal) (b := 6) hk (by simp [pyReal])]
    simp only [keyword_set _ _ (show "smin" ≠ "segwidth" by decide), keyword_set _ _ (show "smin" ≠ "nstd" by decide), keyword_set _ _ (show "smin" ≠ "minseg" by decide),
      keyword_set _ _ (show "smin" ≠ "clrad" by decide)]
  · rw [keyword_default (v := .float (.fin 5)) (conv := pyReal) (b := 5) hk (by simp [pyReal])]
    simp only [keyword_set _ _ (show "segwidth" ≠ "smin" by decide), keyword_set _ _ (show "segwidth" ≠ "nstd" by decide), keyword_set _ _ (show "segwidth" ≠ "minseg" by decide),
      keyword_set _ _ (show "segwidth" ≠ "clrad" by decide)]
  · rw [keyword_default (v := .float (.fin 6)) (conv := pyReal) (b := 6) hk (by simp [pyReal])]
    simp only [keyword_set _ _ (show "nstd" ≠ "smin" by decide), keyword_set _ _ (show "nstd" ≠ "segwidth" by decide), keyword_set _ _ (show "nstd" ≠ "minseg" by decide),
      keyword_set _ _ (show "nstd" ≠ "clrad" by decide)]
  · rw [keyword_default (v := .int 10) (conv := pyCount) (b := 10) hk rfl]
    simp only [keyword_set _ _ (show "minseg" ≠ "smin" by decide), keyword_set _ _ (show "minseg" ≠ "segwidth" by decide), keyword_set _ _ (show "minseg" ≠ "nstd" by decide),
      keyword_set _ _ (show "minseg" ≠ "clrad" by decide)]
  · rw [keyword_default (v := .float (.fin (1 / 10))) (conv := pyReal) (b := 1 / 10) hk (by simp [pyReal])]
    simp only [keyword_set _ _ (show "clrad" ≠ "smin" by decide), keyword_set _ _ (show "clrad" ≠ "segwidth" by decide), keyword_set _ _ (show "clrad" ≠ "nstd" by decide),
      keyword_set _ _ (show "clrad" ≠ "minseg" by decide)]

/-- The default values are valid. -/
theorem searchDefaults_valid {f fv : List (String × PyVal)} {k : String} {v : PyVal} (hv : (k, v) ∈ searchDefaults) (h : ffaSearchSchema (.dict f) = .ok (.dict fv)) :
    ffaSearchSchema (.dict (dictSet f k v)) = .ok (.dict (dictSet fv k v)) := by
  obtain ⟨r, hr, -, h1⟩ := schemaDict_set h
  cases hr
  simp only [searchDefaults, List.mem_cons, Prod.mk.injEq, List.not_mem_nil, or_false] at hv
  rcases hv with ⟨rfl, rfl⟩ | ⟨rfl, rfl⟩ | ⟨rfl, rfl⟩
  · exact h1 _ _ _ _ (by simp [schemaLookup]; rfl) (by with_unfolding_all rfl)
  · exact h1 _ _ _ _ (by simp [schemaLookup]; rfl) (by with_unfolding_all rfl)
  · exact h1 _ _ _ _ (by simp [schemaLookup]; rfl) (by with_unfolding_all rfl)

theorem peaksDefaults_valid {f fv : List (String × PyVal)} {k : String} {v : PyVal} (hv : (k, v) ∈ peaksDefaults) (h : findPeaksSchema (.dict f) = .ok (.dict fv)) :
    findPeaksSchema (.dict (dictSet f k v)) = .ok (.dict (dictSet fv k v)) := by
  obtain ⟨r, hr, -, h1⟩ := schemaDict_set h
  cases hr
  simp only [peaksDefaults, List.mem_cons, Prod.mk.injEq, List.not_mem_nil, or_false] at hv
  rcases hv with ⟨rfl, rfl⟩ | ⟨rfl, rfl⟩ | ⟨rfl, rfl⟩ | ⟨rfl, rfl⟩ | ⟨rfl, rfl⟩
  all_goals exact h1 _ _ _ _ (by simp [schemaLookup]; rfl) (by with_unfolding_all rfl)

theorem searchRangeOf_set {r : List (String × PyVal)} {k : String} {v : PyVal} (h1 : k ≠ "ffa_search") (h2 : k ≠ "candidates") :
    searchRangeOf (.dict (dictSet r k v)) = searchRangeOf (.dict r) := by
  unfold searchRangeOf
  simp only [pyDict, Except.bind]
  rw [required_set _ h1, required_set _ h2]

/-- If the first range is valid, then so is the second, and it stands for the same arguments of `ffa_search`, `find_peaks` and of the construction of candidates. -/
def RangeStep (x x' : PyVal) : Prop :=
  ∀ w, searchRangeSchema x = .ok w → ∃ w', searchRangeSchema x' = .ok w' ∧ searchRangeOf w' = searchRangeOf w ∧ pipeRangeOf w' = pipeRangeOf w

theorem RangeStep.back {x x' : PyVal} (h : RangeStep x x') (hv : ∀ w', searchRangeSchema x' = .ok w' → ∃ w, searchRangeSchema x = .ok w) : RangeStep x' x := by
  intro w' hw'
  obtain ⟨w, hw⟩ := hv w' hw'
  obtain ⟨w'', h1, h2, h3⟩ := h w hw
  rw [hw'] at h1
  cases h1
  exact ⟨w, hw, h2.symm, h3.symm⟩

theorem rangeStep_order {v v' : PyVal} (h : SameEntries v v') : RangeStep v v' := by
  intro w hw
  obtain ⟨w', h1, h2⟩ := respects_searchRange v v' h w hw
  exact ⟨w', h1, (searchRangeOf_rel w w' h2).symm, (pipeRangeOf_rel w w' h2).symm⟩

theorem rangeStep_name (r : List (String × PyVal)) (s : String) : RangeStep (.dict r) (.dict (dictSet r "name" (.str s))) := by
  intro w hw
  obtain ⟨rv, rfl, -, h1⟩ := schemaDict_set hw
  refine ⟨_, h1 "name" schemaStr (.str s) (.str s) (by simp [schemaLookup]) rfl, searchRangeOf_set (by decide) (by decide), ?_⟩
  unfold pipeRangeOf rangeConfOf
  simp only [pyDict, Except.bind]
  rw [required_set _ (by decide), required_set _ (by decide), required_set _ (by decide)]

theorem rangeStep_search {r f : List (String × PyVal)} {k : String} {v : PyVal} (hf : dictGet r "ffa_search" = some (.dict f)) (hk : dictGet f k = none) (hv : (k, v) ∈ searchDefaults) :
    RangeStep (.dict r) (.dict (dictSet r "ffa_search" (.dict (dictSet f k v)))) := by
  intro w hw
  obtain ⟨rv, rfl, h0, h1⟩ := schemaDict_set hw
  rcases (schemaItems_inv h0).2 "ffa_search" with ⟨g, -⟩ | ⟨a, s, b, g1, g2, g3, g4⟩
  · rw [hf] at g
    cases g
  rw [hf] at g1
  cases g1
  simp [schemaLookup] at g2
  subst g2
  obtain ⟨fv, rfl, g5, -⟩ := schemaDict_set g3
  have hkv : dictGet fv k = none := by
    rcases (schemaItems_inv g5).2 k with ⟨-, g⟩ | ⟨_, _, _, g, -⟩
    · exact g
    · rw [hk] at g
      cases g
  refine ⟨_, h1 "ffa_search" ffaSearchSchema _ _ (by simp [schemaLookup]) (searchDefaults_valid hv g3), ?_, ?_⟩
  · have hq : ∀ k' ∈ ["period_min", "period_max", "bins_min"], k ≠ k' := by
      simp only [searchDefaults, List.mem_cons, Prod.mk.injEq, List.not_mem_nil, or_false] at hv
      rcases hv with ⟨rfl, rfl⟩ | ⟨rfl, rfl⟩ | ⟨rfl, rfl⟩ <;> decide
    unfold searchRangeOf
    simp only [pyDict, Except.bind]
    rw [required_set _ (show "ffa_search" ≠ "candidates" by decide)]
    unfold required
    rw [dictGet_set, if_pos rfl, g4]
    simp only [pyDict]
    rw [dictGet_set, dictGet_set, dictGet_set, if_neg (hq _ (by simp)), if_neg (hq _ (by simp)), if_neg (hq _ (by simp))]
  · unfold pipeRangeOf rangeConfOf
    simp only [pyDict, Except.bind]
    rw [required_set _ (show "ffa_search" ≠ "find_peaks" by decide), required_set _ (show "ffa_search" ≠ "candidates" by decide)]
    have e1 : required pyDict (dictSet rv "ffa_search" (.dict (dictSet fv k v))) "ffa_search" = .ok (dictSet fv k v) := by
      unfold required
      rw [dictGet_set, if_pos rfl]
      rfl
    have e2 : required pyDict rv "ffa_search" = .ok fv := by
      unfold required
      rw [g4]
      rfl
    rw [e1, e2]
    simp only
    rw [searchArgsOf_default hkv hv]

theorem rangeStep_peaks {r f : List (String × PyVal)} {k : String} {v : PyVal} (hf : dictGet r "find_peaks" = some (.dict f)) (hk : dictGet f k = none) (hv : (k, v) ∈ peaksDefaults) :
    RangeStep (.dict r) (.dict (dictSet r "find_peaks" (.dict (dictSet f k v)))) := by
  intro w hw
  obtain ⟨rv, rfl, h0, h1⟩ := schemaDict_set hw
  rcases (schemaItems_inv h0).2 "find_peaks" with ⟨g, -⟩ | ⟨a, s, b, g1, g2, g3, g4⟩
  · rw [hf] at g
    cases g
  rw [hf] at g1
  cases g1
  simp [schemaLookup] at g2
  subst g2
  obtain ⟨fv, rfl, g5, -⟩ := schemaDict_set g3
  have hkv : dictGet fv k = none := by
    rcases (schemaItems_inv g5).2 k with ⟨-, g⟩ | ⟨_, _, _, g, -⟩
    · exact g
    · rw [hk] at g
      cases g
  refine ⟨_, h1 "find_peaks" findPeaksSchema _ _ (by simp [schemaLookup]) (peaksDefaults_valid hv g3), searchRangeOf_set (by decide) (by decide), ?_⟩
  unfold pipeRangeOf rangeConfOf
  simp only [pyDict, Except.bind]
  rw [required_set _ (show "find_peaks" ≠ "ffa_search" by decide), required_set _ (show "find_peaks" ≠ "candidates" by decide)]
  have e1 : required pyDict (dictSet rv "find_peaks" (.dict (dictSet fv k v))) "find_peaks" = .ok (dictSet fv k v) := by
    unfold required
    rw [dictGet_set, if_pos rfl]
    rfl
  have e2 : required pyDict rv "find_peaks" = .ok fv := by
    unfold required
    rw [g4]
    rfl
  rw [e1, e2]
  simp only
  rw [peakParamsOf_default hkv hv]

/-! In the other direction. -/

theorem dictSet_back {r : List (String × PyVal)} {k : String} {u x : PyVal} (h : dictGet r k = some u) : dictSet (dictSet r k x) k u = r := by
  induction r with
  | nil => cases h
  | cons p r ih =>
    obtain ⟨k', v'⟩ := p
    by_cases hk : k' = k
    · subst hk
      rw [dictGet, if_pos rfl] at h
      cases h
      simp [dictSet]
    · rw [dictGet, if_neg hk] at h
      simp [dictSet, hk, ih h]

theorem dictSet_again {r : List (String × PyVal)} {k : String} {u : PyVal} (h : dictGet r k = some u) : dictSet r k u = r := by
  induction r with
  | nil => cases h
  | cons p r ih =>
    obtain ⟨k', v'⟩ := p
    by_cases hk : k' = k
    · subst hk
      rw [dictGet, if_pos rfl] at h
      cases h
      simp [dictSet]
    · rw [dictGet, if_neg hk] at h
      simp [dictSet, hk, ih h]

theorem schemaItems_unset {items : List (String × Bool × SchemaFn)} {k : String} {v : PyVal} : ∀ {d w : List (String × PyVal)}, schemaItems items (dictSet d k v) = .ok w → dictGet d k = none →
    ∃ r, schemaItems items d = .ok r
  | [], _, _, _ => ⟨[], rfl⟩
  | (k', v') :: d, w, h, hk => by
    by_cases hkk : k' = k
    · rw [dictGet, if_pos hkk] at hk
      cases hk
    rw [dictGet, if_neg hkk] at hk
    simp only [dictSet, if_neg hkk, schemaItems] at h
    simp only [schemaItems]
    rcases e : schemaLookup items k' with _ | s'
    · rw [e] at h
      cases h
    rw [e] at h
    simp only at h ⊢
    obtain ⟨w', h1, h⟩ := bind_ok_inv h
    obtain ⟨r', h2, rfl⟩ := map_ok_inv h
    obtain ⟨r, hr⟩ := schemaItems_unset h2 hk
    exact ⟨(k', w') :: r, by rw [h1, hr]; rfl⟩

/-- An optional entry may be left out. -/
theorem schemaDict_unset {items : List (String × Bool × SchemaFn)} {d : List (String × PyVal)} {k : String} {v w : PyVal} (h : schemaDict items (.dict (dictSet d k v)) = .ok w)
    (hk : dictGet d k = none) (ho : ∀ it ∈ items, it.1 = k → it.2.1 = true) : ∃ r, schemaDict items (.dict d) = .ok (.dict r) := by
  unfold schemaDict at h ⊢
  simp only at h ⊢
  obtain ⟨r', h1, h2⟩ := bind_ok_inv h
  split_ifs at h2 with hall
  obtain ⟨r, hr⟩ := schemaItems_unset h1 hk
  refine ⟨r, ?_⟩
  rw [hr]
  simp only [Except.bind]
  rw [if_pos]
  rw [List.all_eq_true] at hall ⊢
  intro it hit
  by_cases hit' : it.1 = k
  · rw [ho it hit hit', Bool.true_or]
  · have := hall it hit
    rwa [dictGet_set, if_neg (Ne.symm hit')] at this

theorem back_name {r : List (String × PyVal)} {s s' : String} (hs : dictGet r "name" = some (.str s')) : RangeStep (.dict (dictSet r "name" (.str s))) (.dict r) :=
  (rangeStep_name r s).back fun w' hw' => by
    obtain ⟨rv, -, -, h1⟩ := schemaDict_set hw'
    have := h1 "name" schemaStr (.str s') (.str s') (by simp [schemaLookup]) rfl
    rw [dictSet_back hs] at this
    exact ⟨_, this⟩

theorem back_search {r f : List (String × PyVal)} {k : String} {v : PyVal} (hf : dictGet r "ffa_search" = some (.dict f)) (hk : dictGet f k = none) (hv : (k, v) ∈ searchDefaults) :
    RangeStep (.dict (dictSet r "ffa_search" (.dict (dictSet f k v)))) (.dict r) :=
  (rangeStep_search hf hk hv).back fun w' hw' => by
    obtain ⟨rv, -, h0, h1⟩ := schemaDict_set hw'
    rcases (schemaItems_inv h0).2 "ffa_search" with ⟨g, -⟩ | ⟨a, s, b, g1, g2, g3, g4⟩
    · rw [dictGet_set, if_pos rfl] at g
      cases g
    rw [dictGet_set, if_pos rfl] at g1
    cases g1
    simp [schemaLookup] at g2
    subst g2
    obtain ⟨fv, hfv⟩ : ∃ fv, ffaSearchSchema (.dict f) = .ok (.dict fv) := schemaDict_unset g3 hk (by
      simp only [searchDefaults, List.mem_cons, Prod.mk.injEq, List.not_mem_nil, or_false] at hv
      rcases hv with ⟨rfl, rfl⟩ | ⟨rfl, rfl⟩ | ⟨rfl, rfl⟩ <;> simp)
    have := h1 "ffa_search" ffaSearchSchema (.dict f) (.dict fv) (by simp [schemaLookup]) hfv
    rw [dictSet_back hf] at this
    exact ⟨_, this⟩

theorem back_peaks {r f : List (String × PyVal)} {k : String} {v : PyVal} (hf : dictGet r "find_peaks" = some (.dict f)) (hk : dictGet f k = none) (hv : (k, v) ∈ peaksDefaults) :
    RangeStep (.dict (dictSet r "find_peaks" (.dict (dictSet f k v)))) (.dict r) :=
  (rangeStep_peaks hf hk hv).back fun w' hw' => by
    obtain ⟨rv, -, h0, h1⟩ := schemaDict_set hw'
    rcases (schemaItems_inv h0).2 "find_peaks" with ⟨g, -⟩ | ⟨a, s, b, g1, g2, g3, g4⟩
    · rw [dictGet_set, if_pos rfl] at g
      cases g
    rw [dictGet_set, if_pos rfl] at g1
    cases g1
    simp [schemaLookup] at g2
    subst g2
    obtain ⟨fv, hfv⟩ : ∃ fv, findPeaksSchema (.dict f) = .ok (.dict fv) := schemaDict_unset g3 hk (by
      simp only [peaksDefaults, List.mem_cons, Prod.mk.injEq, List.not_mem_nil, or_false] at hv
      rcases hv with ⟨rfl, rfl⟩ | ⟨rfl, rfl⟩ | ⟨rfl, rfl⟩ | ⟨rfl, rfl⟩ | ⟨rfl, rfl⟩ <;> simp)
    have := h1 "find_peaks" findPeaksSchema (.dict f) (.dict fv) (by simp [schemaLookup]) hfv
    rw [dictSet_back hf] at this
    exact ⟨_, this⟩

theorem RangeStep.trans {u v w : PyVal} (h : RangeStep u v) (h' : RangeStep v w) : RangeStep u w := by
  intro y hy
  obtain ⟨y', h1, h2, h3⟩ := h y hy
  obtain ⟨y'', h4, h5, h6⟩ := h' y' h1
  exact ⟨y'', h4, h5.trans h2, h6.trans h3⟩

/-- **C141.** Of two such ranges either both are valid or none, and they stand for the same arguments of `ffa_search`, `find_peaks` and of the construction of candidates. -/
theorem C141_range {x x' : PyVal} (h : SameRange x x') : RangeStep x x' ∧ RangeStep x' x := by
  induction h with
  | order v w h => exact ⟨rangeStep_order h, rangeStep_order h.symm⟩
  | name r s s' hs => exact ⟨rangeStep_name r s, back_name hs⟩
  | search r f k v hf hk hv => exact ⟨rangeStep_search hf hk hv, back_search hf hk hv⟩
  | peaks r f k v hf hk hv => exact ⟨rangeStep_peaks hf hk hv, back_peaks hf hk hv⟩
  | symm v w _ ih => exact ih.symm
  | trans u v w _ _ ih ih' => exact ⟨ih.1.trans ih'.1, ih'.2.trans ih.2⟩

/-! ## The configuration -/

theorem schemaElements_same {l l' : List PyVal} (h : List.Forall₂ SameRange l l') : ∀ {w}, schemaElements searchRangeSchema l = .ok w →
    ∃ w', schemaElements searchRangeSchema l' = .ok w' ∧ w'.mapM searchRangeOf = w.mapM searchRangeOf ∧ w'.mapM pipeRangeOf = w.mapM pipeRangeOf := by
  induction h with
  | nil => exact fun {w} h => ⟨w, h, rfl, rfl⟩
  | cons hx _ ih =>
    intro w hw
    unfold schemaElements at hw
    obtain ⟨u, h1, hw⟩ := bind_ok_inv hw
    obtain ⟨us, h2, rfl⟩ := map_ok_inv hw
    obtain ⟨u', k1, k2, k3⟩ := (C141_range hx).1 u h1
    obtain ⟨us', k4, k5, k6⟩ := ih h2
    refine ⟨u' :: us', ?_, ?_, ?_⟩
    · unfold schemaElements
      rw [k1]
      simp only [Except.bind]
      rw [k4]
      rfl
    · rw [List.mapM_cons, List.mapM_cons, k2, k5]
    · rw [List.mapM_cons, List.mapM_cons, k3, k6]

/-- The configuration with such ranges is valid as well, and a run takes the same values from it. -/
theorem validate_ranges_same {d : List (String × PyVal)} {l l' : List PyVal} (hl : dictGet d "ranges" = some (.list l)) (h : List.Forall₂ SameRange l l') {v : PyVal}
    (hv : validatePipelineConfig (.dict d) = .ok v) :
    ∃ v', validatePipelineConfig (.dict (dictSet d "ranges" (.list l'))) = .ok v' ∧ runConfOf v' = runConfOf v ∧
      ∃ r u, v = .dict r ∧ v' = .dict (dictSet r "ranges" u) := by
  unfold validatePipelineConfig at hv ⊢
  rcases e : pipelineConfigSchema (.dict d) with er | w
  · rw [e] at hv
    cases hv
  rw [e] at hv
  cases hv
  obtain ⟨r, rfl, h1, h2⟩ := schemaDict_set e
  rcases (schemaItems_inv h1).2 "ranges" with ⟨g, -⟩ | ⟨a, s, b, g1, g2, g3, g4⟩
  · rw [hl] at g
    cases g
  rw [hl] at g1
  cases g1
  simp [schemaLookup] at g2
  subst g2
  unfold schemaList at g3
  obtain ⟨w, k1, rfl⟩ := map_ok_inv g3
  obtain ⟨w', k2, k3, k4⟩ := schemaElements_same h k1
  have h3 : pipelineConfigSchema (.dict (dictSet d "ranges" (.list l'))) = .ok (.dict (dictSet r "ranges" (.list w'))) :=
    h2 "ranges" (schemaList searchRangeSchema) (.list l') (.list w') (by simp [schemaLookup]) (by
      unfold schemaList
      simp only
      rw [k2]
      rfl)
  rw [h3]
  refine ⟨_, rfl, ?_, r, _, rfl, rfl⟩
  have e1 : required pyList (dictSet r "ranges" (.list w')) "ranges" = .ok w' := by
    unfold required
    rw [dictGet_set, if_pos rfl]
    rfl
  have e2 : required pyList r "ranges" = .ok w := by
    unfold required
    rw [g4]
    rfl
  have hp : prepConfOf (.dict (dictSet r "ranges" (.list w'))) = prepConfOf (.dict r) := by
    unfold prepConfOf
    simp only [pyDict, Except.bind]
    rw [required_set _ (by decide), required_set _ (by decide), e1, e2]
    simp only
    rw [k3]
  unfold runConfOf
  rw [hp]
  simp only [pyDict, Except.bind]
  rw [e1, e2, required_set _ (by decide), required_set _ (by decide), required_set _ (by decide), required_set _ (by decide), required_set _ (by decide)]
  simp only
  rw [k4]

/-- **C141.** A run of the pipeline that ends normally ends in the same state with other names of the search ranges, and with entries given with their default value. -/
theorem C141_run {t : PipeTools} {d : List (String × PyVal)} {l l' : List PyVal} (hl : dictGet d "ranges" = some (.list l)) (h : List.Forall₂ SameRange l l') {ms : List FileMeta}
    {s : PoolSchedule} {st : PipeState ℝ (CandObj ℝ)} (hr : pipelineRun t (.dict d) ms s = .ok st) : pipelineRun t (.dict (dictSet d "ranges" (.list l'))) ms s = .ok st := by
  unfold pipelineRun at hr ⊢
  obtain ⟨v, hv, hr⟩ := bind_ok_inv hr
  obtain ⟨v', h1, h2, -⟩ := validate_ranges_same hl h hv
  rw [h1]
  simp only [Except.bind]
  rw [h2]
  exact hr

theorem sameRange_flip {l l' : List PyVal} (h : List.Forall₂ SameRange l l') : List.Forall₂ SameRange l' l := by
  induction h with
  | nil => exact .nil
  | cons hx _ ih => exact .cons (.symm _ _ hx) ih

theorem files_ranges {D : Disk} {t : PipeTools} {d : List (String × PyVal)} {l l' : List PyVal} (hl : dictGet d "ranges" = some (.list l)) (h : List.Forall₂ SameRange l l')
    {files : List (List Char)} {s : PoolSchedule} {st : PipeState ℝ (CandObj ℝ)} (hr : pipelineFiles D t (.dict d) files s = .ok st) :
    pipelineFiles D t (.dict (dictSet d "ranges" (.list l'))) files s = .ok st := by
  unfold pipelineFiles at hr ⊢
  obtain ⟨v, hv, hr⟩ := bind_ok_inv hr
  obtain ⟨c, hc, hr⟩ := bind_ok_inv hr
  obtain ⟨ms, hm, hr⟩ := bind_ok_inv hr
  obtain ⟨v', h1, h2, -⟩ := validate_ranges_same hl h hv
  rw [h1]
  simp only [Except.bind]
  rw [h2, hc]
  simp only
  rw [hm]
  exact C141_run hl h hr

/-- C141, with the files that are read, and in both directions. -/
theorem C141_files {D : Disk} {t : PipeTools} {d : List (String × PyVal)} {l l' : List PyVal} (hl : dictGet d "ranges" = some (.list l)) (h : List.Forall₂ SameRange l l')
    {files : List (List Char)} {s : PoolSchedule} {st : PipeState ℝ (CandObj ℝ)} :
    pipelineFiles D t (.dict (dictSet d "ranges" (.list l'))) files s = .ok st ↔ pipelineFiles D t (.dict d) files s = .ok st := by
  refine ⟨fun hr => ?_, files_ranges hl h⟩
  have := files_ranges (d := dictSet d "ranges" (.list l')) (l := l') (l' := l) (by rw [dictGet_set, if_pos rfl]) (sameRange_flip h) hr
  rwa [dictSet_back hl] at this

theorem saveConf_ranges {d : List (String × PyVal)} {l l' : List PyVal} (hl : dictGet d "ranges" = some (.list l)) (h : List.Forall₂ SameRange l l') {c : ℕ × Bool}
    (hc : saveConfOf (.dict d) = .ok c) : saveConfOf (.dict (dictSet d "ranges" (.list l'))) = .ok c := by
  unfold saveConfOf at hc ⊢
  obtain ⟨v, hv, hc⟩ := bind_ok_inv hc
  obtain ⟨v', h1, -, r, u, rfl, rfl⟩ := validate_ranges_same hl h hv
  rw [h1]
  simp only [pyDict, Except.bind] at hc ⊢
  rw [required_set _ (by decide), required_set _ (by decide)]
  exact hc

/-- **C141.** A run of `rffa` that ends normally also does so with other names of the search ranges, and with entries given with their default value, and it overwrites the same files with the same
content, except for the log. -/
theorem C141_rffa {H : Host} (hi : ∀ p, H.realpath (H.realpath p) = H.realpath p) {t : PipeTools} {o : CandOutput} {s : PoolSchedule} {a : RffaArgs} {config : List Char}
    (hc : a.config = some config) (hl : ∀ l, a.log = some l → LogNotRead H config a.files l ∧ LogNotProduct H (a.outdir.getD H.cwd) l) (hinj : JoinsApart H (a.outdir.getD H.cwd))
    {F F' G G' : Files} {out' : RffaEnd} {d : List (String × PyVal)} {l l' : List PyVal} (hr : dictGet d "ranges" = some (.list l)) (hs : List.Forall₂ SameRange l l')
    (hF : readConfig H F config = .ok (.dict d)) (hG : readConfig H G config = .ok (.dict (dictSet d "ranges" (.list l')))) (hfile : ∀ f ∈ a.files, F (H.realpath f) = G (H.realpath f))
    (hdata : ∀ f ∈ a.files, F (H.realpath (dataFname (H.realpath f))) = G (H.realpath (dataFname (H.realpath f))))
    (h : RffaRuns H t o s a F F' .done) (h' : RffaRuns H t o s a G G' out') :
    out' = .done ∧ ∃ W, Written W ∧
      ∀ p, (∀ l, a.log = some l → p ≠ H.realpath l) → F' p = F.putAll H (a.outdir.getD H.cwd) W p ∧ G' p = G.putAll H (a.outdir.getD H.cwd) W p :=
  rffa_done_congr hi hc hl hinj hF hG hfile hdata (fun _ => files_ranges hr hs) (fun n _ hn => ⟨n, saveConf_ranges hr hs hn⟩) h h'

/-! ## An example -/

theorem sameEntries_perm {d d' : List (String × PyVal)} (h : d.Perm d') (hn : (d.map Prod.fst).Nodup) : SameEntries (.dict d) (.dict d') :=
  .dict d d' hn ((h.map Prod.fst).nodup_iff.mp hn) (fun k => by rw [dictGet_perm h hn]) fun k n n' h1 h2 => by
    rw [dictGet_perm h hn, h2] at h1
    cases h1
    exact .refl _

theorem sameEntries_set {d : List (String × PyVal)} {k : String} {v w : PyVal} (hn : (d.map Prod.fst).Nodup) (h : SameEntries v w) :
    SameEntries (.dict (dictSet d k v)) (.dict (dictSet d k w)) :=
  .dict _ _ (dictSet_nodup hn) (dictSet_nodup hn) (fun k' => by rw [dictGet_set, dictGet_set]; split_ifs <;> rfl) fun k' n n' h1 h2 => by
    rw [dictGet_set] at h1 h2
    split_ifs at h1 h2 with hk
    · cases h1
      cases h2
      exact h
    · rw [h1] at h2
      cases h2
      exact .refl _

/-- The section `ffa_search` of the configuration of C118 without `fpmin: 8` and `wtsp: 1.5`. -/
def shortSearch : List (String × PyVal) :=
  [("period_min", .float (.fin 32)), ("period_max", .float (.fin 34)), ("bins_min", .int 32), ("bins_max", .int 33), ("ducy_max", .float (.fin (3 / 10)))]

/-- The range with that section, and with the name "x". -/
def shortRange : List (String × PyVal) := dictSet (dictSet pulsarRangeDict "ffa_search" (.dict shortSearch)) "name" (.str "x")

theorem shortRange_same : SameRange (.dict pulsarRangeDict) (.dict shortRange) := by
  have h1 : SameRange (.dict shortRange) (.dict (dictSet shortRange "name" (.str "long"))) := .name _ _ "x" (by with_unfolding_all rfl)
  have h2 := SameRange.search (dictSet shortRange "name" (.str "long")) shortSearch "fpmin" (.int 8) (by with_unfolding_all rfl) (by with_unfolding_all rfl) (by simp [searchDefaults])
  have h3 := SameRange.search (dictSet (dictSet shortRange "name" (.str "long")) "ffa_search" (.dict (dictSet shortSearch "fpmin" (.int 8)))) (dictSet shortSearch "fpmin" (.int 8)) "wtsp"
    (.float (.fin (3 / 2))) (by with_unfolding_all rfl) (by with_unfolding_all rfl) (by simp [searchDefaults])
  refine .symm _ _ (.trans _ _ _ h1 (.trans _ _ _ h2 (.trans _ _ _ h3 (.order _ _ ?_))))
  have e : ∃ f, dictGet pulsarRangeDict "ffa_search" = some (.dict f) ∧ (dictSet (dictSet shortSearch "fpmin" (.int 8)) "wtsp" (.float (.fin (3 / 2)))).Perm f :=
    ⟨[("period_min", .float (.fin 32)), ("period_max", .float (.fin 34)), ("bins_min", .int 32), ("bins_max", .int 33), ("fpmin", .int 8), ("wtsp", .float (.fin (3 / 2))),
      ("ducy_max", .float (.fin (3 / 10)))], by with_unfolding_all rfl, by
        refine .cons _ (.cons _ (.cons _ (.cons _ ?_)))
        exact ((List.Perm.swap _ _ _).trans (.cons _ (.swap _ _ _)))⟩
  obtain ⟨f, e1, e2⟩ := e
  have e3 : SameEntries (.dict (dictSet pulsarRangeDict "ffa_search" (.dict (dictSet (dictSet shortSearch "fpmin" (.int 8)) "wtsp" (.float (.fin (3 / 2)))))))
      (.dict (dictSet pulsarRangeDict "ffa_search" (.dict f))) := sameEntries_set (by decide +kernel) (sameEntries_perm e2 (by decide +kernel))
  have e4 : dictSet pulsarRangeDict "ffa_search" (.dict f) = pulsarRangeDict := dictSet_again e1
  rw [e4] at e3
  exact e3

/-- The configuration file with that range. -/
def shortNode : YamlNode :=
  match pulsarNode with
  | .map l => .map (l.map fun p => if p.1 = "ranges" then ("ranges", .seq [.map [("name", .quoted ['x']),
    ("ffa_search", .map [("period_min", .plain ['3', '2', '.', '0']), ("period_max", .plain ['3', '4', '.', '0']), ("bins_min", .plain ['3', '2']), ("bins_max", .plain ['3', '3']),
      ("ducy_max", .plain ['0', '.', '3'])]),
    ("find_peaks", .map [("smin", .plain ['7', '.', '0']), ("segwidth", .plain ['5', '.', '0']), ("nstd", .plain ['6', '.', '0']), ("minseg", .plain ['1', '0']),
      ("clrad", .plain ['0', '.', '2'])]),
    ("candidates", .map [("bins", .plain ['1', '6']), ("subints", .plain ['4'])])]]) else p)
  | n => n

theorem shortNode_dict : shortNode.construct = .ok (.dict (dictSet pulsarItems "ranges" (.list [.dict shortRange]))) := by with_unfolding_all rfl

/-- The hypotheses of `C141_files` are met: the run of C118 ends in the same state with this configuration. -/
theorem C141_example : ∃ st, pipelineFiles (diskOf pulsarHost pulsarFiles) pulsarTools (.dict pulsarItems) ["a.inf".toList] ⟨fun _ => 1, fun _ => [0]⟩ = .ok st ∧
    pipelineFiles (diskOf pulsarHost pulsarFiles) pulsarTools (.dict (dictSet pulsarItems "ranges" (.list [.dict shortRange]))) ["a.inf".toList] ⟨fun _ => 1, fun _ => [0]⟩ = .ok st := by
  obtain ⟨st, d', hst, -⟩ := C104_example ⟨fun _ => [], none⟩ fun _ => none
  have hst' : pipelineFiles (diskOf pulsarHost pulsarFiles) pulsarTools (.dict pulsarItems) ["a.inf".toList] ⟨fun _ => 1, fun _ => [0]⟩ = .ok st := by
    rw [← pulsarItems_dict]
    exact (pulsarFiles_disk _).trans hst
  have hl : dictGet pulsarItems "ranges" = some (.list [.dict pulsarRangeDict]) := by with_unfolding_all rfl
  exact ⟨st, hst', (C141_files hl (.cons shortRange_same .nil)).mpr hst'⟩

end Verif.Props
