import Verif.Model.Saving
import Verif.Props.Products

/-!
# Saving candidates with plots that may fail (C105)
-/

namespace Verif.Props

open Verif.Model Verif.Lemmas Verif.Spec

/-! ## Batches -/

theorem chunkLoop_take {β : Type*} (c : ℕ) (hc : 1 ≤ c) : ∀ (l chunk : List β), chunk.length < c → chunk ++ l ≠ [] →
    chunkLoop c l chunk = (chunk ++ l.take (c - chunk.length)) :: chunkLoop c (l.drop (c - chunk.length)) [] := by
  intro l
  induction l with
  | nil =>
    intro chunk hlt hne
    rw [chunkLoop]
    rw [if_neg (by simpa using hne)]
    simp [chunkLoop]
  | cons a l ih =>
    intro chunk hlt hne
    rw [chunkLoop]
    have hl : (chunk ++ [a]).length = chunk.length + 1 := by simp
    obtain ⟨k, hk⟩ : ∃ k, c - chunk.length = k + 1 := ⟨c - chunk.length - 1, by omega⟩
    split_ifs with h
    · have : k = 0 := by omega
      rw [hk, this]
      simp
    · rw [ih (chunk ++ [a]) (by omega) (by simp), hl, hk]
      have : c - (chunk.length + 1) = k := by omega
      rw [this]
      simp

theorem batches_cons {β : Type*} {c : ℕ} (hc : 1 ≤ c) {l : List β} (h : l ≠ []) : batches c l = l.take c :: batches c (l.drop c) := by
  unfold batches
  have := chunkLoop_take c hc l [] (by rw [List.length_nil]; omega) (by simpa using h)
  simpa using this

theorem batches_nil {β : Type*} (c : ℕ) : batches c ([] : List β) = [] := by simp [batches, chunkLoop]

theorem mem_batchRun {β ω : Type*} (w : β → List ω × Option PyErr) (f : ω) : ∀ l : List β,
    f ∈ (batchRun w l).1 ↔ ∃ (i : ℕ) (x : β), l[i]? = some x ∧ f ∈ (w x).1 ∧ ∀ j < i, ∀ y, l[j]? = some y → (w y).2 = none := by
  intro l
  induction l with
  | nil => simp [batchRun]
  | cons a l ih =>
    rw [batchRun]
    have base : f ∈ (w a).1 → ∃ (i : ℕ) (x : β), (a :: l)[i]? = some x ∧ f ∈ (w x).1 ∧ ∀ j < i, ∀ y, (a :: l)[j]? = some y → (w y).2 = none :=
      fun h => ⟨0, a, rfl, h, fun j hj => absurd hj (Nat.not_lt_zero _)⟩
    cases ha : (w a).2 with
    | some e =>
      refine ⟨base, ?_⟩
      rintro ⟨i, x, hx, hf, hall⟩
      cases i with
      | zero => cases hx; exact hf
      | succ i =>
        have := hall 0 (Nat.succ_pos _) a rfl
        rw [ha] at this
        cases this
    | none =>
      simp only [List.mem_append, ih]
      constructor
      · rintro (h | ⟨i, x, hx, hf, hall⟩)
        · exact base h
        · refine ⟨i + 1, x, by simpa using hx, hf, ?_⟩
          intro j hj y hy
          cases j with
          | zero => cases hy; exact ha
          | succ j => exact hall j (by omega) y (by simpa using hy)
      · rintro ⟨i, x, hx, hf, hall⟩
        cases i with
        | zero => cases hx; exact .inl hf
        | succ i => exact .inr ⟨i, x, by simpa using hx, hf, fun j hj y hy => hall (j + 1) (by omega) y (by simpa using hy)⟩

theorem batchRun_ok {β ω : Type*} (w : β → List ω × Option PyErr) : ∀ l : List β, (batchRun w l).2 = none ↔ ∀ x ∈ l, (w x).2 = none := by
  intro l
  induction l with
  | nil => simp [batchRun]
  | cons a l ih =>
    rw [batchRun]
    cases ha : (w a).2 with
    | some e => simp [ha]
    | none => simp [ha, ih]

theorem batchRun_error {β ω : Type*} (w : β → List ω × Option PyErr) (e : PyErr) : ∀ l : List β, (batchRun w l).2 = some e → ∃ x ∈ l, (w x).2 = some e := by
  intro l
  induction l with
  | nil => simp [batchRun]
  | cons a l ih =>
    rw [batchRun]
    cases ha : (w a).2 with
    | some e' => intro h; exact ⟨a, List.mem_cons_self, by rw [ha]; exact h⟩
    | none => intro h; obtain ⟨x, hx, h⟩ := ih h; exact ⟨x, List.mem_cons_of_mem _ hx, h⟩

theorem batchRun_sublist {β ω : Type*} (w : β → List ω × Option PyErr) : ∀ l : List β, (batchRun w l).1.Sublist (l.map fun x => (w x).1).flatten := by
  intro l
  induction l with
  | nil => simp [batchRun]
  | cons a l ih =>
    rw [batchRun]
    cases ha : (w a).2 with
    | some e => simp
    | none => simpa using ih

/-- What the batches write. -/
theorem mem_runs {β ω : Type*} (w : β → List ω × Option PyErr) (f : ω) {c : ℕ} (hc : 1 ≤ c) : ∀ (n : ℕ) (l : List β), l.length = n →
    (f ∈ (((batches c l).map (batchRun w)).map Prod.fst).flatten ↔
      ∃ (r : ℕ) (x : β), l[r]? = some x ∧ f ∈ (w x).1 ∧ ∀ q, r / c * c ≤ q → q < r → ∀ y, l[q]? = some y → (w y).2 = none) := by
  intro n
  induction n using Nat.strong_induction_on with
  | _ n ih =>
    intro l hl
    by_cases hne : l = []
    · subst hne
      simp [batches_nil]
    · rw [batches_cons hc hne]
      simp only [List.map_cons, List.flatten_cons, List.mem_append, mem_batchRun]
      have hpos : 0 < l.length := List.length_pos_iff.mpr hne
      rw [ih (l.drop c).length (by rw [List.length_drop]; omega) (l.drop c) rfl]
      constructor
      · rintro (⟨i, x, hx, hf, hall⟩ | ⟨r, x, hx, hf, hall⟩)
        · have hi : i < c := by
            by_contra h
            rw [List.getElem?_take, if_neg (by omega)] at hx
            cases hx
          rw [List.getElem?_take_of_lt hi] at hx
          refine ⟨i, x, hx, hf, fun q _ hq y hy => hall q hq y ?_⟩
          rw [List.getElem?_take_of_lt (by omega)]
          exact hy
        · rw [List.getElem?_drop] at hx
          refine ⟨c + r, x, hx, hf, ?_⟩
          intro q hq1 hq2 y hy
          have e1 : (c + r) / c = r / c + 1 := by rw [Nat.add_div_left _ (by omega)]
          rw [e1, Nat.add_mul, Nat.one_mul] at hq1
          refine hall (q - c) (by omega) (by omega) y ?_
          rw [List.getElem?_drop]
          rw [show c + (q - c) = q by omega]
          exact hy
      · rintro ⟨r, x, hx, hf, hall⟩
        by_cases hr : r < c
        · left
          refine ⟨r, x, by rw [List.getElem?_take_of_lt hr]; exact hx, hf, ?_⟩
          intro q hq y hy
          rw [List.getElem?_take_of_lt (by omega)] at hy
          exact hall q (by rw [Nat.div_eq_of_lt hr]; omega) hq y hy
        · right
          refine ⟨r - c, x, ?_, hf, ?_⟩
          · rw [List.getElem?_drop, show c + (r - c) = r by omega]; exact hx
          · intro q hq1 hq2 y hy
            rw [List.getElem?_drop] at hy
            refine hall (c + q) ?_ (by omega) y hy
            have e1 : r / c = (r - c) / c + 1 := by
              conv_lhs => rw [show r = c + (r - c) by omega]
              rw [Nat.add_div_left _ (by omega)]
            rw [e1, Nat.add_mul, Nat.one_mul]
            omega

theorem runs_flatten {β : Type*} {c : ℕ} (hc : 1 ≤ c) (l : List β) : (batches c l).flatten = l := by
  unfold batches
  simpa using (chunkLoop_spec c hc l [] (by rw [List.length_nil]; omega)).1

theorem runs_ok {β ω : Type*} (w : β → List ω × Option PyErr) {c : ℕ} (hc : 1 ≤ c) (l : List β) :
    (∀ r ∈ (batches c l).map (batchRun w), r.2 = none) ↔ ∀ x ∈ l, (w x).2 = none := by
  conv_rhs => rw [← runs_flatten hc l]
  simp only [List.mem_map, forall_exists_index, and_imp, forall_apply_eq_imp_iff₂, batchRun_ok, List.mem_flatten]
  exact ⟨fun h x b hb hx => h b hb x hx, fun h b hb x hx => h x b hb hx⟩

theorem runs_error {β ω : Type*} (w : β → List ω × Option PyErr) {c : ℕ} (hc : 1 ≤ c) (l : List β) {e : PyErr}
    (h : ∃ r ∈ (batches c l).map (batchRun w), r.2 = some e) : ∃ x ∈ l, (w x).2 = some e := by
  obtain ⟨r, hr, he⟩ := h
  obtain ⟨b, hb, rfl⟩ := List.mem_map.mp hr
  obtain ⟨x, hx, h⟩ := batchRun_error w e b he
  refine ⟨x, ?_, h⟩
  rw [← runs_flatten hc l]
  exact List.mem_flatten.mpr ⟨b, hb, hx⟩

theorem runs_sublist {β ω : Type*} (w : β → List ω × Option PyErr) {c : ℕ} (hc : 1 ≤ c) (l : List β) :
    (((batches c l).map (batchRun w)).map Prod.fst).flatten.Sublist (l.map fun x => (w x).1).flatten := by
  have key : ∀ bs : List (List β), ((bs.map (batchRun w)).map Prod.fst).flatten.Sublist (bs.flatten.map fun x => (w x).1).flatten := by
    intro bs
    induction bs with
    | nil => simp
    | cons b bs ih =>
      simp only [List.map_cons, List.flatten_cons, List.map_append, List.flatten_append]
      exact (batchRun_sublist w b).append ih
  have := key (batches c l)
  rwa [runs_flatten hc l] at this

theorem mapChunk_pos {n p : ℕ} (hn : 0 < n) : 1 ≤ mapChunk n p := by
  unfold mapChunk
  split_ifs with h
  · by_cases hp : p * 4 = 0
    · rw [hp, Nat.mod_zero] at h
      omega
    · have hd := Nat.div_add_mod n (p * 4)
      have : n / (p * 4) ≠ 0 := by
        intro h0
        rw [h0, h, Nat.mul_zero] at hd
        omega
      exact Nat.one_le_iff_ne_zero.mpr this
  · exact Nat.le_add_left _ _

theorem mapChunk_le_one {n p : ℕ} (h : n ≤ 4 * p) : mapChunk n p ≤ 1 := by
  unfold mapChunk
  rcases Nat.lt_or_ge n (p * 4) with hlt | hge
  · rw [Nat.div_eq_of_lt hlt]
    split_ifs <;> omega
  · have : n = p * 4 := by omega
    rw [this, Nat.mod_self, if_pos rfl]
    by_cases hp : p * 4 = 0
    · rw [hp]; simp
    · rw [Nat.div_self (by omega)]

/-! ## The directory -/

theorem flatten_map_sublist {β ω : Type*} {f g : β → List ω} (h : ∀ x, (f x).Sublist (g x)) : ∀ l : List β,
    (l.map f).flatten.Sublist (l.map g).flatten := by
  intro l
  induction l with
  | nil => simp
  | cons a l ih =>
    simp only [List.map_cons, List.flatten_cons]
    exact (h a).append ih

/-- The files that would be written if no plot failed. -/
def fullCoding (json : PCandidate ℝ (CandObj ℝ) → List Char) (plot : Option (PCandidate ℝ (CandObj ℝ) → Except PyErr (List Char))) : CandCoding :=
  ⟨json, plot.map fun f x => match f x with
    | .ok image => image
    | .error _ => []⟩

theorem writerCall_sublist (json : PCandidate ℝ (CandObj ℝ) → List Char) (plot : Option (PCandidate ℝ (CandObj ℝ) → Except PyErr (List Char)))
    (x : PCandidate ℝ (CandObj ℝ) × ℕ) : (writerCall json plot x).1.Sublist (candidateFiles (fullCoding json plot) x.2 x.1) := by
  unfold writerCall candidateFiles fullCoding
  cases plot with
  | none => simp
  | some f => cases h : f x.1 <;> simp [h]

theorem written_sublist (json : PCandidate ℝ (CandObj ℝ) → List Char) (plot : Option (PCandidate ℝ (CandObj ℝ) → Except PyErr (List Char)))
    (processes : ℕ) (st : PipeState ℝ (CandObj ℝ)) :
    ((writerRuns json plot processes st.candidates).map Prod.fst).flatten.Sublist (allCandidateFiles (fullCoding json plot) st) := by
  by_cases hn : st.candidates = []
  · simp [hn, writerRuns, batches_nil]
  · refine (runs_sublist _ (mapChunk_pos (List.length_pos_iff.mpr hn)) _).trans ?_
    unfold allCandidateFiles
    rw [List.mapIdx_eq_zipIdx_map]
    exact flatten_map_sublist (writerCall_sublist json plot) _

theorem written_nodup {json : PCandidate ℝ (CandObj ℝ) → List Char} {plot : Option (PCandidate ℝ (CandObj ℝ) → Except PyErr (List Char))}
    {processes : ℕ} {st : PipeState ℝ (CandObj ℝ)} {tables order : List (List Char × List Char)} (h : tableFiles st = .ok tables)
    (ho : order.Perm ((writerRuns json plot processes st.candidates).map Prod.fst).flatten) : ((tables ++ order).map Prod.fst).Nodup := by
  have h1 := savedNames_nodup (e := fullCoding json plot) h (List.Perm.refl _)
  have h2 := ((List.Sublist.refl tables).append (written_sublist json plot processes st)).map Prod.fst
  exact (((ho.append_left tables).map Prod.fst).nodup_iff).mpr (h2.nodup h1)

theorem writerCall_ok {json : PCandidate ℝ (CandObj ℝ) → List Char} {plot : PCandidate ℝ (CandObj ℝ) → Except PyErr (List Char)}
    {x : PCandidate ℝ (CandObj ℝ) × ℕ} : (writerCall json (some plot) x).2 = none ↔ ∃ image, plot x.1 = .ok image := by
  unfold writerCall
  cases h : plot x.1 <;> simp [h]

theorem writerCall_error {json : PCandidate ℝ (CandObj ℝ) → List Char} {plot : PCandidate ℝ (CandObj ℝ) → Except PyErr (List Char)}
    {x : PCandidate ℝ (CandObj ℝ) × ℕ} {e : PyErr} : (writerCall json (some plot) x).2 = some e ↔ plot x.1 = .error e := by
  unfold writerCall
  cases h : plot x.1 <;> simp [h]

theorem mem_writerCall {json : PCandidate ℝ (CandObj ℝ) → List Char} {plot : PCandidate ℝ (CandObj ℝ) → Except PyErr (List Char)}
    {x : PCandidate ℝ (CandObj ℝ)} {r : ℕ} {f : List Char × List Char} : f ∈ (writerCall json (some plot) (x, r)).1 ↔
      f = (candidateFileName r ".json".toList, json x) ∨ ∃ image, plot x = .ok image ∧ f = (candidateFileName r ".png".toList, image) := by
  unfold writerCall
  cases h : plot x <;> simp [h]

/-- The candidates before number `r` in its batch can be plotted. -/
def Reached (plot : PCandidate ℝ (CandObj ℝ) → Except PyErr (List Char)) (size : ℕ) (cands : List (PCandidate ℝ (CandObj ℝ))) (r : ℕ) : Prop :=
  ∀ q y, r / size * size ≤ q → q < r → cands[q]? = some y → ∃ image, plot y = .ok image

/-- The files that are written for the candidates. -/
theorem mem_written {json : PCandidate ℝ (CandObj ℝ) → List Char} {plot : PCandidate ℝ (CandObj ℝ) → Except PyErr (List Char)} {processes : ℕ}
    {cands : List (PCandidate ℝ (CandObj ℝ))} {f : List Char × List Char} :
    f ∈ ((writerRuns json (some plot) processes cands).map Prod.fst).flatten ↔ ∃ r x, cands[r]? = some x ∧
      Reached plot (mapChunk cands.length processes) cands r ∧
      (f = (candidateFileName r ".json".toList, json x) ∨ ∃ image, plot x = .ok image ∧ f = (candidateFileName r ".png".toList, image)) := by
  by_cases hn : cands = []
  · simp [hn, writerRuns, batches_nil]
  · unfold writerRuns
    rw [mem_runs (writerCall json (some plot)) f (mapChunk_pos (List.length_pos_iff.mpr hn)) _ _ rfl]
    simp only [List.getElem?_zipIdx, Nat.zero_add, Option.map_eq_some_iff]
    constructor
    · rintro ⟨r, x, ⟨a, ha, rfl⟩, hf, hall⟩
      refine ⟨r, a, ha, ?_, mem_writerCall.mp hf⟩
      intro q y h1 h2 hy
      exact writerCall_ok.mp (hall q h1 h2 (y, q) ⟨y, hy, rfl⟩)
    · rintro ⟨r, x, hx, hr, hf⟩
      refine ⟨r, (x, r), ⟨x, hx, rfl⟩, mem_writerCall.mpr hf, ?_⟩
      rintro q h1 h2 _ ⟨a, ha, rfl⟩
      exact writerCall_ok.mpr (hr q a h1 h2 ha)

theorem mem_zipIdx_of {β : Type*} {l : List β} {x : β} (h : x ∈ l) : ∃ r, (x, r) ∈ l.zipIdx := by
  obtain ⟨r, hr, rfl⟩ := List.getElem_of_mem h
  exact ⟨r, List.mem_zipIdx_iff_getElem?.mpr (List.getElem?_eq_getElem hr)⟩

/-- **C105.** What is left in the directory if plots may fail: with batches of `size` consecutive candidates, the file of candidate number `r` is written
exactly if all candidates before it in its batch can be plotted, and its plot if it can be plotted as well. An exception is raised exactly
if some candidate cannot be plotted. The other files are those that are left without plots. -/
theorem C105_saved {json : PCandidate ℝ (CandObj ℝ) → List Char} {plot : PCandidate ℝ (CandObj ℝ) → Except PyErr (List Char)} {processes : ℕ}
    {st : PipeState ℝ (CandObj ℝ)} {d d' : OutDir} {res : Except PyErr Unit} (h : SavesPlots json (some plot) processes st d d' res)
    (hp : st.peaks ≠ []) :
    (∀ r x, st.candidates[r]? = some x →
      (Reached plot (mapChunk st.candidates.length processes) st.candidates r → d' (candidateFileName r ".json".toList) = some (json x) ∧
        ∀ image, plot x = .ok image → d' (candidateFileName r ".png".toList) = some image) ∧
      (¬ Reached plot (mapChunk st.candidates.length processes) st.candidates r →
        d' (candidateFileName r ".json".toList) = d (candidateFileName r ".json".toList)) ∧
      ((¬ Reached plot (mapChunk st.candidates.length processes) st.candidates r ∨ ∃ e, plot x = .error e) →
        d' (candidateFileName r ".png".toList) = d (candidateFileName r ".png".toList))) ∧
    ((∃ e, res = .error e) ↔ ∃ x ∈ st.candidates, ∃ e, plot x = .error e) ∧
    (∀ e, res = .error e → ∃ x ∈ st.candidates, plot x = .error e) ∧
    ∀ e d₀, SavesProducts e st d d₀ → ∀ name, (∀ r, name ≠ candidateFileName r ".json".toList ∧ name ≠ candidateFileName r ".png".toList) →
      d' name = d₀ name := by
  unfold SavesPlots at h
  rw [if_neg (by simpa using hp)] at h
  obtain ⟨tables, order, ht, ho, rfl, hres⟩ := h
  have hnd := written_nodup (json := json) ht ho
  have hw : (d.writeAll tables).writeAll order = d.writeAll (tables ++ order) := by
    unfold OutDir.writeAll
    rw [List.foldl_append]
  have hnames := tableFiles_names ht
  have table_ne : ∀ r ext, candidateFileName r ext ∉ tables.map Prod.fst := by
    intro r ext hm
    have ha' := hnames.subset hm
    have hne : (candidateFileName r ext).take 10 ≠ "candidate_".toList := by
      simp only [List.mem_cons, List.not_mem_nil, or_false] at ha'
      rcases ha' with h | h | h <;> rw [h] <;> decide +kernel
    exact hne (name_take r ext)
  have get : ∀ f ∈ order, (d.writeAll tables).writeAll order f.1 = some f.2 := fun f hf => by
    rw [hw]
    exact writeAll_mem _ _ hnd (List.mem_append_right _ hf)
  have other : ∀ r ext, (∀ f ∈ order, f.1 ≠ candidateFileName r ext) →
      (d.writeAll tables).writeAll order (candidateFileName r ext) = d (candidateFileName r ext) := by
    intro r ext hno
    rw [writeAll_other, writeAll_other _ _ (table_ne r ext)]
    intro hm
    obtain ⟨f, hf, he⟩ := List.mem_map.mp hm
    exact hno f hf he
  refine ⟨?_, ?_, ?_, ?_⟩
  · intro r x hx
    refine ⟨fun hr => ⟨?_, fun image hi => ?_⟩, fun hr => ?_, fun hr => ?_⟩
    · exact get _ (ho.mem_iff.mpr (mem_written.mpr ⟨r, x, hx, hr, .inl rfl⟩))
    · exact get (candidateFileName r ".png".toList, image) (ho.mem_iff.mpr (mem_written.mpr ⟨r, x, hx, hr, .inr ⟨image, hi, rfl⟩⟩))
    · apply other
      intro f hf he
      obtain ⟨r', x', hx', hr', hf'⟩ := mem_written.mp (ho.mem_iff.mp hf)
      rcases hf' with rfl | ⟨image, _, rfl⟩
      · rw [C46_file_names_distinct _ _ _ he] at hr'
        exact hr hr'
      · exact C46_json_ne_png _ _ he.symm
    · apply other
      intro f hf he
      obtain ⟨r', x', hx', hr', hf'⟩ := mem_written.mp (ho.mem_iff.mp hf)
      rcases hf' with rfl | ⟨image, hi, rfl⟩
      · exact C46_json_ne_png _ _ he
      · have e1 := C46_file_names_distinct _ _ _ he
        rw [e1] at hr' hx'
        rw [hx] at hx'
        cases hx'
        rcases hr with hr | ⟨e, hr⟩
        · exact hr hr'
        · rw [hi] at hr
          cases hr
  · constructor
    · rintro ⟨e, rfl⟩
      rcases hres with ⟨h, _⟩ | ⟨e', h, hr⟩
      · cases h
      · by_cases hn : st.candidates = []
        · simp [hn, writerRuns, batches_nil] at hr
        · obtain ⟨x, hx, he⟩ := runs_error _ (mapChunk_pos (List.length_pos_iff.mpr hn)) _ hr
          exact ⟨x.1, (List.mem_zipIdx' hx).2 ▸ List.getElem_mem _, e', writerCall_error.mp he⟩
    · rintro ⟨x, hx, e, he⟩
      rcases hres with ⟨_, hall⟩ | ⟨e', h, _⟩
      · obtain ⟨r, hr⟩ := mem_zipIdx_of hx
        have := (runs_ok _ (mapChunk_pos (List.length_pos_of_mem hx)) _).mp hall _ hr
        rw [writerCall_error.mpr he] at this
        cases this
      · exact ⟨e', h⟩
  · rintro e rfl
    rcases hres with ⟨h, _⟩ | ⟨e', h, hr⟩
    · cases h
    · cases h
      by_cases hn : st.candidates = []
      · simp [hn, writerRuns, batches_nil] at hr
      · obtain ⟨x, hx, he⟩ := runs_error _ (mapChunk_pos (List.length_pos_iff.mpr hn)) _ hr
        exact ⟨x.1, (List.mem_zipIdx' hx).2 ▸ List.getElem_mem _, writerCall_error.mp he⟩
  · intro e d₀ h0 name hname
    unfold SavesProducts at h0
    rw [if_neg (by simpa using hp)] at h0
    obtain ⟨tables', order', ht', ho', rfl⟩ := h0
    rw [ht] at ht'
    cases ht'
    rw [writeAll_other order, writeAll_other order']
    · intro hm
      obtain ⟨f, hf, he⟩ := List.mem_map.mp hm
      obtain ⟨r, x, _, hh⟩ := mem_allCandidateFiles (ho'.mem_iff.mp hf)
      rcases hh with rfl | ⟨g, _, rfl⟩
      · exact (hname r).1 he.symm
      · exact (hname r).2 he.symm
    · intro hm
      obtain ⟨f, hf, he⟩ := List.mem_map.mp hm
      obtain ⟨r, x, _, _, hh⟩ := mem_written.mp (ho.mem_iff.mp hf)
      rcases hh with rfl | ⟨g, _, rfl⟩
      · exact (hname r).1 he.symm
      · exact (hname r).2 he.symm

/-- Saving terminates, with an exception or not, whenever the table of clusters can be made. -/
theorem savesPlots_total (json : PCandidate ℝ (CandObj ℝ) → List Char) (plot : Option (PCandidate ℝ (CandObj ℝ) → Except PyErr (List Char)))
    (processes : ℕ) (st : PipeState ℝ (CandObj ℝ)) (d : OutDir) (ht : ∃ tables, tableFiles st = .ok tables) :
    ∃ d' res, SavesPlots json plot processes st d d' res := by
  unfold SavesPlots
  split_ifs
  · exact ⟨_, _, rfl, rfl⟩
  · obtain ⟨tables, ht⟩ := ht
    by_cases hall : ∀ r ∈ writerRuns json plot processes st.candidates, r.2 = none
    · exact ⟨_, .ok (), tables, _, ht, List.Perm.refl _, rfl, .inl ⟨rfl, hall⟩⟩
    · push Not at hall
      obtain ⟨r, hr, he⟩ := hall
      obtain ⟨e, he⟩ := Option.ne_none_iff_exists'.mp he
      exact ⟨_, .error e, tables, _, ht, List.Perm.refl _, rfl, .inr ⟨e, rfl, r, hr, he⟩⟩

/-- **C105.** If there are at most four candidates for each process, a candidate that cannot be plotted does not prevent the others from being saved:
all have their file, and those that can be plotted have their plot. Missing: more candidates (see `C105_false`). -/
theorem C105_partial {json : PCandidate ℝ (CandObj ℝ) → List Char} {plot : PCandidate ℝ (CandObj ℝ) → Except PyErr (List Char)} {processes : ℕ}
    {st : PipeState ℝ (CandObj ℝ)} {d d' : OutDir} {res : Except PyErr Unit} (h : SavesPlots json (some plot) processes st d d' res)
    (hp : st.peaks ≠ []) (hn : st.candidates.length ≤ 4 * processes) (r : ℕ) (x : PCandidate ℝ (CandObj ℝ)) (hx : st.candidates[r]? = some x) :
    d' (candidateFileName r ".json".toList) = some (json x) ∧ ∀ image, plot x = .ok image → d' (candidateFileName r ".png".toList) = some image := by
  refine ((C105_saved h hp).1 r x hx).1 ?_
  have h1 := mapChunk_le_one hn
  have h2 : 1 ≤ mapChunk st.candidates.length processes := mapChunk_pos (by
    obtain ⟨hr, _⟩ := List.getElem?_eq_some_iff.mp hx
    omega)
  intro q y hq1 hq2 _
  rw [show mapChunk st.candidates.length processes = 1 by omega] at hq1
  omega

/-- **C105.** If all candidates can be plotted, or plots are not made, everything is saved and no exception is raised. -/
theorem C105_all {json : PCandidate ℝ (CandObj ℝ) → List Char} {png : Option (PCandidate ℝ (CandObj ℝ) → List Char)} {processes : ℕ}
    {st : PipeState ℝ (CandObj ℝ)} {d d' : OutDir} {res : Except PyErr Unit}
    (plot : Option (PCandidate ℝ (CandObj ℝ) → Except PyErr (List Char)))
    (hplot : (plot = none ∧ png = none) ∨ ∃ f g, plot = some f ∧ png = some g ∧ ∀ x ∈ st.candidates, f x = .ok (g x)) :
    SavesPlots json plot processes st d d' res ↔ res = .ok () ∧ SavesProducts ⟨json, png⟩ st d d' := by
  have hcall : ∀ x ∈ st.candidates.zipIdx, (writerCall json plot x) = (candidateFiles ⟨json, png⟩ x.2 x.1, none) := by
    intro x hx
    rcases hplot with ⟨rfl, rfl⟩ | ⟨f, g, rfl, rfl, hfg⟩
    · rfl
    · have := hfg x.1 ((List.mem_zipIdx' hx).2 ▸ List.getElem_mem _)
      unfold writerCall candidateFiles
      simp [this]
  have hrun : ∀ l : List (PCandidate ℝ (CandObj ℝ) × ℕ), (∀ x ∈ l, (writerCall json plot x) = (candidateFiles ⟨json, png⟩ x.2 x.1, none)) →
      batchRun (writerCall json plot) l = ((l.map fun x => candidateFiles ⟨json, png⟩ x.2 x.1).flatten, none) := by
    intro l hl
    induction l with
    | nil => rfl
    | cons a l ih =>
      have := hl a List.mem_cons_self
      rw [batchRun]
      simp only [this, ih (fun x hx => hl x (List.mem_cons_of_mem _ hx)), List.map_cons, List.flatten_cons]
  have hbs : ∀ bs : List (List (PCandidate ℝ (CandObj ℝ) × ℕ)), (∀ x ∈ bs.flatten, (writerCall json plot x) = (candidateFiles ⟨json, png⟩ x.2 x.1, none)) →
      ((bs.map (batchRun (writerCall json plot))).map Prod.fst).flatten = (bs.flatten.map fun x => candidateFiles ⟨json, png⟩ x.2 x.1).flatten ∧
      ∀ r ∈ bs.map (batchRun (writerCall json plot)), r.2 = none := by
    intro bs hb
    induction bs with
    | nil => simp
    | cons b bs ih =>
      obtain ⟨i1, i2⟩ := ih (fun x hx => hb x (by rw [List.flatten_cons]; exact List.mem_append_right _ hx))
      have hb' := hrun b (fun x hx => hb x (by rw [List.flatten_cons]; exact List.mem_append_left _ hx))
      constructor
      · simp only [List.map_cons, List.flatten_cons, hb', i1, List.map_append, List.flatten_append]
      · intro r hr
        rw [List.map_cons] at hr
        rcases List.mem_cons.mp hr with rfl | hr
        · rw [hb']
        · exact i2 r hr
  have hruns : ((writerRuns json plot processes st.candidates).map Prod.fst).flatten = allCandidateFiles ⟨json, png⟩ st ∧
      ∀ r ∈ writerRuns json plot processes st.candidates, r.2 = none := by
    by_cases hn : st.candidates = []
    · simp [hn, writerRuns, batches_nil, allCandidateFiles]
    · have hfl := runs_flatten (mapChunk_pos (p := processes) (List.length_pos_iff.mpr hn)) st.candidates.zipIdx
      have := hbs (batches (mapChunk st.candidates.length processes) st.candidates.zipIdx) (by rw [hfl]; exact hcall)
      rw [hfl] at this
      unfold writerRuns allCandidateFiles
      rw [List.mapIdx_eq_zipIdx_map]
      exact this
  unfold SavesPlots SavesProducts
  rw [hruns.1]
  split_ifs
  · exact and_comm
  · constructor
    · rintro ⟨tables, order, h1, h2, h3, ⟨h4, _⟩ | ⟨e, _, r, hr, he⟩⟩
      · exact ⟨h4, tables, order, h1, h2, h3⟩
      · rw [hruns.2 r hr] at he
        cases he
    · rintro ⟨h4, tables, order, h1, h2, h3⟩
      exact ⟨tables, order, h1, h2, h3, .inl ⟨h4, hruns.2⟩⟩

/-- **C105.** If no candidate can be plotted, then of each batch only the first candidate is saved. -/
theorem C105_none {json : PCandidate ℝ (CandObj ℝ) → List Char} {plot : PCandidate ℝ (CandObj ℝ) → Except PyErr (List Char)} {processes : ℕ}
    {st : PipeState ℝ (CandObj ℝ)} {d d' : OutDir} {res : Except PyErr Unit} (h : SavesPlots json (some plot) processes st d d' res)
    (hp : st.peaks ≠ []) (hall : ∀ x ∈ st.candidates, ∃ e, plot x = .error e) (r : ℕ) (x : PCandidate ℝ (CandObj ℝ))
    (hx : st.candidates[r]? = some x) :
    (∃ e, res = .error e) ∧ d' (candidateFileName r ".png".toList) = d (candidateFileName r ".png".toList) ∧
    d' (candidateFileName r ".json".toList) =
      if r % mapChunk st.candidates.length processes = 0 then some (json x) else d (candidateFileName r ".json".toList) := by
  obtain ⟨h1, h2, -, -⟩ := C105_saved h hp
  obtain ⟨k1, k2, k3⟩ := h1 r x hx
  have hmem : x ∈ st.candidates := List.mem_of_getElem? hx
  refine ⟨h2.mpr ⟨x, hmem, hall x hmem⟩, k3 (.inr (hall x hmem)), ?_⟩
  have hdm := Nat.div_add_mod r (mapChunk st.candidates.length processes)
  rw [Nat.mul_comm] at hdm
  split_ifs with hr
  · refine (k1 ?_).1
    intro q y hq1 hq2 _
    omega
  · refine k2 ?_
    intro hre
    obtain ⟨hlt, _⟩ := List.getElem?_eq_some_iff.mp hx
    have hq : r / mapChunk st.candidates.length processes * mapChunk st.candidates.length processes < r := by omega
    obtain ⟨image, hi⟩ := hre _ st.candidates[r / mapChunk st.candidates.length processes * mapChunk st.candidates.length processes] le_rfl hq
      (List.getElem?_eq_getElem (by omega))
    obtain ⟨e, he⟩ := hall _ (List.getElem_mem _)
    rw [he] at hi
    cases hi

/-- **C105 is false.** Five candidates and one process: the first cannot be plotted, and the second, which can, is not saved. -/
theorem C105_false : ∃ (json : PCandidate ℝ (CandObj ℝ) → List Char) (plot : PCandidate ℝ (CandObj ℝ) → Except PyErr (List Char))
    (st : PipeState ℝ (CandObj ℝ)) (d' : OutDir) (res : Except PyErr Unit) (x : PCandidate ℝ (CandObj ℝ)),
    SavesPlots json (some plot) 1 st (fun _ => none) d' res ∧ st.candidates.length = 5 ∧ st.candidates[1]? = some x ∧
    (∃ image, plot x = .ok image) ∧ d' "candidate_0001.json".toList = none := by
  obtain ⟨json, hjson⟩ : ∃ json : PCandidate ℝ (CandObj ℝ) → List Char, json = fun _ => [] := ⟨_, rfl⟩
  obtain ⟨plot, hplot⟩ : ∃ plot : PCandidate ℝ (CandObj ℝ) → Except PyErr (List Char),
      plot = fun x => if x.source = 0 then .error .valueError else .ok [] := ⟨_, rfl⟩
  obtain ⟨d', res, h⟩ := savesPlots_total json (some plot) 1 (exProducts 5) (fun _ => none) ⟨_, rfl⟩
  refine ⟨json, plot, exProducts 5, d', res, _, h, by simp [exProducts], by simp [exProducts]; rfl, ⟨[], by simp [hplot]⟩, ?_⟩
  have hn : "candidate_0001.json".toList = candidateFileName 1 ".json".toList := by decide +kernel
  have h1 : (exProducts 5).candidates[1]? = some ⟨{ freq := 1, snr := 10, ducy := 1, dm := 0, period := 1 }, 1,
    ⟨{ freq := 1, snr := 10, ducy := 1, dm := 0, period := 1 }, 0, [], .d1 []⟩⟩ := by simp [exProducts]
  have h0 : (exProducts 5).candidates[0]? = some ⟨{ freq := 1, snr := 10, ducy := 1, dm := 0, period := 1 }, 0,
    ⟨{ freq := 1, snr := 10, ducy := 1, dm := 0, period := 1 }, 0, [], .d1 []⟩⟩ := by simp [exProducts]
  rw [hn]
  refine ((C105_saved h (by simp [exProducts])).1 1 _ h1).2.1 ?_
  intro hre
  have hl : (exProducts 5).candidates.length = 5 := by simp [exProducts]
  rw [hl] at hre
  obtain ⟨image, hi⟩ := hre 0 _ (by decide) (by decide) h0
  simp [hplot] at hi

/-! ## When a candidate can be plotted -/

/-- **C105.** A candidate with peaks can be plotted exactly if it has sub-integrations in an array with two dimensions, and its metadata have a duration,
coordinates, a date and a name of the source. -/
theorem C105_plot (iso : PyVal → Except PyErr Unit) (md : MetaDict) (x : CandObj ℝ) (hne : x.peaks ≠ []) :
    plotCandidate iso md x = .ok () ↔ (∃ rows, x.subints = .d2 rows) ∧
      (∃ v t, dictGet md (.str "tobs") = some v ∧ pyReal v = .ok t) ∧ (∃ ra dec, dictGet md (.str "skycoord") = some (.sky ra dec)) ∧
      (∃ v, dictGet md (.str "mjd") = some v ∧ iso v = .ok ()) ∧ ∃ name, dictGet md (.str "source_name") = some (.str name) := by
  have hdm : ∃ a l, x.dmCurve = a :: l := by
    apply List.exists_cons_of_ne_nil
    obtain ⟨p, l, hpl⟩ := List.exists_cons_of_ne_nil hne
    have : p.dm ∈ groupKeys x.peaks := by
      unfold groupKeys
      rw [List.mem_mergeSort, List.mem_dedup, hpl]
      simp
    unfold CandObj.dmCurve
    intro h
    rw [List.map_eq_nil_iff] at h
    rw [h] at this
    cases this
  obtain ⟨a, l, hdm⟩ := hdm
  unfold plotCandidate plotTable
  rw [hdm]
  constructor
  · intro h
    obtain ⟨t, h1, h⟩ := bind_ok_inv h
    obtain ⟨u, h2, h⟩ := bind_ok_inv h
    obtain ⟨_, h3, h⟩ := bind_ok_inv h
    obtain ⟨_, h4, h5⟩ := bind_ok_inv h3
    obtain ⟨_, h6, h7⟩ := bind_ok_inv h5
    obtain ⟨name, h8, _⟩ := map_ok_inv h7
    obtain ⟨v1, d1, e1⟩ := metaItem_ok h1
    obtain ⟨v2, d2, e2⟩ := metaItem_ok h4
    obtain ⟨v3, d3, e3⟩ := metaItem_ok h6
    obtain ⟨v4, d4, e4⟩ := metaItem_ok h8
    refine ⟨?_, ⟨v1, t, d1, e1⟩, ?_, ⟨v3, d3, e3⟩, ?_⟩
    · cases hs : x.subints with
      | d1 y => rw [hs] at h2; cases h2
      | d2 rows => exact ⟨rows, rfl⟩
    · cases v2 <;> simp [pySky] at e2
      exact ⟨_, _, d2⟩
    · cases v4 <;> simp [pyStr] at e4
      exact ⟨_, d4⟩
  · rintro ⟨⟨rows, h1⟩, ⟨v, t, h2, h3⟩, ⟨ra, dec, h4⟩, ⟨w, h5, h6⟩, name, h7⟩
    unfold metaItem
    simp only [h1, h2, h3, h4, h5, h6, h7, Except.bind, plotSubints, pySky, pyStr, Except.map, plotDmCurve]

/-- Entries of the header in the metadata of a PRESTO file. -/
theorem presto_entry {sky : PyVal → PyVal → Except PyErr (PyFloat × PyFloat)} {inf : PyDict String PyVal} {f : List Char} {md : MetaDict}
    (h : metadataFromPresto sky inf f = .ok md) {k : String} {v : PyVal} (hv : dictGet inf k = some v) (h1 : k ≠ "skycoord") (h2 : k ≠ "fname")
    (h3 : k ≠ "tobs") : dictGet md (.str k) = some v := by
  unfold metadataFromPresto at h
  obtain ⟨raj, _, h⟩ := bind_ok_inv h
  obtain ⟨decj, _, h⟩ := bind_ok_inv h
  obtain ⟨c, _, h⟩ := bind_ok_inv h
  obtain ⟨ts, ht, h⟩ := bind_ok_inv h
  obtain ⟨ns, hn, h⟩ := bind_ok_inv h
  cases ts with
  | float t =>
    cases ns with
    | int n =>
      obtain ⟨g1, g2, _⟩ := C54_total _ _ h
      have key : ∀ items : MetaDict, items = dictSet (dictSet (dictSet (inf.map fun kv => (DKey.str kv.1, kv.2)) (.str "skycoord") (.sky c.1 c.2))
          (.str "fname") (.str (String.ofList f))) (.str "tobs") (.float (t.mulInt n)) → dictGet items (.str k) = some v := by
        rintro _ rfl
        simp only [dictGet_set, DKey.str.injEq]
        rw [if_neg (Ne.symm h3), if_neg (Ne.symm h2), if_neg (Ne.symm h1), dictGet_toMetaStr, hv]
      by_cases hk : k ∈ ["source_name", "skycoord", "dm", "mjd", "tobs", "fname"]
      · rw [g1 k hk, key _ rfl]; rfl
      · rw [g2 (.str k) (fun r hr e => hk (by cases e; exact hr)), key _ rfl]
    | _ => cases h
  | _ => cases h

/-- **C105.** The candidates of a PRESTO file of the radio band can be plotted exactly if they have at least two sub-integrations and the date
can be converted. -/
theorem C105_radio (D : Disk) (f : List Char) {c : Fin 12 → InfLine} {mjd : ℚ} {bary nsamp : ℤ} {tsamp : ℚ} {breaks : ℤ}
    (hc : InfCommonValues c mjd bary nsamp tsamp breaks) (pairs : List (InfLine × ℤ × ℤ))
    (hp : ∀ p ∈ pairs, p.1.OK ∧ PairText p.1.value p.2.1 p.2.2) (hb : pairs = [] ∨ breaks ≠ 0)
    (b : Fin 8 → InfLine) (hbo : ∀ i, (b i).OK) (hband : (b 0).value = "Radio".toList) {fov dm fbot bw cbw : ℚ} {nchan : ℕ}
    (h1 : FloatText (b 1).value fov) (h2 : FloatText (b 2).value dm) (h3 : FloatText (b 3).value fbot)
    (h4 : FloatText (b 4).value bw) (h5 : IntText (b 5).value nchan) (h6 : FloatText (b 6).value cbw) (tail : List Char)
    (ht : D.text f = some (linesText (List.ofFn c ++ pairs.map Prod.fst ++ List.ofFn b) ++ tail)) {sky : PyFloat × PyFloat}
    (hsky : D.parseSky (.str (String.ofList (c 4).value)) (.str (String.ofList (c 5).value)) = .ok sky)
    (hmjd : 0 ≤ mjd) (hdm : 0 ≤ dm) (htobs : 0 < nsamp * tsamp) (iso : PyVal → Except PyErr Unit) :
    ∃ md, loadMeta D .presto f = .ok md ∧ ∀ x : CandObj ℝ, x.peaks ≠ [] →
      (plotCandidate iso md x = .ok () ↔ (∃ rows, x.subints = .d2 rows) ∧ iso (.float (.fin mjd)) = .ok ()) := by
  have hinf := C53_radio hc pairs hp hb b hbo hband h1 h2 h3 h4 h5 h6 tail
  obtain ⟨md, hmd, -, k2, k3, -, -⟩ := loadMeta_presto ht hinf (by simp [infCommonItems, dictGet]) (by simp [infCommonItems, dictGet]) hsky
    (by simp [infCommonItems, dictGet]) (by simp [infCommonItems, dictGet]) htobs (by
      intro kv hkv
      rw [List.mem_append, List.mem_append] at hkv
      rcases hkv with (hkv | hkv) | hkv
      · exact common_valid hmjd kv hkv
      · rw [List.mem_singleton] at hkv
        subst hkv
        simp [validMetaItem, PyVal.jsonable, jsonable_pairs]
      · simp only [List.mem_cons, List.not_mem_nil, or_false] at hkv
        rcases hkv with rfl | rfl | rfl | rfl | rfl | rfl | rfl | rfl <;>
          simp [validMetaItem, PyVal.jsonable, validOptNonneg, PyFloat.nonneg, hdm])
  have hm := hmd
  simp only [loadMeta] at hm
  rw [ht] at hm
  simp only at hm
  rw [hinf] at hm
  simp only [Except.bind] at hm
  have q1 : dictGet md (.str "source_name") = some (.str (String.ofList (c 3).value)) :=
    presto_entry hm (by simp [infCommonItems, dictGet]) (by decide) (by decide) (by decide)
  have q2 : dictGet md (.str "mjd") = some (.float (.fin mjd)) :=
    presto_entry hm (by simp [infCommonItems, dictGet]) (by decide) (by decide) (by decide)
  refine ⟨md, hmd, fun x hx => ?_⟩
  rw [C105_plot iso md x hx]
  constructor
  · rintro ⟨g1, -, -, ⟨v, e1, e2⟩, -⟩
    rw [q2] at e1
    cases e1
    exact ⟨g1, e2⟩
  · rintro ⟨g1, g2⟩
    exact ⟨g1, ⟨_, _, k2, rfl⟩, ⟨_, _, k3⟩, ⟨_, q2, g2⟩, _, q1⟩

/-- **C105.** A SIGPROC file whose header has no name of the source, or no date, is searched like any other, but its candidates cannot be plotted. -/
theorem C105_sigproc (D : Disk) (f : List Char) (kvs : List (String × SigVal)) (samples : List RawSample) (hnd : (kvs.map Prod.fst).Nodup)
    (hk : ∀ kv ∈ kvs, dictGet sigprocKeydb kv.1 = some (typeOf kv.2) ∧ InRange kv.2)
    (hch : dictGet kvs "nchans" = some (.int 1))
    (hdata : (dictGet kvs "nbits" = some (.int 32) ∧ ∀ x ∈ samples, IsFloat32 x) ∨
      (dictGet kvs "nbits" = some (.int 8) ∧ ∃ s, dictGet kvs "signed" = some (.bool s) ∧ ∀ x ∈ samples, IsInt8 s x))
    (hne : samples ≠ []) (tb : ℕ) (t : ℚ) (htb : dictGet kvs "tsamp" = some (.float tb)) (ht : decodeDouble tb = .fin t) (htpos : 0 < t)
    (rab decb : ℕ) (ra dec : ℚ) (hra : dictGet kvs "src_raj" = some (.float rab)) (hra' : decodeDouble rab = .fin ra)
    (hdec : dictGet kvs "src_dej" = some (.float decb)) (hdec' : decodeDouble decb = .fin dec)
    (dmb : ℕ) (dm : ℚ) (hdm : dictGet kvs "refdm" = some (.float dmb)) (hdm' : decodeDouble dmb = .fin dm) (hdm0 : 0 ≤ dm)
    (hmjd : ∀ b, dictGet kvs "tstart" = some (.float b) → (decodeDouble b).nonneg = true)
    (hf : D.bytes f = some (encodeHeader kvs ++ (samples.map encodeSample).flatten))
    (iso : PyVal → Except PyErr Unit) (hiso : iso .none ≠ .ok ()) :
    ∃ md m, loadMeta D .sigproc f = .ok md ∧ fileMetaOf D .sigproc md = .ok m ∧ ∀ x : CandObj ℝ, x.peaks ≠ [] →
      (plotCandidate iso md x = .ok () ↔ (∃ rows, x.subints = .d2 rows) ∧ (∃ name, dictGet kvs "source_name" = some (.str name)) ∧
        ∃ b, dictGet kvs "tstart" = some (.float b) ∧ iso (.float (decodeDouble b)) = .ok ()) := by
  obtain ⟨hd, md, e1, _, e2, m1, _, m3, m4, m5, m6, m7, m8, m9⟩ := sigprocFile_parts kvs samples (String.ofList (D.realpath f)) hnd hk hch hdata hne tb t htb ht
    htpos rab decb ra dec hra hra' hdec hdec' (by rintro b hb; rw [hdm] at hb; cases hb; rw [hdm']; simpa [PyFloat.nonneg] using hdm0) hmjd
  obtain ⟨⟨md', l1, l2⟩, -⟩ := C103_sigproc D f kvs samples hnd hk hch hdata hne tb t htb ht htpos rab decb ra dec hra hra' hdec hdec' dmb dm hdm hdm' hdm0 hmjd hf
  have l3 : loadMeta D .sigproc f = .ok md := by
    simp only [loadMeta]
    rw [hf]
    simp only
    rw [e1]
    exact m1
  rw [l1] at l3
  cases l3
  refine ⟨md, _, l1, l2, fun x hx => ?_⟩
  rw [C105_plot iso md x hx]
  have hname : (∃ name, dictGet md (.str "source_name") = some (.str name)) ↔ ∃ name, dictGet kvs "source_name" = some (.str name) := by
    rw [m5, headerEntry]
    cases hg : dictGet kvs "source_name" with
    | none => simp
    | some v => cases v <;> simp [SigVal.toPy]
  have hdate : (∃ v, dictGet md (.str "mjd") = some v ∧ iso v = .ok ()) ↔
      ∃ b, dictGet kvs "tstart" = some (.float b) ∧ iso (.float (decodeDouble b)) = .ok () := by
    rw [m4, headerEntry]
    cases hg : dictGet kvs "tstart" with
    | none => simp [hiso]
    | some v =>
      have := (hk _ (dictGet_mem hg)).1
      cases v <;> simp [typeOf, sigprocKeydb, dictGet] at this
      simp [SigVal.toPy]
  rw [hname, hdate]
  constructor
  · rintro ⟨g1, -, -, g2, g3⟩
    exact ⟨g1, g3, g2⟩
  · rintro ⟨g1, g2, g3⟩
    exact ⟨g1, ⟨_, _, m8, rfl⟩, ⟨_, _, m6⟩, g3, g2⟩

/-! ## Examples -/

/-- Four candidates and one process, where the first cannot be plotted: all are saved. -/
example (json : PCandidate ℝ (CandObj ℝ) → List Char) : ∃ d' res x,
    SavesPlots json (some fun x => if x.source = 0 then .error .valueError else .ok []) 1 (exProducts 4) (fun _ => none) d' res ∧
    (exProducts 4).candidates[3]? = some x ∧ d' (candidateFileName 3 ".json".toList) = some (json x) := by
  obtain ⟨d', res, h⟩ := savesPlots_total json (some fun x => if x.source = 0 then .error .valueError else .ok []) 1 (exProducts 4) (fun _ => none) ⟨_, rfl⟩
  have h3 : (exProducts 4).candidates[3]? = some ⟨{ freq := 1, snr := 10, ducy := 1, dm := 0, period := 1 }, 3,
    ⟨{ freq := 1, snr := 10, ducy := 1, dm := 0, period := 1 }, 0, [], .d1 []⟩⟩ := by simp [exProducts]
  exact ⟨d', res, _, h, h3, (C105_partial h (by simp [exProducts]) (by simp [exProducts]) 3 _ h3).1⟩

/-- A hundred candidates and one process, where no candidate can be plotted: number 25 is saved, number 24 is not. -/
example (json : PCandidate ℝ (CandObj ℝ) → List Char) : ∃ d' res x,
    SavesPlots json (some fun _ => .error .typeError) 1 (exProducts 100) (fun _ => none) d' res ∧ (exProducts 100).candidates[25]? = some x ∧
    d' (candidateFileName 25 ".json".toList) = some (json x) ∧ d' (candidateFileName 24 ".json".toList) = none := by
  obtain ⟨d', res, h⟩ := savesPlots_total json (some fun _ => .error .typeError) 1 (exProducts 100) (fun _ => none) ⟨_, rfl⟩
  have hc : ∀ r < 100, (exProducts 100).candidates[r]? = some ⟨{ freq := 1, snr := 10, ducy := 1, dm := 0, period := 1 }, r,
      ⟨{ freq := 1, snr := 10, ducy := 1, dm := 0, period := 1 }, 0, [], .d1 []⟩⟩ := by
    intro r hr
    simp [exProducts, hr]
  have hl : (exProducts 100).candidates.length = 100 := by simp [exProducts]
  have key := fun r hr => (C105_none h (by simp [exProducts]) (fun x _ => ⟨_, rfl⟩) r _ (hc r hr)).2.2
  rw [hl] at key
  have k1 := key 25 (by norm_num)
  have k2 := key 24 (by norm_num)
  rw [if_pos (by decide)] at k1
  rw [if_neg (by decide)] at k2
  exact ⟨d', res, _, h, hc 25 (by norm_num), k1, k2⟩

/-- `None` is not a date. -/
def exIso : PyVal → Except PyErr Unit
  | .none => .error .valueError
  | _ => .ok ()

/-- The header of the SIGPROC file of C103 has no date: its candidates cannot be plotted. -/
example : ∃ md m, loadMeta sigprocDisk .sigproc "a.tim".toList = .ok md ∧ fileMetaOf sigprocDisk .sigproc md = .ok m ∧
    ∀ x : CandObj ℝ, x.peaks ≠ [] → plotCandidate exIso md x ≠ .ok () := by
  obtain ⟨md, m, h1, h2, h3⟩ := C105_sigproc sigprocDisk "a.tim".toList demoHeader [.int8 5, .int8 (-128), .int8 127] (by decide +kernel)
    (by decide +kernel) (by decide +kernel)
    (.inr ⟨by decide +kernel, true, by decide +kernel, by
      intro x hx
      simp only [List.mem_cons, List.not_mem_nil, or_false] at hx
      rcases hx with rfl | rfl | rfl
      · exact ⟨5, rfl, by decide⟩
      · exact ⟨-128, rfl, by decide⟩
      · exact ⟨127, rfl, by decide⟩⟩) (by simp) 0x3FD0000000000000 (1 / 4) (by decide +kernel) (by decide +kernel) (by norm_num) 0 0 0 0
    (by decide +kernel) (by decide +kernel) (by decide +kernel) (by decide +kernel) 0x4050FF5C28F5C28F _ (by decide +kernel) rfl (by decide +kernel)
    (by intro b hb; simp [demoHeader, dictGet] at hb) rfl exIso (by simp [exIso])
  refine ⟨md, m, h1, h2, fun x hx h => ?_⟩
  obtain ⟨-, -, b, hb, -⟩ := (h3 x hx).mp h
  simp [demoHeader, dictGet] at hb

/-- The candidates of the PRESTO file of C103 can be plotted if they have two sub-integrations. -/
example : ∃ md, loadMeta pulsarDisk .presto "a.inf".toList = .ok md ∧ ∀ x : CandObj ℝ, x.peaks ≠ [] →
    (plotCandidate (fun _ => .ok ()) md x = .ok () ↔ ∃ rows, x.subints = .d2 rows) := by
  obtain ⟨md, h1, h2⟩ := C105_radio pulsarDisk "a.inf".toList pulsarCommon_values [] (by simp) (.inl rfl) pulsarBand
    (by intro i; fin_cases i <;> exact exLine_ok (by decide +kernel)) rfl exFloat1 (dm := 10) (fbot := 1182) (bw := 400) (nchan := 400)
    ⟨false, "10".toList, [], [], 10, 0, 0, ⟨[1, 0], by decide, by decide, by decide, by decide +kernel⟩,
      .inl ⟨rfl, rfl⟩, .inl ⟨rfl, rfl⟩, by decide +kernel, by norm_num⟩
    ⟨false, "1182".toList, [], [], 1182, 0, 0, ⟨[1, 1, 8, 2], by decide, by decide, by decide, by decide +kernel⟩,
      .inl ⟨rfl, rfl⟩, .inl ⟨rfl, rfl⟩, by decide +kernel, by norm_num⟩
    ⟨false, "400".toList, [], [], 400, 0, 0, ⟨[4, 0, 0], by decide, by decide, by decide, by decide +kernel⟩,
      .inl ⟨rfl, rfl⟩, .inl ⟨rfl, rfl⟩, by decide +kernel, by norm_num⟩
    ⟨400, .inl ⟨⟨[4, 0, 0], by decide, by decide, by decide, by decide +kernel⟩, rfl⟩⟩ exFloat1 " Any additional notes:\n".toList
    (by simp only [pulsarDisk, if_true]; rfl) (sky := (.fin (1 / 240), .fin (-1))) rfl (by norm_num) (by norm_num) (by norm_num) (fun _ => .ok ())
  exact ⟨md, h1, fun x hx => by rw [h2 x hx]; simp⟩

end Verif.Props
