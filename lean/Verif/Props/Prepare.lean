import Verif.Model.Prepare
import Verif.Props.DmCover
import Verif.Props.Fold
import Verif.Props.WorkerConf

/-! # Preparation of the pipeline: property C94 -/

namespace Verif.Spec

open Verif.Model

/-- The file `m` is among those that can be selected: its DM is within the bounds, and its component perpendicular to the galactic plane
is not above the maximum. -/
def Selectable (c : PrepConf) (ms : List FileMeta) (m : FileMeta) : Prop :=
  m ∈ ms ∧ (∀ a, c.dmMin = some a → a ≤ m.dm) ∧ (∀ b, c.dmMax = some b → m.dm ≤ b) ∧
    ∀ x, c.dmsinbMax = some x → m.dm * |Real.sin (m.gb * Real.pi / 180)| ≤ x

/-- All files say that the band consists of `n` channels between `lo` and `hi`. -/
def FilesSay (ms : List FileMeta) (lo hi : ℝ) (n : ℕ) : Prop :=
  ∀ m ∈ ms, lo = min m.fbot (m.fbot + m.nchan * m.cbw) ∧ hi = max m.fbot (m.fbot + m.nchan * m.cbw) ∧ n = m.nchan

/-- The band of the observation: that of the files, if they are in PRESTO format and agree, otherwise that of the configuration. -/
def ObservedBand (c : PrepConf) (ms : List FileMeta) (lo hi : ℝ) (n : ℕ) : Prop :=
  (c.fmt = .presto ∧ FilesSay ms lo hi n) ∨
  ((c.fmt = .sigproc ∨ ∀ lo hi n, ¬ FilesSay ms lo hi n) ∧ c.fmin = some lo ∧ c.fmax = some hi ∧ c.nchans = some n)

end Verif.Spec

namespace Verif.Props

open Verif.Model Verif.Spec

theorem pyMin_ok {K : Type*} [Field K] [LinearOrder K] [IsStrictOrderedRing K] {l : List K} {x : K} :
    pyMin l = .ok x ↔ x ∈ l ∧ ∀ y ∈ l, x ≤ y := by
  cases l with
  | nil => simp [pyMin]
  | cons a l =>
    obtain ⟨h1, h2⟩ := foldl_min_spec l a
    simp only [pyMin, Except.ok.injEq]
    constructor
    · rintro rfl; exact ⟨h1, h2⟩
    · rintro ⟨g1, g2⟩; exact le_antisymm (h2 _ g1) (g2 _ h1)

theorem pyMax_ok {K : Type*} [Field K] [LinearOrder K] [IsStrictOrderedRing K] {l : List K} {x : K} :
    pyMax l = .ok x ↔ x ∈ l ∧ ∀ y ∈ l, y ≤ x := by
  cases l with
  | nil => simp [pyMax]
  | cons a l =>
    obtain ⟨h1, h2⟩ := foldl_max_spec l a
    simp only [pyMax, Except.ok.injEq]
    constructor
    · rintro rfl; exact ⟨h1, h2⟩
    · rintro ⟨g1, g2⟩; exact le_antisymm (g2 _ h1) (h2 _ g1)

theorem pyMin_exists {K : Type*} [Field K] [LinearOrder K] {l : List K} (h : l ≠ []) : ∃ x, pyMin l = .ok x := by
  cases l with
  | nil => exact absurd rfl h
  | cons a l => exact ⟨_, rfl⟩

theorem pyMax_exists {K : Type*} [Field K] [LinearOrder K] {l : List K} (h : l ≠ []) : ∃ x, pyMax l = .ok x := by
  cases l with
  | nil => exact absurd rfl h
  | cons a l => exact ⟨_, rfl⟩

theorem validateRanges_iff {ranges : List (SearchRange ℝ)} {ts : ℝ} : validateRanges ranges ts = .ok () ↔
    (∀ r ∈ ranges, r.binsMin * ts ≤ r.pmin ∧ r.candBins * ts ≤ r.pmin) ∧ ranges.IsChain (fun a b => a.pmax = b.pmin) := by
  unfold validateRanges
  constructor
  · intro h
    obtain ⟨_, h1, h2⟩ := bind_ok_inv h
    exact ⟨fun r hr => validateRange_ok (validateRangeLoop_ok h1 r hr), (contiguity_iff ranges).mp h2⟩
  · rintro ⟨h1, h2⟩
    have : validateRangeLoop ts ranges = .ok () := by
      clear h2
      induction ranges with
      | nil => rfl
      | cons a l ih =>
        unfold validateRangeLoop
        have ha := h1 a List.mem_cons_self
        have : validateRange a ts = .ok () := by
          unfold validateRange
          rw [if_neg (not_lt.mpr ha.1), if_neg (not_lt.mpr ha.2)]
        rw [this]
        exact ih fun r hr => h1 r (List.mem_cons_of_mem _ hr)
    rw [this]
    exact (contiguity_iff ranges).mpr h2

theorem galactic_ok {ms : List FileMeta} {g : ℝ × ℝ} :
    galacticCoordinates ms = .ok g ↔ ms ≠ [] ∧ ∀ m ∈ ms, m.gl = g.1 ∧ m.gb = g.2 := by
  cases ms with
  | nil => simp [galacticCoordinates]
  | cons m ms =>
    unfold galacticCoordinates
    simp only
    split_ifs with h
    · simp only [Except.ok.injEq, ne_eq, reduceCtorEq, not_false_eq_true, true_and]
      rw [List.all_eq_true] at h
      constructor
      · rintro rfl m' hm'
        have := h m' hm'
        simpa using this
      · intro hh
        obtain ⟨a, b⟩ := hh m List.mem_cons_self
        rw [a, b]
    · simp only [reduceCtorEq, ne_eq, not_false_eq_true, true_and, false_iff]
      intro hh
      apply h
      rw [List.all_eq_true]
      intro m' hm'
      obtain ⟨a, b⟩ := hh m List.mem_cons_self
      obtain ⟨a', b'⟩ := hh m' hm'
      simp [a, b, a', b']

theorem cap_iff {mx : Option ℝ} (hmx : ∀ x, mx = some x → 0 < x) (gb dm : ℝ) :
    (∀ k, galacticCap mx gb = some k → dm ≤ k) ↔ ∀ x, mx = some x → dm * |Real.sin (gb * Real.pi / 180)| ≤ x := by
  cases mx with
  | none => simp [galacticCap]
  | some x =>
    have hx := hmx x rfl
    unfold galacticCap
    simp only [Option.bind_some]
    generalize hs : |Real.sin (gb * Real.pi / 180)| = s
    have hs0 : 0 ≤ s := hs ▸ abs_nonneg _
    split_ifs with h
    · rw [h]; simp [hx.le]
    · have : 0 < s := lt_of_le_of_ne hs0 (Ne.symm h)
      simp only [Option.some.injEq, forall_eq']
      rw [le_div_iff₀ this]

theorem bandOf_iff {ms : List FileMeta} (hne : ms ≠ []) {c : PrepConf} {b : ℝ × ℝ × ℕ} :
    bandOf (ms.map (·.toDmMeta)) c.fmt (bandArguments c.fmin c.fmax c.nchans) = .ok b ↔ ObservedBand c ms b.1 b.2.1 b.2.2 := by
  obtain ⟨lo, hi, n⟩ := b
  have hsay : ∀ b : ℝ × ℝ × ℕ, (∀ m ∈ ms.map (·.toDmMeta), getBandParams m .presto = .ok b) ↔ FilesSay ms b.1 b.2.1 b.2.2 := by
    rintro ⟨lo, hi, n⟩
    unfold FilesSay
    rw [List.forall_mem_map]
    refine forall₂_congr fun m _ => ?_
    unfold getBandParams
    simp only [Except.ok.injEq, Prod.mk.injEq]
    exact ⟨fun ⟨a, b, c⟩ => ⟨a.symm, b.symm, c.symm⟩, fun ⟨a, b, c⟩ => ⟨a.symm, b.symm, c.symm⟩⟩
  have harg : bandArguments c.fmin c.fmax c.nchans = some (lo, hi, n) ↔ c.fmin = some lo ∧ c.fmax = some hi ∧ c.nchans = some n := by
    unfold bandArguments
    cases c.fmin <;> cases c.fmax <;> cases c.nchans <;> simp
  have hne' : ms.map (·.toDmMeta) ≠ [] := by simpa using hne
  unfold bandOf ObservedBand
  cases hf : c.fmt with
  | sigproc =>
    cases hi' : inferBandParams (ms.map (·.toDmMeta)) .sigproc with
    | ok b' => exact absurd hi' (C60_inferred_for_all _ b').2
    | error e => simp only [reduceCtorEq, false_and, true_or, true_and, false_or]
                 rw [← harg]
                 cases bandArguments c.fmin c.fmax c.nchans <;> simp
  | presto =>
    cases hi' : inferBandParams (ms.map (·.toDmMeta)) .presto with
    | ok b' =>
      have h1 := (hsay b').mp (((C60_inferred_for_all _ b').1.mp hi').2)
      simp only [Except.ok.injEq, true_and, reduceCtorEq, false_or]
      constructor
      · rintro rfl; exact Or.inl h1
      · rintro (h2 | ⟨h2, _⟩)
        · have h3 := ((hsay (lo, hi, n)).mpr h2)
          have := (C60_inferred_for_all _ (lo, hi, n)).1.mpr ⟨hne', h3⟩
          rw [hi'] at this
          simpa using this
        · exact absurd h1 (h2 _ _ _)
    | error e =>
      have hno : ∀ lo hi n, ¬ FilesSay ms lo hi n := by
        intro lo hi n h
        have := (C60_inferred_for_all _ (lo, hi, n)).1.mpr ⟨hne', (hsay (lo, hi, n)).mpr h⟩
        rw [hi'] at this
        cases this
      simp only [true_and, reduceCtorEq, false_or]
      rw [← harg]
      cases hba : bandArguments c.fmin c.fmax c.nchans with
      | none =>
        simp only [reduceCtorEq, and_false, or_false, false_iff]
        exact hno _ _ _
      | some b' =>
        simp only [Except.ok.injEq, Option.some.injEq]
        constructor
        · intro h; exact Or.inr ⟨hno, h⟩
        · rintro (h | h)
          · exact absurd h (hno _ _ _)
          · exact h.2

/-- What is known about a prepared pipeline. -/
theorem prepare_inv {c : PrepConf} {ms : List FileMeta} {it : DmIter ℝ} (h : prepare c ms = .ok it)
    (hmx : ∀ x, c.dmsinbMax = some x → 0 < x) :
    ∃ (wmin dm0 dm1 gl gb : ℝ) (b : ℝ × ℝ × ℕ) (t : ℝ), pipelineWmin c = .ok wmin ∧ ms ≠ [] ∧ (∀ m ∈ ms, m.gl = gl ∧ m.gb = gb) ∧
      ObservedBand c ms b.1 b.2.1 b.2.2 ∧
      (∀ m ∈ ms, Selectable c ms m ↔ dm0 ≤ m.dm ∧ m.dm ≤ dm1) ∧
      it.metadataDict = dictOf (fun m : DmMeta ℝ => m.dm) (fun m => m.fname) (ms.map (·.toDmMeta)) ∧
      selectDms (it.metadataDict.map Prod.fst) dm0 dm1 b.1 b.2.1 (b.2.2 : ℝ) wmin = .ok it.selectedDms ∧
      dmIterator (ms.map (·.toDmMeta)) c.dmMin c.dmMax (galacticCap c.dmsinbMax gb) c.fmt wmin (bandArguments c.fmin c.fmax c.nchans) =
        .ok it ∧
      tsampMax ms = .ok t ∧ validateRanges c.ranges t = .ok () := by
  unfold prepare at h
  obtain ⟨wmin, hw, h⟩ := bind_ok_inv h
  obtain ⟨it', hit, h⟩ := bind_ok_inv h
  obtain ⟨t, ht, h⟩ := bind_ok_inv h
  obtain ⟨u, hu, rfl⟩ := map_ok_inv h
  cases u
  unfold dmIteratorOf at hit
  obtain ⟨dm0, h0, hit⟩ := bind_ok_inv hit
  obtain ⟨dm1, h1, hit⟩ := bind_ok_inv hit
  obtain ⟨⟨gl, gb⟩, hg, hit⟩ := bind_ok_inv hit
  obtain ⟨hne, hg⟩ := galactic_ok.mp hg
  simp only at hg hit
  have hit' : dmIterator (ms.map (·.toDmMeta)) c.dmMin c.dmMax (galacticCap c.dmsinbMax gb) c.fmt wmin
      (bandArguments c.fmin c.fmax c.nchans) = .ok it' := by
    rw [← hit]
    unfold dmIterator
    rw [h0, h1]
    rfl
  obtain ⟨e0, e1, b, he0, he1, _, hb, hsel, hd⟩ := dmIterator_inv _ _ _ _ _ _ _ _ hit
  cases he0
  cases he1
  refine ⟨wmin, dm0, applyCap (galacticCap c.dmsinbMax gb) dm1, gl, gb, b, t, hw, hne, hg, (bandOf_iff hne).mp hb, ?_, hd, hsel, hit', ht, hu⟩
  intro m hm
  have hcap : m.dm ≤ applyCap (galacticCap c.dmsinbMax gb) dm1 ↔ m.dm ≤ dm1 ∧ (∀ k, galacticCap c.dmsinbMax gb = some k → m.dm ≤ k) := by
    cases galacticCap c.dmsinbMax gb with
    | some k => simp [applyCap]
    | none => simp [applyCap]
  have hmap : m.dm ∈ (ms.map (·.toDmMeta)).map (fun m => m.dm) := List.mem_map_of_mem (List.mem_map_of_mem hm)
  have hlow : (∀ a, c.dmMin = some a → a ≤ m.dm) ↔ dm0 ≤ m.dm := by
    cases hc : c.dmMin with
    | some a =>
      rw [hc] at h0
      simp only [dmStartOf, Except.ok.injEq] at h0
      subst h0; simp
    | none =>
      rw [hc] at h0
      simp only [dmStartOf] at h0
      simp [(pyMin_ok.mp h0).2 _ hmap]
  have hupp : (∀ a, c.dmMax = some a → m.dm ≤ a) ↔ m.dm ≤ dm1 := by
    cases hc : c.dmMax with
    | some a =>
      rw [hc] at h1
      simp only [dmEndOf, Except.ok.injEq] at h1
      subst h1; simp
    | none =>
      rw [hc] at h1
      simp only [dmEndOf] at h1
      simp [(pyMax_ok.mp h1).2 _ hmap]
  unfold Selectable
  rw [hlow, hupp, hcap, cap_iff hmx, (hg m hm).2]
  constructor
  · rintro ⟨_, a, b, c⟩; exact ⟨a, b, c⟩
  · rintro ⟨a, b, c⟩; exact ⟨hm, a, b, c⟩

/-- C94: `prepare` succeeds exactly if there is a search range, there is a file, all files have the same coordinates, the band is known, one
of the files can be selected, no range needs a finer sampling than that of any file, and the ranges follow each other without gap. -/
theorem C94_accepts (c : PrepConf) (ms : List FileMeta) (hmx : ∀ x, c.dmsinbMax = some x → 0 < x) :
    (∃ it, prepare c ms = .ok it) ↔
      c.ranges ≠ [] ∧ (∃ gl gb, ∀ m ∈ ms, m.gl = gl ∧ m.gb = gb) ∧ (∃ lo hi n, ObservedBand c ms lo hi n) ∧
      (∃ m, Selectable c ms m) ∧
      (∀ r ∈ c.ranges, ∀ m ∈ ms, r.binsMin * m.tsamp ≤ r.pmin ∧ r.candBins * m.tsamp ≤ r.pmin) ∧
      c.ranges.IsChain (fun a b => a.pmax = b.pmin) := by
  constructor
  · rintro ⟨it, h⟩
    obtain ⟨wmin, dm0, dm1, gl, gb, b, t, hw, hne, hg, hb, hs, hd, hsel, _, ht, hv⟩ := prepare_inv h hmx
    obtain ⟨hv1, hv2⟩ := validateRanges_iff.mp hv
    obtain ⟨_, ht⟩ := pyMax_ok.mp ht
    refine ⟨?_, ⟨gl, gb, hg⟩, ⟨_, _, _, hb⟩, ?_, ?_, hv2⟩
    · intro e
      unfold pipelineWmin at hw
      rw [e] at hw
      cases hw
    · obtain ⟨hc1, ⟨lo, hlo, _⟩, _⟩ := C33_coverage _ _ _ _ _ _ _ _ hsel
      obtain ⟨k1, k2, k3⟩ := hc1 lo (List.mem_of_head? hlo)
      rw [hd, (dictOf_spec (fun m : DmMeta ℝ => m.dm) (fun m => m.fname) (ms.map (·.toDmMeta))).2.1, List.mem_map] at k1
      obtain ⟨m', hm', e⟩ := k1
      obtain ⟨m, hm, rfl⟩ := List.mem_map.mp hm'
      exact ⟨m, (hs m hm).mpr (by rw [e]; exact ⟨k2, k3⟩)⟩
    · intro r hr m hm
      obtain ⟨a1, a2⟩ := hv1 r hr
      have hmt := ht m.tsamp (List.mem_map_of_mem hm)
      exact ⟨(mul_le_mul_of_nonneg_left hmt (Nat.cast_nonneg _)).trans a1, (mul_le_mul_of_nonneg_left hmt (Nat.cast_nonneg _)).trans a2⟩
  · rintro ⟨hr, ⟨gl, gb, hg⟩, ⟨lo, hi, n, hb⟩, ⟨m, hm⟩, hv, hch⟩
    have hms : ms ≠ [] := List.ne_nil_of_mem hm.1
    have hne' : (ms.map (·.toDmMeta)).map (fun m => m.dm) ≠ [] := by simpa using hms
    obtain ⟨wmin, hw⟩ : ∃ w, pipelineWmin c = .ok w := pyMin_exists (by simpa using hr)
    obtain ⟨dm0, h0⟩ : ∃ x, dmStartOf (ms.map (·.toDmMeta)) c.dmMin = .ok x := by
      cases c.dmMin with
      | some a => exact ⟨a, rfl⟩
      | none => exact pyMin_exists hne'
    obtain ⟨dm1, h1⟩ : ∃ x, dmEndOf (ms.map (·.toDmMeta)) c.dmMax = .ok x := by
      cases c.dmMax with
      | some a => exact ⟨a, rfl⟩
      | none => exact pyMax_exists hne'
    obtain ⟨t, ht⟩ : ∃ t, tsampMax ms = .ok t := pyMax_exists (by simpa using hms)
    have hg' : galacticCoordinates ms = .ok (gl, gb) := galactic_ok.mpr ⟨hms, hg⟩
    have hbo := (bandOf_iff hms (c := c) (b := (lo, hi, n))).mpr hb
    have hvr : validateRanges c.ranges t = .ok () := by
      rw [validateRanges_iff]
      refine ⟨fun r hr => ?_, hch⟩
      obtain ⟨k, _⟩ := pyMax_ok.mp ht
      obtain ⟨m', hm', rfl⟩ := List.mem_map.mp k
      exact hv r hr m' hm'
    have hmap : m.dm ∈ (ms.map (·.toDmMeta)).map (fun m => m.dm) := List.mem_map_of_mem (List.mem_map_of_mem hm.1)
    obtain ⟨_, m1, m2, m3⟩ := hm
    have hlow : dm0 ≤ m.dm := by
      cases hc : c.dmMin with
      | some a =>
        rw [hc] at h0
        simp only [dmStartOf, Except.ok.injEq] at h0
        exact h0 ▸ m1 a hc
      | none =>
        rw [hc] at h0
        exact (pyMin_ok.mp h0).2 _ hmap
    have hupp : m.dm ≤ dm1 := by
      cases hc : c.dmMax with
      | some a =>
        rw [hc] at h1
        simp only [dmEndOf, Except.ok.injEq] at h1
        exact h1 ▸ m2 a hc
      | none =>
        rw [hc] at h1
        exact (pyMax_ok.mp h1).2 _ hmap
    have hcap : m.dm ≤ applyCap (galacticCap c.dmsinbMax gb) dm1 := by
      have hk := (cap_iff hmx gb m.dm).mpr (by
        have := (hg m (by assumption)).2
        rw [← this]
        exact m3)
      cases hq : galacticCap c.dmsinbMax gb with
      | some k => simp [applyCap, hupp, hk k hq]
      | none => simpa [applyCap] using hupp
    have hdict := (dictOf_spec (fun m : DmMeta ℝ => m.dm) (fun m => m.fname) (ms.map (·.toDmMeta))).2.1
    obtain ⟨sel, hsel⟩ := (C33_error_iff ((dictOf (fun m : DmMeta ℝ => m.dm) (fun m => m.fname) (ms.map (·.toDmMeta))).map Prod.fst) dm0
      (applyCap (galacticCap c.dmsinbMax gb) dm1) lo hi (n : ℝ) wmin).2 ⟨m.dm, (hdict m.dm).mpr hmap, hlow, hcap⟩
    refine ⟨⟨dictOf (fun m : DmMeta ℝ => m.dm) (fun m => m.fname) (ms.map (·.toDmMeta)), sel⟩, ?_⟩
    unfold prepare dmIteratorOf
    simp only [hw, h0, h1, hg', ht, hvr, Except.bind]
    have hlen : (ms.map (·.toDmMeta)).length ≠ 0 := by simpa using hms
    unfold dmIterator
    simp only [dmStartOf, dmEndOf, Except.bind, if_neg hlen, hbo, hsel, Except.map]

/-- C94: the selected DMs are those of files that can be selected, they include the smallest and the largest of these, and the
files are visited in the order of their DMs. -/
theorem C94_selected (c : PrepConf) (ms : List FileMeta) (hmx : ∀ x, c.dmsinbMax = some x → 0 < x) (it : DmIter ℝ)
    (h : prepare c ms = .ok it) (chunksize : ℕ) (hc : 1 ≤ chunksize) :
    (∃ lo, it.selectedDms.head? = some lo ∧ ∀ m, Selectable c ms m → lo ≤ m.dm) ∧
    (∃ hi, it.selectedDms.getLast? = some hi ∧ ∀ m, Selectable c ms m → m.dm ≤ hi) ∧
    it.selectedDms.Pairwise (· < ·) ∧
    ∃ chunks, iterateFilenames it chunksize = .ok chunks ∧
      (∀ k ∈ chunks, k ≠ [] ∧ k.length ≤ chunksize) ∧ (∀ k ∈ chunks.dropLast, k.length = chunksize) ∧
      List.Forall₂ (fun dm f => ∃ m, Selectable c ms m ∧ m.dm = dm ∧ m.fname = f) it.selectedDms chunks.flatten := by
  obtain ⟨wmin, dm0, dm1, gl, gb, b, t, hw, hne, hg, hb, hs, hd, hsel, hit, ht, hv⟩ := prepare_inv h hmx
  obtain ⟨hc1, ⟨lo, hlo, hlo'⟩, ⟨hi, hhi, hhi'⟩, _, _⟩ := C33_coverage _ _ _ _ _ _ _ _ hsel
  have hdict := (dictOf_spec (fun m : DmMeta ℝ => m.dm) (fun m => m.fname) (ms.map (·.toDmMeta))).2.1
  have hin : ∀ m, Selectable c ms m → m.dm ∈ (it.metadataDict.map Prod.fst).filter (fun x => dm0 ≤ x ∧ x ≤ dm1) := by
    intro m hm
    rw [List.mem_filter, hd]
    exact ⟨(hdict _).mpr (List.mem_map_of_mem (List.mem_map_of_mem hm.1)), by simpa using (hs m hm.1).mp hm⟩
  obtain ⟨chunks, h1, h2, h3, h4, h5⟩ := C35_iterate_filenames _ _ _ _ _ _ _ it hit chunksize hc
  refine ⟨⟨lo, hlo, fun m hm => hlo' _ (hin m hm)⟩, ⟨hi, hhi, fun m hm => hhi' _ (hin m hm)⟩, h4, chunks, h1, h2, h3, ?_⟩
  rw [List.forall₂_iff_get] at h5 ⊢
  refine ⟨h5.1, fun i i1 i2 => ?_⟩
  obtain ⟨m', hm', e1, e2⟩ := h5.2 i i1 i2
  obtain ⟨m, hm, rfl⟩ := List.mem_map.mp hm'
  refine ⟨m, (hs m hm).mpr ?_, e1, e2⟩
  obtain ⟨_, k2, k3⟩ := hc1 _ (List.get_mem it.selectedDms ⟨i, i1⟩)
  rw [e1]
  exact ⟨k2, k3⟩

theorem observedBand_unique {c : PrepConf} {ms : List FileMeta} (hne : ms ≠ []) {lo hi lo' hi' : ℝ} {n n' : ℕ}
    (h : ObservedBand c ms lo hi n) (h' : ObservedBand c ms lo' hi' n') : lo = lo' ∧ hi = hi' ∧ n = n' := by
  have h1 := (bandOf_iff hne (c := c) (b := (lo, hi, n))).mpr h
  have h2 := (bandOf_iff hne (c := c) (b := (lo', hi', n'))).mpr h'
  rw [h1] at h2
  simpa using h2

/-- C94: let `w` be the width of the narrowest phase bin of the configuration. A signal that is seen in one of the files that can be selected,
without more broadening than `w` or the smearing in a channel, is also seen in one of the selected files. -/
theorem C94_sensitivity (c : PrepConf) (ms : List FileMeta) (hmx : ∀ x, c.dmsinbMax = some x → 0 < x) (it : DmIter ℝ)
    (h : prepare c ms = .ok it) (lo hi : ℝ) (n : ℕ) (hb : ObservedBand c ms lo hi n) (h0 : 0 < lo) (h1 : lo < hi) (hn : 1 ≤ n)
    (w : ℝ) (hw : ∃ r ∈ c.ranges, w = r.pmin / r.binsMin) (hw' : ∀ r ∈ c.ranges, w ≤ r.pmin / r.binsMin)
    (x : ℝ) (m : FileMeta) (hm : Selectable c ms m) (hx : SeenAt lo hi n w m.dm x) :
    ∃ s, Selectable c ms s ∧ s.dm ∈ it.selectedDms ∧ SeenAt lo hi n w s.dm x := by
  obtain ⟨wmin, dm0, dm1, gl, gb, b, t, e, hne, hg, hb', hs, hd, hsel, hit, ht, hv⟩ := prepare_inv h hmx
  obtain ⟨b1, b2, b3⟩ := b
  obtain ⟨rfl, rfl, rfl⟩ := observedBand_unique hne hb hb'
  have : wmin = w := by
    obtain ⟨r, hr, rfl⟩ := hw
    have hp := pyMin_ok.mpr ⟨List.mem_map_of_mem (f := fun r : SearchRange ℝ => r.pmin / r.binsMin) hr, List.forall_mem_map.mpr hw'⟩
    unfold pipelineWmin at e
    rw [hp] at e
    cases e
    rfl
  subst this
  have hdict := (dictOf_spec (fun m : DmMeta ℝ => m.dm) (fun m => m.fname) (ms.map (·.toDmMeta))).2.1
  have hmem : m.dm ∈ it.metadataDict.map Prod.fst := by
    rw [hd]
    exact (hdict _).mpr (List.mem_map_of_mem (List.mem_map_of_mem hm.1))
  obtain ⟨k2, k3⟩ := (hs m hm.1).mp hm
  obtain ⟨s, hs1, hs2⟩ := C93_nothing_lost _ _ _ _ _ _ _ h0 h1 (by exact_mod_cast hn) _ hsel x m.dm hmem k2 k3 hx
  obtain ⟨j1, j2, j3⟩ := (C33_coverage _ _ _ _ _ _ _ _ hsel).1 s hs1
  rw [hd, hdict] at j1
  obtain ⟨m', hm', rfl⟩ := List.mem_map.mp j1
  obtain ⟨m2, hm2, rfl⟩ := List.mem_map.mp hm'
  exact ⟨m2, (hs m2 hm2).mpr ⟨j2, j3⟩, hs1, hs2⟩

/-! ## Validated configurations -/

theorem hasValue_unique {v : PyVal} {x y : ℝ} (hx : HasValue v x) (hy : HasValue v y) : x = y := by
  unfold HasValue at hx hy
  obtain ⟨q, rfl, rfl⟩ | ⟨q, rfl, rfl⟩ | ⟨rfl, rfl⟩ | ⟨rfl, rfl⟩ := hx <;>
    obtain ⟨q', e, rfl⟩ | ⟨q', e, rfl⟩ | ⟨e, rfl⟩ | ⟨e, rfl⟩ := hy <;> cases e <;> rfl

theorem required_real {d : List (String × PyVal)} (hf : AllFiniteDict d) {k : String} {v : PyVal} (hk : dictGet d k = some v)
    (hv : PosFloat v) : ∃ x, required pyReal d k = .ok x ∧ HasValue v x ∧ 0 < x := by
  obtain ⟨y, rfl, hy⟩ := hv
  obtain ⟨q, rfl⟩ : ∃ q, y = .fin q := by
    have := allFiniteDict_mem hf (dictGet_mem hk)
    unfold AllFinite at this
    exact this
  obtain hy | ⟨q', e, hq⟩ := hy
  · cases hy
  · cases e
    refine ⟨q, by unfold required; rw [hk]; rfl, Or.inl ⟨q, rfl, rfl⟩, by exact_mod_cast hq⟩

theorem required_count {d : List (String × PyVal)} {k : String} {v : PyVal} (hk : dictGet d k = some v)
    (hv : PosInt v) : ∃ n, required pyCount d k = .ok n ∧ HasValue v n ∧ 1 ≤ n := by
  unfold required
  rw [hk]
  simp only
  rcases hv with ⟨i, rfl, hi⟩ | rfl
  · refine ⟨i.toNat, by simp [pyCount, hi.le], Or.inr (Or.inl ⟨i, rfl, ?_⟩), by omega⟩
    exact_mod_cast Int.toNat_of_nonneg hi.le
  · exact ⟨1, by simp [pyCount], by simp [HasValue], le_rfl⟩

theorem optional_real {d : List (String × PyVal)} (hf : AllFiniteDict d) {k : String} {v : PyVal} (hk : dictGet d k = some v)
    (hv : v = .none ∨ (∃ x, v = .float x) ∨ PosInt v) :
    ∃ o, optionalArg pyReal d k = .ok o ∧ (o = none ↔ v = .none) ∧ ∀ x, o = some x → HasValue v x := by
  unfold optionalArg
  rw [hk]
  rcases hv with rfl | ⟨x, rfl⟩ | ⟨i, rfl, _⟩ | rfl
  · exact ⟨none, rfl, by simp, by simp⟩
  · obtain ⟨q, rfl⟩ : ∃ q, x = .fin q := by
      have := allFiniteDict_mem hf (dictGet_mem hk)
      unfold AllFinite at this
      exact this
    exact ⟨some q, rfl, by simp, by simp [HasValue]⟩
  · exact ⟨some i, rfl, by simp, by simp [HasValue]⟩
  · exact ⟨some 1, by simp [pyReal, Except.map], by simp, by simp [HasValue]⟩

theorem optional_count {d : List (String × PyVal)} {k : String} {v : PyVal} (hk : dictGet d k = some v)
    (hv : v = .none ∨ PosInt v) :
    ∃ o, optionalArg pyCount d k = .ok o ∧ (o = none ↔ v = .none) ∧ ∀ n, o = some n → HasValue v n ∧ 1 ≤ n := by
  unfold optionalArg
  rw [hk]
  rcases hv with rfl | ⟨i, rfl, hi⟩ | rfl
  · exact ⟨none, rfl, by simp, by simp⟩
  · refine ⟨some i.toNat, by simp [pyCount, hi.le, Except.map], by simp, ?_⟩
    rintro n ⟨⟩
    exact ⟨Or.inr (Or.inl ⟨i, rfl, by exact_mod_cast Int.toNat_of_nonneg hi.le⟩), by omega⟩
  · exact ⟨some 1, by simp [pyCount, Except.map], by simp, by simp [HasValue]⟩

theorem hasValue_pos {v : PyVal} {x : ℝ} (hv : HasValue v x) (hp : PosPlain v) : 0 < x := by
  rcases hp with (⟨i, rfl, hi⟩ | rfl) | ⟨y, rfl, hy⟩
  · obtain ⟨q, e, _⟩ | ⟨q, e, rfl⟩ | ⟨e, _⟩ | ⟨e, _⟩ := hv <;> cases e
    exact_mod_cast hi
  · obtain ⟨q, e, _⟩ | ⟨q, e, _⟩ | ⟨e, rfl⟩ | ⟨e, _⟩ := hv <;> cases e
    norm_num
  · obtain ⟨q, e, rfl⟩ | ⟨q, e, _⟩ | ⟨e, _⟩ | ⟨e, _⟩ := hv <;> cases e
    obtain hy | ⟨q', e, hq⟩ := hy
    · cases hy
    · cases e; exact_mod_cast hq

/-- What `prepare` takes from an entry of a section that may be blank. -/
def Taken (d : List (String × PyVal)) (k : String) (o : Option ℝ) : Prop :=
  (dictGet d k = some .none ∧ o = none) ∨ ∃ v x, dictGet d k = some v ∧ HasValue v x ∧ o = some x

theorem taken_of {d : List (String × PyVal)} {k : String} {v : PyVal} {o : Option ℝ} (hk : dictGet d k = some v)
    (h1 : o = none ↔ v = .none) (h2 : ∀ x, o = some x → HasValue v x) : Taken d k o := by
  cases o with
  | none => exact Or.inl ⟨by rw [hk, h1.mp rfl], rfl⟩
  | some x => exact Or.inr ⟨v, x, hk, h2 x rfl, rfl⟩

/-- The entries of a search range that `prepare` uses. -/
def RangeTaken (v : PyVal) (r : SearchRange ℝ) : Prop :=
  ∃ rr s cand v1 v2 v3 v4, v = .dict rr ∧ dictGet rr "ffa_search" = some (.dict s) ∧ dictGet rr "candidates" = some (.dict cand) ∧
    dictGet s "period_min" = some v1 ∧ HasValue v1 r.pmin ∧ dictGet s "period_max" = some v2 ∧ HasValue v2 r.pmax ∧
    dictGet s "bins_min" = some v3 ∧ HasValue v3 r.binsMin ∧ dictGet cand "bins" = some v4 ∧ HasValue v4 r.candBins ∧
    0 < r.pmin ∧ 0 < r.pmax ∧ 1 ≤ r.binsMin ∧ 1 ≤ r.candBins

theorem searchRangeOf_ok {r : PyVal} (hf : AllFinite r) (hsec : Section [("name", false, fun v => ∃ s, v = .str s),
    ("ffa_search", false, Section [("period_min", false, PosFloat), ("period_max", false, PosFloat), ("bins_min", false, PosInt),
      ("bins_max", false, PosInt), ("fpmin", true, PosInt), ("wtsp", true, fun v => ∃ x, v = .float x ∧ Above 1 x),
      ("ducy_max", true, fun v => ∃ q : ℚ, v = .float (.fin q) ∧ 0 < q ∧ q < 1)]),
    ("find_peaks", false, Section [("smin", true, PosFloat), ("segwidth", true, PosFloat), ("nstd", true, PosFloat),
      ("minseg", true, PosInt), ("polydeg", true, PosFloat), ("clrad", true, OrBlank PosFloat)]),
    ("candidates", false, Section [("bins", false, PosInt), ("subints", false, PosInt)])] r) :
    ∃ q, searchRangeOf r = .ok q ∧ RangeTaken r q := by
  obtain ⟨rr, rfl, _⟩ := id hsec
  unfold AllFinite at hf
  obtain ⟨v1, hv1⟩ := section_req hsec (k := "ffa_search") (by right; left)
  obtain ⟨v2, hv2⟩ := section_req hsec (k := "candidates") (by right; right; right; left)
  obtain ⟨o, P, hP, h1⟩ := section_get hsec hv1
  simp at hP
  obtain ⟨-, rfl⟩ := hP
  obtain ⟨s, rfl, _⟩ := id h1
  obtain ⟨o, P, hP, h2⟩ := section_get hsec hv2
  simp at hP
  obtain ⟨-, rfl⟩ := hP
  obtain ⟨cand, rfl, _⟩ := id h2
  have f1 := allFiniteDict_mem hf (dictGet_mem hv1)
  unfold AllFinite at f1
  obtain ⟨a1, ha1⟩ := section_req h1 (k := "period_min") (by left)
  obtain ⟨a2, ha2⟩ := section_req h1 (k := "period_max") (by right; left)
  obtain ⟨a3, ha3⟩ := section_req h1 (k := "bins_min") (by right; right; left)
  obtain ⟨a4, ha4⟩ := section_req h2 (k := "bins") (by left)
  obtain ⟨o, P, hP, g1⟩ := section_get h1 ha1
  simp at hP
  obtain ⟨-, rfl⟩ := hP
  obtain ⟨o, P, hP, g2⟩ := section_get h1 ha2
  simp at hP
  obtain ⟨-, rfl⟩ := hP
  obtain ⟨o, P, hP, g3⟩ := section_get h1 ha3
  simp at hP
  obtain ⟨-, rfl⟩ := hP
  obtain ⟨o, P, hP, g4⟩ := section_get h2 ha4
  simp at hP
  obtain ⟨-, rfl⟩ := hP
  obtain ⟨x1, e1, k1, p1⟩ := required_real f1 ha1 g1
  obtain ⟨x2, e2, k2, p2⟩ := required_real f1 ha2 g2
  obtain ⟨x3, e3, k3, p3⟩ := required_count ha3 g3
  obtain ⟨x4, e4, k4, p4⟩ := required_count ha4 g4
  refine ⟨⟨x1, x2, x3, x4, 0⟩, ?_, rr, s, cand, a1, a2, a3, a4, rfl, hv1, hv2, ha1, k1, ha2, k2, ha3, k3, ha4, k4, p1, p2, p3, p4⟩
  have hs : required pyDict rr "ffa_search" = .ok s := by unfold required; rw [hv1]; rfl
  have hcd : required pyDict rr "candidates" = .ok cand := by unfold required; rw [hv2]; rfl
  have hpd : pyDict (.dict rr) = .ok rr := rfl
  unfold searchRangeOf
  simp only [hpd, hs, hcd, e1, e2, e3, e4, Except.bind]

/-- C94: every validated configuration without infinite numbers can be used by `prepare`, which takes from it the values given there;
the cap, the frequencies, the numbers of bins and the periods are positive. -/
theorem C94_configured {conf v : PyVal} (h : validatePipelineConfig conf = .ok v) (hf : AllFinite v) :
    ∃ d data sel ranges c, v = .dict d ∧ dictGet d "data" = some (.dict data) ∧ dictGet d "dmselect" = some (.dict sel) ∧
      dictGet d "ranges" = some (.list ranges) ∧ prepConfOf v = .ok c ∧
      (dictGet data "format" = some (.str "presto") ∧ c.fmt = .presto ∨ dictGet data "format" = some (.str "sigproc") ∧ c.fmt = .sigproc) ∧
      Taken data "fmin" c.fmin ∧ Taken data "fmax" c.fmax ∧ Taken data "nchans" (c.nchans.map fun n => (n : ℝ)) ∧
      Taken sel "min" c.dmMin ∧ Taken sel "max" c.dmMax ∧ Taken sel "dmsinb_max" c.dmsinbMax ∧
      List.Forall₂ RangeTaken ranges c.ranges ∧
      (∀ x, c.dmsinbMax = some x → 0 < x) ∧ (∀ x, c.fmin = some x → 0 < x) ∧ (∀ x, c.fmax = some x → 0 < x) ∧
      (∀ n, c.nchans = some n → 1 ≤ n) := by
  have hv := C55_types h
  unfold ValidatedConf at hv
  obtain ⟨d, rfl, _⟩ := id hv
  unfold AllFinite at hf
  obtain ⟨vd, hvd⟩ := section_req hv (k := "data") (by right; left)
  obtain ⟨vs, hvs⟩ := section_req hv (k := "dmselect") (by right; right; left)
  obtain ⟨vr, hvr⟩ := section_req hv (k := "ranges") (by right; right; right; right; left)
  obtain ⟨o, P, hP, hx⟩ := section_get hv hvd
  simp at hP
  obtain ⟨-, rfl⟩ := hP
  obtain ⟨data, rfl, _⟩ := id hx
  obtain ⟨o, P, hP, hy⟩ := section_get hv hvs
  simp at hP
  obtain ⟨-, rfl⟩ := hP
  obtain ⟨sel, rfl, _⟩ := id hy
  obtain ⟨o, P, hP, hz⟩ := section_get hv hvr
  simp at hP
  obtain ⟨-, rfl⟩ := hP
  obtain ⟨ranges, rfl, hrs⟩ := id hz
  have f1 := allFiniteDict_mem hf (dictGet_mem hvd)
  have f2 := allFiniteDict_mem hf (dictGet_mem hvs)
  have f3 := allFiniteDict_mem hf (dictGet_mem hvr)
  unfold AllFinite at f1 f2 f3
  -- data
  obtain ⟨a1, ha1⟩ := section_req hx (k := "format") (by left)
  obtain ⟨a2, ha2⟩ := section_req hx (k := "fmin") (by right; left)
  obtain ⟨a3, ha3⟩ := section_req hx (k := "fmax") (by right; right; left)
  obtain ⟨a4, ha4⟩ := section_req hx (k := "nchans") (by right; right; right; left)
  obtain ⟨o, P, hP, g1⟩ := section_get hx ha1
  simp at hP
  obtain ⟨-, rfl⟩ := hP
  obtain ⟨o, P, hP, g2⟩ := section_get hx ha2
  simp at hP
  obtain ⟨-, rfl⟩ := hP
  obtain ⟨o, P, hP, g3⟩ := section_get hx ha3
  simp at hP
  obtain ⟨-, rfl⟩ := hP
  obtain ⟨o, P, hP, g4⟩ := section_get hx ha4
  simp at hP
  obtain ⟨-, rfl⟩ := hP
  obtain ⟨fmt, ef, hfmt⟩ : ∃ fmt, required pyFormat data "format" = .ok fmt ∧
      (a1 = .str "presto" ∧ fmt = .presto ∨ a1 = .str "sigproc" ∧ fmt = .sigproc) := by
    unfold required
    rw [ha1]
    rcases g1 with rfl | rfl
    · exact ⟨.presto, rfl, by simp⟩
    · exact ⟨.sigproc, rfl, by simp⟩
  obtain ⟨o2, e2, i2, k2⟩ := optional_real f1 ha2 (g2.imp_right posFloat_number)
  obtain ⟨o3, e3, i3, k3⟩ := optional_real f1 ha3 (g3.imp_right posFloat_number)
  obtain ⟨o4, e4, i4, k4⟩ := optional_count ha4 g4
  -- dmselect
  obtain ⟨b1, hb1⟩ := section_req hy (k := "min") (by left)
  obtain ⟨b2, hb2⟩ := section_req hy (k := "max") (by right; left)
  obtain ⟨b3, hb3⟩ := section_req hy (k := "dmsinb_max") (by right; right; left)
  obtain ⟨o, P, hP, j1⟩ := section_get hy hb1
  simp at hP
  obtain ⟨-, rfl⟩ := hP
  obtain ⟨o, P, hP, j2⟩ := section_get hy hb2
  simp at hP
  obtain ⟨-, rfl⟩ := hP
  obtain ⟨o, P, hP, j3⟩ := section_get hy hb3
  simp at hP
  obtain ⟨-, rfl⟩ := hP
  obtain ⟨o5, e5, i5, k5⟩ := optional_real f2 hb1 (j1.imp_right Or.inl)
  obtain ⟨o6, e6, i6, k6⟩ := optional_real f2 hb2 (j2.imp_right Or.inl)
  obtain ⟨o7, e7, i7, k7⟩ := optional_real f2 hb3 (by
    rcases j3 with j | j | ⟨x, j, _⟩
    · exact Or.inl j
    · exact Or.inr (Or.inr j)
    · exact Or.inr (Or.inl ⟨x, j⟩))
  -- ranges
  have hconf : ∀ r ∈ ranges, ∃ q, searchRangeOf r = .ok q ∧ RangeTaken r q := fun r hr =>
    searchRangeOf_ok (allFiniteList_mem f3 hr) (hrs r hr)
  have : Nonempty (SearchRange ℝ) := ⟨⟨0, 0, 0, 0, 0⟩⟩
  choose! g hg1 hg2 using hconf
  have hmap := mapM_ok searchRangeOf g ranges hg1
  refine ⟨d, data, sel, ranges, ⟨fmt, o2, o3, o4, o5, o6, o7, ranges.map g⟩, rfl, hvd, hvs, hvr, ?_, ?_, taken_of ha2 i2 k2,
    taken_of ha3 i3 k3, ?_, taken_of hb1 i5 k5, taken_of hb2 i6 k6, taken_of hb3 i7 k7, ?_, ?_, ?_, ?_, ?_⟩
  · have t1 : required pyDict d "data" = .ok data := by unfold required; rw [hvd]; rfl
    have t2 : required pyDict d "dmselect" = .ok sel := by unfold required; rw [hvs]; rfl
    have t3 : required pyList d "ranges" = .ok ranges := by unfold required; rw [hvr]; rfl
    have t4 : pyDict (.dict d) = .ok d := rfl
    unfold prepConfOf
    simp only [t1, t2, t3, t4, ef, e2, e3, e4, e5, e6, e7, hmap, Except.bind]
  · simp only [ha1, Option.some.injEq]
    exact hfmt
  · cases o4 with
    | none => exact Or.inl ⟨by rw [ha4, i4.mp rfl], rfl⟩
    | some n => exact Or.inr ⟨a4, n, ha4, (k4 n rfl).1, rfl⟩
  · rw [List.forall₂_map_right_iff, List.forall₂_same]
    exact hg2
  · intro x hx
    simp only at hx
    rcases j3 with j | j
    · rw [i7.mpr j] at hx; cases hx
    · exact hasValue_pos (k7 x hx) j
  · intro x hx
    simp only at hx
    rcases g2 with j | j
    · rw [i2.mpr j] at hx; cases hx
    · exact hasValue_pos (k2 x hx) (Or.inr j)
  · intro x hx
    simp only at hx
    rcases g3 with j | j
    · rw [i3.mpr j] at hx; cases hx
    · exact hasValue_pos (k3 x hx) (Or.inr j)
  · intro n hn
    exact (k4 n hn).2

/-- C94: after `prepare` with a validated configuration, every one of the files can be searched, provided that the rest of `FitsData` holds: the
condition on the sampling is the one that `prepare` has checked. -/
theorem C94_searchable {conf v : PyVal} (h : validatePipelineConfig conf = .ok v) (hf : AllFinite v) (c : PrepConf)
    (hcv : prepConfOf v = .ok c) (ms : List FileMeta) (it : DmIter ℝ) (hprep : prepare c ms = .ok it)
    (idx : IdxRule) (argsort : List ℝ → List ℕ) (fit : List ℝ → List ℝ → ℝ → ℝ)
    (d der : List (String × PyVal)) (ranges : List PyVal) (hd : v = .dict d) (hder : dictGet d "dereddening" = some (.dict der))
    (hran : dictGet d "ranges" = some (.list ranges)) (n : ℕ) (hn : dictGet der "rmed_minpts" = some (.int n)) (hodd : n % 2 = 1)
    (m : FileMeta) (hm : m ∈ ms)
    (w : World) (id : ℕ) (o : TsObj) (ho : w.objs[id]? = some o) (hg : GoodSeries w o) (ht : 0 < o.tsamp) (htm : o.tsamp = m.tsamp) (dm : ℝ)
    (hdm : dictGet (w.metaOf o) "dm" = some (.num dm))
    (hwin : ∀ x width, dictGet der "rmed_width" = some x → HasValue x width → WindowFits width o.tsamp n (w.dataOf o).length)
    (hfit : ∀ r ∈ ranges, ∃ rr p, r = .dict rr ∧ dictGet rr "find_peaks" = some (.dict p) ∧ dictGet p "clrad" ≠ some .none ∧
      ∀ c s, dictGet rr "ffa_search" = some (.dict s) → RangeArgs s p c →
        2 ≤ c.search.binsMin ∧ c.search.binsMin ≤ c.search.binsMax ∧
        c.search.periodMin < c.search.periodMax ∧ 2 * c.search.periodMax ≤ (w.dataOf o).length * o.tsamp ∧
        3 / (c.search.binsMin * ((w.dataOf o).length * o.tsamp)) < 1 / c.search.periodMin - 1 / c.search.periodMax ∧
        3 / c.search.binsMin ≤ c.peaks.segwidth ∧
        IdxFor idx ((w.dataOf o).length / c.search.binsMin)) :
    ∃ peaks, processConf idx argsort fit v w id = .ok peaks := by
  obtain ⟨d', data, sel, ranges', c', rfl, _, _, q3, q4, _, _, _, _, _, _, _, q5, q6, _⟩ := C94_configured h hf
  cases hd
  rw [hran] at q3
  cases q3
  rw [hcv] at q4
  cases q4
  obtain ⟨_, _, _, _, hs, _⟩ := (C94_accepts c ms q6).mp ⟨it, hprep⟩
  refine C84_partial h hf idx argsort fit d der ranges rfl hder hran n hn hodd w id o ho hg ht dm hdm hwin ?_
  intro r hr
  obtain ⟨rr, p, rfl, hp, hcl, hall⟩ := hfit r hr
  refine ⟨rr, p, rfl, hp, hcl, ?_⟩
  intro a s hs1 hargs
  obtain ⟨c1, c2, c3, c4, c5, c6, c7⟩ := hall a s hs1 hargs
  refine ⟨⟨c1, c2, ?_, c3, c4, c5, c6⟩, c7⟩
  obtain ⟨q, hq, hq'⟩ : ∃ q ∈ c.ranges, RangeTaken (.dict rr) q := by
    obtain ⟨i, hi, e⟩ := List.mem_iff_getElem.mp hr
    have hl := q5.length_eq
    have := (List.forall₂_iff_get.mp q5).2 i hi (hl ▸ hi)
    simp only [List.get_eq_getElem, e] at this
    exact ⟨_, List.getElem_mem _, this⟩
  obtain ⟨rr', s', cand, v1, v2, v3, v4, e1, e2, e3, e4, e5, e6, e7, e8, e9, _⟩ := hq'
  cases e1
  rw [hs1] at e2
  cases e2
  have u1 : a.search.periodMin = q.pmin := by
    rcases hargs.periodMin with ⟨x, hx, hx'⟩ | ⟨hx, _⟩
    · rw [e4] at hx; cases hx; exact hasValue_unique hx' e5
    · rw [e4] at hx; cases hx
  have u2 : (a.search.binsMin : ℝ) = q.binsMin := by
    rcases hargs.binsMin with ⟨x, hx, hx'⟩ | ⟨hx, _⟩
    · rw [e8] at hx; cases hx; exact hasValue_unique hx' e9
    · rw [e8] at hx; cases hx
  rw [u1, u2, htm, mul_comm]
  exact (hs q hq m hm).1

/-! ## Example: two files at the galactic latitude 30 degrees -/

/-- Two files of a telescope with 400 channels. -/
noncomputable def demoPrep : List FileMeta :=
  [⟨⟨0, "a", 1182, 400, 1⟩, 1 / 1000, 600, 120, 30⟩, ⟨⟨30, "b", 1182, 400, 1⟩, 1 / 2000, 600, 120, 30⟩]

/-- Two ranges, and a maximum of 45 for the DM times the sine of the latitude. -/
noncomputable def demoPrepConf : PrepConf := ⟨.presto, none, none, none, none, none, some 45, [⟨1, 2, 240, 256, 0⟩, ⟨2, 5, 480, 512, 0⟩]⟩

example : ∃ it, prepare demoPrepConf demoPrep = .ok it := by
  rw [C94_accepts _ _ (by simp [demoPrepConf])]
  refine ⟨by simp [demoPrepConf], ⟨120, 30, by simp [demoPrep]⟩, ⟨1182, 1582, 400, Or.inl ⟨rfl, ?_⟩⟩, ⟨demoPrep[1], ?_⟩, ?_, ?_⟩
  · intro m hm
    simp only [demoPrep, List.mem_cons, List.not_mem_nil, or_false] at hm
    rcases hm with rfl | rfl <;> norm_num
  · refine ⟨by simp [demoPrep], by simp [demoPrepConf], by simp [demoPrepConf], ?_⟩
    intro x hx
    simp only [demoPrepConf, Option.some.injEq] at hx
    subst hx
    have := Real.abs_sin_le_one ((demoPrep[1] : FileMeta).gb * Real.pi / 180)
    simp only [demoPrep, List.getElem_cons_succ, List.getElem_cons_zero] at this ⊢
    linarith
  · intro r hr m hm
    simp only [demoPrepConf, demoPrep, List.mem_cons, List.not_mem_nil, or_false] at hr hm
    rcases hr with rfl | rfl <;> rcases hm with rfl | rfl <;> norm_num
  · simp [demoPrepConf]

/-- The cap of 10 leaves no file at DM 30 and b = 30 degrees. -/
example : ¬ Selectable { demoPrepConf with dmsinbMax := some 10 } demoPrep demoPrep[1] := by
  rintro ⟨_, _, _, h⟩
  have := h 10 rfl
  simp only [demoPrep, List.getElem_cons_succ, List.getElem_cons_zero] at this
  rw [show (30 : ℝ) * Real.pi / 180 = Real.pi / 6 by ring, Real.sin_pi_div_six] at this
  norm_num at this

/-- C94 for a whole example: the configuration of `C84_false` with a file of 6 s, sampled 1500 times per second. -/
theorem C94_example (fit : List ℝ → List ℝ → ℝ → ℝ) : ∃ c it, prepConfOf (minptsConf (.int 101)) = .ok c ∧
    prepare c [⟨⟨10, "a", 1182, 400, 1⟩, 1 / 1500, 6, 120, 30⟩] = .ok it ∧ it.selectedDms = [10] ∧
    ∃ (w : World) (o : TsObj), w.objs[0]? = some o ∧ o.tsamp = 1 / 1500 ∧ (w.dataOf o).length = 9000 ∧
      ∃ peaks, processConf float32Idx insArgsort fit (minptsConf (.int 101)) w 0 = .ok peaks := by
  have hval : validatePipelineConfig (minptsConf (.int 101)) = .ok (minptsConf (.int 101)) := by with_unfolding_all rfl
  have hfin := minptsConf_finite (.int 101) trivial
  obtain ⟨m, hm⟩ : ∃ m : FileMeta, m = ⟨⟨10, "a", 1182, 400, 1⟩, 1 / 1500, 6, 120, 30⟩ := ⟨_, rfl⟩
  have hc : prepConfOf (minptsConf (.int 101)) = .ok ⟨.presto, none, none, none, some 0, some 1000, some 45, [⟨1 / 5, 1 / 2, 240, 256, 0⟩]⟩ := by
    have h1 : searchRangeOf (.dict [("name", .str "short"),
      ("ffa_search", .dict [("period_min", .float (.fin (1 / 5))), ("period_max", .float (.fin (1 / 2))), ("bins_min", .int 240),
      ("bins_max", .int 260), ("fpmin", .int 8), ("wtsp", .float (.fin (3 / 2)))]),
      ("find_peaks", .dict [("smin", .float (.fin 6))]),
      ("candidates", .dict [("bins", .int 256), ("subints", .int 32)])]) = .ok ⟨1 / 5, 1 / 2, 240, 256, 0⟩ := by
      simp [searchRangeOf, required, dictGet, pyDict, pyReal, pyCount, Except.bind]
    simp only [one_div] at h1 ⊢
    unfold prepConfOf minptsConf
    simp [required, optionalArg, dictGet, pyDict, pyList, pyFormat, pyReal, Except.bind, Except.map, h1, bind, pure, Except.pure]
  have hmx : ∀ x : ℝ, (some 45 : Option ℝ) = some x → 0 < x := by
    rintro x ⟨⟩
    norm_num
  obtain ⟨it, hit⟩ := (C94_accepts ⟨.presto, none, none, none, some 0, some 1000, some 45, [⟨1 / 5, 1 / 2, 240, 256, 0⟩]⟩ [m] hmx).mpr (by
    refine ⟨by simp, ⟨120, 30, by simp [hm]⟩, ⟨1182, 1582, 400, Or.inl ⟨rfl, ?_⟩⟩, ⟨m, by simp, ?_, ?_, ?_⟩, ?_, by simp⟩
    · intro m' hm'
      rw [List.mem_singleton] at hm'
      rw [hm', hm]
      norm_num
    · rintro x ⟨⟩; rw [hm]; norm_num
    · rintro x ⟨⟩; rw [hm]; norm_num
    · rintro x ⟨⟩
      have := Real.abs_sin_le_one (m.gb * Real.pi / 180)
      have h10 : m.dm = 10 := by rw [hm]
      rw [h10]
      linarith
    · intro r hr m' hm'
      rw [List.mem_singleton] at hm' hr
      rw [hm', hr, hm]
      norm_num)
  refine ⟨_, it, hc, hm ▸ hit, ?_, ?_⟩
  · obtain ⟨h1, _, h3, chunks, _, _, _, h5⟩ := C94_selected _ _ hmx it hit 1 le_rfl
    have hall : ∀ dm ∈ it.selectedDms, dm = 10 := by
      intro dm hdm
      obtain ⟨i, hi, rfl⟩ := List.mem_iff_getElem.mp hdm
      obtain ⟨m', hm', e, _⟩ := (List.forall₂_iff_get.mp h5).2 i hi (h5.length_eq ▸ hi)
      have := List.mem_singleton.mp hm'.1
      rw [this, hm] at e
      simpa using e.symm
    obtain ⟨lo, hlo, _⟩ := h1
    cases hs : it.selectedDms with
    | nil => rw [hs] at hlo; cases hlo
    | cons a l =>
      rw [hs] at hall h3
      cases l with
      | nil => rw [hall a (by simp)]
      | cons b l =>
        have := (List.pairwise_cons.mp h3).1 b (by simp)
        rw [hall a (by simp), hall b (by simp)] at this
        exact absurd this (lt_irrefl _)
  obtain ⟨z, hz⟩ : ∃ z : List ℝ, z = List.replicate 9000 1 := ⟨_, rfl⟩
  obtain ⟨w, hw⟩ : ∃ w : World, w = ⟨[z], [[("tobs", .num 6), ("dm", .num 10)]], [⟨0, 1 / 1500, 0⟩]⟩ := ⟨_, rfl⟩
  have hdata : w.dataOf ⟨0, 1 / 1500, 0⟩ = List.replicate 9000 1 := by rw [hw, ← hz]; rfl
  have hlen : w.lengthOf ⟨0, 1 / 1500, 0⟩ = 6 := by
    unfold World.lengthOf
    rw [hdata]
    norm_num
  have hg : GoodSeries w ⟨0, 1 / 1500, 0⟩ := by
    refine ⟨by simp [hw], by rw [hlen]; norm_num, ?_⟩
    rw [hlen, hw]
    simp [World.metaOf, List.getD, dictGet]
  have ho : w.objs[0]? = some ⟨0, 1 / 1500, 0⟩ := by rw [hw]; rfl
  have hdm : dictGet (w.metaOf ⟨0, 1 / 1500, 0⟩) "dm" = some (.num 10) := by
    rw [hw]
    simp [World.metaOf, List.getD, dictGet]
  have hr : pyRound (5 / (1 / 1500)) = 7500 := by norm_num [pyRound]
  refine ⟨w, ⟨0, 1 / 1500, 0⟩, ho, rfl, by rw [hdata, List.length_replicate], ?_⟩
  refine C94_searchable hval hfin _ hc [m] it hit float32Idx insArgsort fit _ _ _ rfl rfl rfl 101 rfl (by norm_num) m (by simp) w 0 _ ho hg
    (by norm_num) (by rw [hm]) 10 hdm ?_ ?_
  · intro x width hx hv
    cases hx
    obtain ⟨q, hq, rfl⟩ | ⟨i, hq, _⟩ | ⟨hq, _⟩ | ⟨hq, _⟩ := hv
    · cases hq
      refine ⟨7500, by push_cast; exact hr, by norm_num, by rw [hdata, List.length_replicate]; norm_num⟩
    · cases hq
    · cases hq
    · cases hq
  · intro r hr
    rw [List.mem_singleton] at hr
    subst hr
    refine ⟨_, _, rfl, rfl, by simp [dictGet], ?_⟩
    intro c s hs hc
    cases hs
    have g1 := given_fin hc.periodMin rfl
    have g2 := given_fin hc.periodMax rfl
    have g3 := given_int hc.binsMin rfl
    have g4 := given_int hc.binsMax rfl
    have g5 := given_none hc.segwidth rfl
    have g3' : c.search.binsMin = 240 := by exact_mod_cast g3
    have g4' : c.search.binsMax = 260 := by exact_mod_cast g4
    rw [hdata, List.length_replicate]
    refine ⟨?_, ?_, ?_, ?_, ?_, ?_, ?_⟩
    · omega
    · omega
    · rw [g1, g2]; norm_num
    · rw [g2]; norm_num
    · rw [g1, g2, g3']; norm_num
    · rw [g5, g3']; norm_num
    · rw [g3']
      exact Or.inr ⟨Or.inl rfl, by norm_num⟩

end Verif.Props
