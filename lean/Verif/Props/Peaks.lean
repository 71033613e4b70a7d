import Verif.Lemmas.Cluster
import Mathlib.Tactic.FieldSimp
import Mathlib.Algebra.Order.Archimedean.Basic
import Mathlib.Data.Rat.Floor

/-! # Clustering and peak detection: properties C29 - C32, C56 -/

namespace Verif.Props

open Verif.Model Verif.Spec Verif.Lemmas

set_option linter.unusedSectionVars false

variable {K : Type*} [Field K] [LinearOrder K] [IsStrictOrderedRing K]

/-- A sorting permutation exists (stable insertion sort): the assumption `IsArgsort` can be met. -/
def insArgsort (x : List K) : List ℕ :=
  (List.range x.length).insertionSort (fun i j => x.getD i 0 ≤ x.getD j 0)

theorem insArgsort_ok : IsArgsort (insArgsort (K := K)) := by
  intro x
  refine ⟨List.perm_insertionSort _ _, ?_⟩
  rw [List.pairwise_map]
  have : Std.Total (fun i j : ℕ => x.getD i 0 ≤ x.getD j 0) := ⟨fun a b => le_total _ _⟩
  have : IsTrans ℕ (fun i j : ℕ => x.getD i 0 ≤ x.getD j 0) := ⟨fun a b c h1 h2 => le_trans h1 h2⟩
  exact List.pairwise_insertionSort (fun i j : ℕ => x.getD i 0 ≤ x.getD j 0) (List.range x.length)

/-- C29: `cluster1d` returns the friends-of-friends partition, whatever order the sort leaves equal elements in. -/
theorem C29_cluster1d (argsort : List K → List ℕ) (ha : IsArgsort argsort) (x : List K) (r : K) (sorted : Bool)
    (hsorted : sorted = true → x.Pairwise (· ≤ ·) ∨ x.Pairwise (· ≥ ·)) :
    (∀ c ∈ cluster1d argsort x r sorted, c ≠ []) ∧
    (cluster1d argsort x r sorted).flatten.Perm (List.range x.length) ∧
    ∀ i j, i < x.length → j < x.length →
      ((∃ c ∈ cluster1d argsort x r sorted, i ∈ c ∧ j ∈ c) ↔ Linked (· < x.length) (fun k => x.getD k 0) r i j) := by
  have h := cluster1d_fof argsort ha x r sorted hsorted
  refine ⟨h.ne, (cluster1d_spec argsort ha x r sorted hsorted).1, ?_⟩
  intro i j hi _
  constructor
  · rintro ⟨c, hc, h1, h2⟩
    exact (h.linked hc h1).mp h2
  · intro hl
    obtain ⟨c, hc, h1⟩ := (h.cover i).mp hi
    exact ⟨c, hc, h1, (h.linked hc h1).mpr hl⟩

/-- Neighbouring clusters are further apart than the radius. -/
theorem C29_separation (argsort : List K → List ℕ) (ha : IsArgsort argsort) (x : List K) (r : K) (sorted : Bool)
    (hsorted : sorted = true → x.Pairwise (· ≤ ·) ∨ x.Pairwise (· ≥ ·)) (c c' : List ℕ)
    (hc : c ∈ cluster1d argsort x r sorted) (hc' : c' ∈ cluster1d argsort x r sorted) (hne : c ≠ c')
    (i j : ℕ) (hi : i ∈ c) (hj : j ∈ c') : r < |x.getD i 0 - x.getD j 0| :=
  (cluster1d_fof argsort ha x r sorted hsorted).far_of_ne hc hc' hne i hi j hj

example : cluster1d insArgsort ([5, 1, 9, 2, 6] : List ℚ) 1 false = [[1, 3], [0, 4], [2]] := by decide +kernel
example : cluster1d insArgsort ([9, 6, 5, 2, 1] : List ℚ) 1 true = [[0], [1, 2], [3, 4]] ∧
    ([9, 6, 5, 2, 1] : List ℚ).Pairwise (· ≥ ·) := by decide +kernel

/-- With `already_sorted` on data that are not sorted, the clusters are in general not the friends-of-friends partition: the
hypothesis is needed. -/
theorem C29_sorted_needed : ¬ ∀ (x : List ℚ) (r : ℚ), ∀ i j, i < x.length → j < x.length →
      ((∃ c ∈ cluster1d insArgsort x r true, i ∈ c ∧ j ∈ c) ↔ Linked (· < x.length) (fun k => x.getD k 0) r i j) := by
  intro h
  have h1 := (h [0, 10, 0] 1 0 2 (by decide) (by decide)).mpr
    (Relation.ReflTransGen.single ⟨by decide, by decide, by decide +kernel⟩)
  have h2 : ¬ ∃ c ∈ cluster1d insArgsort ([0, 10, 0] : List ℚ) 1 true, 0 ∈ c ∧ 2 ∈ c := by decide +kernel
  exact h2 h1

/-! ## Peaks -/

/-- A periodogram whose arrays have matching sizes. -/
structure PgramOK (g : Pgram K) : Prop where
  foldbins : g.foldbins.length = g.periods.length
  snrs : g.snrs.length = g.periods.length
  row : ∀ row ∈ g.snrs, row.length = g.widths.length

/-- S/N at period trial `i` and width trial `iw`. -/
def snrAt (g : Pgram K) (iw i : ℕ) : K := ((g.snrs.getD i []).getD iw 0)

/-- Frequency of period trial `i`. -/
def freqAt (g : Pgram K) (i : ℕ) : K := 1 / g.periods.getD i 0

/-- A point of width trial `iw` exceeds both thresholds. -/
def Significant (g : Pgram K) (thr : K → K) (smin : K) (iw i : ℕ) : Prop :=
  i < g.periods.length ∧ thr (freqAt g i) < snrAt g iw i ∧ smin < snrAt g iw i

theorem freqs_getD (g : Pgram K) (i : ℕ) (hi : i < g.periods.length) : g.freqs.getD i 0 = freqAt g i := by
  simp [Pgram.freqs, freqAt, List.getD, List.getElem?_eq_getElem hi]

theorem column_getD (g : Pgram K) (iw i : ℕ) (hi : i < g.snrs.length) : (g.column iw).getD i 0 = snrAt g iw i := by
  simp [Pgram.column, snrAt, List.getD, List.getElem?_eq_getElem hi]

theorem linked_congr {S S' : ℕ → Prop} {x x' : ℕ → K} {r : K} (hS : ∀ i, S i ↔ S' i) (hx : ∀ i, S i → x i = x' i)
    {i j : ℕ} : Linked S x r i j ↔ Linked S' x' r i j := by
  constructor
  · refine fun h => Relation.ReflTransGen.mono ?_ _ _ h
    rintro a b ⟨h1, h2, h3⟩
    rw [← hx a h1, ← hx b h2]
    exact ⟨(hS a).mp h1, (hS b).mp h2, h3⟩
  · refine fun h => Relation.ReflTransGen.mono ?_ _ _ h
    rintro a b ⟨h1, h2, h3⟩
    rw [hx a ((hS a).mpr h1), hx b ((hS b).mpr h2)]
    exact ⟨(hS a).mpr h1, (hS b).mpr h2, h3⟩

/-- The indices returned for one width trial. -/
theorem selectPeaks_spec (argsort : List K → List ℕ) (ha : IsArgsort argsort) (thr : K → K) (smin r : K) (g : Pgram K)
    (hg : PgramOK g) (iw : ℕ) :
    let R := selectPeaks argsort thr smin r g.freqs (g.column iw)
    let S := Significant g thr smin iw
    (∀ i ∈ R, S i) ∧ (∀ i ∈ R, ∀ j, Linked S (freqAt g) r i j → snrAt g iw j ≤ snrAt g iw i) ∧
    (∀ j, S j → ∃ i ∈ R, Linked S (freqAt g) r i j) ∧ R.Pairwise (fun i j => ¬ Linked S (freqAt g) r i j) := by
  intro R S
  set f := g.freqs with hf
  set s := g.column iw with hs
  set idx := (List.range f.length).filter (fun i => s.getD i 0 > thr (f.getD i 0) ∧ s.getD i 0 > smin) with hidx
  have hflen : f.length = g.periods.length := by simp [hf, Pgram.freqs]
  have hmem : ∀ i, i ∈ idx ↔ S i := by
    intro i
    rw [hidx, List.mem_filter, List.mem_range, hflen]
    constructor
    · rintro ⟨h1, h2⟩
      rw [freqs_getD g i h1, column_getD g iw i (by rw [hg.snrs]; exact h1)] at h2
      exact ⟨h1, by simpa using h2⟩
    · rintro ⟨h1, h2⟩
      rw [freqs_getD g i h1, column_getD g iw i (by rw [hg.snrs]; exact h1)]
      exact ⟨h1, by simpa using h2⟩
  have hnd : idx.Nodup := List.Nodup.filter _ List.nodup_range
  have hfof := cluster_sel_fof argsort ha (fun i => f.getD i 0) idx hnd r
  have hb := fof_best hfof (fun i => s.getD i 0) (fun ix => ix.getD (argmax (ix.map (fun i => s.getD i 0))) 0)
    (fun c hc => best_spec _ c hc)
  have hR : R = (((cluster1d argsort (idx.map (fun i => f.getD i 0)) r false).map
      (fun cl => cl.map (fun k => idx.getD k 0))).map (fun ix => ix.getD (argmax (ix.map (fun i => s.getD i 0))) 0)) := by
    rw [List.map_map]; rfl
  rw [← hR] at hb
  obtain ⟨h1, h2, h3, h4⟩ := hb
  have hl : ∀ i j, Linked (· ∈ idx) (fun i => f.getD i 0) r i j ↔ Linked S (freqAt g) r i j := by
    intro i j
    exact linked_congr hmem (fun i hi => freqs_getD g i ((hmem i).mp hi).1)
  refine ⟨fun i hi => (hmem i).mp (h1 i hi), ?_, ?_, ?_⟩
  · intro i hi j hj
    have hSi := (hmem i).mp (h1 i hi)
    have hSj : S j := linked_mem hj hSi
    rw [← column_getD g iw i (by rw [hg.snrs]; exact hSi.1), ← column_getD g iw j (by rw [hg.snrs]; exact hSj.1)]
    exact h2 i hi j ((hl i j).mpr hj)
  · intro j hj
    obtain ⟨i, hi, hij⟩ := h3 j ((hmem j).mpr hj)
    exact ⟨i, hi, (hl i j).mp hij⟩
  · exact h4.imp (fun h hh => h ((hl _ _).mpr hh))

variable [FloorSemiring K]

/-- The threshold of width trial `iw`: what `find_peaks_single` computes before selecting points. -/
def thresholdOf (fit : List K → List K → K → K) (p : PeakParams K) (g : Pgram K) (iw : ℕ) : Except PyErr (K → K) :=
  dynThreshold fit p g.freqs (g.column iw) g.tobs

theorem mapM_ok_inv {α β ε : Type*} (f : α → Except ε β) : ∀ (l : List α) (r : List β), l.mapM f = .ok r →
    List.Forall₂ (fun a b => f a = .ok b) l r := by
  intro l
  induction l with
  | nil => intro r h; simp [pure, Except.pure] at h; subst h; exact List.Forall₂.nil
  | cons a l ih =>
    intro r h
    rw [List.mapM_cons] at h
    cases ha : f a with
    | error e => rw [ha] at h; simp [bind, Except.bind] at h
    | ok b =>
      rw [ha] at h
      cases hl : l.mapM f with
      | error e => rw [hl] at h; simp [bind, Except.bind] at h
      | ok bs =>
        rw [hl] at h
        simp [bind, Except.bind, pure, Except.pure] at h
        subst h
        exact List.Forall₂.cons ha (ih bs hl)

/-- The peak made from period trial `ip` of width trial `iw`. -/
def peakAt (g : Pgram K) (iw width ip : ℕ) : Peak K :=
  { freq := freqAt g ip, period := 1 / freqAt g ip, width, ducy := (width : K) / (g.foldbins.getD ip 0 : ℕ),
    iw, ip, snr := snrAt g iw ip }

theorem selectPeaks_lt (argsort : List K → List ℕ) (ha : IsArgsort argsort) (thr : K → K) (smin r : K) (g : Pgram K)
    (hg : PgramOK g) (iw : ℕ) (i : ℕ) (hi : i ∈ selectPeaks argsort thr smin r g.freqs (g.column iw)) :
    i < g.periods.length := ((selectPeaks_spec argsort ha thr smin r g hg iw).1 i hi).1

theorem peaksOfWidth_inv (argsort : List K → List ℕ) (ha : IsArgsort argsort) (fit : List K → List K → K → K)
    (p : PeakParams K) (g : Pgram K) (hg : PgramOK g) (iw width : ℕ) (b : List (Peak K))
    (h : peaksOfWidth argsort fit p g iw width = .ok b) :
    ∃ thr, thresholdOf fit p g iw = .ok thr ∧
      b = (selectPeaks argsort thr p.smin (p.clrad / g.tobs) g.freqs (g.column iw)).map (peakAt g iw width) := by
  unfold peaksOfWidth findPeaksSingle at h
  unfold thresholdOf
  simp only at h
  cases ht : dynThreshold fit p g.freqs (g.column iw) g.tobs with
  | error e => rw [ht] at h; simp [Except.map] at h
  | ok t =>
    rw [ht] at h
    simp only [Except.map, Except.ok.injEq] at h
    refine ⟨t, rfl, ?_⟩
    rw [← h]
    apply List.map_congr_left
    intro i hi
    have hlt := selectPeaks_lt argsort ha t p.smin _ g hg iw i hi
    rw [freqs_getD g i hlt, column_getD g iw i (by rw [hg.snrs]; exact hlt)]
    rfl

theorem forall2_map {α β ε : Type*} (f : α → Except ε β) (G : α → β) : ∀ (l : List α) (r : List β),
    List.Forall₂ (fun a b => f a = .ok b) l r → (∀ a ∈ l, ∀ b, f a = .ok b → b = G a) → r = l.map G := by
  intro l r h
  induction h with
  | nil => intro _; rfl
  | cons hab _ ih =>
    intro hG
    rw [List.map_cons, ← ih (fun a ha b hb => hG a (List.mem_cons_of_mem _ ha) b hb),
      ← hG _ List.mem_cons_self _ hab]

theorem forall2_ok {α β ε : Type*} (f : α → Except ε β) : ∀ (l : List α) (r : List β),
    List.Forall₂ (fun a b => f a = .ok b) l r → ∀ a ∈ l, ∃ b, f a = .ok b := by
  intro l r h
  induction h with
  | nil => intro a ha; simp at ha
  | cons hab _ ih =>
    intro a ha
    rcases List.mem_cons.mp ha with h | h
    · rw [h]; exact ⟨_, hab⟩
    · exact ih a h

theorem sortPeaks_perm (l : List (Peak K)) : (sortPeaks l).Perm l := List.mergeSort_perm _ _

theorem sortPeaks_sorted (l : List (Peak K)) : (sortPeaks l).Pairwise (fun a b => b.snr ≤ a.snr) := by
  have := List.pairwise_mergeSort (le := fun a b : Peak K => decide (b.snr ≤ a.snr))
    (fun a b c h1 h2 => by simp only [decide_eq_true_eq] at *; exact le_trans h2 h1)
    (fun a b => by simp only [Bool.or_eq_true, decide_eq_true_eq]; exact le_total _ _) l
  exact this.imp (fun h => by simpa using h)

/-- Inversion of a successful `find_peaks`. -/
theorem findPeaks_inv (argsort : List K → List ℕ) (ha : IsArgsort argsort) (fit : List K → List K → K → K)
    (p : PeakParams K) (g : Pgram K) (hg : PgramOK g) (peaks : List (Peak K))
    (h : findPeaks argsort fit p g = .ok peaks) :
    ∃ thr : ℕ → K → K, (∀ iw < g.widths.length, thresholdOf fit p g iw = .ok (thr iw)) ∧
      peaks.Perm (g.widths.zipIdx.flatMap (fun wi =>
        (selectPeaks argsort (thr wi.2) p.smin (p.clrad / g.tobs) g.freqs (g.column wi.2)).map (peakAt g wi.2 wi.1))) ∧
      peaks.Pairwise (fun a b => b.snr ≤ a.snr) := by
  unfold findPeaks at h
  have hfun : (fun (width, iw) => peaksOfWidth argsort fit p g iw width) =
      (fun wi : ℕ × ℕ => peaksOfWidth argsort fit p g wi.2 wi.1) := rfl
  rw [hfun] at h
  cases hm : g.widths.zipIdx.mapM (fun (wi : ℕ × ℕ) => peaksOfWidth argsort fit p g wi.2 wi.1) with
  | error e => rw [hm] at h; simp [Except.map] at h
  | ok ls =>
    rw [hm] at h
    simp only [Except.map, Except.ok.injEq] at h
    have h2 := mapM_ok_inv _ _ _ hm
    have h3 := forall2_ok _ _ _ h2
    let thr : ℕ → K → K := fun iw => match thresholdOf fit p g iw with
      | .ok t => t
      | .error _ => fun _ => 0
    have hthr : ∀ iw t, thresholdOf fit p g iw = .ok t → t = thr iw := by
      intro iw t ht
      simp only [thr, ht]
    refine ⟨thr, ?_, ?_, ?_⟩
    · intro iw hiw
      have hmem : (g.widths[iw], iw) ∈ g.widths.zipIdx := by
        rw [List.mem_zipIdx_iff_getElem?]
        simp [hiw]
      obtain ⟨b, hb⟩ := h3 _ hmem
      obtain ⟨t, ht, -⟩ := peaksOfWidth_inv argsort ha fit p g hg _ _ _ hb
      rw [ht, hthr iw t ht]
    · rw [← h]
      refine (sortPeaks_perm _).trans ?_
      rw [forall2_map _ (fun wi : ℕ × ℕ => (selectPeaks argsort (thr wi.2) p.smin (p.clrad / g.tobs) g.freqs
        (g.column wi.2)).map (peakAt g wi.2 wi.1)) _ _ h2 ?_, List.flatMap_def]
      intro wi _ b hb
      obtain ⟨t, ht, hbt⟩ := peaksOfWidth_inv argsort ha fit p g hg _ _ _ hb
      rw [hbt, hthr _ _ ht]
    · rw [← h]
      exact sortPeaks_sorted _

/-- C30: every peak is one entry of the periodogram that exceeds both thresholds and is the highest of all significant points
that it is linked with; the list is sorted by decreasing S/N. -/
theorem C30_peaks_genuine (argsort : List K → List ℕ) (ha : IsArgsort argsort) (fit : List K → List K → K → K)
    (p : PeakParams K) (g : Pgram K) (hg : PgramOK g) (peaks : List (Peak K))
    (h : findPeaks argsort fit p g = .ok peaks) :
    (∀ q ∈ peaks,
      ∃ P nb row, g.periods[q.ip]? = some P ∧ g.foldbins[q.ip]? = some nb ∧ g.widths[q.iw]? = some q.width ∧
        g.snrs[q.ip]? = some row ∧ row[q.iw]? = some q.snr ∧
        q.period = P ∧ q.freq = 1 / P ∧ q.ducy = (q.width : K) / (nb : K) ∧
        ∃ thr, thresholdOf fit p g q.iw = .ok thr ∧ thr q.freq < q.snr ∧ p.smin < q.snr ∧
          ∀ j, Linked (Significant g thr p.smin q.iw) (freqAt g) (p.clrad / g.tobs) q.ip j → snrAt g q.iw j ≤ q.snr) ∧
    peaks.Pairwise (fun a b => b.snr ≤ a.snr) := by
  obtain ⟨thr, h1, h2, h3⟩ := findPeaks_inv argsort ha fit p g hg peaks h
  refine ⟨?_, h3⟩
  intro q hq
  have hq := h2.mem_iff.mp hq
  obtain ⟨⟨w, iw⟩, hwi, hq⟩ := List.mem_flatMap.mp hq
  obtain ⟨ip, hip, rfl⟩ := List.mem_map.mp hq
  simp only at hip
  rw [List.mem_zipIdx_iff_getElem?] at hwi
  simp only at hwi
  have hiw : iw < g.widths.length := by
    by_contra hn
    rw [List.getElem?_eq_none (not_lt.mp hn)] at hwi
    simp at hwi
  obtain ⟨hs1, hs2, -, -⟩ := selectPeaks_spec argsort ha (thr iw) p.smin (p.clrad / g.tobs) g hg iw
  obtain ⟨hlt, ht1, ht2⟩ := hs1 ip hip
  have hltf : ip < g.foldbins.length := by rw [hg.foldbins]; exact hlt
  have hlts : ip < g.snrs.length := by rw [hg.snrs]; exact hlt
  have hrow : iw < g.snrs[ip].length := by rw [hg.row _ (List.getElem_mem hlts)]; exact hiw
  have hper : g.periods.getD ip 0 = g.periods[ip] := by simp [List.getD, List.getElem?_eq_getElem hlt]
  refine ⟨g.periods[ip], g.foldbins[ip], g.snrs[ip], List.getElem?_eq_getElem hlt, List.getElem?_eq_getElem hltf, hwi,
    List.getElem?_eq_getElem hlts, ?_, ?_, ?_, ?_, thr iw, h1 iw hiw, ht1, ht2, hs2 ip hip⟩
  · simp only [peakAt]
    rw [List.getElem?_eq_getElem hrow]
    simp [snrAt, List.getD, List.getElem?_eq_getElem hlts, List.getElem?_eq_getElem hrow]
  · simp [peakAt, freqAt, List.getD, List.getElem?_eq_getElem hlt]
  · simp [peakAt, freqAt, List.getD, List.getElem?_eq_getElem hlt]
  · simp [peakAt, List.getD, List.getElem?_eq_getElem hltf]

/-- C31: every significant point of a width trial is linked to exactly one peak of that width trial, whose S/N is at
least as high. -/
theorem C31_none_lost (argsort : List K → List ℕ) (ha : IsArgsort argsort) (fit : List K → List K → K → K)
    (p : PeakParams K) (g : Pgram K) (hg : PgramOK g) (peaks : List (Peak K))
    (h : findPeaks argsort fit p g = .ok peaks) (iw : ℕ) (hiw : iw < g.widths.length) :
    ∃ thr, thresholdOf fit p g iw = .ok thr ∧ ∀ i, Significant g thr p.smin iw i →
      ∃! q, (q ∈ peaks ∧ q.iw = iw ∧
        Linked (Significant g thr p.smin iw) (freqAt g) (p.clrad / g.tobs) q.ip i) ∧ snrAt g iw i ≤ q.snr := by
  obtain ⟨thr, h1, h2, h3⟩ := findPeaks_inv argsort ha fit p g hg peaks h
  refine ⟨thr iw, h1 iw hiw, ?_⟩
  intro i hi
  obtain ⟨hs1, hs2, hs3, hs4⟩ := selectPeaks_spec argsort ha (thr iw) p.smin (p.clrad / g.tobs) g hg iw
  obtain ⟨j, hj, hl⟩ := hs3 i hi
  refine ⟨peakAt g iw g.widths[iw] j, ⟨⟨?_, rfl, hl⟩, hs2 j hj i hl⟩, ?_⟩
  · rw [h2.mem_iff, List.mem_flatMap]
    refine ⟨(g.widths[iw], iw), ?_, List.mem_map.mpr ⟨j, hj, rfl⟩⟩
    rw [List.mem_zipIdx_iff_getElem?]
    simp [hiw]
  · rintro q ⟨⟨hq, hqiw, hql⟩, -⟩
    rw [h2.mem_iff, List.mem_flatMap] at hq
    obtain ⟨⟨w, iw'⟩, hwi, hq⟩ := hq
    obtain ⟨j', hj', rfl⟩ := List.mem_map.mp hq
    have hii : iw' = iw := hqiw
    subst hii
    rw [List.mem_zipIdx_iff_getElem?, List.getElem?_eq_getElem hiw] at hwi
    simp only [Option.some.injEq] at hwi
    have hjj : j' = j := by
      by_contra hne
      have hsym : Std.Symm (fun i j => ¬ Linked (Significant g (thr iw') p.smin iw') (freqAt g) (p.clrad / g.tobs) i j) :=
        ⟨fun a b h h' => h (linked_symm h')⟩
      have hnl := hs4.forall hj' hj hne
      exact hnl (Relation.ReflTransGen.trans hql (linked_symm hl))
    rw [hjj, hwi]

/-- C31: two entries of the list of peaks with the same width trial are further apart than the clustering radius. -/
theorem C31_peaks_separated (argsort : List K → List ℕ) (ha : IsArgsort argsort) (fit : List K → List K → K → K)
    (p : PeakParams K) (g : Pgram K) (hg : PgramOK g) (peaks : List (Peak K))
    (h : findPeaks argsort fit p g = .ok peaks) :
    peaks.Pairwise (fun a b => a.iw = b.iw → p.clrad / g.tobs < |a.freq - b.freq|) := by
  obtain ⟨thr, h1, h2, h3⟩ := findPeaks_inv argsort ha fit p g hg peaks h
  have hsym : Std.Symm (fun a b : Peak K => a.iw = b.iw → p.clrad / g.tobs < |a.freq - b.freq|) :=
    ⟨fun a b h h' => by rw [abs_sub_comm]; exact h h'.symm⟩
  refine (h2.pairwise_iff (fun {a b} => hsym.symm a b)).mpr ?_
  rw [List.pairwise_flatMap]
  constructor
  · rintro ⟨w, iw⟩ hwi
    rw [List.pairwise_map]
    obtain ⟨hs1, hs2, hs3, hs4⟩ := selectPeaks_spec argsort ha (thr iw) p.smin (p.clrad / g.tobs) g hg iw
    refine List.Pairwise.imp_of_mem ?_ hs4
    intro a b ha' hb' hab _
    by_contra hn
    exact hab (Relation.ReflTransGen.single ⟨hs1 a ha', hs1 b hb', not_lt.mp hn⟩)
  · have hnd : g.widths.zipIdx.Pairwise (fun a b => a.2 ≠ b.2) := by
      have : (g.widths.zipIdx.map Prod.snd).Nodup := by
        rw [show (Prod.snd : ℕ × ℕ → ℕ) = Prod.snd from rfl, List.zipIdx_map_snd]
        exact List.nodup_range'
      exact List.pairwise_map.mp this
    refine hnd.imp ?_
    rintro ⟨w, iw⟩ ⟨w', iw'⟩ hne a ha' b hb' hab
    obtain ⟨j, -, rfl⟩ := List.mem_map.mp ha'
    obtain ⟨j', -, rfl⟩ := List.mem_map.mp hb'
    exact absurd hab hne

/-! ## Control points of the threshold -/

/-- Number of segments of width `segwidth / T` between the first and last frequency. -/
def numSegments (f0 f1 T segwidth : K) : ℕ := ⌈|f1 - f0| / (segwidth / T)⌉₊

/-- C32 (partial): if the first and last trial frequencies differ and there are at least as many trials as segments,
`segment_stats` returns one control point per segment. Not covered by this: the other periodograms, on which it fails
(`C32_single_trial`, `C32_sparse`). -/
theorem C32_segment_stats_partial (f s : List K) (T segwidth f0 f1 : K) (hT : 0 < T) (hw : 0 < segwidth)
    (h0 : f.head? = some f0) (h1 : f.getLast? = some f1) (hne : f0 ≠ f1)
    (hm : numSegments f0 f1 T segwidth ≤ f.length) :
    ∃ fc smed sstd, segmentStats f s T segwidth = .ok (fc, smed, sstd) ∧
      fc.length = numSegments f0 f1 T segwidth ∧ smed.length = numSegments f0 f1 T segwidth ∧
      sstd.length = numSegments f0 f1 T segwidth := by
  have hpos : 0 < |f1 - f0| / (segwidth / T) :=
    div_pos (abs_pos.mpr (sub_ne_zero.mpr hne.symm)) (div_pos hw hT)
  have hm0 : numSegments f0 f1 T segwidth ≠ 0 := by
    unfold numSegments
    exact (Nat.ceil_pos.mpr hpos).ne'
  have hp0 : f.length / numSegments f0 f1 T segwidth ≠ 0 :=
    (Nat.div_pos hm (Nat.pos_of_ne_zero hm0)).ne'
  unfold segmentStats
  rw [if_neg hT.ne', h0, h1]
  simp only
  rw [if_neg (div_pos hw hT).ne']
  unfold numSegments at hm0 hp0 ⊢
  rw [if_neg hm0, if_neg hp0]
  exact ⟨_, _, _, rfl, by simp, by simp, by simp⟩

/-- C32 is false: with a single trial, or more generally equal first and last frequencies, the number of segments is zero
and the division by it raises `ZeroDivisionError`. -/
theorem C32_single_trial (f s : List K) (T segwidth f0 : K) (hT : 0 < T) (hw : 0 < segwidth)
    (h0 : f.head? = some f0) (h1 : f.getLast? = some f0) :
    segmentStats f s T segwidth = .error .zeroDivisionError := by
  unfold segmentStats
  rw [if_neg hT.ne', h0, h1]
  simp only
  rw [if_neg (div_pos hw hT).ne', if_pos (by simp)]

/-- Fewer trials than segments: the segments have no elements. -/
theorem C32_sparse (f s : List K) (T segwidth f0 f1 : K) (hT : 0 < T) (hw : 0 < segwidth)
    (h0 : f.head? = some f0) (h1 : f.getLast? = some f1) (hne : f0 ≠ f1)
    (hm : f.length < numSegments f0 f1 T segwidth) :
    segmentStats f s T segwidth = .error .unspecified := by
  have hpos : 0 < |f1 - f0| / (segwidth / T) :=
    div_pos (abs_pos.mpr (sub_ne_zero.mpr hne.symm)) (div_pos hw hT)
  have hm0 : numSegments f0 f1 T segwidth ≠ 0 := by
    unfold numSegments
    exact (Nat.ceil_pos.mpr hpos).ne'
  unfold segmentStats
  rw [if_neg hT.ne', h0, h1]
  simp only
  rw [if_neg (div_pos hw hT).ne']
  unfold numSegments at hm0 hm
  rw [if_neg hm0, if_pos (Nat.div_eq_of_lt hm)]

/-- The negation of C32, with a witness: one trial at 1 Hz, an observation of 100 s, the default segment width. -/
theorem C32_false : ¬ ∀ (f s : List ℚ) (T segwidth : ℚ), f ≠ [] → f.length = s.length → 0 < T → 0 < segwidth →
    ∃ r, segmentStats f s T segwidth = .ok r := by
  intro h
  obtain ⟨r, hr⟩ := h [1] [7] 100 5 (by simp) rfl (by norm_num) (by norm_num)
  rw [C32_single_trial [1] [7] 100 5 1 (by norm_num) (by norm_num) rfl rfl] at hr
  cases hr

example : ∃ fc smed sstd, segmentStats ([8, 7, 6, 5, 4] : List ℚ) [1, 2, 3, 4, 5] 1 2 = .ok (fc, smed, sstd) ∧
    fc.length = 2 := by
  have h2 : numSegments (8 : ℚ) 4 1 2 = 2 := by
    unfold numSegments
    rw [show |(4 : ℚ) - 8| / (2 / 1) = ((2 : ℕ) : ℚ) by norm_num, Nat.ceil_natCast]
  obtain ⟨fc, smed, sstd, h, hl, -⟩ := C32_segment_stats_partial ([8, 7, 6, 5, 4] : List ℚ) [1, 2, 3, 4, 5] 1 2 8 4
    (by norm_num) (by norm_num) rfl rfl (by norm_num) (by rw [h2]; decide)
  exact ⟨fc, smed, sstd, h, by rw [hl, h2]⟩

/-- The spread of the S/N in each segment comes out non-negative, so that for `nstd ≥ 0` the threshold control points are not
below the segment medians. -/
theorem percentile_mono (x : List K) (hx : x ≠ []) (q q' : K) (h0 : 0 ≤ q) (hqq : q ≤ q') (h1 : q' ≤ 100) :
    percentile x q ≤ percentile x q' := by
  set t := x.mergeSort (· ≤ ·) with ht
  have hlen : t.length = x.length := List.length_mergeSort x
  have hn : 1 ≤ x.length := List.length_pos_iff.mpr hx
  have hnK : (0 : K) ≤ (x.length : K) - 1 := by
    have : ((1 : ℕ) : K) ≤ x.length := Nat.cast_le.mpr hn
    push_cast at this
    linarith
  have hsort : t.Pairwise (· ≤ ·) := by
    have := List.pairwise_mergeSort (le := fun a b : K => decide (a ≤ b))
      (fun a b c h1 h2 => by simp only [decide_eq_true_eq] at *; exact le_trans h1 h2)
      (fun a b => by simp only [Bool.or_eq_true, decide_eq_true_eq]; exact le_total _ _) x
    exact this.imp (fun h => by simpa using h)
  have hmono : ∀ i j, i ≤ j → j < x.length → t.getD i 0 ≤ t.getD j 0 := by
    intro i j hij hj
    rw [← hlen] at hj
    simp only [List.getD, List.getElem?_eq_getElem hj, List.getElem?_eq_getElem (lt_of_le_of_lt hij hj), Option.getD_some]
    rcases Nat.eq_or_lt_of_le hij with h | h
    · subst h; exact le_rfl
    · exact List.pairwise_iff_getElem.mp hsort i j _ _ h
  unfold percentile
  simp only [← ht]
  set v := ((x.length : K) - 1) * q / 100
  set v' := ((x.length : K) - 1) * q' / 100
  have hv0 : 0 ≤ v := by positivity
  have hvv : v ≤ v' := by
    apply div_le_div_of_nonneg_right _ (by norm_num)
    exact mul_le_mul_of_nonneg_left hqq hnK
  have hv1 : v' ≤ (x.length : K) - 1 := by
    rw [div_le_iff₀ (by norm_num)]
    exact mul_le_mul_of_nonneg_left h1 hnK
  have hfl : (⌊v⌋₊ : K) ≤ v := Nat.floor_le hv0
  have hfl' : (⌊v'⌋₊ : K) ≤ v' := Nat.floor_le (le_trans hv0 hvv)
  have hfu : v < ⌊v⌋₊ + 1 := Nat.lt_floor_add_one v
  have hfu' : v' < ⌊v'⌋₊ + 1 := Nat.lt_floor_add_one v'
  have hlt : ⌊v'⌋₊ < x.length := by
    have h1 : (⌊v'⌋₊ : K) < (x.length : K) := by linarith
    exact_mod_cast h1
  have hle : ⌊v⌋₊ ≤ ⌊v'⌋₊ := Nat.floor_le_floor hvv
  have hstep : 0 ≤ (v' - ⌊v'⌋₊) * (t.getD (⌊v'⌋₊ + 1) 0 - t.getD ⌊v'⌋₊ 0) := by
    by_cases h : ⌊v'⌋₊ + 1 < x.length
    · exact mul_nonneg (by linarith) (by linarith [hmono ⌊v'⌋₊ (⌊v'⌋₊ + 1) (by omega) h])
    · have h2 : ⌊v'⌋₊ + 1 = x.length := by omega
      have h3 : ((⌊v'⌋₊ : K)) = (x.length : K) - 1 := by rw [← h2]; push_cast; ring
      have h4 : v' - ⌊v'⌋₊ = 0 := by linarith
      rw [h4, zero_mul]
  rcases Nat.eq_or_lt_of_le hle with h | h
  · rw [← h]
    by_cases h5 : ⌊v⌋₊ + 1 < x.length
    · have := hmono ⌊v⌋₊ (⌊v⌋₊ + 1) (by omega) h5
      have := mul_le_mul_of_nonneg_right (show v - ⌊v⌋₊ ≤ v' - ⌊v⌋₊ by linarith) (sub_nonneg.mpr this)
      linarith
    · have h2 : ⌊v⌋₊ + 1 = x.length := by omega
      have h3 : ((⌊v⌋₊ : K)) = (x.length : K) - 1 := by rw [← h2]; push_cast; ring
      have h4 : v = v' := by linarith
      rw [h4]
  · have h1 := hmono (⌊v⌋₊ + 1) ⌊v'⌋₊ h hlt
    have h2 := hmono ⌊v⌋₊ (⌊v⌋₊ + 1) (by omega) (by omega)
    have h3 : (v - ⌊v⌋₊) * (t.getD (⌊v⌋₊ + 1) 0 - t.getD ⌊v⌋₊ 0) ≤ 1 * (t.getD (⌊v⌋₊ + 1) 0 - t.getD ⌊v⌋₊ 0) :=
      mul_le_mul_of_nonneg_right (by linarith) (by linarith)
    linarith

/-- C32: the control points have non-negative spread. -/
theorem C32_spread_nonneg (f s : List K) (hfs : f.length = s.length) (T segwidth : K) (fc smed sstd : List K)
    (h : segmentStats f s T segwidth = .ok (fc, smed, sstd)) : ∀ d ∈ sstd, 0 ≤ d := by
  unfold segmentStats at h
  split_ifs at h with hT
  split at h
  · rename_i f0 f1 h0 h1
    simp only at h
    split_ifs at h with hw hm hp
    simp only [Except.ok.injEq, Prod.mk.injEq] at h
    obtain ⟨-, -, h⟩ := h
    intro d hd
    rw [← h, List.zipWith_map_left, List.zipWith_map_right, List.zipWith_self, List.mem_map] at hd
    obtain ⟨i, hi, rfl⟩ := hd
    refine div_nonneg ?_ (by norm_num)
    rw [sub_nonneg]
    refine percentile_mono _ ?_ 25 75 (by norm_num) (by norm_num) (by norm_num)
    rw [List.mem_range] at hi
    generalize ⌈|f1 - f0| / (segwidth / T)⌉₊ = m at *
    have hmp : m * (f.length / m) ≤ s.length := by rw [← hfs]; exact Nat.mul_div_le _ _
    have h2 : i * (f.length / m) + f.length / m ≤ m * (f.length / m) := by
      have : (i + 1) * (f.length / m) ≤ m * (f.length / m) := Nat.mul_le_mul_right _ hi
      linarith
    apply List.ne_nil_of_length_pos
    simp only [reshapeRow, List.length_take, List.length_drop]
    have hp1 : 0 < f.length / m := Nat.pos_of_ne_zero hp
    generalize f.length / m = p at *
    generalize m * p = a at *
    generalize i * p = b at *
    omega
  · cases h

/-- When `find_peaks` succeeds. -/
theorem findPeaks_ok (argsort : List K → List ℕ) (fit : List K → List K → K → K) (p : PeakParams K) (g : Pgram K)
    (hT : 0 < g.tobs) (hw : 0 < p.segwidth) (f0 f1 : K) (h0 : g.freqs.head? = some f0) (h1 : g.freqs.getLast? = some f1)
    (hne : f0 ≠ f1) (hm : numSegments f0 f1 g.tobs p.segwidth ≤ g.periods.length) :
    ∃ peaks, findPeaks argsort fit p g = .ok peaks := by
  have hw : ∀ iw width, ∃ b, peaksOfWidth argsort fit p g iw width = .ok b := by
    intro iw width
    obtain ⟨fc, smed, sstd, h, -⟩ := C32_segment_stats_partial g.freqs (g.column iw) g.tobs p.segwidth f0 f1 hT hw h0 h1
      hne (by simpa [Pgram.freqs] using hm)
    unfold peaksOfWidth findPeaksSingle dynThreshold
    simp only
    rw [h]
    exact ⟨_, rfl⟩
  have : ∀ l : List (ℕ × ℕ), ∃ r, (l.mapM fun (width, iw) => peaksOfWidth argsort fit p g iw width) = .ok r := by
    intro l
    induction l with
    | nil => exact ⟨[], rfl⟩
    | cons a l ih =>
      obtain ⟨b, hb⟩ := hw a.2 a.1
      obtain ⟨r, hr⟩ := ih
      refine ⟨b :: r, ?_⟩
      rw [List.mapM_cons, hr]
      simp only [hb]
      rfl
  obtain ⟨r, hr⟩ := this g.widths.zipIdx
  unfold findPeaks
  rw [hr]
  exact ⟨_, rfl⟩

/-- A periodogram with two width trials and a significant point in the second one. -/
def demoPgram : Pgram ℚ :=
  { widths := [1, 2], periods := [1/8, 1/7, 1/6, 1/5, 1/4], foldbins := [8, 8, 8, 8, 8],
    snrs := [[1, 2], [3, 9], [2, 10], [0, 1], [5, 7]], tobs := 1 }

theorem demo_ok : PgramOK demoPgram := ⟨rfl, rfl, by decide⟩

def demoParams : PeakParams ℚ := { smin := 6, segwidth := 2, nstd := 6, minseg := 10, clrad := 1 }

/-- The hypotheses of C30 and C31 can be met with a non-empty list of peaks. -/
example (fit : List ℚ → List ℚ → ℚ → ℚ) : ∃ peaks, findPeaks insArgsort fit demoParams demoPgram = .ok peaks ∧
    ∃ q ∈ peaks, q.iw = 1 ∧ 10 ≤ q.snr := by
  have h2 : numSegments (8 : ℚ) 4 1 2 = 2 := by
    unfold numSegments
    rw [show |(4 : ℚ) - 8| / (2 / 1) = ((2 : ℕ) : ℚ) by norm_num, Nat.ceil_natCast]
  obtain ⟨peaks, h⟩ := findPeaks_ok insArgsort fit demoParams demoPgram (by decide +kernel) (by decide +kernel) 8 4
    (by decide +kernel) (by decide +kernel) (by norm_num)
    (by simp only [demoPgram, demoParams]; rw [h2]; decide)
  refine ⟨peaks, h, ?_⟩
  obtain ⟨thr, ht, hall⟩ := C31_none_lost insArgsort insArgsort_ok fit demoParams demoPgram demo_ok peaks h 1 (by decide)
  have hthr : thr = fun _ => 6 := by
    obtain ⟨fc, smed, sstd, hseg, hl, -⟩ := C32_segment_stats_partial demoPgram.freqs (demoPgram.column 1) demoPgram.tobs
      demoParams.segwidth 8 4 (by decide +kernel) (by decide +kernel) (by decide +kernel) (by decide +kernel) (by norm_num)
      (by simp only [demoPgram, demoParams]; rw [h2]; decide)
    unfold thresholdOf dynThreshold at ht
    rw [hseg] at ht
    simp only [Except.map, Except.ok.injEq] at ht
    have hnl : ¬ fc.length ≥ demoParams.minseg := by
      rw [hl]; simp only [demoPgram, demoParams]; rw [h2]; decide
    rw [if_neg hnl] at ht
    exact ht.symm
  obtain ⟨q, ⟨⟨hq, hiw, -⟩, hs⟩, -⟩ := hall 2 (by rw [hthr]; unfold Significant; decide +kernel)
  refine ⟨q, hq, hiw, le_trans ?_ hs⟩
  decide +kernel

/-! ## rseek -/

theorem maxPeak_spec (l : List (Peak K)) (hl : l ≠ []) : ∃ m, maxPeak l = some m ∧ m ∈ l ∧ ∀ b ∈ l, b.snr ≤ m.snr := by
  cases l with
  | nil => exact absurd rfl hl
  | cons a l =>
    refine ⟨_, rfl, ?_⟩
    clear hl
    induction l generalizing a with
    | nil => simp
    | cons b l ih =>
      rw [List.foldl_cons]
      split_ifs with h
      · obtain ⟨h1, h2⟩ := ih b
        refine ⟨List.mem_cons_of_mem _ h1, ?_⟩
        intro c hc
        rcases List.mem_cons.mp hc with h' | h'
        · rw [h']; exact le_of_lt (lt_of_lt_of_le h (h2 b List.mem_cons_self))
        · exact h2 c h'
      · obtain ⟨h1, h2⟩ := ih a
        refine ⟨?_, ?_⟩
        · rcases List.mem_cons.mp h1 with h' | h'
          · rw [h']; exact List.mem_cons_self
          · exact List.mem_cons_of_mem _ (List.mem_cons_of_mem _ h')
        · intro c hc
          rcases List.mem_cons.mp hc with h' | h'
          · rw [h']; exact h2 a List.mem_cons_self
          · rcases List.mem_cons.mp h' with h'' | h''
            · rw [h'']; exact le_trans (not_lt.mp h) (h2 a List.mem_cons_self)
            · exact h2 c (List.mem_cons_of_mem _ h'')

/-- Chains between positions of the list and between the peaks themselves are the same for `r ≥ 0`. -/
theorem linked_peaks (peaks : List (Peak K)) (r : K) (hr : 0 ≤ r) (i j : ℕ) (a b : Peak K) (ha : peaks[i]? = some a)
    (hb : peaks[j]? = some b) :
    Linked (· < (peaks.map (fun p => p.freq)).length) (fun k => (peaks.map (fun p => p.freq)).getD k 0) r i j ↔
      Linked (· ∈ peaks) (fun p => p.freq) r a b := by
  have hx : ∀ k q, peaks[k]? = some q → (peaks.map (fun p => p.freq)).getD k 0 = q.freq := by
    intro k q hq
    simp [List.getD, hq]
  have hlt : ∀ k q, peaks[k]? = some q → k < (peaks.map (fun p => p.freq)).length := by
    intro k q hq
    rw [List.length_map]
    by_contra hn
    rw [List.getElem?_eq_none (not_lt.mp hn)] at hq
    simp at hq
  constructor
  · intro h
    induction h generalizing b with
    | refl => rw [ha] at hb; cases hb; exact Relation.ReflTransGen.refl
    | tail _ hstep ih =>
      rename_i k l _
      obtain ⟨h1, h2, h3⟩ := hstep
      rw [List.length_map] at h1
      have hk := List.getElem?_eq_getElem h1
      refine Relation.ReflTransGen.tail (ih _ hk) ⟨List.getElem_mem h1, List.mem_of_getElem? hb, ?_⟩
      simp only [hx k _ hk, hx l _ hb] at h3
      exact h3
  · intro h
    induction h generalizing j with
    | refl =>
      refine Relation.ReflTransGen.single ⟨hlt i a ha, hlt j a hb, ?_⟩
      simp only [hx i a ha, hx j a hb, sub_self, abs_zero]
      exact hr
    | tail _ hstep ih =>
      obtain ⟨h1, h2, h3⟩ := hstep
      obtain ⟨k, hk, hkc⟩ := List.mem_iff_getElem.mp h1
      have hk' := List.getElem?_eq_getElem hk
      rw [hkc] at hk'
      refine Relation.ReflTransGen.tail (ih k hk') ⟨hlt k _ hk', hlt j _ hb, ?_⟩
      simp only [hx k _ hk', hx j _ hb]
      exact h3

/-- C56: the printed table is sorted by decreasing S/N, made of peaks of the list, has for every peak exactly one
entry in its cluster, and that entry is at least as bright; entries are of different clusters. -/
theorem C56_rseek_table (argsort : List K → List ℕ) (ha : IsArgsort argsort) (peaks : List (Peak K)) (r : K) (hr : 0 ≤ r) :
    let table := rseekTable argsort peaks r
    let L := Linked (· ∈ peaks) (fun p : Peak K => p.freq) r
    (∀ t ∈ table, t ∈ peaks ∧ ∀ q, L t q → q.snr ≤ t.snr) ∧
    (∀ q ∈ peaks, ∃ t ∈ table, L t q) ∧
    table.Pairwise (fun a b => ¬ L a b) ∧
    table.Pairwise (fun a b => b.snr ≤ a.snr) := by
  intro table L
  set freqs := peaks.map (fun p => p.freq) with hfr
  have hfof := cluster1d_fof argsort ha freqs r false (by simp)
  set C := cluster1d argsort freqs r false with hC
  set F : List ℕ → List (Peak K) := fun c => c.filterMap (fun ii => peaks[ii]?) with hF
  have hin : ∀ c ∈ C, ∀ k ∈ c, ∃ q, peaks[k]? = some q := by
    intro c hc k hk
    have := (hfof.cover k).mpr ⟨c, hc, hk⟩
    rw [hfr, List.length_map] at this
    exact ⟨_, List.getElem?_eq_getElem this⟩
  have hne : ∀ c ∈ C, F c ≠ [] := by
    intro c hc
    obtain ⟨k, hk⟩ := List.exists_mem_of_ne_nil c (hfof.ne c hc)
    obtain ⟨q, hq⟩ := hin c hc k hk
    exact List.ne_nil_of_mem (List.mem_filterMap.mpr ⟨k, hk, hq⟩)
  have hperm : table.Perm (C.filterMap (fun c => maxPeak (F c))) := sortPeaks_perm _
  -- the entry of a cluster
  have hent : ∀ c ∈ C, ∀ t, maxPeak (F c) = some t → ∃ i ∈ c, peaks[i]? = some t ∧
      ∀ j ∈ c, ∀ q, peaks[j]? = some q → q.snr ≤ t.snr := by
    intro c hc t ht
    obtain ⟨m, hm, hmem, hmax⟩ := maxPeak_spec (F c) (hne c hc)
    rw [hm] at ht
    cases ht
    obtain ⟨i, hi, hit⟩ := List.mem_filterMap.mp hmem
    exact ⟨i, hi, hit, fun j hj q hq => hmax q (List.mem_filterMap.mpr ⟨j, hj, hq⟩)⟩
  refine ⟨?_, ?_, ?_, sortPeaks_sorted _⟩
  · intro t ht
    obtain ⟨c, hc, ht⟩ := List.mem_filterMap.mp (hperm.mem_iff.mp ht)
    obtain ⟨i, hi, hit, hmax⟩ := hent c hc t ht
    refine ⟨List.mem_of_getElem? hit, ?_⟩
    intro q hq
    have hqm : q ∈ peaks := linked_mem hq (List.mem_of_getElem? hit)
    obtain ⟨j, hj, hjq⟩ := List.mem_iff_getElem.mp hqm
    have hj' := List.getElem?_eq_getElem hj
    rw [hjq] at hj'
    have := (linked_peaks peaks r hr i j t q hit hj').mpr hq
    exact hmax j ((hfof.linked hc hi).mpr this) q hj'
  · intro q hq
    obtain ⟨j, hj, hjq⟩ := List.mem_iff_getElem.mp hq
    have hj' := List.getElem?_eq_getElem hj
    rw [hjq] at hj'
    obtain ⟨c, hc, hjc⟩ := (hfof.cover j).mp (by rw [hfr, List.length_map]; exact hj)
    obtain ⟨t, ht, -⟩ := maxPeak_spec (F c) (hne c hc)
    obtain ⟨i, hi, hit, -⟩ := hent c hc t ht
    exact ⟨t, hperm.mem_iff.mpr (List.mem_filterMap.mpr ⟨c, hc, ht⟩),
      (linked_peaks peaks r hr i j t q hit hj').mp ((hfof.linked hc hi).mp hjc)⟩
  · have hsym : Std.Symm (fun a b : Peak K => ¬ L a b) := ⟨fun a b h h' => h (linked_symm h')⟩
    refine (hperm.pairwise_iff (fun {a b} => hsym.symm a b)).mpr ?_
    rw [List.pairwise_filterMap]
    refine List.Pairwise.imp_of_mem ?_ hfof.disj
    intro c c' hc hc' hcc t ht t' ht' hl
    obtain ⟨i, hi, hit, -⟩ := hent c hc t ht
    obtain ⟨i', hi', hit', -⟩ := hent c' hc' t' ht'
    have := (linked_peaks peaks r hr i i' t t' hit hit').mpr hl
    exact hcc i' ((hfof.linked hc hi).mpr this) hi'

/-- Two peaks of one frequency cluster and one apart: two entries. -/
example : ∃ a b : Peak ℚ, Linked (· ∈ [a, b]) (fun p => p.freq) 1 a b ∧ a.snr < b.snr ∧
    b ∈ rseekTable insArgsort [a, b] 1 ∧ a ∉ rseekTable insArgsort [a, b] 1 := by
  let a : Peak ℚ := ⟨1/5, 5, 1, 1/8, 0, 3, 7⟩
  let b : Peak ℚ := ⟨1/6, 6, 2, 1/4, 1, 4, 9⟩
  have hl : Linked (· ∈ [a, b]) (fun p => p.freq) 1 a b :=
    Relation.ReflTransGen.single ⟨by simp, by simp, by decide +kernel⟩
  obtain ⟨h1, h2, h3, h4⟩ := C56_rseek_table insArgsort insArgsort_ok [a, b] 1 (by norm_num)
  have ha : a ∉ rseekTable insArgsort [a, b] 1 := by
    intro ha
    exact absurd ((h1 a ha).2 b hl) (by decide +kernel)
  refine ⟨a, b, hl, by decide +kernel, ?_, ha⟩
  obtain ⟨t, ht, -⟩ := h2 b (by simp)
  have : t ∈ [a, b] := (h1 t ht).1
  rcases List.mem_cons.mp this with h | h
  · rw [h] at ht; exact absurd ht ha
  · rw [List.mem_singleton] at h; rw [h] at ht; exact ht

end Verif.Props
