import Verif.Lemmas.RunningMedian

/-! # Quickselect with a comparison that is not an order -/

namespace Verif.Lemmas

open Verif.Model Verif.Spec

variable {α : Type*}

section any

variable [LT α] [DecidableLT α]

theorem partLoop_any (pivot : α) (s e : ℕ) : ∀ (r i j : ℕ) (d : Buf α), s ≤ j → j ≤ i → i + r = e → e < d.size →
    ∃ d' j', partLoop pivot r i j d = some (d', j') ∧ j ≤ j' ∧ j' ≤ e ∧ d'.size = d.size ∧ Rearr s e d d' := by
  intro r
  induction r with
  | zero =>
    intro i j d hsj hji hir hsz
    exact ⟨d, j, rfl, le_rfl, by omega, rfl, rearr_refl _ _ _⟩
  | succ r ih =>
    intro i j d hsj hji hir hsz
    rw [partLoop]
    unfold Buf.get
    rw [if_pos (by omega)]
    simp only [Option.bind_some]
    split_ifs with hlt
    · obtain ⟨d1, e1, s1, v1⟩ := swap_spec d (i := i) (j := j) (by omega) (by omega)
      rw [e1]
      simp only [Option.bind_some]
      obtain ⟨d', j', g1, g2, g3, g4, g6⟩ := ih (i + 1) (j + 1) d1 (by omega) (by omega) (by omega) (by omega)
      exact ⟨d', j', g1, by omega, g3, by omega, rearr_trans (swap_rearr s1 v1 (by omega) (by omega)) g6⟩
    · obtain ⟨d', j', g1, g2, g3, g4, g6⟩ := ih (i + 1) j d hsj (by omega) (by omega) hsz
      exact ⟨d', j', g1, g2, g3, g4, g6⟩

theorem partition_any (d : Buf α) {s e : ℕ} (hse : s ≤ e) (hsz : e < d.size) :
    ∃ d' j, partition d s e e = some (d', j) ∧ s ≤ j ∧ j ≤ e ∧ Rearr s e d d' := by
  unfold partition
  unfold Buf.get
  rw [if_pos hsz]
  simp only [Option.bind_some]
  obtain ⟨d1, e1, s1, v1⟩ := swap_spec d (i := e) (j := e) hsz hsz
  rw [e1]
  simp only [Option.bind_some]
  obtain ⟨d2, j, g1, g2, g3, g4, g6⟩ := partLoop_any (d.val e) s e (e - s) s s d1 le_rfl le_rfl (by omega) (by omega)
  rw [g1]
  simp only [Option.bind_some]
  obtain ⟨d3, e3, s3, v3⟩ := swap_spec d2 (i := j) (j := e) (by omega) (by omega)
  rw [e3]
  exact ⟨d3, j, rfl, g2, g3, rearr_trans (swap_rearr s1 v1 (by omega) (by omega))
    (rearr_trans g6 (swap_rearr s3 v3 (by omega) (by omega)))⟩

theorem nthLoop_any (n : ℕ) : ∀ (fuel : ℕ) (d : Buf α) (s e : ℕ), s ≤ n → n ≤ e → e < d.size → e - s < fuel →
    ∃ v d', nthLoop fuel d s e n = some (v, d') ∧ Rearr s e d d' ∧ d'.val n = v := by
  intro fuel
  induction fuel with
  | zero => intro d s e _ _ _ h; omega
  | succ fuel ih =>
    intro d s e hsn hne hsz hf
    rw [nthLoop]
    split_ifs with hse
    · have h1 : s = n := by omega
      have h2 : e = n := by omega
      rw [h2] at hsz ⊢; rw [h1]
      unfold Buf.get
      rw [if_pos hsz]
      exact ⟨_, d, rfl, rearr_refl _ _ _, rfl⟩
    · obtain ⟨d1, j, e1, hsj, hje, r1⟩ := partition_any d (s := s) (e := e) (by omega) hsz
      have hz1 : d1.size = d.size := r1.1
      rw [e1]
      simp only [Option.bind_some]
      split_ifs with hjn hlt h0
      · subst hjn
        unfold Buf.get
        rw [if_pos (by omega)]
        exact ⟨_, d1, rfl, r1, rfl⟩
      · obtain ⟨v, d2, e2, r2, hv⟩ := ih d1 (j + 1) e (by omega) hne (by omega) (by omega)
        exact ⟨v, d2, e2, rearr_trans r1 (rearr_mono r2 (by omega) le_rfl), hv⟩
      · omega
      · obtain ⟨v, d2, e2, r2, hv⟩ := ih d1 s (j - 1) hsn (by omega) (by omega) (by omega)
        exact ⟨v, d2, e2, rearr_trans r1 (rearr_mono r2 le_rfl (by omega)), hv⟩

/-- Whatever the comparison, the selection ends and gives an element. -/
theorem nthElement_any (d : Buf α) {n : ℕ} (hn : n < d.size) :
    ∃ v d', nthElement d 0 (d.size - 1) n = some (v, d') ∧ v ∈ Buf.toList d := by
  obtain ⟨v, d', e, r, hv⟩ := nthLoop_any n (d.size - 1 - 0 + 1) d 0 (d.size - 1) (by omega) (by omega)
    (by omega) (by omega)
  refine ⟨v, d', e, ?_⟩
  rw [← (rearr_perm (by omega) r).mem_iff, Buf.toList, List.mem_map]
  have hz : d'.size = d.size := r.1
  exact ⟨n, List.mem_range.mpr (by omega), hv⟩

end any

/-! ## A comparison that is a linear order on the elements that occur -/

/-- Apply a function to every element. -/
def mapBuf {β : Type*} (g : α → β) (d : Buf α) : Buf β := ⟨d.size, fun k => g (d.val k)⟩

section image

variable {β : Type*} [LT α] [DecidableLT α] [LT β] [DecidableLT β] (g : α → β) (S : α → Prop)
  (hg : ∀ a b, S a → S b → (a < b ↔ g a < g b))

omit [LT α] [DecidableLT α] [LT β] [DecidableLT β] in
theorem mapBuf_swap (d : Buf α) (i j : ℕ) : (mapBuf g d).swap i j = (d.swap i j).map (mapBuf g) := by
  unfold Buf.swap Buf.get Buf.set mapBuf
  by_cases hi : i < d.size
  · by_cases hj : j < d.size
    · simp only [hi, hj, if_true, Option.bind_some, Option.map_some]
      congr 1
      simp only [Buf.mk.injEq, true_and]
      funext k
      split_ifs <;> rfl
    · simp [hi, hj]
  · simp [hi]

omit [LT α] [DecidableLT α] in
theorem swap_all {d d' : Buf α} {i j : ℕ} (h : ∀ k < d.size, S (d.val k)) (e : d.swap i j = some d') :
    d'.size = d.size ∧ ∀ k < d'.size, S (d'.val k) := by
  by_cases hi : i < d.size
  · by_cases hj : j < d.size
    · obtain ⟨d1, e1, s1, v1⟩ := swap_spec d hi hj
      rw [e1] at e
      obtain rfl := Option.some.inj e
      refine ⟨s1, fun k hk => ?_⟩
      rw [v1]
      apply h
      rw [Equiv.swap_apply_def]
      split_ifs <;> omega
    · simp [Buf.swap, Buf.get, hi, hj] at e
  · simp [Buf.swap, Buf.get, hi] at e

include hg

theorem partLoop_map (pivot : α) (hp : S pivot) : ∀ (r i j : ℕ) (d : Buf α), (∀ k < d.size, S (d.val k)) →
    partLoop (g pivot) r i j (mapBuf g d) = (partLoop pivot r i j d).map (fun q => (mapBuf g q.1, q.2)) ∧
    ∀ q, partLoop pivot r i j d = some q → q.1.size = d.size ∧ ∀ k < q.1.size, S (q.1.val k) := by
  intro r
  induction r with
  | zero =>
    intro i j d hd
    refine ⟨rfl, ?_⟩
    intro q hq
    rw [partLoop] at hq
    obtain rfl := Option.some.inj hq
    exact ⟨rfl, hd⟩
  | succ r ih =>
    intro i j d hd
    rw [partLoop, partLoop]
    by_cases hi : i < d.size
    · have e1 : (mapBuf g d).get i = some (g (d.val i)) := by simp [mapBuf, Buf.get, hi]
      have e2 : d.get i = some (d.val i) := by simp [Buf.get, hi]
      rw [e1, e2]
      simp only [Option.bind_some]
      by_cases hlt : d.val i < pivot
      · rw [if_pos hlt, if_pos ((hg _ _ (hd i hi) hp).mp hlt), mapBuf_swap]
        rcases hs : d.swap i j with _ | d1
        · exact ⟨rfl, fun q hq => nomatch hq⟩
        · obtain ⟨s1, a1⟩ := swap_all S hd hs
          simp only [Option.map_some, Option.bind_some]
          obtain ⟨i1, i2⟩ := ih (i + 1) (j + 1) d1 a1
          exact ⟨i1, fun q hq => ⟨(i2 q hq).1.trans s1, (i2 q hq).2⟩⟩
      · rw [if_neg hlt, if_neg (fun h => hlt ((hg _ _ (hd i hi) hp).mpr h))]
        exact ih (i + 1) j d hd
    · have e1 : (mapBuf g d).get i = none := by simp [mapBuf, Buf.get, hi]
      have e2 : d.get i = none := by simp [Buf.get, hi]
      rw [e1, e2]
      exact ⟨rfl, fun q hq => nomatch hq⟩

theorem partition_map (d : Buf α) (hd : ∀ k < d.size, S (d.val k)) (s e p : ℕ) :
    partition (mapBuf g d) s e p = (partition d s e p).map (fun q => (mapBuf g q.1, q.2)) ∧
    ∀ q, partition d s e p = some q → q.1.size = d.size ∧ ∀ k < q.1.size, S (q.1.val k) := by
  unfold partition
  by_cases hi : p < d.size
  · have e1 : (mapBuf g d).get p = some (g (d.val p)) := by simp [mapBuf, Buf.get, hi]
    have e2 : d.get p = some (d.val p) := by simp [Buf.get, hi]
    rw [e1, e2, mapBuf_swap]
    simp only [Option.bind_some]
    rcases hs : d.swap p e with _ | d1
    · exact ⟨rfl, fun q hq => nomatch hq⟩
    · obtain ⟨s1, a1⟩ := swap_all S hd hs
      simp only [Option.map_some, Option.bind_some]
      obtain ⟨i1, i2⟩ := partLoop_map g S hg (d.val p) (hd p hi) (e - s) s s d1 a1
      rw [i1]
      rcases hl : partLoop (d.val p) (e - s) s s d1 with _ | ⟨d2, j⟩
      · exact ⟨rfl, fun q hq => nomatch hq⟩
      · obtain ⟨s2, a2⟩ := i2 _ hl
        simp only [Option.map_some, Option.bind_some, mapBuf_swap]
        rcases hs3 : d2.swap j e with _ | d3
        · exact ⟨rfl, fun q hq => nomatch hq⟩
        · obtain ⟨s3, a3⟩ := swap_all S a2 hs3
          refine ⟨rfl, ?_⟩
          intro q hq
          simp only [Option.bind_some] at hq
          obtain rfl := Option.some.inj hq
          exact ⟨s3.trans (s2.trans s1), a3⟩
  · have e1 : (mapBuf g d).get p = none := by simp [mapBuf, Buf.get, hi]
    have e2 : d.get p = none := by simp [Buf.get, hi]
    rw [e1, e2]
    exact ⟨rfl, fun q hq => nomatch hq⟩

theorem nthLoop_map (n : ℕ) : ∀ (fuel : ℕ) (d : Buf α) (s e : ℕ), (∀ k < d.size, S (d.val k)) →
    nthLoop fuel (mapBuf g d) s e n = (nthLoop fuel d s e n).map (fun q => (g q.1, mapBuf g q.2)) := by
  have hget : ∀ (d : Buf α) (i : ℕ), ((mapBuf g d).get i).bind (fun v => some (v, mapBuf g d)) =
      ((d.get i).bind fun v => some (v, d)).map (fun q => (g q.1, mapBuf g q.2)) := by
    intro d i
    by_cases hi : i < d.size <;> simp [mapBuf, Buf.get, hi]
  intro fuel
  induction fuel with
  | zero => intro d s e _; rfl
  | succ fuel ih =>
    intro d s e hd
    rw [nthLoop, nthLoop]
    split_ifs with hse
    · exact hget d s
    · obtain ⟨i1, i2⟩ := partition_map g S hg d hd s e e
      rw [i1]
      rcases hl : partition d s e e with _ | ⟨d2, j⟩
      · rfl
      · obtain ⟨s2, a2⟩ := i2 _ hl
        simp only [Option.map_some, Option.bind_some]
        split_ifs
        · exact hget d2 j
        · exact ih _ _ _ a2
        · rfl
        · exact ih _ _ _ a2

end image

/-- If the comparison orders the elements of the buffer, the selection gives the element of that rank. -/
theorem nthElement_image {β : Type*} [LT α] [DecidableLT α] [LinearOrder β] (g : α → β) (d : Buf α)
    (hg : ∀ a ∈ Buf.toList d, ∀ b ∈ Buf.toList d, (a < b ↔ g a < g b)) {n : ℕ} (hn : n < d.size) :
    ∃ v d', nthElement d 0 (d.size - 1) n = some (v, d') ∧ v ∈ Buf.toList d ∧ IsNth ((Buf.toList d).map g) n (g v) := by
  obtain ⟨v, d', e, hv⟩ := nthElement_any d hn
  refine ⟨v, d', e, hv, ?_⟩
  have hall : ∀ k < d.size, d.val k ∈ Buf.toList d := fun k hk => by
    rw [Buf.toList, List.mem_map]
    exact ⟨k, List.mem_range.mpr hk, rfl⟩
  have hm := nthLoop_map g (fun a => a ∈ Buf.toList d) (fun a b ha hb => hg a ha b hb) n (d.size - 1 - 0 + 1) d 0
    (d.size - 1) hall
  obtain ⟨v', d'', e', _, _, _, hn'⟩ := nthElement_spec (mapBuf g d) (n := n) hn
  unfold nthElement at e e'
  have e'' : nthLoop (d.size - 1 - 0 + 1) (mapBuf g d) 0 (d.size - 1) n = some (v', d'') := e'
  rw [hm, e] at e''
  simp only [Option.map_some, Option.some.injEq, Prod.mk.injEq] at e''
  rw [e''.1]
  have : Buf.toList (mapBuf g d) = (Buf.toList d).map g := by
    rw [Buf.toList, Buf.toList, List.map_map]
    rfl
  rw [← this]
  exact hn'

end Verif.Lemmas
