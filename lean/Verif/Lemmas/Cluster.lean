import Verif.Model.Peaks
import Verif.Spec.Cluster
import Mathlib.Algebra.Order.Ring.Abs
import Mathlib.Data.List.Pairwise
import Mathlib.Data.List.Chain
import Mathlib.Tactic.Linarith

/-! # Lemmas about `cluster1d` -/

namespace Verif.Lemmas

set_option linter.unusedSectionVars false

open Verif.Model Verif.Spec

variable {K : Type*} [Field K] [LinearOrder K]

/-- Runs of a list: cut wherever consecutive elements satisfy `br`. -/
def runs {β : Type*} (br : β → β → Bool) : List β → List (List β)
  | [] => []
  | [a] => [[a]]
  | a :: b :: l =>
    if br a b then [a] :: runs br (b :: l)
    else match runs br (b :: l) with
      | [] => [[a]]
      | c :: cs => (a :: c) :: cs

def slicesFrom {β : Type*} (l : List β) : ℕ → List ℕ → List (List β)
  | _, [] => []
  | a, b :: bs => (l.drop a).take (b - a) :: slicesFrom l b bs

theorem slices_eq {β : Type*} (l : List β) : ∀ (bs : List ℕ) (a : ℕ),
    ((a :: bs).dropLast.zip (a :: bs).tail).map (fun b => (l.drop b.1).take (b.2 - b.1)) = slicesFrom l a bs := by
  intro bs
  induction bs with
  | nil => intro a; rfl
  | cons b bs ih =>
    intro a
    have := ih b
    simp only [List.dropLast_cons_cons, List.tail_cons, List.zip_cons_cons, List.map_cons] at this ⊢
    rw [slicesFrom, ← this]

theorem slices_shift {β : Type*} (i : β) (l : List β) : ∀ (bs : List ℕ) (a : ℕ),
    slicesFrom (i :: l) (a + 1) (bs.map (· + 1)) = slicesFrom l a bs := by
  intro bs
  induction bs with
  | nil => intro a; rfl
  | cons b bs ih =>
    intro a
    rw [List.map_cons, slicesFrom, slicesFrom, ih b]
    simp

/-- Positions `k` such that elements `k` and `k + 1` satisfy `br`. -/
def breaks {β : Type*} (br : β → β → Bool) : List β → List ℕ
  | [] => []
  | [_] => []
  | a :: b :: l => if br a b then 0 :: (breaks br (b :: l)).map (· + 1) else (breaks br (b :: l)).map (· + 1)

theorem runs_eq_slices {β : Type*} (br : β → β → Bool) : ∀ (l : List β), l ≠ [] →
    slicesFrom l 0 ((breaks br l).map (· + 1) ++ [l.length]) = runs br l := by
  intro l
  induction l with
  | nil => intro h; exact absurd rfl h
  | cons a l ih =>
    intro _
    cases l with
    | nil => rfl
    | cons b l =>
      have ih := ih (by simp)
      have hlen : ((breaks br (b :: l)).map (· + 1)).map (· + 1) ++ [(a :: b :: l).length] =
          ((breaks br (b :: l)).map (· + 1) ++ [(b :: l).length]).map (· + 1) := by simp
      rw [breaks, runs]
      split_ifs with h
      · rw [List.map_cons, List.cons_append, slicesFrom, hlen, slices_shift, ih]
        simp
      · rw [hlen, ← ih]
        cases hb : (breaks br (b :: l)).map (· + 1) ++ [(b :: l).length] with
        | nil => simp at hb
        | cons c cs =>
          rw [List.map_cons, slicesFrom, slicesFrom, slices_shift]
          simp

theorem breaks_eq (r : K) (x : ℕ → K) : ∀ l : List ℕ,
    ((List.range (diff (l.map x)).length).filter (fun i => |(diff (l.map x)).getD i 0| > r)) =
      breaks (fun i j => decide (|x j - x i| > r)) l := by
  intro l
  induction l with
  | nil => rfl
  | cons a l ih =>
    cases l with
    | nil => rfl
    | cons b l =>
      have hd : diff ((a :: b :: l).map x) = (x b - x a) :: diff ((b :: l).map x) := rfl
      rw [hd, List.length_cons, List.range_succ_eq_map, List.filter_cons, List.filter_map, breaks, ← ih]
      simp only [List.getD_cons_zero, Function.comp_def, List.getD_cons_succ]

theorem runs_ne_nil {β : Type*} (br : β → β → Bool) : ∀ (l : List β), ∀ c ∈ runs br l, c ≠ [] := by
  intro l
  induction l with
  | nil => intro c hc; simp [runs] at hc
  | cons a l ih =>
    cases l with
    | nil => intro c hc; simp [runs] at hc; simp [hc]
    | cons b l =>
      intro c hc
      rw [runs] at hc
      split_ifs at hc with h
      · rcases List.mem_cons.mp hc with h' | h'
        · simp [h']
        · exact ih c h'
      · split at hc
        · simp at hc; simp [hc]
        · rename_i c0 cs hr
          rcases List.mem_cons.mp hc with h' | h'
          · simp [h']
          · exact ih c (by rw [hr]; exact List.mem_cons_of_mem _ h')

theorem runs_flatten {β : Type*} (br : β → β → Bool) : ∀ (l : List β), (runs br l).flatten = l := by
  intro l
  induction l with
  | nil => rfl
  | cons a l ih =>
    cases l with
    | nil => rfl
    | cons b l =>
      rw [runs]
      split_ifs with h
      · rw [List.flatten_cons, ih]; rfl
      · split
        · rename_i hr; rw [hr] at ih; simp at ih
        · rename_i c0 cs hr
          rw [hr] at ih
          rw [List.flatten_cons, List.cons_append, ← List.flatten_cons, ih]

/-- The first run starts with the first element. -/
theorem runs_head {β : Type*} (br : β → β → Bool) (b : β) (l : List β) :
    ∃ c cs, runs br (b :: l) = (b :: c) :: cs := by
  cases l with
  | nil => exact ⟨[], [], rfl⟩
  | cons b' l =>
    rw [runs]
    split_ifs
    · exact ⟨_, _, rfl⟩
    · split <;> exact ⟨_, _, rfl⟩

theorem runs_chain {β : Type*} (br : β → β → Bool) : ∀ (l : List β), ∀ c ∈ runs br l,
    c.IsChain (fun i j => br i j = false) := by
  intro l
  induction l with
  | nil => intro c hc; simp [runs] at hc
  | cons a l ih =>
    cases l with
    | nil => intro c hc; simp [runs] at hc; simp [hc]
    | cons b l =>
      intro c hc
      rw [runs] at hc
      split_ifs at hc with h
      · rcases List.mem_cons.mp hc with h' | h'
        · simp [h']
        · exact ih c h'
      · obtain ⟨c0, cs, hr⟩ := runs_head br b l
        rw [hr] at hc
        rcases List.mem_cons.mp hc with h' | h'
        · rw [h']
          have := ih (b :: c0) (by rw [hr]; exact List.mem_cons_self)
          rw [List.isChain_cons_cons]
          exact ⟨by simpa using h, this⟩
        · exact ih c (by rw [hr]; exact List.mem_cons_of_mem _ h')

variable [IsStrictOrderedRing K]

/-- In a monotone list, elements of different runs are far apart. -/
theorem runs_far (r : K) (x : ℕ → K) : ∀ (l : List ℕ),
    (l.Pairwise (fun i j => x i ≤ x j) ∨ l.Pairwise (fun i j => x j ≤ x i)) →
    (runs (fun i j => decide (|x j - x i| > r)) l).Pairwise (fun c c' => ∀ i ∈ c, ∀ j ∈ c', r < |x i - x j|) := by
  intro l
  induction l with
  | nil => intro _; simp [runs]
  | cons a l ih =>
    intro hs
    have hs' : l.Pairwise (fun i j => x i ≤ x j) ∨ l.Pairwise (fun i j => x j ≤ x i) := by
      rcases hs with h | h
      · exact Or.inl (List.pairwise_cons.mp h).2
      · exact Or.inr (List.pairwise_cons.mp h).2
    have ih := ih hs'
    cases l with
    | nil => simp [runs]
    | cons b l =>
      have mono : ∀ j ∈ b :: l, |x b - x a| ≤ |x j - x a| ∧ |x j - x b| ≤ |x j - x a| := by
        intro j hj
        rcases hs with h | h
        · have h1 := (List.pairwise_cons.mp h).1 b List.mem_cons_self
          have h2 : x b ≤ x j := by
            rcases List.mem_cons.mp hj with h' | h'
            · rw [h']
            · exact (List.pairwise_cons.mp (List.pairwise_cons.mp h).2).1 j h'
          rw [abs_of_nonneg (by linarith), abs_of_nonneg (by linarith), abs_of_nonneg (by linarith)]
          constructor <;> linarith
        · have h1 := (List.pairwise_cons.mp h).1 b List.mem_cons_self
          have h2 : x j ≤ x b := by
            rcases List.mem_cons.mp hj with h' | h'
            · rw [h']
            · exact (List.pairwise_cons.mp (List.pairwise_cons.mp h).2).1 j h'
          rw [abs_of_nonpos (by linarith), abs_of_nonpos (by linarith), abs_of_nonpos (by linarith)]
          constructor <;> linarith
      have hmem : ∀ c ∈ runs (fun i j => decide (|x j - x i| > r)) (b :: l), ∀ j ∈ c, j ∈ b :: l := by
        intro c hc j hj
        rw [← runs_flatten (fun i j => decide (|x j - x i| > r)) (b :: l)]
        exact List.mem_flatten.mpr ⟨c, hc, hj⟩
      rw [runs]
      split_ifs with h
      · rw [List.pairwise_cons]
        refine ⟨?_, ih⟩
        intro c hc i hi j hj
        rw [List.mem_singleton] at hi
        subst hi
        have h1 := (mono j (hmem c hc j hj)).1
        have h2 : r < |x b - x i| := by simpa using h
        rw [abs_sub_comm (x i)]
        linarith
      · obtain ⟨c0, cs, hr⟩ := runs_head (fun i j => decide (|x j - x i| > r)) b l
        rw [hr] at ih hmem ⊢
        simp only
        rw [List.pairwise_cons] at ih ⊢
        refine ⟨?_, ih.2⟩
        intro c hc i hi j hj
        rcases List.mem_cons.mp hi with h' | h'
        · rw [h', abs_sub_comm]
          have h1 := (mono j (hmem c (List.mem_cons_of_mem _ hc) j hj)).2
          have h2 := ih.1 c hc b List.mem_cons_self j hj
          rw [abs_sub_comm] at h2
          linarith
        · exact ih.1 c hc i h' j hj

omit [IsStrictOrderedRing K] in
theorem cluster_core (x : ℕ → K) (r : K) (l : List ℕ) (n : ℕ) (hn : l.length = n) (hl : l ≠ []) :
    (let ibreaks := (List.range (diff (l.map x)).length).filter (fun i => |(diff (l.map x)).getD i 0| > r)
     if ibreaks.length = 0 then [l]
     else
      let ibounds := [0] ++ ibreaks.map (· + 1) ++ [n]
      (ibounds.dropLast.zip ibounds.tail).map (fun b => (l.drop b.1).take (b.2 - b.1))) =
    runs (fun i j => decide (|x j - x i| > r)) l := by
  rw [breaks_eq r x l]
  simp only
  rw [← runs_eq_slices _ l hl, hn]
  split_ifs with h
  · rw [List.length_eq_zero_iff.mp h]
    simp [slicesFrom, ← hn]
  · rw [List.append_assoc, List.singleton_append, slices_eq]

omit [IsStrictOrderedRing K] in
theorem map_getD_range (x : List K) : (List.range x.length).map (fun i => x.getD i 0) = x := by
  apply List.ext_getElem
  · simp
  · intro i h1 h2
    simp [List.getD, List.getElem?_eq_getElem h2]

omit [IsStrictOrderedRing K] in
theorem cluster1d_eq_runs (argsort : List K → List ℕ) (ha : IsArgsort argsort) (x : List K) (r : K) (b : Bool) :
    cluster1d argsort x r b = runs (fun i j => decide (|x.getD j 0 - x.getD i 0| > r))
      (if b then List.range x.length else argsort x) := by
  unfold cluster1d
  by_cases h0 : x.length = 0
  · rw [if_pos h0]
    have hnil : (if b then List.range x.length else argsort x) = [] := by
      split_ifs
      · rw [h0]; rfl
      · have := (ha x).1
        rw [h0] at this
        exact List.Perm.eq_nil this
    rw [hnil]; rfl
  · rw [if_neg h0]
    have hlen : (if b then List.range x.length else argsort x).length = x.length := by
      split_ifs
      · simp
      · simpa using (ha x).1.length_eq
    have hne : (if b then List.range x.length else argsort x) ≠ [] := by
      intro h; rw [h] at hlen; exact h0 hlen.symm
    rw [← cluster_core (fun i => x.getD i 0) r _ x.length hlen hne]
    cases b
    · rfl
    · simp only [if_true]
      rw [map_getD_range]

/-- The order in which the points are visited. -/
theorem order_monotone (argsort : List K → List ℕ) (ha : IsArgsort argsort) (x : List K) (b : Bool)
    (hb : b = true → x.Pairwise (· ≤ ·) ∨ x.Pairwise (· ≥ ·)) :
    (if b then List.range x.length else argsort x).Perm (List.range x.length) ∧
    ((if b then List.range x.length else argsort x).Pairwise (fun i j => x.getD i 0 ≤ x.getD j 0) ∨
     (if b then List.range x.length else argsort x).Pairwise (fun i j => x.getD j 0 ≤ x.getD i 0)) := by
  cases b
  · exact ⟨(ha x).1, Or.inl (List.pairwise_map.mp (ha x).2)⟩
  · refine ⟨List.Perm.refl _, ?_⟩
    rcases hb rfl with h | h
    · left
      rw [← map_getD_range x] at h
      exact List.pairwise_map.mp h
    · right
      rw [← map_getD_range x] at h
      exact List.pairwise_map.mp h

/-- Everything about `cluster1d`. -/
theorem cluster1d_spec (argsort : List K → List ℕ) (ha : IsArgsort argsort) (x : List K) (r : K) (b : Bool)
    (hb : b = true → x.Pairwise (· ≤ ·) ∨ x.Pairwise (· ≥ ·)) :
    (cluster1d argsort x r b).flatten.Perm (List.range x.length) ∧
    (∀ c ∈ cluster1d argsort x r b, c ≠ []) ∧
    (cluster1d argsort x r b).Pairwise (fun c c' => ∀ i ∈ c, ∀ j ∈ c', r < |x.getD i 0 - x.getD j 0|) ∧
    (∀ c ∈ cluster1d argsort x r b, c.IsChain (fun i j => |x.getD i 0 - x.getD j 0| ≤ r)) := by
  obtain ⟨hp, hm⟩ := order_monotone argsort ha x b hb
  rw [cluster1d_eq_runs argsort ha]
  refine ⟨by rw [runs_flatten]; exact hp, runs_ne_nil _ _, runs_far r (fun i => x.getD i 0) _ hm, ?_⟩
  intro c hc
  refine List.IsChain.imp ?_ (runs_chain _ _ c hc)
  intro i j h
  simpa [abs_sub_comm] using h

theorem linked_symm {β : Type*} {S : β → Prop} {x : β → K} {r : K} {i j : β} (h : Linked S x r i j) :
    Linked S x r j i := by
  have : Std.Symm (fun i j => S i ∧ S j ∧ |x i - x j| ≤ r) :=
    ⟨fun a b ⟨h1, h2, h3⟩ => ⟨h2, h1, by rw [abs_sub_comm]; exact h3⟩⟩
  exact Relation.ReflTransGen.stdSymm.symm _ _ h

theorem linked_mem {β : Type*} {S : β → Prop} {x : β → K} {r : K} {i j : β} (h : Linked S x r i j) (hi : S i) : S j := by
  induction h with
  | refl => exact hi
  | tail _ h _ => exact h.2.1

/-- A chain links its first element to all others. -/
theorem chain_linked {S : ℕ → Prop} {x : ℕ → K} {r : K} : ∀ (c : List ℕ) (a : ℕ), (∀ i ∈ a :: c, S i) →
    (a :: c).IsChain (fun i j => |x i - x j| ≤ r) → ∀ j ∈ a :: c, Linked S x r a j := by
  intro c
  induction c with
  | nil => intro a _ _ j hj; rw [List.mem_singleton] at hj; rw [hj]; exact Relation.ReflTransGen.refl
  | cons b c ih =>
    intro a hS hc j hj
    rw [List.isChain_cons_cons] at hc
    rcases List.mem_cons.mp hj with h | h
    · rw [h]; exact Relation.ReflTransGen.refl
    · have := ih b (fun i hi => hS i (List.mem_cons_of_mem _ hi)) hc.2 j h
      exact Relation.ReflTransGen.head ⟨hS a List.mem_cons_self, hS b (by simp), hc.1⟩ this

/-- A friends-of-friends partition of the points of `S`. -/
structure FoF (S : ℕ → Prop) (x : ℕ → K) (r : K) (C : List (List ℕ)) : Prop where
  cover : ∀ i, S i ↔ ∃ c ∈ C, i ∈ c
  ne : ∀ c ∈ C, c ≠ []
  disj : C.Pairwise (fun c c' => ∀ i ∈ c, i ∉ c')
  far : C.Pairwise (fun c c' => ∀ i ∈ c, ∀ j ∈ c', r < |x i - x j|)
  chain : ∀ c ∈ C, c.IsChain (fun i j => |x i - x j| ≤ r)

theorem FoF.far_of_ne {S : ℕ → Prop} {x : ℕ → K} {r : K} {C : List (List ℕ)} (h : FoF S x r C)
    {c c' : List ℕ} (hc : c ∈ C) (hc' : c' ∈ C) (hcc : c ≠ c') : ∀ i ∈ c, ∀ j ∈ c', r < |x i - x j| := by
  have hsym : Std.Symm (fun c c' : List ℕ => ∀ i ∈ c, ∀ j ∈ c', r < |x i - x j|) :=
    ⟨fun a b h i hi j hj => by rw [abs_sub_comm]; exact h j hj i hi⟩
  exact h.far.forall hc hc' hcc

theorem FoF.linked {S : ℕ → Prop} {x : ℕ → K} {r : K} {C : List (List ℕ)} (h : FoF S x r C)
    {c : List ℕ} (hc : c ∈ C) {i j : ℕ} (hi : i ∈ c) : j ∈ c ↔ Linked S x r i j := by
  have hin : ∀ c ∈ C, ∀ k ∈ c, S k := fun c hc k hk => (h.cover k).mpr ⟨c, hc, hk⟩
  constructor
  · intro hj
    cases c with
    | nil => simp at hi
    | cons a c =>
      have := chain_linked (x := x) (r := r) c a (hin _ hc) (h.chain _ hc)
      exact Relation.ReflTransGen.trans (linked_symm (this i hi)) (this j hj)
  · intro hl
    induction hl with
    | refl => exact hi
    | tail _ hstep ih =>
      rename_i k l _
      obtain ⟨hk, hl, hd⟩ := hstep
      obtain ⟨c', hc', hlc'⟩ := (h.cover l).mp hl
      by_cases hcc : c = c'
      · rw [hcc]; exact hlc'
      · exact absurd hd (not_le.mpr (h.far_of_ne hc hc' hcc k ih l hlc'))

theorem cluster1d_fof (argsort : List K → List ℕ) (ha : IsArgsort argsort) (x : List K) (r : K) (b : Bool)
    (hb : b = true → x.Pairwise (· ≤ ·) ∨ x.Pairwise (· ≥ ·)) :
    FoF (· < x.length) (fun k => x.getD k 0) r (cluster1d argsort x r b) := by
  obtain ⟨hp, hne, hfar, hch⟩ := cluster1d_spec argsort ha x r b hb
  refine ⟨?_, hne, ?_, hfar, hch⟩
  · intro i
    rw [← List.mem_range, ← hp.mem_iff, List.mem_flatten]
  · have := (List.nodup_flatten.mp (hp.nodup_iff.mpr List.nodup_range)).2
    exact this.imp (fun h i hi hi' => h hi hi')

/-- Clustering a selection. -/
theorem cluster_sel_fof (argsort : List K → List ℕ) (ha : IsArgsort argsort) (f : ℕ → K) (idx : List ℕ)
    (hnd : idx.Nodup) (r : K) :
    FoF (· ∈ idx) f r ((cluster1d argsort (idx.map f) r false).map (fun cl => cl.map (fun k => idx.getD k 0))) := by
  have h := cluster1d_fof argsort ha (idx.map f) r false (by simp)
  have hin : ∀ c ∈ cluster1d argsort (idx.map f) r false, ∀ k ∈ c, k < idx.length := by
    intro c hc k hk
    simpa using (h.cover k).mpr ⟨c, hc, hk⟩
  have hf : ∀ k, k < idx.length → (idx.map f).getD k 0 = f (idx.getD k 0) := by
    intro k hk
    simp [List.getD, List.getElem?_eq_getElem hk]
  generalize cluster1d argsort (idx.map f) r false = C at *
  constructor
  · intro i
    constructor
    · intro hi
      obtain ⟨k, hk, hki⟩ := List.mem_iff_getElem.mp hi
      obtain ⟨c, hc, hkc⟩ := (h.cover k).mp (by simpa using hk)
      refine ⟨_, List.mem_map.mpr ⟨c, hc, rfl⟩, List.mem_map.mpr ⟨k, hkc, ?_⟩⟩
      simp [List.getD, List.getElem?_eq_getElem hk, hki]
    · rintro ⟨d, hd, hi⟩
      obtain ⟨c, hc, rfl⟩ := List.mem_map.mp hd
      obtain ⟨k, hk, rfl⟩ := List.mem_map.mp hi
      have := hin c hc k hk
      simp [List.getD, List.getElem?_eq_getElem this]
  · intro d hd
    obtain ⟨c, hc, rfl⟩ := List.mem_map.mp hd
    simpa using h.ne c hc
  · rw [List.pairwise_map]
    refine List.Pairwise.imp_of_mem ?_ h.disj
    intro c c' hc hc' hcc i hi hi'
    obtain ⟨k, hk, rfl⟩ := List.mem_map.mp hi
    obtain ⟨l, hl, hkl⟩ := List.mem_map.mp hi'
    have h1 := hin c hc k hk
    have h2 := hin c' hc' l hl
    simp only [List.getD, List.getElem?_eq_getElem h1, List.getElem?_eq_getElem h2, Option.getD_some] at hkl
    have := (List.Nodup.getElem_inj_iff hnd).mp hkl
    rw [this] at hl
    exact hcc k hk hl
  · rw [List.pairwise_map]
    refine List.Pairwise.imp_of_mem ?_ h.far
    intro c c' hc hc' hcc i hi j hj
    obtain ⟨k, hk, rfl⟩ := List.mem_map.mp hi
    obtain ⟨l, hl, rfl⟩ := List.mem_map.mp hj
    rw [← hf k (hin c hc k hk), ← hf l (hin c' hc' l hl)]
    exact hcc k hk l hl
  · intro d hd
    obtain ⟨c, hc, rfl⟩ := List.mem_map.mp hd
    rw [List.isChain_map]
    refine List.IsChain.imp_of_mem_imp ?_ (h.chain c hc)
    intro k l hk hl hkl
    rw [← hf k (hin c hc k hk), ← hf l (hin c hc l hl)]
    exact hkl

theorem argmaxAux_spec : ∀ (l : List K) (pre : List K) (v : K) (best : ℕ),
    pre[best]? = some v → (∀ a ∈ pre, a ≤ v) →
    ∃ w, (pre ++ l)[argmaxAux l pre.length v best]? = some w ∧ ∀ a ∈ pre ++ l, a ≤ w := by
  intro l
  induction l with
  | nil => intro pre v best h1 h2; exact ⟨v, by simpa [argmaxAux] using h1, by simpa using h2⟩
  | cons b l ih =>
    intro pre v best h1 h2
    rw [argmaxAux]
    have hl : pre.length + 1 = (pre ++ [b]).length := by simp
    have happ : pre ++ b :: l = (pre ++ [b]) ++ l := by simp
    split_ifs with h
    · rw [happ, hl]
      refine ih (pre ++ [b]) b pre.length (by simp) ?_
      intro a ha
      rcases List.mem_append.mp ha with h' | h'
      · exact le_of_lt (lt_of_le_of_lt (h2 a h') h)
      · simp at h'; rw [h']
    · rw [happ, hl]
      refine ih (pre ++ [b]) v best ?_ ?_
      · have hb : best < pre.length := by
          by_contra hn
          rw [List.getElem?_eq_none (not_lt.mp hn)] at h1
          simp at h1
        rw [List.getElem?_append_left hb]; exact h1
      · intro a ha
        rcases List.mem_append.mp ha with h' | h'
        · exact h2 a h'
        · simp at h'; rw [h']; exact not_lt.mp h

theorem argmax_spec (l : List K) (hl : l ≠ []) : ∃ w, l[argmax l]? = some w ∧ ∀ a ∈ l, a ≤ w := by
  cases l with
  | nil => exact absurd rfl hl
  | cons a l => exact argmaxAux_spec l [a] a 0 rfl (by simp)

/-- `ix[s[ix].argmax()]`. -/
theorem best_spec (s : ℕ → K) (ix : List ℕ) (h : ix ≠ []) :
    ix.getD (argmax (ix.map s)) 0 ∈ ix ∧ ∀ j ∈ ix, s j ≤ s (ix.getD (argmax (ix.map s)) 0) := by
  obtain ⟨w, h1, h2⟩ := argmax_spec (ix.map s) (by simpa using h)
  rw [List.getElem?_map] at h1
  cases hk : ix[argmax (ix.map s)]? with
  | none => rw [hk] at h1; simp at h1
  | some i =>
    rw [hk] at h1
    simp only [Option.map_some, Option.some.injEq] at h1
    rw [List.getD, hk, Option.getD_some]
    refine ⟨List.mem_of_getElem? hk, ?_⟩
    intro j hj
    rw [h1]
    exact h2 _ (List.mem_map_of_mem hj)

/-- One representative per cluster. -/
theorem fof_best {L : Type*} [LE L] {S : ℕ → Prop} {x : ℕ → K} {r : K} {C : List (List ℕ)} (h : FoF S x r C) (s : ℕ → L)
    (best : List ℕ → ℕ) (hb : ∀ c, c ≠ [] → best c ∈ c ∧ ∀ j ∈ c, s j ≤ s (best c)) :
    (∀ i ∈ C.map best, S i) ∧
    (∀ i ∈ C.map best, ∀ j, Linked S x r i j → s j ≤ s i) ∧
    (∀ j, S j → ∃ i ∈ C.map best, Linked S x r i j) ∧
    (C.map best).Pairwise (fun i j => ¬ Linked S x r i j) := by
  refine ⟨?_, ?_, ?_, ?_⟩
  · intro i hi
    obtain ⟨c, hc, rfl⟩ := List.mem_map.mp hi
    exact (h.cover _).mpr ⟨c, hc, (hb c (h.ne c hc)).1⟩
  · intro i hi j hj
    obtain ⟨c, hc, rfl⟩ := List.mem_map.mp hi
    have h1 := hb c (h.ne c hc)
    exact h1.2 j ((h.linked hc h1.1).mpr hj)
  · intro j hj
    obtain ⟨c, hc, hjc⟩ := (h.cover j).mp hj
    have h1 := hb c (h.ne c hc)
    exact ⟨best c, List.mem_map_of_mem hc, (h.linked hc h1.1).mp hjc⟩
  · rw [List.pairwise_map]
    refine List.Pairwise.imp_of_mem ?_ h.disj
    intro c c' hc hc' hcc hl
    have h1 := hb c (h.ne c hc)
    have h2 := hb c' (h.ne c' hc')
    exact hcc _ ((h.linked hc h1.1).mpr hl) h2.1

end Verif.Lemmas
