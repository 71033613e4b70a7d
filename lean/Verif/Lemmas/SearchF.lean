import Verif.Lemmas.PeriodogramF

/-! # Double precision search: memory safety and values -/

namespace Verif.Lemmas

open Verif.Model Verif.Spec

/-- `n` cells from address `a` hold values. -/
def Init {V : Type*} (mem : Mem V) (a n : ℕ) : Prop := ∀ i < n, ∃ v, mem (a + i) = .val v

theorem Init.holds {V : Type*} [Inhabited V] {mem : Mem V} {a n : ℕ} (h : Init mem a n) :
    Holds mem a n (fun i => (mem.load (a + i)).getD default) := by
  intro i hi
  obtain ⟨v, hv⟩ := h i hi
  simp only
  rw [load_of_val hv, hv]
  rfl

theorem Holds.init {V : Type*} {mem : Mem V} {a n : ℕ} {x : ℕ → V} (h : Holds mem a n x) : Init mem a n :=
  fun i hi => ⟨_, h i hi⟩

theorem Init.alloc {V : Type*} {mem : Mem V} {a n : ℕ} (h : Init mem a n) : Alloc mem a n := by
  intro i hi
  obtain ⟨v, hv⟩ := h i hi
  rw [hv]
  exact fun h => nomatch h

/-- Bounds and weights of the window of output sample `k` of `downsample`, downsample.hpp 58-70. -/
def dStart (A : DArith) (f : ℚ) (k : ℕ) : ℚ := A.fl (A.fl k * f)

def dStop (A : DArith) (f : ℚ) (k : ℕ) : ℚ := if A.fused then A.fl (A.fl k * f + f) else A.fl (dStart A f k + f)

def dImin (A : DArith) (f : ℚ) (k : ℕ) : ℕ := ⌊dStart A f k⌋.toNat

def dImax (A : DArith) (size : ℕ) (f : ℚ) (k : ℕ) : ℕ := min ⌊dStop A f k⌋.toNat (size - 1)

/-- The accumulator after `t` iterations of the inner loop. -/
def dAcc {V : Type*} (A : DArith) (O : VOps V) (x : ℕ → V) (f : ℚ) (k : ℕ) : ℕ → V
  | 0 => O.wmul (A.fl (A.fl (dImin A f k + 1 : ℕ) - dStart A f k)) (x (dImin A f k))
  | t + 1 => O.add (dAcc A O x f k t) (x (dImin A f k + 1 + t))

/-- Output sample `k` of `downsample`. -/
def dSample {V : Type*} (A : DArith) (O : VOps V) (size : ℕ) (x : ℕ → V) (f : ℚ) (k : ℕ) : V :=
  O.wadd (dAcc A O x f k (dImax A size f k - (dImin A f k + 1))) (A.fl (dStop A f k - A.fl (dImax A size f k)))
    (x (dImax A size f k))

section plan

set_option linter.unusedSectionVars false

variable {A : DArith} (hA : Sane A) {a : DArgs} (hr : InRange A a) {V : Type*} [Inhabited V] (O : VOps V)
include hA hr

omit [Inhabited V] in
/-- One output sample of the downsampling. -/
theorem d_body (inp : ℕ) {f : ℚ} (hf : 1 < f) (out k : ℕ)
    (hk : k < ⌊A.fl (A.fl a.size / f)⌋₊) (mem : Mem V) (x : ℕ → V)
    (hx : Holds mem inp a.size x) (ho : mem (out + k) ≠ .unalloc) :
    A.downsampleBody O inp a.size f out k mem =
      .ok (fun b => if b = out + k then .val (dSample A O a.size x f k) else mem b) := by
  have hs := hr.size
  have hsq : (a.size : ℚ) ≤ 2 ^ 50 := by exact_mod_cast hs
  have hq := d_quot_le hA hr hf.le
  have hkN : k < a.size := lt_of_lt_of_le hk (Nat.floor_le_of_le hq)
  have ek := hA.nat k (by omega)
  have hN1 : 1 ≤ a.size := by omega
  have eN : A.fl (A.fl a.size - 1) = ((a.size - 1 : ℕ) : ℚ) := by
    have := hA.nat (a.size - 1) (by omega)
    rw [d_size hA hr]
    rw [Nat.cast_sub hN1, Nat.cast_one] at *
    exact this
  -- the start of the interval is inside the data
  have hk1 : ((k + 1 : ℕ) : ℚ) ≤ A.fl (A.fl a.size / f) := by
    rw [← Nat.le_floor_iff]
    · exact hk
    · rw [d_size hA hr]; exact Dbl.fl_nonneg hA (by positivity)
  have hk2 : ((k + 1 : ℕ) : ℚ) * f ≤ (1 + u53) * a.size := by
    have h1 := Dbl.fl_le hA (x := (a.size : ℚ) / f) (by positivity)
    rw [d_size hA hr] at hk1
    have h2 : ((k + 1 : ℕ) : ℚ) * f ≤ (1 + u53) * (a.size / f) * f :=
      mul_le_mul_of_nonneg_right (hk1.trans h1) (by linarith)
    have h3 : (a.size : ℚ) / f * f = a.size := div_mul_cancel₀ _ (by linarith)
    rw [mul_assoc, h3] at h2
    exact h2
  push_cast at hk2
  have hk0 : (0 : ℚ) ≤ k := Nat.cast_nonneg k
  have hkf : (0 : ℚ) ≤ k * f := by positivity
  have hstart : A.fl (k * f) < a.size := by
    have h1 := Dbl.fl_le hA hkf
    have h2 : (k : ℚ) * f ≤ (1 + u53) * a.size - 1 := by linarith
    have h3 : (1 + u53) * ((k : ℚ) * f) ≤ (1 + u53) * ((1 + u53) * a.size - 1) :=
      mul_le_mul_of_nonneg_left h2 (by norm_num [u53])
    have h4 : (1 + u53) * ((1 + u53) * (a.size : ℚ) - 1) < a.size := by
      unfold u53
      nlinarith
    linarith
  have hstart0 : 0 ≤ A.fl (k * f) := Dbl.fl_nonneg hA hkf
  unfold DArith.downsampleBody
  simp only
  have d1 : dStart A f k = A.fl (k * f) := by rw [dStart, ek]
  have d2 : dStop A f k = if A.fused = true then A.fl ((k : ℚ) * f + f) else A.fl (A.fl (k * f) + f) := by
    rw [dStop, d1, ek]
  rw [ek, eN]
  set start := A.fl (k * f) with hst
  have hfl0 : 0 ≤ ⌊start⌋ := Int.floor_nonneg.mpr hstart0
  have hfl1 : (⌊start⌋ : ℚ) ≤ start := Int.floor_le _
  rw [toSize_int hfl0 (by
    have : (2 : ℚ) ^ 50 < 2 ^ 64 := by norm_num
    linarith)]
  simp only [Except.bind]
  have himin : ⌊start⌋.toNat < a.size := by
    have : ⌊start⌋ < (a.size : ℤ) := by
      rw [Int.floor_lt]; exact_mod_cast hstart
    omega
  set stop := (if A.fused = true then A.fl ((k : ℚ) * f + f) else A.fl (start + f)) with hstop
  have hstop0 : 0 ≤ stop := by
    rw [hstop]
    split_ifs
    · exact Dbl.fl_nonneg hA (by linarith)
    · exact Dbl.fl_nonneg hA (by linarith)
  have hfs0 : 0 ≤ ⌊stop⌋ := Int.floor_nonneg.mpr hstop0
  have d3 : dImin A f k = ⌊start⌋.toNat := by rw [dImin, d1]
  obtain ⟨q, hq0, hq1, hq2⟩ : ∃ q : ℕ, dImax A a.size f k = q ∧
      min ((⌊stop⌋ : ℤ) : ℚ) ((a.size - 1 : ℕ) : ℚ) = ((q : ℤ) : ℚ) ∧ q < a.size := by
    refine ⟨_, rfl, ?_⟩
    rw [dImax, d2]
    rcases le_total ((⌊stop⌋ : ℤ) : ℚ) ((a.size - 1 : ℕ) : ℚ) with h | h
    · have h' : ⌊stop⌋ ≤ ((a.size - 1 : ℕ) : ℤ) := by exact_mod_cast h
      have e : min ⌊stop⌋.toNat (a.size - 1) = ⌊stop⌋.toNat := min_eq_left (by omega)
      rw [min_eq_left h, e]
      refine ⟨?_, by omega⟩
      rw [Int.toNat_of_nonneg hfs0]
    · have h' : ((a.size - 1 : ℕ) : ℤ) ≤ ⌊stop⌋ := by exact_mod_cast h
      have e : min ⌊stop⌋.toNat (a.size - 1) = a.size - 1 := min_eq_right (by omega)
      rw [min_eq_right h, e]
      exact ⟨by simp, by omega⟩
  rw [hq1, toSize_int (by omega) (by
    have : ((q : ℤ) : ℚ) < a.size := by exact_mod_cast hq2
    have : (2 : ℚ) ^ 50 < 2 ^ 64 := by norm_num
    linarith)]
  simp only [Int.toNat_natCast]
  have hv := hx _ himin
  have hw := hx _ hq2
  rw [load_of_val hv, load_of_val hw]
  simp only [orUB]
  obtain ⟨acc, e, hacc⟩ := forE_inv (fun t acc => acc = dAcc A O x f k t)
    (fun t acc => (orUB (mem.load (inp + (⌊start⌋.toNat + 1 + t)))).bind fun v => .ok (O.add acc v))
    (q - (⌊start⌋.toNat + 1)) (O.wmul (A.fl (A.fl ((⌊start⌋.toNat + 1 : ℕ) : ℚ) - start)) (x ⌊start⌋.toNat))
    (by rw [dAcc, d3, d1]) (by
      intro t ht acc hacc
      rw [load_of_val (hx (⌊start⌋.toNat + 1 + t) (by omega))]
      exact ⟨_, rfl, by rw [dAcc, d3, hacc]⟩)
  simp only [orUB, Except.bind] at e
  rw [e]
  simp only
  rw [store_of_alloc _ ho, dSample, d3, hq0, d2, hacc]

omit [Inhabited V] in
theorem d_downsample (inp : ℕ) {f : ℚ} (hf : 1 < f) (hfs : f ≤ a.size) (out : ℕ) (mem : Mem V)
    (x : ℕ → V) (hx : Holds mem inp a.size x) (ho : Alloc mem out ⌊A.fl (A.fl a.size / f)⌋₊)
    (d : Disj inp a.size out ⌊A.fl (A.fl a.size / f)⌋₊) :
    ∃ mem', A.downsample O inp a.size f out mem = .ok mem' ∧
      Holds mem' out ⌊A.fl (A.fl a.size / f)⌋₊ (dSample A O a.size x f) ∧
      SameOutside mem mem' out ⌊A.fl (A.fl a.size / f)⌋₊ := by
  unfold DArith.downsample
  rw [if_neg (by rw [d_size hA hr]; exact not_not.mpr ⟨hf, hfs⟩), d_dsSize hA hr hf.le]
  simp only [Except.bind]
  have key : ∀ n ≤ ⌊A.fl (A.fl a.size / f)⌋₊, ∃ mem', forE (A.downsampleBody O inp a.size f out) n mem = .ok mem' ∧
      Holds mem' out n (dSample A O a.size x f) ∧ SameOutside mem mem' out n := by
    intro n
    induction n with
    | zero => intro _; exact ⟨mem, rfl, fun i hi => absurd hi (by omega), fun _ _ => rfl⟩
    | succ n ih =>
      intro hn
      obtain ⟨m1, e1, g1, s1⟩ := ih (by omega)
      have hx1 : Holds m1 inp a.size x := by
        intro i hi
        rw [s1 _ (by unfold Disj at d; omega)]
        exact hx i hi
      have e2 := d_body hA hr O inp hf out n hn m1 x hx1 (by rw [s1 _ (by omega)]; exact ho n hn)
      refine ⟨_, by rw [forE, e1]; exact e2, ?_, ?_⟩
      · intro i hi
        by_cases h : i = n
        · subst h; simp
        · simp only
          rw [if_neg (by omega)]
          exact g1 i (by omega)
      · intro b hb
        simp only
        rw [if_neg (by omega)]
        exact s1 b (by omega)
  exact key _ le_rfl

end plan

/-! ## Lists of trials -/

/-- Trials of one fold, one stage, the first stages. A trial is (stage, bins, shift). -/
def dFold (A : DArith) (a : DArgs) (ids bins : ℕ) : List (ℕ × ℕ × ℕ) :=
  (List.range (rowsEvalN A a ids bins)).map (fun s => (ids, bins, s))

def dStagePrefix (A : DArith) (a : DArgs) (ids j : ℕ) : List (ℕ × ℕ × ℕ) :=
  (List.range j).flatMap (fun t => dFold A a ids (a.bmin + t))

def dStage (A : DArith) (a : DArgs) (ids : ℕ) : List (ℕ × ℕ × ℕ) :=
  dStagePrefix A a ids (bstopN A a ids + 1 - a.bmin)

def dPrefix (A : DArith) (a : DArgs) (i : ℕ) : List (ℕ × ℕ × ℕ) := (List.range i).flatMap (dStage A a)

def dTrials (A : DArith) (a : DArgs) : List (ℕ × ℕ × ℕ) := dPrefix A a (numDsN A a)

theorem dStagePrefix_succ (A : DArith) (a : DArgs) (ids j : ℕ) :
    dStagePrefix A a ids (j + 1) = dStagePrefix A a ids j ++ dFold A a ids (a.bmin + j) := by
  simp [dStagePrefix, List.range_succ]

theorem dPrefix_succ (A : DArith) (a : DArgs) (i : ℕ) : dPrefix A a (i + 1) = dPrefix A a i ++ dStage A a i := by
  simp [dPrefix, List.range_succ]

theorem dFold_length (A : DArith) (a : DArgs) (ids bins : ℕ) :
    (dFold A a ids bins).length = rowsEvalN A a ids bins := by
  simp [dFold]

theorem dStagePrefix_mono (A : DArith) (a : DArgs) (ids : ℕ) {i j : ℕ} (h : i ≤ j) :
    (dStagePrefix A a ids i).length ≤ (dStagePrefix A a ids j).length := by
  induction j, h using Nat.le_induction with
  | base => exact le_rfl
  | succ j _ ih => rw [dStagePrefix_succ, List.length_append]; omega

theorem dPrefix_mono (A : DArith) (a : DArgs) {i j : ℕ} (h : i ≤ j) :
    (dPrefix A a i).length ≤ (dPrefix A a j).length := by
  induction j, h using Nat.le_induction with
  | base => exact le_rfl
  | succ j _ ih => rw [dPrefix_succ, List.length_append]; omega

theorem mem_dTrials {A : DArith} {a : DArgs} {ids b s : ℕ} :
    (ids, b, s) ∈ dTrials A a ↔ ids < numDsN A a ∧ a.bmin ≤ b ∧ b ≤ bstopN A a ids ∧ s < rowsEvalN A a ids b := by
  simp only [dTrials, dPrefix, dStage, dStagePrefix, dFold, List.mem_flatMap, List.mem_range,
    List.mem_map, Prod.mk.injEq]
  constructor
  · rintro ⟨i, hi, j, hj, s', hs', rfl, rfl, rfl⟩
    exact ⟨hi, by omega, by omega, hs'⟩
  · rintro ⟨h1, h2, h3, h4⟩
    exact ⟨ids, h1, b - a.bmin, by omega, s, by rwa [Nat.add_sub_cancel' h2], rfl, by omega, rfl⟩

/-- Period written for a trial. -/
def dPer (A : DArith) (a : DArgs) (t : ℕ × ℕ × ℕ) : ℚ := A.label a t.1 (nN A a t.1 / t.2.1) t.2.1 t.2.2

/-- The series searched at stage `ids`. -/
def dStageData {V : Type*} (A : DArith) (a : DArgs) (O : VOps V) (x : ℕ → V) (ids k : ℕ) : V :=
  if A.f a ids = 1 then x k else dSample A O a.size x (A.f a ids) k

/-- The profile of a trial. -/
def dProf {V : Type*} (A : DArith) (a : DArgs) (O : VOps V) (idx : IdxRule) (x : ℕ → V) (t : ℕ × ℕ × ℕ) : ℕ → V :=
  transform O.add idx (nN A a t.1 / t.2.1) t.2.1 (fun r c => dStageData A a O x t.1 (r * t.2.1 + c)) t.2.2

/-- The S/N value of a trial for width number `k`. -/
def dSnr {V : Type*} [Inhabited V] (A : DArith) (a : DArgs) (O : VOps V) (idx : IdxRule) (x : ℕ → V) (widths : List ℕ)
    (t : ℕ × ℕ × ℕ) (k : ℕ) : V :=
  O.snr t.2.1 (fun i => if i < t.2.1 then dProf A a O idx x t i else default) widths (nN A a t.1 / t.2.1) a.size
    (A.f a t.1) k

section search

set_option linter.unusedSectionVars false

variable {A : DArith} (hA : Sane A) {a : DArgs} (hr : InRange A a) {V : Type*} [Inhabited V] (O : VOps V)
include hA hr

omit [Inhabited V] in
theorem d_length_ok : A.length a = .ok (dTrials A a).length := by
  unfold DArith.length
  rw [if_neg (not_not.mpr hr.valid), d_numDs_ok hA hr]
  simp only [Except.bind]
  obtain ⟨l, e, hl⟩ := forE_inv (fun i l => l = (dPrefix A a i).length) (A.lengthStage a) (numDsN A a) 0
    (by simp [dPrefix]) (by
      intro i hi l hl
      unfold DArith.lengthStage
      rw [d_n_ok hA hr i]
      simp only [Except.bind]
      rw [d_bstop_ok hA hr i]
      simp only
      obtain ⟨l', e', hl'⟩ := forE_inv (fun j l' => l' = l + (dStagePrefix A a i j).length)
        (fun j len => (A.rowsEval a i (nN A a i) (a.bmin + j)).map fun r => len + r)
        (bstopN A a i + 1 - a.bmin) l (by simp [dStagePrefix]) (by
          intro j hj l' hl'
          have hb := hr.valid.2.2.2.1
          rw [(d_rowsEval_ok hA hr (ids := i) (bins := a.bmin + j) (by omega) (by omega)).1]
          refine ⟨_, rfl, ?_⟩
          rw [dStagePrefix_succ, List.length_append, dFold_length]
          show l' + _ = _
          omega)
      refine ⟨l', e', ?_⟩
      rw [hl', hl, dPrefix_succ, List.length_append]
      rfl)
  rw [e, hl]
  rfl

/-- Invariant of the search after the trials `T`. -/
structure DInv (A : DArith) (a : DArgs) (O : VOps V) (idx : IdxRule) (x : ℕ → V) (L : PgLayout) (widths : List ℕ)
    (cap buf : ℕ) (T : List (ℕ × ℕ × ℕ)) (st : DState V) : Prop where
  ppos : st.ppos = T.length
  spos : st.spos = T.length * widths.length
  per : ∀ j (h : j < T.length), st.per j = .val (dPer A a T[j])
  fb : ∀ j (h : j < T.length), st.fb j = .val (T[j].2.1 % 2 ^ 32)
  snr : ∀ j (h : j < T.length), ∀ k < widths.length,
    st.snr (j * widths.length + k) = .val (dSnr A a O idx x widths T[j] k)
  perAlloc : Alloc st.per 0 cap
  fbAlloc : Alloc st.fb 0 cap
  snrAlloc : Alloc st.snr 0 (cap * widths.length)
  data : Holds st.mem L.data a.size x
  inputAlloc : Alloc st.mem L.input buf
  bufAlloc : Alloc st.mem L.ffabuf buf
  outAlloc : Alloc st.mem L.ffaout buf

/-- The buffers do not overlap. -/
structure DDisj (a : DArgs) (L : PgLayout) (buf : ℕ) : Prop where
  di : Disj L.data a.size L.input buf
  db : Disj L.data a.size L.ffabuf buf
  dout : Disj L.data a.size L.ffaout buf
  ib : Disj L.input buf L.ffabuf buf
  io : Disj L.input buf L.ffaout buf
  bo : Disj L.ffabuf buf L.ffaout buf

omit hA hr in
theorem loadRowD_ok {mem : Mem V} {b n : ℕ} {x : ℕ → V} (h : Holds mem b n x) :
    loadRowD mem b n = .ok (fun i => if i < n then x i else default) := by
  unfold loadRowD
  rw [if_pos]
  · congr 1
    funext i
    split_ifs with hi
    · rw [load_of_val (h i hi)]; rfl
    · rfl
  · rw [List.all_eq_true]
    intro i hi
    rw [load_of_val (h i (by simpa using hi))]
    rfl

omit hA hr in
theorem snr2D_ok (mem : Mem V) (block evalRows bins : ℕ) (widths : List ℕ) (hne : widths ≠ []) (rows size : ℕ)
    (f : ℚ) (out : ℕ) (snr : Mem V) (x : ℕ → ℕ → V) (hx : ∀ r < evalRows, Holds mem (block + r * bins) bins (x r))
    (ho : Alloc snr out (evalRows * widths.length)) :
    ∃ snr', snr2D O mem block evalRows bins widths rows size f out snr = .ok snr' ∧
      (∀ r < evalRows, ∀ k < widths.length, snr' (out + r * widths.length + k) =
        .val (O.snr bins (fun i => if i < bins then x r i else default) widths rows size f k)) ∧
      SameOutside snr snr' out (evalRows * widths.length) := by
  unfold snr2D
  set nw := widths.length with hnw
  refine forE_inv (fun r m => (∀ i < r, ∀ k < nw, m (out + i * nw + k) =
      .val (O.snr bins (fun j => if j < bins then x i j else default) widths rows size f k)) ∧
      SameOutside snr m out (r * nw)) _ evalRows snr
    ⟨fun i hi => absurd hi (by omega), fun _ _ => rfl⟩ ?_
  intro i hi m ⟨h1, h2⟩
  rw [loadRowD_ok (hx i hi)]
  simp only [Except.bind, if_neg hne]
  have hib := row_bound' (p := nw) hi
  obtain ⟨m', e, g, s⟩ := storeSeq_spec (out + i * nw)
    (O.snr bins (fun j => if j < bins then x i j else default) widths rows size f) nw m (by
    intro k hk
    rw [h2 _ (by omega), Nat.add_assoc]
    exact ho _ (by omega))
  refine ⟨m', e, ?_, ?_⟩
  · intro i' hi' k hk
    by_cases h : i' = i
    · subst h; exact g k hk
    · have := row_bound' (p := nw) (show i' < i by omega)
      rw [s _ (by omega)]
      exact h1 i' (by omega) k hk
  · intro b hb'
    rw [Nat.succ_mul] at hb'
    rw [s b (by omega)]
    exact h2 b (by omega)

theorem d_fold_step {idx : IdxRule} {x : ℕ → V} {L : PgLayout} {widths : List ℕ} {cap buf : ℕ} (hne : widths ≠ [])
    (hidx : ∀ m ≤ a.size / a.bmin, 3 ≤ m → IdxOK idx m) (hd : DDisj a L buf)
    (ids bins input : ℕ) (hnb : nN A a ids ≤ buf) (hb1 : a.bmin ≤ bins) (hb2 : bins ≤ bstopN A a ids)
    (hin : Disj input (nN A a ids) L.ffabuf buf ∧ Disj input (nN A a ids) L.ffaout buf)
    (T : List (ℕ × ℕ × ℕ)) (hcap : T.length + rowsEvalN A a ids bins ≤ cap) (st : DState V)
    (inv : DInv A a O idx x L widths cap buf T st) (hxi : Holds st.mem input (nN A a ids) (dStageData A a O x ids)) :
    ∃ st', A.pgFold a O idx L widths input ids (nN A a ids) bins st = .ok st' ∧
      DInv A a O idx x L widths cap buf (T ++ dFold A a ids bins) st' ∧
      Holds st'.mem input (nN A a ids) (dStageData A a O x ids) := by
  have hbm := hr.valid.2.2.2.1
  have hbn : bins ≤ nN A a ids := hb2.trans ((min_le_left _ _).trans (min_le_right _ _))
  have hnN := d_n_le_size hA hr ids
  have hrows : 1 ≤ nN A a ids / bins := (Nat.one_le_div_iff (by omega)).mpr hbn
  have hmul : nN A a ids / bins * bins ≤ nN A a ids := Nat.div_mul_le_self _ _
  have hrN : nN A a ids / bins ≤ a.size / a.bmin := Nat.div_le_div hnN hb1 (by omega)
  have hre : rowsEvalN A a ids bins ≤ nN A a ids / bins := min_le_left _ _
  unfold DArith.pgFold
  simp only
  rw [(d_rowsEval_ok hA hr (ids := ids) (bins := bins) (by omega) hb2).1]
  simp only [Except.bind]
  have hro : rowsEvalN A a ids bins * bins ≤ nN A a ids / bins * bins := Nat.mul_le_mul_right _ hre
  obtain ⟨mem', e1, hout, fr⟩ := transformMem_spec (α := V) O.add idx bins (by omega) (nN A a ids / bins) hrows
    (fun m' h3 h4 => hidx m' (by omega) h4) input L.ffabuf L.ffaout st.mem
    (fun r c => dStageData A a O x ids (r * bins + c))
    (fun r hr c hc => by
      have := row_bound hr hc
      rw [Nat.add_assoc]; exact hxi _ (by omega))
    (fun i hi => inv.bufAlloc i (by omega)) (fun i hi => inv.outAlloc i (by omega))
    (by unfold Disj at *; omega) (by unfold Disj at *; omega)
    (by have := hd.bo; unfold Disj at *; omega)
  rw [e1]
  simp only [orUB]
  -- S/N
  obtain ⟨snr', e2, hs, so⟩ := snr2D_ok O mem' L.ffaout (rowsEvalN A a ids bins) bins widths hne (nN A a ids / bins)
    a.size (A.f a ids) st.spos st.snr _
    (fun r hr c hc => hout r (by omega) c hc)
    (by
      intro i hi
      have h1 := inv.snrAlloc (st.spos + i) (by
        rw [inv.spos]
        have := Nat.mul_le_mul_right widths.length hcap
        rw [Nat.add_mul] at this
        omega)
      rwa [Nat.zero_add] at h1)
  rw [e2]
  simp only
  obtain ⟨per', e3, hp, po⟩ := storeSeq_spec st.ppos (A.label a ids (nN A a ids / bins) bins)
    (rowsEvalN A a ids bins) st.per
    (by
      intro i hi
      have := inv.perAlloc (st.ppos + i) (by rw [inv.ppos]; omega)
      rwa [Nat.zero_add] at this)
  rw [e3]
  simp only
  obtain ⟨fb', e4, hf, fo⟩ := storeSeq_spec st.ppos (fun _ => bins % 2 ^ 32) (rowsEvalN A a ids bins) st.fb
    (by
      intro i hi
      have := inv.fbAlloc (st.ppos + i) (by rw [inv.ppos]; omega)
      rwa [Nat.zero_add] at this)
  rw [e4]
  simp only
  have hpp := inv.ppos
  have hsp := inv.spos
  refine ⟨_, rfl, ?_, ?_⟩
  · have hlen : (T ++ dFold A a ids bins).length = T.length + rowsEvalN A a ids bins := by
      rw [List.length_append, dFold_length]
    refine ⟨by rw [hlen, hpp], by rw [hlen, hsp, Nat.add_mul], ?_, ?_, ?_, ?_, ?_, ?_, ?_, ?_, ?_, ?_⟩
    · intro j hj
      simp only
      by_cases h : j < T.length
      · rw [po _ (by omega), inv.per j h, List.getElem_append_left h]
      · have h' : T.length ≤ j := by omega
        rw [hlen] at hj
        have := hp (j - T.length) (by omega)
        rw [show st.ppos + (j - T.length) = j by omega] at this
        rw [this, List.getElem_append_right h']
        simp [dFold, dPer]
    · intro j hj
      simp only
      by_cases h : j < T.length
      · rw [fo _ (by omega), inv.fb j h, List.getElem_append_left h]
      · have h' : T.length ≤ j := by omega
        rw [hlen] at hj
        have := hf (j - T.length) (by omega)
        rw [show st.ppos + (j - T.length) = j by omega] at this
        rw [this, List.getElem_append_right h']
        simp [dFold]
    · intro j hj k hk
      simp only
      by_cases h : j < T.length
      · have := row_bound h hk
        rw [so _ (by omega), inv.snr j h k hk, List.getElem_append_left h]
      · have h' : T.length ≤ j := by omega
        rw [hlen] at hj
        have := hs (j - T.length) (by omega) k hk
        rw [hsp, ← Nat.add_mul, show T.length + (j - T.length) = j by omega] at this
        rw [this, List.getElem_append_right h']
        simp [dFold, dSnr, dProf]
    · exact alloc_append inv.perAlloc hp po
    · exact alloc_append inv.fbAlloc hf fo
    · have := inv.snrAlloc
      intro i hi
      by_cases hc : st.spos ≤ i ∧ i < st.spos + rowsEvalN A a ids bins * widths.length
      · have hw : 0 < widths.length := List.length_pos_iff.mpr hne
        have h1 := Nat.div_add_mod (i - st.spos) widths.length
        have h2 := Nat.mod_lt (i - st.spos) hw
        have h3 : (i - st.spos) / widths.length < rowsEvalN A a ids bins := by
          rw [Nat.div_lt_iff_lt_mul hw]; omega
        have h4 := hs _ h3 _ h2
        rw [Nat.add_assoc, Nat.mul_comm, h1, show st.spos + (i - st.spos) = i by omega] at h4
        rw [Nat.zero_add]
        simp only
        rw [h4]
        exact fun h => nomatch h
      · simp only
        rw [so _ (by omega)]; exact this i hi
    · intro i hi
      simp only
      have h1 := hd.db
      have h2 := hd.dout
      rw [fr.same _ (by unfold Disj at *; omega) (by unfold Disj at *; omega)]
      exact inv.data i hi
    · intro i hi
      simp only
      have h1 := hd.ib
      have h2 := hd.io
      rw [fr.same _ (by unfold Disj at *; omega) (by unfold Disj at *; omega)]
      exact inv.inputAlloc i hi
    · intro i hi
      simp only
      by_cases h : i < nN A a ids / bins * bins
      · exact fr.tempAlloc i h
      · have h1 := hd.bo
        rw [fr.same _ (by unfold Disj at *; omega) (by unfold Disj at *; omega)]
        exact inv.bufAlloc i hi
    · intro i hi
      simp only
      by_cases h : i < nN A a ids / bins * bins
      · exact fr.outAlloc i h
      · have h1 := hd.bo
        rw [fr.same _ (by unfold Disj at *; omega) (by unfold Disj at *; omega)]
        exact inv.outAlloc i hi
  · intro i hi
    simp only
    rw [fr.same _ (by unfold Disj at *; omega) (by unfold Disj at *; omega)]
    exact hxi i hi

theorem d_stage_step {idx : IdxRule} {x : ℕ → V} {L : PgLayout} {widths : List ℕ} {cap buf : ℕ} (hne : widths ≠ [])
    (hidx : ∀ m ≤ a.size / a.bmin, 3 ≤ m → IdxOK idx m) (hd : DDisj a L buf) (ids : ℕ) (hnb : nN A a ids ≤ buf)
    (hfs : A.f a ids = 1 ∨ A.f a ids ≤ a.size) (T : List (ℕ × ℕ × ℕ))
    (hcap : T.length + (dStage A a ids).length ≤ cap)
    (st : DState V) (inv : DInv A a O idx x L widths cap buf T st) :
    ∃ st', A.pgStage a O idx L widths ids st = .ok st' ∧
      DInv A a O idx x L widths cap buf (T ++ dStage A a ids) st' := by
  unfold DArith.pgStage
  rw [d_n_ok hA hr ids]
  simp only [Except.bind]
  -- the state after preparing the input
  obtain ⟨st1, e1, inv1, hx1, hin⟩ : ∃ st1,
      (if A.f a ids = 1 then Except.ok st
        else (A.downsample O L.data a.size (A.f a ids) L.input st.mem).map fun mem => { st with mem }) = .ok st1 ∧
      DInv A a O idx x L widths cap buf T st1 ∧
      Holds st1.mem (if A.f a ids = 1 then L.data else L.input) (nN A a ids) (dStageData A a O x ids) ∧
      Disj (if A.f a ids = 1 then L.data else L.input) (nN A a ids) L.ffabuf buf ∧
        Disj (if A.f a ids = 1 then L.data else L.input) (nN A a ids) L.ffaout buf := by
    by_cases h1 : A.f a ids = 1
    · have hn := d_n_le_size hA hr ids
      simp only [h1, if_true]
      refine ⟨st, rfl, inv, ?_, ?_, ?_⟩
      · intro i hi
        rw [inv.data i (by omega)]
        simp [dStageData, h1]
      · have := hd.db; unfold Disj at *; omega
      · have := hd.dout; unfold Disj at *; omega
    · simp only [h1, if_false]
      have hf1 : 1 < A.f a ids := lt_of_le_of_ne (d_f_ge_one hA hr ids) (Ne.symm h1)
      obtain ⟨mem', e, hh, so⟩ := d_downsample hA hr O L.data hf1 (hfs.resolve_left h1) L.input st.mem x inv.data
        (fun i hi => inv.inputAlloc i (by unfold nN at hnb; omega))
        (by have := hd.di; unfold Disj nN at *; omega)
      rw [e]
      refine ⟨_, rfl, ?_, ?_, ?_, ?_⟩
      · have d1 := hd.di
        have d2 := hd.ib
        have d3 := hd.io
        unfold nN at hnb
        refine { inv with data := ?_, inputAlloc := ?_, bufAlloc := ?_, outAlloc := ?_ }
        · intro i hi
          simp only
          rw [so _ (by unfold Disj at *; omega)]
          exact inv.data i hi
        · intro i hi
          simp only
          by_cases h : i < ⌊A.fl (A.fl a.size / A.f a ids)⌋₊
          · rw [hh i h]; exact fun h => nomatch h
          · rw [so _ (by omega)]; exact inv.inputAlloc i hi
        · intro i hi
          simp only
          rw [so _ (by unfold Disj at *; omega)]
          exact inv.bufAlloc i hi
        · intro i hi
          simp only
          rw [so _ (by unfold Disj at *; omega)]
          exact inv.outAlloc i hi
      · intro i hi
        simp only
        rw [hh i hi]
        simp [dStageData, h1]
      · have := hd.ib; unfold Disj at *; omega
      · have := hd.io; unfold Disj at *; omega
  rw [e1]
  simp only
  rw [d_bstop_ok hA hr ids]
  simp only
  generalize (if A.f a ids = 1 then L.data else L.input) = input at *
  obtain ⟨st', e, p⟩ := forE_inv
    (fun j s => DInv A a O idx x L widths cap buf (T ++ dStagePrefix A a ids j) s ∧
      Holds s.mem input (nN A a ids) (dStageData A a O x ids))
    (fun j => A.pgFold a O idx L widths input ids (nN A a ids) (a.bmin + j)) (bstopN A a ids + 1 - a.bmin) st1
    ⟨by simpa [dStagePrefix] using inv1, hx1⟩
    (by
      intro j hj s ⟨i1, i2⟩
      have hl := dStagePrefix_mono A a ids (show j + 1 ≤ bstopN A a ids + 1 - a.bmin by omega)
      rw [dStagePrefix_succ, List.length_append, dFold_length] at hl
      obtain ⟨s', e', p1, p2⟩ := d_fold_step hA hr O hne hidx hd ids (a.bmin + j) input hnb (by omega) (by omega) hin _
        (by
          rw [List.length_append]
          unfold dStage at hcap
          omega) s i1 i2
      refine ⟨s', e', ?_, p2⟩
      rw [dStagePrefix_succ, ← List.append_assoc]
      exact p1)
  exact ⟨st', e, p.1⟩

theorem d_stage_fails {idx : IdxRule} {L : PgLayout} {widths : List ℕ} (ids : ℕ) (h1 : A.f a ids ≠ 1)
    (h0 : (a.size : ℚ) < A.f a ids) (st : DState V) :
    A.pgStage a O idx L widths ids st = .error .valueError := by
  unfold DArith.pgStage
  rw [d_n_ok hA hr ids]
  simp only [Except.bind]
  rw [if_neg h1]
  unfold DArith.downsample
  rw [if_pos (by rw [d_size hA hr]; intro h; exact absurd h.2 (not_le.mpr h0))]
  rfl

theorem d_read_ok {idx : IdxRule} {x : ℕ → V} {L : PgLayout} {widths : List ℕ} {buf : ℕ} {st : DState V}
    (inv : DInv A a O idx x L widths (dTrials A a).length buf (dTrials A a) st) :
    DArith.readOutput (dTrials A a).length widths.length st =
      .ok ((dTrials A a).map (dPer A a), (dTrials A a).map (fun t => t.2.1 % 2 ^ 32),
        (dTrials A a).map (fun t => (List.range widths.length).map (dSnr A a O idx x widths t))) := by
  have r1 := readArray_list (mem := st.per) (a := 0) ((dTrials A a).map (dPer A a)) (fun j hj => by
    rw [List.length_map] at hj
    rw [Nat.zero_add, inv.per j hj, List.getElem_map])
  have r2 := readArray_list (mem := st.fb) (a := 0) ((dTrials A a).map (fun t => t.2.1 % 2 ^ 32)) (fun j hj => by
    rw [List.length_map] at hj
    rw [Nat.zero_add, inv.fb j hj, List.getElem_map])
  rw [List.length_map] at r1 r2
  have hrow : ∀ j ∈ List.range (dTrials A a).length, readArray st.snr (j * widths.length) widths.length =
      .ok ((List.range widths.length).map (dSnr A a O idx x widths ((dTrials A a).getD j default))) := by
    intro j hj
    apply readArray_spec
    have hj' : j < (dTrials A a).length := by simpa using hj
    intro k hk
    rw [inv.snr j hj' k hk]
    simp [hj']
  unfold DArith.readOutput
  rw [r1, r2]
  simp only [Except.bind]
  rw [mapM_ok _ _ _ hrow]
  suffices hl : (List.range (dTrials A a).length).map (fun j =>
      (List.range widths.length).map (dSnr A a O idx x widths ((dTrials A a).getD j default))) =
      (dTrials A a).map (fun t => (List.range widths.length).map (dSnr A a O idx x widths t)) by
    rw [hl]; rfl
  apply List.ext_getElem
  · simp
  · intro i h1 h2
    have h3 : i < (dTrials A a).length := by simpa using h2
    simp [h3]

end search

/-- The binding: either all stages can be downsampled and the output lists all trials, or `ValueError`. -/
theorem d_binding {A : DArith} (hA : Sane A) {V : Type*} [Inhabited V] (O : VOps V) (idx : IdxRule) (data : List V)
    (tsamp : ℚ) (widths : List ℕ) (hne : widths ≠ []) (pmin pmax : ℚ) (bmin bmax : ℕ) (a : DArgs)
    (ha : a = ⟨data.length, tsamp, pmin, pmax, bmin, bmax⟩) (hr : InRange A a)
    (hidx : ∀ m ≤ data.length / bmin, 3 ≤ m → IdxOK idx m) :
    ((∃ i < numDsN A a, ¬ (A.f a i = 1 ∨ A.f a i ≤ a.size)) →
      A.binding O idx data tsamp widths pmin pmax bmin bmax = .error .valueError) ∧
    ((∀ i < numDsN A a, A.f a i = 1 ∨ A.f a i ≤ a.size) →
      A.binding O idx data tsamp widths pmin pmax bmin bmax =
        .ok ((dTrials A a).map (dPer A a), (dTrials A a).map (fun t => t.2.1 % 2 ^ 32),
          (dTrials A a).map (fun t =>
            (List.range widths.length).map (dSnr A a O idx (fun i => data.getD i default) widths t)))) := by
  have hsize : a.size = data.length := by rw [ha]
  have hbmin : a.bmin = bmin := by rw [ha]
  set x : ℕ → V := fun i => data.getD i default with hx
  set buf := ⌊A.fl (A.fl a.size / A.dsIni a)⌋₊ with hbuf
  set L := DArith.layout data.length buf with hL
  set st0 : DState V := DArith.initState data buf (dTrials A a).length widths.length with hst0
  have hd : DDisj a L buf := by
    constructor <;> simp only [hL, DArith.layout, hsize, Disj] <;> omega
  have hfresh : ∀ (β : Type _) (n : ℕ), Alloc (freshMem β n) 0 n := by
    intro β n i hi
    simp [freshMem, hi]
  have hfreshV : ∀ (n : ℕ), Alloc (freshMem V n) 0 n := by
    intro n i hi
    simp [freshMem, hi]
  have hcall : ∀ o, o + buf ≤ buf + buf + buf → Alloc st0.mem (data.length + o) buf := by
    intro o ho i hi
    simp only [hst0, DArith.initState, callMem]
    rw [dif_neg (by omega), if_pos (by omega)]
    exact fun h => nomatch h
  have inv0 : DInv A a O idx x L widths (dTrials A a).length buf (dPrefix A a 0) st0 := by
    refine ⟨by simp [dPrefix, hst0, DArith.initState], by simp [dPrefix, hst0, DArith.initState], ?_, ?_, ?_,
      hfresh _ _, hfresh _ _, hfreshV _, ?_, hcall 0 (by omega), hcall buf (by omega), ?_⟩
    · intro j hj; simp [dPrefix] at hj
    · intro j hj; simp [dPrefix] at hj
    · intro j hj; simp [dPrefix] at hj
    · intro i hi
      have hi' : i < data.length := by omega
      simp only [hst0, hL, DArith.initState, DArith.layout, callMem, Nat.zero_add]
      rw [dif_pos hi']
      simp [hx, hi']
    · have := hcall (buf + buf) (by omega)
      rw [← Nat.add_assoc] at this
      exact this
  have step : ∀ (k : ℕ), k ≤ numDsN A a → (∀ i < k, A.f a i = 1 ∨ A.f a i ≤ a.size) → ∀ i < k, ∀ st,
      DInv A a O idx x L widths (dTrials A a).length buf (dPrefix A a i) st →
      ∃ st', A.pgStage a O idx L widths i st = .ok st' ∧
        DInv A a O idx x L widths (dTrials A a).length buf (dPrefix A a (i + 1)) st' := by
    intro k hk hfk i hi st inv
    rw [dPrefix_succ]
    apply d_stage_step hA hr O hne (by rw [hsize, hbmin]; exact hidx) hd i (d_n_le_buf hA hr i) (hfk i hi) _ _ st inv
    rw [← List.length_append, ← dPrefix_succ]
    exact dPrefix_mono A a (by omega)
  have e0 : A.binding O idx data tsamp widths pmin pmax bmin bmax =
      (forE (A.pgStage a O idx L widths) (numDsN A a) st0).bind
        (DArith.readOutput (dTrials A a).length widths.length) := by
    unfold DArith.binding
    simp only
    rw [← ha, d_length_ok hA hr]
    simp only [Except.bind]
    rw [← hsize, d_dsSize hA hr (d_dsIni_ge hA hr)]
    simp only
    unfold DArith.search
    rw [if_neg (not_not.mpr hr.valid), d_numDs_ok hA hr, hL, hst0, ← hbuf, hsize]
    rfl
  rw [e0]
  constructor
  · intro hex
    classical
    have hk := Nat.find_spec hex
    have hmin := fun i => Nat.find_min hex (m := i)
    generalize Nat.find hex = k at hk hmin
    rw [forE_error (fun i st => DInv A a O idx x L widths (dTrials A a).length buf (dPrefix A a i) st)
      (A.pgStage a O idx L widths) (numDsN A a) k hk.1 st0 .valueError inv0
      (step k hk.1.le (fun i hi => by
        by_contra hc
        exact hmin i hi ⟨by omega, hc⟩))
      (fun st _ => by
        have := hk.2
        push Not at this
        exact d_stage_fails hA hr O k this.1 this.2 st)]
    rfl
  · intro hall
    obtain ⟨st', e, inv⟩ := forE_inv
      (fun i st => DInv A a O idx x L widths (dTrials A a).length buf (dPrefix A a i) st)
      (A.pgStage a O idx L widths) (numDsN A a) st0 inv0 (step _ le_rfl hall)
    rw [e]
    exact d_read_ok hA hr O inv

end Verif.Lemmas
