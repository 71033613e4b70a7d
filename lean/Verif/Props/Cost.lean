import Verif.Model.Cost
import Verif.Props.Periodogram
import Verif.Props.Float
import Mathlib.Data.Nat.Log
import Mathlib.Algebra.Order.Field.GeomSum

/-! # C133. The work of a search -/

namespace Verif.Props

open Verif.Model Verif.Spec Verif.Lemmas

/-! ## The counter does not change the result -/

variable {α : Type*}

theorem forLoop_count {σ : Type*} (body : ℕ → σ → Option σ) (bodyC : ℕ → σ × ℕ → Option (σ × ℕ)) (c : ℕ → ℕ)
    (h : ∀ i st, bodyC i st = (body i st.1).map (·, st.2 + c i)) (n : ℕ) (st : σ × ℕ) :
    forLoop bodyC n st = (forLoop body n st.1).map (·, st.2 + loopSum c n) := by
  induction n with
  | zero => rfl
  | succ n ih =>
    rw [forLoop, forLoop, ih]
    cases forLoop body n st.1 with
    | none => rfl
    | some s =>
      simp only [Option.map_some, Option.bind_some, h, loopSum, add_assoc]

theorem loopSum_const (c n : ℕ) : loopSum (fun _ => c) n = n * c := by
  induction n with
  | zero => simp [loopSum]
  | succ n ih => rw [loopSum, ih, Nat.succ_mul]

theorem addCount_eq (add : α → α → α) (x y size z : ℕ) (st : Mem α × ℕ) :
    addCount add x y size z st = (addMem add x y size z st.1).map (·, st.2 + size) := by
  have := forLoop_count (fun i (mem : Mem α) => (mem.load (x + i)).bind fun a => (mem.load (y + i)).bind fun b => mem.store (z + i) (add a b))
    (fun i st => (st.1.load (x + i)).bind fun a => (st.1.load (y + i)).bind fun b => (st.1.store (z + i) (add a b)).bind fun mem => some (mem, st.2 + 1)) (fun _ => 1) (by
      intro i st
      cases st.1.load (x + i) with
      | none => rfl
      | some a =>
        cases st.1.load (y + i) with
        | none => rfl
        | some b =>
          simp only [Option.bind_some]
          cases st.1.store (z + i) (add a b) <;> rfl) size st
  rw [loopSum_const, mul_one] at this
  exact this

theorem rollCount_eq (add : α → α → α) (x y size shift z : ℕ) (st : Mem α × ℕ) :
    fusedRollbackAddCount add x y size shift z st = (fusedRollbackAddMem add x y size shift z st.1).map (·, st.2 + size) := by
  unfold fusedRollbackAddCount fusedRollbackAddMem
  by_cases h0 : size = 0
  · rw [if_pos h0, if_pos h0]; rfl
  rw [if_neg h0, if_neg h0]
  simp only [addCount_eq]
  cases addMem add x (y + shift % size) (size - shift % size) z st.1 with
  | none => rfl
  | some mem =>
    simp only [Option.map_some, Option.bind_some]
    have := Nat.mod_lt shift (Nat.pos_of_ne_zero h0)
    rw [show st.2 + (size - shift % size) + shift % size = st.2 + size by omega]

theorem mergeCount_eq (add : α → α → α) (idx : IdxRule) (m p thead ttail out : ℕ) (st : Mem α × ℕ) :
    mergeCount add idx m p thead ttail out st = (mergeMem add idx m p thead ttail out st.1).map (·, st.2 + m * p) := by
  unfold mergeCount mergeMem
  rw [forLoop_count _ _ (fun _ => p) (fun i st => rollCount_eq ..), loopSum_const]

/-- The number of additions of rows in `transform`. -/
def rowAdds (m : ℕ) : ℕ := if m = 2 then 2 else if m ≤ 1 then 0 else rowAdds (m / 2) + rowAdds (m - m / 2) + m
termination_by m

theorem transformCount_eq (add : α → α → α) (idx : IdxRule) (m : ℕ) : ∀ (p input temp out : ℕ) (st : Mem α × ℕ),
    transformCount add idx m p input temp out st = (transformMem add idx m p input temp out st.1).map (·, st.2 + rowAdds m * p) := by
  induction m using Nat.strong_induction_on with
  | _ m ih =>
    intro p input temp out st
    rw [transformCount, transformMem, rowAdds]
    by_cases h2 : m = 2
    · rw [if_pos h2, if_pos h2, if_pos h2]
      rw [addCount_eq]
      cases addMem add (input + 0 * p) (input + 1 * p) p (out + 0 * p) st.1 with
      | none => rfl
      | some mem =>
        simp only [Option.map_some, Option.bind_some, rollCount_eq]
        rw [show st.2 + p + p = st.2 + 2 * p by ring]
    rw [if_neg h2, if_neg h2, if_neg h2]
    by_cases h1 : m = 1
    · rw [if_pos h1, if_pos h1, if_pos (by omega)]
      cases memcpyMem out input p st.1 with
      | none => rfl
      | some mem => simp
    rw [if_neg h1, if_neg h1]
    by_cases h0 : m = 0
    · rw [if_pos h0, if_pos h0]; rfl
    rw [if_neg h0, if_neg h0, if_neg (by omega)]
    simp only
    rw [ih (m / 2) (by omega)]
    cases transformMem add idx (m / 2) p input out temp st.1 with
    | none => rfl
    | some mem =>
      simp only [Option.map_some, Option.bind_some]
      rw [ih (m - m / 2) (by omega)]
      cases transformMem add idx (m - m / 2) p (input + m / 2 * p) (out + m / 2 * p) (temp + m / 2 * p) mem with
      | none => rfl
      | some mem =>
        simp only [Option.map_some, Option.bind_some, mergeCount_eq]
        rw [show st.2 + rowAdds (m / 2) * p + rowAdds (m - m / 2) * p + m * p = st.2 + (rowAdds (m / 2) + rowAdds (m - m / 2) + m) * p by ring]

/-! ## The number of additions of rows -/

theorem rowAdds_le (m : ℕ) : rowAdds m ≤ m * Nat.clog 2 m := by
  induction m using Nat.strong_induction_on with
  | _ m ih =>
    rw [rowAdds]
    split_ifs with h2 h1
    · subst h2; decide
    · exact Nat.zero_le _
    · have e : Nat.clog 2 m = Nat.clog 2 (m - m / 2) + 1 := by
        rw [Nat.clog_of_two_le (by norm_num) (by omega)]
        congr 2
        omega
      have h3 := ih (m / 2) (by omega)
      have h4 := ih (m - m / 2) (by omega)
      have h5 : Nat.clog 2 (m / 2) ≤ Nat.clog 2 (m - m / 2) := Nat.clog_mono_right 2 (by omega)
      rw [e]
      have h6 : m / 2 * Nat.clog 2 (m / 2) ≤ m / 2 * Nat.clog 2 (m - m / 2) := Nat.mul_le_mul_left _ h5
      have h7 : m / 2 * Nat.clog 2 (m - m / 2) + (m - m / 2) * Nat.clog 2 (m - m / 2) = m * Nat.clog 2 (m - m / 2) := by
        rw [← Nat.add_mul]
        congr 1
        omega
      rw [Nat.mul_add, mul_one]
      omega

theorem rowAdds_ge (m : ℕ) : m * Nat.log 2 m ≤ rowAdds m := by
  induction m using Nat.strong_induction_on with
  | _ m ih =>
    rw [rowAdds]
    split_ifs with h2 h1
    · subst h2; decide
    · rw [Nat.log_of_lt (by omega)]; simp
    · have e : Nat.log 2 m = Nat.log 2 (m / 2) + 1 := Nat.log_of_one_lt_of_le (by norm_num) (by omega)
      have h3 := ih (m / 2) (by omega)
      have h4 := ih (m - m / 2) (by omega)
      have h5 : Nat.log 2 (m / 2) ≤ Nat.log 2 (m - m / 2) := Nat.log_mono_right (by omega)
      rw [e]
      have h6 : (m - m / 2) * Nat.log 2 (m / 2) ≤ (m - m / 2) * Nat.log 2 (m - m / 2) := Nat.mul_le_mul_left _ h5
      have h7 : m / 2 * Nat.log 2 (m / 2) + (m - m / 2) * Nat.log 2 (m / 2) = m * Nat.log 2 (m / 2) := by
        rw [← Nat.add_mul]
        congr 1
        omega
      rw [Nat.mul_add, mul_one]
      omega

/-- **C133.** The transform of `m` rows of `p` bins takes between `m ⌊log₂ m⌋ p` and `m ⌈log₂ m⌉ p` additions; the counter changes nothing else. -/
theorem C133_transform (add : α → α → α) (idx : IdxRule) (m p input temp out : ℕ) (mem : Mem α) :
    (transformCount add idx m p input temp out (mem, 0)).map (·.1) = transformMem add idx m p input temp out mem ∧
    ∀ mem' k, transformCount add idx m p input temp out (mem, 0) = some (mem', k) → m * Nat.log 2 m * p ≤ k ∧ k ≤ m * Nat.clog 2 m * p := by
  rw [transformCount_eq]
  constructor
  · cases transformMem add idx m p input temp out mem <;> rfl
  · intro mem' k h
    cases e : transformMem add idx m p input temp out mem with
    | none => rw [e] at h; exact nomatch h
    | some r =>
      rw [e] at h
      simp only [Option.map_some, Option.some.injEq, Prod.mk.injEq, zero_add] at h
      rw [← h.2]
      exact ⟨Nat.mul_le_mul_right _ (rowAdds_ge m), Nat.mul_le_mul_right _ (rowAdds_le m)⟩

/-- Non-vacuity: two rows of one bin, a transform that runs; and the bounds of a transform of 1024 rows are equal. -/
example : (transformCount (· + ·) exactIdx 2 1 0 2 4 (callMem [(3 : ℤ), 4] 4, 0)).isSome = true ∧ Nat.log 2 1024 = 10 ∧ Nat.clog 2 1024 = 10 := by
  refine ⟨?_, by decide +kernel, by decide +kernel⟩
  rw [transformCount]
  rfl

/-! ## The search -/

theorem forE_count {σ : Type*} (body : ℕ → σ → Except CallErr σ) (bodyC : ℕ → σ × ℕ → Except CallErr (σ × ℕ)) (c : ℕ → ℕ)
    (h : ∀ i st, bodyC i st = (body i st.1).map (·, st.2 + c i)) (n : ℕ) (st : σ × ℕ) :
    forE bodyC n st = (forE body n st.1).map (·, st.2 + loopSum c n) := by
  induction n with
  | zero => rfl
  | succ n ih =>
    rw [forE, forE, ih]
    cases forE body n st.1 with
    | error e => rfl
    | ok s =>
      simp only [Except.map, Except.bind, h, loopSum, add_assoc]

theorem foldCount_eq (idx : IdxRule) (a : PgArgs) (L : PgLayout) (widths : List ℕ) (input ids bins : ℕ) (st : PgState × ℕ) :
    foldCount idx a L widths input ids bins st = (pgFold idx a L widths input ids bins st.1).map (·, st.2 + rowAdds (a.n ids / bins) * bins) := by
  unfold foldCount pgFold
  simp only
  rw [transformCount_eq]
  simp only
  cases transformMem (· + ·) idx (a.n ids / bins) bins input L.ffabuf L.ffaout st.1.mem with
  | none => rfl
  | some mem =>
    simp only [Option.map_some, orUB, Except.bind]
    cases snr2Mem mem L.ffaout (a.rowsEval ids bins) bins widths (Real.sqrt (↑(a.n ids / bins) * downsampledVariance a.size (a.f ids))) st.1.spos st.1.snr with
    | error e => rfl
    | ok snr =>
      simp only
      cases storeSeq st.1.ppos (fun s => a.tau ids * bins * bins / (bins - s / (((a.n ids / bins : ℕ) : ℝ) - 1))) (a.rowsEval ids bins) st.1.per with
      | error e => rfl
      | ok per =>
        simp only
        cases storeSeq st.1.ppos (fun _ => bins) (a.rowsEval ids bins) st.1.fb with
        | error e => rfl
        | ok fb => rfl

/-- Additions of one cycle of downsampling. -/
noncomputable def stageAdds (a : PgArgs) (ids : ℕ) : ℕ :=
  loopSum (fun j => rowAdds (a.n ids / (a.bmin + j)) * (a.bmin + j)) (a.bstop ids + 1 - a.bmin)

theorem stageCount_eq (idx : IdxRule) (a : PgArgs) (L : PgLayout) (widths : List ℕ) (ids : ℕ) (st : PgState × ℕ) :
    stageCount idx a L widths ids st = (pgStage idx a L widths ids st.1).map (·, st.2 + stageAdds a ids) := by
  unfold stageCount pgStage
  simp only
  split_ifs with hf
  · simp only [Except.bind]
    exact forE_count (fun j => pgFold idx a L widths L.data ids (a.bmin + j)) (fun j => foldCount idx a L widths L.data ids (a.bmin + j)) _ (fun j st => foldCount_eq idx a L widths L.data ids (a.bmin + j) st) _ _
  · cases downsampleMem L.data a.size (a.f ids) L.input st.1.mem with
    | error e => rfl
    | ok mem =>
      simp only [Except.bind]
      exact forE_count (fun j => pgFold idx a L widths L.input ids (a.bmin + j)) (fun j => foldCount idx a L widths L.input ids (a.bmin + j)) _ (fun j st => foldCount_eq idx a L widths L.input ids (a.bmin + j) st) _ _

theorem periodogramCount_eq (idx : IdxRule) (a : PgArgs) (L : PgLayout) (widths : List ℕ) (st : PgState × ℕ) :
    periodogramCount idx a L widths st = (periodogramMem idx a L widths st.1).map (·, st.2 + loopSum (stageAdds a) a.numDs) := by
  unfold periodogramCount periodogramMem
  split_ifs with hv
  · exact forE_count (pgStage idx a L widths) (stageCount idx a L widths) (stageAdds a) (fun i st => stageCount_eq idx a L widths i st) _ _
  · rfl

theorem bindingCount_eq (idx : IdxRule) (data : List ℝ) (tsamp : ℝ) (widths : List ℕ) (pmin pmax : ℝ) (bmin bmax : ℕ) :
    bindingCount idx data tsamp widths pmin pmax bmin bmax =
      (periodogramBinding idx data tsamp widths pmin pmax bmin bmax).map
        (·, loopSum (stageAdds ⟨data.length, tsamp, pmin, pmax, bmin, bmax⟩) (PgArgs.numDs ⟨data.length, tsamp, pmin, pmax, bmin, bmax⟩)) := by
  unfold bindingCount periodogramBinding
  simp only
  cases periodogramLength ⟨data.length, tsamp, pmin, pmax, bmin, bmax⟩ with
  | error e => rfl
  | ok length =>
    simp only [Except.bind]
    rw [periodogramCount_eq]
    simp only
    generalize periodogramMem idx _ _ widths _ = r
    cases r with
    | error e => rfl
    | ok st =>
      simp only [Except.map, zero_add]
      cases readArray st.per 0 length with
      | error e => rfl
      | ok per =>
        simp only
        cases readArray st.fb 0 length with
        | error e => rfl
        | ok fb =>
          simp only
          generalize (List.range length).mapM (m := Except CallErr) (fun j => readArray st.snr (j * widths.length) widths.length) = r
          cases r <;> rfl

theorem loopSum_geometric {s : ℕ → ℕ} {A r : ℝ} (h : ∀ i, (s i : ℝ) ≤ A * (1 - r) * r ^ i) (D : ℕ) : (loopSum s D : ℝ) ≤ A * (1 - r ^ D) := by
  induction D with
  | zero => simp [loopSum]
  | succ D ih =>
    rw [loopSum]
    push_cast
    have e : A * (1 - r ^ (D + 1)) = A * (1 - r ^ D) + A * (1 - r) * r ^ D := by ring
    rw [e]
    exact add_le_add ih (h D)

theorem loopSum_le {g : ℕ → ℕ} {c n : ℕ} (h : ∀ i < n, g i ≤ c) : loopSum g n ≤ n * c := by
  induction n with
  | zero => simp [loopSum]
  | succ n ih =>
    rw [loopSum, Nat.succ_mul]
    exact add_le_add (ih (fun i hi => h i (by omega))) (h n (by omega))

section bounds

variable {a : PgArgs} (hv : a.Valid)
include hv

theorem ratio_facts : 0 < (a.bmin : ℝ) / (a.bmax + 1) ∧ (a.bmin : ℝ) / (a.bmax + 1) < 1 ∧ 0 < a.dsIni ∧ ((a.bmax + 1 - a.bmin : ℕ) : ℝ) = (a.bmax + 1) * (1 - (a.bmin : ℝ) / (a.bmax + 1)) := by
  obtain ⟨h1, h2, _, h4, h5, _⟩ := hv
  have hb : (0 : ℝ) < a.bmin := by exact_mod_cast (by omega : 0 < a.bmin)
  have hB : (a.bmin : ℝ) ≤ a.bmax := by exact_mod_cast h5
  refine ⟨by positivity, by rw [div_lt_one (by positivity)]; linarith, by unfold PgArgs.dsIni; positivity, ?_⟩
  rw [Nat.cast_sub (by omega)]
  push_cast
  field_simp

theorem n_bound (ids : ℕ) : (a.n ids : ℝ) ≤ a.size / a.dsIni * ((a.bmin : ℝ) / (a.bmax + 1)) ^ ids := by
  have h4 := hv.2.2.2.1
  have hb : (0 : ℝ) < a.bmin := by exact_mod_cast (by omega : 0 < a.bmin)
  obtain ⟨h1, h2, h3, _⟩ := ratio_facts hv
  unfold PgArgs.n downsampledSize PgArgs.f PgArgs.dsGeo
  refine (Nat.floor_le (by positivity)).trans (le_of_eq ?_)
  rw [← div_div, div_eq_mul_inv (_ / _) (_ ^ ids), ← inv_pow, inv_div]

theorem periods_eq : (a.size : ℝ) / a.dsIni = a.bmin * (a.size * a.tsamp / a.pmin) := by
  obtain ⟨h1, h2, _, h4, h5, _⟩ := hv
  have hb : (0 : ℝ) < a.bmin := by exact_mod_cast (by omega : 0 < a.bmin)
  unfold PgArgs.dsIni
  field_simp

theorem rows_bound (ids j : ℕ) : a.n ids / (a.bmin + j) ≤ ⌊a.size * a.tsamp / a.pmin⌋₊ := by
  have h4 := hv.2.2.2.1
  have hb : (0 : ℝ) < a.bmin := by exact_mod_cast (by omega : 0 < a.bmin)
  obtain ⟨h1, h2, h3, _⟩ := ratio_facts hv
  apply Nat.le_floor
  refine Nat.cast_div_le.trans ?_
  rw [div_le_iff₀ (by push_cast; positivity)]
  refine (n_bound hv ids).trans ?_
  have h5 : ((a.bmin : ℝ) / (a.bmax + 1)) ^ ids ≤ 1 := pow_le_one₀ h1.le h2.le
  have h6 : 0 ≤ (a.size : ℝ) * a.tsamp / a.pmin := by
    have := hv.1
    have := hv.2.1
    positivity
  refine (mul_le_of_le_one_right (by positivity) h5).trans ?_
  rw [periods_eq hv, mul_comm]
  apply mul_le_mul_of_nonneg_left _ h6
  push_cast
  linarith [Nat.cast_nonneg (α := ℝ) j]

theorem adds_bound : (loopSum (stageAdds a) a.numDs : ℝ) ≤ (a.bmax + 1) * a.bmin * (a.size * a.tsamp / a.pmin) * Nat.clog 2 ⌊a.size * a.tsamp / a.pmin⌋₊ := by
  obtain ⟨h1, h2, h3, h7⟩ := ratio_facts hv
  set K := Nat.clog 2 ⌊a.size * a.tsamp / a.pmin⌋₊
  have hs (ids : ℕ) : (stageAdds a ids : ℝ) ≤ ((a.bmax + 1) * a.bmin * (a.size * a.tsamp / a.pmin) * K) * (1 - (a.bmin : ℝ) / (a.bmax + 1)) * ((a.bmin : ℝ) / (a.bmax + 1)) ^ ids := by
    have h4 : stageAdds a ids ≤ (a.bmax + 1 - a.bmin) * (a.n ids * K) := by
      refine (loopSum_le (c := a.n ids * K) ?_).trans (Nat.mul_le_mul_right _ ?_)
      · intro j _
        have h5 := rowAdds_le (a.n ids / (a.bmin + j))
        have h6 : Nat.clog 2 (a.n ids / (a.bmin + j)) ≤ K := Nat.clog_mono_right 2 (rows_bound hv ids j)
        calc rowAdds (a.n ids / (a.bmin + j)) * (a.bmin + j) ≤ a.n ids / (a.bmin + j) * K * (a.bmin + j) := Nat.mul_le_mul_right _ (h5.trans (Nat.mul_le_mul_left _ h6))
          _ = a.n ids / (a.bmin + j) * (a.bmin + j) * K := by ring
          _ ≤ a.n ids * K := Nat.mul_le_mul_right _ (Nat.div_mul_le_self _ _)
      · have : a.bstop ids ≤ a.bmax := (min_le_left _ _).trans (min_le_left _ _)
        omega
    have h8 : (stageAdds a ids : ℝ) ≤ ((a.bmax + 1 - a.bmin : ℕ) : ℝ) * (a.n ids * K) := by exact_mod_cast h4
    refine h8.trans ?_
    rw [h7]
    have h9 := n_bound hv ids
    rw [periods_eq hv] at h9
    have h10 : (0 : ℝ) ≤ (a.bmax + 1) * (1 - (a.bmin : ℝ) / (a.bmax + 1)) := by
      rw [← h7]; positivity
    calc (a.bmax + 1) * (1 - (a.bmin : ℝ) / (a.bmax + 1)) * (a.n ids * K)
        ≤ (a.bmax + 1) * (1 - (a.bmin : ℝ) / (a.bmax + 1)) * (a.bmin * (a.size * a.tsamp / a.pmin) * ((a.bmin : ℝ) / (a.bmax + 1)) ^ ids * K) :=
          mul_le_mul_of_nonneg_left (mul_le_mul_of_nonneg_right h9 (Nat.cast_nonneg _)) h10
      _ = _ := by ring
  refine (loopSum_geometric hs a.numDs).trans ?_
  have h0 := hv.1
  have h0' := hv.2.1
  apply mul_le_of_le_one_right (by positivity)
  linarith [pow_nonneg h1.le a.numDs]

theorem length_bound : (loopSum (fun ids => loopSum (fun j => a.rowsEval ids (a.bmin + j)) (a.bstop ids + 1 - a.bmin)) a.numDs : ℝ) ≤ (a.bmax + 1) * (a.size * a.tsamp / a.pmin) := by
  obtain ⟨h1, h2, h3, h7⟩ := ratio_facts hv
  have hb : (0 : ℝ) < a.bmin := by
    have := hv.2.2.2.1
    exact_mod_cast (by omega : 0 < a.bmin)
  have hs (ids : ℕ) : ((loopSum (fun j => a.rowsEval ids (a.bmin + j)) (a.bstop ids + 1 - a.bmin) : ℕ) : ℝ) ≤
      ((a.bmax + 1) * (a.size * a.tsamp / a.pmin)) * (1 - (a.bmin : ℝ) / (a.bmax + 1)) * ((a.bmin : ℝ) / (a.bmax + 1)) ^ ids := by
    have h4 : loopSum (fun j => a.rowsEval ids (a.bmin + j)) (a.bstop ids + 1 - a.bmin) ≤ (a.bmax + 1 - a.bmin) * (a.n ids / a.bmin) := by
      refine (loopSum_le (c := a.n ids / a.bmin) ?_).trans (Nat.mul_le_mul_right _ ?_)
      · intro j _
        exact (min_le_left _ _).trans (Nat.div_le_div_left (by omega) (by have := hv.2.2.2.1; omega))
      · have : a.bstop ids ≤ a.bmax := (min_le_left _ _).trans (min_le_left _ _)
        omega
    have h8 : ((loopSum (fun j => a.rowsEval ids (a.bmin + j)) (a.bstop ids + 1 - a.bmin) : ℕ) : ℝ) ≤ ((a.bmax + 1 - a.bmin : ℕ) : ℝ) * ((a.n ids / a.bmin : ℕ) : ℝ) := by exact_mod_cast h4
    refine h8.trans ?_
    rw [h7]
    have h9 := n_bound hv ids
    rw [periods_eq hv] at h9
    have h10 : (0 : ℝ) ≤ (a.bmax + 1) * (1 - (a.bmin : ℝ) / (a.bmax + 1)) := by
      rw [← h7]; positivity
    have h11 : ((a.n ids / a.bmin : ℕ) : ℝ) ≤ (a.size * a.tsamp / a.pmin) * ((a.bmin : ℝ) / (a.bmax + 1)) ^ ids := by
      refine Nat.cast_div_le.trans ?_
      rw [div_le_iff₀ hb]
      linarith
    calc _ ≤ (a.bmax + 1) * (1 - (a.bmin : ℝ) / (a.bmax + 1)) * ((a.size * a.tsamp / a.pmin) * ((a.bmin : ℝ) / (a.bmax + 1)) ^ ids) := mul_le_mul_of_nonneg_left h11 h10
      _ = _ := by ring
  refine (loopSum_geometric hs a.numDs).trans ?_
  have h0 := hv.1
  have h0' := hv.2.1
  apply mul_le_of_le_one_right (by positivity)
  linarith [pow_nonneg h1.le a.numDs]

end bounds

theorem binding_valid {idx : IdxRule} {data : List ℝ} {tsamp : ℝ} {widths : List ℕ} {pmin pmax : ℝ} {bmin bmax : ℕ} {r : List ℝ × List ℕ × List (List ℝ)}
    (h : periodogramBinding idx data tsamp widths pmin pmax bmin bmax = .ok r) : PgArgs.Valid ⟨data.length, tsamp, pmin, pmax, bmin, bmax⟩ := by
  by_contra hv
  unfold periodogramBinding periodogramLength at h
  simp only [if_pos hv, Except.bind] at h
  exact nomatch h

/-- **C133.** The work of a search: with a counter of the additions of all transforms the result is the same, and their number is at most
`(bins_max + 1) bins_min (T / period_min) ⌈log₂ (T / period_min)⌉`, whatever the longest period. -/
theorem C133_search (idx : IdxRule) (data : List ℝ) (tsamp : ℝ) (widths : List ℕ) (pmin pmax : ℝ) (bmin bmax : ℕ) :
    (bindingCount idx data tsamp widths pmin pmax bmin bmax).map (·.1) = periodogramBinding idx data tsamp widths pmin pmax bmin bmax ∧
    ∀ r k, bindingCount idx data tsamp widths pmin pmax bmin bmax = .ok (r, k) →
      (k : ℝ) ≤ (bmax + 1) * bmin * (data.length * tsamp / pmin) * Nat.clog 2 ⌊data.length * tsamp / pmin⌋₊ := by
  rw [bindingCount_eq]
  constructor
  · cases periodogramBinding idx data tsamp widths pmin pmax bmin bmax <;> rfl
  · intro r k h
    cases e : periodogramBinding idx data tsamp widths pmin pmax bmin bmax with
    | error e' => rw [e] at h; exact nomatch h
    | ok r' =>
      rw [e] at h
      obtain ⟨-, rfl⟩ := Prod.mk.inj (Except.ok.inj h)
      exact adds_bound (binding_valid e)

/-- **C133.** The size of the result: at most `(bins_max + 1) T / period_min` trial periods, whatever the longest one. -/
theorem C133_trials (idx : IdxRule) (data : List ℝ) (tsamp : ℝ) (widths : List ℕ) (hne : widths ≠ []) (pmin pmax : ℝ) (bmin bmax : ℕ) (hidx : IdxFor idx (data.length / bmin))
    (per : List ℝ) (fb : List ℕ) (snr : List (List ℝ)) (h : periodogramBinding idx data tsamp widths pmin pmax bmin bmax = .ok (per, fb, snr)) :
    (per.length : ℝ) ≤ (bmax + 1) * (data.length * tsamp / pmin) := by
  have hv := binding_valid h
  have h1 := ((C17_outputs_filled_exactly idx data tsamp widths hne pmin pmax bmin bmax hidx).2 per fb snr h).1
  unfold periodogramLength at h1
  rw [if_neg (not_not.mpr hv)] at h1
  rw [← Except.ok.inj h1]
  exact length_bound hv

theorem loopSum_mono_fun {g g' : ℕ → ℕ} {n : ℕ} (h : ∀ i < n, g i ≤ g' i) : loopSum g n ≤ loopSum g' n := by
  induction n with
  | zero => exact le_rfl
  | succ n ih =>
    rw [loopSum, loopSum]
    exact add_le_add (ih (fun i hi => h i (by omega))) (h n (by omega))

/-- The sum of the numbers of bins of the trials. -/
theorem trials_bins_sum (a : PgArgs) :
    ((trials a).map (·.2.1)).sum = loopSum (fun ids => loopSum (fun j => a.rowsEval ids (a.bmin + j) * (a.bmin + j)) (a.bstop ids + 1 - a.bmin)) a.numDs := by
  have h1 (ids bins : ℕ) : ((foldTrials a ids bins).map (·.2.1)).sum = a.rowsEval ids bins * bins := by
    unfold foldTrials
    rw [List.map_map]
    show ((List.range (a.rowsEval ids bins)).map (fun _ => bins)).sum = _
    rw [List.map_const', List.length_range, List.sum_replicate, smul_eq_mul]
  have h2 (ids j : ℕ) : ((stagePrefix a ids j).map (·.2.1)).sum = loopSum (fun j => a.rowsEval ids (a.bmin + j) * (a.bmin + j)) j := by
    induction j with
    | zero => rfl
    | succ j ih => rw [stagePrefix_succ, List.map_append, List.sum_append, ih, h1, loopSum]
  have h3 (i : ℕ) : ((trialsPrefix a i).map (·.2.1)).sum =
      loopSum (fun ids => loopSum (fun j => a.rowsEval ids (a.bmin + j) * (a.bmin + j)) (a.bstop ids + 1 - a.bmin)) i := by
    induction i with
    | zero => rfl
    | succ i ih => rw [trialsPrefix_succ, List.map_append, List.sum_append, ih, stageTrials, h2, loopSum]
  exact h3 _

/-- **C133.** A search makes at least as many additions as its trials have bins in total. -/
theorem C133_lower (idx : IdxRule) (data : List ℝ) (tsamp : ℝ) (widths : List ℕ) (hne : widths ≠ []) (pmin pmax : ℝ) (bmin bmax : ℕ) (hidx : IdxFor idx (data.length / bmin))
    (per : List ℝ) (fb : List ℕ) (snr : List (List ℝ)) (k : ℕ) (h : bindingCount idx data tsamp widths pmin pmax bmin bmax = .ok ((per, fb, snr), k)) :
    fb.sum ≤ k := by
  set a : PgArgs := ⟨data.length, tsamp, pmin, pmax, bmin, bmax⟩ with ha
  rw [bindingCount_eq] at h
  cases e : periodogramBinding idx data tsamp widths pmin pmax bmin bmax with
  | error e' => rw [e] at h; exact nomatch h
  | ok r' =>
    rw [e] at h
    obtain ⟨rfl, rfl⟩ := Prod.mk.inj (Except.ok.inj h)
    have hv : a.Valid := binding_valid e
    have hfb : fb = (trials a).map (·.2.1) := by
      obtain ⟨_, h2, h3⟩ := periodogramBinding_eq idx data tsamp widths hne pmin pmax bmin bmax a rfl hidx.ok
      by_cases hall : ∃ i < a.numDs, ¬ (a.f i = 1 ∨ a.f i ≤ a.size)
      · rw [h2 hv hall] at e
        exact nomatch e
      · push Not at hall
        rw [h3 hv (fun i hi => by have := hall i hi; tauto)] at e
        exact (Prod.mk.inj (Prod.mk.inj (Except.ok.inj e)).2).1.symm
    rw [hfb, trials_bins_sum]
    refine loopSum_mono_fun fun ids hids => loopSum_mono_fun fun j hj => Nat.mul_le_mul_right _ ?_
    rcases Nat.eq_zero_or_pos (a.rowsEval ids (a.bmin + j)) with h0 | h0
    · rw [h0]; exact Nat.zero_le _
    have ht : (ids, a.bmin + j, 0) ∈ trials a := mem_trials.2 ⟨hids, by omega, by omega, h0⟩
    obtain ⟨h2, -⟩ := trial_facts hv ht
    have h3 : a.rowsEval ids (a.bmin + j) ≤ a.n ids / (a.bmin + j) := min_le_left _ _
    have h4 := rowAdds_ge (a.n ids / (a.bmin + j))
    have h5 : 1 ≤ Nat.log 2 (a.n ids / (a.bmin + j)) := Nat.log_pos (by norm_num) h2
    nlinarith

/-- Non-vacuity: 1000 samples, searched from 8 to 40 samples; the counter stays below 77000. -/
example (data : List ℝ) (hl : data.length = 1000) : ∃ r k, bindingCount float32Idx data 1 [1, 2] 8 40 8 10 = .ok (r, k) ∧ k ≤ 77000 := by
  have hidx : IdxFor float32Idx (data.length / 8) := by rw [hl]; exact Or.inr ⟨Or.inl rfl, by norm_num⟩
  obtain ⟨r, h⟩ := C21_partial float32Idx data 1 [1, 2] (by simp) 8 40 8 10 hidx (by rw [hl]; refine ⟨?_, ?_, ?_, ?_, ?_, ?_⟩ <;> norm_num) (by rw [hl]; norm_num)
  have h1 := bindingCount_eq float32Idx data 1 [1, 2] 8 40 8 10
  rw [h] at h1
  refine ⟨r, _, h1, ?_⟩
  have h2 := (C133_search float32Idx data 1 [1, 2] 8 40 8 10).2 r _ h1
  rw [hl] at h2
  have e : Nat.clog 2 ⌊((1000 : ℕ) : ℝ) * 1 / 8⌋₊ = 7 := by
    rw [show ((1000 : ℕ) : ℝ) * 1 / 8 = ((125 : ℕ) : ℝ) by norm_num, Nat.floor_natCast]
    decide +kernel
  rw [e] at h2
  norm_num at h2
  rw [hl]
  exact_mod_cast h2

/-- **C133.** The benchmark of the transform: it stays inside its buffer, never reads a cell that was not written, its output is zero, and it does `loops` times the work of a transform. -/
theorem C133_benchmark (idx : IdxRule) (hidx : idx = float32Idx ∨ idx = float32IdxFma) (rows cols loops : ℕ) (hr : 1 ≤ rows) (hr2 : rows ≤ 2 ^ 22) (hc : 1 ≤ cols) :
    ∃ mem k, benchmarkCount idx rows cols loops = some (mem, k) ∧ loops * (rows * Nat.log 2 rows * cols) ≤ k ∧ k ≤ loops * (rows * Nat.clog 2 rows * cols) ∧
      (∀ a, 3 * (rows * cols) ≤ a → mem a = .unalloc) ∧ (1 ≤ loops → ∀ i < rows * cols, mem (2 * (rows * cols) + i) = .val 0) := by
  set size := rows * cols with hsize
  have hin : HoldsBlock (callMem (List.replicate size (0 : ℝ)) (2 * size)) 0 rows cols (fun _ _ => 0) := by
    intro r hr c hc
    have hlt : 0 + r * cols + c < (List.replicate size (0 : ℝ)).length := by
      rw [List.length_replicate, hsize]
      nlinarith
    rw [callMem, dif_pos hlt, List.getElem_replicate]
  have key : ∀ n, ∃ mem : Mem ℝ, forLoop (fun _ st => transformCount (· + ·) idx rows cols 0 size (size + size) st) n (callMem (List.replicate size 0) (2 * size), 0) = some (mem, n * (rowAdds rows * cols)) ∧
      HoldsBlock mem 0 rows cols (fun _ _ => 0) ∧ Alloc mem size (rows * cols) ∧ Alloc mem (size + size) (rows * cols) ∧ (∀ a, 3 * size ≤ a → mem a = .unalloc) ∧
      (1 ≤ n → ∀ i < size, mem (2 * size + i) = .val 0) := by
    intro n
    induction n with
    | zero =>
      refine ⟨_, by rw [forLoop, zero_mul], hin, ?_, ?_, ?_, by omega⟩
      · intro i hi
        rw [callMem, dif_neg (by rw [List.length_replicate]; omega), if_pos (by rw [List.length_replicate]; omega)]
        simp
      · intro i hi
        rw [callMem, dif_neg (by rw [List.length_replicate]; omega), if_pos (by rw [List.length_replicate]; omega)]
        simp
      · intro a ha
        rw [callMem, dif_neg (by rw [List.length_replicate]; omega), if_neg (by rw [List.length_replicate]; omega)]
    | succ n ih =>
      obtain ⟨mem, e, h1, h2, h3, h4, _⟩ := ih
      obtain ⟨mem', y, e1, e2, e3, e4⟩ := C06_float_transform_memory_safe (· + ·) rows hr hr2 idx hidx cols 0 size (size + size) hc mem _ h1 h2 h3
        (by unfold Disj; omega) (by unfold Disj; omega) (by unfold Disj; omega)
      have hz : ∀ r < rows, ∀ c < cols, y r c = 0 := by
        by_cases h2r : 2 ≤ rows
        · obtain ⟨σ, _, h, _⟩ := C06_float_transform_is_shifted_stack rows h2r hr2 idx hidx
          obtain ⟨y', ey, hy⟩ := h ℝ cols (fun _ _ => 0) hc
          rw [e2] at ey
          obtain rfl := Option.some.inj ey
          intro r hr c hc
          rw [hy r hr c hc]
          simp [stack]
        · obtain rfl : rows = 1 := by omega
          intro r hr c hc
          unfold ffa2 at e2
          rw [if_neg (by omega)] at e2
          obtain rfl := Option.some.inj e2
          rw [transform]
          simp
      refine ⟨mem', ?_, ?_, ?_, ?_, ?_, ?_⟩
      · rw [forLoop, e, Option.bind_some, transformCount_eq, e1, Option.map_some, Nat.succ_mul]
      · intro r hr c hc
        rw [e4.same _ (by left; nlinarith) (by left; nlinarith)]
        exact h1 r hr c hc
      · exact e4.tempAlloc
      · exact e4.outAlloc
      · intro a ha
        rw [e4.same _ (by right; omega) (by right; omega)]
        exact h4 a ha
      · intro _ i hi
        have h5 : i / cols < rows := by rw [Nat.div_lt_iff_lt_mul (by omega)]; exact hi
        have h6 := e3 (i / cols) h5 (i % cols) (Nat.mod_lt _ (by omega))
        rw [hz _ h5 _ (Nat.mod_lt _ (by omega))] at h6
        rw [← h6]
        congr 1
        have := Nat.div_add_mod i cols
        rw [Nat.mul_comm] at this
        omega
  obtain ⟨mem, e, _, _, _, h4, h5⟩ := key loops
  exact ⟨mem, _, e, Nat.mul_le_mul_left _ (Nat.mul_le_mul_right _ (rowAdds_ge rows)), Nat.mul_le_mul_left _ (Nat.mul_le_mul_right _ (rowAdds_le rows)), h4, h5⟩

example : (1 ≤ 1000 ∧ 1000 ≤ 2 ^ 22 ∧ 1 ≤ 256) ∧ 1000 * Nat.log 2 1000 * 256 = 2304000 ∧ 1000 * Nat.clog 2 1000 * 256 = 2560000 := by
  refine ⟨by norm_num, ?_, ?_⟩ <;> decide +kernel

end Verif.Props
