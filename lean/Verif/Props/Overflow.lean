import Verif.Spec.Overflow
import Verif.Props.Nan
import Verif.Props.GridF
import Verif.Props.Samples
import Verif.Lemmas.SearchFloat

/-! # C132. Searches of finite data do not overflow -/

namespace Verif.Props

open Verif.Model Verif.Spec Verif.Lemmas

/-! ## Rounding to nearest -/

theorem has32 {j : ℕ} {k : ℤ} (hj : j ≤ 2 ^ 24) (h1 : -149 ≤ k) (h2 : k ≤ 103) : binary32.Has (j * 2 ^ k) := by
  have e : binary32.emin = -149 := rfl
  rcases Nat.lt_or_ge j (2 ^ 24) with h | h
  · refine ⟨j, k, ?_, by rw [e]; exact h1, ?_, by push_cast; rfl⟩
    · show |(j : ℤ)| < 2 ^ 24
      rw [abs_of_nonneg (by positivity)]
      exact_mod_cast h
    · rw [e]; simp only [binary32]; omega
  · have : j = 2 ^ 24 := by omega
    subst this
    refine ⟨2 ^ 23, k + 1, by show |(2 ^ 23 : ℤ)| < 2 ^ 24; norm_num, by rw [e]; omega, ?_, ?_⟩
    · rw [e]; simp only [binary32]; omega
    · rw [zpow_add₀ (by norm_num)]; push_cast; ring

theorem has64 {j : ℕ} {k : ℤ} (hj : j ≤ 2 ^ 53) (h1 : -1074 ≤ k) (h2 : k ≤ 970) : binary64.Has (j * 2 ^ k) := by
  have e : binary64.emin = -1074 := rfl
  rcases Nat.lt_or_ge j (2 ^ 53) with h | h
  · refine ⟨j, k, ?_, by rw [e]; exact h1, ?_, by push_cast; rfl⟩
    · show |(j : ℤ)| < 2 ^ 53
      rw [abs_of_nonneg (by positivity)]
      exact_mod_cast h
    · rw [e]; simp only [binary64]; omega
  · have : j = 2 ^ 53 := by omega
    subst this
    refine ⟨2 ^ 52, k + 1, by show |(2 ^ 52 : ℤ)| < 2 ^ 53; norm_num, by rw [e]; omega, ?_, ?_⟩
    · rw [e]; simp only [binary64]; omega
    · rw [zpow_add₀ (by norm_num)]; push_cast; ring

/-- Rounding does not leave the interval between two numbers of the format. -/
theorem rounds_between {f : FloatFormat} {r : ℚ → FVal} (hr : RoundsNearest f r) {lo hi q : ℚ} (h1 : f.Has lo) (h2 : f.Has hi) (h3 : lo ≤ q) (h4 : q ≤ hi) :
    ∃ v, r q = .fin v ∧ f.Has v ∧ lo ≤ v ∧ v ≤ hi ∧ |v| ≤ 2 * |q| := by
  have ho : |q| < f.overflow := by
    have b1 := (abs_lt.mp (has_below h1)).1
    have b2 := (abs_lt.mp (has_below h2)).2
    exact abs_lt.mpr ⟨by linarith, by linarith⟩
  obtain ⟨v, e, n1, n2, _⟩ := hr q ho
  refine ⟨v, e, n1, ?_, ?_, ?_⟩
  · by_contra hc
    rw [not_le] at hc
    have := n2 lo h1
    rw [abs_of_nonneg (by linarith), abs_of_nonneg (by linarith)] at this
    linarith
  · by_contra hc
    rw [not_le] at hc
    have := n2 hi h2
    rw [abs_of_nonpos (by linarith), abs_of_nonpos (by linarith)] at this
    linarith
  · rcases le_or_gt |v| |q| with h | h
    · linarith [abs_nonneg q]
    · have hz : f.Has 0 := by
        obtain ⟨m, e, _, he1, he2, _⟩ := h1
        exact ⟨0, e, by simp, he1, he2, by simp⟩
      have := n2 0 hz
      rw [sub_zero] at this
      have t := abs_sub_abs_le_abs_sub v q
      rw [abs_sub_comm v q] at t
      linarith

/-- A finite number of at most the given size. -/
def Bnd (c : ℚ) (v : FVal) : Prop := ∃ q, v = .fin q ∧ |q| ≤ c

theorem Bnd.mono {c d : ℚ} {v : FVal} (h : Bnd c v) (hd : c ≤ d) : Bnd d v := by
  obtain ⟨q, e, h⟩ := h
  exact ⟨q, e, h.trans hd⟩

section ops

variable {f : FloatFormat} {r : ℚ → FVal} (hr : RoundsNearest f r)
include hr

theorem bnd_round {c q : ℚ} (hc : f.Has c) (h : |q| ≤ c) : Bnd c (r q) := by
  obtain ⟨v, e, _, h1, h2, _⟩ := rounds_between hr (has_neg hc) hc (abs_le.mp h).1 (abs_le.mp h).2
  exact ⟨v, e, abs_le.mpr ⟨h1, h2⟩⟩

theorem bnd_cast {c d : ℚ} {v : FVal} (hd : f.Has d) (hcd : c ≤ d) (h : Bnd c v) : Bnd d (FVal.cast r v) := by
  obtain ⟨q, rfl, h⟩ := h
  exact bnd_round hr hd (h.trans hcd)

theorem bnd_add {c d e : ℚ} {a b : FVal} (he : f.Has e) (hcd : c + d ≤ e) (ha : Bnd c a) (hb : Bnd d b) : Bnd e (FVal.add r a b) := by
  obtain ⟨p, rfl, ha⟩ := ha
  obtain ⟨q, rfl, hb⟩ := hb
  exact bnd_round hr he ((abs_add_le p q).trans (by linarith))

theorem bnd_sub {c d e : ℚ} {a b : FVal} (he : f.Has e) (hcd : c + d ≤ e) (ha : Bnd c a) (hb : Bnd d b) : Bnd e (FVal.sub r a b) := by
  refine bnd_add hr he hcd ha ?_
  obtain ⟨q, rfl, hb⟩ := hb
  exact ⟨-q, rfl, by rwa [abs_neg]⟩

theorem bnd_mul {c d e : ℚ} {a b : FVal} (he : f.Has e) (hcd : c * d ≤ e) (ha : Bnd c a) (hb : Bnd d b) : Bnd e (FVal.mul r a b) := by
  obtain ⟨p, rfl, ha⟩ := ha
  obtain ⟨q, rfl, hb⟩ := hb
  refine bnd_round hr he ?_
  rw [abs_mul]
  exact (mul_le_mul ha hb (abs_nonneg _) ((abs_nonneg _).trans ha)).trans hcd

theorem bnd_div {c d e : ℚ} {a : FVal} {q : ℚ} (he : f.Has e) (hd : 0 < d) (hcd : c / d ≤ e) (ha : Bnd c a) (hq : d ≤ q) : Bnd e (FVal.div r a (.fin q)) := by
  obtain ⟨p, rfl, ha⟩ := ha
  have hq0 : 0 < q := lt_of_lt_of_le hd hq
  show Bnd e (if q = 0 then _ else _)
  rw [if_neg hq0.ne']
  refine bnd_round hr he ?_
  rw [abs_div, abs_of_pos hq0]
  exact (div_le_div₀ ((abs_nonneg _).trans ha) ha hd hq).trans hcd

end ops

theorem bnd_prod {N : NArith} {A : DArith} (hN : Ieee N A) {c d e : ℚ} {a b : FVal} (he : binary32.Has e) (hcd : c * d ≤ e) (ha : Bnd c a) (hb : Bnd d b) :
    Bnd e (FVal.mul N.prod a b) := by
  obtain ⟨p, rfl, ha⟩ := ha
  obtain ⟨q, rfl, hb⟩ := hb
  have h : |p * q| ≤ e := by
    rw [abs_mul]
    exact (mul_le_mul ha hb (abs_nonneg _) ((abs_nonneg _).trans ha)).trans hcd
  show Bnd e (N.prod (p * q))
  rcases hN.prod (p * q) with h' | h'
  · rw [h']; exact bnd_round hN.single he h
  · rw [h']; exact ⟨_, rfl, h⟩

theorem pow32 {k : ℤ} (h1 : -149 ≤ k) (h2 : k ≤ 127) : binary32.Has ((2 : ℚ) ^ k) := by
  rcases le_or_gt k 103 with h | h
  · have := has32 (j := 1) (by norm_num) h1 h
    simpa using this
  · have := has32 (j := 2 ^ 24) (k := k - 24) le_rfl (by omega) (by omega)
    rw [show ((2 ^ 24 : ℕ) : ℚ) * 2 ^ (k - 24) = 2 ^ k by rw [zpow_sub₀ (by norm_num)]; push_cast; field_simp; ] at this
    exact this

theorem pow64 {k : ℤ} (h1 : -1074 ≤ k) (h2 : k ≤ 970) : binary64.Has ((2 : ℚ) ^ k) := by
  have := has64 (j := 1) (by norm_num) h1 h2
  simpa using this

/-! ## One profile -/

section profile

variable {N : NArith} {A : DArith} (hN : Ieee N A) {n : ℕ} {x : ℕ → FVal} {k : ℤ}
include hN

theorem prefix_bnd (hk1 : -149 ≤ k) (hk2 : k ≤ 900) (hx : ∀ i < n, Bnd (2 ^ k) (x i)) (hn : n ≤ 2 ^ 24) : ∀ j ≤ n, Bnd (j * 2 ^ k) (N.prefixAcc x j)
  | 0, _ => ⟨0, rfl, by simp⟩
  | j + 1, h => by
    refine bnd_add hN.double (has64 (by omega) (by omega) (by omega)) ?_ (prefix_bnd hk1 hk2 hx hn j (by omega)) (hx j (by omega))
    push_cast; linarith

theorem cps_bnd (hk1 : -149 ≤ k) (hk2 : k ≤ 78) (hx : ∀ i < n, Bnd (2 ^ k) (x i)) (hn : n ≤ 2 ^ 24) (hn0 : 0 < n) {j : ℕ} (hj : j < 2 * n) :
    Bnd (2 ^ (k + 25)) (N.circularPrefixSum x n j) := by
  have p24 : (2 : ℚ) ^ (k + 24) = 2 ^ 24 * 2 ^ k := by rw [zpow_add₀ (by norm_num)]; norm_num; ring
  have p25 : (2 : ℚ) ^ (k + 25) = 2 * 2 ^ (k + 24) := by rw [← zpow_one_add₀ (by norm_num)]; congr 1; ring
  have h24 : ∀ i ≤ n, Bnd (2 ^ (k + 24)) (FVal.cast N.single (N.prefixAcc x i)) := by
    intro i hi
    refine bnd_cast hN.single (pow32 (by omega) (by omega)) ?_ (prefix_bnd hN hk1 (by omega) hx hn i hi)
    rw [p24]
    have : (i : ℚ) ≤ 2 ^ 24 := by exact_mod_cast hi.trans hn
    exact mul_le_mul_of_nonneg_right this (by positivity)
  have hpos : (0 : ℚ) < 2 ^ (k + 24) := by positivity
  unfold NArith.circularPrefixSum
  split_ifs with h
  · exact (h24 _ (by omega)).mono (by rw [p25]; linarith)
  · have hm : j % n < n := Nat.mod_lt _ hn0
    have hd : j / n ≤ 1 := by
      rw [← Nat.lt_succ_iff, Nat.div_lt_iff_lt_mul hn0]; omega
    have hw : Bnd 1 (FVal.cast N.single (.fin (j / n : ℕ))) := by
      refine bnd_cast (c := 1) hN.single (by simpa using pow32 (k := 0) (by omega) (by omega)) le_rfl ⟨_, rfl, ?_⟩
      rw [abs_of_nonneg (by positivity)]
      exact_mod_cast hd
    refine bnd_add hN.single (pow32 (by omega) (by omega)) (c := 2 ^ (k + 24)) (d := 2 ^ (k + 24)) (by rw [p25]; linarith) (h24 _ (by omega)) ?_
    exact bnd_prod hN (pow32 (by omega) (by omega)) (by rw [one_mul]) hw (h24 n le_rfl)

theorem diffMax_bnd {y : ℕ → FVal} {c e : ℚ} (he : binary32.Has e) (hce : c + c ≤ e) : ∀ m, (∀ i ≤ m, Bnd c (x i)) → (∀ i ≤ m, Bnd c (y i)) → Bnd e (N.diffMaxLoop x y m)
  | 0, h1, h2 => bnd_sub hN.single he hce (h1 0 le_rfl) (h2 0 le_rfl)
  | m + 1, h1, h2 => by
    simp only [NArith.diffMaxLoop]
    split_ifs
    · exact bnd_sub hN.single he hce (h1 _ le_rfl) (h2 _ le_rfl)
    · exact diffMax_bnd he hce m (fun i hi => h1 i (by omega)) (fun i hi => h2 i (by omega))

/-- The S/N values of a profile of bounded numbers. -/
theorem snr_bnd (hk1 : -149 ≤ k) (hk2 : k ≤ 72) (hx : ∀ i < n, Bnd (2 ^ k) (x i)) (hn : n ≤ 2 ^ 24) {s : ℚ} (hs : 1 / 4 ≤ s) {w : ℕ} (hw0 : 0 < w) (hw : w < n) :
    Bnd (2 ^ (k + 55)) (N.snrWidth n (N.circularPrefixSum x n) (.fin s) w) := by
  have one32 : binary32.Has 1 := by simpa using pow32 (k := 0) (by omega) (by omega)
  have sh : ∀ (a b : ℤ), (2 : ℚ) ^ a * 2 ^ b = 2 ^ (a + b) := fun a b => (zpow_add₀ (by norm_num) a b).symm
  have dbl : ∀ a : ℤ, (2 : ℚ) ^ a + 2 ^ a = 2 ^ (a + 1) := fun a => by rw [zpow_add₀ (by norm_num)]; ring
  have hnq : (n : ℚ) ≤ 2 ^ 24 := by exact_mod_cast hn
  have hc : ∀ j < 2 * n, Bnd (2 ^ (k + 25)) (N.circularPrefixSum x n j) := fun j hj => cps_bnd hN hk1 (by omega) hx hn (by omega) hj
  unfold NArith.snrWidth
  simp only
  -- the height
  have hden : ∃ d, FVal.cast N.single (.fin ((n * w : ℕ) : ℚ)) = .fin d ∧ (n : ℚ) ≤ d := by
    have hnw : (n : ℚ) ≤ ((n * w : ℕ) : ℚ) := by exact_mod_cast Nat.le_mul_of_pos_right n hw0
    have h48 : ((n * w : ℕ) : ℚ) ≤ 2 ^ (48 : ℤ) := by
      have : n * w ≤ 2 ^ 24 * 2 ^ 24 := Nat.mul_le_mul hn (by omega)
      have : ((n * w : ℕ) : ℚ) ≤ ((2 ^ 24 * 2 ^ 24 : ℕ) : ℚ) := by exact_mod_cast this
      refine this.trans ?_
      norm_num
    obtain ⟨d, e, _, h, _⟩ := rounds_between hN.single (by simpa using has32 (k := 0) hn (by omega) (by omega)) (pow32 (k := 48) (by omega) (by omega)) hnw h48
    exact ⟨d, e, h⟩
  obtain ⟨d, ed, hd⟩ := hden
  have hn0 : (0 : ℚ) < n := by exact_mod_cast (by omega : 0 < n)
  have hh : ∃ g, FVal.div N.single (.fin ((n - w : ℕ) : ℚ)) (.fin d) = .fin g ∧ 0 ≤ g ∧ g ≤ 1 := by
    show ∃ g, (if d = 0 then _ else _) = _ ∧ _
    rw [if_neg (by linarith)]
    have h0 : (0 : ℚ) ≤ ((n - w : ℕ) : ℚ) / d := div_nonneg (by positivity) (by linarith)
    have h1 : ((n - w : ℕ) : ℚ) / d ≤ 1 := by
      rw [div_le_one (by linarith)]
      refine le_trans ?_ hd
      exact_mod_cast Nat.sub_le n w
    obtain ⟨v, e, _, a, b, _⟩ := rounds_between hN.single (by simpa using has32 (j := 0) (k := 0) (by omega) (by omega) (by omega)) one32 h0 h1
    exact ⟨v, e, a, b⟩
  obtain ⟨g, eg, g0, g1⟩ := hh
  rw [ed, eg]
  have hroot : Bnd 2 (FVal.sqrt N.sqrt (.fin g)) := by
    show Bnd 2 (if g < 0 then _ else _)
    rw [if_neg (not_lt.mpr g0)]
    obtain ⟨v, e, v0, hv⟩ := hN.sqrt g g0 (lt_of_le_of_lt g1 (one_lt_pow₀ (by norm_num) (by norm_num)))
    refine ⟨v, e, ?_⟩
    rw [abs_of_nonneg v0]
    have := (abs_le.mp hv).2
    nlinarith
  have two32 : binary32.Has 2 := by simpa using pow32 (k := 1) (by omega) (by omega)
  have hh := bnd_cast hN.single two32 le_rfl hroot
  generalize FVal.cast N.single (FVal.sqrt N.sqrt (.fin g)) = h at hh ⊢
  -- the baseline
  have hbase : ∃ d', FVal.cast N.single (.fin ((n - w : ℕ) : ℚ)) = .fin d' ∧ 1 ≤ d' := by
    have h1 : (1 : ℚ) ≤ ((n - w : ℕ) : ℚ) := by exact_mod_cast (by omega : 1 ≤ n - w)
    have h2 : ((n - w : ℕ) : ℚ) ≤ 2 ^ (24 : ℤ) := by
      have : ((n - w : ℕ) : ℚ) ≤ n := by exact_mod_cast Nat.sub_le n w
      refine this.trans (hnq.trans (by norm_num))
    obtain ⟨v, e, _, a, _⟩ := rounds_between hN.single one32 (pow32 (k := 24) (by omega) (by omega)) h1 h2
    exact ⟨v, e, a⟩
  obtain ⟨d', ed', hd'⟩ := hbase
  rw [ed']
  have hwq : |(w : ℚ)| ≤ 2 ^ (24 : ℤ) := by
    rw [abs_of_nonneg (by positivity)]
    have : (w : ℚ) ≤ n := by exact_mod_cast hw.le
    refine this.trans (hnq.trans (by norm_num))
  have hb0 := bnd_div hN.single (pow32 (k := 24) (by omega) (by omega)) one_pos (by rw [div_one]) (⟨_, rfl, hwq⟩ : Bnd (2 ^ (24 : ℤ)) (.fin (w : ℚ))) hd'
  have hb := bnd_mul hN.single (pow32 (k := 25) (by omega) (by omega)) (by norm_num) hb0 hh
  generalize FVal.mul N.single _ h = b at hb ⊢
  have hhb := bnd_add hN.single (pow32 (k := 26) (by omega) (by omega)) (by norm_num) hh hb
  -- the highest sum of bins
  have hd := diffMax_bnd hN (x := fun i => N.circularPrefixSum x n (w + i)) (y := N.circularPrefixSum x n) (c := 2 ^ (k + 25))
    (pow32 (k := k + 26) (by omega) (by omega)) (by rw [dbl]; exact le_of_eq (by congr 1; ring)) (n - 1) (fun i hi => hc _ (by omega)) (fun i hi => hc _ (by omega))
  have p1 := bnd_prod hN (pow32 (k := k + 52) (by omega) (by omega)) (by rw [sh]; exact le_of_eq (by congr 1; ring)) hhb hd
  have p2 := bnd_prod hN (pow32 (k := k + 50) (by omega) (by omega)) (by rw [sh]; exact le_of_eq (by congr 1; ring)) hb (hc (n - 1) (by omega))
  have p2' : Bnd (2 ^ (k + 52)) _ := p2.mono (zpow_le_zpow_right₀ (by norm_num) (by omega))
  have p3 := bnd_sub hN.single (pow32 (k := k + 53) (by omega) (by omega)) (by rw [dbl]; exact le_of_eq (by congr 1; ring)) p1 p2'
  refine bnd_div hN.single (pow32 (k := k + 55) (by omega) (by omega)) (by norm_num : (0 : ℚ) < 1 / 4) ?_ p3 hs
  rw [show (k + 55 : ℤ) = k + 53 + 2 by ring, ← sh (k + 53) 2, show (2 : ℚ) ^ (2 : ℤ) = 4 by norm_num]
  linarith

end profile

/-! ## The search of bounded samples -/

section search

variable {N : NArith} {A : DArith} (hN : Ieee N A) {k : ℤ}
include hN

theorem transform_bnd (idx : IdxRule) (p : ℕ) (hp : 0 < p) (hk1 : -149 ≤ k) (hk2 : k ≤ 103) : ∀ m, m ≤ 2 ^ 24 → (∀ m' ≤ m, 3 ≤ m' → IdxOK idx m') →
    ∀ x : ℕ → ℕ → FVal, (∀ r < m, ∀ c < p, Bnd (2 ^ k) (x r c)) → ∀ s < m, ∀ c < p, Bnd (m * 2 ^ k) (transform N.ops.add idx m p x s c) := by
  intro m
  induction m using Nat.strong_induction_on with
  | _ m ih =>
    intro hm hok x hx s hs c hc
    have key : ∀ (y z : ℕ → FVal) (i : ℕ) (a b : ℕ), a + b = m → (∀ c < p, Bnd (a * 2 ^ k) (y c)) → (∀ c < p, Bnd (b * 2 ^ k) (z c)) →
        Bnd (m * 2 ^ k) (fusedRollbackAdd N.ops.add p i y z c) := by
      intro y z i a b hab hy hz
      rw [fusedRollbackAdd_apply _ _ _ _ hc]
      refine bnd_add hN.single (has32 hm hk1 hk2) ?_ (hy c hc) (hz _ (Nat.mod_lt _ hp))
      rw [← hab]; push_cast; linarith
    rcases Nat.lt_or_ge m 3 with h3 | h3
    · rcases Nat.lt_or_ge m 2 with h2 | h2
      · rw [transform_le_one _ _ (by omega)]
        obtain rfl : m = 1 := by omega
        simpa using hx s hs c hc
      · obtain rfl : m = 2 := by omega
        rw [transform_two]
        have h0 : ∀ c < p, Bnd ((1 : ℕ) * 2 ^ k) (x 0 c) := fun c hc => by simpa using hx 0 (by omega) c hc
        have h1 : ∀ c < p, Bnd ((1 : ℕ) * 2 ^ k) (x 1 c) := fun c hc => by simpa using hx 1 (by omega) c hc
        split_ifs
        · refine bnd_add hN.single (has32 hm hk1 hk2) ?_ (h0 c hc) (h1 c hc)
          push_cast; linarith
        · exact key _ _ _ 1 1 rfl h0 h1
    · have ok := hok m le_rfl h3
      rw [transform_ge_three _ _ h3]
      unfold merge
      refine key _ _ _ (m / 2) (m - m / 2) (by omega) ?_ ?_
      · exact ih (m / 2) (by omega) (by omega) (fun m' h => hok m' (by omega)) x (fun r hr => hx r (by omega)) _ (ok.h_lt s hs)
      · exact ih (m - m / 2) (by omega) (by omega) (fun m' h => hok m' (by omega)) _ (fun r hr => hx _ (by omega)) _ (ok.t_lt s hs)

theorem dSample_bnd (hA : Sane A) {size i : ℕ} {f : ℚ} (hsize : size ≤ 2 ^ 25) (hf : 1 + 2 * u53 ≤ f) (hf2 : f ≤ 2 ^ 23 + 2) (hi : i < ⌊A.fl (A.fl size / f)⌋₊)
    {x : ℕ → FVal} (hk1 : -149 ≤ k) (hk2 : k ≤ 103) (hx : ∀ j < size, Bnd (2 ^ k) (x j)) : Bnd (2 ^ 24 * 2 ^ k) (dSample A N.ops size x f i) := by
  obtain ⟨w1, w2, w3, w4, w5, w6, w7, w8, w9⟩ := d_window hA hsize hf hi
  have eq := hA.nat (dImax A size f i) (by omega)
  have ep := hA.nat (dImin A f i + 1) (by omega)
  have one32 : binary32.Has 1 := by simpa using pow32 (k := 0) (by omega) (by omega)
  have two32 : binary32.Has 2 := by simpa using pow32 (k := 1) (by omega) (by omega)
  have hlen : dImax A size f i - (dImin A f i + 1) ≤ 2 ^ 23 + 2 := by
    have h1 := (abs_le.mp w7).1
    have h2 := (abs_le.mp w8).2
    have h4 : (((dImax A size f i - (dImin A f i + 1) : ℕ)) : ℚ) < ((2 ^ 23 + 3 : ℕ) : ℚ) := by
      rw [Nat.cast_sub (by omega)]
      push_cast
      linarith
    have h5 : dImax A size f i - (dImin A f i + 1) < 2 ^ 23 + 3 := by exact_mod_cast h4
    omega
  have fl1 : A.fl 1 = 1 := by simpa using hA.nat 1 (by norm_num)
  have fl2 : A.fl 2 = 2 := by simpa using hA.nat 2 (by norm_num)
  have hw1 : Bnd 1 (FVal.cast N.single (.fin (A.fl (A.fl (dImin A f i + 1 : ℕ) - dStart A f i)))) := by
    refine bnd_cast hN.single one32 le_rfl ⟨_, rfl, ?_⟩
    rw [ep]
    have h0 : 0 ≤ ((dImin A f i + 1 : ℕ) : ℚ) - dStart A f i := by push_cast; linarith
    rw [abs_of_nonneg (Dbl.fl_nonneg hA h0)]
    have := hA.mono _ 1 h0 (by push_cast; linarith)
    rwa [fl1] at this
  have hw2 : Bnd 2 (FVal.cast N.single (.fin (A.fl (dStop A f i - A.fl (dImax A size f i))))) := by
    refine bnd_cast hN.single two32 le_rfl ⟨_, rfl, ?_⟩
    rw [eq]
    have h0 : 0 ≤ dStop A f i - (dImax A size f i : ℕ) := by linarith
    rw [abs_of_nonneg (Dbl.fl_nonneg hA h0)]
    have h2 : dStop A f i - (dImax A size f i : ℕ) ≤ 2 := by
      rcases w6 with h | h
      · linarith
      · have : ((dImax A size f i : ℕ) : ℚ) + 1 = size := by exact_mod_cast h
        linarith
    have := hA.mono _ 2 h0 h2
    rwa [fl2] at this
  have hacc : ∀ t ≤ dImax A size f i - (dImin A f i + 1), Bnd (((t + 1 : ℕ) : ℚ) * 2 ^ k) (dAcc A N.ops x f i t) := by
    intro t
    induction t with
    | zero =>
      intro _
      exact bnd_prod hN (has32 (by norm_num) hk1 hk2) (by push_cast; linarith) hw1 (hx _ (by omega))
    | succ t ih =>
      intro ht
      refine bnd_add hN.single (has32 (by omega) hk1 hk2) ?_ (ih (by omega)) (hx _ (by omega))
      push_cast; linarith
  have hp := bnd_prod hN (c := 2) (has32 (j := 2) (by norm_num) hk1 hk2) (by push_cast; linarith) hw2 (hx _ w2)
  have hb := has32 (j := 2 ^ 24) le_rfl hk1 hk2
  rw [show (((2 ^ 24 : ℕ) : ℚ)) = 2 ^ 24 by norm_num] at hb
  refine bnd_add hN.single hb ?_ (hacc _ le_rfl) hp
  have h6 : (((dImax A size f i - (dImin A f i + 1) + 1 : ℕ)) : ℚ) ≤ 2 ^ 23 + 3 := by exact_mod_cast (by omega : _ ≤ 2 ^ 23 + 3)
  have h7 : (0 : ℚ) < 2 ^ k := by positivity
  push_cast at h6 ⊢
  nlinarith

/-- All S/N values of a search of bounded samples are finite numbers. -/
theorem bounded_search (hA : Sane A) (hG : Grid A) (idx : IdxRule) (data : List FVal) (tsamp : ℚ) (widths : List ℕ) (hne : widths ≠ []) (pmin pmax : ℚ) (bmin bmax : ℕ)
    (hidx : IdxFor idx (data.length / bmin)) (hsize : data.length ≤ 2 ^ 25) (hrows : data.length / bmin ≤ 2 ^ 23) (hbins : bmax ≤ 2 ^ 24) (hpmax : pmax ≤ 2 ^ 62 * tsamp)
    (hw : ∀ w ∈ widths, 0 < w ∧ w < bmin) (hdata : ∀ v ∈ data, Bnd (2 ^ 25) v)
    {per : List ℚ} {fb : List ℕ} {snr : List (List FVal)} (h : A.binding N.ops idx data tsamp widths pmin pmax bmin bmax = .ok (per, fb, snr)) :
    ∀ row ∈ snr, row.length = widths.length ∧ ∀ v ∈ row, ∃ q, v = .fin q := by
  rcases binding_cases hA N.ops idx data.length tsamp widths hne pmin pmax bmin bmax hidx (by omega) (by omega) hpmax with h' | ⟨hr, h'⟩
  · rw [h' data rfl] at h
    exact nomatch h
  set a : DArgs := ⟨data.length, tsamp, pmin, pmax, bmin, bmax⟩ with ha
  rw [h' data rfl] at h
  simp only [Except.ok.injEq, Prod.mk.injEq] at h
  obtain ⟨-, -, rfl⟩ := h
  intro row hrow
  obtain ⟨t, ht, rfl⟩ := List.mem_map.1 hrow
  refine ⟨by simp, ?_⟩
  intro v hv
  obtain ⟨j, hj, rfl⟩ := List.mem_map.1 hv
  rw [List.mem_range] at hj
  obtain ⟨h1, h2, h3, h4, h5⟩ := trial_rows ht
  have hb2 : 1 < bmin := hr.valid.2.2.2.1
  have h2' : bmin ≤ t.2.1 := h2
  have hns : nN A a t.1 ≤ data.length := d_n_le_size hA hr t.1
  have hb24 : t.2.1 ≤ 2 ^ 24 := (h3.trans ((min_le_left _ _).trans (min_le_left _ _))).trans hbins
  have hbn : t.2.1 ≤ nN A a t.1 := h3.trans ((min_le_left _ _).trans (min_le_right _ _))
  have hm : nN A a t.1 / t.2.1 ≤ data.length / bmin := by
    calc _ ≤ data.length / t.2.1 := Nat.div_le_div_right hns
      _ ≤ _ := Nat.div_le_div_left h2' (by omega)
  have hok : ∀ m ≤ nN A a t.1 / t.2.1, 3 ≤ m → IdxOK idx m := fun m h => hidx.ok m (h.trans hm)
  have hf := d_f_ge_one hA hr t.1
  -- the factor
  have hf2 : A.f a t.1 ≤ 2 ^ 23 + 2 := by
    have q0 : (0 : ℚ) ≤ a.size / A.f a t.1 := by positivity
    have e : nN A a t.1 = ⌊A.fl (a.size / A.f a t.1)⌋₊ := by rw [nN, d_size hA hr]
    have e1 : (nN A a t.1 : ℚ) ≤ A.fl (a.size / A.f a t.1) := by rw [e]; exact Nat.floor_le (Dbl.fl_nonneg hA q0)
    have e2 := Dbl.fl_le hA q0
    have e3 : (bmin : ℚ) ≤ nN A a t.1 := by exact_mod_cast h2'.trans hbn
    have e4 : (bmin : ℚ) * A.f a t.1 ≤ (1 + u53) * data.length := by
      have := (e3.trans e1).trans e2
      rw [← mul_div_assoc, le_div_iff₀ (by linarith)] at this
      exact this
    have e5 : (data.length : ℚ) < (2 ^ 23 + 1) * bmin := by
      have : data.length < (2 ^ 23 + 1) * bmin := by
        have := Nat.lt_div_mul_add (a := data.length) (b := bmin) (by omega)
        nlinarith
      exact_mod_cast this
    have hb0 : (0 : ℚ) < bmin := by exact_mod_cast (by omega : 0 < bmin)
    have e6 : (bmin : ℚ) * A.f a t.1 ≤ bmin * (2 ^ 23 + 2) := by
      refine e4.trans ?_
      have : (1 + u53) * (data.length : ℚ) ≤ (1 + u53) * ((2 ^ 23 + 1) * bmin) := mul_le_mul_of_nonneg_left e5.le (by norm_num [u53])
      refine this.trans ?_
      rw [← mul_assoc, mul_comm]
      exact mul_le_mul_of_nonneg_left (by norm_num [u53]) hb0.le
    exact le_of_mul_le_mul_left e6 hb0
  -- the samples of the stage
  have hx : ∀ i < data.length, Bnd (2 ^ (25 : ℤ)) (data.getD i default) := by
    intro i hi
    have := hdata (data.getD i default) (by rw [List.getD, List.getElem?_eq_getElem hi]; exact List.getElem_mem hi)
    exact this.mono (by norm_num)
  have hstage : ∀ i < nN A a t.1, Bnd (2 ^ (49 : ℤ)) (dStageData A a N.ops (fun i => data.getD i default) t.1 i) := by
    intro i hi
    unfold dStageData
    split_ifs with hone
    · exact (hx i (by omega)).mono (by norm_num)
    · have hg : 1 + 2 * u53 ≤ A.f a t.1 := hG.gap _ (lt_of_le_of_ne hf (Ne.symm hone))
      exact (dSample_bnd hN hA hsize hg hf2 hi (by omega) (by omega) hx).mono (by norm_num)
  have hprof : ∀ i < t.2.1, Bnd (2 ^ (72 : ℤ)) (dProf A a N.ops idx (fun i => data.getD i default) t i) := by
    intro i hi
    have hlt : ∀ r < nN A a t.1 / t.2.1, ∀ c < t.2.1, r * t.2.1 + c < nN A a t.1 := by
      intro r hr c hc
      have : (r + 1) * t.2.1 ≤ nN A a t.1 / t.2.1 * t.2.1 := Nat.mul_le_mul_right _ hr
      have := Nat.div_mul_le_self (nN A a t.1) t.2.1
      linarith
    have := transform_bnd hN idx t.2.1 (by omega) (k := 49) (by omega) (by omega) (nN A a t.1 / t.2.1) (by omega) hok
      (fun r c => dStageData A a N.ops (fun i => data.getD i default) t.1 (r * t.2.1 + c)) (fun r hr c hc => hstage _ (hlt r hr c hc)) t.2.2 h5 i hi
    refine this.mono ?_
    have : ((nN A a t.1 / t.2.1 : ℕ) : ℚ) ≤ 2 ^ 23 := by exact_mod_cast hm.trans hrows
    calc ((nN A a t.1 / t.2.1 : ℕ) : ℚ) * 2 ^ (49 : ℤ) ≤ 2 ^ 23 * 2 ^ (49 : ℤ) := mul_le_mul_of_nonneg_right this (by positivity)
      _ = _ := by norm_num
  -- the noise level
  obtain ⟨V, -, hV, hvar⟩ := d_variance hA hG (n := nN A a t.1) (by omega) hf (by linarith) t.2.1 (nN A a t.1 / t.2.1) 0
  have hrow1 : 1 ≤ nN A a t.1 / t.2.1 := by omega
  have hvar2 : 7 / 16 ≤ A.variance (nN A a t.1) (A.f a t.1) := by
    have := (abs_le.mp hvar).1
    linarith
  have hV2 : 7 / 16 ≤ ((nN A a t.1 / t.2.1 : ℕ) : ℚ) * A.variance (nN A a t.1) (A.f a t.1) := by
    have : (1 : ℚ) ≤ ((nN A a t.1 / t.2.1 : ℕ) : ℚ) := by exact_mod_cast hrow1
    nlinarith
  obtain ⟨s, es, s0, hs⟩ := hN.std (nN A a t.1 / t.2.1) a.size (A.f a t.1) _ (by omega) hsize hf (by linarith)
    (by linarith : 0 ≤ ((nN A a t.1 / t.2.1 : ℕ) : ℚ) * A.variance (nN A a t.1) (A.f a t.1)) rfl
  have hs4 : 1 / 4 ≤ s := by
    have := (abs_le.mp hs).1
    by_contra hc
    rw [not_le] at hc
    nlinarith
  -- the S/N value
  have hwj : widths[j] ∈ widths := List.getElem_mem hj
  unfold dSnr
  show ∃ q, (N.snr1 t.2.1 _ (N.std _ a.size (A.f a t.1)) widths).getD j default = .fin q
  rw [es, NArith.snr1, List.getD, List.getElem?_map, List.getElem?_eq_getElem hj, Option.map_some, Option.getD_some]
  obtain ⟨q, e, -⟩ := snr_bnd hN (k := 72) (n := t.2.1) (x := fun i => if i < t.2.1 then dProf A a N.ops idx (fun i => data.getD i default) t i else default)
    (by omega) (by omega) (fun i hi => by simp only [if_pos hi]; exact hprof i hi) hb24 hs4 (hw _ hwj).1 (by have := (hw _ hwj).2; omega)
  exact ⟨q, e⟩

end search

/-! ## Sums in numpy -/

theorem has32_64 {q : ℚ} {L : ℕ} (hL : L ≤ 2 ^ 29) (h : binary32.Has q) : binary64.Has (L * q) := by
  obtain ⟨m, e, h1, h2, h3, rfl⟩ := h
  have e1 : binary32.emin = -149 := rfl
  have e2 : binary64.emin = -1074 := rfl
  rw [e1] at h2 h3
  change |m| < 2 ^ 24 at h1
  change e ≤ -149 + 2 ^ 8 - 3 at h3
  refine ⟨L * m, e, ?_, by rw [e2]; omega, ?_, by push_cast; ring⟩
  · show |(L : ℤ) * m| < 2 ^ 53
    rw [abs_mul, abs_of_nonneg (by positivity : (0 : ℤ) ≤ L)]
    have : (L : ℤ) ≤ 2 ^ 29 := by exact_mod_cast hL
    nlinarith [abs_nonneg m]
  · rw [e2]
    show e ≤ -1074 + 2 ^ 11 - 3
    omega

theorem leaves_pos : ∀ t : SumTree, 0 < t.leaves.length
  | .leaf _ => by simp [SumTree.leaves]
  | .node a b => by
    have := leaves_pos a
    simp only [SumTree.leaves, List.length_append]
    omega

/-- A sum of numbers from an interval, in any order. -/
theorem tree_between {f : FloatFormat} {r : ℚ → FVal} (hr : RoundsNearest f r) {lo hi : ℚ} {M : ℕ} (h1 : ∀ L ≤ M, f.Has (L * lo)) (h2 : ∀ L ≤ M, f.Has (L * hi)) (x : ℕ → FVal) :
    ∀ t : SumTree, t.leaves.length ≤ M → (∀ i ∈ t.leaves, ∃ q, x i = .fin q ∧ lo ≤ q ∧ q ≤ hi) →
      ∃ s, t.sum r x = .fin s ∧ t.leaves.length * lo ≤ s ∧ s ≤ t.leaves.length * hi := by
  intro t
  induction t with
  | leaf i =>
    intro _ h
    obtain ⟨q, e, a, b⟩ := h i (by simp [SumTree.leaves])
    exact ⟨q, e, by simpa [SumTree.leaves] using a, by simpa [SumTree.leaves] using b⟩
  | node a b iha ihb =>
    intro hM h
    simp only [SumTree.leaves, List.length_append] at hM ⊢
    obtain ⟨p, ep, p1, p2⟩ := iha (by omega) (fun i hi => h i (by simp [SumTree.leaves, hi]))
    obtain ⟨q, eq, q1, q2⟩ := ihb (by omega) (fun i hi => h i (by simp [SumTree.leaves, hi]))
    obtain ⟨v, ev, _, v1, v2, _⟩ := rounds_between hr (q := p + q) (h1 _ hM) (h2 _ hM) (by push_cast; linarith) (by push_cast; linarith)
    refine ⟨v, ?_, v1, v2⟩
    rw [SumTree.sum, ep, eq]
    exact ev

/-- A sum of numbers that are not negative is not below any of them, up to rounding. -/
theorem tree_ge {f : FloatFormat} {r : ℚ → FVal} (hr : RoundsNearest f r) {c hi : ℚ} {M : ℕ} (hc : f.Has c) (hc0 : 0 ≤ c) (h2 : ∀ L ≤ M, f.Has (L * hi)) (x : ℕ → FVal) :
    ∀ t : SumTree, t.leaves.length ≤ M → (∀ i ∈ t.leaves, ∃ q, x i = .fin q ∧ 0 ≤ q ∧ q ≤ hi) →
      ∀ i ∈ t.leaves, (∃ q, x i = .fin q ∧ c ≤ q) → ∃ s, t.sum r x = .fin s ∧ c ≤ s ∧ s ≤ t.leaves.length * hi := by
  intro t
  have hz : ∀ L ≤ M, f.Has (((L : ℕ) : ℚ) * 0) := by
    intro L _
    obtain ⟨m, e, _, he1, he2, _⟩ := hc
    exact ⟨0, e, by simp, he1, he2, by simp⟩
  induction t with
  | leaf j =>
    intro _ h i hi ⟨q, e, a⟩
    simp only [SumTree.leaves, List.mem_singleton] at hi
    obtain ⟨q', e', _, b⟩ := h j (by simp [SumTree.leaves])
    subst hi
    rw [e] at e'
    obtain rfl : q = q' := by injection e'
    exact ⟨q, e, a, by simpa [SumTree.leaves] using b⟩
  | node a b iha ihb =>
    intro hM h i hi hq
    simp only [SumTree.leaves, List.length_append] at hM ⊢
    have ha := fun i hi => h i (by simp only [SumTree.leaves, List.mem_append]; exact Or.inl hi)
    have hb := fun i hi => h i (by simp only [SumTree.leaves, List.mem_append]; exact Or.inr hi)
    obtain ⟨p, ep, p1, p2⟩ := tree_between hr hz h2 x a (by omega) ha
    obtain ⟨q, eq, q1, q2⟩ := tree_between hr hz h2 x b (by omega) hb
    rw [mul_zero] at p1 q1
    have hcs : c ≤ p + q := by
      simp only [SumTree.leaves, List.mem_append] at hi
      rcases hi with hi | hi
      · obtain ⟨s, es, s1, _⟩ := iha (by omega) ha i hi hq
        rw [ep] at es
        obtain rfl : p = s := by injection es
        linarith
      · obtain ⟨s, es, s1, _⟩ := ihb (by omega) hb i hi hq
        rw [eq] at es
        obtain rfl : q = s := by injection es
        linarith
    obtain ⟨v, ev, _, v1, v2, _⟩ := rounds_between hr (q := p + q) hc (h2 _ hM) hcs (by push_cast; linarith)
    refine ⟨v, ?_, v1, v2⟩
    rw [SumTree.sum, ep, eq]
    exact ev

theorem leaves_length {N : NArith} (h : AddsAll N) {n : ℕ} (hn : 0 < n) : (N.tree n).leaves.length = n := by
  rw [(h n hn).length_eq, List.length_range]

/-- The data of a time series: numbers of type `float` between two of them. -/
def Within (lo hi : ℚ) (x : List FVal) : Prop := ∀ v ∈ x, ∃ q, v = .fin q ∧ lo ≤ q ∧ q ≤ hi

theorem Within.get {lo hi : ℚ} {x : List FVal} (h : Within lo hi x) {i : ℕ} (hi' : i < x.length) : ∃ q, x.getD i default = .fin q ∧ lo ≤ q ∧ q ≤ hi :=
  h _ (by rw [List.getD, List.getElem?_eq_getElem hi']; exact List.getElem_mem hi')

section mean

variable {N : NArith} {A : DArith} (hN : Ieee N A) (hadd : AddsAll N)
include hN hadd

/-- The mean lies between the smallest and the largest number. -/
theorem mean_between {lo hi : ℚ} {x : List FVal} (h0 : 0 < x.length) (h1 : ∀ L ≤ x.length, binary64.Has (L * lo)) (h2 : ∀ L ≤ x.length, binary64.Has (L * hi)) (hx : Within lo hi x) :
    ∃ m, N.mean x = .fin m ∧ lo ≤ m ∧ m ≤ hi := by
  have hl := leaves_length hadd h0
  obtain ⟨s, es, s1, s2⟩ := tree_between hN.double h1 h2 (fun i => x.getD i default) (N.tree x.length) hl.le (by
    intro i hi'
    exact hx.get (List.mem_range.1 ((hadd _ h0).mem_iff.1 hi')))
  rw [hl] at s1 s2
  have hn : (0 : ℚ) < x.length := by exact_mod_cast h0
  obtain ⟨v, ev, _, v1, v2, _⟩ := rounds_between hN.double (q := s / x.length) (by simpa using h1 1 h0) (by simpa using h2 1 h0)
    (by rw [le_div_iff₀ hn]; linarith) (by rw [div_le_iff₀ hn]; linarith)
  refine ⟨v, ?_, v1, v2⟩
  rw [NArith.mean, es]
  show (if ((x.length : ℕ) : ℚ) = 0 then _ else _) = _
  rw [if_neg hn.ne']
  exact ev

/-- The mean of numbers that are not negative, one of which is not small. -/
theorem mean_ge {k : ℤ} (hk1 : -1000 ≤ k) (hk2 : k ≤ 900) {hi : ℚ} {x : List FVal} (h0 : 0 < x.length) (hn25 : x.length ≤ 2 ^ 25) (h2 : ∀ L ≤ x.length, binary64.Has (L * hi)) (hx : Within 0 hi x)
    (hc : ∃ q, FVal.fin q ∈ x ∧ 2 ^ k ≤ q) : ∃ m, N.mean x = .fin m ∧ 2 ^ (k - 25) ≤ m ∧ m ≤ hi := by
  have hl := leaves_length hadd h0
  obtain ⟨q, hq, hq2⟩ := hc
  obtain ⟨i, hi', e⟩ := List.getElem_of_mem hq
  obtain ⟨s, es, s1, s2⟩ := tree_ge hN.double (pow64 (k := k) (by omega) (by omega)) (by positivity) h2 (fun i => x.getD i default) (N.tree x.length) hl.le (by
    intro i hi'
    exact hx.get (List.mem_range.1 ((hadd _ h0).mem_iff.1 hi'))) i ((hadd _ h0).mem_iff.2 (List.mem_range.2 hi')) ⟨q, by simp [List.getD, hi', e], hq2⟩
  rw [hl] at s2
  have hn : (0 : ℚ) < x.length := by exact_mod_cast h0
  have hn2 : (x.length : ℚ) ≤ 2 ^ 25 := by exact_mod_cast hn25
  have hp : (2 : ℚ) ^ (k - 25) * 2 ^ 25 = 2 ^ k := by rw [zpow_sub₀ (by norm_num)]; norm_num
  have hpos : (0 : ℚ) < 2 ^ (k - 25) := by positivity
  obtain ⟨v, ev, _, v1, v2, _⟩ := rounds_between hN.double (q := s / x.length) (pow64 (k := k - 25) (by omega) (by omega)) (by simpa using h2 1 h0)
    (by rw [le_div_iff₀ hn]; nlinarith) (by rw [div_le_iff₀ hn]; linarith)
  refine ⟨v, ?_, v1, v2⟩
  rw [NArith.mean, es]
  show (if ((x.length : ℕ) : ℚ) = 0 then _ else _) = _
  rw [if_neg hn.ne']
  exact ev

end mean

/-- Between numbers of type `float`, in the operations on whole arrays. -/
theorem work_between {N : NArith} {A : DArith} (hN : Ieee N A) {lo hi q : ℚ} (h1 : binary32.Has lo) (h2 : binary32.Has hi) (h3 : lo ≤ q) (h4 : q ≤ hi) :
    ∃ v, N.work q = .fin v ∧ lo ≤ v ∧ v ≤ hi := by
  have g1 : binary64.Has lo := by simpa using has32_64 (L := 1) (by norm_num) h1
  have g2 : binary64.Has hi := by simpa using has32_64 (L := 1) (by norm_num) h2
  rcases hN.work with h | h
  · obtain ⟨v, e, _, a, b, _⟩ := rounds_between h h1 h2 h3 h4
    exact ⟨v, e, a, b⟩
  · obtain ⟨v, e, _, a, b, _⟩ := rounds_between h g1 g2 h3 h4
    exact ⟨v, e, a, b⟩

section normalise

variable {N : NArith} {A : DArith} (hN : Ieee N A) (hadd : AddsAll N)
include hN hadd

/-- Normalised data are small. -/
theorem normalise_bnd {x : List FVal} {lo hi : ℚ} (hn25 : x.length ≤ 2 ^ 25) (hlo : FVal.fin lo ∈ x) (hhi : FVal.fin hi ∈ x) (hx : Within lo hi x) (h1 : binary32.Has lo) (h2 : binary32.Has hi)
    {c : ℤ} (hc : c ≤ 120) (hlo2 : -2 ^ c ≤ lo) (hhi2 : hi ≤ 2 ^ c) (hR : lo + 1 / 2 ^ 100 ≤ hi) : ∀ v ∈ N.normalise x, Bnd (2 ^ 25) v := by
  have h0 : 0 < x.length := List.length_pos_of_mem hlo
  obtain ⟨m, em, m1, m2⟩ := mean_between hN hadd h0 (fun L hL => has32_64 (by omega) h1) (fun L hL => has32_64 (by omega) h2) hx
  -- the scale of the data
  have hR0 : 0 < (hi - lo) / 2 := by linarith [show (0 : ℚ) < 1 / 2 ^ 100 by positivity]
  obtain ⟨k, k1, k2⟩ : ∃ k : ℤ, (2 : ℚ) ^ k ≤ (hi - lo) / 2 ∧ (hi - lo) / 2 < 2 ^ (k + 1) :=
    ⟨Int.log 2 ((hi - lo) / 2), by exact_mod_cast Int.zpow_log_le_self (b := 2) (by norm_num) hR0, by exact_mod_cast Int.lt_zpow_succ_log_self (b := 2) (by norm_num) ((hi - lo) / 2)⟩
  have hk1 : -102 ≤ k := by
    have : (2 : ℚ) ^ (-101 : ℤ) < 2 ^ (k + 1) := lt_of_le_of_lt (by norm_num at hR ⊢; linarith) k2
    have := (zpow_lt_zpow_iff_right₀ (by norm_num : (1 : ℚ) < 2)).1 this
    omega
  have hk2 : k ≤ 120 := by
    have : (2 : ℚ) ^ k ≤ 2 ^ c := by linarith
    exact ((zpow_le_zpow_iff_right₀ (by norm_num : (1 : ℚ) < 2)).1 this).trans hc
  have hR2 : hi - lo ≤ 2 ^ (k + 2) := by
    have : (2 : ℚ) ^ (k + 2) = 2 * 2 ^ (k + 1) := by rw [← zpow_one_add₀ (by norm_num)]; congr 1; ring
    linarith
  -- the squares
  have hsq : ∀ q, lo ≤ q → q ≤ hi → ∃ w, FVal.mul N.double (FVal.sub N.double (.fin q) (.fin m)) (FVal.sub N.double (.fin q) (.fin m)) = .fin w ∧ 0 ≤ w ∧ w ≤ 2 ^ (2 * k + 4) ∧
      (2 ^ k ≤ |q - m| → 2 ^ (2 * k) ≤ w) := by
    intro q q1 q2
    have hd : |q - m| ≤ 2 ^ (k + 2) := by rw [abs_le]; constructor <;> linarith
    have hb := pow64 (k := k + 2) (by omega) (by omega)
    obtain ⟨d, ed, _, d1, d2, _⟩ := rounds_between hN.double (has_neg hb) hb (abs_le.mp hd).1 (abs_le.mp hd).2
    have hd2 : d * d ≤ 2 ^ (2 * k + 4) := by
      rw [show (2 * k + 4 : ℤ) = (k + 2) + (k + 2) by ring, zpow_add₀ (by norm_num)]
      nlinarith
    have es : FVal.sub N.double (.fin q) (.fin m) = .fin d := by
      rw [← ed, sub_eq_add_neg]; rfl
    have hz : binary64.Has 0 := by simpa using has64 (j := 0) (k := 0) (by omega) (by omega) (by omega)
    obtain ⟨w, ew, _, w1, w2, _⟩ := rounds_between hN.double hz (pow64 (k := 2 * k + 4) (by omega) (by omega)) (mul_self_nonneg d) hd2
    refine ⟨w, by rw [es]; exact ew, w1, w2, ?_⟩
    intro hbig
    have hd3 : 2 ^ k ≤ |d| := by
      have hb' := pow64 (k := k) (by omega) (by omega)
      rcases le_total 0 (q - m) with hs | hs
      · rw [abs_of_nonneg hs] at hbig
        obtain ⟨d', ed', _, a, _⟩ := rounds_between hN.double hb' hb hbig (abs_le.mp hd).2
        rw [ed] at ed'
        obtain rfl : d = d' := by injection ed'
        exact a.trans (le_abs_self _)
      · rw [abs_of_nonpos hs] at hbig
        obtain ⟨d', ed', _, _, a, _⟩ := rounds_between hN.double (has_neg hb) (has_neg hb') (abs_le.mp hd).1 (by linarith)
        rw [ed] at ed'
        obtain rfl : d = d' := by injection ed'
        have := neg_le_abs d
        linarith
    have hd4 : 2 ^ (2 * k) ≤ d * d := by
      rw [show (2 * k : ℤ) = k + k by ring, zpow_add₀ (by norm_num), ← abs_mul_abs_self d]
      exact mul_le_mul hd3 hd3 (by positivity) (abs_nonneg _)
    obtain ⟨w', ew', _, a, _⟩ := rounds_between hN.double (pow64 (k := 2 * k) (by omega) (by omega)) (pow64 (k := 2 * k + 4) (by omega) (by omega)) hd4 hd2
    rw [ew] at ew'
    obtain rfl : w = w' := by injection ew'
    exact a
  -- the variance
  have hfar : ∃ q, FVal.fin q ∈ x ∧ lo ≤ q ∧ q ≤ hi ∧ 2 ^ k ≤ |q - m| := by
    rcases le_total m ((hi + lo) / 2) with h | h
    · exact ⟨hi, hhi, by linarith, le_rfl, by rw [abs_of_nonneg (by linarith)]; linarith⟩
    · exact ⟨lo, hlo, le_rfl, by linarith, by rw [abs_of_nonpos (by linarith)]; linarith⟩
  obtain ⟨V, eV, V1, V2⟩ := mean_ge hN hadd (k := 2 * k) (by omega) (by omega) (hi := 2 ^ (2 * k + 4))
    (x := x.map (fun v => FVal.mul N.double (FVal.sub N.double v (N.mean x)) (FVal.sub N.double v (N.mean x)))) (by simpa using h0) (by simpa using hn25)
    (fun L hL => has64 (by rw [List.length_map] at hL; omega) (by omega) (by omega)) (by
      intro v hv
      obtain ⟨u, hu, rfl⟩ := List.mem_map.1 hv
      obtain ⟨q, rfl, q1, q2⟩ := hx u hu
      obtain ⟨w, ew, w1, w2, _⟩ := hsq q q1 q2
      exact ⟨w, by rw [em]; exact ew, w1, w2⟩) (by
      obtain ⟨q, hq, q1, q2, q3⟩ := hfar
      obtain ⟨w, ew, _, _, w3⟩ := hsq q q1 q2
      exact ⟨w, List.mem_map.2 ⟨_, hq, by rw [em]; exact ew⟩, w3 q3⟩)
  -- the norm
  have hV0 : 0 < V := lt_of_lt_of_le (by positivity) V1
  obtain ⟨r, er, r0, hr⟩ := hN.sqrt V hV0.le (by
    refine lt_of_le_of_lt V2 ?_
    rw [← zpow_natCast]
    exact (zpow_lt_zpow_iff_right₀ (by norm_num)).2 (by push_cast; omega))
  have r1 : 2 ^ (k - 13) ≤ r := by
    have h3 := (abs_le.mp hr).1
    have e : (2 : ℚ) ^ (2 * k - 25) = 2 * (2 ^ (k - 13) * 2 ^ (k - 13)) := by
      rw [← zpow_add₀ (by norm_num), ← zpow_one_add₀ (by norm_num)]; congr 1; ring
    have hp : (0 : ℚ) < 2 ^ (k - 13) := by positivity
    by_contra hcon
    rw [not_le] at hcon
    have : r ^ 2 ≤ 2 ^ (k - 13) * 2 ^ (k - 13) := by nlinarith
    have h5 : (0 : ℚ) < 2 ^ (k - 13) * 2 ^ (k - 13) := by positivity
    generalize (2 : ℚ) ^ (k - 13) * 2 ^ (k - 13) = P at *
    linarith
  have r2 : r ≤ 2 ^ (k + 3) := by
    have h3 := (abs_le.mp hr).2
    have e : (2 : ℚ) ^ (2 * k + 4) * 4 = 2 ^ (k + 3) * 2 ^ (k + 3) := by
      rw [← zpow_add₀ (by norm_num), show (4 : ℚ) = 2 ^ (2 : ℤ) by norm_num, ← zpow_add₀ (by norm_num)]; congr 1; ring
    have hp : (0 : ℚ) < 2 ^ (k + 3) := by positivity
    by_contra hcon
    rw [not_le] at hcon
    have : 2 ^ (k + 3) * 2 ^ (k + 3) ≤ r ^ 2 := by nlinarith
    generalize (2 : ℚ) ^ (k + 3) * 2 ^ (k + 3) = P at *
    linarith
  obtain ⟨m', em', m1', m2'⟩ := work_between hN h1 h2 m1 m2
  obtain ⟨r', er', r1', r2'⟩ := work_between hN (pow32 (k := k - 13) (by omega) (by omega)) (pow32 (k := k + 3) (by omega) (by omega)) r1 r2
  intro v hv
  obtain ⟨u, hu, rfl⟩ := List.mem_map.1 hv
  obtain ⟨q, rfl, q1, q2⟩ := hx u hu
  have ecm : FVal.cast N.work (N.mean x) = .fin m' := by rw [em]; exact em'
  have ecr : FVal.cast N.work (FVal.sqrt N.sqrt (N.var x)) = .fin r' := by
    rw [NArith.var, eV]
    show FVal.cast N.work (if V < 0 then _ else _) = _
    rw [if_neg (not_lt.mpr hV0.le), er]
    exact er'
  rw [ecm, ecr]
  have hb := pow32 (k := k + 2) (by omega) (by omega)
  obtain ⟨d, ed, d1, d2⟩ := work_between hN (has_neg hb) hb (q := q + -m') (by linarith) (by linarith)
  have hrp : 0 < r' := lt_of_lt_of_le (by positivity) r1'
  have e15 : (2 : ℚ) ^ (k + 2) = 2 ^ (15 : ℤ) * 2 ^ (k - 13) := by rw [← zpow_add₀ (by norm_num)]; congr 1; ring
  have hb15 := pow32 (k := 15) (by omega) (by omega)
  have hquot : |d / r'| ≤ 2 ^ (15 : ℤ) := by
    rw [abs_div, abs_of_pos hrp, div_le_iff₀ hrp]
    have : |d| ≤ 2 ^ (k + 2) := abs_le.mpr ⟨d1, d2⟩
    have h15 : (0 : ℚ) < 2 ^ (15 : ℤ) := by positivity
    rw [e15] at this
    exact this.trans (mul_le_mul_of_nonneg_left r1' h15.le)
  obtain ⟨w, ew, w1, w2⟩ := work_between hN (has_neg hb15) hb15 (abs_le.mp hquot).1 (abs_le.mp hquot).2
  have e1 : FVal.sub N.work (.fin q) (.fin m') = .fin d := ed
  have e2 : FVal.div N.work (.fin d) (.fin r') = .fin w := by
    show (if r' = 0 then _ else _) = _
    rw [if_neg hrp.ne']
    exact ew
  rw [e1, e2]
  exact (bnd_cast hN.single hb15 le_rfl ⟨w, rfl, abs_le.mpr ⟨w1, w2⟩⟩).mono (by norm_num)

/-- Data of a constant value become NaN. -/
theorem normalise_constant {x : List FVal} {c : ℚ} (hn25 : x.length ≤ 2 ^ 25) (hc : binary32.Has c) (hx : ∀ v ∈ x, v = .fin c) : N.normalise x = List.replicate x.length .nan := by
  rw [List.eq_replicate_iff]
  refine ⟨by simp [NArith.normalise], ?_⟩
  intro v hv
  have h0 : 0 < x.length := by
    have := List.length_pos_of_mem hv
    simpa [NArith.normalise] using this
  have hw : Within c c x := fun v hv => ⟨c, hx v hv, le_rfl, le_rfl⟩
  obtain ⟨m, em, m1, m2⟩ := mean_between hN hadd h0 (fun L hL => has32_64 (by omega) hc) (fun L hL => has32_64 (by omega) hc) hw
  obtain rfl : m = c := le_antisymm m2 m1
  have hz : binary32.Has 0 := by simpa using has32 (j := 0) (k := 0) (by omega) (by omega) (by omega)
  have hz64 : binary64.Has 0 := by simpa using has64 (j := 0) (k := 0) (by omega) (by omega) (by omega)
  have d0 : N.double 0 = .fin 0 := by
    obtain ⟨v, e, _, a, b, _⟩ := rounds_between hN.double hz64 hz64 le_rfl le_rfl
    rw [e, le_antisymm b a]
  have w0 : N.work 0 = .fin 0 := by
    obtain ⟨v, e, a, b⟩ := work_between hN hz hz le_rfl le_rfl
    rw [e, le_antisymm b a]
  have wc : N.work m = .fin m := by
    obtain ⟨v, e, a, b⟩ := work_between hN hc hc le_rfl le_rfl
    rw [e, le_antisymm b a]
  have hsq : FVal.mul N.double (FVal.sub N.double (.fin m) (.fin m)) (FVal.sub N.double (.fin m) (.fin m)) = .fin 0 := by
    have : FVal.sub N.double (.fin m) (.fin m) = .fin 0 := by
      show N.double (m + -m) = _
      rw [add_neg_cancel, d0]
    rw [this]
    show N.double (0 * 0) = _
    rw [mul_zero, d0]
  have eV : N.var x = .fin 0 := by
    have hz' : ∀ L ≤ (x.map (fun v => FVal.mul N.double (FVal.sub N.double v (N.mean x)) (FVal.sub N.double v (N.mean x)))).length, binary64.Has ((L : ℚ) * 0) := fun L _ => by
      rw [mul_zero]; exact hz64
    obtain ⟨V, e, a, b⟩ := mean_between hN hadd (by simpa using h0) hz' hz' (x := x.map (fun v => FVal.mul N.double (FVal.sub N.double v (N.mean x)) (FVal.sub N.double v (N.mean x)))) (by
      intro v hv
      obtain ⟨u, hu, rfl⟩ := List.mem_map.1 hv
      rw [hx u hu, em, hsq]
      exact ⟨0, rfl, le_rfl, le_rfl⟩)
    rw [NArith.var, e, le_antisymm b a]
  have er : FVal.sqrt N.sqrt (N.var x) = .fin 0 := by
    rw [eV]
    show (if (0 : ℚ) < 0 then FVal.nan else N.sqrt 0) = _
    rw [if_neg (lt_irrefl _)]
    obtain ⟨r, er, _, hr⟩ := hN.sqrt 0 le_rfl (by positivity)
    have : r ^ 2 = 0 := by
      rw [sub_zero, zero_div] at hr
      exact abs_eq_zero.mp (le_antisymm hr (abs_nonneg _))
    rw [er, (pow_eq_zero_iff (two_ne_zero)).mp this]
  obtain ⟨u, hu, rfl⟩ := List.mem_map.1 hv
  rw [hx u hu, er, em]
  show FVal.cast N.single (FVal.div N.work (FVal.sub N.work (.fin m) (N.work m)) (N.work 0)) = _
  rw [wc, w0]
  have : FVal.sub N.work (.fin m) (.fin m) = .fin 0 := by
    show N.work (m + -m) = _
    rw [add_neg_cancel, w0]
  rw [this]
  simp [FVal.div, FVal.cast]

end normalise

/-! ## The data that are searched -/

section prepare

variable {N : NArith} {A : DArith} (hN : Ieee N A) (hadd : AddsAll N)
include hN hadd

theorem median_bnd {x out : List FVal} {w : ℕ} {c : ℚ} (h : N.runningMedian x w = .ok out) (hx : ∀ v ∈ x, Bnd c v) : out ≠ [] ∧ ∀ v ∈ out, Bnd c v := by
  by_cases hc : w % 2 ≠ 0 ∧ w < x.length
  · obtain ⟨out', e, hl, hm⟩ := runningMedian_fval N x w hc.1 hc.2
    rw [h] at e
    obtain rfl : out = out' := Except.ok.inj e
    refine ⟨by intro h0; rw [h0] at hl; simp at hl; omega, ?_⟩
    intro v hv
    obtain ⟨i, hi, rfl⟩ := List.getElem_of_mem hv
    have := (hm i hi).1
    unfold medWin at this
    obtain ⟨k, _, e⟩ := List.mem_map.1 this
    rw [← e]
    apply hx
    have hlt : min (i + k - w / 2) (x.length - 1) < x.length := by omega
    rw [List.getD, List.getElem?_eq_getElem hlt]
    exact List.getElem_mem hlt
  · rw [runningMedian_err N x w (by omega)] at h
    exact nomatch h

theorem scrunch_bnd {x : List FVal} {f : ℕ} (hf0 : 0 < f) (hf : f ≤ 2 ^ 24) (hx : ∀ v ∈ x, Bnd (2 ^ (100 : ℤ)) v) : ∀ v ∈ N.scrunch x f, Bnd (2 ^ (100 : ℤ)) v := by
  intro v hv
  obtain ⟨i, hi, rfl⟩ := List.mem_map.1 hv
  rw [List.mem_range] at hi
  have hl := leaves_length hadd hf0
  have h1 : ∀ L ≤ f, binary32.Has ((L : ℚ) * 2 ^ (100 : ℤ)) := fun L hL => has32 (by omega) (by omega) (by omega)
  have h2 : ∀ L ≤ f, binary32.Has ((L : ℚ) * -2 ^ (100 : ℤ)) := fun L hL => by rw [mul_neg]; exact has_neg (h1 L hL)
  obtain ⟨s, es, s1, s2⟩ := tree_between hN.single h2 h1 (fun k => x.getD (i * f + k) default) (N.tree f) hl.le (by
    intro k hk
    have hk := List.mem_range.1 ((hadd _ hf0).mem_iff.1 hk)
    have hlt : i * f + k < x.length := by
      have : (i + 1) * f ≤ x.length / f * f := Nat.mul_le_mul_right _ hi
      have := Nat.div_mul_le_self x.length f
      linarith
    obtain ⟨q, e, h⟩ := hx (x.getD (i * f + k) default) (by rw [List.getD, List.getElem?_eq_getElem hlt]; exact List.getElem_mem hlt)
    exact ⟨q, e, (abs_le.mp h).1, (abs_le.mp h).2⟩)
  rw [hl] at s1 s2
  rw [es]
  have hf' : (0 : ℚ) < f := by exact_mod_cast hf0
  refine bnd_div hN.single (pow32 (by omega) (by omega)) hf' (c := f * 2 ^ (100 : ℤ)) (by rw [mul_div_cancel_left₀ _ hf'.ne']) ⟨s, rfl, abs_le.mpr ⟨by linarith, by linarith⟩⟩ le_rfl

/-- The data without trend are numbers of type `float`, of bounded size. -/
theorem deredden_bnd (hint : InterpBounded N) {x z : List FVal} {width minpts : ℕ} (hn25 : x.length ≤ 2 ^ 25) (hx : ∀ v ∈ x, Bnd (2 ^ (100 : ℤ)) v) (h : N.deredden x width minpts = .ok z) :
    ∀ v ∈ z, SampleWithin (2 ^ (102 : ℤ)) v := by
  obtain ⟨rmed, h1, h2⟩ := bind_ok_inv h
  have hr : ∀ v ∈ rmed, Bnd (2 ^ (101 : ℤ)) v := by
    unfold NArith.fastRunningMedian at h1
    split_ifs at h1 with hm
    simp only at h1
    split_ifs at h1 with hs
    · intro v hv
      exact ((median_bnd hN hadd h1 hx).2 v hv).mono (by norm_num)
    · obtain ⟨lo, h3, h4⟩ := bind_ok_inv h1
      obtain rfl := Except.ok.inj h4
      have hf1 : 1 < max 1 (width / minpts) := by omega
      have hlen : minpts < (N.scrunch x (max 1 (width / minpts))).length := by
        by_contra hc
        rw [runningMedian_err N _ minpts (Or.inr (by omega))] at h3
        exact nomatch h3
      have hf2 : max 1 (width / minpts) ≤ 2 ^ 24 := by
        simp only [NArith.scrunch, List.length_map, List.length_range] at hlen
        have h5 : 2 ≤ x.length / max 1 (width / minpts) := by omega
        rw [Nat.le_div_iff_mul_le (by omega)] at h5
        omega
      obtain ⟨hne, hb⟩ := median_bnd hN hadd h3 (scrunch_bnd hN hadd (by omega) hf2 hx)
      intro v hv
      obtain ⟨i, _, rfl⟩ := List.mem_map.1 hv
      obtain ⟨q, e, hq⟩ := hint lo (max 1 (width / minpts)) i (2 ^ (100 : ℤ)) (by norm_num) hne hb
      exact ⟨q, e, hq.trans (by norm_num)⟩
  obtain rfl := Except.ok.inj h2
  intro v hv
  obtain ⟨i, hi, rfl⟩ := List.getElem_of_mem hv
  rw [List.getElem_zipWith]
  rw [List.length_zipWith] at hi
  obtain ⟨a, ea, ha⟩ := hx _ (List.getElem_mem (l := x) (n := i) (by omega))
  obtain ⟨b, eb, hb⟩ := hr _ (List.getElem_mem (l := rmed) (n := i) (by omega))
  rw [ea, eb]
  have hc := pow32 (k := 102) (by omega) (by omega)
  have hab : |a + -b| ≤ 2 ^ (102 : ℤ) := by
    refine (abs_add_le a (-b)).trans ?_
    rw [abs_neg]
    norm_num at ha hb ⊢
    linarith
  obtain ⟨w, ew, w1, w2⟩ := work_between hN (has_neg hc) hc (abs_le.mp hab).1 (abs_le.mp hab).2
  obtain ⟨u, eu, hu, u1, u2, _⟩ := rounds_between hN.single (has_neg hc) hc w1 w2
  refine ⟨u, ?_, hu, abs_le.mpr ⟨u1, u2⟩⟩
  show FVal.cast N.single (N.work (a + -b)) = _
  rw [ew]
  exact eu

end prepare

/-- The smallest and the largest sample. -/
theorem extremes {c : ℚ} : ∀ z : List FVal, z ≠ [] → (∀ v ∈ z, SampleWithin c v) → ∃ lo hi, FVal.fin lo ∈ z ∧ FVal.fin hi ∈ z ∧ Within lo hi z
  | [], h, _ => absurd rfl h
  | [v], _, h => by
    obtain ⟨q, rfl, _⟩ := h v (by simp)
    refine ⟨q, q, by simp, by simp, ?_⟩
    intro u hu
    rw [List.mem_singleton] at hu
    exact ⟨q, hu, le_rfl, le_rfl⟩
  | v :: w :: l, _, h => by
    obtain ⟨q, rfl, _⟩ := h v (by simp)
    obtain ⟨lo, hi, h1, h2, h3⟩ := extremes (w :: l) (by simp) (fun u hu => h u (List.mem_cons_of_mem _ hu))
    refine ⟨min q lo, max q hi, ?_, ?_, ?_⟩
    · rcases min_choice q lo with e | e <;> rw [e]
      · exact List.mem_cons_self
      · exact List.mem_cons_of_mem _ h1
    · rcases max_choice q hi with e | e <;> rw [e]
      · exact List.mem_cons_self
      · exact List.mem_cons_of_mem _ h2
    · intro u hu
      rcases List.mem_cons.1 hu with rfl | hu
      · exact ⟨q, rfl, min_le_left _ _, le_max_left _ _⟩
      · obtain ⟨r, e, a, b⟩ := h3 u hu
        exact ⟨r, e, (min_le_right _ _).trans a, b.trans (le_max_right _ _)⟩

/-! ## The theorems -/

/-- The samples of the search are those of a time series of type `float`, and the search has the size of real ones. -/
structure SearchSize (s : NSearchArgs) (idx : IdxRule) (n : ℕ) : Prop where
  idx : IdxFor idx (n / s.binsMin)
  size : n ≤ 2 ^ 25
  rows : n / s.binsMin ≤ 2 ^ 23
  bins : s.binsMax ≤ 2 ^ 24
  pmax : s.periodMax ≤ 2 ^ 62 * s.tsamp
  ducy : s.ducyMax < 1

theorem binding_bmin {A : DArith} {V : Type*} [Inhabited V] {O : VOps V} {idx : IdxRule} {data : List V} {tsamp : ℚ} {widths : List ℕ} {pmin pmax : ℚ} {bmin bmax : ℕ}
    {r : List ℚ × List ℕ × List (List V)} (h : A.binding O idx data tsamp widths pmin pmax bmin bmax = .ok r) : 1 < bmin := by
  unfold DArith.binding at h
  simp only at h
  obtain ⟨l, h1, _⟩ := bind_ok_inv h
  unfold DArith.length at h1
  split_ifs at h1 with hv
  exact hv.2.2.2.1

/-- **C132.** A search of samples that are already normalised, of at most 2²⁵: every S/N value is a finite number. -/
theorem C132_normalised {N : NArith} {A : DArith} (hN : Ieee N A) (hA : Sane A) (hG : Grid A) {idx : IdxRule} {s : NSearchArgs} {x : List FVal} (hs : SearchSize s idx x.length)
    (hnorm : s.alreadyNormalised = true) (hder : s.deredden = false) (hx : ∀ v ∈ x, SampleWithin (2 ^ 25) v)
    {per : List ℚ} {fb : List ℕ} {snr : List (List FVal)} (h : N.ffaSearch A idx s x = .ok (per, fb, snr)) :
    ∀ row ∈ snr, row.length = s.widths.length ∧ ∀ v ∈ row, IsNumber v := by
  unfold NArith.ffaSearch NArith.prepare at h
  rw [hder, hnorm] at h
  simp only [Bool.false_eq_true, if_false, if_true, Except.bind] at h
  have hb := binding_bmin h
  refine bounded_search hN hA hG idx x s.tsamp s.widths (nWidths_ne s) s.periodMin s.periodMax s.binsMin s.binsMax hs.idx hs.size hs.rows hs.bins hs.pmax
    (C24_widths_valid s.binsMin hb s.ducyMax s.wtsp hs.ducy s.binsMin le_rfl) ?_ h
  intro v hv
  obtain ⟨q, e, _, hq⟩ := hx v hv
  exact ⟨q, e, hq⟩

/-- **C132.** A search of finite samples, of at most 2¹⁰⁰, with normalisation: if the data that are normalised are not constant, every S/N value is a finite number. Sums over the data, the
squares, the sums of rows of the transform, none of them overflows, and none of the divisors vanishes. -/
theorem C132_search {N : NArith} {A : DArith} (hN : Ieee N A) (hadd : AddsAll N) (hint : InterpBounded N) (hA : Sane A) (hG : Grid A) {idx : IdxRule} {s : NSearchArgs} {x : List FVal}
    (hs : SearchSize s idx x.length) (hnorm : s.alreadyNormalised = false) (hx : ∀ v ∈ x, SampleWithin (2 ^ 100) v)
    (hvar : ∀ z, (if s.deredden then N.deredden x s.rmedSamples s.rmedMinpts else .ok x) = .ok z → ∃ a b, FVal.fin a ∈ z ∧ FVal.fin b ∈ z ∧ a + 1 / 2 ^ 100 ≤ b)
    {per : List ℚ} {fb : List ℕ} {snr : List (List FVal)} (h : N.ffaSearch A idx s x = .ok (per, fb, snr)) :
    ∀ row ∈ snr, row.length = s.widths.length ∧ ∀ v ∈ row, IsNumber v := by
  obtain ⟨y, hy, h⟩ := bind_ok_inv h
  have hylen : y.length = x.length := by
    rcases prepare_len N s x with h' | h'
    · obtain ⟨z, e, hl⟩ := h' x rfl
      rw [hy] at e
      rw [Except.ok.inj e, hl]
    · rw [h' x rfl] at hy
      exact nomatch hy
  obtain ⟨z, hz, hy⟩ := bind_ok_inv hy
  obtain ⟨a, b, ha, hb', hab⟩ := hvar z hz
  rw [hnorm] at hy
  simp only [Bool.false_eq_true, if_false, Except.ok.injEq] at hy
  subst hy
  have hzlen : z.length = x.length := by simpa [NArith.normalise] using hylen
  have hzs : ∀ v ∈ z, SampleWithin (2 ^ (102 : ℤ)) v := by
    split_ifs at hz with hd
    · refine deredden_bnd hN hadd hint hs.size ?_ hz
      intro v hv
      obtain ⟨q, e, _, hq⟩ := hx v hv
      exact ⟨q, e, hq.trans (by norm_num)⟩
    · obtain rfl := Except.ok.inj hz
      intro v hv
      obtain ⟨q, e, hq1, hq⟩ := hx v hv
      exact ⟨q, e, hq1, hq.trans (by norm_num)⟩
  obtain ⟨lo, hi, h1, h2, hw⟩ := extremes z (List.ne_nil_of_mem ha) hzs
  obtain ⟨lo', e1, l1, l2⟩ := hzs _ h1
  obtain ⟨hi', e2, u1, u2⟩ := hzs _ h2
  obtain rfl : lo = lo' := by injection e1
  obtain rfl : hi = hi' := by injection e2
  obtain ⟨a', ea, a1, a2⟩ := hw _ ha
  obtain ⟨b', eb, b1, b2⟩ := hw _ hb'
  obtain rfl : a = a' := by injection ea
  obtain rfl : b = b' := by injection eb
  have hnb := normalise_bnd hN hadd (by rw [hzlen]; exact hs.size) h1 h2 hw l1 u1 (c := 102) (by omega) (abs_le.mp l2).1 (abs_le.mp u2).2 (by linarith)
  have hb := binding_bmin h
  exact bounded_search hN hA hG idx _ s.tsamp s.widths (nWidths_ne s) s.periodMin s.periodMax s.binsMin s.binsMax (by rw [hylen]; exact hs.idx) (by rw [hylen]; exact hs.size)
    (by rw [hylen]; exact hs.rows) hs.bins hs.pmax (C24_widths_valid s.binsMin hb s.ducyMax s.wtsp hs.ducy s.binsMin le_rfl) hnb h

/-- **C132.** The exception: if the data that are normalised are constant, they are divided by zero, and every S/N value is NaN. -/
theorem C132_constant {N : NArith} {A : DArith} (hN : Ieee N A) (hadd : AddsAll N) (hA : Sane A) {idx : IdxRule} {s : NSearchArgs} {x : List FVal}
    (hs : SearchSize s idx x.length) (hnorm : s.alreadyNormalised = false) {c : ℚ} (hc : binary32.Has c)
    (hconst : ∀ z, (if s.deredden then N.deredden x s.rmedSamples s.rmedMinpts else .ok x) = .ok z → ∀ v ∈ z, v = .fin c)
    {per : List ℚ} {fb : List ℕ} {snr : List (List FVal)} (h : N.ffaSearch A idx s x = .ok (per, fb, snr)) :
    ∀ row ∈ snr, row = List.replicate s.widths.length .nan := by
  obtain ⟨y, hy, -⟩ := bind_ok_inv h
  have hylen : y.length = x.length := by
    rcases prepare_len N s x with h' | h'
    · obtain ⟨z, e, hl⟩ := h' x rfl
      rw [hy] at e
      rw [Except.ok.inj e, hl]
    · rw [h' x rfl] at hy
      exact nomatch hy
  obtain ⟨z, hz, hy'⟩ := bind_ok_inv hy
  rw [hnorm] at hy'
  simp only [Bool.false_eq_true, if_false, Except.ok.injEq] at hy'
  have hzlen : z.length = x.length := by rw [← hy'] at hylen; simpa [NArith.normalise] using hylen
  have hsz := hs.size
  have hbz := hs.bins
  refine (search_all_nan N A hA idx s x hs.idx (by omega) (by omega) hs.pmax hy ?_ per fb snr h).1
  rw [← hy', normalise_constant hN hadd (by omega) hc (hconst z hz), hzlen]

/-- **C132**, from the file to the periodogram: a file with numbers of any type, none of them larger than 2¹⁰⁰ and two of them single precision
numbers that differ by 2⁻¹⁰⁰ or more, is searched without overflow. -/
theorem C132_file {N : NArith} {A : DArith} (hN : Ieee N A) (hadd : AddsAll N) (hint : InterpBounded N) (hA : Sane A) (hG : Grid A) {idx : IdxRule} {s : NSearchArgs}
    {t : SampleType} (ht : TypeOK t) {tail : List UInt8} (htail : tail.length < t.size) {l : List ℚ} (hl : ∀ q ∈ l, SampleHas t q ∧ |q| ≤ 2 ^ 100) (hs : SearchSize s idx l.length)
    (hnorm : s.alreadyNormalised = false) (hder : s.deredden = false) {a b : ℚ} (ha : binary32.Has a ∧ a ∈ l) (hb : binary32.Has b ∧ b ∈ l) (hab : a + 1 / 2 ^ 100 ≤ b) (tsamp : PyFloat) :
    ∃ ts, fromBinary (some (storeSamples t l ++ tail)) tsamp t = .ok ts ∧
      ∀ per fb snr, N.ffaSearch A idx s (ts.data.map sampleVal) = .ok (per, fb, snr) → ∀ row ∈ snr, row.length = s.widths.length ∧ ∀ v ∈ row, IsNumber v := by
  obtain ⟨ts, e, h1, _⟩ := C131_binary ht htail (fun q hq => (hl q hq).1) tsamp
  refine ⟨ts, e, ?_⟩
  have hlen := h1.length_eq
  have hmem : ∀ q ∈ l, binary32.Has q → PyFloat.fin q ∈ ts.data := by
    intro q hq hh
    obtain ⟨i, hi, rfl⟩ := List.getElem_of_mem hq
    have h2 := (List.forall₂_iff_get.1 h1).2 i hi (by omega)
    have h3 := C131_kept binary32_ok hh
    have h4 := roundTo_spec binary32_ok l[i]
    rw [h3] at h4
    have := C131_unique h4 h2
    rw [this]
    exact List.get_mem _ _
  intro per fb snr h
  refine C132_search hN hadd hint hA hG (by rw [List.length_map, ← hlen]; exact hs) hnorm ?_ ?_ h
  · intro v hv
    obtain ⟨y, hy, rfl⟩ := List.mem_map.1 hv
    obtain ⟨i, hi, rfl⟩ := List.getElem_of_mem hy
    have h2 := (List.forall₂_iff_get.1 h1).2 i (by omega) hi
    have hq := (hl (l.get ⟨i, by omega⟩) (List.get_mem _ _)).2
    generalize l.get ⟨i, by omega⟩ = q at h2 hq
    change RoundsTo binary32 q ts.data[i] at h2
    have hp := pow32 (k := 100) (by omega) (by omega)
    rw [show (2 : ℚ) ^ (100 : ℤ) = 2 ^ 100 by norm_num] at hp
    generalize ts.data[i] = y at h2
    cases y with
    | fin r =>
      refine ⟨r, rfl, h2.2.has, ?_⟩
      have k1 := C131_order h2 (q' := 2 ^ 100) (r' := 2 ^ 100) (by have := roundTo_spec binary32_ok (2 ^ 100 : ℚ); rwa [C131_kept binary32_ok hp] at this) (abs_le.mp hq).2
      have k2 := C131_order (q := -2 ^ 100) (r := -2 ^ 100) (by have := roundTo_spec binary32_ok (-2 ^ 100 : ℚ); rwa [C131_kept binary32_ok (has_neg hp)] at this) h2 (abs_le.mp hq).1
      exact abs_le.mpr ⟨k2, k1⟩
    | inf neg =>
      have := has_below hp
      rw [abs_of_nonneg (by positivity)] at this
      exact absurd h2.1 (by linarith)
    | nan => exact h2.elim
  · intro z hz
    rw [hder] at hz
    obtain rfl := Except.ok.inj hz
    exact ⟨a, b, List.mem_map.2 ⟨_, hmem a ha.2 ha.1, rfl⟩, List.mem_map.2 ⟨_, hmem b hb.2 hb.1, rfl⟩, hab⟩

/-- **C132.** One number in the file that is too large for single precision, however many others there are: every S/N value is NaN, and there is no exception. -/
theorem C132_too_large {N : NArith} {A : DArith} (hadd : AddsAll N) (hA : Sane A) {idx : IdxRule} {s : NSearchArgs}
    {t : SampleType} (ht : TypeOK t) {tail : List UInt8} (htail : tail.length < t.size) {l : List ℚ} (hl : ∀ q ∈ l, SampleHas t q) (hs : SearchSize s idx l.length)
    (hnorm : s.alreadyNormalised = false) {a : ℚ} (ha : a ∈ l) (hbig : binary32.overflow ≤ |a|) (tsamp : PyFloat) :
    ∃ ts, fromBinary (some (storeSamples t l ++ tail)) tsamp t = .ok ts ∧
      ∀ per fb snr, N.ffaSearch A idx s (ts.data.map sampleVal) = .ok (per, fb, snr) → ∀ row ∈ snr, row = List.replicate s.widths.length .nan := by
  obtain ⟨ts, e, h1, _⟩ := C131_binary ht htail hl tsamp
  refine ⟨ts, e, ?_⟩
  have hlen := h1.length_eq
  have hsz := hs.size
  have hbz := hs.bins
  intro per fb snr h
  refine (C112_search N hadd A hA idx s _ (by rw [List.length_map, ← hlen]; exact hs.idx) (by rw [List.length_map]; omega) (by omega) hs.pmax hnorm ?_ per fb snr h).1
  obtain ⟨i, hi, rfl⟩ := List.getElem_of_mem ha
  have h2 := (List.forall₂_iff_get.1 h1).2 i hi (by omega)
  change RoundsTo binary32 l[i] (ts.data[i]'(by omega)) at h2
  refine ⟨_, List.mem_map.2 ⟨_, List.getElem_mem (by omega : i < ts.data.length), rfl⟩, ?_⟩
  generalize (ts.data[i]'(by omega)) = y at h2
  cases y with
  | fin r => exact absurd h2.1 (by linarith)
  | inf neg => rintro ⟨q, hq⟩; exact nomatch hq
  | nan => exact h2.elim

/-- `numpy.interp` between equal values gives this value. -/
def InterpConstant (N : NArith) : Prop := ∀ (l : List FVal) (s i : ℕ) (q : ℚ), l ≠ [] → (∀ v ∈ l, v = .fin q) → N.interp l s i = .fin q

theorem tree_congr (r : ℚ → FVal) {x y : ℕ → FVal} : ∀ t : SumTree, (∀ i ∈ t.leaves, x i = y i) → t.sum r x = t.sum r y
  | .leaf i, h => h i List.mem_cons_self
  | .node a b, h => by
    rw [SumTree.sum, SumTree.sum, tree_congr r a (fun i hi => h i (List.mem_append_left _ hi)), tree_congr r b (fun i hi => h i (List.mem_append_right _ hi))]

theorem median_constant {N : NArith} {x out : List FVal} {w : ℕ} {c : FVal} (h : N.runningMedian x w = .ok out) (hx : ∀ v ∈ x, v = c) : out ≠ [] ∧ out.length = x.length ∧ ∀ v ∈ out, v = c := by
  by_cases hw : w % 2 = 0 ∨ x.length ≤ w
  · rw [runningMedian_err N x w (by omega)] at h
    exact nomatch h
  · obtain ⟨out', e, hl, hm⟩ := runningMedian_fval N x w (by omega) (by omega)
    rw [h] at e
    obtain rfl := Except.ok.inj e
    refine ⟨by rw [← List.length_pos_iff]; omega, hl, ?_⟩
    intro v hv
    obtain ⟨i, hi, rfl⟩ := List.getElem_of_mem hv
    have := (hm i hi).1
    obtain ⟨k, -, e⟩ := List.mem_map.1 this
    rw [← e]
    have hlt : min (i + k - w / 2) (x.length - 1) < x.length := by omega
    apply hx
    rw [List.getD, List.getElem?_eq_getElem hlt]
    exact List.getElem_mem hlt

/-- Constant samples are constant after `deredden`. -/
theorem deredden_constant {N : NArith} {A : DArith} (hN : Ieee N A) (hadd : AddsAll N) (hint : InterpBounded N) (hcon : InterpConstant N) {x z : List FVal} {width minpts : ℕ}
    (hn25 : x.length ≤ 2 ^ 25) {c : ℚ} (hc : |c| ≤ 2 ^ 100) (hx : ∀ v ∈ x, v = .fin c) (h : N.deredden x width minpts = .ok z) :
    z.length = x.length ∧ ∃ d, binary32.Has d ∧ ∀ v ∈ z, v = .fin d := by
  have hxb : ∀ v ∈ x, Bnd (2 ^ (100 : ℤ)) v := fun v hv => ⟨c, hx v hv, hc.trans (by norm_num)⟩
  have hb := deredden_bnd hN hadd hint hn25 hxb h
  obtain ⟨rmed, h1, h2⟩ := bind_ok_inv h
  have hr : rmed.length = x.length ∧ ∃ q, ∀ v ∈ rmed, v = .fin q := by
    unfold NArith.fastRunningMedian at h1
    split_ifs at h1 with hm
    simp only at h1
    split_ifs at h1 with hs
    · obtain ⟨_, h3, h4⟩ := median_constant h1 hx
      exact ⟨h3, c, h4⟩
    · obtain ⟨lo, h3, h4⟩ := bind_ok_inv h1
      obtain rfl := Except.ok.inj h4
      have hf1 : 1 < max 1 (width / minpts) := by omega
      have hlen : minpts < (N.scrunch x (max 1 (width / minpts))).length := by
        by_contra hc
        rw [runningMedian_err N _ minpts (Or.inr (by omega))] at h3
        exact nomatch h3
      have hf2 : max 1 (width / minpts) ≤ 2 ^ 24 := by
        simp only [NArith.scrunch, List.length_map, List.length_range] at hlen
        have h5 : 2 ≤ x.length / max 1 (width / minpts) := by omega
        rw [Nat.le_div_iff_mul_le (by omega)] at h5
        omega
      have hsb := scrunch_bnd hN hadd (by omega) hf2 hxb
      generalize max 1 (width / minpts) = f at *
      have hsc : ∀ v ∈ N.scrunch x f, v = FVal.div N.single ((N.tree f).sum N.single (fun _ => .fin c)) (.fin f) := by
        intro v hv
        obtain ⟨i, hi, rfl⟩ := List.mem_map.1 hv
        rw [List.mem_range] at hi
        congr 1
        refine tree_congr _ _ fun k hk => ?_
        have hk := List.mem_range.1 ((hadd _ (by omega)).mem_iff.1 hk)
        have hlt : i * f + k < x.length := by
          have : (i + 1) * f ≤ x.length / f * f := Nat.mul_le_mul_right _ hi
          have := Nat.div_mul_le_self x.length f
          linarith
        apply hx
        rw [List.getD, List.getElem?_eq_getElem hlt]
        exact List.getElem_mem hlt
      obtain ⟨v0, hv0⟩ := List.exists_mem_of_length_pos (l := N.scrunch x f) (by omega)
      obtain ⟨q, e, -⟩ := hsb v0 hv0
      rw [hsc v0 hv0] at e
      rw [e] at hsc
      obtain ⟨g1, -, g3⟩ := median_constant h3 hsc
      refine ⟨by rw [List.length_map, List.length_range], q, ?_⟩
      intro v hv
      obtain ⟨i, -, rfl⟩ := List.mem_map.1 hv
      exact hcon lo f i q g1 g3
  obtain ⟨hrl, q, hq⟩ := hr
  obtain rfl := Except.ok.inj h2
  have hz : ∀ v ∈ List.zipWith (fun a b => FVal.cast N.single (FVal.sub N.work a b)) x rmed, v = FVal.cast N.single (FVal.sub N.work (.fin c) (.fin q)) := by
    intro v hv
    obtain ⟨i, hi, rfl⟩ := List.getElem_of_mem hv
    rw [List.length_zipWith] at hi
    rw [List.getElem_zipWith, hx _ (List.getElem_mem (by omega)), hq _ (List.getElem_mem (by omega))]
  refine ⟨by rw [List.length_zipWith, hrl, min_self], ?_⟩
  rcases Nat.eq_zero_or_pos x.length with h0 | h0
  · refine ⟨0, by simpa using has32 (j := 0) (k := 0) (by omega) (by omega) (by omega), ?_⟩
    intro v hv
    obtain ⟨i, hi, -⟩ := List.getElem_of_mem hv
    rw [List.length_zipWith] at hi
    omega
  · obtain ⟨v0, hv0⟩ := List.exists_mem_of_length_pos (l := List.zipWith (fun a b => FVal.cast N.single (FVal.sub N.work a b)) x rmed) (by rw [List.length_zipWith]; omega)
    obtain ⟨d, e, hd, -⟩ := hb v0 hv0
    rw [hz v0 hv0] at e
    rw [e] at hz
    exact ⟨d, hd, hz⟩

/-- **C132.** Constant samples, whatever the other arguments: every S/N value is NaN, with and without `deredden`. -/
theorem C132_constant_samples {N : NArith} {A : DArith} (hN : Ieee N A) (hadd : AddsAll N) (hint : InterpBounded N) (hcon : InterpConstant N) (hA : Sane A) {idx : IdxRule} {s : NSearchArgs}
    {x : List FVal} (hs : SearchSize s idx x.length) (hnorm : s.alreadyNormalised = false) {c : ℚ} (hc : SampleWithin (2 ^ 100) (.fin c)) (hx : ∀ v ∈ x, v = .fin c)
    {per : List ℚ} {fb : List ℕ} {snr : List (List FVal)} (h : N.ffaSearch A idx s x = .ok (per, fb, snr)) : ∀ row ∈ snr, row = List.replicate s.widths.length .nan := by
  obtain ⟨_, e, hc1, hc2⟩ := hc
  obtain rfl := FVal.fin.inj e
  have hsz := hs.size
  cases hd : s.deredden with
  | false =>
    refine C132_constant hN hadd hA hs hnorm hc1 (fun z hz => ?_) h
    rw [hd] at hz
    obtain rfl := Except.ok.inj hz
    exact hx
  | true =>
    obtain ⟨y, hy, -⟩ := bind_ok_inv h
    obtain ⟨z, hz, -⟩ := bind_ok_inv hy
    rw [if_pos hd] at hz
    obtain ⟨-, d, hd1, hd2⟩ := deredden_constant hN hadd hint hcon (by omega) hc2 hx hz
    refine C132_constant hN hadd hA hs hnorm hd1 (fun z' hz' => ?_) h
    rw [if_pos hd, hz] at hz'
    obtain rfl := Except.ok.inj hz'
    exact hd2

/-- **C132.** Widths as large as the profile: with `ducy_max` of 1 or more a search can try a width equal to the number of bins of a fold. The baseline is divided by zero, and the S/N value is NaN,
whatever the data. -/
theorem C132_full_width {N : NArith} {A : DArith} (hN : Ieee N A) (hA : Sane A) {idx : IdxRule} {data : List FVal} {tsamp : ℚ} {widths : List ℕ} (hne : widths ≠ []) {pmin pmax : ℚ} {bmin bmax : ℕ}
    (hidx : IdxFor idx (data.length / bmin)) (hsize : data.length ≤ 2 ^ 50) (hbins : bmax ≤ 2 ^ 24) (hpmax : pmax ≤ 2 ^ 62 * tsamp)
    {per : List ℚ} {fb : List ℕ} {snr : List (List FVal)} (h : A.binding N.ops idx data tsamp widths pmin pmax bmin bmax = .ok (per, fb, snr))
    {j k b : ℕ} {row : List FVal} (hj : fb[j]? = some b) (hrow : snr[j]? = some row) (hk : widths[k]? = some b) : row[k]? = some .nan := by
  rcases binding_cases hA N.ops idx data.length tsamp widths hne pmin pmax bmin bmax hidx (by omega) (by omega) hpmax with h' | ⟨hr, h'⟩
  · rw [h' data rfl] at h
    exact nomatch h
  set a : DArgs := ⟨data.length, tsamp, pmin, pmax, bmin, bmax⟩ with ha
  rw [h' data rfl] at h
  simp only [Except.ok.injEq, Prod.mk.injEq] at h
  obtain ⟨-, rfl, rfl⟩ := h
  rw [List.getElem?_map] at hj hrow
  obtain ⟨t, ht, e1⟩ := Option.map_eq_some_iff.1 hj
  rw [ht] at hrow
  obtain rfl := Option.some.inj hrow
  obtain ⟨h1, h2, h3, h4, h5⟩ := trial_rows (List.mem_of_getElem? ht)
  have hb2 : 1 < bmin := hr.valid.2.2.2.1
  have h2' : bmin ≤ t.2.1 := h2
  have hb24 : t.2.1 ≤ 2 ^ 24 := (h3.trans ((min_le_left _ _).trans (min_le_left _ _))).trans hbins
  obtain rfl : t.2.1 = b := by rw [← e1]; exact (Nat.mod_eq_of_lt (by omega)).symm
  obtain ⟨hkl, hkb⟩ := List.getElem?_eq_some_iff.1 hk
  rw [List.getElem?_map, List.getElem?_eq_getElem (by simpa using hkl), Option.map_some, List.getElem_range]
  congr 1
  unfold dSnr
  show (N.snr1 t.2.1 _ (N.std _ a.size (A.f a t.1)) widths).getD k default = .nan
  rw [NArith.snr1, List.getD, List.getElem?_map, hk, Option.map_some, Option.getD_some]
  simp only [NArith.snrWidth, Nat.sub_self]
  have z32 : N.single 0 = .fin 0 := by
    obtain ⟨v, e, hv⟩ := hN.single 0 (by rw [abs_zero]; norm_num [FloatFormat.overflow, binary32, FloatFormat.emin])
    have := hv.nearest 0 ⟨0, 0, by norm_num [binary32], by norm_num [binary32, FloatFormat.emin], by norm_num [binary32, FloatFormat.emin], by norm_num⟩
    rw [sub_zero, abs_zero, zero_sub, abs_neg] at this
    rw [e, abs_nonpos_iff.1 this]
  have hsq : N.sqrt 0 = .fin 0 := by
    obtain ⟨v, e, _, hv⟩ := hN.sqrt 0 le_rfl (by positivity)
    rw [zero_div, sub_zero, abs_nonpos_iff] at hv
    rw [e, pow_eq_zero_iff (by norm_num)] at *
    rw [hv]
  have hn0 : ((t.2.1 : ℕ) : ℚ) ≠ 0 := by
    have : t.2.1 ≠ 0 := by omega
    exact_mod_cast this
  have ed : FVal.div N.single (.fin (t.2.1 : ℕ)) (FVal.cast N.single (.fin ((0 : ℕ) : ℚ))) = .inf false := by
    rw [Nat.cast_zero]
    show FVal.div N.single (.fin (t.2.1 : ℕ)) (N.single 0) = _
    rw [z32]
    simp [FVal.div, hn0]
  have eh : FVal.cast N.single (FVal.sqrt N.sqrt (FVal.div N.single (.fin ((0 : ℕ) : ℚ)) (FVal.cast N.single (.fin (t.2.1 * t.2.1 : ℕ))))) = .fin 0 := by
    have hden : ∃ d, FVal.cast N.single (.fin ((t.2.1 * t.2.1 : ℕ) : ℚ)) = .fin d ∧ (1 : ℚ) ≤ d := by
      have h48 : ((t.2.1 * t.2.1 : ℕ) : ℚ) ≤ 2 ^ (48 : ℤ) := by
        have : t.2.1 * t.2.1 ≤ 2 ^ 24 * 2 ^ 24 := Nat.mul_le_mul hb24 hb24
        have : ((t.2.1 * t.2.1 : ℕ) : ℚ) ≤ ((2 ^ 24 * 2 ^ 24 : ℕ) : ℚ) := by exact_mod_cast this
        exact this.trans (by norm_num)
      have h1' : (1 : ℚ) ≤ ((t.2.1 * t.2.1 : ℕ) : ℚ) := by
        have : 1 ≤ t.2.1 * t.2.1 := Nat.mul_pos (by omega) (by omega)
        exact_mod_cast this
      have h1 : binary32.Has (1 : ℚ) := by simpa using has32 (j := 1) (k := 0) (by norm_num) (by norm_num) (by norm_num)
      obtain ⟨d, e, -, h, -⟩ := rounds_between hN.single h1 (pow32 (k := 48) (by norm_num) (by norm_num)) h1' h48
      exact ⟨d, e, h⟩
    obtain ⟨d, e, hd⟩ := hden
    rw [e, Nat.cast_zero]
    have hd0 : d ≠ 0 := by linarith
    have e2 : FVal.div N.single (.fin 0) (.fin d) = N.single (0 / d) := by simp [FVal.div, hd0]
    rw [e2, zero_div, z32]
    show FVal.cast N.single (if (0 : ℚ) < 0 then FVal.nan else N.sqrt 0) = _
    rw [if_neg (lt_irrefl _), hsq]
    exact z32
  rw [ed, eh]
  show FVal.div N.single (FVal.sub N.single (FVal.mul N.prod (FVal.add N.single (.fin 0) (FVal.mul N.single (.inf false) (.fin 0))) _) _) _ = .nan
  have e0 : FVal.mul N.single (.inf false) (.fin 0) = .nan := by simp [FVal.mul]
  rw [e0, FV.add_nan_right, FV.mul_nan_left]
  have : ∀ y, FVal.sub N.single .nan y = .nan := fun y => FV.sub_nan_left ..
  rw [this, FV.div_nan_left]

/-! ## Examples -/

/-- A square root that is accurate to about 2⁻²¹. -/
def ratSqrt (q : ℚ) : ℚ := (Nat.sqrt (q.num.toNat * q.den * 2 ^ 44) : ℚ) / (q.den * 2 ^ 22)

theorem ratSqrt_spec {q : ℚ} (hq : 0 ≤ q) : 0 ≤ ratSqrt q ∧ |ratSqrt q ^ 2 - q| ≤ q / 2 ^ 20 := by
  have hd : (0 : ℚ) < q.den := by exact_mod_cast q.den_pos
  have hn : q = (q.num.toNat : ℚ) / q.den := by
    conv_lhs => rw [← Rat.num_div_den q]
    congr 1
    have : ((q.num.toNat : ℤ)) = q.num := Int.toNat_of_nonneg (Rat.num_nonneg.mpr hq)
    exact_mod_cast this.symm
  refine ⟨by unfold ratSqrt; positivity, ?_⟩
  unfold ratSqrt
  generalize q.num.toNat = a at hn ⊢
  have hd1 : (1 : ℚ) ≤ q.den := by exact_mod_cast q.den_pos
  generalize q.den = d at hn hd hd1 ⊢
  obtain h0 | h0 := Nat.eq_zero_or_pos a
  · subst h0
    rw [hn]
    simp
  have ha : (1 : ℚ) ≤ a := by exact_mod_cast h0
  have h1 := Nat.sqrt_le' (a * d * 2 ^ 44)
  have h2 := Nat.lt_succ_sqrt' (a * d * 2 ^ 44)
  have h3 : (Nat.sqrt (a * d * 2 ^ 44) : ℚ) ≤ a * d * 2 ^ 22 := by
    have : Nat.sqrt (a * d * 2 ^ 44) ≤ a * d * 2 ^ 22 := by
      rw [show a * d * 2 ^ 44 = (a * d) * (2 ^ 22) ^ 2 by ring]
      refine (Nat.sqrt_le_sqrt (?_ : _ ≤ (a * d * 2 ^ 22) ^ 2)).trans (Nat.sqrt_eq' _).le
      rw [mul_pow]
      exact Nat.mul_le_mul_right _ (Nat.le_self_pow (by norm_num) _)
    exact_mod_cast this
  have hs : (1 : ℚ) ≤ Nat.sqrt (a * d * 2 ^ 44) := by
    have hd' : 0 < d := by exact_mod_cast hd
    have : 0 < Nat.sqrt (a * d * 2 ^ 44) := Nat.sqrt_pos.mpr (by positivity)
    exact_mod_cast this
  generalize Nat.sqrt (a * d * 2 ^ 44) = s at h1 h2 h3 hs ⊢
  have h1' : (s : ℚ) ^ 2 ≤ a * d * 2 ^ 44 := by exact_mod_cast h1
  have h2' : (a : ℚ) * d * 2 ^ 44 < (s + 1) ^ 2 := by exact_mod_cast h2
  have e1 : ((s : ℚ) / (d * 2 ^ 22)) ^ 2 - q = -((a * d * 2 ^ 44 - s ^ 2) / (d ^ 2 * 2 ^ 44)) := by rw [hn]; field_simp; ring
  rw [e1, abs_neg, abs_of_nonneg (by apply div_nonneg <;> [linarith; positivity]), hn, div_le_iff₀ (by positivity)]
  have e2 : (a : ℚ) / d / 2 ^ 20 * (d ^ 2 * 2 ^ 44) = a * d * 2 ^ 24 := by field_simp
  rw [e2]
  nlinarith

/-- IEEE 754 with round to nearest, ties to even, overflow and subnormal numbers; operations on arrays in double precision. -/
noncomputable def ieeeArith (A : DArith) : NArith where
  single := fun q => sampleVal (roundTo binary32 q)
  double := fun q => sampleVal (roundTo binary64 q)
  work := fun q => sampleVal (roundTo binary64 q)
  prod := fun q => sampleVal (roundTo binary32 q)
  sqrt := fun q => .fin (ratSqrt q)
  std := fun rows size f => .fin (ratSqrt (rows * A.variance ⌊A.fl (A.fl size / f)⌋₊ f))
  lt := FVal.lt
  tree := fun n => plainTree (n - 1)
  interp := fun l _ i => l.getD (min i (l.length - 1)) default

theorem roundTo_nearest {f : FloatFormat} (hf : FormatOK f) : RoundsNearest f (fun q => sampleVal (roundTo f q)) := by
  intro q hq
  have h := roundTo_spec hf q
  show ∃ v, sampleVal (roundTo f q) = .fin v ∧ _
  generalize roundTo f q = y at h
  cases y with
  | fin r => exact ⟨r, rfl, h.2⟩
  | inf neg => exact absurd h.1 (by linarith)
  | nan => exact h.elim

theorem ieeeArith_ok (A : DArith) : Ieee (ieeeArith A) A where
  single := roundTo_nearest binary32_ok
  double := roundTo_nearest binary64_ok
  work := Or.inr (roundTo_nearest binary64_ok)
  prod := fun _ => Or.inl rfl
  sqrt := fun q h _ => ⟨_, rfl, ratSqrt_spec h⟩
  std := by
    intro rows size f V _ _ _ _ hV e
    refine ⟨_, rfl, ?_⟩
    rw [← e]
    exact ratSqrt_spec hV

theorem ieeeArith_adds (A : DArith) : AddsAll (ieeeArith A) := by
  intro n hn
  show (plainTree (n - 1)).leaves.Perm _
  rw [plainTree_leaves, Nat.sub_add_cancel hn]

theorem ieeeArith_interp (A : DArith) : InterpBounded (ieeeArith A) := by
  intro l s i c _ hne hl
  have hlt : min i (l.length - 1) < l.length := by
    have := List.length_pos_of_ne_nil hne
    omega
  obtain ⟨q, e, hq⟩ := hl _ (List.getElem_mem hlt)
  refine ⟨q, ?_, ?_⟩
  · show l.getD _ _ = _
    rw [List.getD, List.getElem?_eq_getElem hlt, Option.getD_some, e]
  · have := abs_nonneg q
    linarith

/-- A search from 32 to 40 samples with 32 to 39 bins. -/
def someSearch (deredden normalised : Bool) : NSearchArgs := ⟨1, 32, 40, 32, 39, 1 / 5, 3 / 2, deredden, 101, 51, normalised⟩

theorem ieeeArith_const (A : DArith) : InterpConstant (ieeeArith A) := by
  intro l s i q hl h
  have hpos := List.length_pos_iff.2 hl
  have hlt : min i (l.length - 1) < l.length := by omega
  show l.getD (min i (l.length - 1)) default = _
  rw [List.getD, List.getElem?_eq_getElem hlt]
  exact h _ (List.getElem_mem hlt)

theorem someSearch_size (d n : Bool) : SearchSize (someSearch d n) float32Idx 1000 where
  idx := Or.inr ⟨Or.inl rfl, by norm_num [someSearch]⟩
  size := by norm_num
  rows := by norm_num [someSearch]
  bins := by norm_num [someSearch]
  pmax := by norm_num [someSearch]
  ducy := by norm_num [someSearch]

theorem someSearch_ok (d n : Bool) {N : NArith} {A : DArith} (hA : Sane A) {x y : List FVal} (hx : x.length = 1000) (hp : N.prepare (someSearch d n) x = .ok y) :
    ∃ per fb snr, N.ffaSearch A float32Idx (someSearch d n) x = .ok (per, fb, snr) ∧ snr ≠ [] := by
  have hl : y.length = 1000 := by
    rcases prepare_len N (someSearch d n) x with h' | h'
    · obtain ⟨z, e, hl⟩ := h' x rfl
      rw [hp] at e
      rw [Except.ok.inj e, hl, hx]
    · rw [h' x rfl] at hp
      exact nomatch hp
  have e32 : A.fl (1 * ((32 : ℕ) : ℚ)) ≤ 32 := by
    rw [one_mul, hA.nat 32 (by norm_num)]
    norm_num
  obtain ⟨per, fb, snr, h, _, h2, h3⟩ := C114_no_holes A hA N.ops float32Idx y 1 (someSearch d n).widths (nWidths_ne _) 32 40 32 39 (by rw [hl]; exact Or.inr ⟨Or.inl rfl, by norm_num⟩)
    (by rw [hl]; norm_num) (by norm_num) (by norm_num) (by norm_num) (by norm_num) (by norm_num) (by norm_num) e32 (by rw [hl]; norm_num)
  refine ⟨per, fb, snr, ?_, ?_⟩
  · unfold NArith.ffaSearch
    rw [hp]
    exact h
  · obtain ⟨j, p, t, h4, _⟩ := h3 36 (by norm_num) (by norm_num)
    rintro rfl
    rw [List.eq_nil_of_length_eq_zero h2.symm] at h4
    simp at h4

theorem has_natural {j : ℕ} (hj : j ≤ 2 ^ 24) : binary32.Has j := by
  have := has32 (j := j) (k := 0) hj (by omega) (by omega)
  simpa using this

/-- A search with the widths 32, …, 39 of folds of 32 to 39 bins: some fold has a width equal to its number of bins. -/
example {N : NArith} {A : DArith} (hA : Sane A) : let x := List.replicate 1000 (FVal.fin 5)
    let widths := List.range' 32 8
    widths ≠ [] ∧ IdxFor float32Idx (x.length / 32) ∧ x.length ≤ 2 ^ 50 ∧ 39 ≤ 2 ^ 24 ∧ (40 : ℚ) ≤ 2 ^ 62 * 1 ∧
    ∃ per fb snr, A.binding N.ops float32Idx x 1 widths 32 40 32 39 = .ok (per, fb, snr) ∧
      ∃ (j k b : ℕ) (row : List FVal), fb[j]? = some b ∧ snr[j]? = some row ∧ widths[k]? = some b := by
  have hl : (List.replicate 1000 (FVal.fin 5)).length = 1000 := List.length_replicate
  have hidx : IdxFor float32Idx ((List.replicate 1000 (FVal.fin 5)).length / 32) := by rw [hl]; exact Or.inr ⟨Or.inl rfl, by norm_num⟩
  have e32 : A.fl (1 * ((32 : ℕ) : ℚ)) ≤ 32 := by
    rw [one_mul, hA.nat 32 (by norm_num)]
    norm_num
  refine ⟨by decide, hidx, by rw [hl]; norm_num, by norm_num, by norm_num, ?_⟩
  obtain ⟨per, fb, snr, h, h1, h2, h3⟩ := C114_no_holes A hA N.ops float32Idx (List.replicate 1000 (FVal.fin 5)) 1 (List.range' 32 8) (by decide) 32 40 32 39 hidx
    (by rw [hl]; norm_num) (by norm_num) (by norm_num) (by norm_num) (by norm_num) (by norm_num) (by norm_num) e32 (by rw [hl]; norm_num)
  obtain ⟨j, p, t, h4, h5, h6, _⟩ := h3 36 (by norm_num) (by norm_num)
  refine ⟨per, fb, snr, h, j, t.b - 32, t.b, snr[j]'(by rw [h2]; exact (List.getElem?_eq_some_iff.1 h4).1), h5, List.getElem?_eq_getElem _, ?_⟩
  obtain ⟨hb1, hb2⟩ := h6.bins
  rw [List.getElem?_range' (by omega)]
  congr 1
  omega

/-- Samples that are normalised: the search succeeds and has rows. -/
example : let A := ieeeDouble someLog (fun x k => rn 53 (x ^ k)) true
    let x := FVal.fin 3 :: List.replicate 999 (FVal.fin 1)
    Ieee (ieeeArith A) A ∧ Sane A ∧ Grid A ∧ SearchSize (someSearch false true) float32Idx x.length ∧ (∀ v ∈ x, SampleWithin (2 ^ 25) v) ∧
    ∃ per fb snr, (ieeeArith A).ffaSearch A float32Idx (someSearch false true) x = .ok (per, fb, snr) ∧ snr ≠ [] := by
  refine ⟨ieeeArith_ok _, sane_some true, grid_ieee _ _ _, ?_, ?_, someSearch_ok false true (sane_some true) (by rw [List.length_cons, List.length_replicate]) rfl⟩
  · rw [List.length_cons, List.length_replicate]
    exact someSearch_size _ _
  · intro v hv
    rcases List.mem_cons.1 hv with rfl | hv
    · exact ⟨3, rfl, has_natural (j := 3) (by norm_num), by norm_num⟩
    · rw [List.eq_of_mem_replicate hv]
      exact ⟨1, rfl, has_natural (j := 1) (by norm_num), by norm_num⟩

/-- Samples that are not normalised: the search succeeds and has rows. -/
example : let A := ieeeDouble someLog (fun x k => rn 53 (x ^ k)) true
    let x := FVal.fin (2 ^ 100) :: List.replicate 999 (FVal.fin 1)
    AddsAll (ieeeArith A) ∧ InterpBounded (ieeeArith A) ∧ SearchSize (someSearch false false) float32Idx x.length ∧ (∀ v ∈ x, SampleWithin (2 ^ 100) v) ∧
    (∀ z, (if (someSearch false false).deredden then (ieeeArith A).deredden x 101 51 else .ok x) = .ok z → ∃ a b, FVal.fin a ∈ z ∧ FVal.fin b ∈ z ∧ a + 1 / 2 ^ 100 ≤ b) ∧
    ∃ per fb snr, (ieeeArith A).ffaSearch A float32Idx (someSearch false false) x = .ok (per, fb, snr) ∧ snr ≠ [] := by
  refine ⟨ieeeArith_adds _, ieeeArith_interp _, ?_, ?_, ?_, someSearch_ok false false (sane_some true) (by rw [List.length_cons, List.length_replicate]) rfl⟩
  · rw [List.length_cons, List.length_replicate]
    exact someSearch_size _ _
  · intro v hv
    rcases List.mem_cons.1 hv with rfl | hv
    · refine ⟨2 ^ 100, rfl, ?_, by norm_num⟩
      have := pow32 (k := 100) (by omega) (by omega)
      rwa [show (2 : ℚ) ^ (100 : ℤ) = 2 ^ 100 by norm_num] at this
    · rw [List.eq_of_mem_replicate hv]
      exact ⟨1, rfl, has_natural (j := 1) (by norm_num), by norm_num⟩
  · intro z hz
    obtain rfl : _ = z := Except.ok.inj hz
    exact ⟨1, 2 ^ 100, List.mem_cons_of_mem _ (List.mem_replicate.2 ⟨by norm_num, rfl⟩), List.mem_cons_self, by norm_num⟩

/-- Constant samples: the search succeeds and has rows. -/
example : let A := ieeeDouble someLog (fun x k => rn 53 (x ^ k)) true
    let x := List.replicate 1000 (FVal.fin 5)
    binary32.Has 5 ∧ (∀ z, (if (someSearch false false).deredden then (ieeeArith A).deredden x 101 51 else .ok x) = .ok z → ∀ v ∈ z, v = .fin 5) ∧
    ∃ per fb snr, (ieeeArith A).ffaSearch A float32Idx (someSearch false false) x = .ok (per, fb, snr) ∧ snr ≠ [] := by
  refine ⟨has_natural (j := 5) (by norm_num), ?_, someSearch_ok false false (sane_some true) List.length_replicate rfl⟩
  intro z hz v hv
  obtain rfl : _ = z := Except.ok.inj hz
  exact List.eq_of_mem_replicate hv

/-- Constant samples, with `deredden`: the search succeeds and has rows. -/
example : let A := ieeeDouble someLog (fun x k => rn 53 (x ^ k)) true
    let x := List.replicate 1000 (FVal.fin 5)
    Ieee (ieeeArith A) A ∧ AddsAll (ieeeArith A) ∧ InterpBounded (ieeeArith A) ∧ InterpConstant (ieeeArith A) ∧ SampleWithin (2 ^ 100) (.fin 5) ∧
    ∃ per fb snr, (ieeeArith A).ffaSearch A float32Idx (someSearch true false) x = .ok (per, fb, snr) ∧ snr ≠ [] := by
  intro A x
  have hl : x.length = 1000 := List.length_replicate
  refine ⟨ieeeArith_ok _, ieeeArith_adds _, ieeeArith_interp _, ieeeArith_const _, ⟨5, rfl, has_natural (j := 5) (by norm_num), by norm_num⟩, ?_⟩
  clear_value x
  obtain ⟨out, e, -⟩ := runningMedian_fval (ieeeArith A) x 101 (by decide) (by rw [hl]; norm_num)
  obtain ⟨y, hy⟩ : ∃ y, (ieeeArith A).prepare (someSearch true false) x = .ok y := by
    have e2 : (ieeeArith A).fastRunningMedian x 101 51 = .ok out := by
      unfold NArith.fastRunningMedian
      rw [if_neg (by decide)]
      simp only
      rw [if_pos (by decide)]
      exact e
    have e3 : (ieeeArith A).deredden x 101 51 = .ok (List.zipWith (fun a b => FVal.cast (ieeeArith A).single (FVal.sub (ieeeArith A).work a b)) x out) := by
      unfold NArith.deredden
      rw [e2]
      rfl
    unfold NArith.prepare
    change ∃ y, ((ieeeArith A).deredden x 101 51).bind _ = .ok y
    rw [e3]
    exact ⟨_, rfl⟩
  exact someSearch_ok true false (sane_some true) hl hy

/-- Unsigned bytes, two of them different; and a `double` that is too large. -/
example : TypeOK (.int false 1) ∧ (∀ q ∈ (7 : ℚ) :: List.replicate 999 1, SampleHas (.int false 1) q ∧ |q| ≤ 2 ^ 100) ∧
    SearchSize (someSearch false false) float32Idx ((7 : ℚ) :: List.replicate 999 1).length ∧
    (binary32.Has 1 ∧ (1 : ℚ) ∈ (7 : ℚ) :: List.replicate 999 1) ∧ (binary32.Has 7 ∧ (7 : ℚ) ∈ (7 : ℚ) :: List.replicate 999 1) ∧ (1 : ℚ) + 1 / 2 ^ 100 ≤ 7 ∧
    SampleHas (.float binary64) (2 ^ (200 : ℤ)) ∧ binary32.overflow ≤ |(2 : ℚ) ^ (200 : ℤ)| := by
  refine ⟨(by decide : 0 < 1), ?_, ?_, ⟨has_natural (j := 1) (by norm_num), List.mem_cons_of_mem _ (List.mem_replicate.2 ⟨by norm_num, rfl⟩)⟩,
    ⟨has_natural (j := 7) (by norm_num), List.mem_cons_self⟩, by norm_num, pow64 (by omega) (by omega), ?_⟩
  · intro q hq
    rcases List.mem_cons.1 hq with rfl | hq
    · exact ⟨⟨7, by norm_num⟩, by norm_num⟩
    · rw [List.eq_of_mem_replicate hq]
      exact ⟨⟨1, by norm_num⟩, by norm_num⟩
  · rw [List.length_cons, List.length_replicate]
    exact someSearch_size _ _
  · norm_num [FloatFormat.overflow, binary32, FloatFormat.emin]

/-- The hypotheses of `C112_trial`: a search of data with a NaN succeeds and has rows. -/
example : let A := ieeeDouble someLog (fun x k => rn 53 (x ^ k)) true
    let x := FVal.nan :: List.replicate 999 (FVal.fin 1)
    ∃ per fb snr, A.binding (ieeeArith A).ops float32Idx x 1 (someSearch false true).widths 32 40 32 39 = .ok (per, fb, snr) ∧ ∃ row, snr[0]? = some row := by
  obtain ⟨per, fb, snr, h, hne⟩ := someSearch_ok false true (N := ieeeArith (ieeeDouble someLog (fun x k => rn 53 (x ^ k)) true)) (sane_some true)
    (x := FVal.nan :: List.replicate 999 (FVal.fin 1)) (by rw [List.length_cons, List.length_replicate]) rfl
  refine ⟨per, fb, snr, h, ?_⟩
  cases snr with
  | nil => exact absurd rfl hne
  | cons row l => exact ⟨row, rfl⟩

end Verif.Props
