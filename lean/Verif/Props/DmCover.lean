import Verif.Props.Dm
import Mathlib.Algebra.Order.AbsoluteValue.Basic

/-! # No sensitivity is lost by the selection of trial DMs: property C93 -/

namespace Verif.Spec

variable {K : Type*} [Field K] [LinearOrder K]

/-- The delay, in seconds, of a signal with dispersion measure `dm` at the frequency `f` in MHz, relative to infinite frequency. The
constant is the inverse of `2.41e-4`. -/
def delay (dm f : K) : K := dm / (241 / 1000000) / f ^ 2

/-- Broadening over the band of a pulse whose dispersion measure is wrong by `e`. -/
def bandSmear (fmin fmax e : K) : K := |delay e fmin - delay e fmax|

/-- Broadening in a channel at the middle of a band of `n` channels. -/
def channelSmear (fmin fmax n dm : K) : K :=
  delay dm ((fmin + fmax) / 2 - (fmax - fmin) / n / 2) - delay dm ((fmin + fmax) / 2 + (fmax - fmin) / n / 2)

/-- A pulse of dispersion measure `x` in data for the trial `dm` is not broadened by more than the smallest width or the broadening in a
channel. -/
def SeenAt (fmin fmax n wmin dm x : K) : Prop := bandSmear fmin fmax (x - dm) ≤ max wmin (channelSmear fmin fmax n dm)

end Verif.Spec

namespace Verif.Props

open Verif.Model Verif.Spec

set_option linter.unusedSectionVars false

variable {K : Type*} [Field K] [LinearOrder K] [IsStrictOrderedRing K]

theorem delay_eq (dm f : K) : delay dm f = KDM * (1 / f ^ 2) * dm := by
  unfold delay KDM
  ring

theorem seenAt_iff (fmin fmax n wmin dm x : K) (h0 : 0 < fmin) (h1 : fmin < fmax) :
    SeenAt fmin fmax n wmin dm x ↔ dm - dmRadius fmin fmax n wmin dm ≤ x ∧ x ≤ dm + dmRadius fmin fmax n wmin dm := by
  have hk := kdisp_pos fmin fmax h0 h1
  have e1 : bandSmear fmin fmax (x - dm) = |x - dm| * kdisp fmin fmax := by
    unfold bandSmear
    rw [delay_eq, delay_eq, ← abs_of_pos hk, ← abs_mul]
    congr 1
    unfold kdisp
    ring
  have e2 : channelSmear fmin fmax n dm = ksmear fmin fmax n * dm := by
    unfold channelSmear ksmear
    rw [delay_eq, delay_eq, add_comm fmin fmax]
    ring
  unfold SeenAt dmRadius
  rw [e1, e2, ← le_div_iff₀ hk, abs_le]
  constructor
  · rintro ⟨a, b⟩; constructor <;> linarith
  · rintro ⟨a, b⟩; constructor <;> linarith

/-- Between the first and the last element of a chain, every number is between two neighbours. -/
theorem chain_between {R : K → K → Prop} : ∀ (l : List K) (a hi x : K), (a :: l).IsChain R → (a :: l).getLast? = some hi → a ≤ x → x ≤ hi →
    (x = hi) ∨ ∃ p q, p ∈ a :: l ∧ q ∈ a :: l ∧ R p q ∧ p ≤ x ∧ x ≤ q
  | [], a, hi, x, _, hl, h1, h2 => by
    simp only [List.getLast?_singleton, Option.some.injEq] at hl
    left
    exact le_antisymm h2 (hl ▸ h1)
  | b :: l, a, hi, x, hc, hl, h1, h2 => by
    obtain ⟨hab, hc⟩ := List.isChain_cons_cons.mp hc
    rw [List.getLast?_cons_cons] at hl
    rcases le_total x b with hx | hx
    · exact Or.inr ⟨a, b, List.mem_cons_self, List.mem_cons_of_mem _ List.mem_cons_self, hab, h1, hx⟩
    · rcases chain_between l b hi x hc hl hx h2 with e | ⟨p, q, hp, hq, hr⟩
      · exact Or.inl e
      · exact Or.inr ⟨p, q, List.mem_cons_of_mem _ hp, List.mem_cons_of_mem _ hq, hr⟩

/-- C93: a signal that is seen in one of the available trials in range, without more broadening than the smallest width or the smearing in
a channel, is also seen in one of the selected trials. -/
theorem C93_nothing_lost (t : List K) (dmStart dmEnd fmin fmax nchans wmin : K) (h0 : 0 < fmin) (h1 : fmin < fmax) (hn : 1 ≤ nchans)
    (sel : List K) (h : selectDms t dmStart dmEnd fmin fmax nchans wmin = .ok sel) (x a : K) (ha : a ∈ t) (ha0 : dmStart ≤ a)
    (ha1 : a ≤ dmEnd) (hx : SeenAt fmin fmax nchans wmin a x) :
    ∃ s ∈ sel, SeenAt fmin fmax nchans wmin s x := by
  have key := fun dm => seenAt_iff fmin fmax nchans wmin dm x h0 h1
  simp only [key] at hx ⊢
  obtain ⟨-, ⟨lo, hlo, hlo'⟩, ⟨hi, hhi, hhi'⟩, hch, -⟩ := C33_coverage t dmStart dmEnd fmin fmax nchans wmin sel h
  have hmono := dmRadius_mono fmin fmax nchans wmin h0 h1 hn
  have hav : a ∈ t.filter (fun x => dmStart ≤ x ∧ x ≤ dmEnd) := by
    rw [List.mem_filter]
    exact ⟨ha, by simp [ha0, ha1]⟩
  generalize dmRadius fmin fmax nchans wmin = r at *
  have up : ∀ s, a ≤ s → s ≤ x → s - r s ≤ x ∧ x ≤ s + r s := by
    intro s h1 h2
    have := (hmono a s h1).1
    have h3 : x ≤ s + r s := by linarith
    exact ⟨by linarith, h3⟩
  have dn : ∀ s, s ≤ a → x ≤ s → s - r s ≤ x ∧ x ≤ s + r s := by
    intro s h1 h2
    have := (hmono s a h1).2
    have h3 : s - r s ≤ x := by linarith
    exact ⟨h3, by linarith⟩
  have hlom : lo ∈ sel := List.mem_of_head? hlo
  have him : hi ∈ sel := List.mem_of_getLast? hhi
  rcases lt_or_ge x lo with hxl | hxl
  · exact ⟨lo, hlom, dn lo (hlo' a hav) hxl.le⟩
  rcases lt_or_ge hi x with hxh | hxh
  · exact ⟨hi, him, up hi (hhi' a hav) hxh.le⟩
  obtain ⟨l, rfl⟩ : ∃ l, sel = lo :: l := by
    cases sel with
    | nil => simp at hlo
    | cons b l => simp at hlo; exact ⟨l, by rw [hlo]⟩
  rcases chain_between l lo hi x hch hhi hxl hxh with rfl | ⟨p, q, hp, hq, ⟨-, hst⟩, hpx, hxq⟩
  · exact ⟨x, him, up x (hhi' a hav) le_rfl⟩
  rcases hst with hst | hst
  · unfold Touch at hst
    rcases le_total x (p + r p) with hh | hh
    · exact ⟨p, hp, by linarith, hh⟩
    · exact ⟨q, hq, by linarith, by linarith⟩
  · rcases hst a hav with hh | hh
    · exact ⟨p, hp, up p hh hpx⟩
    · exact ⟨q, hq, dn q hh hxq⟩

/-- C93: if neighbours among the available trials in range are not further apart than what broadens a pulse over the band by twice the
smallest width, every signal with a dispersion measure between the smallest and the largest of them is seen in a selected trial. -/
theorem C93_range_covered (t : List K) (dmStart dmEnd fmin fmax nchans wmin : K) (h0 : 0 < fmin) (h1 : fmin < fmax) (hn : 1 ≤ nchans)
    (sel : List K) (h : selectDms t dmStart dmEnd fmin fmax nchans wmin = .ok sel)
    (hstep : ∀ a ∈ t, dmStart ≤ a → ∀ b ∈ t, b ≤ dmEnd → a < b → (∀ c ∈ t, c ≤ a ∨ b ≤ c) → bandSmear fmin fmax (b - a) ≤ 2 * wmin)
    (x lo hi : K) (hlo : lo ∈ t) (hlo' : dmStart ≤ lo) (hhi : hi ∈ t) (hhi' : hi ≤ dmEnd) (hx0 : lo ≤ x) (hx1 : x ≤ hi) (hw : 0 ≤ wmin) :
    ∃ s ∈ sel, SeenAt fmin fmax nchans wmin s x := by
  -- the trials below and above
  obtain ⟨p, hp, hpx, hpm⟩ : ∃ p ∈ t, p ≤ x ∧ ∀ c ∈ t, c ≤ x → c ≤ p := by
    have hne : (t.filter (fun c => decide (c ≤ x))) ≠ [] := by
      intro e
      have : lo ∈ t.filter (fun c => decide (c ≤ x)) := by rw [List.mem_filter]; exact ⟨hlo, by simpa using hx0⟩
      rw [e] at this
      cases this
    cases hl : t.filter (fun c => decide (c ≤ x)) with
    | nil => exact absurd hl hne
    | cons c l =>
      obtain ⟨m1, m2⟩ := foldl_max_spec l c
      rw [← hl] at m1 m2
      rw [List.mem_filter] at m1
      exact ⟨_, m1.1, by simpa using m1.2, fun d hd hdx => m2 d (by rw [List.mem_filter]; exact ⟨hd, by simpa using hdx⟩)⟩
  obtain ⟨q, hq, hqx, hqm⟩ : ∃ q ∈ t, x ≤ q ∧ ∀ c ∈ t, x ≤ c → q ≤ c := by
    have hne : (t.filter (fun c => decide (x ≤ c))) ≠ [] := by
      intro e
      have : hi ∈ t.filter (fun c => decide (x ≤ c)) := by rw [List.mem_filter]; exact ⟨hhi, by simpa using hx1⟩
      rw [e] at this
      cases this
    cases hl : t.filter (fun c => decide (x ≤ c)) with
    | nil => exact absurd hl hne
    | cons c l =>
      obtain ⟨m1, m2⟩ := foldl_min_spec l c
      rw [← hl] at m1 m2
      rw [List.mem_filter] at m1
      exact ⟨_, m1.1, by simpa using m1.2, fun d hd hdx => m2 d (by rw [List.mem_filter]; exact ⟨hd, by simpa using hdx⟩)⟩
  have hp0 : dmStart ≤ p := hlo'.trans (hpm lo hlo hx0)
  have hq1 : q ≤ dmEnd := (hqm hi hhi hx1).trans hhi'
  have hk := kdisp_pos fmin fmax h0 h1
  have hsm : ∀ e, bandSmear fmin fmax e = |e| * kdisp fmin fmax := by
    intro e
    unfold bandSmear
    rw [delay_eq, delay_eq, ← abs_of_pos hk, ← abs_mul]
    congr 1
    unfold kdisp
    ring
  rcases hpx.eq_or_lt with e | hlt
  · refine C93_nothing_lost t dmStart dmEnd fmin fmax nchans wmin h0 h1 hn sel h x p hp hp0 ((hpx.trans hqx).trans hq1) ?_
    unfold SeenAt
    rw [hsm, e, sub_self, abs_zero, zero_mul]
    exact hw.trans (le_max_left _ _)
  have hb := hstep p hp hp0 q hq hq1 (hlt.trans_le hqx) (by
    intro c hc
    rcases le_total c x with hh | hh
    · exact Or.inl (hpm c hc hh)
    · exact Or.inr (hqm c hc hh))
  rw [hsm, abs_of_nonneg (by linarith)] at hb
  rcases le_total (x - p) (q - x) with hh | hh
  · refine C93_nothing_lost t dmStart dmEnd fmin fmax nchans wmin h0 h1 hn sel h x p hp hp0 ((hpx.trans hqx).trans hq1) ?_
    unfold SeenAt
    rw [hsm, abs_of_nonneg (by linarith)]
    refine le_trans ?_ (le_max_left _ _)
    nlinarith
  · refine C93_nothing_lost t dmStart dmEnd fmin fmax nchans wmin h0 h1 hn sel h x q hq (hp0.trans (hpx.trans hqx)) hq1 ?_
    unfold SeenAt
    rw [hsm, abs_sub_comm, abs_of_nonneg (by linarith)]
    refine le_trans ?_ (le_max_left _ _)
    nlinarith

/-- The four files of `demo_select`: DM 0.001 is not selected, but a signal there is seen in a selected trial. -/
example : ∃ s ∈ ([0, 1/500, 30] : List ℚ), SeenAt 1182 1582 400 (1/1000) s (1/1000) :=
  C93_nothing_lost ([30, 0, 1/1000, 1/500] : List ℚ) 0 30 1182 1582 400 (1/1000) (by norm_num) (by norm_num) (by norm_num) _
    demo_select (1/1000) (1/1000) (by simp) (by norm_num) (by norm_num) (by
      unfold SeenAt bandSmear channelSmear delay
      norm_num)

/-- A signal at DM 0.0015 is between two trials that are close enough. -/
example : ∃ s ∈ ([0, 1/500, 30] : List ℚ), SeenAt 1182 1582 400 (1/1000) s (3/2000) :=
  C93_nothing_lost ([30, 0, 1/1000, 1/500] : List ℚ) 0 30 1182 1582 400 (1/1000) (by norm_num) (by norm_num) (by norm_num) _
    demo_select (3/2000) (1/1000) (by simp) (by norm_num) (by norm_num) (by
      unfold SeenAt bandSmear channelSmear delay
      norm_num)

end Verif.Props
