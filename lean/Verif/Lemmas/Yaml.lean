import Verif.Model.Yaml
import Verif.Spec.Decimal
import Verif.Lemmas.Presto

/-!
# Lemmas for the model of YAML scalars: regular expressions, and texts in decimal notation
-/

namespace Verif.Lemmas

open Verif.Model Verif.Spec

/-! ## Regular expressions -/

/-- The texts that a regular expression describes. -/
def Lang : Rx → List Char → Prop
  | .empty, _ => False
  | .eps, s => s = []
  | .cls p, s => ∃ c, s = [c] ∧ p c = true
  | .seq a b, s => ∃ u v, s = u ++ v ∧ Lang a u ∧ Lang b v
  | .alt a b, s => Lang a s ∨ Lang b s
  | .star a, s => ∃ ws : List (List Char), s = ws.flatten ∧ ∀ w ∈ ws, Lang a w

theorem nullable_iff (r : Rx) : r.nullable = true ↔ Lang r [] := by
  induction r with
  | empty => simp [Rx.nullable, Lang]
  | eps => simp [Rx.nullable, Lang]
  | cls p => simp [Rx.nullable, Lang]
  | seq a b iha ihb =>
    simp only [Rx.nullable, Bool.and_eq_true, Lang, iha, ihb]
    constructor
    · rintro ⟨h1, h2⟩; exact ⟨[], [], rfl, h1, h2⟩
    · rintro ⟨u, v, h, h1, h2⟩
      have h' := List.append_eq_nil_iff.1 h.symm
      rw [h'.1] at h1; rw [h'.2] at h2
      exact ⟨h1, h2⟩
  | alt a b iha ihb => simp [Rx.nullable, Lang, iha, ihb]
  | star a _ =>
    simp only [Rx.nullable, Lang, true_iff]
    exact ⟨[], rfl, by simp⟩

theorem deriv_iff (c : Char) (r : Rx) : ∀ s, Lang (r.deriv c) s ↔ Lang r (c :: s) := by
  induction r with
  | empty => intro s; simp [Rx.deriv, Lang]
  | eps => intro s; simp [Rx.deriv, Lang]
  | cls p =>
    intro s
    simp only [Rx.deriv]
    split_ifs with h
    · simp only [Lang]
      constructor
      · rintro rfl; exact ⟨c, rfl, h⟩
      · rintro ⟨x, hx, -⟩; simp at hx; exact hx.2
    · simp only [Lang, false_iff]
      rintro ⟨x, hx, hp⟩
      simp at hx
      rw [hx.1] at h; exact h hp
  | alt a b iha ihb => intro s; simp [Rx.deriv, Lang, iha, ihb]
  | seq a b iha ihb =>
    intro s
    have hleft : Lang (.seq (a.deriv c) b) s ↔ ∃ u v, s = u ++ v ∧ Lang a (c :: u) ∧ Lang b v := by
      simp only [Lang, iha]
    have hall : Lang (.seq a b) (c :: s) ↔ (∃ u v, s = u ++ v ∧ Lang a (c :: u) ∧ Lang b v) ∨ (Lang a [] ∧ Lang b (c :: s)) := by
      simp only [Lang]
      constructor
      · rintro ⟨u, v, h, h1, h2⟩
        cases u with
        | nil => right; rw [List.nil_append] at h; rw [h]; exact ⟨h1, h2⟩
        | cons x u =>
          left
          rw [List.cons_append, List.cons.injEq] at h
          exact ⟨u, v, h.2, by rw [h.1]; exact h1, h2⟩
      · rintro (⟨u, v, rfl, h1, h2⟩ | ⟨h1, h2⟩)
        · exact ⟨c :: u, v, rfl, h1, h2⟩
        · exact ⟨[], c :: s, rfl, h1, h2⟩
    rw [hall]
    simp only [Rx.deriv]
    split_ifs with hn
    · rw [nullable_iff] at hn
      show Lang _ s ∨ Lang _ s ↔ _
      rw [hleft, ihb]
      simp [hn]
    · rw [nullable_iff] at hn
      rw [hleft]
      simp [hn]
  | star a iha =>
    intro s
    show Lang (.seq (a.deriv c) (.star a)) s ↔ _
    simp only [Lang, iha]
    constructor
    · rintro ⟨u, v, rfl, h1, ws, rfl, h2⟩
      refine ⟨(c :: u) :: ws, by simp, ?_⟩
      intro w hw
      rw [List.mem_cons] at hw
      rcases hw with rfl | hw
      · exact h1
      · exact h2 w hw
    · rintro ⟨ws, h, hw⟩
      induction ws with
      | nil => simp at h
      | cons w ws ih =>
        cases w with
        | nil => exact ih (by simpa using h) (fun x hx => hw x (by simp [hx]))
        | cons x w =>
          simp only [List.flatten_cons, List.cons_append, List.cons.injEq] at h
          refine ⟨w, ws.flatten, h.2, ?_, ws, rfl, fun y hy => hw y (by simp [hy])⟩
          rw [h.1]; exact hw _ (by simp)

/-- The matcher decides the language. -/
theorem accepts_iff (r : Rx) (s : List Char) : r.accepts s = true ↔ Lang r s := by
  induction s generalizing r with
  | nil => exact nullable_iff r
  | cons c s ih =>
    show (r.deriv c).accepts s = true ↔ _
    rw [ih, deriv_iff]

theorem lang_seq {a b : Rx} {s : List Char} : Lang (.seq a b) s ↔ ∃ u v, s = u ++ v ∧ Lang a u ∧ Lang b v := Iff.rfl
theorem lang_alt {a b : Rx} {s : List Char} : Lang (.alt a b) s ↔ Lang a s ∨ Lang b s := Iff.rfl
theorem lang_eps {s : List Char} : Lang .eps s ↔ s = [] := Iff.rfl
theorem lang_empty {s : List Char} : Lang .empty s ↔ False := Iff.rfl
theorem lang_cls {p : Char → Bool} {s : List Char} : Lang (.cls p) s ↔ ∃ c, s = [c] ∧ p c = true := Iff.rfl
theorem lang_opt {r : Rx} {s : List Char} : Lang (Rx.opt r) s ↔ Lang r s ∨ s = [] := Iff.rfl
theorem lang_chars {l : List Char} {s : List Char} : Lang (Rx.chars l) s ↔ ∃ c, s = [c] ∧ c ∈ l := by
  simp [Rx.chars, Lang]
theorem lang_cons {r : Rx} {l : List Rx} {s : List Char} : Lang (Rx.seqs (r :: l)) s ↔ ∃ u v, s = u ++ v ∧ Lang r u ∧ Lang (Rx.seqs l) v :=
  Iff.rfl
theorem lang_nil {s : List Char} : Lang (Rx.seqs []) s ↔ s = [] := Iff.rfl
theorem lang_alts_cons {r : Rx} {l : List Rx} {s : List Char} : Lang (Rx.alts (r :: l)) s ↔ Lang r s ∨ Lang (Rx.alts l) s := Iff.rfl
theorem lang_alts_nil {s : List Char} : Lang (Rx.alts []) s ↔ False := Iff.rfl

theorem lang_last {r : Rx} {s : List Char} : Lang (Rx.seqs [r]) s ↔ Lang r s := by
  rw [lang_cons]
  constructor
  · rintro ⟨u, v, rfl, h1, rfl⟩
    rw [List.append_nil]; exact h1
  · intro h; exact ⟨s, [], by simp, h, rfl⟩

theorem lang_star_cls {p : Char → Bool} {s : List Char} : Lang (.star (.cls p)) s ↔ ∀ c ∈ s, p c = true := by
  constructor
  · rintro ⟨ws, rfl, h⟩ c hc
    rw [List.mem_flatten] at hc
    obtain ⟨w, hw, hcw⟩ := hc
    obtain ⟨x, rfl, hx⟩ := h w hw
    simp at hcw; rw [hcw]; exact hx
  · intro h
    refine ⟨s.map fun c => [c], ?_, ?_⟩
    · clear h
      induction s with
      | nil => rfl
      | cons c s ih => simpa using ih
    · intro w hw
      rw [List.mem_map] at hw
      obtain ⟨c, hc, rfl⟩ := hw
      exact ⟨c, rfl, h c hc⟩

theorem lang_plus_cls {p : Char → Bool} {s : List Char} : Lang (Rx.plus (.cls p)) s ↔ s ≠ [] ∧ ∀ c ∈ s, p c = true := by
  show (∃ u v, s = u ++ v ∧ Lang (.cls p) u ∧ Lang (.star (.cls p)) v) ↔ _
  constructor
  · rintro ⟨u, v, rfl, ⟨c, rfl, hc⟩, hv⟩
    rw [lang_star_cls] at hv
    refine ⟨by simp, ?_⟩
    intro x hx
    simp at hx
    rcases hx with rfl | hx
    · exact hc
    · exact hv x hx
  · rintro ⟨hne, h⟩
    cases s with
    | nil => exact absurd rfl hne
    | cons c s =>
      exact ⟨[c], s, rfl, ⟨c, rfl, h c (by simp)⟩, lang_star_cls.2 fun x hx => h x (by simp [hx])⟩

theorem lang_lit {w s : List Char} : Lang (Rx.lit w) s ↔ s = w := by
  unfold Rx.lit
  induction w generalizing s with
  | nil => exact Iff.rfl
  | cons c w ih =>
    rw [List.map_cons, lang_cons]
    constructor
    · rintro ⟨u, v, rfl, h1, h2⟩
      rw [ih] at h2
      rw [lang_chars] at h1
      obtain ⟨x, rfl, hx⟩ := h1
      simp at hx
      rw [hx, h2]; rfl
    · rintro rfl
      exact ⟨[c], w, rfl, lang_chars.2 ⟨c, rfl, by simp⟩, ih.2 rfl⟩

/-! ## Digits -/

theorem digitVal_some {c : Char} (h : IsDigit c) : digitVal c = some (c.toNat - 48) := by
  unfold digitVal
  have h0 : ('0' : Char).toNat = 48 := rfl
  have h9 : ('9' : Char).toNat = 57 := rfl
  rw [h0, h9, if_pos (show 48 ≤ c.toNat ∧ c.toNat ≤ 57 from h)]

theorem digitVal_isSome {c : Char} : (digitVal c).isSome = true ↔ IsDigit c := by
  have h0 : ('0' : Char).toNat = 48 := rfl
  have h9 : ('9' : Char).toNat = 57 := rfl
  unfold digitVal IsDigit
  rw [h0, h9]
  split_ifs with h <;> simp [h]

theorem digitsVal_digits {s : List Char} (hne : s ≠ []) (h : ∀ c ∈ s, IsDigit c) : digitsVal s = some (positional 10 s) := by
  unfold digitsVal positional
  rw [if_neg hne]
  have hm : ∀ l : List Char, (∀ c ∈ l, IsDigit c) → l.mapM digitVal = some (l.map fun c => c.toNat - 48) := by
    intro l hl
    induction l with
    | nil => rfl
    | cons c l ih =>
      rw [List.mapM_cons, digitVal_some (hl c (by simp)), ih (fun x hx => hl x (by simp [hx]))]
      rfl
  rw [hm s h, Option.map_some, List.foldl_map]

theorem digitsVal0_digits {s : List Char} (h : ∀ c ∈ s, IsDigit c) : digitsVal0 s = positional 10 s := by
  unfold digitsVal0
  by_cases hs : s = []
  · subst hs; rfl
  · rw [digitsVal_digits hs h]; rfl

theorem baseDigit_some {b : ℕ} {c : Char} (h : IsDigit c) (hb : c.toNat - 48 < b) : baseDigit b c = some (c.toNat - 48) := by
  have hl : asciiLower c = c := by
    unfold asciiLower
    have a2 : ('A' : Char).toNat = 65 := rfl
    rw [if_neg]
    rw [a2]; unfold IsDigit at h; omega
  unfold baseDigit
  simp only [hl]
  rw [if_pos (show 48 ≤ c.toNat ∧ c.toNat ≤ 57 from h), if_pos hb]

theorem intBase_digits {b : ℕ} {s : List Char} (hne : s ≠ []) (h : ∀ c ∈ s, IsDigit c ∧ c.toNat - 48 < b) :
    intBase b s = .ok (positional b s : ℕ) := by
  unfold intBase positional
  rw [if_neg hne]
  have hm : ∀ l : List Char, (∀ c ∈ l, IsDigit c ∧ c.toNat - 48 < b) → l.mapM (baseDigit b) = some (l.map fun c => c.toNat - 48) := by
    intro l hl
    induction l with
    | nil => rfl
    | cons c l ih =>
      rw [List.mapM_cons, baseDigit_some (hl c (by simp)).1 (hl c (by simp)).2, ih (fun x hx => hl x (by simp [hx]))]
      rfl
  rw [hm s h]
  simp only [List.foldl_map]

/-! ## Texts in decimal notation -/

/-- The characters of numbers in decimal notation. -/
theorem text_chars {d : Decimal} (h : d.OK) : ∀ c ∈ d.text, IsDigit c ∨ c = '-' ∨ c = '+' ∨ c = '.' ∨ c = 'e' ∨ c = 'E' := by
  obtain ⟨sg, wh, fr, ex⟩ := d
  obtain ⟨-, h2, h3, h4⟩ := h
  have hs : ∀ (s : Option Bool) (c : Char), c ∈ signText s → c = '-' ∨ c = '+' := by
    intro s c hc
    rcases s with _ | b
    · simp [signText] at hc
    · cases b <;> simp [signText] at hc <;> simp [hc]
  intro c hc
  simp only [Decimal.text, List.mem_append] at hc
  rcases hc with hc | hc | hc | hc
  · rcases hs _ _ hc with h | h <;> simp [h]
  · exact Or.inl (h2 c hc)
  · rcases fr with _ | f
    · simp [fracText] at hc
    · simp only [fracText, List.mem_cons] at hc
      rcases hc with rfl | hc
      · simp
      · exact Or.inl (h3 f rfl c hc)
  · rcases ex with _ | ⟨cap, es, f⟩
    · simp [expText] at hc
    · simp only [expText, List.mem_cons, List.mem_append] at hc
      rcases hc with rfl | hc | hc
      · cases cap <;> simp
      · rcases hs _ _ hc with h | h <;> simp [h]
      · exact Or.inl ((h4 cap es f rfl).2 c hc)

/-- A sign or a digit. -/
def StartChar (c : Char) : Prop := IsDigit c ∨ c = '-' ∨ c = '+'

theorem text_head {d : Decimal} (h : d.OK) : ∃ c s, d.text = c :: s ∧ StartChar c := by
  obtain ⟨sg, wh, fr, ex⟩ := d
  obtain ⟨h1, h2, -, -⟩ := h
  rcases sg with _ | b
  · cases wh with
    | nil => exact absurd rfl h1
    | cons c w => exact ⟨c, _, rfl, Or.inl (h2 c (by simp))⟩
  · cases b
    · exact ⟨'+', _, rfl, Or.inr (Or.inr rfl)⟩
    · exact ⟨'-', _, rfl, Or.inr (Or.inl rfl)⟩

instance (c : Char) : Decidable (IsDigit c) := inferInstanceAs (Decidable (_ ∧ _))
instance (c : Char) : Decidable (StartChar c) := inferInstanceAs (Decidable (_ ∨ _))

/-- Words that begin otherwise are not numbers. -/
theorem text_not_word {d : Decimal} (h : d.OK) {w : List Char} (hw : ∀ c, w.head? = some c → ¬ StartChar c) : d.text ≠ w := by
  obtain ⟨c, s, h1, h2⟩ := text_head h
  rintro rfl
  exact hw c (by rw [h1]; rfl) h2

theorem dot_mem {d : Decimal} (h : d.OK) : '.' ∈ d.text ↔ ∃ s, d.frac = some s := by
  obtain ⟨sg, wh, fr, ex⟩ := d
  obtain ⟨-, h2, h3, h4⟩ := h
  have hdig : ¬ IsDigit '.' := by decide
  constructor
  · intro hc
    cases fr with
    | some s => exact ⟨s, rfl⟩
    | none =>
      exfalso
      simp only [Decimal.text, List.mem_append] at hc
      rcases hc with hc | hc | hc | hc
      · rcases sg with _ | b
        · simp [signText] at hc
        · cases b <;> simp [signText] at hc
      · exact hdig (h2 _ hc)
      · simp [fracText] at hc
      · rcases ex with _ | ⟨cap, es, f⟩
        · simp [expText] at hc
        · simp only [expText, List.mem_cons, List.mem_append] at hc
          rcases hc with hc | hc | hc
          · cases cap <;> simp at hc
          · rcases es with _ | b
            · simp [signText] at hc
            · cases b <;> simp [signText] at hc
          · exact hdig ((h4 cap es f rfl).2 _ hc)
  · rintro ⟨s, hs⟩
    simp only at hs
    subst hs
    simp [Decimal.text, fracText]

/-- The letter of the exponent. -/
def isExp (c : Char) : Bool := c == 'e' || c == 'E'

theorem not_exp_of_digit {c : Char} (h : IsDigit c) : isExp c = false := by
  unfold isExp
  unfold IsDigit at h
  have he : ('e' : Char).toNat = 101 := rfl
  have hE : ('E' : Char).toNat = 69 := rfl
  rw [Bool.or_eq_false_iff]
  constructor
  · rw [beq_eq_false_iff_ne]; rintro rfl; omega
  · rw [beq_eq_false_iff_ne]; rintro rfl; omega

/-- Before the exponent there is no letter. -/
theorem mantissa_noExp {d : Decimal} (h : d.OK) : ∀ c ∈ signText d.sign ++ (d.whole ++ fracText d.frac), isExp c = false := by
  obtain ⟨sg, wh, fr, ex⟩ := d
  obtain ⟨-, h2, h3, h4⟩ := h
  intro c hc
  simp only [List.mem_append] at hc
  rcases hc with hc | hc | hc
  · rcases sg with _ | b
    · simp [signText] at hc
    · cases b <;> simp [signText] at hc <;> subst hc <;> decide
  · exact not_exp_of_digit (h2 c hc)
  · rcases fr with _ | f
    · simp [fracText] at hc
    · simp only [fracText, List.mem_cons] at hc
      rcases hc with rfl | hc
      · decide
      · exact not_exp_of_digit (h3 f rfl c hc)

theorem dropWhile_exp {l r : List Char} (hl : ∀ c ∈ l, isExp c = false) : (l ++ r).dropWhile (fun c => !isExp c) = r.dropWhile (fun c => !isExp c) := by
  induction l with
  | nil => rfl
  | cons c l ih =>
    rw [List.cons_append, List.dropWhile_cons_of_pos (by simp [hl c (by simp)]), ih (fun x hx => hl x (by simp [hx]))]

theorem dropWhile_text {d : Decimal} (h : d.OK) : d.text.dropWhile (fun c => !isExp c) = expText d.exp := by
  have : d.text = (signText d.sign ++ (d.whole ++ fracText d.frac)) ++ expText d.exp := by simp [Decimal.text]
  rw [this, dropWhile_exp (mantissa_noExp h)]
  rcases d.exp with _ | ⟨cap, es, f⟩
  · rfl
  · rw [expText, List.dropWhile_cons_of_neg]
    cases cap <;> simp [isExp]

/-! ## The resolvers -/

theorem text_not_contains {d : Decimal} (h : d.OK) {c : Char} (hc : ¬ (IsDigit c ∨ c = '-' ∨ c = '+' ∨ c = '.' ∨ c = 'e' ∨ c = 'E')) :
    c ∉ d.text := fun hm => hc (text_chars h c hm)

theorem sexagesimal_colon {s : List Char} (h : Lang rxSexagesimal s) : ':' ∈ s := by
  unfold rxSexagesimal Rx.plus at h
  rw [lang_seq] at h
  obtain ⟨u, v, rfl, h1, -⟩ := h
  rw [lang_cons] at h1
  obtain ⟨u1, u2, rfl, h2, -⟩ := h1
  rw [lang_chars] at h2
  obtain ⟨c, rfl, hc⟩ := h2
  simp at hc
  simp [hc]

/-- Decimal notation is a YAML float when there is a dot and the exponent has a sign. -/
theorem float_iff {d : Decimal} (h : d.OK) : yamlFloatRx.accepts d.text = true ↔ d.Dotted := by
  rw [accepts_iff]
  constructor
  · intro hl
    unfold yamlFloatRx at hl
    simp only [lang_alts_cons, lang_alts_nil, or_false] at hl
    rcases hl with hl | hl | hl | hl | hl
    · simp only [lang_cons, lang_nil] at hl
      obtain ⟨a1, r1, e1, g1, a2, r2, rfl, g2, a3, r3, rfl, g3, a4, r4, rfl, g4, a5, r5, rfl, g5, a6, r6, rfl, g6, rfl⟩ := hl
      rw [lang_chars] at g4
      obtain ⟨x4, rfl, g4⟩ := g4
      simp at g4; subst g4
      have hdot := (dot_mem h).1 (by rw [e1]; simp)
      refine ⟨hdot, ?_⟩
      intro cap sg s hexp
      have hdw := dropWhile_text h
      rw [hexp, e1] at hdw
      have hpre : ∀ c ∈ a1 ++ (a2 ++ (a3 ++ ('.' :: a5))), isExp c = false := by
        intro c hc
        simp only [List.mem_append, List.mem_cons] at hc
        rcases hc with hc | hc | hc | hc | hc
        · unfold rxSign at g1
          rw [lang_opt, lang_chars] at g1
          rcases g1 with ⟨x, rfl, hx⟩ | rfl
          · simp at hc hx
            rcases hx with rfl | rfl <;> subst hc <;> decide
          · simp at hc
        · unfold rxDigit at g2
          rw [lang_cls] at g2
          obtain ⟨x, rfl, hx⟩ := g2
          simp at hc
          subst hc
          exact not_exp_of_digit (of_decide_eq_true hx)
        · unfold rxDigitU at g3
          rw [lang_star_cls] at g3
          have := of_decide_eq_true (g3 c hc)
          rcases this with h | rfl
          · exact not_exp_of_digit h
          · decide
        · subst hc; decide
        · unfold rxDigitU at g5
          rw [lang_star_cls] at g5
          have := of_decide_eq_true (g5 c hc)
          rcases this with h | rfl
          · exact not_exp_of_digit h
          · decide
      have hre : a1 ++ (a2 ++ (a3 ++ (['.'] ++ (a5 ++ (a6 ++ []))))) = (a1 ++ (a2 ++ (a3 ++ ('.' :: a5)))) ++ a6 := by simp
      rw [hre, dropWhile_exp hpre] at hdw
      unfold rxExponent rxSign at g6
      rw [lang_opt] at g6
      rcases g6 with g6 | rfl
      · simp only [lang_cons, lang_nil] at g6
        obtain ⟨b1, q1, rfl, k1, b2, q2, rfl, k2, b3, q3, rfl, k3, rfl⟩ := g6
        rw [lang_chars] at k1 k2
        obtain ⟨y1, rfl, k1⟩ := k1
        obtain ⟨y2, rfl, k2⟩ := k2
        have hy : isExp y1 = true := by
          simp at k1; rcases k1 with rfl | rfl <;> decide
        rw [List.cons_append, List.dropWhile_cons_of_neg (by simp [hy])] at hdw
        simp only [expText, List.nil_append, List.cons_append, List.cons.injEq, List.append_nil] at hdw
        rcases sg with _ | b
        · exfalso
          obtain ⟨hne, hdig⟩ := h.2.2.2 cap none s hexp
          simp only [signText, List.nil_append] at hdw
          have := hdig y2 (by rw [← hdw.2]; simp)
          simp at k2
          rcases k2 with rfl | rfl <;> exact absurd this (by decide)
        · exact ⟨b, rfl⟩
      · simp [expText] at hdw
    · exfalso
      simp only [lang_cons] at hl
      obtain ⟨a1, r1, e1, g1, -⟩ := hl
      rw [lang_chars] at g1
      obtain ⟨x, rfl, hx⟩ := g1
      simp at hx; subst hx
      obtain ⟨c, s, h1, h2⟩ := text_head h
      rw [h1] at e1
      simp at e1
      rw [e1.1] at h2
      exact absurd h2 (by decide)
    · exfalso
      simp only [lang_cons] at hl
      obtain ⟨a1, r1, e1, g1, a2, r2, rfl, g2, a3, r3, rfl, g3, a4, r4, rfl, g4, -⟩ := hl
      have := sexagesimal_colon g4
      exact text_not_contains h (c := ':') (by decide) (by rw [e1]; simp [this])
    · exfalso
      simp only [lang_cons, lang_nil] at hl
      obtain ⟨a1, r1, e1, g1, a2, r2, rfl, g2, a3, r3, rfl, g3, rfl⟩ := hl
      simp only [lang_alts_cons, lang_alts_nil, lang_lit, or_false] at g3
      rcases g3 with rfl | rfl | rfl
      · exact text_not_contains h (c := 'n') (by decide) (by rw [e1]; simp)
      · exact text_not_contains h (c := 'n') (by decide) (by rw [e1]; simp)
      · exact text_not_contains h (c := 'N') (by decide) (by rw [e1]; simp)
    · exfalso
      simp only [lang_cons] at hl
      obtain ⟨a1, r1, e1, g1, -⟩ := hl
      rw [lang_chars] at g1
      obtain ⟨x, rfl, hx⟩ := g1
      simp at hx; subst hx
      obtain ⟨c, s, h1, h2⟩ := text_head h
      rw [h1] at e1
      simp at e1
      rw [e1.1] at h2
      exact absurd h2 (by decide)
  · rintro ⟨⟨f, hf⟩, hexp⟩
    unfold yamlFloatRx
    rw [lang_alts_cons]
    left
    obtain ⟨sg, wh, fr, ex⟩ := d
    obtain ⟨h1, h2, h3, h4⟩ := h
    simp only at hf
    subst hf
    cases wh with
    | nil => exact absurd rfl h1
    | cons c w =>
      simp only [lang_cons, lang_nil]
      refine ⟨signText sg, c :: (w ++ ('.' :: f ++ expText ex)), by simp [Decimal.text, fracText], ?_, [c], w ++ ('.' :: f ++ expText ex), rfl, ?_,
        w, '.' :: f ++ expText ex, rfl, ?_, ['.'], f ++ expText ex, by simp, ?_, f, expText ex, rfl, ?_, expText ex, [], by simp, ?_, rfl⟩
      · unfold rxSign
        rw [lang_opt, lang_chars]
        rcases sg with _ | b
        · right; rfl
        · left; cases b <;> simp [signText]
      · exact ⟨c, rfl, decide_eq_true (h2 c (by simp))⟩
      · exact lang_star_cls.2 fun x hx => decide_eq_true (Or.inl (h2 x (by simp [hx])))
      · rw [lang_chars]; exact ⟨'.', rfl, by simp⟩
      · exact lang_star_cls.2 fun x hx => decide_eq_true (Or.inl (h3 f rfl x hx))
      · unfold rxExponent rxSign
        rw [lang_opt]
        rcases ex with _ | ⟨cap, es, s⟩
        · right; rfl
        · left
          obtain ⟨b, hb⟩ := hexp cap es s rfl
          subst hb
          simp only [lang_cons, lang_nil]
          refine ⟨[if cap then 'E' else 'e'], signText (some b) ++ s, rfl, ?_, signText (some b), s, rfl, ?_, s, [], by simp, ?_, rfl⟩
          · rw [lang_chars]; cases cap <;> simp
          · rw [lang_chars]; cases b <;> simp [signText]
          · exact lang_plus_cls.2 ⟨(h4 cap _ s rfl).1, fun x hx => decide_eq_true ((h4 cap _ s rfl).2 x hx)⟩

theorem exp_mem {d : Decimal} {cap : Bool} {sg : Option Bool} {s : List Char} (h : d.exp = some (cap, sg, s)) : 'e' ∈ d.text ∨ 'E' ∈ d.text := by
  obtain ⟨sg', wh, fr, ex⟩ := d
  simp only at h
  subst h
  cases cap <;> simp [Decimal.text, expText]

/-- Texts without the characters of fractions and exponents are written without them. -/
theorem whole_of_chars {d : Decimal} (h : d.OK) (hd : '.' ∉ d.text) (he : 'e' ∉ d.text) (hE : 'E' ∉ d.text) : d.Whole := by
  constructor
  · cases hf : d.frac with
    | none => rfl
    | some s => exact absurd ((dot_mem h).2 ⟨s, hf⟩) hd
  · cases hx : d.exp with
    | none => rfl
    | some x =>
      obtain ⟨cap, sg, s⟩ := x
      rcases exp_mem hx with h | h
      · exact absurd h he
      · exact absurd h hE

theorem whole_text {d : Decimal} (hw : d.Whole) : d.text = signText d.sign ++ d.whole := by
  obtain ⟨sg, wh, fr, ex⟩ := d
  obtain ⟨h1, h2⟩ := hw
  simp only at h1 h2
  subst h1 h2
  simp [Decimal.text, fracText, expText]

/-- Dropping the sign from both sides. -/
theorem sign_cancel {a : Option Bool} {w u v : List Char} (hw : ∀ c, w.head? = some c → c ≠ '-' ∧ c ≠ '+')
    (hu : Lang (Rx.opt rxSign) u) (hv : ∀ c, v.head? = some c → c ≠ '-' ∧ c ≠ '+') (h : signText a ++ w = u ++ v) : w = v := by
  unfold rxSign at hu
  rw [lang_opt, lang_chars] at hu
  rcases a with _ | b
  · rcases hu with ⟨x, rfl, hx⟩ | rfl
    · exfalso
      simp only [signText, List.nil_append] at h
      have := hw x (by rw [h]; rfl)
      simp at hx
      rcases hx with rfl | rfl
      · exact this.1 rfl
      · exact this.2 rfl
    · exact h
  · rcases hu with ⟨x, rfl, hx⟩ | rfl
    · cases b <;> simp [signText] at h <;> exact h.2
    · exfalso
      rw [List.nil_append] at h
      cases b
      · exact (hv '+' (by rw [← h]; rfl)).2 rfl
      · exact (hv '-' (by rw [← h]; rfl)).1 rfl

theorem digit_not_sign {c : Char} (h : IsDigit c) : c ≠ '-' ∧ c ≠ '+' := by
  constructor <;> (rintro rfl; exact absurd h (by decide))

theorem lang_sign (a : Option Bool) : Lang (Rx.opt rxSign) (signText a) := by
  unfold rxSign
  rw [lang_opt, lang_chars]
  rcases a with _ | b
  · right; rfl
  · left; cases b <;> simp [signText]

/-- Decimal notation is a YAML integer when there is neither dot nor exponent, and when zeros in front are followed by octal digits. -/
theorem int_iff {d : Decimal} (h : d.OK) : yamlIntRx.accepts d.text = true ↔ d.Whole ∧ (NoLeadingZero d.whole ∨ d.Octal) := by
  rw [accepts_iff]
  have hnx : 'x' ∉ d.text := text_not_contains h (by decide)
  have hnb : 'b' ∉ d.text := text_not_contains h (by decide)
  have hnc : ':' ∉ d.text := text_not_contains h (by decide)
  constructor
  · intro hl
    unfold yamlIntRx at hl
    simp only [lang_alts_cons, lang_alts_nil, or_false] at hl
    rcases hl with hl | hl | hl | hl | hl
    · exfalso
      simp only [lang_cons, lang_lit] at hl
      obtain ⟨a1, r1, e1, g1, a2, r2, rfl, rfl, -⟩ := hl
      exact hnb (by rw [e1]; simp)
    · simp only [lang_cons, lang_nil, lang_lit] at hl
      obtain ⟨a1, r1, e1, g1, a2, r2, rfl, rfl, a3, r3, rfl, g3, rfl⟩ := hl
      unfold rxOctU at g3
      rw [lang_plus_cls] at g3
      have hc : ∀ c ∈ d.text, c = '-' ∨ c = '+' ∨ IsDigit c ∨ c = '_' := by
        intro c hc
        rw [e1] at hc
        simp only [List.mem_append] at hc
        rcases hc with hc | hc | hc | hc
        · unfold rxSign at g1
          rw [lang_opt, lang_chars] at g1
          rcases g1 with ⟨x, rfl, hx⟩ | rfl
          · simp at hc hx; subst hc; tauto
          · simp at hc
        · simp at hc; subst hc; right; right; left; decide
        · rcases of_decide_eq_true (g3.2 c hc) with h | h
          · right; right; left; unfold IsDigit; omega
          · simp [h]
        · simp at hc
      have hw : d.Whole := by
        apply whole_of_chars h
        · intro hm; exact absurd (hc _ hm) (by decide)
        · intro hm; exact absurd (hc _ hm) (by decide)
        · intro hm; exact absurd (hc _ hm) (by decide)
      refine ⟨hw, Or.inr ⟨hw, a3, ?_, g3.1, ?_⟩⟩
      · rw [whole_text hw] at e1
        have := sign_cancel (fun c hc => digit_not_sign (h.2.1 c (List.mem_of_head? hc))) g1 (v := "0".toList ++ (a3 ++ []))
          (by intro c hc; simp at hc; subst hc; decide) e1
        rw [this]; simp
      · intro c hc
        rcases of_decide_eq_true (g3.2 c hc) with h | h
        · exact h.2
        · exfalso
          subst h
          exact text_not_contains h (c := '_') (by decide) (by rw [e1]; simp [hc])
    · simp only [lang_cons, lang_nil, lang_alt, lang_lit, lang_seq] at hl
      obtain ⟨a1, r1, e1, g1, a2, r2, rfl, g2, rfl⟩ := hl
      have hall : ∀ c ∈ a2, IsDigit c ∨ c = '_' := by
        intro c hc
        rcases g2 with rfl | ⟨u, v, rfl, ⟨x, rfl, hx⟩, hv⟩
        · simp at hc; subst hc; left; decide
        · unfold rxDigitU at hv
          rw [lang_star_cls] at hv
          simp at hc
          rcases hc with rfl | hc
          · have := of_decide_eq_true hx; left; unfold IsDigit; omega
          · exact of_decide_eq_true (hv c hc)
      have hc : ∀ c ∈ d.text, c = '-' ∨ c = '+' ∨ IsDigit c ∨ c = '_' := by
        intro c hc
        rw [e1] at hc
        simp only [List.mem_append, List.append_nil] at hc
        rcases hc with hc | hc
        · unfold rxSign at g1
          rw [lang_opt, lang_chars] at g1
          rcases g1 with ⟨x, rfl, hx⟩ | rfl
          · simp at hc hx; subst hc; tauto
          · simp at hc
        · have := hall c hc; tauto
      have hw : d.Whole := by
        apply whole_of_chars h
        · intro hm; exact absurd (hc _ hm) (by decide)
        · intro hm; exact absurd (hc _ hm) (by decide)
        · intro hm; exact absurd (hc _ hm) (by decide)
      refine ⟨hw, Or.inl ?_⟩
      rw [whole_text hw, List.append_nil] at e1
      have heq := sign_cancel (fun c hc => digit_not_sign (h.2.1 c (List.mem_of_head? hc))) g1 (v := a2) (by
        intro c hc
        rcases hall c (List.mem_of_head? hc) with h | rfl
        · exact digit_not_sign h
        · decide) e1
      intro t ht
      rw [heq] at ht
      rcases g2 with rfl | ⟨u, v, rfl, ⟨x, rfl, hx⟩, hv⟩
      · simpa using ht.symm
      · exfalso
        simp at ht
        rw [ht.1] at hx
        exact absurd hx (by decide)
    · exfalso
      simp only [lang_cons, lang_lit] at hl
      obtain ⟨a1, r1, e1, g1, a2, r2, rfl, rfl, -⟩ := hl
      exact hnx (by rw [e1]; simp)
    · exfalso
      simp only [lang_cons, lang_nil] at hl
      obtain ⟨a1, r1, e1, g1, a2, r2, rfl, g2, a3, r3, rfl, g3, a4, r4, rfl, g4, rfl⟩ := hl
      have := sexagesimal_colon g4
      exact hnc (by rw [e1]; simp [this])
  · rintro ⟨hw, ho⟩
    rw [whole_text hw]
    unfold yamlIntRx
    simp only [lang_alts_cons, lang_alts_nil, or_false]
    rcases ho with hz | ⟨-, t, ht, hne, hoct⟩
    · right; right; left
      simp only [lang_cons, lang_nil]
      refine ⟨_, _, rfl, lang_sign _, d.whole, [], by simp, ?_, rfl⟩
      rw [lang_alt, lang_lit]
      obtain ⟨h1, h2, -, -⟩ := h
      cases hwh : d.whole with
      | nil => exact absurd hwh h1
      | cons c w =>
        by_cases hc : c = '0'
        · left
          subst hc
          rw [hz w hwh]; rfl
        · right
          refine ⟨[c], w, rfl, ⟨c, rfl, ?_⟩, ?_⟩
          · have hd := h2 c (by rw [hwh]; simp)
            apply decide_eq_true
            unfold IsDigit at hd
            have : c.toNat ≠ 48 := by
              intro hh
              exact hc (Char.ext (UInt32.toNat_inj.1 hh))
            omega
          · exact lang_star_cls.2 fun x hx => decide_eq_true (Or.inl (h2 x (by rw [hwh]; simp [hx])))
    · right; left
      simp only [lang_cons, lang_nil, lang_lit]
      refine ⟨_, _, rfl, lang_sign _, "0".toList, t, by rw [ht]; rfl, rfl, t, [], by simp, ?_, rfl⟩
      exact lang_plus_cls.2 ⟨hne, fun x hx => decide_eq_true (Or.inl ⟨(h.2.1 x (by rw [ht]; simp [hx])).1, hoct x hx⟩)⟩

/-- Decimal notation is not a date. -/
theorem not_timestamp {d : Decimal} (h : d.OK) : yamlTimestampRx.accepts d.text = false := by
  rw [Bool.eq_false_iff]
  intro ha
  rw [accepts_iff] at ha
  have key : ∃ a b c e r, d.text = a :: b :: c :: e :: '-' :: r ∧ IsDigit a ∧ IsDigit b ∧ IsDigit c ∧ IsDigit e := by
    unfold yamlTimestampRx at ha
    simp only [lang_alts_cons, lang_alts_nil, or_false] at ha
    have fin : ∀ l, Lang (Rx.seqs (rxDigit :: rxDigit :: rxDigit :: rxDigit :: Rx.chars ['-'] :: l)) d.text →
        ∃ a b c e r, d.text = a :: b :: c :: e :: '-' :: r ∧ IsDigit a ∧ IsDigit b ∧ IsDigit c ∧ IsDigit e := by
      intro l hl
      simp only [lang_cons, lang_chars] at hl
      obtain ⟨a1, r1, e1, ⟨x1, rfl, g1⟩, a2, r2, rfl, ⟨x2, rfl, g2⟩, a3, r3, rfl, ⟨x3, rfl, g3⟩, a4, r4, rfl, ⟨x4, rfl, g4⟩,
        a5, r5, rfl, ⟨x5, rfl, g5⟩, -⟩ := hl
      simp at g5; subst g5
      exact ⟨x1, x2, x3, x4, r5, e1, of_decide_eq_true g1, of_decide_eq_true g2, of_decide_eq_true g3, of_decide_eq_true g4⟩
    rcases ha with ha | ha
    · exact fin _ ha
    · exact fin _ ha
  clear ha
  obtain ⟨a, b, c, e, r, ht, ha, hb, hc, he⟩ := key
  obtain ⟨sg, wh, fr, ex⟩ := d
  have hsg : sg = none := by
    rcases sg with _ | s
    · rfl
    · exfalso
      cases s
      · simp [Decimal.text, signText] at ht
        rw [← ht.1] at ha; exact absurd ha (by decide)
      · simp [Decimal.text, signText] at ht
        rw [← ht.1] at ha; exact absurd ha (by decide)
  subst hsg
  obtain ⟨-, h2, -, -⟩ := h
  have htail : ∀ x, (fracText fr ++ expText ex).head? = some x → x ≠ '-' ∧ ¬ IsDigit x := by
    intro x hx
    rcases fr with _ | f
    · rcases ex with _ | ⟨cap, es, s⟩
      · simp [fracText, expText] at hx
      · cases cap <;> simp [fracText, expText] at hx <;> subst hx <;> decide
    · simp [fracText] at hx; subst hx; decide
  have e1 : (wh ++ (fracText fr ++ expText ex)).dropWhile (fun x => (digitVal x).isSome) = fracText fr ++ expText ex := by
    rw [dropWhile_blank (fun x hx => digitVal_isSome.2 (h2 x hx))]
    cases hf : fracText fr ++ expText ex with
    | nil => rfl
    | cons y ys =>
      rw [List.dropWhile_cons_of_neg]
      rw [digitVal_isSome]
      exact (htail y (by rw [hf]; rfl)).2
  simp only [Decimal.text, signText, List.nil_append] at ht
  rw [ht] at e1
  have hm : (digitVal '-').isSome = false := by decide
  simp only [List.dropWhile_cons, digitVal_isSome.2 ha, digitVal_isSome.2 hb, digitVal_isSome.2 hc, digitVal_isSome.2 he, hm, if_true,
    Bool.false_eq_true, if_false] at e1
  exact (htail '-' (by rw [← e1]; rfl)).1 rfl

/-! ## The values -/

theorem splitSign_text (a : Option Bool) {w : List Char} (hw : ∀ c, w.head? = some c → c ≠ '-' ∧ c ≠ '+') :
    splitSign (signText a ++ w) = (decide (a = some true), w) := by
  rcases a with _ | b
  · show splitSign w = _
    unfold splitSign
    split
    · exact absurd rfl (hw '-' rfl).1
    · exact absurd rfl (hw '+' rfl).2
    · rfl
  · cases b <;> rfl

theorem exponentVal_text {d : Decimal} (h : d.OK) : exponentVal (expText d.exp) = some d.exponent := by
  obtain ⟨sg, wh, fr, ex⟩ := d
  obtain ⟨-, -, -, h4⟩ := h
  rcases ex with _ | ⟨cap, es, s⟩
  · rfl
  · obtain ⟨hne, hd⟩ := h4 cap es s rfl
    have hl : asciiLower (if cap then 'E' else 'e') = 'e' := by cases cap <;> decide
    have hs := splitSign_text es (w := s) (fun c hc => digit_not_sign (hd c (List.mem_of_head? hc)))
    simp only [expText, exponentVal, hl, if_true, hs, digitsVal_digits hne hd, Decimal.exponent]
    rcases es with _ | b
    · simp [signOf]
    · cases b <;> simp [signOf]

/-- The value without the sign. -/
def magnitude (d : Decimal) : ℚ :=
  ((positional 10 d.whole : ℚ) + (positional 10 d.fracDigits : ℚ) / 10 ^ d.fracDigits.length) * (10 : ℚ) ^ d.exponent

theorem value_eq (d : Decimal) : d.value = signOf d.sign * magnitude d := rfl

/-- The text without the sign. -/
def unsigned (d : Decimal) : List Char := d.whole ++ (fracText d.frac ++ expText d.exp)

theorem unsigned_head {d : Decimal} (h : d.OK) : ∃ c s, unsigned d = c :: s ∧ IsDigit c := by
  obtain ⟨h1, h2, -, -⟩ := h
  unfold unsigned
  cases hw : d.whole with
  | nil => exact absurd hw h1
  | cons c w => exact ⟨c, _, rfl, h2 c (by rw [hw]; simp)⟩

theorem decimalVal_unsigned {d : Decimal} (h : d.OK) : decimalVal (unsigned d) = some (magnitude d) := by
  have hexp := exponentVal_text h
  obtain ⟨h1, h2, h3, h4⟩ := h
  have hex : ∀ c, (expText d.exp).head? = some c → (digitVal c).isSome = false := by
    intro c hc
    rcases hx : d.exp with _ | ⟨cap, es, s⟩
    · rw [hx] at hc; simp [expText] at hc
    · rw [hx] at hc
      cases cap <;> simp [expText] at hc <;> subst hc <;> decide
  have hsf : splitFraction (fracText d.frac ++ expText d.exp) = (d.fracDigits, expText d.exp) := by
    unfold Decimal.fracDigits
    cases hf : d.frac with
    | none =>
      show splitFraction (expText d.exp) = ([], expText d.exp)
      rcases d.exp with _ | ⟨cap, es, s⟩
      · rfl
      · cases cap <;> rfl
    | some f =>
      show (f ++ expText d.exp).span _ = (f, expText d.exp)
      exact span_digits (fun c hc => digitVal_isSome.2 (h3 f hf c hc)) hex
  have hspan : (unsigned d).span (fun c => (digitVal c).isSome) = (d.whole, fracText d.frac ++ expText d.exp) := by
    unfold unsigned
    apply span_digits (fun c hc => digitVal_isSome.2 (h2 c hc))
    intro c hc
    rcases hf : d.frac with _ | f
    · rw [hf] at hc; exact hex c hc
    · rw [hf] at hc; simp [fracText] at hc; subst hc; decide
  have hfd : ∀ c ∈ d.fracDigits, IsDigit c := by
    intro c hc
    unfold Decimal.fracDigits at hc
    cases hf : d.frac with
    | none => rw [hf] at hc; simp at hc
    | some f => rw [hf] at hc; exact h3 f hf c hc
  unfold decimalVal
  simp only [hspan, hsf]
  rw [if_neg (fun hh => h1 hh.1), hexp, Option.map_some, digitsVal0_digits h2, digitsVal0_digits hfd]
  rfl

theorem text_unsigned (d : Decimal) : d.text = signText d.sign ++ unsigned d := rfl

theorem splitSign_decimal {d : Decimal} (h : d.OK) : splitSign d.text = (decide (d.sign = some true), unsigned d) := by
  rw [text_unsigned]
  obtain ⟨c, s, h1, h2⟩ := unsigned_head h
  exact splitSign_text _ (by intro x hx; rw [h1] at hx; cases hx; exact digit_not_sign h2)

theorem lower_digit {c : Char} (h : IsDigit c) : asciiLower c = c := by
  unfold asciiLower
  have a2 : ('A' : Char).toNat = 65 := rfl
  rw [if_neg]
  rw [a2]; unfold IsDigit at h; omega

/-- Python's `float` reads decimal notation. -/
theorem pyFloat_decimal {d : Decimal} (h : d.OK) : pyFloat d.text = .ok (.fin d.value) := by
  have hsp : ∀ c ∈ d.text, isPySpace c = false := by
    intro c hc
    rcases text_chars h c hc with hd | rfl | rfl | rfl | rfl | rfl
    · exact not_space_of_digit (digitVal_isSome.2 hd)
    all_goals decide
  unfold pyFloat
  simp only
  rw [pyStrip_trimmed (trimmed_of_all hsp), splitSign_decimal h]
  obtain ⟨c, s, h1, h2⟩ := unsigned_head h
  have hlow : ∀ w : List Char, (∀ a, w.head? = some a → ¬ IsDigit a) → (unsigned d).map asciiLower ≠ w := by
    rintro w hw rfl
    exact hw c (by rw [h1]; simp [lower_digit h2]) h2
  simp only
  rw [if_neg, if_neg, decimalVal_unsigned h]
  · rw [value_eq]
    rcases d.sign with _ | b
    · simp [signOf]
    · cases b <;> simp [signOf]
  · exact hlow _ (by intro a ha; cases ha; decide)
  · rintro (h | h)
    · exact hlow _ (by intro a ha; cases ha; decide) h
    · exact hlow _ (by intro a ha; cases ha; decide) h

/-- Decimal notation in lower case. -/
def lowered (d : Decimal) : Decimal := { d with exp := d.exp.map fun x => (false, x.2) }

theorem lowered_ok {d : Decimal} (h : d.OK) : (lowered d).OK := by
  obtain ⟨h1, h2, h3, h4⟩ := h
  refine ⟨h1, h2, h3, ?_⟩
  intro cap sg s hs
  simp only [lowered, Option.map_eq_some_iff] at hs
  obtain ⟨⟨cap', sg', s'⟩, hx, he⟩ := hs
  simp only [Prod.mk.injEq] at he
  obtain ⟨-, rfl, rfl⟩ := he
  exact h4 cap' sg' s' hx

theorem lowered_value (d : Decimal) : (lowered d).value = d.value := by
  obtain ⟨sg, wh, fr, ex⟩ := d
  rcases ex with _ | ⟨cap, es, s⟩ <;> rfl

theorem no_underscore {d : Decimal} (h : d.OK) : (d.text.filter fun c => decide (c ≠ '_')) = d.text := by
  rw [List.filter_eq_self]
  intro c hc
  apply decide_eq_true
  rintro rfl
  exact text_not_contains h (by decide) hc

theorem map_lower_digits {s : List Char} (h : ∀ c ∈ s, IsDigit c) : s.map asciiLower = s := by
  rw [List.map_congr_left (fun c hc => lower_digit (h c hc))]
  simp

theorem lowered_text {d : Decimal} (h : d.OK) : d.text.map asciiLower = (lowered d).text := by
  obtain ⟨sg, wh, fr, ex⟩ := d
  obtain ⟨h1, h2, h3, h4⟩ := h
  have hs : ∀ a, (signText a).map asciiLower = signText a := by
    intro a
    rcases a with _ | b
    · rfl
    · cases b <;> rfl
  simp only [Decimal.text, lowered, List.map_append, hs]
  rw [map_lower_digits h2]
  congr 2
  congr 1
  · rcases fr with _ | f
    · rfl
    · simp only [fracText, List.map_cons]
      rw [map_lower_digits (h3 f rfl)]; rfl
  · rcases ex with _ | ⟨cap, es, s⟩
    · rfl
    · simp only [expText, Option.map_some, List.map_cons, List.map_append, hs]
      rw [map_lower_digits (h4 cap es s rfl).2]
      cases cap <;> rfl

/-- The constructor of floats reads decimal notation. -/
theorem yamlFloat_decimal {d : Decimal} (h : d.OK) : yamlFloat d.text = .ok (.float (.fin d.value)) := by
  have hl := lowered_ok h
  obtain ⟨c, s, h1, h2⟩ := unsigned_head hl
  have hne : ∀ w : List Char, (∀ a, w.head? = some a → ¬ IsDigit a) → unsigned (lowered d) ≠ w := by
    rintro w hw rfl
    exact hw c (by rw [h1]; rfl) h2
  have hcol : ':' ∉ unsigned (lowered d) := by
    intro hm
    exact text_not_contains hl (c := ':') (by decide) (by rw [text_unsigned]; simp [hm])
  unfold yamlFloat
  simp only
  rw [no_underscore h, lowered_text h, splitSign_decimal hl]
  simp only
  rw [if_neg (hne _ (by intro a ha; cases ha; decide)), if_neg (hne _ (by intro a ha; cases ha; decide)), if_neg hcol]
  unfold yamlDecimal
  rw [decimalVal_unsigned hl, ← lowered_value, value_eq]
  simp only [Except.map]
  rcases (lowered d).sign with _ | b
  · simp [signOf]
  · cases b <;> simp [signOf]

theorem whole_unsigned {d : Decimal} (hw : d.Whole) : unsigned d = d.whole := by
  unfold unsigned
  rw [hw.1, hw.2]; simp [fracText, expText]

/-- The constructor of integers, without zeros in front. -/
theorem yamlInt_decimal {d : Decimal} (h : d.OK) (hw : d.Whole) (hz : NoLeadingZero d.whole) :
    yamlInt d.text = .ok (.int (signOf d.sign * positional 10 d.whole)) := by
  unfold yamlInt
  simp only
  rw [no_underscore h, splitSign_decimal h, whole_unsigned hw]
  obtain ⟨h1, h2, -, -⟩ := h
  have hcol : ':' ∉ d.whole := fun hm => absurd (h2 _ hm) (by decide)
  have hm : yamlMagnitude d.whole = .ok (positional 10 d.whole : ℕ) := by
    cases hwh : d.whole with
    | nil => exact absurd hwh h1
    | cons c w =>
      by_cases hc : c = '0'
      · subst hc
        rw [hz w hwh]; rfl
      · rw [hwh] at hcol h2
        unfold yamlMagnitude
        split
        · rename_i heq; cases heq; exact absurd rfl hc
        · rename_i heq; cases heq; exact absurd rfl hc
        · rename_i heq; cases heq; exact absurd rfl hc
        · rename_i heq; cases heq; exact absurd rfl hc
        · rw [if_neg hcol]
          apply intBase_digits (by simp)
          intro x hx
          have := h2 x hx
          refine ⟨this, ?_⟩
          unfold IsDigit at this
          omega
  simp only
  rw [hm]
  simp only [Except.map]
  rcases d.sign with _ | b
  · simp [signOf]
  · cases b <;> simp [signOf]

/-- The constructor of integers, with zeros in front: octal. -/
theorem yamlInt_octal {d : Decimal} (h : d.OK) (ho : d.Octal) :
    yamlInt d.text = .ok (.int (signOf d.sign * positional 8 d.whole)) := by
  obtain ⟨hw, t, ht, hne, hoct⟩ := ho
  unfold yamlInt
  simp only
  rw [no_underscore h, splitSign_decimal h, whole_unsigned hw]
  obtain ⟨h1, h2, -, -⟩ := h
  have hm : yamlMagnitude d.whole = .ok (positional 8 d.whole : ℕ) := by
    rw [ht] at h2 ⊢
    cases t with
    | nil => exact absurd rfl hne
    | cons x t =>
      have hx := h2 x (by simp)
      have hb : yamlMagnitude ('0' :: x :: t) = intBase 8 ('0' :: x :: t) := by
        unfold yamlMagnitude
        split
        · rename_i heq; cases heq
        · rename_i heq; cases heq; exact absurd hx (by decide)
        · rename_i heq; cases heq; exact absurd hx (by decide)
        · rename_i heq; cases heq; rfl
        · rename_i hh; exact absurd rfl (hh _)
      rw [hb]
      apply intBase_digits (by simp)
      intro y hy
      refine ⟨h2 y hy, ?_⟩
      rw [List.mem_cons] at hy
      rcases hy with rfl | hy
      · decide
      · have := hoct y hy; omega
  simp only
  rw [hm]
  simp only [Except.map]
  rcases d.sign with _ | b
  · simp [signOf]
  · cases b <;> simp [signOf]

/-- The value of a whole number. -/
theorem whole_value {d : Decimal} (hw : d.Whole) : d.value = ((signOf d.sign * positional 10 d.whole : ℤ) : ℚ) := by
  obtain ⟨sg, wh, fr, ex⟩ := d
  obtain ⟨h1, h2⟩ := hw
  simp only at h1 h2
  subst h1 h2
  simp [Decimal.value, Decimal.fracDigits, Decimal.exponent, positional]

/-! ## Plain scalars -/

theorem scalar_decimal {d : Decimal} (h : d.OK) : yamlScalar d.text =
    if yamlFloatRx.accepts d.text then .ok (.float (.fin d.value))
    else if yamlIntRx.accepts d.text then yamlInt d.text
    else .ok (.str (String.ofList d.text)) := by
  have hword : ∀ w ∈ yamlTrue ++ yamlFalse ++ yamlNull ++ ["<<".toList, "=".toList], d.text ≠ w := by
    have hall : ∀ w ∈ yamlTrue ++ yamlFalse ++ yamlNull ++ ["<<".toList, "=".toList], w.head?.all (fun c => !decide (StartChar c)) = true := by decide
    intro w hw
    apply text_not_word h
    intro c hc
    have := hall w hw
    rw [hc] at this
    simpa using this
  have hT : d.text ∉ yamlTrue := fun hm => hword d.text (by simp [hm]) rfl
  have hF : d.text ∉ yamlFalse := fun hm => hword d.text (by simp [hm]) rfl
  have hN : d.text ∉ yamlNull := fun hm => hword d.text (by simp [hm]) rfl
  have hM : d.text ≠ "<<".toList := hword _ (by simp)
  have hE : d.text ≠ "=".toList := hword _ (by simp)
  unfold yamlScalar
  rw [if_neg hT, if_neg hF, if_neg hM, if_neg hN, if_neg hE, yamlFloat_decimal h, not_timestamp h]
  simp

end Verif.Lemmas
