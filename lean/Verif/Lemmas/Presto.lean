import Verif.Spec.Presto
import Mathlib.Data.Nat.Digits.Lemmas
import Mathlib.Tactic.IntervalCases
import Mathlib.Tactic.NormNum
import Mathlib.Tactic.Ring

/-!
# Lemmas about the PRESTO parser
-/

namespace Verif.Lemmas

open Verif.Model Verif.Spec

theorem pySplitlines_cons {c : Char} {cs : List Char} (h : isLineBreak c = false) :
    pySplitlines (c :: cs) = consHead c (pySplitlines cs) := by
  have hc : c ≠ '\r' := by rintro rfl; revert h; decide
  rw [pySplitlines]
  · simp [h]
  · intro cs' h1; exact absurd h1 hc

theorem pySplitlines_nl (cs : List Char) : pySplitlines ('\n' :: cs) = [] :: pySplitlines cs := by
  rw [pySplitlines]
  · simp [show isLineBreak '\n' = true by decide]
  · intro cs' h1; exact absurd h1 (by decide)

theorem pySplitlines_line : ∀ (l rest : List Char), OneLine l → pySplitlines (l ++ '\n' :: rest) = l :: pySplitlines rest := by
  intro l
  induction l with
  | nil => intro rest _; exact pySplitlines_nl rest
  | cons c l ih =>
    intro rest h
    rw [List.cons_append, pySplitlines_cons (h c (by simp)), ih rest (fun x hx => h x (by simp [hx]))]
    rfl

theorem pySplitlines_single : ∀ (l : List Char), OneLine l → l ≠ [] → pySplitlines l = [l] := by
  intro l
  induction l with
  | nil => intro _ h; exact absurd rfl h
  | cons c l ih =>
    intro h _
    rw [pySplitlines_cons (h c (by simp))]
    by_cases hl : l = []
    · subst hl; rfl
    · rw [ih (fun x hx => h x (by simp [hx])) hl]; rfl

theorem rdropWhile_append_last {p : Char → Bool} {X R : List Char} (hX : ∀ c, X.getLast? = some c → p c = false) (hne : X ≠ []) :
    (X ++ R).rdropWhile p = X ++ R.rdropWhile p := by
  unfold List.rdropWhile
  rw [List.reverse_append, List.dropWhile_append]
  have hdrop : X.reverse.dropWhile p = X.reverse := by
    cases hr : X.reverse with
    | nil => rfl
    | cons a l =>
      have hla : X.getLast? = some a := by rw [← List.head?_reverse, hr]; rfl
      rw [List.dropWhile_cons_of_neg (by simp [hX a hla])]
  split_ifs with he
  · rw [List.isEmpty_iff] at he
    rw [hdrop, he]; simp
  · rw [List.reverse_append, List.reverse_reverse]

theorem dropWhile_blank {p : Char → Bool} {b s : List Char} (hb : ∀ c ∈ b, p c = true) : (b ++ s).dropWhile p = s.dropWhile p := by
  induction b with
  | nil => rfl
  | cons a b ih =>
    rw [List.cons_append, List.dropWhile_cons_of_pos (hb a (by simp)), ih (fun c hc => hb c (by simp [hc]))]

/-- Stripping removes the white space around a trimmed text. -/
theorem pyStrip_pad {b1 s b2 : List Char} (h1 : Blank b1) (h2 : Blank b2) (hs : Trimmed s) : pyStrip (b1 ++ s ++ b2) = s := by
  unfold pyStrip pyStripWith
  rw [List.append_assoc, dropWhile_blank h1]
  by_cases hne : s = []
  · subst hne
    rw [List.nil_append]
    have : b2.dropWhile isPySpace = [] := by rw [List.dropWhile_eq_nil_iff]; exact h2
    rw [this]; rfl
  · have hhead : (s ++ b2).dropWhile isPySpace = s ++ b2 := by
      cases s with
      | nil => exact absurd rfl hne
      | cons a l => rw [List.cons_append, List.dropWhile_cons_of_neg (by simp [hs.1 a rfl])]
    rw [hhead, rdropWhile_append_last hs.2 hne]
    have : b2.rdropWhile isPySpace = [] := by rw [List.rdropWhile_eq_nil_iff]; exact h2
    rw [this, List.append_nil]

theorem pyStrip_trimmed {s : List Char} (hs : Trimmed s) : pyStrip s = s := by
  have := pyStrip_pad (b1 := []) (b2 := []) (by intro c hc; simp at hc) (by intro c hc; simp at hc) hs
  simpa using this

theorem parseInfValue_line {α : Type} (l : InfLine) (h : l.OK) (vtype : List Char → Except PyErr α) :
    parseInfValue l.text vtype = vtype l.value := by
  obtain ⟨h1, -, -, -, -, h6, h7, h8⟩ := h
  unfold parseInfValue InfLine.text
  have e1 : (l.label ++ '=' :: (l.before ++ l.value ++ l.after))[40]? = some '=' := by
    rw [List.getElem?_append_right (by omega), h1]; rfl
  have e2 : (l.label ++ '=' :: (l.before ++ l.value ++ l.after)).drop 41 = l.before ++ l.value ++ l.after := by
    rw [List.drop_append, List.drop_of_length_le (by omega), h1]; rfl
  rw [if_pos e1, e2, pyStrip_pad h6 h7 h8]

theorem _root_.Verif.Spec.InfLine.text_oneLine {l : InfLine} (h : l.OK) : OneLine l.text := by
  obtain ⟨h1, h2, h3, h4, h5, -⟩ := h
  intro c hc
  unfold InfLine.text at hc
  simp only [List.mem_append, List.mem_cons] at hc
  rcases hc with hc | rfl | (hc | hc) | hc
  · exact h2 c hc
  · decide
  · exact h3 c hc
  · exact h4 c hc
  · exact h5 c hc

theorem _root_.Verif.Spec.InfLine.text_ne_nil (l : InfLine) : l.text ≠ [] := by unfold InfLine.text; simp

theorem splitlines_lines : ∀ (ls : List InfLine) (rest : List Char), (∀ l ∈ ls, l.OK) →
    pySplitlines (linesText ls ++ rest) = ls.map InfLine.text ++ pySplitlines rest := by
  intro ls
  induction ls with
  | nil => intro rest _; simp [linesText]
  | cons l ls ih =>
    intro rest h
    have e : linesText (l :: ls) ++ rest = l.text ++ '\n' :: (linesText ls ++ rest) := by simp [linesText]
    rw [e, pySplitlines_line _ _ (InfLine.text_oneLine (h l (by simp))), ih rest (fun x hx => h x (by simp [hx]))]
    rfl

/-- The lines found by the parser begin with those of the file. -/
theorem splitlines_strip (ls : List InfLine) (tail : List Char) (hne : ls ≠ []) (h : ∀ l ∈ ls, l.OK) :
    ∃ more, pySplitlines (pyStripWith (· == '\n') (linesText ls ++ tail)) = ls.map InfLine.text ++ more := by
  obtain ⟨init, last, rfl⟩ : ∃ init last, ls = init ++ [last] := ⟨ls.dropLast, ls.getLast hne, (List.dropLast_append_getLast hne).symm⟩
  have hlast : last.OK := h last (by simp)
  have hinit : ∀ l ∈ init, l.OK := fun l hl => h l (by simp [hl])
  have e : linesText (init ++ [last]) ++ tail = (linesText init ++ last.text) ++ ('\n' :: tail) := by simp [linesText]
  rw [e]
  have hX : linesText init ++ last.text ≠ [] := by simp [InfLine.text_ne_nil]
  have hhead : ∀ c, (linesText init ++ last.text).head? = some c → (c == '\n') = false := by
    intro c hc
    have key : ∀ l : InfLine, l.OK → ∀ rest, (l.text ++ rest).head? = some c → (c == '\n') = false := by
      intro l hl rest hr
      have hmem : c ∈ l.text := by
        cases ht : l.text with
        | nil => exact absurd ht (InfLine.text_ne_nil l)
        | cons a t => rw [ht] at hr; simp at hr; simp [hr]
      have := InfLine.text_oneLine hl c hmem
      by_contra hcon
      simp only [Bool.not_eq_false, beq_iff_eq] at hcon
      rw [hcon] at this
      revert this; decide
    cases init with
    | nil => exact key last hlast [] (by simpa [linesText] using hc)
    | cons l init =>
      exact key l (hinit l (by simp)) ('\n' :: (linesText init ++ last.text)) (by simpa [linesText] using hc)
  have hlastc : ∀ c, (linesText init ++ last.text).getLast? = some c → (c == '\n') = false := by
    intro c hc
    have hmem : c ∈ last.text := by
      rw [List.getLast?_append_of_ne_nil _ (InfLine.text_ne_nil last)] at hc
      exact List.mem_of_getLast? hc
    have := InfLine.text_oneLine hlast c hmem
    by_contra hcon
    simp only [Bool.not_eq_false, beq_iff_eq] at hcon
    rw [hcon] at this
    revert this; decide
  unfold pyStripWith
  have hd : ((linesText init ++ last.text) ++ ('\n' :: tail)).dropWhile (· == '\n') = (linesText init ++ last.text) ++ ('\n' :: tail) := by
    cases hx : linesText init ++ last.text with
    | nil => exact absurd hx hX
    | cons a t =>
      rw [List.cons_append, List.dropWhile_cons_of_neg]
      have := hhead a (by rw [hx]; rfl)
      simpa using this
  rw [hd, rdropWhile_append_last hlastc hX]
  have hpre := List.rdropWhile_prefix (fun c => c == '\n') (l := '\n' :: tail)
  cases hR : ('\n' :: tail).rdropWhile (fun c => c == '\n') with
  | nil =>
    refine ⟨[], ?_⟩
    rw [List.append_nil, splitlines_lines _ _ hinit, pySplitlines_single _ (InfLine.text_oneLine hlast) (InfLine.text_ne_nil last)]
    simp
  | cons a r =>
    rw [hR] at hpre
    have ha : a = '\n' := by
      obtain ⟨t, ht⟩ := hpre
      simp at ht
      exact ht.1
    subst ha
    refine ⟨pySplitlines r, ?_⟩
    rw [List.append_assoc, splitlines_lines _ _ hinit, pySplitlines_line _ _ (InfLine.text_oneLine hlast)]
    simp

/-! ## Numbers -/

theorem digitVal_digitChar {d : ℕ} (h : d < 10) : digitVal (Nat.digitChar d) = some d := by
  interval_cases d <;> decide

theorem isPySpace_digitChar {d : ℕ} (h : d < 10) : isPySpace (Nat.digitChar d) = false := by
  interval_cases d <;> decide

theorem foldl_digits (ds : List ℕ) : ds.foldl (fun a d => 10 * a + d) 0 = Nat.ofDigits 10 ds.reverse := by
  induction ds using List.reverseRecOn with
  | nil => rfl
  | append_singleton l d ih =>
    rw [List.foldl_append, ih]
    simp [Nat.ofDigits_cons]
    ring

theorem _root_.Verif.Spec.DigitsText.val {s : List Char} {n : ℕ} (h : DigitsText s n) : digitsVal s = some n := by
  obtain ⟨ds, hne, hd, rfl, rfl⟩ := h
  unfold digitsVal
  rw [if_neg (by simpa using hne)]
  have : (ds.map Nat.digitChar).mapM digitVal = some ds := by
    clear hne
    induction ds with
    | nil => rfl
    | cons a l ih =>
      simp only [List.map_cons, List.mapM_cons]
      rw [digitVal_digitChar (hd a (by simp)), ih (fun d hdm => hd d (by simp [hdm]))]
      rfl
  rw [this, Option.map_some, foldl_digits]

theorem _root_.Verif.Spec.DigitsText.isDigit {s : List Char} {n : ℕ} (h : DigitsText s n) : ∀ c ∈ s, (digitVal c).isSome = true := by
  obtain ⟨ds, -, hd, rfl, -⟩ := h
  intro c hc
  rw [List.mem_map] at hc
  obtain ⟨d, hdm, rfl⟩ := hc
  rw [digitVal_digitChar (hd d hdm)]; rfl

theorem _root_.Verif.Spec.DigitsText.ne_nil {s : List Char} {n : ℕ} (h : DigitsText s n) : s ≠ [] := by
  obtain ⟨ds, hne, -, rfl, -⟩ := h
  simpa using hne

theorem not_space_of_digit {c : Char} (h : (digitVal c).isSome = true) : isPySpace c = false := by
  unfold digitVal at h
  split_ifs at h with hc
  · have h0 : ('0' : Char).toNat = 48 := rfl
    have h9 : ('9' : Char).toNat = 57 := rfl
    unfold isPySpace
    rw [h0, h9] at hc
    simp only [List.mem_cons, List.not_mem_nil, or_false, decide_eq_false_iff_not]
    omega
  · cases h

theorem trimmed_of_all {s : List Char} (h : ∀ c ∈ s, isPySpace c = false) : Trimmed s :=
  ⟨fun c hc => h c (List.mem_of_head? hc), fun c hc => h c (List.mem_of_getLast? hc)⟩

theorem splitSign_digit {c : Char} {s : List Char} (h : (digitVal c).isSome = true) : splitSign (c :: s) = (false, c :: s) := by
  unfold splitSign
  split
  · rename_i heq; cases heq; exact absurd h (by decide)
  · rename_i heq; cases heq; exact absurd h (by decide)
  · rfl

theorem _root_.Verif.Spec.IntText.noSpace {s : List Char} {i : ℤ} (h : IntText s i) : ∀ c ∈ s, isPySpace c = false := by
  obtain ⟨n, ⟨hd, -⟩ | ⟨t, rfl, hd, -⟩⟩ := h
  · exact fun c hc => not_space_of_digit (hd.isDigit c hc)
  · intro c hc
    rw [List.mem_cons] at hc
    rcases hc with rfl | hc
    · decide
    · exact not_space_of_digit (hd.isDigit c hc)

theorem _root_.Verif.Spec.IntText.val {s : List Char} {i : ℤ} (h : IntText s i) {b1 b2 : List Char} (h1 : Blank b1) (h2 : Blank b2) :
    pyInt (b1 ++ s ++ b2) = .ok i := by
  unfold pyInt
  simp only
  rw [pyStrip_pad h1 h2 (trimmed_of_all h.noSpace)]
  obtain ⟨n, ⟨hd, rfl⟩ | ⟨t, rfl, hd, rfl⟩⟩ := h
  · cases s with
    | nil => exact absurd rfl hd.ne_nil
    | cons c s =>
      rw [splitSign_digit (hd.isDigit c (by simp))]
      simp only
      rw [hd.val]; rfl
  · simp only [splitSign, hd.val]; rfl

theorem _root_.Verif.Spec.IntText.val' {s : List Char} {i : ℤ} (h : IntText s i) : pyInt s = .ok i := by
  have := h.val (b1 := []) (b2 := []) (by intro c hc; simp at hc) (by intro c hc; simp at hc)
  simpa using this

theorem span_digits {p : Char → Bool} {s r : List Char} (hs : ∀ c ∈ s, p c = true) (hr : ∀ c, r.head? = some c → p c = false) :
    (s ++ r).span p = (s, r) := by
  rw [List.span_eq_takeWhile_dropWhile]
  have h1 : (s ++ r).dropWhile p = r := by
    rw [dropWhile_blank hs]
    cases r with
    | nil => rfl
    | cons a r => rw [List.dropWhile_cons_of_neg (by simp [hr a rfl])]
  have h2 := List.takeWhile_append_dropWhile (p := p) (l := s ++ r)
  rw [h1] at h2
  rw [h1, List.append_cancel_right h2]

theorem _root_.Verif.Spec.ExponentText.val {s : List Char} {e : ℤ} (h : ExponentText s e) : exponentVal s = some e := by
  rcases h with ⟨rfl, rfl⟩ | ⟨t, n, ⟨rfl, hd, rfl⟩ | ⟨rfl, hd, rfl⟩⟩
  · rfl
  · simp [exponentVal, splitSign, hd.val, show asciiLower 'e' = 'e' by decide]
  · simp [exponentVal, splitSign, hd.val, show asciiLower 'e' = 'e' by decide]

theorem _root_.Verif.Spec.ExponentText.head {s : List Char} {e : ℤ} (h : ExponentText s e) : s.head? = none ∨ s.head? = some 'e' := by
  rcases h with ⟨rfl, rfl⟩ | ⟨t, n, ⟨rfl, hd, rfl⟩ | ⟨rfl, hd, rfl⟩⟩ <;> simp

theorem decimalVal_text {ip fp ex : List Char} {n : ℕ} {f : ℚ} {e : ℤ} (h1 : DigitsText ip n) (h2 : FractionText fp f)
    (h3 : ExponentText ex e) : decimalVal (ip ++ (fp ++ ex)) = some ((n + f) * (10 : ℚ) ^ e) := by
  have hex : ∀ c, ex.head? = some c → (digitVal c).isSome = false := by
    intro c hc
    rcases h3.head with h | h
    · rw [h] at hc; cases hc
    · rw [h] at hc; cases hc; decide
  have hsf : ∃ ds, splitFraction (fp ++ ex) = (ds, ex) ∧ (digitsVal0 ds : ℚ) / 10 ^ ds.length = f := by
    rcases h2 with ⟨rfl, rfl⟩ | ⟨t, m, rfl, hd, rfl⟩
    · refine ⟨[], ?_, by simp [digitsVal0, digitsVal]⟩
      rw [List.nil_append]
      rcases h3 with ⟨rfl, -⟩ | ⟨t, m, ⟨rfl, -, -⟩ | ⟨rfl, -, -⟩⟩ <;> rfl
    · refine ⟨t, ?_, by unfold digitsVal0; rw [hd.val]; rfl⟩
      rw [List.cons_append]
      simp only [splitFraction]
      exact span_digits hd.isDigit hex
  have hspan : (ip ++ (fp ++ ex)).span (fun c => (digitVal c).isSome) = (ip, fp ++ ex) := by
    apply span_digits h1.isDigit
    intro c hc
    rcases h2 with ⟨rfl, rfl⟩ | ⟨t, m, rfl, hd, rfl⟩
    · exact hex c hc
    · simp at hc; subst hc; decide
  obtain ⟨ds, hs1, hs2⟩ := hsf
  unfold decimalVal
  simp only [hspan, hs1]
  rw [if_neg (fun h => h1.ne_nil h.1), h3.val, Option.map_some, hs2]
  unfold digitsVal0
  rw [h1.val]; rfl

theorem _root_.Verif.Spec.FloatText.val {s : List Char} {x : ℚ} (h : FloatText s x) : pyFloat s = .ok (.fin x) := by
  obtain ⟨neg, ip, fp, ex, n, f, e, h1, h2, h3, rfl, rfl⟩ := h
  have hchars : ∀ c ∈ ip ++ (fp ++ ex), isPySpace c = false := by
    intro c hc
    simp only [List.mem_append] at hc
    rcases hc with hc | hc | hc
    · exact not_space_of_digit (h1.isDigit c hc)
    · rcases h2 with ⟨rfl, -⟩ | ⟨t, m, rfl, hd, -⟩
      · simp at hc
      · rw [List.mem_cons] at hc
        rcases hc with rfl | hc
        · decide
        · exact not_space_of_digit (hd.isDigit c hc)
    · rcases h3 with ⟨rfl, -⟩ | ⟨t, m, ⟨rfl, hd, -⟩ | ⟨rfl, hd, -⟩⟩
      · simp at hc
      · simp only [List.mem_cons] at hc
        rcases hc with rfl | rfl | hc
        · decide
        · decide
        · exact not_space_of_digit (hd.isDigit c hc)
      · simp only [List.mem_cons] at hc
        rcases hc with rfl | rfl | hc
        · decide
        · decide
        · exact not_space_of_digit (hd.isDigit c hc)
  obtain ⟨c0, s0, hs0⟩ : ∃ c0 s0, ip ++ (fp ++ ex) = c0 :: s0 := by
    cases hh : ip ++ (fp ++ ex) with
    | nil => rw [List.append_eq_nil_iff] at hh; exact absurd hh.1 h1.ne_nil
    | cons a l => exact ⟨a, l, rfl⟩
  have hc0 : (digitVal c0).isSome = true := by
    have : c0 ∈ ip := by
      cases ip with
      | nil => exact absurd rfl h1.ne_nil
      | cons a l => simp at hs0; simp [hs0.1]
    exact h1.isDigit c0 this
  have hsign : splitSign ((if neg then ['-'] else []) ++ (ip ++ (fp ++ ex))) = (neg, ip ++ (fp ++ ex)) := by
    cases neg
    · simp only [Bool.false_eq_true, if_false, List.nil_append]
      rw [hs0, splitSign_digit hc0]
    · rfl
  have hlow : ∀ w : List Char, (∀ a, w.head? = some a → (digitVal a).isSome = false) → (ip ++ (fp ++ ex)).map asciiLower ≠ w := by
    intro w hw heq
    rw [hs0] at heq
    have hl : asciiLower c0 = c0 := by
      unfold asciiLower
      unfold digitVal at hc0
      split_ifs at hc0 with hcc
      · rw [if_neg]
        have a1 : ('9' : Char).toNat = 57 := rfl
        have a2 : ('A' : Char).toNat = 65 := rfl
        rw [a1] at hcc; rw [a2]; omega
      · cases hc0
    have := hw c0 (by rw [← heq]; simp [hl])
    rw [hc0] at this; cases this
  unfold pyFloat
  simp only
  rw [pyStrip_trimmed, hsign]
  · simp only
    rw [if_neg, if_neg, decimalVal_text h1 h2 h3]
    · cases neg <;> simp
    · exact hlow _ (by intro a ha; cases ha; decide)
    · rintro (h | h)
      · exact hlow _ (by intro a ha; cases ha; decide) h
      · exact hlow _ (by intro a ha; cases ha; decide) h
  · apply trimmed_of_all
    intro c hc
    rw [List.mem_append] at hc
    rcases hc with hc | hc
    · cases neg
      · simp at hc
      · simp at hc; subst hc; decide
    · exact hchars c hc

theorem splitComma_single : ∀ s : List Char, ',' ∉ s → splitComma s = [s] := by
  intro s
  induction s with
  | nil => intro _; rfl
  | cons c s ih =>
    intro h
    rw [List.mem_cons, not_or] at h
    rw [splitComma, if_neg (Ne.symm h.1), ih h.2]; rfl

theorem splitComma_pair : ∀ s t : List Char, ',' ∉ s → ',' ∉ t → splitComma (s ++ ',' :: t) = [s, t] := by
  intro s
  induction s with
  | nil => intro t _ ht; simp [splitComma, splitComma_single t ht]
  | cons c s ih =>
    intro t h ht
    rw [List.mem_cons, not_or] at h
    rw [List.cons_append, splitComma, if_neg (Ne.symm h.1), ih t h.2 ht]; rfl

theorem comma_notin_blank {b : List Char} (h : Blank b) : ',' ∉ b := by
  intro hm
  have := h _ hm
  revert this; decide

theorem comma_notin_int {s : List Char} {i : ℤ} (h : IntText s i) : ',' ∉ s := by
  intro hm
  obtain ⟨n, ⟨hd, -⟩ | ⟨t, rfl, hd, -⟩⟩ := h
  · have := hd.isDigit _ hm; revert this; decide
  · rw [List.mem_cons] at hm
    rcases hm with hm | hm
    · revert hm; decide
    · have := hd.isDigit _ hm; revert this; decide

theorem _root_.Verif.Spec.PairText.val {s : List Char} {a b : ℤ} (h : PairText s a b) : parseIntPair s = .ok (.list [.int a, .int b]) := by
  obtain ⟨s1, s2, b1, b2, b3, b4, h1, h2, c1, c2, c3, c4, rfl⟩ := h
  unfold parseIntPair
  rw [splitComma_pair]
  · simp only
    rw [h1.val c1 c2, h2.val c3 c4]; rfl
  · simp only [List.mem_append, not_or]
    exact ⟨⟨comma_notin_blank c1, comma_notin_int h1⟩, comma_notin_blank c2⟩
  · simp only [List.mem_append, not_or]
    exact ⟨⟨comma_notin_blank c3, comma_notin_int h2⟩, comma_notin_blank c4⟩

end Verif.Lemmas
