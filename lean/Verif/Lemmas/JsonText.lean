import Verif.Lemmas.Presto
import Verif.Spec.JsonGrammar
import Verif.Model.JsonText
import Mathlib.Tactic.IntervalCases

/-!
# Strings and numbers of JSON texts
-/

namespace Verif.Lemmas

open Verif.Model Verif.Spec

/-! ## White space -/

theorem isJsonWs_iff {c : Char} : isJsonWs c = true ↔ c = ' ' ∨ c = '\t' ∨ c = '\n' ∨ c = '\r' := by
  unfold isJsonWs
  simp [or_assoc]

theorem skipWs_append {w : List Char} (hw : JsonWs w) (s : List Char) : skipWs (w ++ s) = skipWs s := by
  unfold skipWs
  rw [List.dropWhile_append_of_pos fun c hc => isJsonWs_iff.mpr (hw c hc)]

theorem skipWs_cons {c : Char} (hc : isJsonWs c = false) (s : List Char) : skipWs (c :: s) = c :: s := by
  unfold skipWs
  rw [List.dropWhile_cons_of_neg (by simp [hc])]

theorem skipWs_split (s : List Char) : ∃ w, JsonWs w ∧ s = w ++ skipWs s := by
  refine ⟨s.takeWhile isJsonWs, fun c hc => isJsonWs_iff.mp ((List.mem_takeWhile_imp hc)), ?_⟩
  unfold skipWs
  exact (List.takeWhile_append_dropWhile ..).symm

theorem skipWs_nil {w : List Char} (hw : JsonWs w) : skipWs w = [] := by
  have := skipWs_append hw []
  simpa [skipWs] using this

theorem skipWs_eq_nil {s : List Char} (h : skipWs s = []) : JsonWs s := by
  obtain ⟨w, hw, e⟩ := skipWs_split s
  rw [h, List.append_nil] at e
  rw [e]
  exact hw

theorem skipWs_length (s : List Char) : (skipWs s).length ≤ s.length := List.length_dropWhile_le ..

theorem head_tail {s : List Char} {c : Char} (h : s.head? = some c) : s = c :: s.tail := by
  cases s with
  | nil => cases h
  | cons a l => simpa using h

/-! ## Strings -/

theorem hexVal_iff {c : Char} {d : ℕ} : hexVal c = some d ↔ HexDigit c d := by
  constructor
  · intro h
    have key : ∀ n < 128, ∀ d, hexVal (Char.ofNat n) = some d → d < 16 ∧ (Char.ofNat n = Nat.digitChar d ∨ Char.ofNat n = (Nat.digitChar d).toUpper) := by
      intro n hn d h
      have : d < 16 := by
        unfold hexVal at h
        split_ifs at h <;> simp only [Option.some.injEq] at h <;> omega
      refine ⟨this, ?_⟩
      revert h
      revert d
      revert hn
      revert n
      decide +kernel
    have hc : c.toNat < 128 := by
      unfold hexVal at h
      split_ifs at h <;> omega
    have := key c.toNat hc d
    rw [Char.ofNat_toNat] at this
    exact this h
  · rintro ⟨hd, rfl | rfl⟩
    · interval_cases d <;> decide
    · interval_cases d <;> decide

theorem hex4Val_iff {a b c d : Char} {n : ℕ} : hex4Val a b c d = some n ↔ HexText [a, b, c, d] n := by
  unfold hex4Val HexText
  constructor
  · intro h
    obtain ⟨w, hw, h⟩ := Option.bind_eq_some_iff.mp h
    obtain ⟨x, hx, h⟩ := Option.bind_eq_some_iff.mp h
    obtain ⟨y, hy, h⟩ := Option.bind_eq_some_iff.mp h
    obtain ⟨z, hz, h⟩ := Option.map_eq_some_iff.mp h
    exact ⟨a, b, c, d, w, x, y, z, rfl, hexVal_iff.mp hw, hexVal_iff.mp hx, hexVal_iff.mp hy, hexVal_iff.mp hz, h.symm⟩
  · rintro ⟨a', b', c', d', w, x, y, z, e, hw, hx, hy, hz, rfl⟩
    simp only [List.cons.injEq, and_true] at e
    obtain ⟨rfl, rfl, rfl, rfl⟩ := e
    rw [hexVal_iff.mpr hw, hexVal_iff.mpr hx, hexVal_iff.mpr hy, hexVal_iff.mpr hz]
    rfl

theorem unescape_iff {e c : Char} : unescape e = some c ↔ (e, c) ∈ [('"', '"'), ('\\', '\\'), ('/', '/'), ('b', '\x08'), ('f', '\x0c'), ('n', '\n'),
    ('r', '\r'), ('t', '\t')] := by
  constructor
  · intro h
    unfold unescape at h
    split_ifs at h <;> subst_vars <;> simp only [Option.some.injEq] at h <;> subst h <;> decide
  · intro h
    simp only [List.mem_cons, Prod.mk.injEq, List.not_mem_nil, or_false] at h
    rcases h with ⟨rfl, rfl⟩ | ⟨rfl, rfl⟩ | ⟨rfl, rfl⟩ | ⟨rfl, rfl⟩ | ⟨rfl, rfl⟩ | ⟨rfl, rfl⟩ | ⟨rfl, rfl⟩ | ⟨rfl, rfl⟩ <;> decide

theorem readUnits_quote (r : List Char) : readUnits ('"' :: r) = .ok ([], r) := by
  rw [readUnits.eq_def]
  rfl

theorem readUnits_plain {c : Char} (h1 : c ≠ '"') (h2 : c ≠ '\\') (h3 : 32 ≤ c.toNat) (r : List Char) :
    readUnits (c :: r) = (readUnits r).map fun q => (c.toNat :: q.1, q.2) := by
  rw [readUnits.eq_def]
  simp only [if_neg h1, if_neg h2, if_neg (not_lt.mpr h3)]

theorem readUnits_unicode {a b c d : Char} {u : ℕ} (h : HexText [a, b, c, d] u) (r : List Char) :
    readUnits ('\\' :: 'u' :: a :: b :: c :: d :: r) = (readUnits r).map fun q => (u :: q.1, q.2) := by
  rw [readUnits.eq_def]
  simp only [if_neg (show ¬ '\\' = '"' by decide), if_true, hex4Val_iff.mpr h]

theorem readUnits_escape {e c : Char} (h : unescape e = some c) (r : List Char) :
    readUnits ('\\' :: e :: r) = (readUnits r).map fun q => (c.toNat :: q.1, q.2) := by
  have he : e ≠ 'u' := by
    rintro rfl
    rw [show unescape 'u' = none by decide] at h
    cases h
  rw [readUnits.eq_def]
  simp only [if_neg (show ¬ '\\' = '"' by decide), if_true, if_neg he, h]

theorem char_not_surrogate (c : Char) : ¬ (0xD800 ≤ c.toNat ∧ c.toNat < 0xE000) := by
  have := c.valid
  unfold UInt32.isValidChar Nat.isValidChar at this
  have e : c.toNat = c.val.toNat := rfl
  omega

theorem toNat_ofNat {n : ℕ} (h : n.isValidChar) : (Char.ofNat n).toNat = n := by
  rw [Char.ofNat, dif_pos h]
  rfl

theorem joinUnits_char (c : Char) (l : List ℕ) : joinUnits (c.toNat :: l) = (joinUnits l).map fun t => c :: t := by
  have := char_not_surrogate c
  rw [joinUnits.eq_def]
  simp only
  rw [if_neg (by omega), if_neg (by omega), Char.ofNat_toNat]

theorem joinUnits_pair {u v : ℕ} (h1 : 0xD800 ≤ u) (h2 : u < 0xDC00) (h3 : 0xDC00 ≤ v) (h4 : v < 0xE000) {c : Char}
    (hc : c.toNat = 0x10000 + (u - 0xD800) * 0x400 + (v - 0xDC00)) (l : List ℕ) :
    joinUnits (u :: v :: l) = (joinUnits l).map fun t => c :: t := by
  rw [joinUnits.eq_def]
  simp only
  rw [if_pos ⟨h1, h2⟩]
  simp only [if_pos (show 0xDC00 ≤ v ∧ v < 0xE000 from ⟨h3, h4⟩)]
  rw [← hc, Char.ofNat_toNat]

/-- A string of the grammar is read. -/
theorem readUnits_complete {b t : List Char} (h : JsonChars b t) (r : List Char) :
    ∃ us, readUnits (b ++ '"' :: r) = .ok (us, r) ∧ joinUnits us = some t := by
  induction h with
  | nil => exact ⟨[], readUnits_quote r, rfl⟩
  | plain h1 h2 h3 _ ih =>
    obtain ⟨us, e1, e2⟩ := ih
    refine ⟨_, by rw [List.cons_append, readUnits_plain h1 h2 h3, e1]; rfl, ?_⟩
    rw [joinUnits_char, e2]
    rfl
  | escape h1 _ ih =>
    obtain ⟨us, e1, e2⟩ := ih
    refine ⟨_, by rw [List.cons_append, List.cons_append, readUnits_escape (unescape_iff.mpr h1), e1]; rfl, ?_⟩
    rw [joinUnits_char, e2]
    rfl
  | unicode h1 _ ih =>
    obtain ⟨us, e1, e2⟩ := ih
    obtain ⟨a, b, c, d, w, x, y, z, rfl, h⟩ := id h1
    refine ⟨_, by simp only [List.cons_append, List.nil_append]; rw [readUnits_unicode h1, e1]; rfl, ?_⟩
    rw [joinUnits_char, e2]
    rfl
  | surrogates h1 h2 k1 k2 k3 k4 k5 _ ih =>
    obtain ⟨us, e1, e2⟩ := ih
    obtain ⟨a, b, c, d, _, _, _, _, rfl, _⟩ := id h1
    obtain ⟨a', b', c', d', _, _, _, _, rfl, _⟩ := id h2
    refine ⟨_, by simp only [List.cons_append, List.nil_append]; rw [readUnits_unicode h1, readUnits_unicode h2, e1]; rfl, ?_⟩
    rw [joinUnits_pair k1 k2 k3 k4 k5, e2]
    rfl

/-- What is read is a string of the grammar: one unit at a time. -/
theorem readUnits_cases : ∀ (n : ℕ) (s : List Char), s.length ≤ n → ∀ us r, readUnits s = .ok (us, r) →
    (us = [] ∧ s = '"' :: r) ∨ ∃ u us' p s', us = u :: us' ∧ s = p ++ s' ∧ s'.length < s.length ∧ readUnits s' = .ok (us', r) ∧
      ((∃ c : Char, p = [c] ∧ u = c.toNat ∧ c ≠ '"' ∧ c ≠ '\\' ∧ 32 ≤ c.toNat) ∨ (∃ e c, p = ['\\', e] ∧ u = c.toNat ∧ unescape e = some c) ∨
        ∃ h, p = '\\' :: 'u' :: h ∧ HexText h u)
  | _, [], _, us, r, h => by rw [readUnits] at h; cases h
  | n, c :: s, hn, us, r, h => by
    rw [readUnits.eq_def] at h
    simp only at h
    by_cases h1 : c = '"'
    · rw [if_pos h1] at h
      cases h
      exact .inl ⟨rfl, by rw [h1]⟩
    rw [if_neg h1] at h
    right
    by_cases h2 : c = '\\'
    · rw [if_pos h2] at h
      cases s with
      | nil => cases h
      | cons e s =>
        simp only at h
        by_cases h3 : e = 'u'
        · rw [if_pos h3] at h
          match s, h with
          | [], h => cases h
          | [_], h => cases h
          | [_, _], h => cases h
          | [_, _, _], h => cases h
          | a :: b :: c' :: d :: s, h =>
            simp only at h
            cases hu : hex4Val a b c' d with
            | none => rw [hu] at h; cases h
            | some u =>
              rw [hu] at h
              simp only at h
              cases hs : readUnits s with
              | error e => rw [hs] at h; cases h
              | ok q =>
                rw [hs] at h
                obtain ⟨us', r'⟩ := q
                cases h
                exact ⟨u, us', ['\\', 'u', a, b, c', d], s, rfl, by rw [h2, h3]; rfl, by simp; omega, hs, .inr (.inr ⟨_, rfl, hex4Val_iff.mp hu⟩)⟩
        · rw [if_neg h3] at h
          cases hu : unescape e with
          | none => rw [hu] at h; cases h
          | some x =>
            rw [hu] at h
            simp only at h
            cases hs : readUnits s with
            | error e => rw [hs] at h; cases h
            | ok q =>
              rw [hs] at h
              obtain ⟨us', r'⟩ := q
              cases h
              exact ⟨_, us', ['\\', e], s, rfl, by rw [h2]; rfl, by simp, hs, .inr (.inl ⟨e, x, rfl, rfl, hu⟩)⟩
    · rw [if_neg h2] at h
      split_ifs at h with h3
      cases hs : readUnits s with
      | error e => rw [hs] at h; cases h
      | ok q =>
        rw [hs] at h
        obtain ⟨us', r'⟩ := q
        cases h
        exact ⟨_, us', [c], s, rfl, rfl, by simp, hs, .inl ⟨c, rfl, rfl, h1, h2, not_lt.mp h3⟩⟩

/-- What is read is a string of the grammar. -/
theorem readUnits_sound : ∀ (n : ℕ) (s : List Char), s.length ≤ n → ∀ us r t, readUnits s = .ok (us, r) → joinUnits us = some t →
    ∃ b, s = b ++ '"' :: r ∧ JsonChars b t := by
  intro n
  induction n with
  | zero =>
    intro s hs us r t h
    rw [List.length_eq_zero_iff.mp (Nat.le_zero.mp hs), readUnits] at h
    cases h
  | succ n ih =>
    intro s hs us r t h hj
    obtain ⟨rfl, rfl⟩ | ⟨u, us', p, s', rfl, rfl, hl, hr, hp⟩ := readUnits_cases _ s le_rfl us r h
    · rw [joinUnits] at hj
      cases hj
      exact ⟨[], rfl, .nil⟩
    have single : ∀ c : Char, u = c.toNat → ∃ t', joinUnits us' = some t' ∧ t = c :: t' := by
      rintro c rfl
      rw [joinUnits_char] at hj
      obtain ⟨t', h1, h2⟩ := Option.map_eq_some_iff.mp hj
      exact ⟨t', h1, h2.symm⟩
    rcases hp with ⟨c, rfl, hu, h1, h2, h3⟩ | ⟨e, c, rfl, hu, h1⟩ | ⟨hh, rfl, hx⟩
    · obtain ⟨t', k1, rfl⟩ := single c hu
      obtain ⟨b, rfl, hb⟩ := ih s' (by omega) us' r t' hr k1
      exact ⟨c :: b, rfl, .plain h1 h2 h3 hb⟩
    · obtain ⟨t', k1, rfl⟩ := single c hu
      obtain ⟨b, rfl, hb⟩ := ih s' (by omega) us' r t' hr k1
      exact ⟨'\\' :: e :: b, rfl, .escape (unescape_iff.mp h1) hb⟩
    · have hu16 : u < 0x10000 := by
        obtain ⟨_, _, _, _, w, x, y, z, _, h1, h2, h3, h4, rfl⟩ := hx
        have := h1.1
        have := h2.1
        have := h3.1
        have := h4.1
        omega
      by_cases hsur : 0xD800 ≤ u ∧ u < 0xDC00
      · rw [joinUnits.eq_def] at hj
        simp only at hj
        rw [if_pos hsur] at hj
        cases us' with
        | nil => cases hj
        | cons v us'' =>
          simp only at hj
          split_ifs at hj with hv
          obtain ⟨t', k1, rfl⟩ := Option.map_eq_some_iff.mp hj
          obtain ⟨e, -⟩ | ⟨v', us3, p', s'', e, rfl, hl', hr', hp'⟩ := readUnits_cases _ s' le_rfl _ r hr
          · cases e
          cases e
          have nosur : ∀ c : Char, v ≠ c.toNat := by
            rintro c rfl
            exact char_not_surrogate c (by omega)
          rcases hp' with ⟨c, rfl, hu, -⟩ | ⟨e, c, rfl, hu, -⟩ | ⟨h', rfl, hx'⟩
          · exact absurd hu (nosur c)
          · exact absurd hu (nosur c)
          · obtain ⟨b, rfl, hb⟩ := ih s'' (by omega) us'' r t' hr' k1
            refine ⟨'\\' :: 'u' :: (hh ++ '\\' :: 'u' :: (h' ++ b)), by simp, .surrogates hx hx' hsur.1 hsur.2 hv.1 hv.2 ?_ hb⟩
            rw [toNat_ofNat]
            unfold Nat.isValidChar
            omega
      · rw [joinUnits.eq_def] at hj
        simp only at hj
        rw [if_neg hsur] at hj
        split_ifs at hj with h2
        obtain ⟨t', k1, rfl⟩ := Option.map_eq_some_iff.mp hj
        obtain ⟨b, rfl, hb⟩ := ih s' (by omega) us' r t' hr k1
        refine ⟨'\\' :: 'u' :: (hh ++ b), by simp, .unicode ?_ hb⟩
        rw [toNat_ofNat]
        · exact hx
        · unfold Nat.isValidChar
          omega

theorem readString_iff {s r : List Char} {t : String} : readString s = .ok (t, r) ↔ ∃ b, s = b ++ '"' :: r ∧ JsonChars b t.toList := by
  unfold readString
  constructor
  · intro h
    cases hu : readUnits s with
    | error e => rw [hu] at h; cases h
    | ok q =>
      rw [hu] at h
      obtain ⟨us, r'⟩ := q
      simp only [Except.bind] at h
      cases hj : joinUnits us with
      | none => rw [hj] at h; cases h
      | some cs =>
        rw [hj] at h
        cases h
        rw [String.toList_ofList]
        exact readUnits_sound _ s le_rfl us r cs hu hj
  · rintro ⟨b, rfl, hb⟩
    obtain ⟨us, h1, h2⟩ := readUnits_complete hb r
    rw [h1]
    simp only [Except.bind, h2, String.ofList_toList]

/-! ## Numbers -/

/-- The text behind a number does not continue it. -/
def NumStop (r : List Char) : Prop := ∀ c, r.head? = some c → isJsonDigit c = false ∧ c ≠ '.' ∧ c ≠ 'e' ∧ c ≠ 'E'

theorem digitChar_of_isDigit {c : Char} (h : isJsonDigit c = true) : ∃ d < 10, c = Nat.digitChar d := by
  unfold isJsonDigit digitVal at h
  split_ifs at h with hc
  · have h0 : ('0' : Char).toNat = 48 := rfl
    have h9 : ('9' : Char).toNat = 57 := rfl
    rw [h0, h9] at hc
    have key : ∀ n, 48 ≤ n → n ≤ 57 → Char.ofNat n = Nat.digitChar (n - 48) := by
      intro n h1 h2
      interval_cases n <;> rfl
    have := key c.toNat hc.1 hc.2
    rw [Char.ofNat_toNat] at this
    exact ⟨_, by omega, this⟩
  · cases h

theorem digitsText_of_all {s : List Char} (hs : s ≠ []) (h : ∀ c ∈ s, isJsonDigit c = true) : DigitsText s (digitsVal0 s) := by
  obtain ⟨n, hn⟩ : ∃ n, DigitsText s n := by
    have : ∃ ds : List ℕ, (∀ d ∈ ds, d < 10) ∧ s = ds.map Nat.digitChar := by
      clear hs
      induction s with
      | nil => exact ⟨[], by simp, rfl⟩
      | cons c l ih =>
        obtain ⟨ds, h1, rfl⟩ := ih fun c hc => h c (List.mem_cons_of_mem _ hc)
        obtain ⟨d, hd, rfl⟩ := digitChar_of_isDigit (h c List.mem_cons_self)
        exact ⟨d :: ds, by simpa using ⟨hd, h1⟩, rfl⟩
    obtain ⟨ds, h1, rfl⟩ := this
    exact ⟨_, ds, by simpa using hs, h1, rfl, rfl⟩
  have := hn.val
  unfold digitsVal0
  rw [this]
  exact hn

theorem takeWhile_digits {t r : List Char} {n : ℕ} (h : DigitsText t n) (hr : ∀ c, r.head? = some c → isJsonDigit c = false) :
    (t ++ r).takeWhile isJsonDigit = t ∧ (t ++ r).dropWhile isJsonDigit = r := by
  have hd : ∀ c ∈ t, isJsonDigit c = true := h.isDigit
  constructor
  · rw [List.takeWhile_append_of_pos hd]
    cases r with
    | nil => simp
    | cons c r => rw [List.takeWhile_cons_of_neg (by simp [hr c rfl]), List.append_nil]
  · rw [List.dropWhile_append_of_pos hd]
    cases r with
    | nil => rfl
    | cons c r => rw [List.dropWhile_cons_of_neg (by simp [hr c rfl])]

theorem digits_head {t : List Char} {n : ℕ} (h : DigitsText t n) : ∃ c t', t = c :: t' ∧ isJsonDigit c = true := by
  cases t with
  | nil => exact absurd rfl h.ne_nil
  | cons c t' => exact ⟨c, t', rfl, h.isDigit c List.mem_cons_self⟩

theorem splitWhole_complete {s r : List Char} {n : ℕ} (h : JsonNat s n) (hr : ∀ c, r.head? = some c → isJsonDigit c = false) :
    splitWhole (s ++ r) = (s, r) := by
  obtain ⟨h1, h2⟩ := h
  unfold splitWhole
  rcases h2 with rfl | h2
  · rfl
  · obtain ⟨c, t, rfl, hc⟩ := digits_head h1
    rw [List.cons_append, List.head?_cons, if_neg (by simpa using h2), ← List.cons_append]
    obtain ⟨e1, e2⟩ := takeWhile_digits h1 hr
    rw [e1, e2]

theorem splitWhole_sound {s : List Char} (h : (splitWhole s).1 ≠ []) :
    s = (splitWhole s).1 ++ (splitWhole s).2 ∧ JsonNat (splitWhole s).1 (digitsVal0 (splitWhole s).1) := by
  unfold splitWhole at h ⊢
  split_ifs at h ⊢ with h0
  · exact ⟨head_tail h0, digitsText_of_all (by simp) (by simp; decide), .inl rfl⟩
  · refine ⟨(List.takeWhile_append_dropWhile ..).symm, digitsText_of_all h fun c hc => List.mem_takeWhile_imp hc, .inr ?_⟩
    cases s with
    | nil => simp
    | cons c t =>
      by_cases hc : isJsonDigit c = true
      · simp only [List.takeWhile_cons_of_pos hc, List.head?_cons] at h0 ⊢
        exact h0
      · exact absurd (List.takeWhile_cons_of_neg hc) h

theorem numStop_digit {r : List Char} (hr : NumStop r) : ∀ c, r.head? = some c → isJsonDigit c = false := fun c hc => (hr c hc).1

theorem splitPoint_complete {s r : List Char} (h : JsonFraction s) (hr : ∀ c, r.head? = some c → isJsonDigit c = false ∧ c ≠ '.') :
    splitPoint (s ++ r) = (s, r) := by
  unfold splitPoint
  rcases h with rfl | ⟨t, n, rfl, ht⟩
  · rw [List.nil_append, if_neg]
    rintro ⟨h1, -⟩
    exact (hr _ h1).2 rfl
  · obtain ⟨e1, e2⟩ := takeWhile_digits ht fun c hc => (hr c hc).1
    simp only [List.cons_append, List.head?_cons, List.tail_cons]
    rw [e1, e2, if_pos ⟨trivial, ht.ne_nil⟩]

theorem splitPoint_sound (s : List Char) : s = (splitPoint s).1 ++ (splitPoint s).2 ∧ JsonFraction (splitPoint s).1 := by
  unfold splitPoint
  split_ifs with h
  · refine ⟨?_, .inr ⟨_, _, rfl, digitsText_of_all h.2 fun c hc => List.mem_takeWhile_imp hc⟩⟩
    rw [List.cons_append, List.takeWhile_append_dropWhile]
    exact head_tail h.1
  · exact ⟨rfl, .inl rfl⟩

theorem splitExponent_complete {s r : List Char} (h : JsonExponent s) (hr : ∀ c, r.head? = some c → isJsonDigit c = false ∧ c ≠ 'e' ∧ c ≠ 'E') :
    splitExponent (s ++ r) = (s, r) := by
  rcases h with rfl | ⟨e, sg, t, n, rfl, he, hsg, ht⟩
  · rw [List.nil_append]
    cases r with
    | nil => rfl
    | cons c r =>
      obtain ⟨-, h1, h2⟩ := hr c rfl
      simp only [splitExponent]
      rw [if_neg]
      rintro ⟨h3 | h3, -⟩
      · exact h1 h3
      · exact h2 h3
  · obtain ⟨e1, e2⟩ := takeWhile_digits ht fun c hc => (hr c hc).1
    have hpm : splitPlusMinus (sg ++ (t ++ r)) = (sg, t ++ r) := by
      rcases hsg with rfl | rfl | rfl
      · obtain ⟨c, t', rfl, hc⟩ := digits_head ht
        have h1 : c ≠ '+' := by rintro rfl; exact absurd hc (by decide)
        have h2 : c ≠ '-' := by rintro rfl; exact absurd hc (by decide)
        simp [splitPlusMinus, h1, h2]
      · rfl
      · rfl
    rw [List.cons_append, List.append_assoc, splitExponent, hpm]
    simp only
    rw [e1, e2, if_pos ⟨he, ht.ne_nil⟩]

theorem splitPlusMinus_sound (s : List Char) : s = (splitPlusMinus s).1 ++ (splitPlusMinus s).2 ∧
    ((splitPlusMinus s).1 = [] ∨ (splitPlusMinus s).1 = ['+'] ∨ (splitPlusMinus s).1 = ['-']) := by
  cases s with
  | nil => exact ⟨rfl, .inl rfl⟩
  | cons c s =>
    simp only [splitPlusMinus]
    split_ifs with h
    · rcases h with rfl | rfl
      · exact ⟨rfl, .inr (.inl rfl)⟩
      · exact ⟨rfl, .inr (.inr rfl)⟩
    · exact ⟨rfl, .inl rfl⟩

theorem splitExponent_sound (s : List Char) : s = (splitExponent s).1 ++ (splitExponent s).2 ∧ JsonExponent (splitExponent s).1 := by
  cases s with
  | nil => exact ⟨rfl, .inl rfl⟩
  | cons c s =>
    simp only [splitExponent]
    split_ifs with h
    · obtain ⟨h1, h2⟩ := splitPlusMinus_sound s
      refine ⟨?_, .inr ⟨c, _, _, _, rfl, h.1, h2, digitsText_of_all h.2 fun c hc => List.mem_takeWhile_imp hc⟩⟩
      rw [List.cons_append, List.append_assoc, List.takeWhile_append_dropWhile, ← h1]
    · exact ⟨rfl, .inl rfl⟩

theorem numStop_exponent {ex r : List Char} (h : JsonExponent ex) (hr : NumStop r) :
    ∀ c, (ex ++ r).head? = some c → isJsonDigit c = false ∧ c ≠ '.' := by
  intro c hc
  rcases h with rfl | ⟨e, sg, t, n, rfl, he, -⟩
  · exact ⟨(hr c hc).1, (hr c hc).2.1⟩
  · simp only [List.cons_append, List.head?_cons, Option.some.injEq] at hc
    subst hc
    rcases he with rfl | rfl <;> decide

theorem numStop_fraction {fp ex r : List Char} (h : JsonFraction fp) (h' : JsonExponent ex) (hr : NumStop r) :
    ∀ c, (fp ++ (ex ++ r)).head? = some c → isJsonDigit c = false := by
  intro c hc
  rcases h with rfl | ⟨t, n, rfl, -⟩
  · exact (numStop_exponent h' hr c hc).1
  · simp only [List.cons_append, List.head?_cons, Option.some.injEq] at hc
    subst hc
    decide

/-- Whole numbers are read. -/
theorem readNumber_int (fc : FloatCode) {s r : List Char} {i : ℤ} (h : JsonInt s i) (hr : NumStop r) : readNumber fc (s ++ r) = .ok (.int i, r) := by
  have key : ∀ (s : List Char) (n : ℕ), JsonNat s n → splitWhole (s ++ r) = (s, r) ∧ splitPoint r = ([], r) ∧ splitExponent r = ([], r) ∧ s ≠ [] ∧
      digitsVal0 s = n := by
    intro s n hs
    refine ⟨splitWhole_complete hs (numStop_digit hr), ?_, ?_, hs.1.ne_nil, ?_⟩
    · exact splitPoint_complete (s := []) (.inl rfl) fun c hc => ⟨(hr c hc).1, (hr c hc).2.1⟩
    · exact splitExponent_complete (s := []) (.inl rfl) fun c hc => ⟨(hr c hc).1, (hr c hc).2.2⟩
    · unfold digitsVal0
      rw [hs.1.val]
      rfl
  obtain ⟨n, ⟨hs, rfl⟩ | ⟨t, rfl, hs, rfl⟩⟩ := h
  · obtain ⟨k1, k2, k3, k4, k5⟩ := key s n hs
    obtain ⟨c, t, rfl, hc⟩ := digits_head hs.1
    have hm : c ≠ '-' := by rintro rfl; exact absurd hc (by decide)
    unfold readNumber
    have hh : ((c :: t) ++ r).head? ≠ some '-' := by simpa using hm
    simp only [if_neg hh, k1, k2, k3, if_neg k4, k5, and_self, if_true]
  · obtain ⟨k1, k2, k3, k4, k5⟩ := key t n hs
    unfold readNumber
    simp only [List.cons_append, List.head?_cons, if_true, List.tail_cons, k1, k2, k3, if_neg k4, k5, and_self, if_true]

/-- Numbers with a fraction or an exponent are read. -/
theorem readNumber_real (fc : FloatCode) {s r : List Char} (h : JsonReal s) (hr : NumStop r) : readNumber fc (s ++ r) = .ok (.float (fc.parse s), r) := by
  obtain ⟨sg, ip, n, fp, ex, rfl, hsg, hip, hfp, hex, hne⟩ := h
  have k1 : splitWhole (ip ++ (fp ++ (ex ++ r))) = (ip, fp ++ (ex ++ r)) := splitWhole_complete hip (numStop_fraction hfp hex hr)
  have k2 : splitPoint (fp ++ (ex ++ r)) = (fp, ex ++ r) := splitPoint_complete hfp (numStop_exponent hex hr)
  have k3 : splitExponent (ex ++ r) = (ex, r) := splitExponent_complete hex fun c hc => ⟨(hr c hc).1, (hr c hc).2.2⟩
  have k4 := hip.1.ne_nil
  rcases hsg with rfl | rfl
  · obtain ⟨c, t, rfl, hc⟩ := digits_head hip.1
    have hm : c ≠ '-' := by rintro rfl; exact absurd hc (by decide)
    unfold readNumber
    simp only [List.nil_append, List.append_assoc]
    have hh : ((c :: t) ++ (fp ++ (ex ++ r))).head? ≠ some '-' := by simpa using hm
    simp only [if_neg hh, k1, k2, k3, if_neg k4, if_neg hne, List.nil_append]
  · unfold readNumber
    simp only [List.append_assoc]
    simp only [List.cons_append, List.nil_append, List.head?_cons, if_true, List.tail_cons, k1, k2, k3, if_neg k4, if_neg hne]

/-- What is read as a number is one. -/
theorem readNumber_sound {fc : FloatCode} {s r : List Char} {v : Json} (h : readNumber fc s = .ok (v, r)) :
    ∃ p, s = p ++ r ∧ ((∃ i, JsonInt p i ∧ v = .int i) ∨ (JsonReal p ∧ v = .float (fc.parse p))) := by
  unfold readNumber at h
  simp only at h
  obtain ⟨sg, s', hs, hsg, hs'⟩ : ∃ sg s', s = sg ++ s' ∧ ((sg = [] ∧ s.head? ≠ some '-') ∨ (sg = ['-'] ∧ s.head? = some '-')) ∧
      (if s.head? = some '-' then s.tail else s) = s' := by
    by_cases hm : s.head? = some '-'
    · exact ⟨['-'], s.tail, head_tail hm, .inr ⟨rfl, hm⟩, if_pos hm⟩
    · exact ⟨[], s, rfl, .inl ⟨rfl, hm⟩, if_neg hm⟩
  have hsg' : (if s.head? = some '-' then ['-'] else []) = sg := by
    rcases hsg with ⟨rfl, hm⟩ | ⟨rfl, hm⟩
    · exact if_neg hm
    · exact if_pos hm
  rw [hs', hsg'] at h
  by_cases h1 : (splitWhole s').1 = []
  · rw [if_pos h1] at h
    cases h
  rw [if_neg h1] at h
  by_cases h2 : (splitPoint (splitWhole s').2).1 = [] ∧ (splitExponent (splitPoint (splitWhole s').2).2).1 = []
  · rw [if_pos h2] at h
    obtain ⟨w1, w2⟩ := splitWhole_sound h1
    obtain ⟨p1, -⟩ := splitPoint_sound (splitWhole s').2
    obtain ⟨e1, -⟩ := splitExponent_sound (splitPoint (splitWhole s').2).2
    rw [h2.1, List.nil_append] at p1
    rw [h2.2, List.nil_append] at e1
    cases h
    refine ⟨sg ++ (splitWhole s').1, ?_, .inl ⟨_, ⟨digitsVal0 (splitWhole s').1, ?_⟩, rfl⟩⟩
    · rw [← e1, ← p1, List.append_assoc, ← w1, hs]
    · rcases hsg with ⟨rfl, hm⟩ | ⟨rfl, hm⟩
      · exact .inl ⟨w2, by rw [if_neg hm]⟩
      · exact .inr ⟨_, rfl, w2, by rw [if_pos hm]⟩
  · rw [if_neg h2] at h
    obtain ⟨w1, w2⟩ := splitWhole_sound h1
    obtain ⟨p1, p2⟩ := splitPoint_sound (splitWhole s').2
    obtain ⟨e1, e2⟩ := splitExponent_sound (splitPoint (splitWhole s').2).2
    cases h
    refine ⟨sg ++ ((splitWhole s').1 ++ ((splitPoint (splitWhole s').2).1 ++ (splitExponent (splitPoint (splitWhole s').2).2).1)), ?_, .inr ⟨?_, rfl⟩⟩
    · rw [List.append_assoc, List.append_assoc, List.append_assoc, ← e1, ← p1, ← w1, hs]
    · exact ⟨sg, _, _, _, _, rfl, hsg.imp And.left And.left, w2, p2, e2, h2⟩

/-! ## Words -/

theorem isPrefixOf_append (a r : List Char) : a.isPrefixOf (a ++ r) = true := by
  rw [List.isPrefixOf_iff_prefix]
  exact List.prefix_append a r

theorem readLiteral_number {s r : List Char} (h : (∃ i, JsonInt s i) ∨ JsonReal s) : readLiteral (s ++ r) = none := by
  have key : ∃ c t, (s = c :: t ∧ isJsonDigit c = true) ∨ (s = '-' :: c :: t ∧ isJsonDigit c = true) := by
    rcases h with ⟨i, n, ⟨h, -⟩ | ⟨t, rfl, h, -⟩⟩ | ⟨sg, ip, n, fp, ex, rfl, hsg, hip, -⟩
    · obtain ⟨c, t, rfl, hc⟩ := digits_head h.1
      exact ⟨c, t, .inl ⟨rfl, hc⟩⟩
    · obtain ⟨c, t, rfl, hc⟩ := digits_head h.1
      exact ⟨c, t, .inr ⟨rfl, hc⟩⟩
    · obtain ⟨c, t, rfl, hc⟩ := digits_head hip.1
      rcases hsg with rfl | rfl
      · exact ⟨c, _, .inl ⟨rfl, hc⟩⟩
      · exact ⟨c, _, .inr ⟨rfl, hc⟩⟩
  obtain ⟨c, t, ⟨rfl, hc⟩ | ⟨rfl, hc⟩⟩ := key
  · have hne : ∀ x : Char, isJsonDigit x = false → (x == c) = false := by
      intro x hx
      rw [beq_eq_false_iff_ne]
      rintro rfl
      rw [hc] at hx
      cases hx
    unfold readLiteral
    simp [List.isPrefixOf, hne 'n' (by decide), hne 't' (by decide), hne 'f' (by decide), hne 'N' (by decide), hne 'I' (by decide), hne '-' (by decide)]
  · have hne : ('I' == c) = false := by
      rw [beq_eq_false_iff_ne]
      rintro rfl
      exact absurd hc (by decide)
    unfold readLiteral
    simp [List.isPrefixOf, hne]

theorem readLiteral_sound {parse : List Char → PyFloat} {s r : List Char} {v : Json} (h : readLiteral s = some (v, r)) :
    ∃ p, s = p ++ r ∧ JsonValue parse p v := by
  have key : ∀ (a : List Char) (k : ℕ), a.isPrefixOf s = true → a.length = k → s = a ++ s.drop k := by
    rintro a k ha rfl
    obtain ⟨t, rfl⟩ := List.isPrefixOf_iff_prefix.mp ha
    simp
  unfold readLiteral at h
  split_ifs at h with h1 h2 h3 h4 h5 h6 <;> simp only [Option.some.injEq, Prod.mk.injEq] at h <;> obtain ⟨rfl, rfl⟩ := h
  · exact ⟨_, key _ 4 h1 rfl, .null⟩
  · exact ⟨_, key _ 4 h2 rfl, .true⟩
  · exact ⟨_, key _ 5 h3 rfl, .false⟩
  · exact ⟨_, key _ 3 h4 rfl, .nan⟩
  · exact ⟨_, key _ 8 h5 rfl, .inf⟩
  · exact ⟨_, key _ 9 h6 rfl, .negInf⟩

end Verif.Lemmas
