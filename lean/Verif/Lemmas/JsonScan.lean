import Verif.Lemmas.JsonText
import Mathlib.Tactic.Linarith

/-!
# Values of JSON texts

The scanner reads exactly the values of the grammar.
-/

namespace Verif.Lemmas

open Verif.Model Verif.Spec

theorem exceptBind_inv {α β ε : Type*} {x : Except ε α} {f : α → Except ε β} {b : β} (h : x.bind f = .ok b) : ∃ a, x = .ok a ∧ f a = .ok b := by
  cases x with
  | error e => cases h
  | ok a => exact ⟨a, rfl, h⟩

theorem exceptMap_inv {α β ε : Type*} {x : Except ε α} {f : α → β} {b : β} (h : x.map f = .ok b) : ∃ a, x = .ok a ∧ f a = b := by
  cases x with
  | error e => cases h
  | ok a => exact ⟨a, rfl, Except.ok.inj h⟩

/-! ## What may follow -/

/-- A text that begins with a bracket or a quotation mark shows where it ends. -/
def Closed (s : List Char) : Prop := s.head? = some '"' ∨ s.head? = some '{' ∨ s.head? = some '['

theorem numStop_nil : NumStop [] := by
  intro c hc
  cases hc

theorem numStop_ws {w : List Char} (hw : JsonWs w) : NumStop w := by
  intro c hc
  have := List.mem_of_mem_head? hc
  rcases hw c this with rfl | rfl | rfl | rfl <;> decide

theorem numStop_sep {w : List Char} (hw : JsonWs w) {c : Char} (hc : c = ',' ∨ c = ']' ∨ c = '}') (t : List Char) : NumStop (w ++ c :: t) := by
  intro d hd
  cases w with
  | nil =>
    simp only [List.nil_append, List.head?_cons, Option.some.injEq] at hd
    subst hd
    rcases hc with rfl | rfl | rfl <;> decide
  | cons a w =>
    simp only [List.cons_append, List.head?_cons, Option.some.injEq] at hd
    subst hd
    rcases hw a List.mem_cons_self with rfl | rfl | rfl | rfl <;> decide

theorem skipWs_sep {w : List Char} (hw : JsonWs w) {c : Char} (hc : isJsonWs c = false) (t : List Char) : skipWs (w ++ c :: t) = c :: t := by
  rw [skipWs_append hw, skipWs_cons hc]

theorem digit_not_ws {c : Char} (h : isJsonDigit c = true) : isJsonWs c = false ∧ c ≠ '"' ∧ c ≠ '{' ∧ c ≠ '[' ∧ c ≠ ']' ∧ c ≠ '}' ∧ c.toNat < 128 := by
  obtain ⟨d, hd, rfl⟩ := digitChar_of_isDigit h
  interval_cases d <;> decide

theorem number_head {s : List Char} (h : (∃ i, JsonInt s i) ∨ JsonReal s) : ∃ c t, s = c :: t ∧ (c = '-' ∨ isJsonDigit c = true) := by
  rcases h with ⟨i, n, ⟨h, -⟩ | ⟨t, rfl, h, -⟩⟩ | ⟨sg, ip, n, fp, ex, rfl, hsg, hip, -⟩
  · obtain ⟨c, t, rfl, hc⟩ := digits_head h.1
    exact ⟨c, t, rfl, .inr hc⟩
  · exact ⟨_, _, rfl, .inl rfl⟩
  · obtain ⟨c, t, rfl, hc⟩ := digits_head hip.1
    rcases hsg with rfl | rfl
    · exact ⟨c, _, rfl, .inr hc⟩
    · exact ⟨_, _, rfl, .inl rfl⟩

/-- The first character of a value. -/
theorem value_head {parse : List Char → PyFloat} {s : List Char} {v : Json} (h : JsonValue parse s v) :
    ∃ c t, s = c :: t ∧ isJsonWs c = false ∧ c ≠ ']' ∧ c ≠ '}' ∧ c.toNat < 128 := by
  cases h with
  | null => exact ⟨_, _, rfl, by decide⟩
  | true => exact ⟨_, _, rfl, by decide⟩
  | false => exact ⟨_, _, rfl, by decide⟩
  | nan => exact ⟨_, _, rfl, by decide⟩
  | inf => exact ⟨_, _, rfl, by decide⟩
  | negInf => exact ⟨_, _, rfl, by decide⟩
  | int h =>
    obtain ⟨c, t, rfl, rfl | hc⟩ := number_head (.inl ⟨_, h⟩)
    · exact ⟨_, _, rfl, by decide⟩
    · obtain ⟨h1, -, -, -, h2, h3, h4⟩ := digit_not_ws hc
      exact ⟨_, _, rfl, h1, h2, h3, h4⟩
  | float h =>
    obtain ⟨c, t, rfl, rfl | hc⟩ := number_head (.inr h)
    · exact ⟨_, _, rfl, by decide⟩
    · obtain ⟨h1, -, -, -, h2, h3, h4⟩ := digit_not_ws hc
      exact ⟨_, _, rfl, h1, h2, h3, h4⟩
  | str h =>
    obtain ⟨b, rfl, -⟩ := h
    exact ⟨_, _, rfl, by decide⟩
  | arrNil _ => exact ⟨_, _, rfl, by decide⟩
  | arr _ => exact ⟨_, _, rfl, by decide⟩
  | objNil _ => exact ⟨_, _, rfl, by decide⟩
  | obj _ => exact ⟨_, _, rfl, by decide⟩

/-! ## Every value is read -/

theorem scanValue_literal (fc : FloatCode) (n : ℕ) {c : Char} {r : List Char} {q : Json × List Char} (h1 : c ≠ '"') (h2 : c ≠ '{') (h3 : c ≠ '[')
    (h : readLiteral (c :: r) = some q) : scanValue fc (n + 1) (c :: r) = .ok q := by
  rw [scanValue, if_neg h1, if_neg h2, if_neg h3, h]

theorem scanValue_digits (fc : FloatCode) (n : ℕ) {c : Char} {r : List Char} (h1 : c ≠ '"') (h2 : c ≠ '{') (h3 : c ≠ '[')
    (h : readLiteral (c :: r) = none) : scanValue fc (n + 1) (c :: r) = readNumber fc (c :: r) := by
  rw [scanValue, if_neg h1, if_neg h2, if_neg h3, h]

theorem scanValue_number (fc : FloatCode) (n : ℕ) {s r : List Char} (h : (∃ i, JsonInt s i) ∨ JsonReal s) :
    scanValue fc (n + 1) (s ++ r) = readNumber fc (s ++ r) := by
  have hl := readLiteral_number (r := r) h
  obtain ⟨c, t, rfl, hc⟩ := number_head h
  have key : c ≠ '"' ∧ c ≠ '{' ∧ c ≠ '[' := by
    rcases hc with rfl | hc
    · decide
    · obtain ⟨-, h1, h2, h3, -⟩ := digit_not_ws hc
      exact ⟨h1, h2, h3⟩
  rw [List.cons_append] at hl ⊢
  exact scanValue_digits fc n key.1 key.2.1 key.2.2 hl

theorem scanValue_string (fc : FloatCode) (n : ℕ) {s : List Char} {t : String} (h : JsonString s t) (r : List Char) :
    scanValue fc (n + 1) (s ++ r) = .ok (.str t, r) := by
  obtain ⟨b, rfl, hb⟩ := h
  have : readString (b ++ '"' :: r) = .ok (t, r) := readString_iff.mpr ⟨b, rfl, hb⟩
  rw [List.cons_append, List.append_assoc, List.singleton_append, scanValue, if_pos rfl, this]
  rfl

theorem readString_complete {s : List Char} {t : String} (h : JsonString s t) (r : List Char) :
    (s ++ r).head? = some '"' ∧ readString (s ++ r).tail = .ok (t, r) := by
  obtain ⟨b, rfl, hb⟩ := h
  refine ⟨rfl, ?_⟩
  rw [List.cons_append, List.append_assoc, List.singleton_append, List.tail_cons]
  exact readString_iff.mpr ⟨b, rfl, hb⟩

theorem string_length {s : List Char} {t : String} (h : JsonString s t) : 2 ≤ s.length := by
  obtain ⟨b, rfl, -⟩ := h
  simp

theorem value_length {parse : List Char → PyFloat} {s : List Char} {v : Json} (h : JsonValue parse s v) : 1 ≤ s.length := by
  obtain ⟨c, t, rfl, -⟩ := value_head h
  simp

/-- What the scanner does with a value. -/
def ReadsValue (fc : FloatCode) (s : List Char) (v : Json) : Prop :=
  ∀ (rest : List Char) (n : ℕ), Closed s ∨ NumStop rest → 2 * s.length ≤ n → scanValue fc n (s ++ rest) = .ok (v, rest)

def ReadsItems (fc : FloatCode) (s : List Char) (l : List Json) : Prop :=
  ∀ (rest : List Char) (n : ℕ), 2 * s.length + 1 ≤ n → (skipWs (s ++ ']' :: rest)).head? ≠ some ']' ∧
    scanItems fc n (skipWs (s ++ ']' :: rest)) = .ok (l, rest)

def ReadsPairs (fc : FloatCode) (s : List Char) (l : List (String × Json)) : Prop :=
  ∀ (rest : List Char) (n : ℕ), 2 * s.length + 1 ≤ n → (skipWs (s ++ '}' :: rest)).head? ≠ some '}' ∧
    scanPairs fc n (skipWs (s ++ '}' :: rest)) = .ok (l, rest)

theorem skipWs_value {parse : List Char → PyFloat} {w s : List Char} {v : Json} (hw : JsonWs w) (h : JsonValue parse s v) (r : List Char) :
    skipWs (w ++ (s ++ r)) = s ++ r ∧ (s ++ r).head? ≠ some ']' ∧ (s ++ r).head? ≠ some '}' := by
  obtain ⟨c, t, rfl, h1, h2, h3, -⟩ := value_head h
  rw [List.cons_append]
  refine ⟨skipWs_sep hw h1 _, ?_, ?_⟩
  · simpa using h2
  · simpa using h3

theorem skipWs_string {w s : List Char} {t : String} (hw : JsonWs w) (h : JsonString s t) (r : List Char) :
    skipWs (w ++ (s ++ r)) = s ++ r ∧ (s ++ r).head? ≠ some '}' := by
  obtain ⟨b, rfl, -⟩ := h
  rw [List.cons_append]
  exact ⟨skipWs_sep hw (by decide) _, by simp⟩

theorem readsValue_literal (fc : FloatCode) {s : List Char} {v : Json} (hs : s ≠ []) (h1 : s.head? ≠ some '"') (h2 : s.head? ≠ some '{')
    (h3 : s.head? ≠ some '[') (h : ∀ r, readLiteral (s ++ r) = some (v, r)) : ReadsValue fc s v := by
  intro rest n _ hn
  obtain ⟨c, t, rfl⟩ := List.exists_cons_of_ne_nil hs
  obtain ⟨m, rfl⟩ : ∃ m, n = m + 1 := ⟨n - 1, by simp at hn; omega⟩
  have := h rest
  simp only [List.head?_cons, ne_eq, Option.some.injEq] at h1 h2 h3
  rw [List.cons_append] at this ⊢
  exact scanValue_literal fc m h1 h2 h3 this

theorem readsValue_number (fc : FloatCode) {s : List Char} {v : Json} (h : (∃ i, JsonInt s i) ∨ JsonReal s)
    (hv : ∀ r, NumStop r → readNumber fc (s ++ r) = .ok (v, r)) : ReadsValue fc s v := by
  intro rest n hr hn
  obtain ⟨c, t, rfl, hc⟩ := number_head h
  obtain ⟨m, rfl⟩ : ∃ m, n = m + 1 := ⟨n - 1, by simp at hn; omega⟩
  have hstop : NumStop rest := by
    rcases hr with hr | hr
    · exfalso
      have key : c ≠ '"' ∧ c ≠ '{' ∧ c ≠ '[' := by
        rcases hc with rfl | hc
        · decide
        · obtain ⟨-, h1, h2, h3, -⟩ := digit_not_ws hc
          exact ⟨h1, h2, h3⟩
      rcases hr with hr | hr | hr <;> simp only [List.head?_cons, Option.some.injEq] at hr
      · exact key.1 hr
      · exact key.2.1 hr
      · exact key.2.2 hr
    · exact hr
  rw [scanValue_number fc m h]
  exact hv rest hstop

/-- Every value of the grammar is read. -/
theorem readsValue (fc : FloatCode) {s : List Char} {v : Json} (h : JsonValue fc.parse s v) : ReadsValue fc s v := by
  refine JsonValue.rec (motive_1 := fun s v _ => ReadsValue fc s v) (motive_2 := fun s l _ => ReadsItems fc s l)
    (motive_3 := fun s l _ => ReadsPairs fc s l) ?_ ?_ ?_ ?_ ?_ ?_ ?_ ?_ ?_ ?_ ?_ ?_ ?_ ?_ ?_ ?_ ?_ h
  · exact readsValue_literal fc (by decide) (by decide) (by decide) (by decide) fun r => rfl
  · exact readsValue_literal fc (by decide) (by decide) (by decide) (by decide) fun r => rfl
  · exact readsValue_literal fc (by decide) (by decide) (by decide) (by decide) fun r => rfl
  · exact readsValue_literal fc (by decide) (by decide) (by decide) (by decide) fun r => rfl
  · exact readsValue_literal fc (by decide) (by decide) (by decide) (by decide) fun r => rfl
  · exact readsValue_literal fc (by decide) (by decide) (by decide) (by decide) fun r => rfl
  · intro s i h
    exact readsValue_number fc (.inl ⟨i, h⟩) fun r hr => readNumber_int fc h hr
  · intro s h
    exact readsValue_number fc (.inr h) fun r hr => readNumber_real fc h hr
  · intro s t h rest n _ hn
    have := string_length h
    obtain ⟨m, rfl⟩ : ∃ m, n = m + 1 := ⟨n - 1, by omega⟩
    exact scanValue_string fc m h rest
  · intro w hw rest n _ hn
    obtain ⟨m, rfl⟩ : ∃ m, n = m + 1 := ⟨n - 1, by simp at hn; omega⟩
    have e : skipWs (w ++ ']' :: rest) = ']' :: rest := skipWs_sep hw (by decide) rest
    rw [List.cons_append, List.append_assoc, List.singleton_append, scanValue, if_neg (by decide), if_neg (by decide), if_pos rfl, e]
    simp
  · intro s l _ ih rest n _ hn
    obtain ⟨m, rfl⟩ : ∃ m, n = m + 1 := ⟨n - 1, by simp at hn; omega⟩
    obtain ⟨h1, h2⟩ := ih rest m (by simp at hn; omega)
    rw [List.cons_append, List.append_assoc, List.singleton_append, scanValue, if_neg (by decide), if_neg (by decide), if_pos rfl, if_neg h1, h2]
    rfl
  · intro w hw rest n _ hn
    obtain ⟨m, rfl⟩ : ∃ m, n = m + 1 := ⟨n - 1, by simp at hn; omega⟩
    have e : skipWs (w ++ '}' :: rest) = '}' :: rest := skipWs_sep hw (by decide) rest
    rw [List.cons_append, List.append_assoc, List.singleton_append, scanValue, if_neg (by decide), if_pos rfl, e]
    simp
  · intro s l _ ih rest n _ hn
    obtain ⟨m, rfl⟩ : ∃ m, n = m + 1 := ⟨n - 1, by simp at hn; omega⟩
    obtain ⟨h1, h2⟩ := ih rest m (by simp at hn; omega)
    rw [List.cons_append, List.append_assoc, List.singleton_append, scanValue, if_neg (by decide), if_pos rfl, if_neg h1, h2]
    rfl
  · intro w s w' v hw hv hw' ih rest n hn
    obtain ⟨m, rfl⟩ : ∃ m, n = m + 1 := ⟨n - 1, by omega⟩
    obtain ⟨e1, e2, -⟩ := skipWs_value hw hv (w' ++ ']' :: rest)
    have e : (w ++ (s ++ w')) ++ ']' :: rest = w ++ (s ++ (w' ++ ']' :: rest)) := by simp
    have e3 : skipWs (w' ++ ']' :: rest) = ']' :: rest := skipWs_sep hw' (by decide) rest
    rw [e, e1]
    refine ⟨e2, ?_⟩
    rw [scanItems, ih _ m (.inr (numStop_sep hw' (.inr (.inl rfl)) rest)) (by simp at hn; omega)]
    simp only [Except.bind, e3, List.head?_cons, if_true, List.tail_cons]
  · intro w s w' r v l hw hv hw' _ ih1 ih2 rest n hn
    have := value_length hv
    obtain ⟨m, rfl⟩ : ∃ m, n = m + 1 := ⟨n - 1, by omega⟩
    obtain ⟨e1, e2, -⟩ := skipWs_value hw hv (w' ++ ',' :: (r ++ ']' :: rest))
    have e : (w ++ (s ++ (w' ++ ',' :: r))) ++ ']' :: rest = w ++ (s ++ (w' ++ ',' :: (r ++ ']' :: rest))) := by simp
    have e3 : skipWs (w' ++ ',' :: (r ++ ']' :: rest)) = ',' :: (r ++ ']' :: rest) := skipWs_sep hw' (by decide) _
    rw [e, e1]
    refine ⟨e2, ?_⟩
    rw [scanItems, ih1 _ m (.inr (numStop_sep hw' (.inl rfl) _)) (by simp at hn; omega)]
    obtain ⟨-, k⟩ := ih2 rest m (by simp at hn; omega)
    simp only [Except.bind, e3, List.head?_cons, List.tail_cons, k]
    rfl
  · intro w k w₁ w₂ s w' key v hw hk hw₁ hw₂ hv hw' ih rest n hn
    obtain ⟨m, rfl⟩ : ∃ m, n = m + 1 := ⟨n - 1, by omega⟩
    have e : (w ++ (k ++ (w₁ ++ ':' :: (w₂ ++ (s ++ w'))))) ++ '}' :: rest = w ++ (k ++ (w₁ ++ ':' :: (w₂ ++ (s ++ (w' ++ '}' :: rest))))) := by simp
    obtain ⟨e1, e2⟩ := skipWs_string hw hk (w₁ ++ ':' :: (w₂ ++ (s ++ (w' ++ '}' :: rest))))
    obtain ⟨k1, k2⟩ := readString_complete hk (w₁ ++ ':' :: (w₂ ++ (s ++ (w' ++ '}' :: rest))))
    have e3 : skipWs (w₁ ++ ':' :: (w₂ ++ (s ++ (w' ++ '}' :: rest)))) = ':' :: (w₂ ++ (s ++ (w' ++ '}' :: rest))) := skipWs_sep hw₁ (by decide) _
    obtain ⟨e4, -⟩ := skipWs_value hw₂ hv (w' ++ '}' :: rest)
    have e5 : skipWs (w' ++ '}' :: rest) = '}' :: rest := skipWs_sep hw' (by decide) _
    have e6 := ih _ m (.inr (numStop_sep hw' (.inr (.inr rfl)) rest)) (by simp at hn; omega)
    rw [e, e1]
    refine ⟨e2, ?_⟩
    rw [scanPairs, if_pos k1, k2]
    simp only [Except.bind, e3, List.head?_cons, if_true, List.tail_cons, e4, e6, e5]
  · intro w k w₁ w₂ s w' r key v l hw hk hw₁ hw₂ hv hw' _ ih1 ih2 rest n hn
    have := value_length hv
    obtain ⟨m, rfl⟩ : ∃ m, n = m + 1 := ⟨n - 1, by omega⟩
    have e : (w ++ (k ++ (w₁ ++ ':' :: (w₂ ++ (s ++ (w' ++ ',' :: r)))))) ++ '}' :: rest =
        w ++ (k ++ (w₁ ++ ':' :: (w₂ ++ (s ++ (w' ++ ',' :: (r ++ '}' :: rest)))))) := by simp
    obtain ⟨e1, e2⟩ := skipWs_string hw hk (w₁ ++ ':' :: (w₂ ++ (s ++ (w' ++ ',' :: (r ++ '}' :: rest)))))
    obtain ⟨k1, k2⟩ := readString_complete hk (w₁ ++ ':' :: (w₂ ++ (s ++ (w' ++ ',' :: (r ++ '}' :: rest)))))
    have e3 : skipWs (w₁ ++ ':' :: (w₂ ++ (s ++ (w' ++ ',' :: (r ++ '}' :: rest))))) = ':' :: (w₂ ++ (s ++ (w' ++ ',' :: (r ++ '}' :: rest)))) :=
      skipWs_sep hw₁ (by decide) _
    obtain ⟨e4, -⟩ := skipWs_value hw₂ hv (w' ++ ',' :: (r ++ '}' :: rest))
    have e5 : skipWs (w' ++ ',' :: (r ++ '}' :: rest)) = ',' :: (r ++ '}' :: rest) := skipWs_sep hw' (by decide) _
    have e6 := ih1 _ m (.inr (numStop_sep hw' (.inl rfl) (r ++ '}' :: rest))) (by simp at hn; omega)
    obtain ⟨-, e7⟩ := ih2 rest m (by simp at hn; omega)
    rw [e, e1]
    refine ⟨e2, ?_⟩
    rw [scanPairs, if_pos k1, k2]
    simp only [Except.bind, e3, List.head?_cons, if_true, List.tail_cons, e4, e6, e5, e7]
    rfl

/-! ## Nothing else is read -/

theorem jsonWs_append {a b : List Char} (ha : JsonWs a) (hb : JsonWs b) : JsonWs (a ++ b) := by
  intro c hc
  rcases List.mem_append.mp hc with hc | hc
  · exact ha c hc
  · exact hb c hc

theorem items_ws {parse : List Char → PyFloat} {w p : List Char} {l : List Json} (hw : JsonWs w) (h : JsonItems parse p l) : JsonItems parse (w ++ p) l := by
  cases h with
  | one h1 h2 h3 =>
    rw [← List.append_assoc]
    exact .one (jsonWs_append hw h1) h2 h3
  | cons h1 h2 h3 h4 =>
    rw [← List.append_assoc]
    exact .cons (jsonWs_append hw h1) h2 h3 h4

theorem pairs_ws {parse : List Char → PyFloat} {w p : List Char} {l : List (String × Json)} (hw : JsonWs w) (h : JsonPairs parse p l) :
    JsonPairs parse (w ++ p) l := by
  cases h with
  | one h1 h2 h3 h4 h5 h6 =>
    rw [← List.append_assoc]
    exact .one (jsonWs_append hw h1) h2 h3 h4 h5 h6
  | cons h1 h2 h3 h4 h5 h6 h7 =>
    rw [← List.append_assoc]
    exact .cons (jsonWs_append hw h1) h2 h3 h4 h5 h6 h7

theorem scan_sound (fc : FloatCode) : ∀ n : ℕ,
    (∀ s v r, scanValue fc n s = .ok (v, r) → ∃ p, s = p ++ r ∧ JsonValue fc.parse p v) ∧
    (∀ s l r, scanItems fc n s = .ok (l, r) → ∃ p, s = p ++ ']' :: r ∧ JsonItems fc.parse p l) ∧
    (∀ s l r, scanPairs fc n s = .ok (l, r) → ∃ p, s = p ++ '}' :: r ∧ JsonPairs fc.parse p l) := by
  intro n
  induction n with
  | zero =>
    refine ⟨?_, ?_, ?_⟩
    · intro s v r h
      rw [scanValue] at h
      cases h
    · intro s l r h
      rw [scanItems] at h
      cases h
    · intro s l r h
      rw [scanPairs] at h
      cases h
  | succ n ih =>
    obtain ⟨ihV, ihI, ihP⟩ := ih
    refine ⟨?_, ?_, ?_⟩
    · intro s v r h
      cases s with
      | nil =>
        rw [scanValue] at h
        cases h
      | cons c s =>
        rw [scanValue] at h
        by_cases h1 : c = '"'
        · rw [if_pos h1] at h
          subst h1
          obtain ⟨⟨t, r'⟩, k1, k2⟩ := exceptMap_inv h
          cases k2
          obtain ⟨b, rfl, hb⟩ := readString_iff.mp k1
          exact ⟨'"' :: (b ++ ['"']), by simp, .str ⟨b, rfl, hb⟩⟩
        rw [if_neg h1] at h
        obtain ⟨w, hw, e⟩ := skipWs_split s
        by_cases h2 : c = '{'
        · rw [if_pos h2] at h
          subst h2
          by_cases h3 : (skipWs s).head? = some '}'
          · rw [if_pos h3] at h
            cases h
            refine ⟨'{' :: (w ++ ['}']), ?_, .objNil hw⟩
            have := head_tail h3
            simp only [List.cons_append, List.append_assoc, List.nil_append]
            rw [← this, ← e]
          · rw [if_neg h3] at h
            obtain ⟨⟨l, r'⟩, k1, k2⟩ := exceptMap_inv h
            cases k2
            obtain ⟨p, k3, k4⟩ := ihP _ _ _ k1
            rw [k3] at e
            refine ⟨'{' :: ((w ++ p) ++ ['}']), by rw [e]; simp, .obj ?_⟩
            exact pairs_ws hw k4
        rw [if_neg h2] at h
        by_cases h2 : c = '['
        · rw [if_pos h2] at h
          subst h2
          by_cases h3 : (skipWs s).head? = some ']'
          · rw [if_pos h3] at h
            cases h
            refine ⟨'[' :: (w ++ [']']), ?_, .arrNil hw⟩
            have := head_tail h3
            simp only [List.cons_append, List.append_assoc, List.nil_append]
            rw [← this, ← e]
          · rw [if_neg h3] at h
            obtain ⟨⟨l, r'⟩, k1, k2⟩ := exceptMap_inv h
            cases k2
            obtain ⟨p, k3, k4⟩ := ihI _ _ _ k1
            rw [k3] at e
            refine ⟨'[' :: ((w ++ p) ++ [']']), by rw [e]; simp, .arr ?_⟩
            exact items_ws hw k4
        rw [if_neg h2] at h
        cases hl : readLiteral (c :: s) with
        | some q =>
          rw [hl] at h
          obtain ⟨v', r'⟩ := q
          cases h
          exact readLiteral_sound hl
        | none =>
          rw [hl] at h
          obtain ⟨p, k1, ⟨i, k2, rfl⟩ | ⟨k2, rfl⟩⟩ := readNumber_sound h
          · exact ⟨p, k1, .int k2⟩
          · exact ⟨p, k1, .float k2⟩
    · intro s l r h
      rw [scanItems] at h
      obtain ⟨⟨v, r₁⟩, k1, k2⟩ := exceptBind_inv h
      obtain ⟨p, rfl, hp⟩ := ihV _ _ _ k1
      obtain ⟨w, hw, e⟩ := skipWs_split r₁
      simp only at k2
      by_cases h1 : (skipWs r₁).head? = some ']'
      · rw [if_pos h1] at k2
        cases k2
        refine ⟨[] ++ (p ++ w), ?_, .one (by intro c hc; cases hc) hp hw⟩
        rw [List.nil_append, List.append_assoc, ← head_tail h1, ← e]
      rw [if_neg h1] at k2
      by_cases h2 : (skipWs r₁).head? = some ','
      · rw [if_pos h2] at k2
        obtain ⟨⟨l', r₂⟩, k3, k4⟩ := exceptMap_inv k2
        cases k4
        obtain ⟨p', k5, k6⟩ := ihI _ _ _ k3
        obtain ⟨w', hw', e'⟩ := skipWs_split (skipWs r₁).tail
        refine ⟨[] ++ (p ++ (w ++ ',' :: (w' ++ p'))), ?_, .cons (by intro c hc; cases hc) hp hw (items_ws hw' k6)⟩
        have := head_tail h2
        rw [e', k5] at this
        rw [e, this]
        simp
      · rw [if_neg h2] at k2
        cases k2
    · intro s l r h
      rw [scanPairs] at h
      by_cases h0 : s.head? = some '"'
      · rw [if_pos h0] at h
        obtain ⟨⟨key, r₀⟩, k1, k2⟩ := exceptBind_inv h
        obtain ⟨b, k3, hb⟩ := readString_iff.mp k1
        have hk : JsonString ('"' :: (b ++ ['"'])) key := ⟨b, rfl, hb⟩
        obtain ⟨w₁, hw₁, e₁⟩ := skipWs_split r₀
        simp only at k2
        by_cases hc : (skipWs r₀).head? = some ':'
        · rw [if_pos hc] at k2
          obtain ⟨⟨v, r₁⟩, k4, k5⟩ := exceptBind_inv k2
          obtain ⟨p, k6, hp⟩ := ihV _ _ _ k4
          obtain ⟨w₂, hw₂, e₂⟩ := skipWs_split (skipWs r₀).tail
          obtain ⟨w, hw, e⟩ := skipWs_split r₁
          simp only at k5
          have es : s = '"' :: (b ++ '"' :: (w₁ ++ ':' :: (w₂ ++ (p ++ r₁)))) := by
            rw [← k6, ← e₂, ← head_tail hc, ← e₁, ← k3]
            exact head_tail h0
          by_cases h1 : (skipWs r₁).head? = some '}'
          · rw [if_pos h1] at k5
            cases k5
            refine ⟨[] ++ (('"' :: (b ++ ['"'])) ++ (w₁ ++ ':' :: (w₂ ++ (p ++ w)))), ?_, .one (by intro c hc; cases hc) hk hw₁ hw₂ hp hw⟩
            have e' : r₁ = w ++ '}' :: (skipWs r₁).tail := by rw [← head_tail h1]; exact e
            rw [es]
            conv_lhs => rw [e']
            simp
          rw [if_neg h1] at k5
          by_cases h2 : (skipWs r₁).head? = some ','
          · rw [if_pos h2] at k5
            obtain ⟨⟨l', r₂⟩, k7, k8⟩ := exceptMap_inv k5
            cases k8
            obtain ⟨p', k9, k10⟩ := ihP _ _ _ k7
            obtain ⟨w', hw', e'⟩ := skipWs_split (skipWs r₁).tail
            refine ⟨[] ++ (('"' :: (b ++ ['"'])) ++ (w₁ ++ ':' :: (w₂ ++ (p ++ (w ++ ',' :: (w' ++ p')))))), ?_,
              .cons (by intro c hc; cases hc) hk hw₁ hw₂ hp hw (pairs_ws hw' k10)⟩
            have := head_tail h2
            rw [e', k9] at this
            rw [es, e, this]
            simp
          · rw [if_neg h2] at k5
            cases k5
        · rw [if_neg hc] at k2
          cases k2
      · rw [if_neg h0] at h
        cases h

/-! ## Errors -/

theorem noSurrogate_suffix {a b : List Char} (h : NoSurrogateEscape (a ++ b)) : NoSurrogateEscape b := by
  intro p c q e
  refine h (a ++ p) c q ?_
  rw [e]
  simp

theorem noSurrogate_skip {s : List Char} (h : NoSurrogateEscape s) : NoSurrogateEscape (skipWs s) := by
  obtain ⟨w, -, e⟩ := skipWs_split s
  rw [e] at h
  exact noSurrogate_suffix h

theorem noSurrogate_tail {s : List Char} (h : NoSurrogateEscape s) : NoSurrogateEscape s.tail := by
  cases s with
  | nil => exact h
  | cons c s => exact noSurrogate_suffix (a := [c]) h

theorem readUnits_error : ∀ (n : ℕ) (s : List Char), s.length ≤ n → ∀ e, readUnits s = .error e → e = .valueError := by
  have key : ∀ {r : List Char} {f : List ℕ × List Char → List ℕ × List Char} {e : PyErr}, (readUnits r).map f = .error e → readUnits r = .error e := by
    intro r f e h
    cases hr : readUnits r with
    | error e' =>
      rw [hr] at h
      cases h
      rfl
    | ok q =>
      rw [hr] at h
      cases h
  intro n
  induction n with
  | zero =>
    intro s hs e h
    cases s with
    | nil =>
      rw [readUnits.eq_def] at h
      cases h
      rfl
    | cons c s => simp at hs
  | succ n ih =>
    intro s hs e h
    rw [readUnits.eq_def] at h
    cases s with
    | nil =>
      cases h
      rfl
    | cons c s =>
      simp only [List.length_cons] at hs
      simp only at h
      split_ifs at h with h1 h2 h3
      · cases s with
        | nil =>
          cases h
          rfl
        | cons x s =>
          simp only [List.length_cons] at hs
          simp only at h
          split_ifs at h with h4
          · rcases s with _ | ⟨a, _ | ⟨b, _ | ⟨c', _ | ⟨d, s⟩⟩⟩⟩
            · cases h; rfl
            · cases h; rfl
            · cases h; rfl
            · cases h; rfl
            · simp only [List.length_cons] at hs
              simp only at h
              cases hx : hex4Val a b c' d with
              | none =>
                rw [hx] at h
                cases h
                rfl
              | some u =>
                rw [hx] at h
                exact ih s (by omega) e (key h)
          · cases hx : unescape x with
            | none =>
              rw [hx] at h
              cases h
              rfl
            | some u =>
              rw [hx] at h
              exact ih s (by omega) e (key h)
      · cases h
        rfl
      · exact ih s (by omega) e (key h)

theorem hexText_surrogate {h : List Char} {u : ℕ} (hx : HexText h u) (h1 : 0xD800 ≤ u) (h2 : u < 0xE000) : ∃ c t, h = c :: t ∧ (c = 'd' ∨ c = 'D') := by
  obtain ⟨a, b, c, d, w, x, y, z, rfl, ⟨hw, ha⟩, hb, hc, hd, rfl⟩ := hx
  have := hb.1
  have := hc.1
  have := hd.1
  have : w = 13 := by omega
  subst this
  exact ⟨a, _, rfl, ha⟩

theorem joinUnits_total {us : List ℕ} (h : ∀ u ∈ us, ¬ (0xD800 ≤ u ∧ u < 0xE000)) : ∃ t, joinUnits us = some t := by
  induction us with
  | nil => exact ⟨_, rfl⟩
  | cons u l ih =>
    obtain ⟨t, ht⟩ := ih fun u hu => h u (List.mem_cons_of_mem _ hu)
    have hu := h u List.mem_cons_self
    rw [joinUnits.eq_def]
    simp only
    rw [if_neg (by omega), if_neg (by omega), ht]
    exact ⟨_, rfl⟩

theorem readUnits_noSurrogate : ∀ (n : ℕ) (s : List Char), s.length ≤ n → NoSurrogateEscape s → ∀ us r, readUnits s = .ok (us, r) →
    ∀ u ∈ us, ¬ (0xD800 ≤ u ∧ u < 0xE000) := by
  intro n
  induction n with
  | zero =>
    intro s hs _ us r h
    cases s with
    | nil =>
      rw [readUnits.eq_def] at h
      cases h
    | cons c s => simp at hs
  | succ n ih =>
    intro s hs hn us r h u hu
    obtain ⟨rfl, -⟩ | ⟨u', us', p, s', rfl, rfl, hl, hr, hp⟩ := readUnits_cases _ s le_rfl us r h
    · cases hu
    · rcases List.mem_cons.mp hu with rfl | hu
      · rcases hp with ⟨c, rfl, rfl, -⟩ | ⟨e, c, rfl, rfl, -⟩ | ⟨hh, rfl, hx⟩
        · exact char_not_surrogate c
        · exact char_not_surrogate c
        · rintro ⟨h1, h2⟩
          obtain ⟨c, t, rfl, hc⟩ := hexText_surrogate hx h1 h2
          obtain ⟨k1, k2⟩ := hn [] c (t ++ s') (by simp)
          rcases hc with rfl | rfl
          · exact k1 rfl
          · exact k2 rfl
      · exact ih s' (by omega) (noSurrogate_suffix hn) us' r hr u hu

theorem readString_error {s : List Char} (hs : NoSurrogateEscape s) {e : PyErr} (h : readString s = .error e) : e = .valueError := by
  unfold readString at h
  cases hr : readUnits s with
  | error e' =>
    rw [hr] at h
    cases h
    exact readUnits_error _ s le_rfl _ hr
  | ok q =>
    obtain ⟨t, ht⟩ := joinUnits_total (readUnits_noSurrogate _ s le_rfl hs q.1 q.2 hr)
    rw [hr] at h
    simp only [Except.bind, ht] at h
    cases h

theorem exceptMap_error {α β ε : Type*} {x : Except ε α} {f : α → β} {e : ε} (h : x.map f = .error e) : x = .error e := by
  cases x with
  | error e' =>
    cases h
    rfl
  | ok a => cases h

theorem exceptBind_error {α β ε : Type*} {x : Except ε α} {f : α → Except ε β} {e : ε} (h : x.bind f = .error e) :
    x = .error e ∨ ∃ a, x = .ok a ∧ f a = .error e := by
  cases x with
  | error e' =>
    cases h
    exact .inl rfl
  | ok a => exact .inr ⟨a, rfl, h⟩

theorem readNumber_error {fc : FloatCode} {s : List Char} {e : PyErr} (h : readNumber fc s = .error e) : e = .valueError := by
  unfold readNumber at h
  simp only at h
  generalize splitWhole (if s.head? = some '-' then s.tail else s) = w at h
  by_cases h1 : w.1 = []
  · rw [if_pos h1] at h
    cases h
    rfl
  · rw [if_neg h1] at h
    by_cases h2 : (splitPoint w.2).1 = [] ∧ (splitExponent (splitPoint w.2).2).1 = []
    · rw [if_pos h2] at h
      cases h
    · rw [if_neg h2] at h
      cases h

theorem scanValue_shorter {fc : FloatCode} {n : ℕ} {s r : List Char} {v : Json} (h : scanValue fc n s = .ok (v, r)) :
    r.length + 1 ≤ s.length ∧ ∃ p, s = p ++ r := by
  obtain ⟨p, rfl, hp⟩ := (scan_sound fc n).1 _ _ _ h
  have := value_length hp
  exact ⟨by simp; omega, p, rfl⟩

/-- With enough calls, the scanner ends in a result or in a `ValueError`. -/
theorem scan_error (fc : FloatCode) : ∀ n : ℕ,
    (∀ s e, 2 * s.length + 1 ≤ n → NoSurrogateEscape s → scanValue fc n s = .error e → e = .valueError) ∧
    (∀ s e, 2 * s.length + 2 ≤ n → NoSurrogateEscape s → scanItems fc n s = .error e → e = .valueError) ∧
    (∀ s e, 2 * s.length + 2 ≤ n → NoSurrogateEscape s → scanPairs fc n s = .error e → e = .valueError) := by
  intro n
  induction n with
  | zero => exact ⟨fun s e h => by omega, fun s e h => by omega, fun s e h => by omega⟩
  | succ n ih =>
    obtain ⟨ihV, ihI, ihP⟩ := ih
    refine ⟨?_, ?_, ?_⟩
    · intro s e hn hs h
      cases s with
      | nil =>
        rw [scanValue] at h
        cases h
        rfl
      | cons c s =>
        have hs' : NoSurrogateEscape s := noSurrogate_tail hs
        have hlen := skipWs_length s
        simp only [List.length_cons] at hn
        rw [scanValue] at h
        by_cases h1 : c = '"'
        · rw [if_pos h1] at h
          exact readString_error hs' (exceptMap_error h)
        rw [if_neg h1] at h
        by_cases h2 : c = '{'
        · rw [if_pos h2] at h
          by_cases h3 : (skipWs s).head? = some '}'
          · rw [if_pos h3] at h
            cases h
          · rw [if_neg h3] at h
            exact ihP _ e (by omega) (noSurrogate_skip hs') (exceptMap_error h)
        rw [if_neg h2] at h
        by_cases h2 : c = '['
        · rw [if_pos h2] at h
          by_cases h3 : (skipWs s).head? = some ']'
          · rw [if_pos h3] at h
            cases h
          · rw [if_neg h3] at h
            exact ihI _ e (by omega) (noSurrogate_skip hs') (exceptMap_error h)
        rw [if_neg h2] at h
        cases hl : readLiteral (c :: s) with
        | some q =>
          rw [hl] at h
          cases h
        | none =>
          rw [hl] at h
          exact readNumber_error h
    · intro s e hn hs h
      rw [scanItems] at h
      rcases exceptBind_error h with h | ⟨⟨v, r⟩, k1, k2⟩
      · exact ihV s e (by omega) hs h
      obtain ⟨hl, p, rfl⟩ := scanValue_shorter k1
      have hr := noSurrogate_skip (noSurrogate_suffix hs)
      simp only at k2
      by_cases h1 : (skipWs r).head? = some ']'
      · rw [if_pos h1] at k2
        cases k2
      rw [if_neg h1] at k2
      by_cases h2 : (skipWs r).head? = some ','
      · rw [if_pos h2] at k2
        refine ihI _ e ?_ (noSurrogate_skip (noSurrogate_tail hr)) (exceptMap_error k2)
        have a1 := skipWs_length (skipWs r).tail
        have a2 := skipWs_length r
        have a3 : (skipWs r).tail.length ≤ (skipWs r).length := by simp
        omega
      · rw [if_neg h2] at k2
        cases k2
        rfl
    · intro s e hn hs h
      rw [scanPairs] at h
      by_cases h0 : s.head? = some '"'
      · rw [if_pos h0] at h
        rcases exceptBind_error h with h | ⟨⟨key, r₀⟩, k1, k2⟩
        · exact readString_error (noSurrogate_tail hs) h
        obtain ⟨b, k3, -⟩ := readString_iff.mp k1
        have hr₀ : NoSurrogateEscape r₀ := by
          have := noSurrogate_tail hs
          rw [k3] at this
          exact noSurrogate_tail (noSurrogate_suffix this)
        have l₀ : r₀.length + 1 ≤ s.length := by
          have := congrArg List.length k3
          simp only [List.length_tail, List.length_append, List.length_cons] at this
          omega
        simp only at k2
        by_cases hc : (skipWs r₀).head? = some ':'
        · rw [if_pos hc] at k2
          have b1 := skipWs_length (skipWs r₀).tail
          have b2 := skipWs_length r₀
          have b3 : (skipWs r₀).tail.length ≤ (skipWs r₀).length := by simp
          have hv := noSurrogate_skip (noSurrogate_tail (noSurrogate_skip hr₀))
          rcases exceptBind_error k2 with k2 | ⟨⟨v, r⟩, k4, k5⟩
          · exact ihV _ e (by omega) hv k2
          obtain ⟨hl, p, hp⟩ := scanValue_shorter k4
          have hr : NoSurrogateEscape (skipWs r) := by
            rw [hp] at hv
            exact noSurrogate_skip (noSurrogate_suffix hv)
          simp only at k5
          by_cases h1 : (skipWs r).head? = some '}'
          · rw [if_pos h1] at k5
            cases k5
          rw [if_neg h1] at k5
          by_cases h2 : (skipWs r).head? = some ','
          · rw [if_pos h2] at k5
            refine ihP _ e ?_ (noSurrogate_skip (noSurrogate_tail hr)) (exceptMap_error k5)
            have a1 := skipWs_length (skipWs r).tail
            have a2 := skipWs_length r
            have a3 : (skipWs r).tail.length ≤ (skipWs r).length := by simp
            omega
          · rw [if_neg h2] at k5
            cases k5
            rfl
        · rw [if_neg hc] at k2
          cases k2
          rfl
      · rw [if_neg h0] at h
        cases h
        rfl

end Verif.Lemmas
