import Verif.Lemmas.JsonScan
import Verif.Props.Json
import Verif.Props.RseekFiles

/-!
# C108: the text of saved files

`json.loads` reads the texts of the grammar of JSON, with the three numbers that python adds, as the documents that they stand for, and refuses all others;
`json.dumps` writes such texts. With C49 the objects that are saved in a file are the ones that are loaded from it.
-/

namespace Verif.Props

open Verif.Model Verif.Spec Verif.Lemmas

/-! ## Reading -/

theorem jsonText_head {parse : List Char → PyFloat} {s : List Char} {v : Json} (h : JsonText parse s v) : s.head? ≠ some (Char.ofNat 0xFEFF) := by
  obtain ⟨w, p, w', rfl, hw, hp, -⟩ := h
  obtain ⟨c, t, rfl, -, -, -, hc⟩ := value_head hp
  intro e
  cases w with
  | nil =>
    simp only [List.nil_append, List.cons_append, List.head?_cons, Option.some.injEq] at e
    rw [e] at hc
    exact absurd hc (by decide)
  | cons a w =>
    simp only [List.cons_append, List.head?_cons, Option.some.injEq] at e
    have := hw a List.mem_cons_self
    rw [e] at this
    revert this
    decide

/-- **C108.** Every text of the grammar is read as the document that it stands for. -/
theorem C108_read (fc : FloatCode) {s : List Char} {v : Json} (h : JsonText fc.parse s v) : readJson fc s = .ok v := by
  have h0 := jsonText_head h
  obtain ⟨w, p, w', rfl, hw, hp, hw'⟩ := h
  unfold readJson
  rw [if_neg h0, (skipWs_value hw hp w').1, readsValue fc hp w' _ (.inr (numStop_ws hw')) (by simp; omega)]
  simp only [Except.bind, skipWs_nil hw', if_true]

/-- **C108.** Nothing else is read. -/
theorem C108_only (fc : FloatCode) {s : List Char} {v : Json} (h : readJson fc s = .ok v) : JsonText fc.parse s v := by
  unfold readJson at h
  by_cases h0 : s.head? = some (Char.ofNat 0xFEFF)
  · rw [if_pos h0] at h
    cases h
  rw [if_neg h0] at h
  obtain ⟨⟨v', r⟩, k1, k2⟩ := exceptBind_inv h
  simp only at k2
  by_cases h1 : skipWs r = []
  · rw [if_pos h1] at k2
    cases k2
    obtain ⟨p, k3, k4⟩ := (scan_sound fc _).1 _ _ _ k1
    obtain ⟨w, hw, e⟩ := skipWs_split s
    exact ⟨w, p, r, by rw [e, k3], hw, k4, skipWs_eq_nil h1⟩
  · rw [if_neg h1] at k2
    cases k2

/-- **C108.** A text that is not of the grammar is refused with a `ValueError`; the hypothesis leaves out texts with escaped surrogates, which python
accepts even if they do not come in pairs. -/
theorem C108_refused (fc : FloatCode) {s : List Char} (hs : NoSurrogateEscape s) (h : ∀ v, ¬ JsonText fc.parse s v) :
    readJson fc s = .error .valueError := by
  cases hr : readJson fc s with
  | ok v => exact absurd (C108_only fc hr) (h v)
  | error e =>
    congr 1
    unfold readJson at hr
    by_cases h0 : s.head? = some (Char.ofNat 0xFEFF)
    · rw [if_pos h0] at hr
      cases hr
      rfl
    rw [if_neg h0] at hr
    rcases exceptBind_error hr with hr | ⟨⟨v, r⟩, -, k⟩
    · have := skipWs_length s
      exact (scan_error fc _).1 _ e (by omega) (noSurrogate_skip hs) hr
    · simp only at k
      by_cases h1 : skipWs r = []
      · rw [if_pos h1] at k
        cases k
      · rw [if_neg h1] at k
        cases k
        rfl

/-- A text stands for at most one document. -/
theorem C108_unambiguous {parse : List Char → PyFloat} {s : List Char} {v v' : Json} (h : JsonText parse s v) (h' : JsonText parse s v') : v = v' := by
  have a := C108_read ⟨fun _ => [], parse⟩ h
  have b := C108_read ⟨fun _ => [], parse⟩ h'
  rw [a] at b
  exact Except.ok.inj b

/-! ## Writing -/

theorem jsonNat_natText (n : ℕ) : JsonNat (natText n) n := by
  refine ⟨padDigits_text 1 n one_pos, ?_⟩
  rcases Nat.eq_zero_or_pos n with rfl | hn
  · left
    decide
  · right
    unfold natText padDigits
    have hne : Nat.digits 10 n ≠ [] := Nat.digits_ne_nil_iff_ne_zero.mpr hn.ne'
    have hl : 1 - (Nat.digits 10 n).length = 0 := by
      have := List.length_pos_iff.mpr hne
      omega
    simp only [hl, List.replicate_zero, List.append_nil, List.head?_map, List.head?_reverse]
    rw [List.getLast?_eq_some_getLast hne]
    have h1 := Nat.getLast_digit_ne_zero 10 hn.ne'
    have h2 : (Nat.digits 10 n).getLast hne < 10 := Nat.digits_lt_base (by norm_num) (List.getLast_mem hne)
    generalize (Nat.digits 10 n).getLast hne = d at h1 h2
    simp only [Option.map_some, ne_eq, Option.some.injEq]
    interval_cases d
    · exact absurd rfl h1
    all_goals decide

theorem jsonInt_intText (i : ℤ) : JsonInt (intText i) i := by
  refine ⟨i.natAbs, ?_⟩
  unfold intText
  split_ifs with h
  · exact .inr ⟨_, rfl, jsonNat_natText _, by omega⟩
  · exact .inl ⟨jsonNat_natText _, by omega⟩

theorem hex4_text {n : ℕ} (h : n < 0x10000) : HexText (hex4 n) n := by
  refine ⟨_, _, _, _, n / 4096 % 16, n / 256 % 16, n / 16 % 16, n % 16, rfl, ⟨by omega, .inl rfl⟩, ⟨by omega, .inl rfl⟩, ⟨by omega, .inl rfl⟩,
    ⟨by omega, .inl rfl⟩, by omega⟩

theorem char_lt (c : Char) : c.toNat < 0x110000 := by
  rcases c.valid with h | h
  · have : c.toNat < 0xd800 := h
    omega
  · exact h.2

theorem escapeChar_text (c : Char) {s t : List Char} (h : JsonChars s t) : JsonChars (escapeChar c ++ s) (c :: t) := by
  unfold escapeChar
  split_ifs with h1 h2 h3 h4 h5 h6 h7 h8 h9
  · subst h1; exact .escape (by simp) h
  · subst h2; exact .escape (by simp) h
  · subst h3; exact .escape (by simp) h
  · subst h4; exact .escape (by simp) h
  · subst h5; exact .escape (by simp) h
  · subst h6; exact .escape (by simp) h
  · subst h7; exact .escape (by simp) h
  · exact .plain h1 h2 h8.1 h
  · exact .unicode (hex4_text h9) h
  · have := char_lt c
    have e : ('\\' :: 'u' :: (hex4 (0xD800 + (c.toNat - 0x10000) / 0x400) ++ '\\' :: 'u' :: hex4 (0xDC00 + (c.toNat - 0x10000) % 0x400))) ++ s =
        '\\' :: 'u' :: (hex4 (0xD800 + (c.toNat - 0x10000) / 0x400) ++ '\\' :: 'u' :: (hex4 (0xDC00 + (c.toNat - 0x10000) % 0x400) ++ s)) := by simp
    rw [e]
    exact .surrogates (hex4_text (by omega)) (hex4_text (by omega)) (by omega) (by omega) (by omega) (by omega) (by omega) h

theorem jsonString_text (t : String) : JsonString (jsonString t) t := by
  refine ⟨_, rfl, ?_⟩
  induction t.toList with
  | nil => exact .nil
  | cons c l ih =>
    rw [List.flatMap_cons]
    exact escapeChar_text c ih

theorem jsonGap_ws (indent : Option ℕ) (depth : ℕ) : JsonWs (jsonGap indent depth) := by
  cases indent with
  | none =>
    intro c hc
    cases hc
  | some n =>
    intro c hc
    rcases List.mem_cons.mp hc with rfl | hc
    · simp
    · exact .inl (List.eq_of_mem_replicate hc)

theorem jsonSep_ws (indent : Option ℕ) (depth : ℕ) : ∃ w, JsonWs w ∧ jsonSep indent depth = ',' :: w := by
  cases indent with
  | none => exact ⟨[' '], by intro c hc; simp at hc; exact .inl hc, rfl⟩
  | some n => exact ⟨_, jsonGap_ws (some n) depth, rfl⟩

theorem jsonWs_nil : JsonWs [] := by
  intro c hc
  cases hc

theorem jsonWs_blank : JsonWs [' '] := by
  intro c hc
  simp at hc
  exact .inl hc

theorem jsonFloat_text {fc : FloatCode} {P : ℚ → Prop} (hf : FloatCode.Faithful fc P) {x : PyFloat} (h : FloatsIn P (.float x)) :
    JsonValue fc.parse (jsonFloat fc x) (.float x) := by
  rcases x with q | b | _
  · rw [FloatsIn] at h
    obtain ⟨h1, h2⟩ := hf q h
    have := JsonValue.float (parse := fc.parse) h1
    rw [h2] at this
    exact this
  · cases b
    · exact .inf
    · exact .negInf
  · exact .nan

mutual

theorem writeJson_text {fc : FloatCode} {P : ℚ → Prop} (hf : FloatCode.Faithful fc P) (indent : Option ℕ) : ∀ (depth : ℕ) (j : Json), FloatsIn P j →
    JsonValue fc.parse (writeJson fc indent depth j) j
  | _, .null, _ => by rw [writeJson]; exact .null
  | _, .bool true, _ => by rw [writeJson]; exact .true
  | _, .bool false, _ => by rw [writeJson]; exact .false
  | _, .int i, _ => by rw [writeJson]; exact .int (jsonInt_intText i)
  | _, .float x, h => by rw [writeJson]; exact jsonFloat_text hf h
  | _, .str s, _ => by rw [writeJson]; exact .str (jsonString_text s)
  | _, .arr [], _ => by rw [writeJson]; exact .arrNil jsonWs_nil
  | depth, .arr (j :: l), h => by
    rw [FloatsIn, FloatsInItems] at h
    have hj := writeJson_text hf indent (depth + 1) j h.1
    have := writeItems_text hf indent (depth + 1) l h.2 (jsonGap_ws indent (depth + 1)) hj (jsonGap_ws indent depth)
    rw [writeJson]
    have e : jsonGap indent (depth + 1) ++ (writeJson fc indent (depth + 1) j ++ (writeItems fc indent (depth + 1) l ++ (jsonGap indent depth ++ [']']))) =
        (jsonGap indent (depth + 1) ++ (writeJson fc indent (depth + 1) j ++ (writeItems fc indent (depth + 1) l ++ jsonGap indent depth))) ++ [']'] := by simp
    rw [e]
    exact .arr this
  | _, .obj [], _ => by rw [writeJson]; exact .objNil jsonWs_nil
  | depth, .obj ((k, j) :: l), h => by
    rw [FloatsIn, FloatsInPairs] at h
    have hj := writeJson_text hf indent (depth + 1) j h.1
    have := writePairs_text hf indent (depth + 1) l h.2 (jsonGap_ws indent (depth + 1)) (jsonString_text k) hj (jsonGap_ws indent depth)
    rw [writeJson]
    have e : jsonGap indent (depth + 1) ++ (jsonString k ++ (':' :: ' ' :: (writeJson fc indent (depth + 1) j ++ (writePairs fc indent (depth + 1) l ++
        (jsonGap indent depth ++ ['}']))))) =
        (jsonGap indent (depth + 1) ++ (jsonString k ++ (':' :: ' ' :: (writeJson fc indent (depth + 1) j ++ (writePairs fc indent (depth + 1) l ++
          jsonGap indent depth))))) ++ ['}'] := by simp
    rw [e]
    exact .obj this

theorem writeItems_text {fc : FloatCode} {P : ℚ → Prop} (hf : FloatCode.Faithful fc P) (indent : Option ℕ) : ∀ (depth : ℕ) (l : List Json),
    FloatsInItems P l → ∀ {w s g : List Char} {v : Json}, JsonWs w → JsonValue fc.parse s v → JsonWs g →
    JsonItems fc.parse (w ++ (s ++ (writeItems fc indent depth l ++ g))) (v :: l)
  | _, [], _, w, s, g, v, hw, hs, hg => by
    rw [writeItems, List.nil_append]
    exact .one hw hs hg
  | depth, j :: l, h, w, s, g, v, hw, hs, hg => by
    rw [FloatsInItems] at h
    obtain ⟨w', hw', e⟩ := jsonSep_ws indent depth
    have hj := writeJson_text hf indent depth j h.1
    have := writeItems_text hf indent depth l h.2 hw' hj hg
    rw [writeItems, e]
    have e' : (',' :: w' ++ (writeJson fc indent depth j ++ writeItems fc indent depth l)) ++ g =
        [] ++ ',' :: (w' ++ (writeJson fc indent depth j ++ (writeItems fc indent depth l ++ g))) := by simp
    rw [e']
    exact .cons hw hs jsonWs_nil this

theorem writePairs_text {fc : FloatCode} {P : ℚ → Prop} (hf : FloatCode.Faithful fc P) (indent : Option ℕ) : ∀ (depth : ℕ) (l : List (String × Json)),
    FloatsInPairs P l → ∀ {w k s g : List Char} {key : String} {v : Json}, JsonWs w → JsonString k key → JsonValue fc.parse s v → JsonWs g →
    JsonPairs fc.parse (w ++ (k ++ (':' :: ' ' :: (s ++ (writePairs fc indent depth l ++ g))))) ((key, v) :: l)
  | _, [], _, w, k, s, g, key, v, hw, hk, hs, hg => by
    rw [writePairs, List.nil_append]
    exact .one (w₁ := []) (w₂ := [' ']) hw hk jsonWs_nil jsonWs_blank hs hg
  | depth, (k', j) :: l, h, w, k, s, g, key, v, hw, hk, hs, hg => by
    rw [FloatsInPairs] at h
    obtain ⟨w', hw', e⟩ := jsonSep_ws indent depth
    have hj := writeJson_text hf indent depth j h.1
    have := writePairs_text hf indent depth l h.2 hw' (jsonString_text k') hj hg
    rw [writePairs, e]
    have e' : (',' :: w' ++ (jsonString k' ++ (':' :: ' ' :: (writeJson fc indent depth j ++ writePairs fc indent depth l)))) ++ g =
        [] ++ ',' :: (w' ++ (jsonString k' ++ (':' :: ' ' :: (writeJson fc indent depth j ++ (writePairs fc indent depth l ++ g))))) := by simp
    rw [e']
    exact .cons (w₁ := []) (w₂ := [' ']) hw hk jsonWs_nil jsonWs_blank hs jsonWs_nil this

end

/-- **C108.** With every indentation, what is written is a text of the grammar that stands for the document. -/
theorem C108_written {fc : FloatCode} {P : ℚ → Prop} (hf : FloatCode.Faithful fc P) (indent : Option ℕ) (depth : ℕ) {j : Json} (h : FloatsIn P j) :
    JsonText fc.parse (writeJson fc indent depth j) j :=
  ⟨[], _, [], by simp, jsonWs_nil, writeJson_text hf indent depth j h, jsonWs_nil⟩

/-! ## Characters -/

theorem digits_plainText {s : List Char} {n : ℕ} (h : DigitsText s n) : PlainText s := by
  intro c hc
  obtain ⟨d, hd, rfl⟩ := digitChar_of_isDigit (h.isDigit c hc)
  right
  interval_cases d <;> decide

theorem plain_append {a b : List Char} (ha : PlainText a) (hb : PlainText b) : PlainText (a ++ b) := by
  intro c hc
  rcases List.mem_append.mp hc with hc | hc
  · exact ha c hc
  · exact hb c hc

theorem plain_cons {c : Char} {s : List Char} (hc : 32 ≤ c.toNat ∧ c.toNat ≤ 126) (hs : PlainText s) : PlainText (c :: s) := by
  intro d hd
  rcases List.mem_cons.mp hd with rfl | hd
  · exact .inr hc
  · exact hs d hd

theorem plain_nil : PlainText [] := by
  intro c hc
  cases hc

theorem real_plain {s : List Char} (h : JsonReal s) : PlainText s := by
  obtain ⟨sg, ip, n, fp, ex, rfl, hsg, hip, hfp, hex, -⟩ := h
  refine plain_append ?_ (plain_append (digits_plainText hip.1) (plain_append ?_ ?_))
  · rcases hsg with rfl | rfl
    · exact plain_nil
    · exact plain_cons (by decide) plain_nil
  · rcases hfp with rfl | ⟨t, m, rfl, ht⟩
    · exact plain_nil
    · exact plain_cons (by decide) (digits_plainText ht)
  · rcases hex with rfl | ⟨e, sg, t, m, rfl, he, hsg, ht⟩
    · exact plain_nil
    · refine plain_cons ?_ (plain_append ?_ (digits_plainText ht))
      · rcases he with rfl | rfl <;> decide
      · rcases hsg with rfl | rfl | rfl
        · exact plain_nil
        · exact plain_cons (by decide) plain_nil
        · exact plain_cons (by decide) plain_nil

theorem hex4_plain (n : ℕ) : PlainText (hex4 n) := by
  have key : ∀ d < 16, 32 ≤ (Nat.digitChar d).toNat ∧ (Nat.digitChar d).toNat ≤ 126 := by decide
  unfold hex4
  exact plain_cons (key _ (by omega)) (plain_cons (key _ (by omega)) (plain_cons (key _ (by omega)) (plain_cons (key _ (by omega)) plain_nil)))

theorem escapeChar_plain (c : Char) : PlainText (escapeChar c) := by
  unfold escapeChar
  split_ifs with h1 h2 h3 h4 h5 h6 h7 h8 h9
  · exact plain_cons (by decide) (plain_cons (by decide) plain_nil)
  · exact plain_cons (by decide) (plain_cons (by decide) plain_nil)
  · exact plain_cons (by decide) (plain_cons (by decide) plain_nil)
  · exact plain_cons (by decide) (plain_cons (by decide) plain_nil)
  · exact plain_cons (by decide) (plain_cons (by decide) plain_nil)
  · exact plain_cons (by decide) (plain_cons (by decide) plain_nil)
  · exact plain_cons (by decide) (plain_cons (by decide) plain_nil)
  · exact plain_cons h8 plain_nil
  · exact plain_cons (by decide) (plain_cons (by decide) (hex4_plain _))
  · exact plain_cons (by decide) (plain_cons (by decide) (plain_append (hex4_plain _) (plain_cons (by decide) (plain_cons (by decide) (hex4_plain _)))))

theorem jsonString_plain (t : String) : PlainText (jsonString t) := by
  refine plain_cons (by decide) (plain_append ?_ (plain_cons (by decide) plain_nil))
  intro c hc
  obtain ⟨d, -, hd⟩ := List.mem_flatMap.mp hc
  exact escapeChar_plain d c hd

theorem gap_plain (indent : Option ℕ) (depth : ℕ) : PlainText (jsonGap indent depth) := by
  cases indent with
  | none => exact plain_nil
  | some n =>
    intro c hc
    rcases List.mem_cons.mp hc with rfl | hc
    · exact .inl rfl
    · rw [List.eq_of_mem_replicate hc]
      exact .inr (by decide)

theorem sep_plain (indent : Option ℕ) (depth : ℕ) : PlainText (jsonSep indent depth) := by
  cases indent with
  | none => exact plain_cons (by decide) (plain_cons (by decide) plain_nil)
  | some n => exact plain_cons (by decide) (gap_plain (some n) depth)

theorem int_plain (i : ℤ) : PlainText (intText i) := by
  obtain ⟨n, ⟨h, -⟩ | ⟨t, e, h, -⟩⟩ := jsonInt_intText i
  · exact digits_plainText h.1
  · rw [e]
    exact plain_cons (by decide) (digits_plainText h.1)

theorem float_plain {fc : FloatCode} {P : ℚ → Prop} (hf : FloatCode.Faithful fc P) {x : PyFloat} (h : FloatsIn P (.float x)) : PlainText (jsonFloat fc x) := by
  rcases x with q | b | _
  · rw [FloatsIn] at h
    exact real_plain (hf q h).1
  · cases b
    · show PlainText ['I', 'n', 'f', 'i', 'n', 'i', 't', 'y']
      unfold PlainText
      decide
    · show PlainText ['-', 'I', 'n', 'f', 'i', 'n', 'i', 't', 'y']
      unfold PlainText
      decide
  · show PlainText ['N', 'a', 'N']
    unfold PlainText
    decide

mutual

theorem writeJson_plain {fc : FloatCode} {P : ℚ → Prop} (hf : FloatCode.Faithful fc P) (indent : Option ℕ) : ∀ (depth : ℕ) (j : Json), FloatsIn P j →
    PlainText (writeJson fc indent depth j)
  | _, .null, _ => by
    rw [writeJson]
    show PlainText ['n', 'u', 'l', 'l']
    unfold PlainText
    decide
  | _, .bool true, _ => by
    rw [writeJson]
    show PlainText ['t', 'r', 'u', 'e']
    unfold PlainText
    decide
  | _, .bool false, _ => by
    rw [writeJson]
    show PlainText ['f', 'a', 'l', 's', 'e']
    unfold PlainText
    decide
  | _, .int i, _ => by rw [writeJson]; exact int_plain i
  | _, .float x, h => by rw [writeJson]; exact float_plain hf h
  | _, .str s, _ => by rw [writeJson]; exact jsonString_plain s
  | _, .arr [], _ => by rw [writeJson]; exact plain_cons (by decide) (plain_cons (by decide) plain_nil)
  | depth, .arr (j :: l), h => by
    rw [FloatsIn, FloatsInItems] at h
    rw [writeJson]
    exact plain_cons (by decide) (plain_append (gap_plain _ _) (plain_append (writeJson_plain hf indent _ j h.1) (plain_append
      (writeItems_plain hf indent _ l h.2) (plain_append (gap_plain _ _) (plain_cons (by decide) plain_nil)))))
  | _, .obj [], _ => by rw [writeJson]; exact plain_cons (by decide) (plain_cons (by decide) plain_nil)
  | depth, .obj ((k, j) :: l), h => by
    rw [FloatsIn, FloatsInPairs] at h
    rw [writeJson]
    exact plain_cons (by decide) (plain_append (gap_plain _ _) (plain_append (jsonString_plain k) (plain_cons (by decide) (plain_cons (by decide)
      (plain_append (writeJson_plain hf indent _ j h.1) (plain_append (writePairs_plain hf indent _ l h.2) (plain_append (gap_plain _ _)
      (plain_cons (by decide) plain_nil))))))))

theorem writeItems_plain {fc : FloatCode} {P : ℚ → Prop} (hf : FloatCode.Faithful fc P) (indent : Option ℕ) : ∀ (depth : ℕ) (l : List Json),
    FloatsInItems P l → PlainText (writeItems fc indent depth l)
  | _, [], _ => by rw [writeItems]; exact plain_nil
  | depth, j :: l, h => by
    rw [FloatsInItems] at h
    rw [writeItems]
    exact plain_append (sep_plain _ _) (plain_append (writeJson_plain hf indent _ j h.1) (writeItems_plain hf indent _ l h.2))

theorem writePairs_plain {fc : FloatCode} {P : ℚ → Prop} (hf : FloatCode.Faithful fc P) (indent : Option ℕ) : ∀ (depth : ℕ) (l : List (String × Json)),
    FloatsInPairs P l → PlainText (writePairs fc indent depth l)
  | _, [], _ => by rw [writePairs]; exact plain_nil
  | depth, (k, j) :: l, h => by
    rw [FloatsInPairs] at h
    rw [writePairs]
    exact plain_append (sep_plain _ _) (plain_append (jsonString_plain k) (plain_cons (by decide) (plain_cons (by decide) (plain_append
      (writeJson_plain hf indent _ j h.1) (writePairs_plain hf indent _ l h.2)))))

end

/-- **C108.** Whatever is in the strings, the text consists of printable ASCII characters and line feeds. -/
theorem C108_ascii {fc : FloatCode} {P : ℚ → Prop} (hf : FloatCode.Faithful fc P) (indent : Option ℕ) (depth : ℕ) {j : Json} (h : FloatsIn P j) :
    PlainText (writeJson fc indent depth j) := writeJson_plain hf indent depth j h

/-! ## Texts that are cut short -/

/-- Documents other than numbers and words. -/
def Compound : Json → Prop
  | .str _ => True
  | .arr _ => True
  | .obj _ => True
  | _ => False

theorem compound_closed {parse : List Char → PyFloat} {s : List Char} {v : Json} (h : JsonValue parse s v) (hv : Compound v) : Closed s := by
  cases h with
  | str h =>
    obtain ⟨b, rfl, -⟩ := h
    exact .inl rfl
  | arrNil _ => exact .inr (.inr rfl)
  | arr _ => exact .inr (.inr rfl)
  | objNil _ => exact .inr (.inl rfl)
  | obj _ => exact .inr (.inl rfl)
  | _ => exact hv.elim

/-- **C108.** A text of a string, an array or an object, of which the end is missing, stands for no document, and reading it is an error. -/
theorem C108_truncated (fc : FloatCode) {s : List Char} {j : Json} (h : JsonValue fc.parse s j) (hj : Compound j) {p r : List Char} (hp : s = p ++ r)
    (hr : r ≠ []) : (∀ v, ¬ JsonText fc.parse p v) ∧ (∃ e, readJson fc p = .error e) ∧ (NoSurrogateEscape p → readJson fc p = .error .valueError) := by
  have key : ∀ v, ¬ JsonText fc.parse p v := by
    rintro v ⟨w, p₁, w', rfl, hw, hp₁, hw'⟩
    have hcl := compound_closed h hj
    have hw0 : w = [] := by
      cases w with
      | nil => rfl
      | cons a w =>
        exfalso
        rw [hp] at hcl
        have := hw a List.mem_cons_self
        unfold Closed at hcl
        simp only [List.cons_append, List.head?_cons, Option.some.injEq] at hcl
        rcases hcl with rfl | rfl | rfl <;> revert this <;> decide
    subst hw0
    simp only [List.nil_append] at hp
    have hcl₁ : Closed p₁ := by
      obtain ⟨c, t, rfl, -⟩ := value_head hp₁
      rw [hp] at hcl
      exact hcl
    have e1 := readsValue fc h [] (2 * s.length) (.inr numStop_nil) le_rfl
    have e2 := readsValue fc hp₁ (w' ++ r) (2 * s.length) (.inl hcl₁) (by rw [hp]; simp)
    rw [List.append_nil, hp, List.append_assoc] at e1
    rw [hp, List.append_assoc] at e2
    rw [e1] at e2
    have := Except.ok.inj e2
    simp only [Prod.mk.injEq] at this
    have := this.2
    rcases List.nil_eq_append_iff.mp this with ⟨-, h⟩
    exact hr h
  refine ⟨key, ?_, fun hs => C108_refused fc hs key⟩
  cases he : readJson fc p with
  | error e => exact ⟨e, rfl⟩
  | ok v => exact absurd (C108_only fc he) (key v)

/-! ## Objects -/

theorem ints_floats (P : ℚ → Prop) (l : List ℕ) : FloatsInItems P (l.map fun (n : ℕ) => Json.int n) := by
  induction l with
  | nil => rw [List.map_nil, FloatsInItems]; trivial
  | cons a l ih => rw [List.map_cons, FloatsInItems]; exact ⟨by simp [FloatsIn], ih⟩

theorem strings_floats (P : ℚ → Prop) (l : List String) : FloatsInItems P (l.map Json.str) := by
  induction l with
  | nil => rw [List.map_nil, FloatsInItems]; trivial
  | cons a l ih => rw [List.map_cons, FloatsInItems]; exact ⟨by simp [FloatsIn], ih⟩

theorem encodeArray_floats (P : ℚ → Prop) (a : NdArr) : FloatsIn P (encodeArray a) := by
  unfold encodeArray
  rw [FloatsIn, FloatsInPairs, FloatsInPairs, FloatsInPairs, FloatsInPairs, FloatsInPairs]
  refine ⟨by simp [FloatsIn], by simp [FloatsIn], by simp [FloatsIn], ?_, trivial⟩
  rw [FloatsIn]
  exact ints_floats P a.shape

theorem pairs_floats_append (P : ℚ → Prop) : ∀ {a b : List (String × Json)}, FloatsInPairs P a → FloatsInPairs P b → FloatsInPairs P (a ++ b)
  | [], _, _, hb => hb
  | (k, j) :: a, b, ha, hb => by
    rw [FloatsInPairs] at ha
    rw [List.cons_append, FloatsInPairs]
    exact ⟨ha.1, pairs_floats_append P ha.2 hb⟩

mutual

theorem toJson_floats (P : ℚ → Prop) (version : String) : ∀ (v : PyVal) (j : Json), ValFloatsIn P v → toJson version v = .ok j → FloatsIn P j
  | .none, _, _, h => by rw [toJson] at h; cases h; simp [FloatsIn]
  | .bool _, _, _, h => by rw [toJson] at h; cases h; simp [FloatsIn]
  | .int _, _, _, h => by rw [toJson] at h; cases h; simp [FloatsIn]
  | .float x, _, hv, h => by
    rw [toJson] at h
    cases h
    rcases x with q | b | _
    · rw [ValFloatsIn] at hv
      rw [FloatsIn]
      exact hv
    · simp [FloatsIn]
    · simp [FloatsIn]
  | .str _, _, _, h => by rw [toJson] at h; cases h; simp [FloatsIn]
  | .npInt _, _, _, h => by rw [toJson] at h; cases h; simp [FloatsIn]
  | .npFloat x, _, hv, h => by
    rw [toJson] at h
    cases h
    rcases x with q | b | _
    · rw [ValFloatsIn] at hv
      rw [FloatsIn]
      exact hv
    · simp [FloatsIn]
    · simp [FloatsIn]
  | .other _, _, _, h => by rw [toJson] at h; cases h
  | .list l, _, hv, h => by
    rw [toJson] at h
    obtain ⟨k, h1, rfl⟩ := exceptMap_inv h
    rw [ValFloatsIn] at hv
    rw [FloatsIn]
    exact toJsonList_floats P version l k hv h1
  | .dict d, _, hv, h => by
    rw [toJson] at h
    obtain ⟨k, h1, rfl⟩ := exceptMap_inv h
    rw [ValFloatsIn] at hv
    rw [FloatsIn]
    exact toJsonDict_floats P version d k hv h1
  | .metadata d, _, hv, h => by
    rw [toJson] at h
    obtain ⟨k, h1, rfl⟩ := exceptMap_inv h
    rw [ValFloatsIn] at hv
    rw [FloatsIn]
    exact toJsonDict_floats P version d k hv h1
  | .ndarray a, _, _, h => by
    rw [toJson] at h
    cases h
    exact encodeArray_floats P a
  | .frame _ a c, _, _, h => by
    rw [toJson] at h
    cases h
    simp only [FloatsIn, FloatsInPairs, true_and, and_true]
    exact ⟨encodeArray_floats P a, strings_floats P c⟩
  | .sky ra dec, _, hv, h => by
    rw [toJson] at h
    cases h
    rw [ValFloatsIn] at hv
    have key : ∀ x : PyFloat, (∀ q, x = .fin q → P q) → FloatsIn P (.float x) := by
      intro x hx
      rcases x with q | b | _
      · rw [FloatsIn]
        exact hx q rfl
      · simp [FloatsIn]
      · simp [FloatsIn]
    rw [FloatsIn, FloatsInPairs, FloatsInPairs, FloatsInPairs, FloatsInPairs, FloatsInPairs]
    exact ⟨by simp [FloatsIn], key ra hv.1, key dec hv.2, by simp [FloatsIn], trivial⟩
  | .object cls ver f, _, hv, h => by
    rw [toJson] at h
    obtain ⟨k, h1, rfl⟩ := exceptMap_inv h
    rw [ValFloatsIn] at hv
    rw [FloatsIn]
    refine pairs_floats_append P (toJsonDict_floats P version f k hv h1) ?_
    simp [FloatsInPairs, FloatsIn]

theorem toJsonList_floats (P : ℚ → Prop) (version : String) : ∀ (l : List PyVal) (k : List Json), ValFloatsInList P l → toJsonList version l = .ok k →
    FloatsInItems P k
  | [], _, _, h => by rw [toJsonList] at h; cases h; rw [FloatsInItems]; trivial
  | v :: l, _, hv, h => by
    rw [toJsonList] at h
    rw [ValFloatsInList] at hv
    obtain ⟨j, h1, h2⟩ := exceptBind_inv h
    obtain ⟨k, h3, rfl⟩ := exceptMap_inv h2
    rw [FloatsInItems]
    exact ⟨toJson_floats P version v j hv.1 h1, toJsonList_floats P version l k hv.2 h3⟩

theorem toJsonDict_floats (P : ℚ → Prop) (version : String) : ∀ (d : List (String × PyVal)) (k : List (String × Json)), ValFloatsInDict P d →
    toJsonDict version d = .ok k → FloatsInPairs P k
  | [], _, _, h => by rw [toJsonDict] at h; cases h; rw [FloatsInPairs]; trivial
  | (n, v) :: l, _, hv, h => by
    rw [toJsonDict] at h
    rw [ValFloatsInDict] at hv
    obtain ⟨j, h1, h2⟩ := exceptBind_inv h
    obtain ⟨k, h3, rfl⟩ := exceptMap_inv h2
    rw [FloatsInPairs]
    exact ⟨toJson_floats P version v j hv.1 h1, toJsonDict_floats P version l k hv.2 h3⟩

end

/-- The text of a tree of supported objects, and what is read from it. -/
theorem text_reloaded {fc : FloatCode} {P : ℚ → Prop} (hf : FloatCode.Faithful fc P) (saver loader : String) (indent : Option ℕ) {v : PyVal}
    (h : Savable v) (hv : ValFloatsIn P v) :
    ∃ t, toJsonText fc saver indent v = .ok t ∧ fromJsonText fc loader t = .ok (reloaded saver v) := by
  obtain ⟨j, h3, h4⟩ := exceptBind_inv (saveLoad_eq saver loader h)
  refine ⟨writeJson fc indent 0 j, ?_, ?_⟩
  · unfold toJsonText
    rw [h3]
    rfl
  · unfold fromJsonText
    rw [C108_read fc (C108_written hf indent 0 (toJson_floats P saver v j hv h3))]
    exact h4

/-- **C108.** Texts: whatever the versions of riptide and the indentation, a tree of supported objects that is written as a text can be read from
it and has the same content. -/
theorem C108_roundtrip {fc : FloatCode} {P : ℚ → Prop} (hf : FloatCode.Faithful fc P) (saver loader : String) (indent : Option ℕ) {v : PyVal}
    (h : Savable v) (hv : ValFloatsIn P v) :
    ∃ t, toJsonText fc saver indent v = .ok t ∧ ∃ v', fromJsonText fc loader t = .ok v' ∧ content v' = content v := by
  obtain ⟨t, h1, h2⟩ := text_reloaded hf saver loader indent h hv
  exact ⟨t, h1, _, h2, content_reloaded saver v⟩

theorem toJson_restoreMeta (s : String) (cls : String) (f : List (String × PyVal)) : toJsonDict s (restoreMeta cls f) = toJsonDict s f := by
  unfold restoreMeta
  split_ifs
  · induction f with
    | nil => rfl
    | cons a f ih =>
      rw [List.map_cons]
      split
      · rw [toJsonDict, toJsonDict, ih, toJson, toJson]
      · obtain ⟨k, v⟩ := a
        rw [toJsonDict, toJsonDict, ih]
  · rfl

mutual

theorem toJson_reloaded (s s' : String) (hs : s ≠ "") : ∀ v : PyVal, toJson s' (reloaded s v) = toJson s v
  | .none => rfl
  | .bool _ => rfl
  | .int _ => rfl
  | .float _ => rfl
  | .str _ => rfl
  | .npInt _ => rfl
  | .npFloat _ => rfl
  | .other _ => rfl
  | .sky _ _ => rfl
  | .list l => by rw [reloaded, toJson, toJson, toJsonList_reloaded s s' hs l]
  | .dict d => by rw [reloaded, toJson, toJson, toJsonDict_reloaded s s' hs d]
  | .metadata d => by rw [reloaded, toJson, toJson, toJsonDict_reloaded s s' hs d]
  | .ndarray a => by rw [reloaded, toJson, toJson]; rfl
  | .frame t v c => by rw [reloaded, toJson, toJson]; rfl
  | .object cls ver f => by
    rw [reloaded, toJson, toJson, toJson_restoreMeta, toJsonDict_reloaded s s' hs f, writtenVersion_again s s' ver hs]

theorem toJsonList_reloaded (s s' : String) (hs : s ≠ "") : ∀ l : List PyVal, toJsonList s' (reloadedList s l) = toJsonList s l
  | [] => by rw [reloadedList, toJsonList, toJsonList]
  | v :: l => by rw [reloadedList, toJsonList, toJsonList, toJson_reloaded s s' hs v, toJsonList_reloaded s s' hs l]

theorem toJsonDict_reloaded (s s' : String) (hs : s ≠ "") : ∀ l : List (String × PyVal), toJsonDict s' (reloadedDict s l) = toJsonDict s l
  | [] => by rw [reloadedDict, toJsonDict, toJsonDict]
  | (k, v) :: l => by rw [reloadedDict, toJsonDict, toJsonDict, toJson_reloaded s s' hs v, toJsonDict_reloaded s s' hs l]

end

/-- **C108.** What was read from a text is written as the same text, by every version of riptide. -/
theorem C108_again {fc : FloatCode} {P : ℚ → Prop} (hf : FloatCode.Faithful fc P) (saver loader saver' : String) (hs : saver ≠ "") (indent : Option ℕ) {v v' : PyVal} {t : List Char}
    (h : Savable v) (hv : ValFloatsIn P v) (ht : toJsonText fc saver indent v = .ok t) (hv' : fromJsonText fc loader t = .ok v') : toJsonText fc saver' indent v' = .ok t := by
  obtain ⟨t', h1, h2⟩ := text_reloaded hf saver loader indent h hv
  rw [ht] at h1
  cases Except.ok.inj h1
  rw [hv'] at h2
  cases Except.ok.inj h2
  unfold toJsonText at ht ⊢
  rw [toJson_reloaded saver saver' hs v]
  exact ht

/-! ## Files -/

theorem universalNewlines_plain {t : List Char} (ht : PlainText t) : universalNewlines false t = t := by
  induction t with
  | nil => rfl
  | cons c l ih =>
    have hc := ht c List.mem_cons_self
    have h2 : c ≠ '\r' := by
      rintro rfl
      revert hc
      decide
    rw [universalNewlines, if_neg (by simp), if_neg h2, ih fun d hd => ht d (List.mem_cons_of_mem _ hd)]

theorem newlines_lf (t : List Char) : platformNewlines ['\n'] t = t := by
  unfold platformNewlines
  induction t with
  | nil => rfl
  | cons c l ih =>
    rw [List.flatMap_cons, ih]
    split_ifs with h
    · rw [h]; rfl
    · rfl

theorem newlines_crlf {t : List Char} (ht : PlainText t) : universalNewlines false (platformNewlines ['\r', '\n'] t) = t := by
  unfold platformNewlines
  induction t with
  | nil => rfl
  | cons c l ih =>
    have ih := ih fun d hd => ht d (List.mem_cons_of_mem _ hd)
    have hc := ht c List.mem_cons_self
    rw [List.flatMap_cons]
    split_ifs with h
    · subst h
      rw [List.cons_append, List.singleton_append, universalNewlines, if_neg (by simp), if_pos rfl, universalNewlines, if_pos ⟨rfl, rfl⟩, ih]
    · have h2 : c ≠ '\r' := by
        rintro rfl
        revert hc
        decide
      rw [List.singleton_append, universalNewlines, if_neg (by simp), if_neg h2, ih]

theorem newlines_cr {t : List Char} (ht : PlainText t) (b : Bool) : universalNewlines b (platformNewlines ['\r'] t) = t := by
  unfold platformNewlines
  induction t generalizing b with
  | nil => rfl
  | cons c l ih =>
    have ih := fun b => ih (fun d hd => ht d (List.mem_cons_of_mem _ hd)) b
    have hc := ht c List.mem_cons_self
    rw [List.flatMap_cons]
    split_ifs with h
    · subst h
      rw [List.singleton_append, universalNewlines, if_neg (by simp), if_pos rfl, ih]
    · have h2 : c ≠ '\r' := by
        rintro rfl
        revert hc
        decide
      rw [List.singleton_append, universalNewlines, if_neg (by simp [h]), if_neg h2, ih]

theorem platform_ascii {sep t : List Char} (hs : sep = ['\n'] ∨ sep = ['\r', '\n'] ∨ sep = ['\r']) (ht : PlainText t) :
    ∀ c ∈ platformNewlines sep t, c.toNat < 128 := by
  intro c hm
  obtain ⟨d, hd, hc⟩ := List.mem_flatMap.mp hm
  clear hm
  split_ifs at hc with h
  · clear hd d ht h
    revert c
    rcases hs with rfl | rfl | rfl <;> decide
  · simp only [List.mem_singleton] at hc
    subst hc
    rcases ht c hd with rfl | h
    · decide
    · omega

theorem ascii_back {s : List Char} (hs : ∀ c ∈ s, c.toNat < 128) : (s.map fun c => UInt8.ofNat c.toNat).map (fun x => Char.ofNat x.toNat) = s ∧
    ∀ x ∈ s.map fun c => UInt8.ofNat c.toNat, x.toNat < 128 := by
  have key : ∀ c ∈ s, (UInt8.ofNat c.toNat).toNat = c.toNat := by
    intro c hc
    have := hs c hc
    rw [UInt8.toNat_ofNat']
    omega
  constructor
  · rw [List.map_map]
    conv_rhs => rw [← List.map_id s]
    refine List.map_congr_left fun c hc => ?_
    simp only [Function.comp, key c hc, Char.ofNat_toNat, id]
  · intro x hx
    obtain ⟨c, hc, rfl⟩ := List.mem_map.mp hx
    rw [key c hc]
    exact hs c hc

/-- The file of a tree of supported objects, and what is loaded from it. -/
theorem file_reloaded {fc : FloatCode} {P : ℚ → Prop} (hf : FloatCode.Faithful fc P) {codec codec' : TextCodec} (hc : AsciiCompatible codec)
    (hc' : AsciiCompatible codec') {linesep : List Char} (hs : linesep = ['\n'] ∨ linesep = ['\r', '\n'] ∨ linesep = ['\r']) (saver loader : String)
    (indent : Option ℕ) {v : PyVal} (h : Savable v) (hv : ValFloatsIn P v) :
    ∃ bytes, saveJsonFile fc codec linesep saver indent v = .ok bytes ∧ loadJsonFile fc codec' loader bytes = .ok (reloaded saver v) := by
  obtain ⟨t, h1, h2⟩ := text_reloaded hf saver loader indent h hv
  have ht : PlainText t := by
    obtain ⟨j, h4, rfl⟩ := exceptMap_inv h1
    exact C108_ascii hf indent 0 (toJson_floats P saver v j hv h4)
  have ha := platform_ascii hs ht
  obtain ⟨b1, b2⟩ := ascii_back ha
  refine ⟨(platformNewlines linesep t).map fun c => UInt8.ofNat c.toNat, ?_, ?_⟩
  · unfold saveJsonFile
    rw [h1]
    simp only [Except.bind, hc.1 _ ha]
  · unfold loadJsonFile
    rw [hc'.2 _ b2, b1]
    have : universalNewlines false (platformNewlines linesep t) = t := by
      rcases hs with rfl | rfl | rfl
      · rw [newlines_lf]
        exact universalNewlines_plain ht
      · exact newlines_crlf ht
      · exact newlines_cr ht false
    simp only [this]
    exact h2

/-- **C108.** Files: on every system, whatever the two versions of riptide and the encodings of the systems that write and read, a tree of supported objects
that is saved can be loaded and has the same content. -/
theorem C108_file {fc : FloatCode} {P : ℚ → Prop} (hf : FloatCode.Faithful fc P) {codec codec' : TextCodec} (hc : AsciiCompatible codec)
    (hc' : AsciiCompatible codec') {linesep : List Char} (hs : linesep = ['\n'] ∨ linesep = ['\r', '\n'] ∨ linesep = ['\r']) (saver loader : String)
    (indent : Option ℕ) {v : PyVal} (h : Savable v) (hv : ValFloatsIn P v) :
    ∃ bytes, saveJsonFile fc codec linesep saver indent v = .ok bytes ∧
      ∃ v', loadJsonFile fc codec' loader bytes = .ok v' ∧ content v' = content v := by
  obtain ⟨b, h1, h2⟩ := file_reloaded hf hc hc' hs saver loader indent h hv
  exact ⟨b, h1, _, h2, content_reloaded saver v⟩

/-- **C108.** A file that was loaded and is saved again, by any version of riptide on the same system, is the same, byte by byte. -/
theorem C108_same_file {fc : FloatCode} {P : ℚ → Prop} (hf : FloatCode.Faithful fc P) {codec codec' : TextCodec} (hc : AsciiCompatible codec)
    (hc' : AsciiCompatible codec') {linesep : List Char} (hs : linesep = ['\n'] ∨ linesep = ['\r', '\n'] ∨ linesep = ['\r']) (saver loader saver' : String) (hne : saver ≠ "")
    (indent : Option ℕ) {v v' : PyVal} {bytes : List UInt8} (h : Savable v) (hv : ValFloatsIn P v) 
    (hb : saveJsonFile fc codec linesep saver indent v = .ok bytes) (hv' : loadJsonFile fc codec' loader bytes = .ok v') :
    saveJsonFile fc codec linesep saver' indent v' = .ok bytes := by
  obtain ⟨b, h1, h2⟩ := file_reloaded hf hc hc' hs saver loader indent h hv
  rw [hb] at h1
  cases Except.ok.inj h1
  rw [hv'] at h2
  cases Except.ok.inj h2
  rw [← hb]
  unfold saveJsonFile toJsonText
  rw [toJson_reloaded saver saver' hne v]

/-- What is saved as an object, an array or a string. -/
def Container : PyVal → Prop
  | .str _ => True
  | .list _ => True
  | .dict _ => True
  | .metadata _ => True
  | .ndarray _ => True
  | .frame _ _ _ => True
  | .sky _ _ => True
  | .object _ _ _ => True
  | _ => False

theorem container_compound {version : String} {v : PyVal} {j : Json} (hv : Container v) (h : toJson version v = .ok j) : Compound j := by
  cases v <;> first | exact hv.elim | (rw [toJson] at h)
  all_goals first | (cases h; trivial) | (obtain ⟨k, -, rfl⟩ := exceptMap_inv h; trivial)

/-- **C108.** A file of which the end is missing, as after a crash or on a full disk, cannot be loaded as anything. -/
theorem C108_cut {fc : FloatCode} {P : ℚ → Prop} (hf : FloatCode.Faithful fc P) {codec codec' : TextCodec} (hc : AsciiCompatible codec)
    (hc' : AsciiCompatible codec') (saver loader : String) (indent : Option ℕ) {v : PyVal} (hk : Container v) (hv : ValFloatsIn P v) {bytes : List UInt8}
    (h : saveJsonFile fc codec ['\n'] saver indent v = .ok bytes) {k : ℕ} (hlt : k < bytes.length) :
    ∃ e, loadJsonFile fc codec' loader (bytes.take k) = .error e := by
  obtain ⟨t, h1, h2⟩ := exceptBind_inv h
  obtain ⟨j, h3, rfl⟩ := exceptMap_inv h1
  have hj := toJson_floats P saver v j hv h3
  have ht : PlainText (writeJson fc indent 0 j) := C108_ascii hf indent 0 hj
  have hval := writeJson_text hf indent 0 j hj
  generalize writeJson fc indent 0 j = t at h2 ht hval
  rw [newlines_lf] at h2
  have ha : ∀ c ∈ t, c.toNat < 128 := by
    have := platform_ascii (.inl rfl) ht
    rwa [newlines_lf] at this
  simp only [hc.1 _ ha] at h2
  cases h2
  obtain ⟨b1, b2⟩ := ascii_back (s := t.take k) fun c hc => ha c (List.mem_of_mem_take hc)
  unfold loadJsonFile
  rw [← List.map_take, hc'.2 _ b2, b1]
  simp only [universalNewlines_plain (t := t.take k) fun c hc => ht c (List.mem_of_mem_take hc)]
  obtain ⟨-, ⟨e, he⟩, -⟩ := C108_truncated fc hval (container_compound hk h3) (List.take_append_drop k t).symm (by
    intro h0
    have := congrArg List.length h0
    simp at this hlt
    omega)
  refine ⟨e, ?_⟩
  unfold fromJsonText
  rw [he]
  rfl

/-! ## Examples -/

/-- The numbers whose binary expansion is finite; among them are all the finite values of type `float`. -/
def BinaryFinite (q : ℚ) : Prop := ∃ k, q.den = 2 ^ k

/-- A code for floats: all the decimals of a number with a finite binary expansion. Python writes fewer, but the same number is read. -/
noncomputable def decimalCode : FloatCode where
  repr q := fixedText (Nat.log2 q.den + 1) q
  parse s := match pyFloat s with
    | .ok x => x
    | .error _ => .nan

theorem fixedText_real {k : ℕ} (hk : 0 < k) (x : ℝ) : JsonReal (fixedText k x) := by
  refine ⟨if x < 0 then ['-'] else [], natText (decimalUnits k x / 10 ^ k), _, '.' :: padDigits k (decimalUnits k x % 10 ^ k), [], ?_, ?_, jsonNat_natText _,
    .inr ⟨_, _, rfl, padDigits_text k _ hk⟩, .inl rfl, by simp⟩
  · unfold fixedText
    simp
  · split_ifs
    · exact .inr rfl
    · exact .inl rfl

theorem decimalCode_faithful : FloatCode.Faithful decimalCode BinaryFinite := by
  rintro q ⟨k, hk⟩
  have hpos : 0 < Nat.log2 q.den + 1 := Nat.succ_pos _
  refine ⟨fixedText_real hpos _, ?_⟩
  have hval : pyFloat (fixedText (Nat.log2 q.den + 1) (q : ℝ)) = .ok (.fin (printedAs (Nat.log2 q.den + 1) q)) := (C106_number hpos (q : ℝ)).1.val
  have hp : printedAs (Nat.log2 q.den + 1) q = q := by
    rw [hk, Nat.log2_two_pow]
    have h10 : ∃ m : ℤ, (|q| * 10 ^ (k + 1) : ℚ) = m := by
      have hq : q * 2 ^ k = q.num := by
        have := Rat.mul_den_eq_num q
        rw [hk] at this
        exact_mod_cast this
      refine ⟨|q.num| * 5 ^ k * 10, ?_⟩
      have e : (|q| * 2 ^ k : ℚ) = |(q.num : ℚ)| := by
        rw [← hq, abs_mul, abs_of_nonneg (a := (2 ^ k : ℚ)) (by positivity)]
      push_cast
      rw [← e, pow_succ, show (10 : ℚ) ^ k = 2 ^ k * 5 ^ k by rw [← mul_pow]; norm_num]
      ring
    obtain ⟨m, hm⟩ := h10
    have hm0 : 0 ≤ m := by
      have : (0 : ℚ) ≤ m := by rw [← hm]; positivity
      exact_mod_cast this
    have hR : |(q : ℝ)| * 10 ^ (k + 1) = (m : ℝ) := by exact_mod_cast congrArg (fun x : ℚ => (x : ℝ)) hm
    unfold printedAs decimalUnits
    rw [hR, pyRound_intCast]
    have hcast : ((m.toNat : ℕ) : ℚ) = m := by exact_mod_cast Int.toNat_of_nonneg hm0
    rw [hcast, ← hm, mul_div_assoc, div_self (by positivity), mul_one]
    by_cases hneg : q < 0
    · rw [if_pos (by exact_mod_cast hneg), abs_of_neg hneg]
      ring
    · rw [if_neg (by exact_mod_cast hneg), abs_of_nonneg (not_lt.mp hneg)]
      ring
  show (match pyFloat (fixedText (Nat.log2 q.den + 1) (q : ℝ)) with
    | .ok x => x
    | .error _ => .nan) = .fin q
  rw [hval, hp]

/-- UTF-8 restricted to ASCII: an encoding as the theorems need it. -/
def asciiCodec : TextCodec where
  encode s := if ∀ c ∈ s, c.toNat < 128 then some (s.map fun c => UInt8.ofNat c.toNat) else none
  decode b := if ∀ x ∈ b, x.toNat < 128 then some (b.map fun x => Char.ofNat x.toNat) else none

theorem asciiCodec_ok : AsciiCompatible asciiCodec := ⟨fun _ h => if_pos h, fun _ h => if_pos h⟩

/-- A candidate's parameters, with a name that is not ASCII. -/
def jsonExample : PyVal := .dict [("name", .str "Pulsar \"ψ\" 𝛼"), ("dm", .float (.fin (21 / 2))), ("snr", .npFloat (.inf false)), ("width", .npInt 13),
  ("list", .list [.none, .bool true, .ndarray ⟨"float32", [1], [0, 0, 128, 63], true⟩])]

theorem jsonExample_ok : Savable jsonExample ∧ ValFloatsIn BinaryFinite jsonExample := by
  refine ⟨?_, ?_⟩
  · unfold jsonExample
    rw [Savable]
    refine ⟨⟨by decide, by decide⟩, ?_⟩
    simp only [SavableDict, Savable, SavableList, and_true, true_and]
    exact ⟨by decide, 4, by norm_num, rfl, rfl⟩
  · unfold jsonExample
    simp only [ValFloatsIn, ValFloatsInDict, ValFloatsInList, and_true, true_and]
    exact ⟨1, by rw [show (21 / 2 : ℚ) = mkRat 21 2 by norm_num [Rat.mkRat_eq_div]]; decide +kernel⟩

/-- It is saved on Windows and loaded elsewhere. -/
theorem C108_example : ∃ bytes, saveJsonFile decimalCode asciiCodec ['\r', '\n'] "0.2.4" (some 4) jsonExample = .ok bytes ∧
    ∃ v', loadJsonFile decimalCode asciiCodec "0.3.0" bytes = .ok v' ∧ content v' = content jsonExample :=
  C108_file decimalCode_faithful asciiCodec_ok asciiCodec_ok (.inr (.inl rfl)) "0.2.4" "0.3.0" (some 4) jsonExample_ok.1 jsonExample_ok.2

/-- The hypotheses of `C108_same_file` are met: it is saved, loaded and saved again by three versions. -/
example : ∃ bytes v', saveJsonFile decimalCode asciiCodec ['\n'] "0.2.4" (some 4) jsonExample = .ok bytes ∧ loadJsonFile decimalCode asciiCodec "0.3.0" bytes = .ok v' ∧
    saveJsonFile decimalCode asciiCodec ['\n'] "0.4.0" (some 4) v' = .ok bytes := by
  obtain ⟨b, h1, h2⟩ := file_reloaded decimalCode_faithful asciiCodec_ok asciiCodec_ok (.inl rfl) "0.2.4" "0.3.0" (some 4) jsonExample_ok.1 jsonExample_ok.2
  exact ⟨b, _, h1, h2, C108_same_file decimalCode_faithful asciiCodec_ok asciiCodec_ok (.inl rfl) "0.2.4" "0.3.0" "0.4.0" (by decide) (some 4) jsonExample_ok.1 jsonExample_ok.2 h1 h2⟩

/-- The hypotheses of `C108_again` are met. -/
example : ∃ t v', toJsonText decimalCode "0.2.4" (some 4) jsonExample = .ok t ∧ fromJsonText decimalCode "0.3.0" t = .ok v' ∧
    toJsonText decimalCode "0.4.0" (some 4) v' = .ok t := by
  obtain ⟨t, h1, h2⟩ := text_reloaded decimalCode_faithful "0.2.4" "0.3.0" (some 4) jsonExample_ok.1 jsonExample_ok.2
  exact ⟨t, _, h1, h2, C108_again decimalCode_faithful "0.2.4" "0.3.0" "0.4.0" (by decide) (some 4) jsonExample_ok.1 jsonExample_ok.2 h1 h2⟩

example : Container jsonExample := trivial

/-- The text of a small document. -/
example : writeJson ⟨fun _ => [], fun _ => .nan⟩ (some 4) 0 (.obj [("é\n", .arr [.int (-1), .null]), ("b", .obj [])]) =
    "{\n    \"\\u00e9\\n\": [\n        -1,\n        null\n    ],\n    \"b\": {}\n}".toList := by decide +kernel

/-- Without indentation, and outside of the basic plane. -/
example : writeJson ⟨fun _ => [], fun _ => .nan⟩ none 0 (.arr [.str "𝛼", .float .nan]) = "[\"\\ud835\\udefc\", NaN]".toList := by decide +kernel

/-- A text that python does not write but reads. -/
example (fc : FloatCode) : readJson fc " [ 1 ,\t\"\\u00E9\" ] ".toList = .ok (.arr [.int 1, .str "é"]) := by
  refine C108_read fc ⟨[' '], _, [' '], rfl, jsonWs_blank, .arr (.cons (w := [' ']) (w' := [' ']) (s := ['1']) jsonWs_blank (.int (jsonInt_intText 1))
    jsonWs_blank (.one (w := ['\t']) (s := ['"', '\\', 'u', '0', '0', 'E', '9', '"']) (w' := [' ']) ?_ (.str ⟨['\\', 'u', '0', '0', 'E', '9'], rfl, ?_⟩)
    jsonWs_blank)), jsonWs_blank⟩
  · intro c hc
    simp at hc
    exact .inr (.inl hc)
  · refine .unicode (h := ['0', '0', 'E', '9']) (s := []) ⟨'0', '0', 'E', '9', 0, 0, 14, 9, rfl, ?_, ?_, ?_, ?_, rfl⟩ .nil
    · exact ⟨by norm_num, .inl rfl⟩
    · exact ⟨by norm_num, .inl rfl⟩
    · exact ⟨by norm_num, .inr rfl⟩
    · exact ⟨by norm_num, .inl rfl⟩

/-- Whether reading ends in a `ValueError`. -/
def refused (s : List Char) : Bool := match readJson ⟨fun _ => [], fun _ => .nan⟩ s with
  | .error .valueError => true
  | _ => false

/-- Texts that are refused. -/
example : ∀ t ∈ [[], ['[', '1', ',', ']'], ['0', '1'], ['{', '"', 'a', '"', ' ', '1', '}'], ['[', '1', ' ', '2', ']'], ['"', '\n', '"'], ['n', 'u', 'l'],
    ['{', '"', 'a', '"', ':', '1'], ['+', '1'], ['1', '.'], ['[', ']', '[', ']']], refused t = true := by decide +kernel

/-- A truncated text. -/
example (fc : FloatCode) : (∀ v, ¬ JsonText fc.parse "{\"a\": ".toList v) ∧ (∃ e, readJson fc "{\"a\": ".toList = .error e) ∧
    (NoSurrogateEscape "{\"a\": ".toList → readJson fc "{\"a\": ".toList = .error .valueError) :=
  C108_truncated fc (s := "{\"a\": 1}".toList) (j := .obj [("a", .int 1)])
    (.obj (.one (w := []) (w₁ := []) (w₂ := [' ']) (w' := []) (k := ['"', 'a', '"']) (s := ['1']) jsonWs_nil ⟨['a'], rfl, .plain (by decide) (by decide) (by decide) .nil⟩ jsonWs_nil jsonWs_blank
      (.int (jsonInt_intText 1)) jsonWs_nil)) trivial (r := "1}".toList) rfl (by simp)

end Verif.Props
