import Verif.Spec.Yaml
import Verif.Lemmas.Yaml
import Verif.Props.Config

/-!
# C110, C111: numbers in configuration files, and files that cannot be used
-/

namespace Verif.Props

open Verif.Model Verif.Spec Verif.Lemmas

/-! ## Plain scalars in decimal notation -/

/-- The object that the YAML reader makes of a number in decimal notation: a `float` if there is a dot, and a sign in the exponent; an
`int` if there is neither dot nor exponent nor a zero in front; an octal `int` if there are zeros in front and only digits up to 7;
and a text in all other cases. -/
theorem C110_scalar {d : Decimal} (h : d.OK) :
    (d.Dotted → yamlScalar d.text = .ok (.float (.fin d.value))) ∧
    (d.Whole → NoLeadingZero d.whole → ∃ i : ℤ, yamlScalar d.text = .ok (.int i) ∧ (i : ℚ) = d.value) ∧
    (d.Octal → yamlScalar d.text = .ok (.int (signOf d.sign * positional 8 d.whole))) ∧
    (¬ d.Dotted → ¬ (d.Whole ∧ NoLeadingZero d.whole) → ¬ d.Octal → yamlScalar d.text = .ok (.str (String.ofList d.text))) := by
  rw [scalar_decimal h]
  have hwd : d.Whole → ¬ d.Dotted := by
    rintro ⟨h1, -⟩ ⟨⟨s, hs⟩, -⟩
    rw [h1] at hs; cases hs
  have hfalse : ¬ d.Dotted → yamlFloatRx.accepts d.text = false := by
    intro hd; rw [Bool.eq_false_iff]; intro ha; exact hd ((float_iff h).1 ha)
  refine ⟨?_, ?_, ?_, ?_⟩
  · intro hd
    rw [if_pos ((float_iff h).2 hd)]
  · intro hw hz
    rw [hfalse (hwd hw), if_neg (by simp), if_pos ((int_iff h).2 ⟨hw, Or.inl hz⟩), yamlInt_decimal h hw hz]
    exact ⟨_, rfl, (whole_value hw).symm⟩
  · intro ho
    rw [hfalse (hwd ho.1), if_neg (by simp), if_pos ((int_iff h).2 ⟨ho.1, Or.inr ho⟩), yamlInt_octal h ho]
  · intro hd hw ho
    rw [hfalse hd, if_neg (by simp), if_neg]
    intro ha
    obtain ⟨h1, h2 | h2⟩ := (int_iff h).1 ha
    · exact hw ⟨h1, h2⟩
    · exact ho h2

/-! ## Trees -/

theorem entry_nil (v : PyVal) : entry [] v = some v := by
  cases v <;> rfl

theorem entry_key_inv {k : String} {p : List Step} {v x : PyVal} (h : entry (.key k :: p) v = some x) :
    ∃ d u, v = .dict d ∧ itemOf d k = some u ∧ entry p u = some x := by
  cases v with
  | dict d =>
    simp only [entry, Option.bind_eq_some_iff] at h
    obtain ⟨u, h1, h2⟩ := h
    exact ⟨d, u, rfl, h1, h2⟩
  | _ => simp [entry] at h

theorem entry_index_inv {i : ℕ} {p : List Step} {v x : PyVal} (h : entry (.index i :: p) v = some x) :
    ∃ l u, v = .list l ∧ l[i]? = some u ∧ entry p u = some x := by
  cases v with
  | list l =>
    simp only [entry, Option.bind_eq_some_iff] at h
    obtain ⟨u, h1, h2⟩ := h
    exact ⟨l, u, rfl, h1, h2⟩
  | _ => simp [entry] at h

theorem itemOf_cons {α : Type} {k' k : String} {v : α} {d : List (String × α)} :
    itemOf ((k', v) :: d) k = if k' = k then some v else itemOf d k := by
  unfold itemOf
  by_cases h : k' = k
  · rw [if_pos h, List.find?_cons_of_pos (by simp [h])]; rfl
  · rw [if_neg h, List.find?_cons_of_neg (by simp [h])]

theorem itemOf_eq_dictGet {α : Type} {d : List (String × α)} {k : String} : itemOf d k = dictGet d k := by
  induction d with
  | nil => rfl
  | cons a d ih =>
    obtain ⟨k', v⟩ := a
    rw [itemOf_cons, dictGet, ih]

theorem itemOf_onItem {α : Type} {k : String} {f : α → α} {d : List (String × α)} {v : α} (h : itemOf d k = some v) :
    itemOf (onItem k f d) k = some (f v) := by
  induction d with
  | nil => simp [itemOf] at h
  | cons a d ih =>
    obtain ⟨k', u⟩ := a
    rw [itemOf_cons] at h
    rw [onItem]
    by_cases hk : k' = k
    · rw [if_pos hk] at h ⊢
      cases h
      rw [itemOf_cons, if_pos hk]
    · rw [if_neg hk] at h ⊢
      rw [itemOf_cons, if_neg hk, ih h]

theorem entry_withEntry {p : List Step} {v x y : PyVal} (h : entry p v = some x) : entry p (withEntry p y v) = some y := by
  induction p generalizing v with
  | nil => simp only [withEntry]; exact entry_nil y
  | cons a p ih =>
    cases a with
    | key k =>
      obtain ⟨d, u, rfl, h1, h2⟩ := entry_key_inv h
      simp only [withEntry, entry, itemOf_onItem h1, Option.bind_some]
      exact ih h2
    | index i =>
      obtain ⟨l, u, rfl, h1, h2⟩ := entry_index_inv h
      simp only [withEntry, entry, List.getElem?_modify, h1]
      simp only [if_true, Option.map_some, Option.bind_some]
      exact ih h2

/-! ## The schema at a place of the tree -/

/-- `t` is the schema for the object at a place of an object with schema `s`. -/
inductive SchemaAt : SchemaFn → List Step → SchemaFn → Prop
  | here (s : SchemaFn) : SchemaAt s [] s
  | key {items : List (String × Bool × SchemaFn)} {k : String} {s t : SchemaFn} {p : List Step} :
      schemaLookup items k = some s → SchemaAt s p t → SchemaAt (schemaDict items) (.key k :: p) t
  | index {s t : SchemaFn} {p : List Step} {i : ℕ} : SchemaAt s p t → SchemaAt (schemaList s) (.index i :: p) t

theorem schemaItems_item {items : List (String × Bool × SchemaFn)} {k : String} {s : SchemaFn} (hl : schemaLookup items k = some s) :
    ∀ {d w : List (String × PyVal)} {u : PyVal}, schemaItems items d = .ok w → itemOf d k = some u →
      ∃ y, s u = .ok y ∧ itemOf w k = some y := by
  intro d
  induction d with
  | nil => intro w u _ h; simp [itemOf] at h
  | cons a d ih =>
    intro w u hw hu
    obtain ⟨k', v⟩ := a
    rw [schemaItems] at hw
    cases hl' : schemaLookup items k' with
    | none => rw [hl'] at hw; cases hw
    | some s' =>
      rw [hl'] at hw
      obtain ⟨z, hz, hw⟩ := bind_ok_inv hw
      obtain ⟨r, hr, rfl⟩ := map_ok_inv hw
      rw [itemOf_cons] at hu
      by_cases hk : k' = k
      · rw [if_pos hk] at hu
        cases hu
        subst hk
        rw [hl] at hl'
        cases hl'
        exact ⟨z, hz, by rw [itemOf_cons, if_pos rfl]⟩
      · rw [if_neg hk] at hu
        obtain ⟨y, h1, h2⟩ := ih hr hu
        exact ⟨y, h1, by rw [itemOf_cons, if_neg hk, h2]⟩

theorem schemaElements_item {s : SchemaFn} : ∀ {l w : List PyVal} {i : ℕ} {u : PyVal}, schemaElements s l = .ok w → l[i]? = some u →
    ∃ y, s u = .ok y ∧ w[i]? = some y := by
  intro l
  induction l with
  | nil => intro w i u _ h; simp at h
  | cons a l ih =>
    intro w i u hw hu
    rw [schemaElements] at hw
    obtain ⟨z, hz, hw⟩ := bind_ok_inv hw
    obtain ⟨r, hr, rfl⟩ := map_ok_inv hw
    cases i with
    | zero =>
      simp at hu
      subst hu
      exact ⟨z, hz, by simp⟩
    | succ i =>
      simp only [List.getElem?_cons_succ] at hu ⊢
      exact ih hr hu

/-- What was accepted in the whole was accepted at the place, and the result is at the same place. -/
theorem schemaAt_down {s t : SchemaFn} {p : List Step} (hs : SchemaAt s p t) : ∀ {v w x : PyVal}, s v = .ok w → entry p v = some x →
    ∃ y, t x = .ok y ∧ entry p w = some y := by
  induction hs with
  | here s =>
    intro v w x h hx
    rw [entry_nil] at hx
    cases hx
    exact ⟨w, h, entry_nil w⟩
  | key hl _ ih =>
    intro v w x h hx
    obtain ⟨d, u, rfl, h1, h2⟩ := entry_key_inv hx
    obtain ⟨d', e, hd, rfl, he, -⟩ := dict_ok.1 h
    cases hd
    obtain ⟨y, h3, h4⟩ := schemaItems_item hl he h1
    obtain ⟨z, h5, h6⟩ := ih h3 h2
    exact ⟨z, h5, by simp only [entry, h4, Option.bind_some]; exact h6⟩
  | index _ ih =>
    intro v w x h hx
    obtain ⟨l, u, rfl, h1, h2⟩ := entry_index_inv hx
    rw [schemaList] at h
    obtain ⟨r, hr, rfl⟩ := map_ok_inv h
    obtain ⟨y, h3, h4⟩ := schemaElements_item hr h1
    obtain ⟨z, h5, h6⟩ := ih h3 h2
    exact ⟨z, h5, by simp only [entry, h4, Option.bind_some]; exact h6⟩

theorem schemaItems_on {items : List (String × Bool × SchemaFn)} {k : String} {s : SchemaFn} (hl : schemaLookup items k = some s)
    {f : PyVal → PyVal} : ∀ {d w : List (String × PyVal)} {u : PyVal}, schemaItems items d = .ok w → itemOf d k = some u →
      (∃ y, s (f u) = .ok y) → ∃ w', schemaItems items (onItem k f d) = .ok w' := by
  intro d
  induction d with
  | nil => intro w u _ h; simp [itemOf] at h
  | cons a d ih =>
    intro w u hw hu hf
    obtain ⟨k', v⟩ := a
    rw [schemaItems] at hw
    cases hl' : schemaLookup items k' with
    | none => rw [hl'] at hw; cases hw
    | some s' =>
      rw [hl'] at hw
      obtain ⟨z, hz, hw⟩ := bind_ok_inv hw
      obtain ⟨r, hr, rfl⟩ := map_ok_inv hw
      rw [itemOf_cons] at hu
      rw [onItem]
      by_cases hk : k' = k
      · rw [if_pos hk] at hu ⊢
        cases hu
        subst hk
        rw [hl] at hl'
        cases hl'
        obtain ⟨y, hy⟩ := hf
        exact ⟨(k', y) :: r, by rw [schemaItems, hl]; simp only; rw [hy, hr]; rfl⟩
      · rw [if_neg hk] at hu ⊢
        obtain ⟨w', hw'⟩ := ih hr hu hf
        exact ⟨(k', z) :: w', by rw [schemaItems, hl']; simp only; rw [hz, hw']; rfl⟩

theorem onItem_keys {α : Type} {k : String} {f : α → α} {d : List (String × α)} : (onItem k f d).map Prod.fst = d.map Prod.fst := by
  induction d with
  | nil => rfl
  | cons a d ih =>
    obtain ⟨k', v⟩ := a
    rw [onItem]
    split_ifs <;> simp [ih]

theorem schemaElements_on {s : SchemaFn} {f : PyVal → PyVal} : ∀ {l w : List PyVal} {i : ℕ} {u : PyVal}, schemaElements s l = .ok w →
    l[i]? = some u → (∃ y, s (f u) = .ok y) → ∃ w', schemaElements s (l.modify i f) = .ok w' := by
  intro l
  induction l with
  | nil => intro w i u _ h; simp at h
  | cons a l ih =>
    intro w i u hw hu hf
    rw [schemaElements] at hw
    obtain ⟨z, hz, hw⟩ := bind_ok_inv hw
    obtain ⟨r, hr, rfl⟩ := map_ok_inv hw
    cases i with
    | zero =>
      simp at hu
      subst hu
      obtain ⟨y, hy⟩ := hf
      exact ⟨y :: r, by rw [List.modify_zero_cons, schemaElements, hy, hr]; rfl⟩
    | succ i =>
      simp only [List.getElem?_cons_succ] at hu
      obtain ⟨w', hw'⟩ := ih hr hu hf
      exact ⟨z :: w', by rw [List.modify_succ_cons, schemaElements, hz, hw']; rfl⟩

/-- Another object at the place is accepted in the whole if the schema of the place accepts it. -/
theorem schemaAt_with {s t : SchemaFn} {p : List Step} (hs : SchemaAt s p t) : ∀ {v w x x' : PyVal}, s v = .ok w → entry p v = some x →
    (∃ y, t x' = .ok y) → ∃ w', s (withEntry p x' v) = .ok w' := by
  induction hs with
  | here s =>
    intro v w x x' h hx hy
    simp only [withEntry]
    exact hy
  | key hl _ ih =>
    rename_i items k s0 t0 p0 _
    intro v w x x' h hx hy
    obtain ⟨d, u, rfl, h1, h2⟩ := entry_key_inv hx
    obtain ⟨d', e, hd, rfl, he, hreq⟩ := dict_ok.1 h
    cases hd
    obtain ⟨y, h3, h4⟩ := schemaItems_item hl he h1
    obtain ⟨w', hw'⟩ := schemaItems_on hl (f := withEntry _ x') he h1 (ih h3 h2 hy)
    refine ⟨.dict w', ?_⟩
    rw [withEntry]
    refine dict_ok.2 ⟨_, _, rfl, rfl, hw', ?_⟩
    intro it hit
    rcases hreq it hit with h' | ⟨z, hz⟩
    · exact Or.inl h'
    · right
      have : it.1 ∈ (onItem k (withEntry p0 x') d).map Prod.fst := by rw [onItem_keys]; exact List.mem_map.2 ⟨_, hz, rfl⟩
      obtain ⟨⟨k', z'⟩, hz', hk'⟩ := List.mem_map.1 this
      simp only at hk'
      exact ⟨z', by rw [← hk']; exact hz'⟩
  | index _ ih =>
    intro v w x x' h hx hy
    obtain ⟨l, u, rfl, h1, h2⟩ := entry_index_inv hx
    rw [schemaList] at h
    obtain ⟨r, hr, rfl⟩ := map_ok_inv h
    obtain ⟨y, h3, h4⟩ := schemaElements_item hr h1
    obtain ⟨w', hw'⟩ := schemaElements_on (f := withEntry _ x') hr h1 (ih h3 h2 hy)
    refine ⟨.list w', ?_⟩
    rw [withEntry, schemaList, hw']
    rfl

/-! ## The numeric entries -/

/-- The schema of an entry that cannot be blank. -/
def Kind.schema : Kind → SchemaFn
  | .anyNumber => schemaUseFloat
  | .positive => posFloatSchema
  | .aboveOne => schemaAnd schemaUseFloat (schemaPred (greaterThan 1))
  | .posInt => posIntSchema
  | .posPlain => strictlyPositive
  | .fraction => schemaAnd schemaFloat (schemaAnd (schemaPred (greaterThan 0)) (schemaPred (lessThan 1)))

/-- The schema of an entry, which can be blank or not. -/
def KindSchema (k : Kind) (t : SchemaFn) : Prop := t = Kind.schema k ∨ t = schemaOr (Kind.schema k) schemaNone

macro "entry_schema" : tactic => `(tactic| (
  first
  | exact ⟨_, SchemaAt.key rfl (SchemaAt.here _), Or.inl rfl⟩
  | exact ⟨_, SchemaAt.key rfl (SchemaAt.key rfl (SchemaAt.here _)), Or.inl rfl⟩
  | exact ⟨_, SchemaAt.key rfl (SchemaAt.key rfl (SchemaAt.here _)), Or.inr rfl⟩
  | exact ⟨_, SchemaAt.key rfl (SchemaAt.index (SchemaAt.key rfl (SchemaAt.key rfl (SchemaAt.here _)))), Or.inl rfl⟩
  | exact ⟨_, SchemaAt.key rfl (SchemaAt.index (SchemaAt.key rfl (SchemaAt.key rfl (SchemaAt.here _)))), Or.inr rfl⟩))

theorem entry_schema {p : List Step} {k : Kind} (h : Entry p k) : ∃ t, SchemaAt pipelineConfigSchema p t ∧ KindSchema k t := by
  cases h <;> entry_schema

/-- A plain scalar in decimal notation of value `q`, as a number or as a text. -/
def Form (x : PyVal) (q : ℚ) : Prop :=
  x = .float (.fin q) ∨ (∃ i : ℤ, x = .int i ∧ (i : ℚ) = q) ∨ ∃ s : String, x = .str s ∧ pyFloat s.toList = .ok (.fin q)

theorem form_toFloat {x : PyVal} {q : ℚ} (h : Form x q) : toFloat x = .ok (.fin q) := by
  rcases h with rfl | ⟨i, rfl, rfl⟩ | ⟨s, rfl, hs⟩
  · rfl
  · rfl
  · exact hs

/-- The types that an entry takes. -/
def Kind.Type : Kind → PyVal → Prop
  | .posInt, x => ∃ i, x = .int i
  | .posPlain, x => (∃ f, x = .float f) ∨ ∃ i, x = .int i
  | .fraction, x => ∃ f, x = .float f
  | _, _ => True

theorem useFloat_form {x : PyVal} {q : ℚ} (h : Form x q) : schemaUseFloat x = .ok (.float (.fin q)) := by
  unfold schemaUseFloat
  rw [form_toFloat h]

theorem above_form {a : ℚ} {x y : PyVal} {q : ℚ} (h : Form x q) :
    schemaAnd schemaUseFloat (schemaPred (greaterThan a)) x = .ok y ↔ a < q ∧ y = .float (.fin q) := by
  rw [and_ok]
  constructor
  · rintro ⟨u, h1, h2⟩
    rw [useFloat_form h] at h1
    cases h1
    obtain ⟨h3, rfl⟩ := pred_ok.1 h2
    simp only [greaterThan, Except.ok.injEq, decide_eq_true_eq] at h3
    exact ⟨h3, rfl⟩
  · rintro ⟨h1, rfl⟩
    refine ⟨_, useFloat_form h, pred_ok.2 ⟨?_, rfl⟩⟩
    simp [greaterThan, h1]

theorem form_schema {k : Kind} {x y : PyVal} {q : ℚ} (h : Form x q) :
    (Kind.schema k x = .ok y → k.InRange q ∧ Kind.Type k x ∧ k.Holds q y) ∧
    (k.InRange q → Kind.Type k x → ∃ y, Kind.schema k x = .ok y) := by
  cases k with
  | anyNumber =>
    constructor
    · intro hy
      simp only [Kind.schema, useFloat_form h] at hy
      cases hy
      exact ⟨trivial, trivial, rfl⟩
    · intro _ _; exact ⟨_, useFloat_form h⟩
  | positive =>
    constructor
    · intro hy
      obtain ⟨h1, h2⟩ := (above_form h).1 hy
      exact ⟨h1, trivial, h2⟩
    · intro h1 _; exact ⟨_, (above_form h).2 ⟨h1, rfl⟩⟩
  | aboveOne =>
    constructor
    · intro hy
      obtain ⟨h1, h2⟩ := (above_form h).1 hy
      exact ⟨h1, trivial, h2⟩
    · intro h1 _; exact ⟨_, (above_form h).2 ⟨h1, rfl⟩⟩
  | posInt =>
    rcases h with rfl | ⟨i, rfl, rfl⟩ | ⟨s, rfl, hs⟩
    · constructor
      · intro hy; simp [Kind.schema, posIntSchema, schemaAnd, schemaInt, Except.bind] at hy
      · rintro _ ⟨i, hi⟩; cases hi
    · constructor
      · intro hy
        change schemaAnd schemaInt strictlyPositive (.int i) = .ok y at hy
        obtain ⟨u, h1, h2⟩ := and_ok.1 hy
        cases h1
        obtain ⟨h3, rfl⟩ := pred_ok.1 h2
        simp only [greaterThan, Except.ok.injEq, decide_eq_true_eq] at h3
        exact ⟨h3, ⟨i, rfl⟩, i, rfl, rfl⟩
      · intro hp _
        refine ⟨.int i, and_ok.2 ⟨_, rfl, pred_ok.2 ⟨?_, rfl⟩⟩⟩
        simp only [Kind.InRange] at hp
        simp only [greaterThan, hp, decide_true]
    · constructor
      · intro hy; simp [Kind.schema, posIntSchema, schemaAnd, schemaInt, Except.bind] at hy
      · rintro _ ⟨i, hi⟩; cases hi
  | posPlain =>
    rcases h with rfl | ⟨i, rfl, rfl⟩ | ⟨s, rfl, hs⟩
    · constructor
      · intro hy
        obtain ⟨h3, rfl⟩ := (pred_ok (p := greaterThan 0)).1 hy
        simp only [greaterThan, Except.ok.injEq, decide_eq_true_eq] at h3
        exact ⟨h3, Or.inl ⟨_, rfl⟩, Or.inl rfl⟩
      · intro hp _
        refine ⟨_, pred_ok.2 ⟨?_, rfl⟩⟩
        simp only [Kind.InRange] at hp
        simp only [greaterThan, hp, decide_true]
    · constructor
      · intro hy
        obtain ⟨h3, rfl⟩ := (pred_ok (p := greaterThan 0)).1 hy
        simp only [greaterThan, Except.ok.injEq, decide_eq_true_eq] at h3
        exact ⟨h3, Or.inr ⟨_, rfl⟩, Or.inr ⟨i, rfl, rfl⟩⟩
      · intro hp _
        refine ⟨_, pred_ok.2 ⟨?_, rfl⟩⟩
        simp only [Kind.InRange] at hp
        simp only [greaterThan, hp, decide_true]
    · constructor
      · intro hy
        change schemaPred (greaterThan 0) (.str s) = .ok y at hy
        obtain ⟨h3, rfl⟩ := pred_ok.1 hy
        simp [greaterThan] at h3
      · rintro _ (⟨f, hf⟩ | ⟨i, hi⟩)
        · cases hf
        · cases hi
  | fraction =>
    rcases h with rfl | ⟨i, rfl, rfl⟩ | ⟨s, rfl, hs⟩
    · constructor
      · intro hy
        obtain ⟨u, h1, h2⟩ := and_ok.1 hy
        cases h1
        obtain ⟨u, h3, h4⟩ := and_ok.1 h2
        obtain ⟨h5, rfl⟩ := pred_ok.1 h3
        obtain ⟨h6, rfl⟩ := pred_ok.1 h4
        simp only [greaterThan, Except.ok.injEq, decide_eq_true_eq] at h5
        simp only [lessThan, Except.ok.injEq, decide_eq_true_eq] at h6
        exact ⟨⟨h5, h6⟩, ⟨_, rfl⟩, rfl⟩
      · rintro ⟨h5, h6⟩ _
        refine ⟨_, and_ok.2 ⟨_, rfl, and_ok.2 ⟨_, pred_ok.2 ⟨?_, rfl⟩, pred_ok.2 ⟨?_, rfl⟩⟩⟩⟩
        · simp [greaterThan, h5]
        · simp [lessThan, h6]
    · constructor
      · intro hy; simp [Kind.schema, schemaAnd, schemaFloat, Except.bind] at hy
      · rintro _ ⟨i, hi⟩; cases hi
    · constructor
      · intro hy; simp [Kind.schema, schemaAnd, schemaFloat, Except.bind] at hy
      · rintro _ ⟨i, hi⟩; cases hi

theorem kindSchema_ok {k : Kind} {t : SchemaFn} (h : KindSchema k t) {x y : PyVal} (hx : x ≠ .none) :
    t x = .ok y ↔ Kind.schema k x = .ok y := by
  rcases h with rfl | rfl
  · rfl
  · unfold schemaOr
    cases hs : Kind.schema k x with
    | ok w => simp
    | error e =>
      simp only [reduceCtorEq, iff_false]
      cases x <;> simp [schemaNone] at hx ⊢

/-! ## Nodes and objects -/

theorem constructSeq_item : ∀ {l : List YamlNode} {r : List PyVal} {i : ℕ} {n : YamlNode}, constructSeq l = .ok r → l[i]? = some n →
    ∃ v, n.construct = .ok v ∧ r[i]? = some v := by
  intro l
  induction l with
  | nil => intro r i n _ h; simp at h
  | cons a l ih =>
    intro r i n hr hn
    rw [constructSeq] at hr
    obtain ⟨v, hv, hr⟩ := bind_ok_inv hr
    obtain ⟨q, hq, rfl⟩ := map_ok_inv hr
    cases i with
    | zero => simp at hn; subst hn; exact ⟨v, hv, by simp⟩
    | succ i => simp only [List.getElem?_cons_succ] at hn ⊢; exact ih hq hn

theorem itemOf_append {α : Type} {a b : List (String × α)} {k : String} : itemOf (a ++ b) k = (itemOf a k).or (itemOf b k) := by
  induction a with
  | nil => rfl
  | cons c a ih =>
    obtain ⟨k', v⟩ := c
    rw [List.cons_append, itemOf_cons, itemOf_cons]
    split_ifs
    · rfl
    · exact ih

theorem itemOf_dictSet {α : Type} (d : List (String × α)) (k' k : String) (v : α) :
    itemOf (dictSet d k' v) k = if k' = k then some v else itemOf d k := by
  induction d with
  | nil => exact itemOf_cons
  | cons c d ihd =>
    obtain ⟨k2, v2⟩ := c
    rw [dictSet]
    by_cases hk2 : k2 = k'
    · subst hk2
      rw [if_pos rfl, itemOf_cons, itemOf_cons]
      split_ifs <;> rfl
    · rw [if_neg hk2, itemOf_cons, itemOf_cons, ihd]
      split_ifs with h3 h4
      · subst h4; exact absurd h3 hk2
      · rfl
      · rfl
      · rfl

theorem constructMap_item : ∀ {m : List (String × YamlNode)} {d r : PyDict String PyVal} {k : String}, constructMap m d = .ok r →
    (∀ n, itemOf m.reverse k = some n → ∃ v, n.construct = .ok v ∧ itemOf r k = some v) ∧
    (itemOf m.reverse k = none → itemOf r k = itemOf d k) := by
  intro m
  induction m with
  | nil =>
    intro d r k h
    rw [constructMap] at h
    cases h
    exact ⟨fun n hn => by simp [itemOf] at hn, fun _ => rfl⟩
  | cons a m ih =>
    intro d r k h
    obtain ⟨k', n'⟩ := a
    rw [constructMap] at h
    obtain ⟨v, hv, h⟩ := bind_ok_inv h
    obtain ⟨h1, h2⟩ := ih (k := k) h
    rw [List.reverse_cons, itemOf_append]
    have hset := itemOf_dictSet d k' k v
    cases hm : itemOf m.reverse k with
    | some n =>
      refine ⟨?_, fun hh => by cases hh⟩
      intro n2 hn
      cases hn
      exact h1 _ hm
    | none =>
      simp only [Option.none_or]
      rw [h2 hm, hset, itemOf_cons]
      by_cases hk : k' = k
      · rw [if_pos hk, if_pos hk]
        refine ⟨?_, fun hh => by cases hh⟩
        intro n hn
        cases hn
        exact ⟨v, hv, rfl⟩
      · rw [if_neg hk, if_neg hk]
        exact ⟨fun n hn => by simp [itemOf] at hn, fun _ => rfl⟩

/-- The object of a node is at the same place as the node. -/
theorem construct_entry {p : List Step} : ∀ {n m : YamlNode} {v : PyVal}, n.construct = .ok v → nodeAt p n = some m →
    ∃ w, m.construct = .ok w ∧ entry p v = some w := by
  induction p with
  | nil =>
    intro n m v h hm
    have : m = n := by cases n <;> (simp only [nodeAt] at hm; cases hm; rfl)
    subst this
    exact ⟨v, h, entry_nil v⟩
  | cons a p ih =>
    intro n m v h hm
    cases a with
    | key k =>
      cases n with
      | map l =>
        simp only [nodeAt, Option.bind_eq_some_iff] at hm
        obtain ⟨u, h1, h2⟩ := hm
        rw [YamlNode.construct] at h
        obtain ⟨r, hr, rfl⟩ := map_ok_inv h
        obtain ⟨w, h3, h4⟩ := (constructMap_item (k := k) hr).1 u h1
        obtain ⟨z, h5, h6⟩ := ih h3 h2
        exact ⟨z, h5, by simp only [entry, h4, Option.bind_some]; exact h6⟩
      | _ => simp [nodeAt] at hm
    | index i =>
      cases n with
      | seq l =>
        simp only [nodeAt, Option.bind_eq_some_iff] at hm
        obtain ⟨u, h1, h2⟩ := hm
        rw [YamlNode.construct] at h
        obtain ⟨r, hr, rfl⟩ := map_ok_inv h
        obtain ⟨w, h3, h4⟩ := constructSeq_item hr h1
        obtain ⟨z, h5, h6⟩ := ih h3 h2
        exact ⟨z, h5, by simp only [entry, h4, Option.bind_some]; exact h6⟩
      | _ => simp [nodeAt] at hm

theorem fromYaml_ok {file : YamlNode} {w : PyVal} : fromYamlConfig file = .ok w ↔
    ∃ conf, file.construct = .ok conf ∧ jsonPlain conf = true ∧ pipelineConfigSchema conf = .ok w := by
  unfold fromYamlConfig
  constructor
  · intro h
    obtain ⟨conf, h1, h2⟩ := bind_ok_inv h
    split_ifs at h2 with hj
    refine ⟨conf, h1, hj, ?_⟩
    unfold validatePipelineConfig at h2
    cases hs : pipelineConfigSchema conf with
    | ok u => rw [hs] at h2; exact h2
    | error e => rw [hs] at h2; cases h2
  · rintro ⟨conf, h1, h2, h3⟩
    rw [h1]
    simp only [Except.bind]
    rw [if_pos h2]
    unfold validatePipelineConfig
    rw [h3]

theorem scalar_form {d : Decimal} (hd : d.OK) (ho : ¬ d.Octal) : ∃ x, yamlScalar d.text = .ok x ∧ Form x d.value ∧ x ≠ .none ∧
    jsonPlain x = true ∧ ∀ k, Kind.Type k x ↔ k.Notation d := by
  obtain ⟨h1, h2, -, h4⟩ := C110_scalar hd
  have hwd : d.Whole → ¬ d.Dotted := by
    rintro ⟨h1, -⟩ ⟨⟨s, hs⟩, -⟩
    rw [h1] at hs; cases hs
  by_cases hdot : d.Dotted
  · refine ⟨_, h1 hdot, Or.inl rfl, by simp, rfl, ?_⟩
    intro k
    have hw : ¬ d.Whole := fun hw => hwd hw hdot
    cases k <;> simp [Kind.Type, Kind.Notation, hdot, hw]
  · by_cases hw : d.Whole ∧ NoLeadingZero d.whole
    · obtain ⟨i, h5, h6⟩ := h2 hw.1 hw.2
      refine ⟨_, h5, Or.inr (Or.inl ⟨i, rfl, h6⟩), by simp, rfl, ?_⟩
      intro k
      cases k <;> simp [Kind.Type, Kind.Notation, hdot, hw]
    · refine ⟨_, h4 hdot hw ho, Or.inr (Or.inr ⟨_, rfl, by rw [String.toList_ofList]; exact pyFloat_decimal hd⟩), by simp, rfl, ?_⟩
      intro k
      cases k <;> simp [Kind.Type, Kind.Notation, hdot, hw]

/-! ## C110 -/

/-- **C110**: a number in decimal notation in an accepted configuration file is used with the value written, unless it has zeros in
front and only digits up to 7: then the entry of the configuration is an object of python of that value, of the type that the entry
should have. And accepted entries have values in the documented range, and a notation that the entry takes. -/
theorem C110_used_partial {file : YamlNode} {conf : PyVal} {p : List Step} {k : Kind} {d : Decimal} (hd : d.OK) (ho : ¬ d.Octal)
    (he : Entry p k) (hn : nodeAt p file = some (.plain d.text)) (h : fromYamlConfig file = .ok conf) :
    k.InRange d.value ∧ k.Notation d ∧ ∃ v, entry p conf = some v ∧ k.Holds d.value v := by
  obtain ⟨c, h1, h2, h3⟩ := fromYaml_ok.1 h
  obtain ⟨x, hx, hxe⟩ := construct_entry h1 hn
  rw [YamlNode.construct] at hx
  obtain ⟨x', hx', hf, hnone, -, htype⟩ := scalar_form hd ho
  rw [hx] at hx'
  cases hx'
  obtain ⟨t, ht, hk⟩ := entry_schema he
  obtain ⟨y, hy, hye⟩ := schemaAt_down ht h3 hxe
  rw [kindSchema_ok hk hnone] at hy
  obtain ⟨g1, g2, g3⟩ := (form_schema hf).1 hy
  exact ⟨g1, (htype k).1 g2, y, hye, g3⟩

theorem jsonPlain_onItem {f : PyVal → PyVal} {k : String} : ∀ {d : List (String × PyVal)} {u : PyVal}, jsonPlainDict d = true →
    itemOf d k = some u → jsonPlain (f u) = true → jsonPlainDict (onItem k f d) = true := by
  intro d
  induction d with
  | nil => intro u _ h _; simp [itemOf] at h
  | cons a d ih =>
    intro u h hu hf
    obtain ⟨k', v⟩ := a
    rw [jsonPlainDict, Bool.and_eq_true] at h
    rw [itemOf_cons] at hu
    rw [onItem]
    by_cases hk : k' = k
    · rw [if_pos hk] at hu ⊢
      cases hu
      rw [jsonPlainDict, Bool.and_eq_true]
      exact ⟨hf, h.2⟩
    · rw [if_neg hk] at hu ⊢
      rw [jsonPlainDict, Bool.and_eq_true]
      exact ⟨h.1, ih h.2 hu hf⟩

theorem jsonPlain_item {k : String} : ∀ {d : List (String × PyVal)} {u : PyVal}, jsonPlainDict d = true →
    itemOf d k = some u → jsonPlain u = true := by
  intro d
  induction d with
  | nil => intro u _ h; simp [itemOf] at h
  | cons a d ih =>
    intro u h hu
    obtain ⟨k', v⟩ := a
    rw [jsonPlainDict, Bool.and_eq_true] at h
    rw [itemOf_cons] at hu
    by_cases hk : k' = k
    · rw [if_pos hk] at hu; cases hu; exact h.1
    · rw [if_neg hk] at hu; exact ih h.2 hu

theorem jsonPlain_modify {f : PyVal → PyVal} : ∀ {l : List PyVal} {i : ℕ} {u : PyVal}, jsonPlainList l = true →
    l[i]? = some u → jsonPlain (f u) = true → jsonPlain u = true ∧ jsonPlainList (l.modify i f) = true := by
  intro l
  induction l with
  | nil => intro i u _ h _; simp at h
  | cons a l ih =>
    intro i u h hu hf
    rw [jsonPlainList, Bool.and_eq_true] at h
    cases i with
    | zero =>
      simp at hu
      subst hu
      rw [List.modify_zero_cons, jsonPlainList, Bool.and_eq_true]
      exact ⟨h.1, hf, h.2⟩
    | succ i =>
      simp only [List.getElem?_cons_succ] at hu
      obtain ⟨h1, h2⟩ := ih h.2 hu hf
      rw [List.modify_succ_cons, jsonPlainList, Bool.and_eq_true]
      exact ⟨h1, h.1, h2⟩

theorem jsonPlainList_get : ∀ {l : List PyVal} {i : ℕ} {u : PyVal}, jsonPlainList l = true → l[i]? = some u → jsonPlain u = true := by
  intro l
  induction l with
  | nil => intro i u _ h; simp at h
  | cons a l ih =>
    intro i u h hu
    rw [jsonPlainList, Bool.and_eq_true] at h
    cases i with
    | zero => simp at hu; subst hu; exact h.1
    | succ i => simp only [List.getElem?_cons_succ] at hu; exact ih h.2 hu

theorem jsonPlain_withEntry {p : List Step} {x' : PyVal} (hx' : jsonPlain x' = true) : ∀ {v x : PyVal}, jsonPlain v = true →
    entry p v = some x → jsonPlain (withEntry p x' v) = true := by
  induction p with
  | nil => intro v x _ _; simp only [withEntry]; exact hx'
  | cons a p ih =>
    intro v x hv hx
    cases a with
    | key k =>
      obtain ⟨d, u, rfl, h1, h2⟩ := entry_key_inv hx
      rw [jsonPlain] at hv
      rw [withEntry, jsonPlain]
      exact jsonPlain_onItem hv h1 (ih (jsonPlain_item hv h1) h2)
    | index i =>
      obtain ⟨l, u, rfl, h1, h2⟩ := entry_index_inv hx
      rw [jsonPlain] at hv
      rw [withEntry, jsonPlain]
      exact (jsonPlain_modify hv h1 (ih (jsonPlainList_get hv h1) h2)).2

/-- **C110**: let another file have this number instead of something else in a file that is accepted. It is accepted if and only if the
number is in the documented range and in a notation that the entry takes. -/
theorem C110_accepted {file file' : YamlNode} {conf old new w : PyVal} {p : List Step} {k : Kind} {d : Decimal} (hd : d.OK) (ho : ¬ d.Octal)
    (he : Entry p k) (h : fromYamlConfig file = .ok w) (h0 : file.construct = .ok conf) (hold : entry p conf = some old)
    (h' : file'.construct = .ok (withEntry p new conf)) (hn : nodeAt p file' = some (.plain d.text)) :
    (∃ w', fromYamlConfig file' = .ok w') ↔ k.InRange d.value ∧ k.Notation d := by
  constructor
  · rintro ⟨w', hw'⟩
    obtain ⟨g1, g2, -⟩ := C110_used_partial hd ho he hn hw'
    exact ⟨g1, g2⟩
  · rintro ⟨g1, g2⟩
    obtain ⟨c, h1, h2, h3⟩ := fromYaml_ok.1 h
    rw [h0] at h1
    cases h1
    obtain ⟨x, hx, hxe⟩ := construct_entry h' hn
    rw [entry_withEntry hold] at hxe
    cases hxe
    rw [YamlNode.construct] at hx
    obtain ⟨x', hx', hf, hnone, hj, htype⟩ := scalar_form hd ho
    rw [hx] at hx'
    cases hx'
    obtain ⟨t, ht, hk⟩ := entry_schema he
    obtain ⟨y, hy⟩ := (form_schema (y := new) hf).2 g1 ((htype k).2 g2)
    obtain ⟨w', hw'⟩ := schemaAt_with ht h3 hold ⟨y, (kindSchema_ok hk hnone).2 hy⟩
    exact ⟨w', fromYaml_ok.2 ⟨_, h', jsonPlain_withEntry hj h2 hold, hw'⟩⟩

/-- **C110**: a number with zeros in front and only digits up to 7 is used with the value of these digits in base 8. -/
theorem C110_octal {file : YamlNode} {conf : PyVal} {p : List Step} {k : Kind} {d : Decimal} (hd : d.OK) (ho : d.Octal)
    (he : Entry p k) (hn : nodeAt p file = some (.plain d.text)) (h : fromYamlConfig file = .ok conf) :
    ∃ v, entry p conf = some v ∧ k.Holds ((signOf d.sign * positional 8 d.whole : ℤ) : ℚ) v := by
  obtain ⟨c, h1, h2, h3⟩ := fromYaml_ok.1 h
  obtain ⟨x, hx, hxe⟩ := construct_entry h1 hn
  rw [YamlNode.construct, (C110_scalar hd).2.2.1 ho] at hx
  cases hx
  obtain ⟨t, ht, hk⟩ := entry_schema he
  obtain ⟨y, hy, hye⟩ := schemaAt_down ht h3 hxe
  rw [kindSchema_ok hk (by simp)] at hy
  obtain ⟨g1, g2, g3⟩ := (form_schema (Or.inr (Or.inl ⟨_, rfl, rfl⟩))).1 hy
  exact ⟨y, hye, g3⟩

/-! ## The example configuration as a file -/

/-- The example configuration, see `riptide/pipeline/config/example.yaml`, with its first range only, and with other texts for
the name of the range, `bins_min`, and the clustering radius. -/
def exampleFile (name : YamlNode) (binsMin radius : List Char) : YamlNode := .map [
  ("processes", .plain ['4']),
  ("data", .map [("format", .plain ['p', 'r', 'e', 's', 't', 'o']), ("fmin", .plain []), ("fmax", .plain []), ("nchans", .plain [])]),
  ("dmselect", .map [("min", .plain ['0', '.', '0']), ("max", .plain ['1', '0', '0', '0', '.', '0']), ("dmsinb_max", .plain ['4', '5', '.', '0'])]),
  ("dereddening", .map [("rmed_width", .plain ['5', '.', '0']), ("rmed_minpts", .plain ['1', '0', '1'])]),
  ("ranges", .seq [.map [("name", name),
    ("ffa_search", .map [("period_min", .plain ['0', '.', '2', '0']), ("period_max", .plain ['0', '.', '5', '0']), ("bins_min", .plain binsMin),
      ("bins_max", .plain ['2', '6', '0']), ("fpmin", .plain ['8']), ("wtsp", .plain ['1', '.', '5'])]),
    ("find_peaks", .map [("smin", .plain ['6', '.', '0'])]),
    ("candidates", .map [("bins", .plain ['2', '5', '6']), ("subints", .plain ['3', '2'])])]]),
  ("clustering", .map [("radius", .plain radius)]),
  ("harmonic_flagging", .map [("denom_max", .plain ['1', '0', '0']), ("phase_distance_max", .plain ['1', '.', '0']),
    ("dm_distance_max", .plain ['3', '.', '0']), ("snr_distance_max", .plain ['3', '.', '0'])]),
  ("candidate_filters", .map [("dm_min", .plain []), ("snr_min", .plain ['7', '.', '0']), ("remove_harmonics", .plain ['T', 'r', 'u', 'e']),
    ("max_number", .plain [])]),
  ("plot_candidates", .plain ['F', 'a', 'l', 's', 'e'])]

example : (exampleFile (.quoted ['s', 'h', 'o', 'r', 't']) ['2', '4', '0'] ['0', '.', '2']).construct =
    .ok (exampleConf (.dict [("smin", .float (.fin 6))]) (.int 32)) := by with_unfolding_all rfl

/-- `0240`, `1e-1` and `0.2`. -/
def dec0240 : Decimal := ⟨none, ['0', '2', '4', '0'], none, none⟩
def dec1em1 : Decimal := ⟨none, ['1'], none, some (false, some true, ['1'])⟩
def dec02 : Decimal := ⟨none, ['0'], some ['2'], none⟩

instance {s : List Char} : Decidable (∀ c ∈ s, IsDigit c) := List.decidableBAll _ _

theorem dec0240_ok : dec0240.OK := by
  refine ⟨by simp [dec0240], by decide, ?_, ?_⟩
  · intro s hs; cases hs
  · intro a b c hs; cases hs

theorem dec1em1_ok : dec1em1.OK := by
  refine ⟨by simp [dec1em1], by decide, ?_, ?_⟩
  · intro s hs; cases hs
  · intro a b c hs; cases hs; exact ⟨by simp, by decide⟩

theorem dec02_ok : dec02.OK := by
  refine ⟨by simp [dec02], by decide, ?_, ?_⟩
  · intro s hs; cases hs; decide
  · intro a b c hs; cases hs

theorem dec0240_value : dec0240.value = 240 := by
  show ((1 : ℤ) : ℚ) * ((((240 : ℕ) : ℚ) + ((0 : ℕ) : ℚ) / 10 ^ 0) * (10 : ℚ) ^ (0 : ℤ)) = 240
  norm_num

theorem dec1em1_value : dec1em1.value = 1 / 10 := by
  show ((1 : ℤ) : ℚ) * ((((1 : ℕ) : ℚ) + ((0 : ℕ) : ℚ) / 10 ^ 0) * (10 : ℚ) ^ ((-1 : ℤ) * ((1 : ℕ) : ℤ))) = 1 / 10
  norm_num

theorem dec02_value : dec02.value = 1 / 5 := by
  show ((1 : ℤ) : ℚ) * ((((0 : ℕ) : ℚ) + ((2 : ℕ) : ℚ) / 10 ^ 1) * (10 : ℚ) ^ (0 : ℤ)) = 1 / 5
  norm_num

/-- The hypotheses of the theorems are met: the radius of the example configuration. -/
example : ¬ dec02.Octal ∧ nodeAt [.key "clustering", .key "radius"] (exampleFile (.quoted ['s', 'h', 'o', 'r', 't']) ['2', '4', '0'] dec02.text) =
      some (.plain dec02.text) ∧
    fromYamlConfig (exampleFile (.quoted ['s', 'h', 'o', 'r', 't']) ['2', '4', '0'] dec02.text) =
      .ok (exampleConf (.dict [("smin", .float (.fin 6))]) (.int 32)) ∧
    Kind.posPlain.InRange dec02.value ∧ Kind.posPlain.Notation dec02 := by
  refine ⟨?_, by with_unfolding_all rfl, by with_unfolding_all rfl, ?_, ?_⟩
  · rintro ⟨⟨h, -⟩, -⟩; cases h
  · rw [dec02_value]; norm_num [Kind.InRange]
  · exact Or.inl ⟨⟨_, rfl⟩, fun a b c h => by cases h⟩

/-- A radius with a dot and a sign in the exponent. -/
example : fromYamlConfig (exampleFile (.quoted ['s', 'h', 'o', 'r', 't']) ['2', '4', '0'] ['1', '.', '0', 'e', '-', '1']) =
    .ok (withEntry [.key "clustering", .key "radius"] (.float (.fin (1 / 10))) (exampleConf (.dict [("smin", .float (.fin 6))]) (.int 32))) := by
  with_unfolding_all rfl

/-- **C110** is false without the conditions: `bins_min: 0240` in the example configuration is accepted, and means 160; and the radius
`1e-1` is refused. -/
theorem C110_false :
    (∃ file conf, nodeAt [.key "ranges", .index 0, .key "ffa_search", .key "bins_min"] file = some (.plain dec0240.text) ∧
      dec0240.value = 240 ∧ fromYamlConfig file = .ok conf ∧
      entry [.key "ranges", .index 0, .key "ffa_search", .key "bins_min"] conf = some (.int 160)) ∧
    ∃ file, nodeAt [.key "clustering", .key "radius"] file = some (.plain dec1em1.text) ∧ Kind.posPlain.InRange dec1em1.value ∧
      fromYamlConfig file = .error .invalidPipelineConfig := by
  constructor
  · refine ⟨exampleFile (.quoted ['s', 'h', 'o', 'r', 't']) dec0240.text dec02.text,
      withEntry [.key "ranges", .index 0, .key "ffa_search", .key "bins_min"] (.int 160)
        (exampleConf (.dict [("smin", .float (.fin 6))]) (.int 32)), ?_, dec0240_value, ?_, ?_⟩
    · with_unfolding_all rfl
    · with_unfolding_all rfl
    · with_unfolding_all rfl
  · refine ⟨exampleFile (.quoted ['s', 'h', 'o', 'r', 't']) ['2', '4', '0'] dec1em1.text, ?_, ?_, ?_⟩
    · with_unfolding_all rfl
    · rw [dec1em1_value]; norm_num [Kind.InRange]
    · with_unfolding_all rfl

/-! ## C111 -/

theorem jsonPlainList_false {l : List PyVal} : jsonPlainList l = false ↔ ∃ v ∈ l, jsonPlain v = false := by
  induction l with
  | nil => simp [jsonPlainList]
  | cons a l ih =>
    rw [jsonPlainList, Bool.and_eq_false_iff, ih]
    simp

theorem jsonPlainDict_false {d : List (String × PyVal)} : jsonPlainDict d = false ↔ ∃ k v, (k, v) ∈ d ∧ jsonPlain v = false := by
  induction d with
  | nil => simp [jsonPlainDict]
  | cons a d ih =>
    obtain ⟨k, v⟩ := a
    simp only [jsonPlainDict, Bool.and_eq_false_iff, ih, List.mem_cons, Prod.mk.injEq]
    constructor
    · rintro (h | ⟨k', v', h1, h2⟩)
      · exact ⟨k, v, Or.inl ⟨rfl, rfl⟩, h⟩
      · exact ⟨k', v', Or.inr h1, h2⟩
    · rintro ⟨k', v', ⟨rfl, rfl⟩ | h1, h2⟩
      · exact Or.inl h2
      · exact Or.inr ⟨k', v', h1, h2⟩

theorem hasDate_list {l : List PyVal} : HasDate (.list l) ↔ ∃ v ∈ l, HasDate v := by
  constructor
  · intro h; cases h with | list h1 h2 => exact ⟨_, h1, h2⟩
  · rintro ⟨v, h1, h2⟩; exact .list h1 h2

theorem hasDate_dict {d : List (String × PyVal)} : HasDate (.dict d) ↔ ∃ k v, (k, v) ∈ d ∧ HasDate v := by
  constructor
  · intro h; cases h with | dict h1 h2 => exact ⟨_, _, h1, h2⟩
  · rintro ⟨k, v, h1, h2⟩; exact .dict h1 h2

/-- `json.dumps` fails for this object if and only if there is a date in it. -/
def DateIff (v : PyVal) : Prop := jsonPlain v = false ↔ HasDate v

theorem scalar_date {t : List Char} {v : PyVal} (h : yamlScalar t = .ok v) : DateIff v := by
  have hno : ∀ v : PyVal, jsonPlain v = true → (¬ HasDate v) → DateIff v := by
    intro v h1 h2
    unfold DateIff
    rw [h1]; simp [h2]
  have hleaf : ∀ v : PyVal, (v = .none ∨ (∃ b, v = .bool b) ∨ (∃ i, v = .int i) ∨ (∃ f, v = .float f) ∨ (∃ s, v = .str s) ∨ ∃ n, v = .other n) →
      DateIff v := by
    rintro v (rfl | ⟨b, rfl⟩ | ⟨b, rfl⟩ | ⟨b, rfl⟩ | ⟨b, rfl⟩ | ⟨n, rfl⟩)
    · exact hno _ rfl (by intro h; cases h)
    · exact hno _ rfl (by intro h; cases h)
    · exact hno _ rfl (by intro h; cases h)
    · exact hno _ rfl (by intro h; cases h)
    · exact hno _ rfl (by intro h; cases h)
    · exact ⟨fun _ => .date n, fun _ => rfl⟩
  unfold yamlScalar at h
  split_ifs at h
  · cases h; exact hleaf _ (by simp)
  · cases h; exact hleaf _ (by simp)
  · unfold yamlFloat at h
    simp only at h
    by_cases h1 : (splitSign ((t.filter fun c => decide (c ≠ '_')).map asciiLower)).2 = ".inf".toList
    · rw [if_pos h1] at h; cases h; exact hleaf _ (by simp)
    rw [if_neg h1] at h
    by_cases h2 : (splitSign ((t.filter fun c => decide (c ≠ '_')).map asciiLower)).2 = ".nan".toList
    · rw [if_pos h2] at h; cases h; exact hleaf _ (by simp)
    rw [if_neg h2] at h
    by_cases h3 : ':' ∈ (splitSign ((t.filter fun c => decide (c ≠ '_')).map asciiLower)).2
    · rw [if_pos h3] at h
      obtain ⟨r, -, rfl⟩ := map_ok_inv h; exact hleaf _ (by simp)
    · rw [if_neg h3] at h
      obtain ⟨r, -, rfl⟩ := map_ok_inv h; exact hleaf _ (by simp)
  · unfold yamlInt at h
    simp only at h
    obtain ⟨r, -, rfl⟩ := map_ok_inv h; exact hleaf _ (by simp)
  · cases h; exact hleaf _ (by simp)
  · unfold yamlTimestamp at h
    simp only at h
    split_ifs at h
    cases h; exact hleaf _ (by simp)
  · cases h; exact hleaf _ (by simp)

theorem dictSet_mem {d : List (String × PyVal)} {k : String} {v : PyVal} {P : PyVal → Prop} (hd : ∀ k' u, (k', u) ∈ d → P u) (hv : P v) :
    ∀ k' u, (k', u) ∈ dictSet d k v → P u := by
  induction d with
  | nil =>
    intro k' u h
    simp [dictSet] at h
    rw [h.2]; exact hv
  | cons a d ih =>
    obtain ⟨k2, v2⟩ := a
    intro k' u h
    rw [dictSet] at h
    split_ifs at h
    · rw [List.mem_cons] at h
      rcases h with h | h
      · cases h; exact hv
      · exact hd k' u (by simp [h])
    · rw [List.mem_cons] at h
      rcases h with h | h
      · cases h; exact hd k2 v2 (by simp)
      · exact ih (fun k' u h => hd k' u (by simp [h])) k' u h

mutual

theorem construct_date : ∀ (n : YamlNode) {v : PyVal}, n.construct = .ok v → DateIff v
  | .plain t, v, h => by
    rw [YamlNode.construct] at h
    exact scalar_date h
  | .quoted t, v, h => by
    rw [YamlNode.construct] at h
    cases h
    exact ⟨(fun h => by cases h), (fun h => by cases h)⟩
  | .seq l, v, h => by
    rw [YamlNode.construct] at h
    obtain ⟨r, hr, rfl⟩ := map_ok_inv h
    have := constructSeq_date l hr
    unfold DateIff
    rw [jsonPlain, jsonPlainList_false, hasDate_list]
    exact exists_congr fun v => and_congr_right fun hv => this v hv
  | .map m, v, h => by
    rw [YamlNode.construct] at h
    obtain ⟨r, hr, rfl⟩ := map_ok_inv h
    have := constructMap_date m (fun k v h => by cases h) hr
    unfold DateIff
    rw [jsonPlain, jsonPlainDict_false, hasDate_dict]
    exact exists_congr fun k => exists_congr fun v => and_congr_right fun hv => this k v hv

theorem constructSeq_date : ∀ (l : List YamlNode) {r : List PyVal}, constructSeq l = .ok r → ∀ v ∈ r, DateIff v
  | [], r, h => by
    rw [constructSeq] at h
    cases h
    intro v hv; cases hv
  | n :: l, r, h => by
    rw [constructSeq] at h
    obtain ⟨u, hu, h⟩ := bind_ok_inv h
    obtain ⟨q, hq, rfl⟩ := map_ok_inv h
    intro v hv
    rw [List.mem_cons] at hv
    rcases hv with rfl | hv
    · exact construct_date n hu
    · exact constructSeq_date l hq v hv

theorem constructMap_date : ∀ (m : List (String × YamlNode)) {d r : PyDict String PyVal}, (∀ k v, (k, v) ∈ d → DateIff v) →
    constructMap m d = .ok r → ∀ k v, (k, v) ∈ r → DateIff v
  | [], d, r, hd, h => by
    rw [constructMap] at h
    cases h
    exact hd
  | (k, n) :: m, d, r, hd, h => by
    rw [constructMap] at h
    obtain ⟨u, hu, h⟩ := bind_ok_inv h
    exact constructMap_date m (dictSet_mem hd (construct_date n hu)) h

end

/-- **C111**: a file that can be read as YAML, and without dates, is either used or refused with `InvalidPipelineConfig`; it is used if and
only if it is a configuration. -/
theorem C111_refused_partial {file : YamlNode} {conf : PyVal} (h : file.construct = .ok conf) (hd : ¬ HasDate conf) :
    ((∃ w, fromYamlConfig file = .ok w) ↔ PipelineConf FindPeaksConf PosInt conf) ∧
    (¬ PipelineConf FindPeaksConf PosInt conf → fromYamlConfig file = .error .invalidPipelineConfig) := by
  have hj : jsonPlain conf = true := by
    cases hh : jsonPlain conf with
    | true => rfl
    | false => exact absurd ((construct_date file h).1 hh) hd
  have : fromYamlConfig file = validatePipelineConfig conf := by
    unfold fromYamlConfig
    rw [h]
    simp only [Except.bind]
    rw [if_pos hj]
  rw [this]
  exact C55_accepts conf

/-- **C111**: a file with a date anywhere, whether or not it would be a configuration otherwise, makes the program fail with `TypeError`
in the argument of a log message. -/
theorem C111_date {file : YamlNode} {conf : PyVal} (h : file.construct = .ok conf) (hd : HasDate conf) :
    fromYamlConfig file = .error .typeError := by
  have hj : jsonPlain conf = false := (construct_date file h).2 hd
  unfold fromYamlConfig
  rw [h]
  simp only [Except.bind]
  rw [if_neg (by rw [hj]; simp)]

/-- The hypotheses are met: an incomplete file. -/
example : fromYamlConfig (.map [("processes", .plain ['4'])]) = .error .invalidPipelineConfig := by with_unfolding_all rfl

/-- An empty file. -/
example : fromYamlConfig (.plain []) = .error .invalidPipelineConfig := by with_unfolding_all rfl

/-- **C111** is false without the condition: a search range named `2020-01-01` in the example configuration. With the name in quotes the
file is accepted, because the name of a range is any text. -/
theorem C111_false :
    fromYamlConfig (exampleFile (.plain ['2', '0', '2', '0', '-', '0', '1', '-', '0', '1']) ['2', '4', '0'] ['0', '.', '2']) =
      .error .typeError ∧
    ∃ conf, fromYamlConfig (exampleFile (.quoted ['2', '0', '2', '0', '-', '0', '1', '-', '0', '1']) ['2', '4', '0'] ['0', '.', '2']) =
      .ok conf := by
  constructor
  · with_unfolding_all rfl
  · exact ⟨withEntry [.key "ranges", .index 0, .key "name"] (.str "2020-01-01") (exampleConf (.dict [("smin", .float (.fin 6))]) (.int 32)),
      by with_unfolding_all rfl⟩

end Verif.Props
