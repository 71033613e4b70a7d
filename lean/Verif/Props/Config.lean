import Verif.Model.Config
import Verif.Spec.Config
import Verif.Props.Sigproc

/-!
# C55: pipeline configurations
-/

namespace Verif.Props

open Verif.Model Verif.Spec

/-- The schema accepts exactly the objects with property `P`. -/
def Accepts (s : SchemaFn) (P : PyVal → Prop) : Prop := ∀ v, (∃ w, s v = .ok w) ↔ P v

/-- What the schema returns has property `Q`. -/
def Returns (s : SchemaFn) (Q : PyVal → Prop) : Prop := ∀ v w, s v = .ok w → Q w

/-- The schema changes nothing but the type of numbers. -/
def Preserves (s : SchemaFn) : Prop := ∀ v w, s v = .ok w → numeric w = numeric v

/-! ## Leaves -/

theorem greaterThan_true {a : ℚ} {v : PyVal} : greaterThan a v = .ok true ↔
    (∃ x, v = .float x ∧ Above a x) ∨ (∃ i : ℤ, v = .int i ∧ a < i) ∨ (∃ b : Bool, v = .bool b ∧ a < if b then 1 else 0) := by
  cases v with
  | float x => cases x <;> simp [greaterThan, Above]
  | _ => simp [greaterThan]

theorem pred_ok {p : PyVal → Except PyErr Bool} {v w : PyVal} : schemaPred p v = .ok w ↔ p v = .ok true ∧ w = v := by
  unfold schemaPred
  split
  · rename_i h; rw [h]; simp [eq_comm]
  · rename_i h; constructor
    · intro h'; cases h'
    · rintro ⟨h1, -⟩; exact absurd h1 h

theorem and_ok {a b : SchemaFn} {v w : PyVal} : schemaAnd a b v = .ok w ↔ ∃ u, a v = .ok u ∧ b u = .ok w := by
  unfold schemaAnd
  cases h : a v with
  | error e => simp [Except.bind]
  | ok u => simp [Except.bind]

theorem or_accepts {a b : SchemaFn} {P Q : PyVal → Prop} (ha : Accepts a P) (hb : Accepts b Q) :
    Accepts (schemaOr a b) (fun v => Q v ∨ P v) := by
  intro v
  show _ ↔ Q v ∨ P v
  rw [← ha v, ← hb v]
  unfold schemaOr
  cases h : a v with
  | error e => simp
  | ok u => simp

theorem none_accepts : Accepts schemaNone (fun v => v = .none) := by
  intro v
  cases v <;> simp [schemaNone]

theorem orNone_accepts {a : SchemaFn} {P : PyVal → Prop} (ha : Accepts a P) : Accepts (schemaOr a schemaNone) (OrBlank P) :=
  or_accepts ha none_accepts

theorem orNone_returns {a : SchemaFn} {Q : PyVal → Prop} (ha : Returns a Q) : Returns (schemaOr a schemaNone) (OrBlank Q) := by
  intro v w h
  unfold schemaOr at h
  cases h1 : a v with
  | ok u => rw [h1] at h; cases h; exact Or.inr (ha v _ h1)
  | error e =>
    rw [h1] at h
    cases v <;> simp [schemaNone] at h
    exact Or.inl h.symm

theorem int_ok {v w : PyVal} : schemaInt v = .ok w ↔ ((∃ i, v = .int i) ∨ ∃ b, v = .bool b) ∧ w = v := by
  cases v <;> simp [schemaInt, eq_comm]

theorem posInt_ok {v w : PyVal} : posIntSchema v = .ok w ↔ PosInt v ∧ w = v := by
  unfold posIntSchema strictlyPositive
  rw [and_ok]
  constructor
  · rintro ⟨u, h1, h2⟩
    rw [int_ok] at h1
    rw [pred_ok, greaterThan_true] at h2
    obtain ⟨h1, rfl⟩ := h1
    obtain ⟨h2, rfl⟩ := h2
    refine ⟨?_, rfl⟩
    rcases h2 with ⟨x, rfl, -⟩ | ⟨i, rfl, hi⟩ | ⟨b, rfl, hb⟩
    · rcases h1 with ⟨i, h⟩ | ⟨i, h⟩ <;> cases h
    · exact Or.inl ⟨i, rfl, by exact_mod_cast hi⟩
    · right
      cases b
      · simp at hb
      · rfl
  · rintro ⟨h, rfl⟩
    refine ⟨w, ?_, ?_⟩
    · rw [int_ok]
      rcases h with ⟨i, rfl, -⟩ | rfl
      · exact ⟨Or.inl ⟨i, rfl⟩, rfl⟩
      · exact ⟨Or.inr ⟨true, rfl⟩, rfl⟩
    · rw [pred_ok, greaterThan_true]
      rcases h with ⟨i, rfl, hi⟩ | rfl
      · exact ⟨Or.inr (Or.inl ⟨i, rfl, by exact_mod_cast hi⟩), rfl⟩
      · exact ⟨Or.inr (Or.inr ⟨true, rfl, by simp⟩), rfl⟩

theorem toFloat_ok {v : PyVal} {x : PyFloat} : toFloat v = .ok x ↔ HasFloat v x := by
  cases v with
  | bool b => cases b <;> simp [toFloat, HasFloat, eq_comm]
  | _ => simp [toFloat, HasFloat, eq_comm]

theorem useFloat_ok {v w : PyVal} : schemaUseFloat v = .ok w ↔ ∃ x, HasFloat v x ∧ w = .float x := by
  unfold schemaUseFloat
  cases h : toFloat v with
  | ok x =>
    simp only [Except.ok.injEq]
    constructor
    · rintro rfl; exact ⟨x, toFloat_ok.1 h, rfl⟩
    · rintro ⟨y, hy, rfl⟩
      rw [← toFloat_ok, h] at hy
      cases hy; rfl
  | error e =>
    constructor
    · intro h'; cases h'
    · rintro ⟨y, hy, rfl⟩
      rw [← toFloat_ok, h] at hy
      cases hy

theorem floatAbove_ok {a : ℚ} {v w : PyVal} : schemaAnd schemaUseFloat (schemaPred (greaterThan a)) v = .ok w ↔
    ∃ x, HasFloat v x ∧ Above a x ∧ w = .float x := by
  rw [and_ok]
  constructor
  · rintro ⟨u, h1, h2⟩
    rw [useFloat_ok] at h1
    rw [pred_ok, greaterThan_true] at h2
    obtain ⟨x, hx, rfl⟩ := h1
    obtain ⟨h2, rfl⟩ := h2
    rcases h2 with ⟨y, hy, h⟩ | ⟨i, h, -⟩ | ⟨b, h, -⟩
    · cases hy; exact ⟨x, hx, h, rfl⟩
    · cases h
    · cases h
  · rintro ⟨x, hx, h, rfl⟩
    exact ⟨.float x, useFloat_ok.2 ⟨x, hx, rfl⟩, pred_ok.2 ⟨greaterThan_true.2 (Or.inl ⟨x, rfl, h⟩), rfl⟩⟩

theorem positive_ok {v w : PyVal} : strictlyPositive v = .ok w ↔ PosPlain v ∧ w = v := by
  unfold strictlyPositive
  rw [pred_ok, greaterThan_true]
  refine and_congr_left fun _ => ?_
  constructor
  · rintro (⟨x, rfl, h⟩ | ⟨i, rfl, hi⟩ | ⟨b, rfl, hb⟩)
    · exact Or.inr ⟨x, rfl, h⟩
    · exact Or.inl (Or.inl ⟨i, rfl, by exact_mod_cast hi⟩)
    · cases b
      · simp at hb
      · exact Or.inl (Or.inr rfl)
  · rintro ((⟨i, rfl, hi⟩ | rfl) | ⟨x, rfl, h⟩)
    · exact Or.inr (Or.inl ⟨i, rfl, by exact_mod_cast hi⟩)
    · exact Or.inr (Or.inr ⟨true, rfl, by simp⟩)
    · exact Or.inl ⟨x, rfl, h⟩

theorem ducy_ok {v w : PyVal} :
    schemaAnd schemaFloat (schemaAnd (schemaPred (greaterThan 0)) (schemaPred (lessThan 1))) v = .ok w ↔
      (∃ q : ℚ, v = .float (.fin q) ∧ 0 < q ∧ q < 1) ∧ w = v := by
  cases v with
  | float x => cases x with
    | fin q =>
      by_cases h1 : 0 < q <;> by_cases h2 : q < 1 <;>
        simp [schemaAnd, schemaFloat, Except.bind, schemaPred, greaterThan, lessThan, h1, h2, eq_comm]
    | inf n => cases n <;> simp [schemaAnd, schemaFloat, Except.bind, schemaPred, greaterThan, lessThan]
    | nan => simp [schemaAnd, schemaFloat, Except.bind, schemaPred, greaterThan]
  | _ => simp [schemaAnd, schemaFloat, Except.bind]

theorem format_ok {v w : PyVal} : formatSchema v = .ok w ↔ (v = .str "presto" ∨ v = .str "sigproc") ∧ w = v := by
  unfold formatSchema
  rw [pred_ok]
  refine and_congr_left fun _ => ?_
  cases v <;> simp

theorem str_ok {v w : PyVal} : schemaStr v = .ok w ↔ (∃ s, v = .str s) ∧ w = v := by
  cases v <;> simp [schemaStr, eq_comm]

theorem bool_ok {v w : PyVal} : schemaBool v = .ok w ↔ (∃ b, v = .bool b) ∧ w = v := by
  cases v <;> simp [schemaBool, eq_comm]

/-- A schema that returns the object unchanged. -/
theorem accepts_of_same {s : SchemaFn} {P : PyVal → Prop} (h : ∀ {v w}, s v = .ok w ↔ P v ∧ w = v) : Accepts s P := by
  intro v
  constructor
  · rintro ⟨w, hw⟩; exact (h.1 hw).1
  · intro hp; exact ⟨v, h.2 ⟨hp, rfl⟩⟩

theorem returns_of_same {s : SchemaFn} {P : PyVal → Prop} (h : ∀ {v w}, s v = .ok w ↔ P v ∧ w = v) : Returns s P := by
  intro v w hw
  obtain ⟨hp, rfl⟩ := h.1 hw
  exact hp

theorem preserves_of_same {s : SchemaFn} {P : PyVal → Prop} (h : ∀ {v w}, s v = .ok w ↔ P v ∧ w = v) : Preserves s := by
  intro v w hw
  rw [(h.1 hw).2]

theorem above_accepts {a : ℚ} : Accepts (schemaAnd schemaUseFloat (schemaPred (greaterThan a))) (fun v => ∃ x, HasFloat v x ∧ Above a x) := by
  intro v
  constructor
  · rintro ⟨w, hw⟩
    obtain ⟨x, h1, h2, -⟩ := floatAbove_ok.1 hw
    exact ⟨x, h1, h2⟩
  · rintro ⟨x, h1, h2⟩
    exact ⟨_, floatAbove_ok.2 ⟨x, h1, h2, rfl⟩⟩

theorem above_returns {a : ℚ} : Returns (schemaAnd schemaUseFloat (schemaPred (greaterThan a))) (fun v => ∃ x, v = .float x ∧ Above a x) := by
  intro v w hw
  obtain ⟨x, -, h2, rfl⟩ := floatAbove_ok.1 hw
  exact ⟨x, rfl, h2⟩

theorem numeric_hasFloat {v : PyVal} {x : PyFloat} (h : HasFloat v x) : numeric v = .float x := by
  rcases h with rfl | ⟨i, rfl, rfl⟩ | ⟨rfl, rfl⟩ | ⟨rfl, rfl⟩ | ⟨s, rfl, hs⟩
  · rw [numeric]; all_goals simp
  · rw [numeric]
  · rw [numeric]; rfl
  · rw [numeric]; rfl
  · rw [numeric, hs]

theorem above_preserves {a : ℚ} : Preserves (schemaAnd schemaUseFloat (schemaPred (greaterThan a))) := by
  intro v w hw
  obtain ⟨x, h1, -, rfl⟩ := floatAbove_ok.1 hw
  rw [numeric_hasFloat h1, numeric_hasFloat (Or.inl rfl)]

theorem useFloat_accepts : Accepts schemaUseFloat AnyNumber := by
  intro v
  constructor
  · rintro ⟨w, hw⟩
    obtain ⟨x, h1, -⟩ := useFloat_ok.1 hw
    exact ⟨x, h1⟩
  · rintro ⟨x, h1⟩
    exact ⟨_, useFloat_ok.2 ⟨x, h1, rfl⟩⟩

theorem useFloat_returns : Returns schemaUseFloat IsFloat := by
  intro v w hw
  obtain ⟨x, -, rfl⟩ := useFloat_ok.1 hw
  exact ⟨x, rfl⟩

theorem useFloat_preserves : Preserves schemaUseFloat := by
  intro v w hw
  obtain ⟨x, h1, rfl⟩ := useFloat_ok.1 hw
  rw [numeric_hasFloat h1, numeric_hasFloat (Or.inl rfl)]

theorem orNone_preserves {a : SchemaFn} (ha : Preserves a) : Preserves (schemaOr a schemaNone) := by
  intro v w h
  unfold schemaOr at h
  cases h1 : a v with
  | ok u => rw [h1] at h; cases h; exact ha v _ h1
  | error e =>
    rw [h1] at h
    cases v <;> simp [schemaNone] at h
    rw [← h]

/-! ## Sections and lists -/

/-- Two lists of fields with the same keys, and related conditions. -/
def SameFields {α β : Type _} (R : α → β → Prop) : List (String × Bool × α) → List (String × Bool × β) → Prop :=
  List.Forall₂ fun a b => a.1 = b.1 ∧ a.2.1 = b.2.1 ∧ R a.2.2 b.2.2

theorem lookup_of_mem {items : List (String × Bool × SchemaFn)} (hn : (items.map Prod.fst).Nodup) {k : String} {o : Bool} {s : SchemaFn}
    (h : (k, o, s) ∈ items) : schemaLookup items k = some s := by
  induction items with
  | nil => simp at h
  | cons a items ih =>
    rw [List.map_cons, List.nodup_cons] at hn
    unfold schemaLookup
    rw [List.mem_cons] at h
    rcases h with rfl | h
    · simp
    · have hne : a.1 ≠ k := by
        rintro rfl
        exact hn.1 (List.mem_map.2 ⟨_, h, rfl⟩)
      rw [List.find?_cons_of_neg (by simpa using hne)]
      exact ih hn.2 h

theorem mem_of_lookup {items : List (String × Bool × SchemaFn)} {k : String} {s : SchemaFn} (h : schemaLookup items k = some s) :
    ∃ o, (k, o, s) ∈ items := by
  unfold schemaLookup at h
  rw [Option.map_eq_some_iff] at h
  obtain ⟨⟨k', o, s'⟩, h1, rfl⟩ := h
  have h2 := List.find?_some h1
  simp only [decide_eq_true_eq] at h2
  exact ⟨o, h2 ▸ List.mem_of_find?_eq_some h1⟩

theorem schemaItems_ok {items : List (String × Bool × SchemaFn)} : ∀ {d : List (String × PyVal)},
    (∃ w, schemaItems items d = .ok w) ↔ ∀ k x, (k, x) ∈ d → ∃ s, schemaLookup items k = some s ∧ ∃ w, s x = .ok w := by
  intro d
  induction d with
  | nil => simp [schemaItems]
  | cons a d ih =>
    obtain ⟨k, v⟩ := a
    rw [schemaItems]
    constructor
    · rintro ⟨w, hw⟩ k' x hmem
      cases hl : schemaLookup items k with
      | none => rw [hl] at hw; cases hw
      | some s =>
        rw [hl] at hw
        obtain ⟨u, hu, hw⟩ := bind_ok_inv hw
        obtain ⟨r, hr, -⟩ := map_ok_inv hw
        rw [List.mem_cons] at hmem
        rcases hmem with h | h
        · cases h; exact ⟨s, hl, u, hu⟩
        · exact ih.1 ⟨r, hr⟩ k' x h
    · intro h
      obtain ⟨s, hs, w, hw⟩ := h k v (by simp)
      obtain ⟨r, hr⟩ := ih.2 (fun k' x hm => h k' x (by simp [hm]))
      exact ⟨(k, w) :: r, by rw [hs]; simp only; rw [hw, hr]; rfl⟩

theorem schemaItems_mem {items : List (String × Bool × SchemaFn)} : ∀ {d w : List (String × PyVal)}, schemaItems items d = .ok w →
    w.map Prod.fst = d.map Prod.fst ∧ ∀ k y, (k, y) ∈ w → ∃ s x, schemaLookup items k = some s ∧ (k, x) ∈ d ∧ s x = .ok y := by
  intro d
  induction d with
  | nil => intro w h; rw [schemaItems] at h; cases h; simp
  | cons a d ih =>
    intro w hw
    obtain ⟨k, v⟩ := a
    rw [schemaItems] at hw
    cases hl : schemaLookup items k with
    | none => rw [hl] at hw; cases hw
    | some s =>
      rw [hl] at hw
      obtain ⟨u, hu, hw⟩ := bind_ok_inv hw
      obtain ⟨r, hr, rfl⟩ := map_ok_inv hw
      obtain ⟨h1, h2⟩ := ih hr
      refine ⟨by simp [h1], ?_⟩
      intro k' y hm
      rw [List.mem_cons] at hm
      rcases hm with h | h
      · cases h; exact ⟨s, v, hl, by simp, hu⟩
      · obtain ⟨s', x, h3, h4, h5⟩ := h2 k' y h
        exact ⟨s', x, h3, by simp [h4], h5⟩

theorem dictGet_isSome_iff {ν : Type*} {d : List (String × ν)} {k : String} : (dictGet d k).isSome = true ↔ ∃ x, (k, x) ∈ d := by
  induction d with
  | nil => simp [dictGet]
  | cons a d ih =>
    obtain ⟨k', v⟩ := a
    rw [dictGet]
    split_ifs with h
    · subst h
      constructor
      · intro _; exact ⟨v, by simp⟩
      · intro _; rfl
    · rw [ih]
      constructor
      · rintro ⟨x, hx⟩; exact ⟨x, by simp [hx]⟩
      · rintro ⟨x, hx⟩
        rw [List.mem_cons] at hx
        rcases hx with hx | hx
        · cases hx; exact absurd rfl h
        · exact ⟨x, hx⟩

theorem sameFields_left {α β : Type _} {R : α → β → Prop} {a : List (String × Bool × α)} {b : List (String × Bool × β)}
    (h : SameFields R a b) {k : String} {o : Bool} {x : α} (hx : (k, o, x) ∈ a) : ∃ y, (k, o, y) ∈ b ∧ R x y := by
  unfold SameFields at h
  induction h with
  | nil => simp at hx
  | cons h1 h2 ih =>
    rename_i u v us vs
    rw [List.mem_cons] at hx
    rcases hx with rfl | hx
    · obtain ⟨h3, h4, h5⟩ := h1
      obtain ⟨v1, v2, v3⟩ := v
      simp only at h3 h4
      subst h3; subst h4
      exact ⟨v3, by simp, h5⟩
    · obtain ⟨y, hy, hr⟩ := ih hx
      exact ⟨y, by simp [hy], hr⟩

theorem sameFields_right {α β : Type _} {R : α → β → Prop} {a : List (String × Bool × α)} {b : List (String × Bool × β)}
    (h : SameFields R a b) {k : String} {o : Bool} {y : β} (hy : (k, o, y) ∈ b) : ∃ x, (k, o, x) ∈ a ∧ R x y := by
  unfold SameFields at h
  have h' : SameFields (fun y x => R x y) b a := by
    unfold SameFields
    exact h.flip.imp fun a b hab => ⟨hab.1.symm, hab.2.1.symm, hab.2.2⟩
  exact sameFields_left h' hy

theorem dict_ok {items : List (String × Bool × SchemaFn)} {v w : PyVal} : schemaDict items v = .ok w ↔
    ∃ d e, v = .dict d ∧ w = .dict e ∧ schemaItems items d = .ok e ∧ ∀ it ∈ items, it.2.1 = true ∨ ∃ x, (it.1, x) ∈ d := by
  cases v with
  | dict d =>
    rw [schemaDict]
    have hall : (items.all fun it => it.2.1 || (dictGet d it.1).isSome) = true ↔ ∀ it ∈ items, it.2.1 = true ∨ ∃ x, (it.1, x) ∈ d := by
      rw [List.all_eq_true]
      refine forall₂_congr fun it _ => ?_
      rw [Bool.or_eq_true, dictGet_isSome_iff]
    constructor
    · intro h
      obtain ⟨e, he, h⟩ := bind_ok_inv h
      split_ifs at h with hc
      cases h
      exact ⟨d, e, rfl, rfl, he, hall.1 hc⟩
    · rintro ⟨d', e, hd, rfl, he, hr⟩
      cases hd
      rw [he]
      simp only [Except.bind]
      rw [if_pos (hall.2 hr)]
  | _ => simp [schemaDict]

theorem dict_accepts {items : List (String × Bool × SchemaFn)} {fields : List (String × Bool × (PyVal → Prop))}
    (h : SameFields Accepts items fields) (hn : (items.map Prod.fst).Nodup) : Accepts (schemaDict items) (Section fields) := by
  intro v
  constructor
  · rintro ⟨w, hw⟩
    obtain ⟨d, e, rfl, rfl, he, hr⟩ := dict_ok.1 hw
    refine ⟨d, rfl, ?_, ?_⟩
    · intro k x hkx
      obtain ⟨s, hs, hsx⟩ := schemaItems_ok.1 ⟨e, he⟩ k x hkx
      obtain ⟨o, ho⟩ := mem_of_lookup hs
      obtain ⟨P, hP, hA⟩ := sameFields_left h ho
      exact ⟨o, P, hP, (hA x).1 hsx⟩
    · intro k P hP
      obtain ⟨s, hs, -⟩ := sameFields_right h hP
      rcases hr _ hs with h' | h'
      · cases h'
      · exact h'
  · rintro ⟨d, rfl, h1, h2⟩
    obtain ⟨e, he⟩ : ∃ e, schemaItems items d = .ok e := by
      rw [schemaItems_ok]
      intro k x hkx
      obtain ⟨o, P, hP, hx⟩ := h1 k x hkx
      obtain ⟨s, hs, hA⟩ := sameFields_right h hP
      exact ⟨s, lookup_of_mem hn hs, (hA x).2 hx⟩
    refine ⟨.dict e, dict_ok.2 ⟨d, e, rfl, rfl, he, ?_⟩⟩
    rintro ⟨k, o, s⟩ hit
    cases o
    · right
      obtain ⟨P, hP, -⟩ := sameFields_left h hit
      exact h2 k P hP
    · left; rfl

theorem dict_returns {items : List (String × Bool × SchemaFn)} {fields : List (String × Bool × (PyVal → Prop))}
    (h : SameFields Returns items fields) : Returns (schemaDict items) (Section fields) := by
  intro v w hw
  obtain ⟨d, e, rfl, rfl, he, hr⟩ := dict_ok.1 hw
  obtain ⟨hkeys, hmem⟩ := schemaItems_mem he
  refine ⟨e, rfl, ?_, ?_⟩
  · intro k y hky
    obtain ⟨s, x, hs, -, hsx⟩ := hmem k y hky
    obtain ⟨o, ho⟩ := mem_of_lookup hs
    obtain ⟨P, hP, hR⟩ := sameFields_left h ho
    exact ⟨o, P, hP, hR x y hsx⟩
  · intro k P hP
    obtain ⟨s, hs, -⟩ := sameFields_right h hP
    rcases hr _ hs with h' | ⟨x, hx⟩
    · cases h'
    · have hk : k ∈ e.map Prod.fst := by rw [hkeys]; exact List.mem_map.2 ⟨_, hx, rfl⟩
      obtain ⟨⟨k', y⟩, hy, rfl⟩ := List.mem_map.1 hk
      exact ⟨y, hy⟩

theorem dict_preserves {items : List (String × Bool × SchemaFn)} (h : ∀ it ∈ items, Preserves it.2.2) : Preserves (schemaDict items) := by
  intro v w hw
  obtain ⟨d, e, rfl, rfl, he, -⟩ := dict_ok.1 hw
  rw [numeric, numeric]
  congr 1
  clear hw
  induction d generalizing e with
  | nil => rw [schemaItems] at he; cases he; rfl
  | cons a d ih =>
    obtain ⟨k, v⟩ := a
    rw [schemaItems] at he
    cases hl : schemaLookup items k with
    | none => rw [hl] at he; cases he
    | some s =>
      rw [hl] at he
      obtain ⟨u, hu, he⟩ := bind_ok_inv he
      obtain ⟨r, hr, rfl⟩ := map_ok_inv he
      obtain ⟨o, ho⟩ := mem_of_lookup hl
      rw [numericDict, numericDict, ih r hr, h _ ho v u hu]

theorem list_accepts {s : SchemaFn} {P : PyVal → Prop} (h : Accepts s P) : Accepts (schemaList s) (ListOf P) := by
  have key : ∀ l : List PyVal, (∃ w, schemaElements s l = .ok w) ↔ ∀ x ∈ l, P x := by
    intro l
    induction l with
    | nil => simp [schemaElements]
    | cons a l ih =>
      rw [schemaElements, List.forall_mem_cons, ← ih, ← h a]
      cases h1 : s a with
      | error e => simp [Except.bind]
      | ok u =>
        cases h2 : schemaElements s l with
        | error e => simp [Except.bind, Except.map]
        | ok r => simp [Except.bind, Except.map]
  intro v
  cases v with
  | list l =>
    rw [schemaList]
    constructor
    · rintro ⟨w, hw⟩
      obtain ⟨r, hr, -⟩ := map_ok_inv hw
      exact ⟨l, rfl, (key l).1 ⟨r, hr⟩⟩
    · rintro ⟨l', he, hP⟩
      cases he
      obtain ⟨r, hr⟩ := (key l).2 hP
      exact ⟨.list r, by rw [hr]; rfl⟩
  | _ => simp [schemaList, ListOf]

theorem list_returns {s : SchemaFn} {Q : PyVal → Prop} (h : Returns s Q) : Returns (schemaList s) (ListOf Q) := by
  have key : ∀ l w : List PyVal, schemaElements s l = .ok w → ∀ x ∈ w, Q x := by
    intro l
    induction l with
    | nil => intro w hw; rw [schemaElements] at hw; cases hw; simp
    | cons a l ih =>
      intro w hw
      rw [schemaElements] at hw
      obtain ⟨u, hu, hw⟩ := bind_ok_inv hw
      obtain ⟨r, hr, rfl⟩ := map_ok_inv hw
      rw [List.forall_mem_cons]
      exact ⟨h a u hu, ih r hr⟩
  intro v w hw
  cases v with
  | list l =>
    rw [schemaList] at hw
    obtain ⟨r, hr, rfl⟩ := map_ok_inv hw
    exact ⟨r, rfl, key l r hr⟩
  | _ => simp [schemaList] at hw

theorem list_preserves {s : SchemaFn} (h : Preserves s) : Preserves (schemaList s) := by
  have key : ∀ l w : List PyVal, schemaElements s l = .ok w → numericList w = numericList l := by
    intro l
    induction l with
    | nil => intro w hw; rw [schemaElements] at hw; cases hw; rfl
    | cons a l ih =>
      intro w hw
      rw [schemaElements] at hw
      obtain ⟨u, hu, hw⟩ := bind_ok_inv hw
      obtain ⟨r, hr, rfl⟩ := map_ok_inv hw
      rw [numericList, numericList, h a u hu, ih r hr]
  intro v w hw
  cases v with
  | list l =>
    rw [schemaList] at hw
    obtain ⟨r, hr, rfl⟩ := map_ok_inv hw
    rw [numeric, numeric, key l r hr]
  | _ => simp [schemaList] at hw

/-! ## The schemas of the pipeline -/

theorem posFloat_accepts : Accepts posFloatSchema PosNumber := above_accepts
theorem posFloat_returns : Returns posFloatSchema PosFloat := above_returns

macro "leaf_accepts" : tactic => `(tactic| first
  | exact posFloat_accepts | exact accepts_of_same posInt_ok | exact orNone_accepts posFloat_accepts
  | exact orNone_accepts (accepts_of_same posInt_ok) | exact orNone_accepts useFloat_accepts | exact orNone_accepts (accepts_of_same positive_ok)
  | exact accepts_of_same positive_ok | exact above_accepts | exact accepts_of_same ducy_ok | exact accepts_of_same format_ok
  | exact accepts_of_same str_ok | exact accepts_of_same bool_ok | exact orNone_accepts (accepts_of_same bool_ok))

macro "leaf_returns" : tactic => `(tactic| first
  | exact posFloat_returns | exact returns_of_same posInt_ok | exact orNone_returns posFloat_returns
  | exact orNone_returns (returns_of_same posInt_ok) | exact orNone_returns useFloat_returns | exact orNone_returns (returns_of_same positive_ok)
  | exact returns_of_same positive_ok | exact above_returns | exact returns_of_same ducy_ok | exact returns_of_same format_ok
  | exact returns_of_same str_ok | exact returns_of_same bool_ok | exact orNone_returns (returns_of_same bool_ok))

macro "leaf_preserves" : tactic => `(tactic| first
  | exact above_preserves | exact preserves_of_same posInt_ok | exact orNone_preserves above_preserves
  | exact orNone_preserves (preserves_of_same posInt_ok) | exact orNone_preserves useFloat_preserves
  | exact orNone_preserves (preserves_of_same positive_ok) | exact preserves_of_same positive_ok | exact preserves_of_same ducy_ok
  | exact preserves_of_same format_ok | exact preserves_of_same str_ok | exact preserves_of_same bool_ok
  | exact orNone_preserves (preserves_of_same bool_ok))

theorem sameFields_nil {α β : Type _} {R : α → β → Prop} : SameFields R [] [] := List.Forall₂.nil

theorem sameFields_cons {α β : Type _} {R : α → β → Prop} {k : String} {o : Bool} {x : α} {y : β} {a : List (String × Bool × α)}
    {b : List (String × Bool × β)} (h : R x y) (h' : SameFields R a b) : SameFields R ((k, o, x) :: a) ((k, o, y) :: b) :=
  List.Forall₂.cons ⟨rfl, rfl, h⟩ h'

/-- Sections all the values of which are leaves. -/
macro "section_accepts" : tactic => `(tactic| (
  refine dict_accepts ?_ (by simp)
  repeat (first | exact sameFields_nil | refine sameFields_cons (by leaf_accepts) ?_)))

macro "section_returns" : tactic => `(tactic| (
  refine dict_returns ?_
  repeat (first | exact sameFields_nil | refine sameFields_cons (by leaf_returns) ?_)))

theorem ffaSearch_accepts : Accepts ffaSearchSchema FfaSearchConf := by
  unfold ffaSearchSchema FfaSearchConf; section_accepts

theorem findPeaks_accepts : Accepts findPeaksSchema FindPeaksConf := by
  unfold findPeaksSchema FindPeaksConf; section_accepts

theorem searchRange_accepts : Accepts searchRangeSchema (RangeConf FindPeaksConf PosInt) := by
  unfold searchRangeSchema RangeConf
  refine dict_accepts ?_ (by simp)
  refine sameFields_cons (by leaf_accepts) (sameFields_cons ffaSearch_accepts (sameFields_cons findPeaks_accepts
    (sameFields_cons ?_ sameFields_nil)))
  section_accepts

/-- **C55**: the validator accepts exactly the configurations described by `PipelineConf`, and raises `InvalidPipelineConfig` for all
others. -/
theorem C55_accepts (conf : PyVal) : ((∃ w, validatePipelineConfig conf = .ok w) ↔ PipelineConf FindPeaksConf PosInt conf) ∧
    (¬ PipelineConf FindPeaksConf PosInt conf → validatePipelineConfig conf = .error .invalidPipelineConfig) := by
  have h : Accepts pipelineConfigSchema (PipelineConf FindPeaksConf PosInt) := by
    unfold pipelineConfigSchema PipelineConf
    refine dict_accepts ?_ (by simp)
    refine sameFields_cons (by leaf_accepts) (sameFields_cons (by section_accepts) (sameFields_cons (by section_accepts)
      (sameFields_cons (by section_accepts) (sameFields_cons (list_accepts searchRange_accepts) (sameFields_cons (by section_accepts)
      (sameFields_cons (by section_accepts) (sameFields_cons (by section_accepts) (sameFields_cons (by leaf_accepts) sameFields_nil))))))))
  have hv := h conf
  unfold validatePipelineConfig
  cases hs : pipelineConfigSchema conf with
  | ok w => rw [hs] at hv; simp only at hv ⊢
            exact ⟨⟨fun _ => hv.1 ⟨w, rfl⟩, fun _ => ⟨w, rfl⟩⟩, fun hn => absurd (hv.1 ⟨w, rfl⟩) hn⟩
  | error e =>
    rw [hs] at hv
    refine ⟨⟨?_, ?_⟩, fun _ => rfl⟩
    · rintro ⟨w, hw⟩; cases hw
    · intro hp; obtain ⟨w, hw⟩ := hv.2 hp; cases hw

/-- **C55**: the fields of a validated configuration have the types that the pipeline expects; only `clrad` can be `None` where a
number is expected, and `dmsinb_max`, `rmed_width`, `rmed_minpts` and `radius` are positive numbers of any type. -/
theorem C55_types {conf w : PyVal} (h : validatePipelineConfig conf = .ok w) : ValidatedConf w := by
  have hr : Returns pipelineConfigSchema ValidatedConf := by
    unfold pipelineConfigSchema ValidatedConf
    refine dict_returns ?_
    refine sameFields_cons (by leaf_returns) (sameFields_cons (by section_returns) (sameFields_cons (by section_returns)
      (sameFields_cons (by section_returns) (sameFields_cons (list_returns ?_) (sameFields_cons (by section_returns)
      (sameFields_cons (by section_returns) (sameFields_cons (by section_returns) (sameFields_cons (by leaf_returns) sameFields_nil))))))))
    unfold searchRangeSchema
    refine dict_returns ?_
    refine sameFields_cons (by leaf_returns) (sameFields_cons ?_ (sameFields_cons ?_ (sameFields_cons ?_ sameFields_nil)))
    · unfold ffaSearchSchema; section_returns
    · unfold findPeaksSchema; section_returns
    · section_returns
  unfold validatePipelineConfig at h
  cases hs : pipelineConfigSchema conf with
  | ok u => rw [hs] at h; cases h; exact hr conf w hs
  | error e => rw [hs] at h; cases h

macro "section_preserves" : tactic => `(tactic| (
  refine dict_preserves ?_
  simp only [List.forall_mem_cons, List.not_mem_nil, false_imp_iff, implies_true, and_true]
  repeat' apply And.intro
  all_goals (first | leaf_preserves | skip)))

/-- **C55**: validation changes nothing but the type of numbers. -/
theorem C55_values {conf w : PyVal} (h : validatePipelineConfig conf = .ok w) : numeric w = numeric conf := by
  have hr : Preserves pipelineConfigSchema := by
    unfold pipelineConfigSchema
    section_preserves
    · section_preserves
    · section_preserves
    · section_preserves
    · apply list_preserves
      unfold searchRangeSchema
      section_preserves
      · unfold ffaSearchSchema; section_preserves
      · unfold findPeaksSchema; section_preserves
      · section_preserves
    · section_preserves
    · section_preserves
    · section_preserves
  unfold validatePipelineConfig at h
  cases hs : pipelineConfigSchema conf with
  | ok u => rw [hs] at h; cases h; exact hr conf w hs
  | error e => rw [hs] at h; cases h

/-! ## Documented configurations -/

theorem section_refine {f f' : List (String × Bool × (PyVal → Prop))} {d : List (String × PyVal)} (h : Section f (.dict d))
    (h1 : ∀ k o P, (k, o, P) ∈ f → ∃ P', (k, o, P') ∈ f' ∧ ∀ x, (k, x) ∈ d → P x → P' x)
    (h2 : ∀ k P', (k, false, P') ∈ f' → ∃ P, (k, false, P) ∈ f) : Section f' (.dict d) := by
  obtain ⟨d', hd, h3, h4⟩ := h
  cases hd
  refine ⟨d, rfl, ?_, ?_⟩
  · intro k x hx
    obtain ⟨o, P, hP, hPx⟩ := h3 k x hx
    obtain ⟨P', hP', himp⟩ := h1 k o P hP
    exact ⟨o, P', hP', himp x hx hPx⟩
  · intro k P' hP'
    obtain ⟨P, hP⟩ := h2 k P' hP'
    exact h4 k P hP

/-- **C55** (partial): a configuration that follows the comments of the example configuration is accepted, if in all ranges the
section `find_peaks` is not blank and `subints` is not null. Missing: both are documented as possible, see `C55_false`. -/
theorem C55_documented_partial {d : List (String × PyVal)} (h : Documented (.dict d))
    (hb : ∀ l r, ("ranges", .list l) ∈ d → .dict r ∈ l →
      ("find_peaks", .none) ∉ r ∧ ∀ c, ("candidates", .dict c) ∈ r → ("subints", .none) ∉ c) :
    ∃ w, validatePipelineConfig (.dict d) = .ok w := by
  rw [(C55_accepts _).1]
  unfold Documented PipelineConf at h
  unfold PipelineConf
  refine section_refine h ?_ ?_
  · intro k o P hP
    simp only [List.mem_cons, Prod.mk.injEq, List.not_mem_nil, or_false] at hP
    rcases hP with hP | hP | hP | hP | ⟨rfl, rfl, rfl⟩ | hP | hP | hP | hP
    on_goal 5 =>
      refine ⟨ListOf (RangeConf FindPeaksConf PosInt), by simp, ?_⟩
      rintro x hx ⟨l, rfl, hl⟩
      refine ⟨l, rfl, fun v hv => ?_⟩
      have hr := hl v hv
      unfold RangeConf at hr ⊢
      have hd : ∃ r, v = .dict r := by obtain ⟨r, hr, -⟩ := hr; exact ⟨r, hr⟩
      obtain ⟨r, rfl⟩ := hd
      obtain ⟨hb1, hb2⟩ := hb l r hx hv
      refine section_refine hr ?_ ?_
      · intro k o P hP
        simp only [List.mem_cons, Prod.mk.injEq, List.not_mem_nil, or_false] at hP
        rcases hP with hP | hP | ⟨rfl, rfl, rfl⟩ | ⟨rfl, rfl, rfl⟩
        · exact ⟨P, by simp [hP], fun x _ h => h⟩
        · exact ⟨P, by simp [hP], fun x _ h => h⟩
        · refine ⟨FindPeaksConf, by simp, ?_⟩
          rintro x hx (rfl | h)
          · exact absurd hx hb1
          · exact h
        · refine ⟨Section [("bins", false, PosInt), ("subints", false, PosInt)], by simp, ?_⟩
          intro x hx h
          have hd : ∃ r, x = .dict r := by obtain ⟨r, hr, -⟩ := h; exact ⟨r, hr⟩
          obtain ⟨c, rfl⟩ := hd
          refine section_refine h ?_ ?_
          · intro k o P hP
            simp only [List.mem_cons, Prod.mk.injEq, List.not_mem_nil, or_false] at hP
            rcases hP with hP | ⟨rfl, rfl, rfl⟩
            · exact ⟨P, by simp [hP], fun x _ h => h⟩
            · refine ⟨PosInt, by simp, ?_⟩
              rintro y hy (rfl | h)
              · exact absurd hy (hb2 c hx)
              · exact h
          · intro k P' hP'
            simp only [List.mem_cons, Prod.mk.injEq, List.not_mem_nil, or_false] at hP'
            rcases hP' with ⟨rfl, -, rfl⟩ | ⟨rfl, -, rfl⟩ <;> simp
      · intro k P' hP'
        simp only [List.mem_cons, Prod.mk.injEq, List.not_mem_nil, or_false] at hP'
        rcases hP' with ⟨rfl, -, rfl⟩ | ⟨rfl, -, rfl⟩ | ⟨rfl, -, rfl⟩ | ⟨rfl, -, rfl⟩ <;> simp
    all_goals
      exact ⟨P, by simp [hP], fun x _ h => h⟩
  · intro k P' hP'
    simp only [List.mem_cons, Prod.mk.injEq, List.not_mem_nil, or_false] at hP'
    rcases hP' with ⟨rfl, -, rfl⟩ | ⟨rfl, -, rfl⟩ | ⟨rfl, -, rfl⟩ | ⟨rfl, -, rfl⟩ | ⟨rfl, -, rfl⟩ | ⟨rfl, -, rfl⟩ | ⟨rfl, -, rfl⟩ |
      ⟨rfl, -, rfl⟩ | ⟨rfl, -, rfl⟩ <;> simp

/-- The example configuration with its first range only, and with other values of the section `find_peaks` and of `subints`. -/
def exampleConf (findPeaks subints : PyVal) : PyVal := .dict [
  ("processes", .int 4),
  ("data", .dict [("format", .str "presto"), ("fmin", .none), ("fmax", .none), ("nchans", .none)]),
  ("dmselect", .dict [("min", .float (.fin 0)), ("max", .float (.fin 1000)), ("dmsinb_max", .float (.fin 45))]),
  ("dereddening", .dict [("rmed_width", .float (.fin 5)), ("rmed_minpts", .int 101)]),
  ("ranges", .list [.dict [("name", .str "short"),
    ("ffa_search", .dict [("period_min", .float (.fin (1 / 5))), ("period_max", .float (.fin (1 / 2))), ("bins_min", .int 240),
      ("bins_max", .int 260), ("fpmin", .int 8), ("wtsp", .float (.fin (3 / 2)))]),
    ("find_peaks", findPeaks),
    ("candidates", .dict [("bins", .int 256), ("subints", subints)])]]),
  ("clustering", .dict [("radius", .float (.fin (1 / 5)))]),
  ("harmonic_flagging", .dict [("denom_max", .int 100), ("phase_distance_max", .float (.fin 1)), ("dm_distance_max", .float (.fin 3)),
    ("snr_distance_max", .float (.fin 3))]),
  ("candidate_filters", .dict [("dm_min", .none), ("snr_min", .float (.fin 7)), ("remove_harmonics", .bool true), ("max_number", .none)]),
  ("plot_candidates", .bool false)]

/-- The example configuration is accepted, and not changed. -/
example : validatePipelineConfig (exampleConf (.dict [("smin", .float (.fin 6))]) (.int 32)) =
    .ok (exampleConf (.dict [("smin", .float (.fin 6))]) (.int 32)) := by with_unfolding_all rfl

/-- Integers become numbers. -/
example : validatePipelineConfig (exampleConf (.dict [("smin", .int 6), ("nstd", .str "5")]) (.int 32)) =
    .ok (exampleConf (.dict [("smin", .float (.fin 6)), ("nstd", .float (.fin 5))]) (.int 32)) := by with_unfolding_all rfl

/-- An unknown key, and a missing one. -/
example : validatePipelineConfig (exampleConf (.dict [("snrmin", .int 6)]) (.int 32)) = .error .invalidPipelineConfig := by with_unfolding_all rfl
example : validatePipelineConfig (.dict [("processes", .int 4)]) = .error .invalidPipelineConfig := by with_unfolding_all rfl

/-- A schema for what the comments of the example configuration allow; only used to check that concrete configurations are documented. -/
def documentedSchema : SchemaFn := schemaDict [
  ("processes", false, posIntSchema),
  ("data", false, schemaDict [("format", false, formatSchema), ("fmin", false, schemaOr posFloatSchema schemaNone),
    ("fmax", false, schemaOr posFloatSchema schemaNone), ("nchans", false, schemaOr posIntSchema schemaNone)]),
  ("dmselect", false, schemaDict [("min", false, schemaOr schemaUseFloat schemaNone), ("max", false, schemaOr schemaUseFloat schemaNone),
    ("dmsinb_max", false, schemaOr strictlyPositive schemaNone)]),
  ("dereddening", false, schemaDict [("rmed_width", false, strictlyPositive), ("rmed_minpts", false, strictlyPositive)]),
  ("ranges", false, schemaList (schemaDict [("name", false, schemaStr), ("ffa_search", false, ffaSearchSchema),
    ("find_peaks", false, schemaOr findPeaksSchema schemaNone),
    ("candidates", false, schemaDict [("bins", false, posIntSchema), ("subints", false, schemaOr posIntSchema schemaNone)])])),
  ("clustering", false, schemaDict [("radius", false, strictlyPositive)]),
  ("harmonic_flagging", false, schemaDict [("denom_max", false, posIntSchema), ("phase_distance_max", false, posFloatSchema),
    ("dm_distance_max", false, posFloatSchema), ("snr_distance_max", false, posFloatSchema)]),
  ("candidate_filters", false, schemaDict [("dm_min", false, schemaOr schemaUseFloat schemaNone),
    ("snr_min", false, schemaOr schemaUseFloat schemaNone), ("remove_harmonics", false, schemaOr schemaBool schemaNone),
    ("max_number", false, schemaOr posIntSchema schemaNone)]),
  ("plot_candidates", false, schemaBool)]

theorem documented_accepts : Accepts documentedSchema Documented := by
  unfold documentedSchema Documented PipelineConf
  refine dict_accepts ?_ (by simp)
  refine sameFields_cons (by leaf_accepts) (sameFields_cons (by section_accepts) (sameFields_cons (by section_accepts)
    (sameFields_cons (by section_accepts) (sameFields_cons (list_accepts ?_) (sameFields_cons (by section_accepts)
    (sameFields_cons (by section_accepts) (sameFields_cons (by section_accepts) (sameFields_cons (by leaf_accepts) sameFields_nil))))))))
  unfold RangeConf
  refine dict_accepts ?_ (by simp)
  refine sameFields_cons (by leaf_accepts) (sameFields_cons ffaSearch_accepts (sameFields_cons (orNone_accepts findPeaks_accepts)
    (sameFields_cons ?_ sameFields_nil)))
  section_accepts

/-- The hypotheses of `C55_documented_partial` hold for the example configuration. -/
example : ∃ d, exampleConf (.dict [("smin", .float (.fin 6))]) (.int 32) = .dict d ∧ Documented (.dict d) ∧
    ∀ l r, ("ranges", .list l) ∈ d → .dict r ∈ l →
      ("find_peaks", .none) ∉ r ∧ ∀ c, ("candidates", .dict c) ∈ r → ("subints", .none) ∉ c := by
  refine ⟨_, rfl, (documented_accepts _).1 ⟨exampleConf (.dict [("smin", .float (.fin 6))]) (.int 32), by with_unfolding_all rfl⟩, ?_⟩
  intro l r hl hr
  simp at hl
  subst hl
  simp at hr
  subst hr
  simp

/-- **C55** is false: the example configuration with the section `find_peaks` left blank, or with `subints: null`, is documented as
valid and is rejected. -/
theorem C55_false : (∃ conf, Documented conf ∧ conf = exampleConf .none (.int 32) ∧
      validatePipelineConfig conf = .error .invalidPipelineConfig) ∧
    ∃ conf, Documented conf ∧ conf = exampleConf (.dict [("smin", .float (.fin 6))]) .none ∧
      validatePipelineConfig conf = .error .invalidPipelineConfig := by
  constructor
  · exact ⟨_, (documented_accepts _).1 ⟨exampleConf .none (.int 32), by with_unfolding_all rfl⟩, rfl, by with_unfolding_all rfl⟩
  · exact ⟨_, (documented_accepts _).1 ⟨exampleConf (.dict [("smin", .float (.fin 6))]) .none, by with_unfolding_all rfl⟩, rfl,
      by with_unfolding_all rfl⟩

/-- **C55** is false in the second part too: a configuration with `clrad: null` is accepted, and the peak search then divides
`None` by the length of the data. -/
theorem C55_clrad_crash {tobs : ℚ} : validatePipelineConfig (exampleConf (.dict [("clrad", .none)]) (.int 32)) =
      .ok (exampleConf (.dict [("clrad", .none)]) (.int 32)) ∧
    clusterRadius [("clrad", .none)] tobs = .error .typeError := by
  constructor
  · with_unfolding_all rfl
  · rfl

/-- **C55**: the only way in which the use of `clrad` can fail for an accepted configuration is `clrad: null`. -/
theorem C55_clrad {fp w : PyVal} (h : findPeaksSchema fp = .ok w) : ∃ d, w = .dict d ∧
    ((∀ tobs, ∃ x, clusterRadius d tobs = .ok x) ∨ dictGet d "clrad" = some .none) := by
  have hr : Returns findPeaksSchema (Section [("smin", true, PosFloat), ("segwidth", true, PosFloat), ("nstd", true, PosFloat),
      ("minseg", true, PosInt), ("polydeg", true, PosFloat), ("clrad", true, OrBlank PosFloat)]) := by
    unfold findPeaksSchema; section_returns
  obtain ⟨d, rfl, h1, -⟩ := hr fp w h
  refine ⟨d, rfl, ?_⟩
  cases hd : dictGet d "clrad" with
  | none => left; intro tobs; unfold clusterRadius; rw [hd]; exact ⟨_, rfl⟩
  | some x =>
    obtain ⟨o, P, hP, hx⟩ := h1 _ _ (dictGet_mem hd)
    simp at hP
    obtain ⟨-, rfl⟩ := hP
    rcases hx with rfl | ⟨y, rfl, -⟩
    · right; rfl
    · left; intro tobs; unfold clusterRadius; rw [hd]
      cases y <;> exact ⟨_, rfl⟩

/-- Non-vacuity: a section with a radius. -/
example : ∃ w, findPeaksSchema (.dict [("clrad", .float (.fin (1 / 10)))]) = .ok w := ⟨.dict [("clrad", .float (.fin (1 / 10)))], by with_unfolding_all rfl⟩

end Verif.Props
