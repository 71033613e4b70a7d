import Verif.Props.Processes

/-!
# C140: the order of the entries of the configuration does not matter
-/

namespace Verif.Spec

open Verif.Model

/-- Two objects that differ only in the order of the entries of dictionaries, also of those inside. -/
inductive SameEntries : PyVal → PyVal → Prop
  | refl (v : PyVal) : SameEntries v v
  | list (l l' : List PyVal) (len : l.length = l'.length) (elem : ∀ (i : ℕ) v v', l[i]? = some v → l'[i]? = some v' → SameEntries v v') : SameEntries (.list l) (.list l')
  | dict (d d' : List (String × PyVal)) (nodup : (d.map Prod.fst).Nodup) (nodup' : (d'.map Prod.fst).Nodup) (keys : ∀ k, (dictGet d k).isSome = (dictGet d' k).isSome)
      (value : ∀ k v v', dictGet d k = some v → dictGet d' k = some v' → SameEntries v v') : SameEntries (.dict d) (.dict d')

/-- Two YAML documents that differ only in the order of the entries of mappings. -/
inductive SameNodes : YamlNode → YamlNode → Prop
  | refl (n : YamlNode) : SameNodes n n
  | seq (l l' : List YamlNode) (len : l.length = l'.length) (elem : ∀ (i : ℕ) n n', l[i]? = some n → l'[i]? = some n' → SameNodes n n') : SameNodes (.seq l) (.seq l')
  | map (m m' : List (String × YamlNode)) (nodup : (m.map Prod.fst).Nodup) (nodup' : (m'.map Prod.fst).Nodup) (keys : ∀ k, (dictGet m k).isSome = (dictGet m' k).isSome)
      (value : ∀ k n n', dictGet m k = some n → dictGet m' k = some n' → SameNodes n n') : SameNodes (.map m) (.map m')

end Verif.Spec

namespace Verif.Props

open Verif.Model Verif.Spec Verif.Lemmas

theorem _root_.Verif.Spec.SameEntries.symm {v w : PyVal} (h : SameEntries v w) : SameEntries w v := by
  induction h with
  | refl v => exact .refl v
  | list l l' len _ ih => exact .list l' l len.symm fun i v v' h h' => ih i v' v h' h
  | dict d d' n n' keys _ ih => exact .dict d' d n' n (fun k => (keys k).symm) fun k v v' h h' => ih k v' v h' h

theorem _root_.Verif.Spec.SameNodes.symm {n n' : YamlNode} (h : SameNodes n n') : SameNodes n' n := by
  induction h with
  | refl v => exact .refl v
  | seq l l' len _ ih => exact .seq l' l len.symm fun i v v' h h' => ih i v' v h' h
  | map d d' n n' keys _ ih => exact .map d' d n' n (fun k => (keys k).symm) fun k v v' h h' => ih k v' v h' h

/-- The entries of two dictionaries. -/
structure DictRel (d d' : List (String × PyVal)) : Prop where
  keys : ∀ k, (dictGet d k).isSome = (dictGet d' k).isSome
  value : ∀ k v v', dictGet d k = some v → dictGet d' k = some v' → SameEntries v v'

theorem DictRel.refl (d : List (String × PyVal)) : DictRel d d :=
  ⟨fun _ => rfl, fun k v v' h h' => by rw [h] at h'; cases h'; exact .refl v⟩

theorem DictRel.get {d d' : List (String × PyVal)} (h : DictRel d d') (k : String) :
    (dictGet d k = none ∧ dictGet d' k = none) ∨ ∃ v v', dictGet d k = some v ∧ dictGet d' k = some v' ∧ SameEntries v v' := by
  have h1 := h.keys k
  rcases e : dictGet d k with _ | v <;> rcases e' : dictGet d' k with _ | v'
  · exact .inl ⟨rfl, rfl⟩
  · rw [e, e'] at h1
    cases h1
  · rw [e, e'] at h1
    cases h1
  · exact .inr ⟨v, v', rfl, rfl, h.value k v v' e e'⟩

/-! ## Schemas -/

/-- A schema that does not depend on the order of the entries. -/
def Respects (s : SchemaFn) : Prop := ∀ v v', SameEntries v v' → ∀ w, s v = .ok w → ∃ w', s v' = .ok w' ∧ SameEntries w w'

/-- A function of objects that are neither lists nor dictionaries, or that is the same for all those. -/
def OnLeaves {β : Type*} (f : PyVal → β) : Prop := ∀ v v', SameEntries v v' → f v = f v'

theorem onLeaves {β : Type*} {f : PyVal → β} {b : β} (hl : ∀ l, f (.list l) = b) (hd : ∀ d, f (.dict d) = b) : OnLeaves f := by
  intro v v' h
  cases h with
  | refl => rfl
  | list l l' => rw [hl, hl]
  | dict d d' => rw [hd, hd]

theorem respects_leaf {s : SchemaFn} (h : OnLeaves s) : Respects s := fun v v' hv w hw => ⟨w, by rw [← h v v' hv, hw], .refl w⟩

theorem respects_and {a b : SchemaFn} (ha : Respects a) (hb : Respects b) : Respects (schemaAnd a b) := by
  intro v v' hv w hw
  obtain ⟨u, h1, h2⟩ := bind_ok_inv hw
  obtain ⟨u', h3, h4⟩ := ha v v' hv u h1
  obtain ⟨w', h5, h6⟩ := hb u u' h4 w h2
  refine ⟨w', ?_, h6⟩
  unfold schemaAnd
  rw [h3]
  exact h5

theorem respects_or {a b : SchemaFn} (ha : Respects a) (hb : Respects b) : Respects (schemaOr a b) := by
  intro v v' hv w hw
  unfold schemaOr at hw ⊢
  rcases e : a v with er | u
  · rcases e' : a v' with er' | u'
    · rw [e] at hw
      exact hb v v' hv w hw
    · obtain ⟨x, h1, -⟩ := ha v' v hv.symm u' e'
      rw [h1] at e
      cases e
  · rw [e] at hw
    cases hw
    obtain ⟨u', h1, h2⟩ := ha v v' hv w e
    rw [h1]
    exact ⟨u', rfl, h2⟩

theorem respects_pred {p : PyVal → Except PyErr Bool} (h : OnLeaves p) : Respects (schemaPred p) := by
  intro v v' hv w hw
  unfold schemaPred at hw ⊢
  rw [← h v v' hv]
  rcases e : p v with er | b
  · rw [e] at hw
    cases hw
  · rw [e] at hw
    cases b
    · cases hw
    · cases hw
      exact ⟨v', rfl, hv⟩

theorem schemaElements_rel {s : SchemaFn} (hs : Respects s) : ∀ {l l' : List PyVal}, l.length = l'.length → (∀ (i : ℕ) v v', l[i]? = some v → l'[i]? = some v' → SameEntries v v') →
    ∀ {r}, schemaElements s l = .ok r → ∃ r', schemaElements s l' = .ok r' ∧ r.length = r'.length ∧ ∀ (i : ℕ) v v', r[i]? = some v → r'[i]? = some v' → SameEntries v v'
  | [], [], _, _, r, h => by
    cases h
    exact ⟨[], rfl, rfl, fun i v v' h => by simp at h⟩
  | [], _ :: _, hl, _, _, _ => by cases hl
  | _ :: _, [], hl, _, _, _ => by cases hl
  | v :: l, v' :: l', hl, he, r, h => by
    rw [schemaElements] at h
    obtain ⟨w, h1, h⟩ := bind_ok_inv h
    obtain ⟨r1, h2, rfl⟩ := map_ok_inv h
    obtain ⟨w', h3, h4⟩ := hs v v' (he 0 v v' rfl rfl) w h1
    obtain ⟨r1', h5, h6, h7⟩ := schemaElements_rel hs (by simpa using hl) (fun i x x' hx hx' => he (i + 1) x x' hx hx') h2
    refine ⟨w' :: r1', ?_, by simp [h6], fun i x x' hx hx' => ?_⟩
    · rw [schemaElements, h3, h5]
      rfl
    · cases i with
      | zero =>
        cases hx
        cases hx'
        exact h4
      | succ i => exact h7 i x x' hx hx'

theorem respects_list {s : SchemaFn} (hs : Respects s) : Respects (schemaList s) := by
  intro v v' hv w hw
  cases hv with
  | refl => exact ⟨w, hw, .refl w⟩
  | list l l' len elem =>
    obtain ⟨r, h1, rfl⟩ := map_ok_inv hw
    obtain ⟨r', h2, h3, h4⟩ := schemaElements_rel hs len elem h1
    exact ⟨.list r', by simp only [schemaList, h2]; rfl, .list r r' h3 h4⟩
  | dict d d' => cases hw

theorem dictGet_none {β : Type*} {d : List (String × β)} {k : String} (h : k ∉ d.map Prod.fst) : dictGet d k = none := by
  induction d with
  | nil => rfl
  | cons x d ih =>
    rw [List.map_cons, List.mem_cons, not_or] at h
    rw [dictGet, if_neg (Ne.symm h.1)]
    exact ih h.2

theorem schemaItems_inv {items : List (String × Bool × SchemaFn)} : ∀ {d r : List (String × PyVal)}, schemaItems items d = .ok r →
    r.map Prod.fst = d.map Prod.fst ∧ ∀ k, (dictGet d k = none ∧ dictGet r k = none) ∨ ∃ v s w, dictGet d k = some v ∧ schemaLookup items k = some s ∧ s v = .ok w ∧ dictGet r k = some w
  | [], r, h => by
    cases h
    exact ⟨rfl, fun k => .inl ⟨rfl, rfl⟩⟩
  | (k', v') :: d, r, h => by
    simp only [schemaItems] at h
    rcases e : schemaLookup items k' with _ | s'
    · rw [e] at h
      cases h
    rw [e] at h
    simp only at h
    obtain ⟨w', h1, h⟩ := bind_ok_inv h
    obtain ⟨r', h2, rfl⟩ := map_ok_inv h
    obtain ⟨h3, h4⟩ := schemaItems_inv h2
    refine ⟨by rw [List.map_cons, List.map_cons, h3], fun k => ?_⟩
    by_cases hk : k' = k
    · subst hk
      exact .inr ⟨v', s', w', by rw [dictGet, if_pos rfl], e, h1, by rw [dictGet, if_pos rfl]⟩
    · rw [dictGet, dictGet, if_neg hk, if_neg hk]
      exact h4 k

theorem schemaItems_total {items : List (String × Bool × SchemaFn)} : ∀ {d : List (String × PyVal)}, (d.map Prod.fst).Nodup →
    (∀ k v, dictGet d k = some v → ∃ s w, schemaLookup items k = some s ∧ s v = .ok w) → ∃ r, schemaItems items d = .ok r
  | [], _, _ => ⟨[], rfl⟩
  | (k', v') :: d, hn, h => by
    rw [List.map_cons, List.nodup_cons] at hn
    obtain ⟨s, w, h1, h2⟩ := h k' v' (by rw [dictGet, if_pos rfl])
    obtain ⟨r, h3⟩ := schemaItems_total hn.2 fun k v hk => h k v (by
      rw [dictGet, if_neg ?_]
      · exact hk
      · rintro rfl
        rw [dictGet_none hn.1] at hk
        cases hk)
    refine ⟨(k', w) :: r, ?_⟩
    simp only [schemaItems]
    rw [h1]
    simp only
    rw [h2, h3]
    rfl

theorem respects_dict {items : List (String × Bool × SchemaFn)} (hs : ∀ it ∈ items, Respects it.2.2) : Respects (schemaDict items) := by
  have hlook : ∀ {k s}, schemaLookup items k = some s → Respects s := by
    intro k s h
    unfold schemaLookup at h
    rcases e : items.find? (fun it => it.1 = k) with _ | it
    · rw [e] at h
      cases h
    · rw [e] at h
      cases h
      exact hs it (List.mem_of_find?_eq_some e)
  intro v v' hv w hw
  cases hv with
  | refl => exact ⟨w, hw, .refl w⟩
  | list l l' => cases hw
  | dict d d' n n' keys value =>
    have hrel : DictRel d d' := ⟨keys, value⟩
    unfold schemaDict at hw ⊢
    simp only at hw ⊢
    obtain ⟨r, h1, h2⟩ := bind_ok_inv hw
    split_ifs at h2 with hall
    cases h2
    obtain ⟨k1, k2⟩ := schemaItems_inv h1
    obtain ⟨r', h3⟩ := schemaItems_total (items := items) n' fun k v hk => by
      rcases hrel.get k with ⟨-, h⟩ | ⟨x, x', g1, g2, g3⟩
      · rw [h] at hk
        cases hk
      rw [g2] at hk
      cases hk
      rcases k2 k with ⟨h, -⟩ | ⟨y, s, u, m1, m2, m3, -⟩
      · rw [h] at g1
        cases g1
      rw [m1] at g1
      cases g1
      obtain ⟨u', m5, -⟩ := hlook m2 _ _ g3 u m3
      exact ⟨s, u', m2, m5⟩
    obtain ⟨k1', k2'⟩ := schemaItems_inv h3
    refine ⟨.dict r', ?_, .dict r r' (k1 ▸ n) (k1' ▸ n') (fun k => ?_) fun k u u' hu hu' => ?_⟩
    · rw [h3]
      simp only [Except.bind]
      rw [if_pos]
      rw [List.all_eq_true] at hall ⊢
      intro it hit
      rw [← keys]
      exact hall it hit
    · have := keys k
      rcases k2 k with ⟨g1, g2⟩ | ⟨x, s, y, g1, -, -, g2⟩ <;> rcases k2' k with ⟨g1', g2'⟩ | ⟨x', s', y', g1', -, -, g2'⟩ <;> rw [g1, g1'] at this <;> rw [g2, g2'] <;>
        first | rfl | cases this
    · rcases k2 k with ⟨-, g2⟩ | ⟨x, s, y, g1, g3, g4, g2⟩
      · rw [g2] at hu
        cases hu
      rcases k2' k with ⟨-, g2'⟩ | ⟨x', s', y', g1', g3', g4', g2'⟩
      · rw [g2'] at hu'
        cases hu'
      rw [g2] at hu
      rw [g2'] at hu'
      cases hu
      cases hu'
      rw [g3] at g3'
      cases g3'
      obtain ⟨z, m1, m2⟩ := hlook g3 _ _ (value k x x' g1 g1') u g4
      rw [m1] at g4'
      cases g4'
      exact m2

theorem respects_int : Respects schemaInt := respects_leaf (onLeaves (fun _ => rfl) fun _ => rfl)
theorem respects_float : Respects schemaFloat := respects_leaf (onLeaves (fun _ => rfl) fun _ => rfl)
theorem respects_str : Respects schemaStr := respects_leaf (onLeaves (fun _ => rfl) fun _ => rfl)
theorem respects_bool : Respects schemaBool := respects_leaf (onLeaves (fun _ => rfl) fun _ => rfl)
theorem respects_none : Respects schemaNone := respects_leaf (onLeaves (fun _ => rfl) fun _ => rfl)
theorem respects_useFloat : Respects schemaUseFloat := respects_leaf (onLeaves (fun _ => rfl) fun _ => rfl)
theorem respects_greater (a : ℚ) : Respects (schemaPred (greaterThan a)) := respects_pred (onLeaves (fun _ => rfl) fun _ => rfl)
theorem respects_less (a : ℚ) : Respects (schemaPred (lessThan a)) := respects_pred (onLeaves (fun _ => rfl) fun _ => rfl)
theorem respects_positive : Respects strictlyPositive := respects_greater 0
theorem respects_posInt : Respects posIntSchema := respects_and respects_int respects_positive
theorem respects_posFloat : Respects posFloatSchema := respects_and respects_useFloat respects_positive
theorem respects_format : Respects formatSchema := respects_pred (onLeaves (fun _ => rfl) fun _ => rfl)

theorem respects_ffaSearch : Respects ffaSearchSchema := respects_dict (by
  simp only [List.mem_cons, List.not_mem_nil, or_false, forall_eq_or_imp, forall_eq]
  exact ⟨respects_posFloat, respects_posFloat, respects_posInt, respects_posInt, respects_posInt, respects_and respects_useFloat (respects_greater 1),
    respects_and respects_float (respects_and (respects_greater 0) (respects_less 1))⟩)

theorem respects_findPeaks : Respects findPeaksSchema := respects_dict (by
  simp only [List.mem_cons, List.not_mem_nil, or_false, forall_eq_or_imp, forall_eq]
  exact ⟨respects_posFloat, respects_posFloat, respects_posFloat, respects_posInt, respects_posFloat, respects_or respects_posFloat respects_none⟩)

theorem respects_searchRange : Respects searchRangeSchema := respects_dict (by
  simp only [List.mem_cons, List.not_mem_nil, or_false, forall_eq_or_imp, forall_eq]
  refine ⟨respects_str, respects_ffaSearch, respects_findPeaks, respects_dict ?_⟩
  simp only [List.mem_cons, List.not_mem_nil, or_false, forall_eq_or_imp, forall_eq]
  exact ⟨respects_posInt, respects_posInt⟩)

theorem respects_pipelineConfig : Respects pipelineConfigSchema := respects_dict (by
  simp only [List.mem_cons, List.not_mem_nil, or_false, forall_eq_or_imp, forall_eq]
  refine ⟨respects_posInt, respects_dict ?_, respects_dict ?_, respects_dict ?_, respects_list respects_searchRange, respects_dict ?_, respects_dict ?_, respects_dict ?_, respects_bool⟩ <;>
    simp only [List.mem_cons, List.not_mem_nil, or_false, forall_eq_or_imp, forall_eq]
  · exact ⟨respects_format, respects_or respects_posFloat respects_none, respects_or respects_posFloat respects_none, respects_or respects_posInt respects_none⟩
  · exact ⟨respects_or respects_useFloat respects_none, respects_or respects_useFloat respects_none, respects_or respects_positive respects_none⟩
  · exact ⟨respects_positive, respects_positive⟩
  · exact respects_positive
  · exact ⟨respects_posInt, respects_posFloat, respects_posFloat, respects_posFloat⟩
  · exact ⟨respects_or respects_useFloat respects_none, respects_or respects_useFloat respects_none, respects_or respects_bool respects_none, respects_or respects_posInt respects_none⟩)

/-- **C140.** Whether a configuration is valid does not depend on the order of its entries; the validated configurations differ in the order of the entries only. -/
theorem C140_valid {conf conf' : PyVal} (h : SameEntries conf conf') :
    (∃ v v', validatePipelineConfig conf = .ok v ∧ validatePipelineConfig conf' = .ok v' ∧ SameEntries v v') ∨
      (validatePipelineConfig conf = .error .invalidPipelineConfig ∧ validatePipelineConfig conf' = .error .invalidPipelineConfig) := by
  unfold validatePipelineConfig
  rcases e : pipelineConfigSchema conf with er | w
  · rcases e' : pipelineConfigSchema conf' with er' | w'
    · exact .inr ⟨rfl, rfl⟩
    · obtain ⟨x, h1, -⟩ := respects_pipelineConfig _ _ h.symm w' e'
      rw [e] at h1
      cases h1
  · obtain ⟨w', h1, h2⟩ := respects_pipelineConfig _ _ h w e
    rw [h1]
    exact .inl ⟨w, w', rfl, rfl, h2⟩

/-! ## What is read from the configuration -/

theorem bind_pyDict {β : Type*} {v v' : PyVal} (h : SameEntries v v') {f g : List (String × PyVal) → Except PyErr β} (hfg : ∀ d d', DictRel d d' → f d = g d') :
    (pyDict v).bind f = (pyDict v').bind g := by
  cases h with
  | refl =>
    cases v <;> first | rfl | skip
    exact hfg _ _ (.refl _)
  | list => rfl
  | dict d d' n n' keys value => exact hfg _ _ ⟨keys, value⟩

theorem bind_required {β γ : Type*} {d d' : List (String × PyVal)} (h : DictRel d d') {conv : PyVal → Except PyErr β} (hc : OnLeaves conv) (k : String) {f g : β → Except PyErr γ}
    (hfg : ∀ x, f x = g x) : (required conv d k).bind f = (required conv d' k).bind g := by
  obtain rfl : f = g := funext hfg
  unfold required
  rcases h.get k with ⟨h1, h2⟩ | ⟨v, v', h1, h2, h3⟩
  · rw [h1, h2]
  · rw [h1, h2]
    simp only
    rw [hc v v' h3]

theorem bind_keyword {β γ : Type*} {d d' : List (String × PyVal)} (h : DictRel d d') {conv : PyVal → Except PyErr β} (hc : OnLeaves conv) (b : β) (k : String) {f g : β → Except PyErr γ}
    (hfg : ∀ x, f x = g x) : (keyword conv b d k).bind f = (keyword conv b d' k).bind g := by
  obtain rfl : f = g := funext hfg
  unfold keyword
  rcases h.get k with ⟨h1, h2⟩ | ⟨v, v', h1, h2, h3⟩
  · rw [h1, h2]
  · rw [h1, h2]
    simp only
    rw [hc v v' h3]

theorem bind_optionalArg {β γ : Type*} {d d' : List (String × PyVal)} (h : DictRel d d') {conv : PyVal → Except PyErr β} (hc : OnLeaves conv) (k : String) {f g : Option β → Except PyErr γ}
    (hfg : ∀ x, f x = g x) : (optionalArg conv d k).bind f = (optionalArg conv d' k).bind g := by
  obtain rfl : f = g := funext hfg
  unfold optionalArg
  rcases h.get k with ⟨h1, h2⟩ | ⟨v, v', h1, h2, h3⟩
  · rw [h1, h2]
  · rw [h1, h2]
    have := hc v v' h3
    cases h3 with
    | refl => rfl
    | list => simp only [this]
    | dict => simp only [this]

theorem bind_requiredDict {γ : Type*} {d d' : List (String × PyVal)} (h : DictRel d d') (k : String) {f g : List (String × PyVal) → Except PyErr γ}
    (hfg : ∀ x x', DictRel x x' → f x = g x') : (required pyDict d k).bind f = (required pyDict d' k).bind g := by
  unfold required
  rcases h.get k with ⟨h1, h2⟩ | ⟨v, v', h1, h2, h3⟩
  · rw [h1, h2]
    rfl
  · rw [h1, h2]
    exact bind_pyDict h3 hfg

theorem bind_requiredList {γ : Type*} {d d' : List (String × PyVal)} (h : DictRel d d') (k : String) {f g : List PyVal → Except PyErr γ}
    (hfg : ∀ l l', List.Forall₂ SameEntries l l' → f l = g l') : (required pyList d k).bind f = (required pyList d' k).bind g := by
  unfold required
  rcases h.get k with ⟨h1, h2⟩ | ⟨v, v', h1, h2, h3⟩
  · rw [h1, h2]
    rfl
  · rw [h1, h2]
    simp only
    cases h3 with
    | refl =>
      cases v <;> first | rfl | skip
      exact hfg _ _ (List.forall₂_same.mpr fun x _ => .refl x)
    | list l l' len elem =>
      refine hfg l l' (List.forall₂_iff_get.mpr ⟨len, fun i hi hi' => elem i _ _ ?_ ?_⟩)
      · simp
      · simp
    | dict => rfl

theorem mapM_rel {β : Type*} {f : PyVal → Except PyErr β} (hf : OnLeaves f) {l l' : List PyVal} (h : List.Forall₂ SameEntries l l') : l.mapM f = l'.mapM f := by
  induction h with
  | nil => rfl
  | cons h1 _ ih => rw [List.mapM_cons, List.mapM_cons, hf _ _ h1, ih]

theorem leaf_real : OnLeaves pyReal := onLeaves (fun _ => rfl) fun _ => rfl
theorem leaf_count : OnLeaves pyCount := onLeaves (fun _ => rfl) fun _ => rfl
theorem leaf_truth : OnLeaves Model.pyTruth := onLeaves (fun _ => rfl) fun _ => rfl
theorem leaf_format : OnLeaves pyFormat := onLeaves (fun _ => rfl) fun _ => rfl
theorem leaf_asBool : OnLeaves asBool := onLeaves (fun _ => rfl) fun _ => rfl

theorem searchRangeOf_rel : OnLeaves searchRangeOf := fun v v' h => by
  unfold searchRangeOf
  refine bind_pyDict h fun d d' hd => ?_
  refine bind_requiredDict hd _ fun s s' hs => ?_
  refine bind_requiredDict hd _ fun c c' hc => ?_
  refine bind_required hs leaf_real _ fun _ => ?_
  refine bind_required hs leaf_real _ fun _ => ?_
  refine bind_required hs leaf_count _ fun _ => ?_
  exact bind_required hc leaf_count _ fun _ => rfl

theorem searchArgsOf_rel {d d' : List (String × PyVal)} (h : DictRel d d') : searchArgsOf d = searchArgsOf d' := by
  unfold searchArgsOf
  refine bind_keyword h leaf_real _ _ fun _ => ?_
  refine bind_keyword h leaf_real _ _ fun _ => ?_
  refine bind_keyword h leaf_count _ _ fun _ => ?_
  refine bind_keyword h leaf_count _ _ fun _ => ?_
  refine bind_keyword h leaf_count _ _ fun _ => ?_
  refine bind_keyword h leaf_real _ _ fun _ => ?_
  exact bind_keyword h leaf_real _ _ fun _ => rfl

theorem peakParamsOf_rel {d d' : List (String × PyVal)} (h : DictRel d d') : peakParamsOf d = peakParamsOf d' := by
  unfold peakParamsOf
  refine bind_keyword h leaf_real _ _ fun _ => ?_
  refine bind_keyword h leaf_real _ _ fun _ => ?_
  refine bind_keyword h leaf_real _ _ fun _ => ?_
  refine bind_keyword h leaf_count _ _ fun _ => ?_
  exact bind_keyword h leaf_real _ _ fun _ => rfl

theorem rangeConfOf_rel : OnLeaves rangeConfOf := fun v v' h => by
  unfold rangeConfOf
  refine bind_pyDict h fun d d' hd => ?_
  refine bind_requiredDict hd _ fun s s' hs => ?_
  refine bind_requiredDict hd _ fun c c' hc => ?_
  rw [searchArgsOf_rel hs, peakParamsOf_rel hc]

theorem pipeRangeOf_rel : OnLeaves pipeRangeOf := fun v v' h => by
  unfold pipeRangeOf
  rw [rangeConfOf_rel v v' h]
  congr 1
  funext rc
  refine bind_pyDict h fun d d' hd => ?_
  refine bind_requiredDict hd _ fun s s' hs => ?_
  refine bind_required hs leaf_count _ fun _ => ?_
  exact bind_optionalArg hs leaf_count _ fun _ => rfl

theorem prepConfOf_rel : OnLeaves prepConfOf := fun v v' h => by
  unfold prepConfOf
  refine bind_pyDict h fun d d' hd => ?_
  refine bind_requiredDict hd _ fun s s' hs => ?_
  refine bind_requiredDict hd _ fun c c' hc => ?_
  refine bind_requiredList hd _ fun l l' hl => ?_
  refine bind_required hs leaf_format _ fun _ => ?_
  refine bind_optionalArg hs leaf_real _ fun _ => ?_
  refine bind_optionalArg hs leaf_real _ fun _ => ?_
  refine bind_optionalArg hs leaf_count _ fun _ => ?_
  refine bind_optionalArg hc leaf_real _ fun _ => ?_
  refine bind_optionalArg hc leaf_real _ fun _ => ?_
  refine bind_optionalArg hc leaf_real _ fun _ => ?_
  rw [mapM_rel searchRangeOf_rel hl]

theorem harmConfOf_rel {d d' : List (String × PyVal)} (h : DictRel d d') : harmConfOf d = harmConfOf d' := by
  unfold harmConfOf
  refine bind_required h leaf_count _ fun _ => ?_
  refine bind_required h leaf_real _ fun _ => ?_
  refine bind_required h leaf_real _ fun _ => ?_
  exact bind_required h leaf_real _ fun _ => rfl

theorem filtersOf_rel {d d' : List (String × PyVal)} (h : DictRel d d') : filtersOf d = filtersOf d' := by
  unfold filtersOf
  refine bind_optionalArg h leaf_real _ fun _ => ?_
  refine bind_optionalArg h leaf_real _ fun _ => ?_
  refine bind_required h leaf_truth _ fun _ => ?_
  exact bind_optionalArg h leaf_count _ fun _ => rfl

theorem runConfOf_rel : OnLeaves runConfOf := fun v v' h => by
  unfold runConfOf
  rw [prepConfOf_rel v v' h]
  congr 1
  funext prep
  refine bind_pyDict h fun d d' hd => ?_
  refine bind_required hd leaf_count _ fun _ => ?_
  refine bind_requiredDict hd _ fun s s' hs => ?_
  refine bind_required hs leaf_real _ fun _ => ?_
  refine bind_required hs leaf_count _ fun _ => ?_
  refine bind_requiredList hd _ fun l l' hl => ?_
  rw [mapM_rel pipeRangeOf_rel hl]
  congr 1
  funext ranges
  refine bind_requiredDict hd _ fun c c' hc => ?_
  refine bind_required hc leaf_real _ fun _ => ?_
  refine bind_requiredDict hd _ fun x x' hx => ?_
  rw [harmConfOf_rel hx]
  congr 1
  funext harm
  refine bind_requiredDict hd _ fun y y' hy => ?_
  rw [filtersOf_rel hy]

/-! ## Runs -/

/-- **C140.** A run of the pipeline does not depend on the order of the entries of its configuration. -/
theorem C140_run {conf conf' : PyVal} (h : SameEntries conf conf') (t : PipeTools) (ms : List FileMeta) (s : PoolSchedule) : pipelineRun t conf ms s = pipelineRun t conf' ms s := by
  unfold pipelineRun
  rcases C140_valid h with ⟨v, v', h1, h2, h3⟩ | ⟨h1, h2⟩
  · rw [h1, h2]
    simp only [Except.bind]
    rw [runConfOf_rel v v' h3]
  · rw [h1, h2]

/-- C140, with the files that are read. -/
theorem C140_files {conf conf' : PyVal} (h : SameEntries conf conf') (D : Disk) (t : PipeTools) (files : List (List Char)) (s : PoolSchedule) :
    pipelineFiles D t conf files s = pipelineFiles D t conf' files s := by
  unfold pipelineFiles
  rcases C140_valid h with ⟨v, v', h1, h2, h3⟩ | ⟨h1, h2⟩
  · rw [h1, h2]
    simp only [Except.bind]
    rw [runConfOf_rel v v' h3]
    simp only [C140_run h]
  · rw [h1, h2]
    rfl

theorem saveConf_rel {conf conf' : PyVal} (h : SameEntries conf conf') : saveConfOf conf = saveConfOf conf' := by
  unfold saveConfOf
  rcases C140_valid h with ⟨v, v', h1, h2, h3⟩ | ⟨h1, h2⟩
  · rw [h1, h2]
    simp only [Except.bind]
    refine bind_pyDict h3 fun d d' hd => ?_
    refine bind_required hd leaf_count _ fun n => ?_
    unfold required
    rcases hd.get "plot_candidates" with ⟨g1, g2⟩ | ⟨x, x', g1, g2, g3⟩
    · rw [g1, g2]
    · rw [g1, g2]
      simp only
      rw [leaf_asBool x x' g3]
  · rw [h1, h2]

/-! ## The configuration file -/

theorem dictGet_mem' {β : Type*} : ∀ {d : List (String × β)}, (d.map Prod.fst).Nodup → ∀ p, p ∈ d ↔ dictGet d p.1 = some p.2
  | [], _, p => by simp [dictGet]
  | (k, v) :: d, hn, p => by
    rw [List.map_cons, List.nodup_cons] at hn
    rw [List.mem_cons, dictGet]
    by_cases hk : k = p.1
    · rw [if_pos hk]
      constructor
      · rintro (rfl | h)
        · rfl
        · exact absurd (List.mem_map.mpr ⟨p, h, hk.symm⟩) hn.1
      · intro h
        cases h
        exact .inl (by rw [hk])
    · rw [if_neg hk, ← dictGet_mem' hn.2 p]
      constructor
      · rintro (rfl | h)
        · exact absurd rfl hk
        · exact h
      · exact .inr

theorem dictSet_nodup {d : List (String × PyVal)} {k : String} {v : PyVal} (h : (d.map Prod.fst).Nodup) : ((dictSet d k v).map Prod.fst).Nodup := by
  have hmem : ∀ (d : List (String × PyVal)) x, x ∈ (dictSet d k v).map Prod.fst → x ∈ d.map Prod.fst ∨ x = k := by
    intro d
    induction d with
    | nil => intro x hx; exact .inr (by simpa [dictSet] using hx)
    | cons p d ih =>
      obtain ⟨k', v'⟩ := p
      intro x hx
      rw [dictSet] at hx
      split_ifs at hx with hk
      · exact .inl hx
      · rw [List.map_cons, List.mem_cons] at hx
        rcases hx with rfl | hx
        · exact .inl (by simp)
        · exact (ih x hx).imp (fun h => List.mem_cons_of_mem _ h) id
  induction d with
  | nil => simp [dictSet]
  | cons p d ih =>
    obtain ⟨k', v'⟩ := p
    rw [List.map_cons, List.nodup_cons] at h
    rw [dictSet]
    split_ifs with hk
    · exact List.nodup_cons.mpr h
    · rw [List.map_cons, List.nodup_cons]
      refine ⟨fun hx => ?_, ih h.2⟩
      rcases hmem d _ hx with hx | hx
      · exact h.1 hx
      · exact hk hx

theorem constructMap_inv : ∀ {m : List (String × YamlNode)} {acc d : List (String × PyVal)}, constructMap m acc = .ok d → (m.map Prod.fst).Nodup → (acc.map Prod.fst).Nodup →
    (d.map Prod.fst).Nodup ∧ ∀ k, (dictGet m k = none ∧ dictGet d k = dictGet acc k) ∨ ∃ n v, dictGet m k = some n ∧ n.construct = .ok v ∧ dictGet d k = some v
  | [], acc, d, h, _, ha => by
    rw [constructMap] at h
    cases h
    exact ⟨ha, fun k => .inl ⟨rfl, rfl⟩⟩
  | (k', n') :: m, acc, d, h, hn, ha => by
    rw [constructMap] at h
    obtain ⟨v, h1, h⟩ := bind_ok_inv h
    rw [List.map_cons, List.nodup_cons] at hn
    obtain ⟨h2, h3⟩ := constructMap_inv h hn.2 (dictSet_nodup ha)
    refine ⟨h2, fun k => ?_⟩
    by_cases hk : k' = k
    · subst hk
      rcases h3 k' with ⟨-, h4⟩ | ⟨n, v', h4, -, -⟩
      · exact .inr ⟨n', v, by rw [dictGet, if_pos rfl], h1, by rw [h4, dictGet_set, if_pos rfl]⟩
      · rw [dictGet_none hn.1] at h4
        cases h4
    · have e : dictGet ((k', n') :: m) k = dictGet m k := by rw [dictGet, if_neg hk]
      rw [e]
      rcases h3 k with ⟨h4, h5⟩ | h4
      · exact .inl ⟨h4, by rw [h5, dictGet_set, if_neg hk]⟩
      · exact .inr h4

theorem constructMap_total : ∀ {m : List (String × YamlNode)}, (m.map Prod.fst).Nodup → (∀ k n, dictGet m k = some n → ∃ v, n.construct = .ok v) → ∀ acc, ∃ d, constructMap m acc = .ok d
  | [], _, _, acc => ⟨acc, by rw [constructMap]⟩
  | (k', n') :: m, hn, h, acc => by
    rw [List.map_cons, List.nodup_cons] at hn
    obtain ⟨v, h1⟩ := h k' n' (by rw [dictGet, if_pos rfl])
    obtain ⟨d, h2⟩ := constructMap_total hn.2 (fun k n hk => h k n (by
      rw [dictGet, if_neg ?_]
      · exact hk
      · rintro rfl
        rw [dictGet_none hn.1] at hk
        cases hk)) (dictSet acc k' v)
    refine ⟨d, ?_⟩
    rw [constructMap, h1]
    exact h2

theorem constructSeq_rel : ∀ {l l' : List YamlNode}, l.length = l'.length →
    (∀ (i : ℕ) n n', l[i]? = some n → l'[i]? = some n' → ∀ v, n.construct = .ok v → ∃ v', n'.construct = .ok v' ∧ SameEntries v v') →
    ∀ {r}, constructSeq l = .ok r → ∃ r', constructSeq l' = .ok r' ∧ r.length = r'.length ∧ ∀ (i : ℕ) v v', r[i]? = some v → r'[i]? = some v' → SameEntries v v'
  | [], [], _, _, r, h => by
    rw [constructSeq] at h
    cases h
    exact ⟨[], by rw [constructSeq], rfl, fun i v v' h => by simp at h⟩
  | [], _ :: _, hl, _, _, _ => by cases hl
  | _ :: _, [], hl, _, _, _ => by cases hl
  | n :: l, n' :: l', hl, he, r, h => by
    rw [constructSeq] at h
    obtain ⟨w, h1, h⟩ := bind_ok_inv h
    obtain ⟨r1, h2, rfl⟩ := map_ok_inv h
    obtain ⟨w', h3, h4⟩ := he 0 n n' rfl rfl w h1
    obtain ⟨r1', h5, h6, h7⟩ := constructSeq_rel (by simpa using hl) (fun i x x' hx hx' => he (i + 1) x x' hx hx') h2
    refine ⟨w' :: r1', ?_, by simp [h6], fun i x x' hx hx' => ?_⟩
    · rw [constructSeq, h3, h5]
      rfl
    · cases i with
      | zero =>
        cases hx
        cases hx'
        exact h4
      | succ i => exact h7 i x x' hx hx'

theorem construct_rel {n n' : YamlNode} (h : SameNodes n n') : ∀ v, n.construct = .ok v → ∃ v', n'.construct = .ok v' ∧ SameEntries v v' := by
  induction h with
  | refl n => exact fun v hv => ⟨v, hv, .refl v⟩
  | seq l l' len _ ih =>
    intro v hv
    rw [YamlNode.construct] at hv ⊢
    obtain ⟨r, h1, rfl⟩ := map_ok_inv hv
    obtain ⟨r', h2, h3, h4⟩ := constructSeq_rel len ih h1
    rw [h2]
    exact ⟨.list r', rfl, .list r r' h3 h4⟩
  | map m m' hn hn' keys _ ih =>
    intro v hv
    rw [YamlNode.construct] at hv ⊢
    obtain ⟨d, h1, rfl⟩ := map_ok_inv hv
    obtain ⟨k1, k2⟩ := constructMap_inv h1 hn (by simp)
    have hval : ∀ k x', dictGet m' k = some x' → ∃ x w w', dictGet m k = some x ∧ dictGet d k = some w ∧ x'.construct = .ok w' ∧ SameEntries w w' := by
      intro k x' hx'
      have := keys k
      rcases k2 k with ⟨g, -⟩ | ⟨x, w, g1, g2, g3⟩
      · rw [g, hx'] at this
        cases this
      · obtain ⟨w', g4, g5⟩ := ih k x x' g1 hx' w g2
        exact ⟨x, w, w', g1, g3, g4, g5⟩
    obtain ⟨d', h2⟩ := constructMap_total hn' (fun k x' hx' => by
      obtain ⟨-, -, w', -, -, h, -⟩ := hval k x' hx'
      exact ⟨w', h⟩) []
    obtain ⟨k1', k2'⟩ := constructMap_inv h2 hn' (by simp)
    rw [h2]
    refine ⟨.dict d', rfl, .dict d d' k1 k1' (fun k => ?_) fun k w w' hw hw' => ?_⟩
    · have := keys k
      rcases k2 k with ⟨g1, g2⟩ | ⟨x, y, g1, -, g2⟩ <;> rcases k2' k with ⟨g1', g2'⟩ | ⟨x', y', g1', -, g2'⟩ <;> rw [g1, g1'] at this <;> rw [g2, g2'] <;>
        first | rfl | cases this
    · rcases k2' k with ⟨-, g2'⟩ | ⟨x', y', g1', g3', g2'⟩
      · rw [g2'] at hw'
        cases hw'
      obtain ⟨x, u, u', -, m2, m3, m4⟩ := hval k x' g1'
      rw [g2'] at hw'
      rw [m2] at hw
      rw [g3'] at m3
      cases hw
      cases hw'
      cases m3
      exact m4

theorem jsonPlainList_iff (l : List PyVal) : jsonPlainList l = true ↔ ∀ v ∈ l, jsonPlain v = true := by
  induction l with
  | nil => simp [jsonPlainList]
  | cons v l ih => simp [jsonPlainList, ih]

theorem jsonPlainDict_iff (d : List (String × PyVal)) : jsonPlainDict d = true ↔ ∀ p ∈ d, jsonPlain p.2 = true := by
  induction d with
  | nil => simp [jsonPlainDict]
  | cons p d ih =>
    obtain ⟨k, v⟩ := p
    simp [jsonPlainDict, ih]

theorem jsonPlain_rel {v v' : PyVal} (h : SameEntries v v') : jsonPlain v = true → jsonPlain v' = true := by
  induction h with
  | refl v => exact id
  | list l l' len _ ih =>
    rw [jsonPlain, jsonPlain, jsonPlainList_iff, jsonPlainList_iff]
    intro h v' hv'
    obtain ⟨i, hi⟩ := List.mem_iff_getElem?.mp hv'
    obtain ⟨hi', -⟩ := List.getElem?_eq_some_iff.mp hi
    exact ih i _ v' (List.getElem?_eq_getElem (by omega)) hi (h _ (List.getElem_mem _))
  | dict d d' n n' keys _ ih =>
    rw [jsonPlain, jsonPlain, jsonPlainDict_iff, jsonPlainDict_iff]
    intro h p hp
    have hp' := (dictGet_mem' n' p).mp hp
    have := keys p.1
    rw [hp'] at this
    obtain ⟨v, hv⟩ := Option.isSome_iff_exists.mp this
    exact ih p.1 v p.2 hv hp' (h (p.1, v) ((dictGet_mem' n (p.1, v)).mpr hv))

/-- **C140.** Two configuration files that differ in the order of the entries give configurations that differ in the order of the entries. -/
theorem C140_config {H : Host} {F G : Files} {config : List Char} {b b' : List UInt8} {n n' : YamlNode} (hF : F (H.realpath config) = some b) (hG : G (H.realpath config) = some b')
    (hn : H.parseYaml (H.decode b) = .ok n) (hn' : H.parseYaml (H.decode b') = .ok n') (h : SameNodes n n') {conf : PyVal} (hc : readConfig H F config = .ok conf) :
    ∃ conf', readConfig H G config = .ok conf' ∧ SameEntries conf conf' := by
  unfold readConfig at hc ⊢
  rw [hF] at hc
  rw [hG]
  simp only at hc ⊢
  rw [hn] at hc
  rw [hn']
  obtain ⟨x, hx, hc⟩ := bind_ok_inv hc
  cases hx
  obtain ⟨v, h1, h2⟩ := bind_ok_inv hc
  unfold jsonChecked at h2
  split_ifs at h2 with hp
  cases h2
  obtain ⟨v', h3, h4⟩ := construct_rel h _ h1
  refine ⟨v', ?_, h4⟩
  simp only [Except.bind]
  rw [h3]
  simp only
  unfold jsonChecked
  rw [if_pos (jsonPlain_rel h4 hp)]

/-! ## Runs of the program -/

/-- **C140.** The order of the entries of the configuration file does not matter: two runs of `rffa` with the same arguments and input files, and with configuration files that differ in the order of the
entries only, end in the same way up to which exception is raised, and overwrite the same files with the same content, except for the log. -/
theorem C140_rffa {H : Host} (hi : ∀ p, H.realpath (H.realpath p) = H.realpath p) {t : PipeTools} {o : CandOutput} {s s' : PoolSchedule} {a : RffaArgs} {config : List Char}
    (hc : a.config = some config) (hl : ∀ l, a.log = some l → LogNotRead H config a.files l ∧ LogNotProduct H (a.outdir.getD H.cwd) l) (hinj : JoinsApart H (a.outdir.getD H.cwd))
    {F F' G G' : Files} {out out' : RffaEnd} {b b' : List UInt8} {n n' : YamlNode} (hF : F (H.realpath config) = some b) (hG : G (H.realpath config) = some b')
    (hn : H.parseYaml (H.decode b) = .ok n) (hn' : H.parseYaml (H.decode b') = .ok n') (hnn : SameNodes n n') (hfile : ∀ f ∈ a.files, F (H.realpath f) = G (H.realpath f))
    (hdata : ∀ f ∈ a.files, F (H.realpath (dataFname (H.realpath f))) = G (H.realpath (dataFname (H.realpath f)))) (hs : MayRun H config a.files F s)
    (hs' : MayRun H config a.files F s') (h : RffaRuns H t o s a F F' out) (h' : RffaRuns H t o s' a G G' out') :
    (out = .done ↔ out' = .done) ∧ (out = .usage ↔ out' = .usage) ∧ ∃ W, Written W ∧
      ∀ p, (∀ l, a.log = some l → p ≠ H.realpath l) → F' p = F.putAll H (a.outdir.getD H.cwd) W p ∧ G' p = G.putAll H (a.outdir.getD H.cwd) W p := by
  unfold RffaRuns at h h'
  have nil : Written [] := ⟨by simp, by simp⟩
  rcases e : rffaParse H a with _ | ⟨c, dir, fs⟩
  · rw [e] at h h'
    obtain ⟨rfl, rfl⟩ := h
    obtain ⟨rfl, rfl⟩ := h'
    exact ⟨Iff.rfl, Iff.rfl, [], nil, fun p _ => ⟨rfl, rfl⟩⟩
  have hparts : c = config ∧ dir = a.outdir.getD H.cwd ∧ fs = a.files ∧ a.files ≠ [] := by
    unfold rffaParse at e
    rw [hc] at e
    simp only at e
    split_ifs at e with hif
    cases e
    exact ⟨rfl, rfl, rfl, hif.2.2⟩
  obtain ⟨rfl, rfl, rfl, hne⟩ := hparts
  rw [e] at h h'
  simp only at h h'
  rcases ho : openLog H F a with er | F0
  · have ho' : openLog H G a = .error er := by
      unfold openLog at ho ⊢
      generalize a.log = L at ho ⊢
      rcases L with _ | l
      · cases ho
      · simp only at ho ⊢
        generalize H.openError l = E at ho ⊢
        rcases E with _ | e
        · cases ho
        · exact ho
    rw [ho] at h
    rw [ho'] at h'
    obtain ⟨rfl, rfl⟩ := h
    obtain ⟨rfl, rfl⟩ := h'
    exact ⟨Iff.rfl, Iff.rfl, [], nil, fun p _ => ⟨rfl, rfl⟩⟩
  have ho' : openLog H G a = .ok (withLog H G a []) := by
    unfold openLog at ho ⊢
    unfold withLog
    generalize a.log = L at ho ⊢
    rcases L with _ | l
    · rfl
    · simp only at ho ⊢
      generalize H.openError l = E at ho ⊢
      rcases E with _ | e
      · rfl
      · cases ho
  rw [ho] at h
  rw [ho'] at h'
  obtain rfl := openLog_ok ho
  simp only at h h'
  have hl1 := fun l e => (hl l e).1
  have same : ∀ (F : Files) x, SameInputs H c a.files (withLog H (withLog H F a []) a x) F := fun F x => (sameInputs_log hl1 _ x).trans (sameInputs_log hl1 F [])
  have key : ∀ {W}, Written W → ∀ (F : Files) x p, (∀ l, a.log = some l → p ≠ H.realpath l) →
      withLog H ((withLog H F a []).putAll H (a.outdir.getD H.cwd) W) a x p = F.putAll H (a.outdir.getD H.cwd) W p := by
    intro W hW F x p hp
    rw [withLog_other hp]
    by_cases hm : ∃ w ∈ W, p = H.realpath (H.join (a.outdir.getD H.cwd) w.1)
    · obtain ⟨w, hw, rfl⟩ := hm
      rw [putAll_mem hinj hW.products hW.nodup w hw, putAll_mem hinj hW.products hW.nodup w hw]
    · rw [putAll_other fun w hw e => hm ⟨w, hw, e⟩, putAll_other fun w hw e => hm ⟨w, hw, e⟩, withLog_other hp]
  obtain ⟨t0, t1, t2, -, -, -, h⟩ := h
  obtain ⟨u0, u1, u2, -, -, -, h'⟩ := h'
  rw [(same F t0).readConfig] at h
  rw [(same G u0).readConfig] at h'
  -- both raise an exception and write nothing
  have failed : ∀ {e e' : PyErr}, out = .raised e ∧ F' = withLog H (withLog H F a []) a t2 → out' = .raised e' ∧ G' = withLog H (withLog H G a []) a u2 →
      (out = .done ↔ out' = .done) ∧ (out = .usage ↔ out' = .usage) ∧ ∃ W, Written W ∧
      ∀ p, (∀ l, a.log = some l → p ≠ H.realpath l) → F' p = F.putAll H (a.outdir.getD H.cwd) W p ∧ G' p = G.putAll H (a.outdir.getD H.cwd) W p := by
    rintro e e' ⟨rfl, rfl⟩ ⟨rfl, rfl⟩
    exact ⟨by simp, by simp, [], nil, fun p hp => ⟨key nil F t2 p hp, key nil G u2 p hp⟩⟩
  rcases hcF : readConfig H F c with er | conf
  · rcases hcG : readConfig H G c with er' | conf'
    · rw [hcF] at h
      rw [hcG] at h'
      exact failed h h'
    · obtain ⟨x, hx, -⟩ := C140_config hG hF hn' hn hnn.symm hcG
      rw [hcF] at hx
      cases hx
  obtain ⟨conf', hcG, hcc⟩ := C140_config hF hG hn hn' hnn hcF
  rw [hcF] at h
  rw [hcG] at h'
  simp only at h h'
  have hFG : ∀ conf s, pipelineFiles (diskOf H G) t conf a.files s = pipelineFiles (diskOf H F) t conf a.files s := by
    obtain ⟨f, hf⟩ := List.exists_mem_of_ne_nil _ hne
    have hsame : SameInputs H f a.files G F := ⟨(hfile f hf).symm, fun g hg => (hfile g hg).symm, fun g hg => (hdata g hg).symm⟩
    exact fun conf s => hsame.pipelineFiles hi t conf s
  rw [(same F t1).pipelineFiles hi] at h
  rw [(same G u1).pipelineFiles hi, hFG, ← C140_files hcc] at h'
  rcases hp : pipelineFiles (diskOf H F) t conf a.files s with er | st
  · rcases hp' : pipelineFiles (diskOf H F) t conf a.files s' with er' | st'
    · rw [hp] at h
      rw [hp'] at h'
      exact failed h h'
    · rw [pipelineFiles_schedule hs' hs hcF hp'] at hp
      cases hp
  rw [hp] at h
  rw [pipelineFiles_schedule hs hs' hcF hp] at h'
  simp only at h h'
  obtain ⟨m, plot, F1, res, k1, k2, k3, k4⟩ := h
  obtain ⟨m', plot', G1, res', l1, l2, l3, l4⟩ := h'
  rw [← saveConf_rel hcc, k1] at l1
  obtain ⟨rfl, rfl⟩ := Prod.mk.inj (Except.ok.inj l1)
  obtain ⟨W, hW, w1, w2⟩ := savesTo_written hinj k2
  obtain ⟨w3, w4⟩ := w2 _ G1 res' l2
  have nu : ∀ r : Except PyErr Unit, endOf r ≠ .usage := by rintro (_ | _) <;> simp [endOf]
  refine ⟨by rw [k4, l4, endOf_done, endOf_done]; exact w4.symm, by rw [k4, l4]; exact ⟨fun h => absurd h (nu _), fun h => absurd h (nu _)⟩, W, hW, fun p hp => ?_⟩
  rw [k3, l3, w1, w3]
  exact ⟨key hW F t2 p hp, key hW G u2 p hp⟩

/-! ## An example -/

theorem dictGet_perm {β : Type*} {d d' : List (String × β)} (h : d.Perm d') (hn : (d.map Prod.fst).Nodup) (k : String) : dictGet d k = dictGet d' k := by
  have hn' : (d'.map Prod.fst).Nodup := (h.map Prod.fst).nodup_iff.mp hn
  refine Option.ext fun v => ?_
  exact ((dictGet_mem' hn (k, v)).symm.trans h.mem_iff).trans (dictGet_mem' hn' (k, v))

/-- Entries may be exchanged. -/
theorem sameNodes_perm {m m' : List (String × YamlNode)} (h : m.Perm m') (hn : (m.map Prod.fst).Nodup) : SameNodes (.map m) (.map m') :=
  .map m m' hn ((h.map Prod.fst).nodup_iff.mp hn) (fun k => by rw [dictGet_perm h hn]) fun k n n' h1 h2 => by
    rw [dictGet_perm h hn, h2] at h1
    cases h1
    exact .refl _

/-- The configuration of C118 with the sections in the opposite order. -/
def pulsarNodeR : YamlNode :=
  match pulsarNode with
  | .map l => .map l.reverse
  | n => n

theorem pulsarNodeR_same : SameNodes pulsarNode pulsarNodeR := by
  unfold pulsarNodeR pulsarNode
  exact sameNodes_perm (List.reverse_perm _).symm (by decide +kernel)

/-- The machine of C118, which knows both texts. -/
noncomputable def pulsarHostR : Host := { pulsarHost with parseYaml := fun t => .ok (if t = pulsarYaml then pulsarNode else if t = pulsarYaml4 then pulsarNodeR else .quoted t) }

theorem pulsarR_conf : readConfig pulsarHostR pulsarFiles "c.yaml".toList = .ok (.dict pulsarItems) := pulsar4_conf

theorem pulsarFiles_yaml : pulsarFiles "c.yaml".toList = some (asciiEncode pulsarYaml) := by
  unfold pulsarFiles
  rw [if_neg (by decide +kernel), if_neg (by decide +kernel), if_pos rfl]

theorem pulsarFiles4_yaml : pulsarFiles4 "c.yaml".toList = some (asciiEncode pulsarYaml4) := by
  unfold pulsarFiles4
  rw [if_pos rfl]

/-- The hypotheses of `C140_rffa` are met: the run of C118 succeeds with the sections in either order, and the products are the same. -/
theorem C140_example (o : CandOutput) : ∃ F' G', RffaRuns pulsarHostR pulsarTools o ⟨fun _ => 1, fun _ => [0]⟩ (pulsarArgs none) pulsarFiles F' .done ∧
    RffaRuns pulsarHostR pulsarTools o ⟨fun _ => 5, fun _ => [0]⟩ (pulsarArgs none) pulsarFiles4 G' .done ∧ ∀ p, p ≠ "c.yaml".toList → G' p = F' p := by
  have hj : JoinsApart pulsarHostR "out".toList := fun x y _ _ h => by
    have : "out".toList ++ '/' :: x = "out".toList ++ '/' :: y := h
    simpa using this
  obtain ⟨st, d', hst, hd, -, -⟩ := C104_example ⟨o.json, none⟩ fun _ => none
  have hst' : pipelineFiles (diskOf pulsarHostR pulsarFiles) pulsarTools (.dict pulsarItems) ["a.inf".toList] ⟨fun _ => 1, fun _ => [0]⟩ = .ok st := by
    rw [← pulsarItems_dict]
    exact (pulsarFiles_disk _).trans hst
  have hs : SavesPlots o.json none 1 st (fun _ => none) d' (.ok ()) := (C105_all none (.inl ⟨rfl, rfl⟩)).mpr ⟨rfl, hd⟩
  have hx : ∃ x, pulsarHostR.logText x := ⟨[], by simp [pulsarHostR, pulsarHost, asciiDecode]⟩
  have hsave : saveConfOf (.dict pulsarItems) = .ok (1, false) := pulsarItems_dict ▸ pulsarDict_save
  obtain ⟨F', h⟩ := C118_runs (H := pulsarHostR) (a := pulsarArgs none) (res := .ok ()) rfl rfl (by simp [pulsarArgs]) (fun l hl => by cases hl) rfl hx pulsarR_conf hst' hsave hs
  have hother : ∀ p, p ≠ "c.yaml".toList → pulsarFiles p = pulsarFiles4 p := fun p hp => (if_neg hp).symm
  have hfile : ∀ f ∈ ["a.inf".toList], pulsarFiles f = pulsarFiles4 f := by
    intro f hf
    cases List.mem_singleton.mp hf
    exact hother _ (by decide +kernel)
  have hdata : ∀ f ∈ ["a.inf".toList], pulsarFiles (dataFname f) = pulsarFiles4 (dataFname f) := by
    intro f hf
    cases List.mem_singleton.mp hf
    exact hother _ (by decide +kernel)
  have hn : pulsarHostR.parseYaml (pulsarHostR.decode (asciiEncode pulsarYaml)) = .ok pulsarNode := by
    show Except.ok (if asciiDecode (asciiEncode pulsarYaml) = pulsarYaml then pulsarNode else _) = _
    rw [if_pos pulsarYaml_text]
  have hn' : pulsarHostR.parseYaml (pulsarHostR.decode (asciiEncode pulsarYaml4)) = .ok pulsarNodeR := by
    show Except.ok (if asciiDecode (asciiEncode pulsarYaml4) = pulsarYaml then pulsarNode else if asciiDecode (asciiEncode pulsarYaml4) = pulsarYaml4 then pulsarNodeR else _) = _
    rw [if_neg (by decide +kernel), if_pos (by decide +kernel)]
  obtain ⟨conf', hconf', hcc⟩ := C140_config (H := pulsarHostR) pulsarFiles_yaml pulsarFiles4_yaml hn hn' pulsarNodeR_same pulsarR_conf
  have may : ∀ {k : ℕ}, 1 ≤ k → MayRun pulsarHostR "c.yaml".toList ["a.inf".toList] pulsarFiles ⟨fun _ => k, fun _ => [0]⟩ := by
    intro k hk conf v c ms h1 h2 h3 h4
    rw [pulsarR_conf, ← pulsarItems_dict] at h1
    exact pulsar_mayRun hk conf v c ms (pulsarFiles_conf.trans h1) h2 h3 h4
  have h4 := pipelineFiles_schedule (may le_rfl) (may (k := 5) (by norm_num)) pulsarR_conf hst'
  have hsame : SameInputs pulsarHostR "a.inf".toList ["a.inf".toList] pulsarFiles pulsarFiles4 := ⟨hfile "a.inf".toList List.mem_cons_self, hfile, hdata⟩
  rw [hsame.pipelineFiles fun _ => rfl, C140_files hcc] at h4
  obtain ⟨G', h'⟩ := C118_runs (H := pulsarHostR) (a := pulsarArgs none) (res := .ok ()) rfl rfl (by simp [pulsarArgs]) (fun l hl => by cases hl) rfl hx hconf' h4
    ((saveConf_rel hcc).symm.trans hsave) hs
  obtain ⟨-, -, W, hW, hall⟩ := C140_rffa (H := pulsarHostR) (fun _ => rfl) (a := pulsarArgs none) rfl (fun l e => by cases e) hj pulsarFiles_yaml pulsarFiles4_yaml hn hn' pulsarNodeR_same
    hfile hdata (may le_rfl) (may (k := 5) (by norm_num)) h h'
  refine ⟨F', G', h, h', fun p hp => ?_⟩
  obtain ⟨h5, h6⟩ := hall p fun l e => by cases e
  rw [h5, h6]
  by_cases hm : ∃ w ∈ W, p = pulsarHostR.realpath (pulsarHostR.join ((pulsarArgs none).outdir.getD pulsarHostR.cwd) w.1)
  · obtain ⟨w, hw, rfl⟩ := hm
    exact (putAll_mem hj hW.products hW.nodup w hw).trans (putAll_mem hj hW.products hW.nodup w hw).symm
  · rw [putAll_other fun w hw e => hm ⟨w, hw, e⟩, putAll_other fun w hw e => hm ⟨w, hw, e⟩]
    exact (hother p hp).symm

end Verif.Props
