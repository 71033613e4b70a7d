import Verif.Props.Sigproc

/-!
# Claims about `Metadata` (C54)
-/

namespace Verif.Props

open Verif.Model

/-- The condition on an entry with a string key as documented in metadata.py 27-44. -/
def EntryOK (k : String) (v : PyVal) : Prop :=
  (k ∈ ["source_name", "fname"] → v = .none ∨ ∃ s, v = .str s) ∧
  (k = "skycoord" → v = .none ∨ ∃ ra dec, v = .sky ra dec) ∧
  (k ∈ ["dm", "mjd"] → v = .none ∨ v = .float (.inf false) ∨ ∃ q : ℚ, v = .float (.fin q) ∧ 0 ≤ q) ∧
  (k = "tobs" → v = .none ∨ v = .float (.inf false) ∨ ∃ q : ℚ, v = .float (.fin q) ∧ 0 < q) ∧
  (k ∉ ["source_name", "skycoord", "dm", "mjd", "tobs", "fname"] → v.jsonable = true)

theorem validOptStr_iff (v : PyVal) : validOptStr v = true ↔ v = .none ∨ ∃ s, v = .str s := by
  cases v <;> simp [validOptStr]

theorem validOptSky_iff (v : PyVal) : validOptSky v = true ↔ v = .none ∨ ∃ ra dec, v = .sky ra dec := by
  cases v <;> simp [validOptSky]

theorem validOptNonneg_iff (v : PyVal) : validOptNonneg v = true ↔
    v = .none ∨ v = .float (.inf false) ∨ ∃ q : ℚ, v = .float (.fin q) ∧ 0 ≤ q := by
  cases v with
  | float x => cases x <;> simp [validOptNonneg, PyFloat.nonneg]
  | _ => simp [validOptNonneg]

theorem validOptPos_iff (v : PyVal) : validOptPos v = true ↔
    v = .none ∨ v = .float (.inf false) ∨ ∃ q : ℚ, v = .float (.fin q) ∧ 0 < q := by
  cases v with
  | float x => cases x <;> simp [validOptPos, PyFloat.pos]
  | _ => simp [validOptPos]

theorem validMetaItem_iff (k : String) (v : PyVal) : validMetaItem (.str k) v = true ↔ EntryOK k v := by
  unfold validMetaItem EntryOK
  simp only [List.mem_cons, List.not_mem_nil, or_false, not_or]
  by_cases h1 : k = "source_name"
  · subst h1; simp [validOptStr_iff]
  by_cases h2 : k = "skycoord"
  · subst h2; simp [validOptSky_iff]
  by_cases h3 : k = "dm"
  · subst h3; simp [validOptNonneg_iff]
  by_cases h4 : k = "mjd"
  · subst h4; simp [validOptNonneg_iff]
  by_cases h5 : k = "tobs"
  · subst h5; simp [validOptPos_iff]
  by_cases h6 : k = "fname"
  · subst h6; simp [validOptStr_iff]
  simp [h1, h2, h3, h4, h5, h6]

/-- C54: the constructor accepts a dictionary exactly if every entry with a string key satisfies the documented condition, and raises
`SchemaError` otherwise. -/
theorem C54_accepts (items : MetaDict) :
    ((∃ md, metadataInit items = .ok md) ↔ ∀ k v, (DKey.str k, v) ∈ items → EntryOK k v) ∧
    ((¬ ∀ k v, (DKey.str k, v) ∈ items → EntryOK k v) → metadataInit items = .error .schemaError) := by
  have key : items.all (fun kv => validMetaItem kv.1 kv.2) = true ↔ ∀ k v, (DKey.str k, v) ∈ items → EntryOK k v := by
    rw [List.all_eq_true]
    constructor
    · intro h k v hkv
      exact (validMetaItem_iff k v).1 (h _ hkv)
    · rintro h ⟨k, v⟩ hkv
      cases k with
      | str k => exact (validMetaItem_iff k v).2 (h k v hkv)
      | nonStr t => rfl
  unfold metadataInit
  rw [← key]
  split_ifs with hc
  · exact ⟨by simp [hc], fun h => absurd hc h⟩
  · refine ⟨?_, fun _ => rfl⟩
    constructor
    · rintro ⟨md, hmd⟩; cases hmd
    · intro h; exact absurd h hc

/-- C54: every `Metadata` object contains all reserved keys, `None` if absent from the dictionary given, otherwise with the same
value; every other key is as in that dictionary; and the entries satisfy the documented conditions. -/
theorem C54_total (items md : MetaDict) (h : metadataInit items = .ok md) :
    (∀ k ∈ ["source_name", "skycoord", "dm", "mjd", "tobs", "fname"],
      dictGet md (.str k) = some ((dictGet items (.str k)).getD .none)) ∧
    (∀ k, (∀ r ∈ ["source_name", "skycoord", "dm", "mjd", "tobs", "fname"], k ≠ DKey.str r) → dictGet md k = dictGet items k) ∧
    (∀ k v, dictGet md (.str k) = some v → EntryOK k v) := by
  have hok := (C54_accepts items).1.1 ⟨md, h⟩
  unfold metadataInit at h
  split_ifs at h with hc
  cases h
  have hget : ∀ k', dictGet (reservedMetaKeys.foldl metaSetDefault items) k' = if ∃ k ∈ reservedMetaKeys, .str k = k' then
      some ((dictGet items k').getD .none) else dictGet items k' := fun k' => setDefaults_get k' _ _
  refine ⟨?_, ?_, ?_⟩
  · intro k hk
    rw [hget, if_pos ⟨k, hk, rfl⟩]
  · intro k hk
    rw [hget, if_neg]
    rintro ⟨r, hr, rfl⟩
    exact hk r hr rfl
  · intro k v hkv
    rw [hget] at hkv
    split_ifs at hkv with hr
    · cases hg : dictGet items (.str k) with
      | none =>
        rw [hg] at hkv; cases hkv
        obtain ⟨r, hr, he⟩ := hr
        cases he
        unfold EntryOK
        simp only [reservedMetaKeys] at hr
        exact ⟨fun _ => .inl rfl, fun _ => .inl rfl, fun _ => .inl rfl, fun _ => .inl rfl, fun hn => absurd hr hn⟩
      | some w =>
        rw [hg] at hkv; cases hkv
        exact hok k _ (dictGet_mem hg)
    · exact hok k v (dictGet_mem hkv)

/-- C54: a dictionary that is already the content of a `Metadata` object is accepted and left as it is. -/
theorem C54_idempotent (items md : MetaDict) (h : metadataInit items = .ok md) :
    ∃ md', metadataInit md = .ok md' ∧ ∀ k, dictGet md' k = dictGet md k := by
  have hmem : ∀ (ks : List String) (d : MetaDict) (a : DKey × PyVal), a ∈ ks.foldl metaSetDefault d →
      a ∈ d ∨ ∃ k ∈ ks, a = (.str k, .none) := by
    intro ks
    induction ks with
    | nil => intro d a h; exact Or.inl h
    | cons b ks ih =>
      intro d a h
      rw [List.foldl_cons] at h
      rcases ih _ _ h with h | ⟨k, hk, rfl⟩
      · unfold metaSetDefault at h
        cases hg : dictGet d (.str b) with
        | none =>
          rw [hg] at h
          rcases mem_dictSet h with rfl | h
          · exact Or.inr ⟨b, by simp, rfl⟩
          · exact Or.inl h
        | some v => rw [hg] at h; exact Or.inl h
      · exact Or.inr ⟨k, by simp [hk], rfl⟩
  have hok := (C54_accepts items).1.1 ⟨md, h⟩
  obtain ⟨md', h'⟩ := (C54_accepts md).1.2 (by
    intro k v hkv
    unfold metadataInit at h
    split_ifs at h with hc
    cases h
    rcases hmem _ _ _ hkv with hi | ⟨r, hr, he⟩
    · exact hok k v hi
    · cases he
      unfold EntryOK
      simp only [reservedMetaKeys] at hr
      exact ⟨fun _ => .inl rfl, fun _ => .inl rfl, fun _ => .inl rfl, fun _ => .inl rfl, fun hn => absurd hr hn⟩)
  refine ⟨md', h', fun k => ?_⟩
  obtain ⟨t1, t2, -⟩ := C54_total md md' h'
  obtain ⟨u1, -, -⟩ := C54_total items md h
  by_cases hr : ∃ r ∈ ["source_name", "skycoord", "dm", "mjd", "tobs", "fname"], k = DKey.str r
  · obtain ⟨r, hr, rfl⟩ := hr
    rw [t1 r hr, u1 r hr]; rfl
  · push Not at hr
    exact t2 k hr

/-- C54: constructing a `Metadata` object does not modify any existing dictionary, in particular not the one passed in; and setting
an entry of the new object later does not either. -/
theorem C54_defensive (heap heap' : List MetaDict) (ref new : ℕ) (h : metadataNew heap ref = .ok (heap', new))
    (key : DKey) (value : PyVal) :
    (∀ j < heap.length, heap'[j]? = heap[j]?) ∧ (∀ j < heap.length, (heapSetItem heap' new key value)[j]? = heap[j]?) ∧
    ∃ items md, heap[ref]? = some items ∧ heap'[new]? = some md ∧ metadataInit items = .ok md ∧
      (heapSetItem heap' new key value)[new]? = some (dictSet md key value) := by
  unfold metadataNew at h
  cases hr : heap[ref]? with
  | none => rw [hr] at h; cases h
  | some items =>
    rw [hr] at h
    obtain ⟨md, hmd, he⟩ := map_ok_inv h
    cases he
    have hnew : (heap ++ [md])[heap.length]? = some md := by simp
    refine ⟨?_, ?_, items, md, rfl, hnew, hmd, ?_⟩
    · intro j hj; rw [List.getElem?_append_left hj]
    · intro j hj
      unfold heapSetItem
      rw [hnew]
      simp only
      rw [List.getElem?_set_ne (by omega), List.getElem?_append_left hj]
    · unfold heapSetItem
      rw [hnew]
      simp

/-- C54: contrary to the documentation, keys that are not strings are accepted, with any value, because of
`ignore_extra_keys=True`. -/
theorem C54_nonstr_keys (t : ℕ) (v : PyVal) : ∃ md, metadataInit [(.nonStr t, v)] = .ok md ∧ dictGet md (.nonStr t) = some v := by
  refine ⟨_, rfl, ?_⟩
  rw [setDefaults_get, if_neg (by simp)]
  simp [dictGet]

/-- A dictionary with reserved and other entries. -/
def demoMeta : MetaDict := [(.str "dm", .float (.fin 68)), (.str "source_name", .str "J0835-4510"), (.str "telescope", .str "MeerKAT"),
  (.str "beams", .list [.int 1, .int 2])]

example : ∀ k v, (DKey.str k, v) ∈ demoMeta → EntryOK k v := by
  have h : demoMeta.all (fun kv => validMetaItem kv.1 kv.2) = true := by decide +kernel
  rw [List.all_eq_true] at h
  intro k v hkv
  exact (validMetaItem_iff k v).1 (h _ hkv)
-- a negative DM, an integer DM and an array are rejected
example : ¬ EntryOK "dm" (.float (.fin (-1))) ∧ ¬ EntryOK "dm" (.int 68) ∧
    ¬ EntryOK "extra" (.ndarray { dtype := "<f4", shape := [0], bytes := [] }) ∧ ¬ EntryOK "tobs" (.float (.fin 0)) := by
  simp only [← validMetaItem_iff]; decide +kernel
example : ∃ r, metadataNew [demoMeta] 0 = .ok r := ⟨_, rfl⟩

end Verif.Props
