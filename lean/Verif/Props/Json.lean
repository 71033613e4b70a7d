import Verif.Spec.Json
import Mathlib.Tactic.IntervalCases

/-!
# C49: saving and loading
-/

namespace Verif.Props

open Verif.Model Verif.Spec

/-! ## base64 -/

theorem b64Val_char {n : ℕ} (h : n < 64) : b64Val (b64Char n) = some n := by
  interval_cases n <;> decide

theorem b64Char_ne {n : ℕ} (h : n < 64) : b64Char n ≠ '=' := by
  interval_cases n <;> decide

theorem uint8_eq {n : ℕ} {a : UInt8} (h : n = a.toNat) : UInt8.ofNat n = a := by subst h; exact UInt8.ofNat_toNat

/-- **C49**: the base64 text of an array decodes to the same bytes. -/
theorem C49_base64 : ∀ b : List UInt8, b64decode (b64encode b) = some b
  | [] => rfl
  | [a] => by
    have ha := a.toNat_lt
    simp only [b64encode, b64decode, b64Group]
    rw [b64Val_char (by omega), b64Val_char (by omega)]
    simp only [Option.bind_some, if_true, Option.map_some, List.append_nil]
    rw [uint8_eq (a := a) (by omega)]
  | [a, b] => by
    have ha := a.toNat_lt
    have hb := b.toNat_lt
    simp only [b64encode, b64decode, b64Group]
    rw [b64Val_char (by omega), b64Val_char (by omega), b64Val_char (by omega)]
    simp only [Option.bind_some]
    rw [if_neg (b64Char_ne (by omega))]
    simp only [if_true, Option.bind_some, Option.map_some, List.append_nil]
    rw [uint8_eq (a := a) (by omega), uint8_eq (a := b) (by omega)]
  | a :: b :: c :: l => by
    have ha := a.toNat_lt
    have hb := b.toNat_lt
    have hc := c.toNat_lt
    simp only [b64encode, b64decode, b64Group]
    rw [b64Val_char (by omega), b64Val_char (by omega), b64Val_char (by omega), b64Val_char (by omega), C49_base64 l]
    simp only [Option.bind_some]
    rw [if_neg (b64Char_ne (by omega)), if_neg (b64Char_ne (by omega))]
    simp only [Option.map_some, Option.bind_some]
    rw [uint8_eq (a := a) (by omega), uint8_eq (a := b) (by omega), uint8_eq (a := c) (by omega)]
    rfl

/-! ## What is loaded -/

/-- The metadata of a time series are converted back to a `Metadata` object. -/
def restoreMeta (cls : String) (f : List (String × PyVal)) : List (String × PyVal) :=
  if cls = "TimeSeries" then f.map fun kv => match kv with
    | ("metadata", .dict d) => ("metadata", .metadata d)
    | kv => kv
  else f

mutual

/-- The tree loaded after the tree given is saved. -/
def reloaded (saver : String) : PyVal → PyVal
  | .none => .none
  | .bool b => .bool b
  | .int i => .int i
  | .float x => .float x
  | .str s => .str s
  | .list l => .list (reloadedList saver l)
  | .dict d => .dict (reloadedDict saver d)
  | .metadata d => .dict (reloadedDict saver d)
  | .ndarray a => .ndarray { a with writable := false }
  | .npInt i => .int i
  | .npFloat x => .float x
  | .frame _ v c => .frame (c.map fun _ => v.dtype) { v with writable := false } c
  | .sky ra dec => .sky ra dec
  | .object cls ver f => .object cls (some (writtenVersion saver ver)) (restoreMeta cls (reloadedDict saver f))
  | .other t => .other t

def reloadedList (saver : String) : List PyVal → List PyVal
  | [] => []
  | v :: l => reloaded saver v :: reloadedList saver l

def reloadedDict (saver : String) : List (String × PyVal) → List (String × PyVal)
  | [] => []
  | (k, v) :: l => (k, reloaded saver v) :: reloadedDict saver l

end

theorem reloadedDict_keys (saver : String) : ∀ d : List (String × PyVal), (reloadedDict saver d).map Prod.fst = d.map Prod.fst
  | [] => by simp [reloadedDict]
  | (k, v) :: l => by simp [reloadedDict, reloadedDict_keys saver l]

theorem dictGet_reloaded (saver : String) (k : String) : ∀ d : List (String × PyVal),
    dictGet (reloadedDict saver d) k = (dictGet d k).map (reloaded saver)
  | [] => by simp [reloadedDict, dictGet]
  | (k', v) :: l => by
    simp only [reloadedDict, dictGet]
    split_ifs
    · rfl
    · exact dictGet_reloaded saver k l

theorem dictGet_none_of_keys {ν : Type*} (k : String) : ∀ d : List (String × ν), k ∉ d.map Prod.fst → dictGet d k = none
  | [], _ => rfl
  | (k', v) :: l, h => by
    simp only [List.map_cons, List.mem_cons, not_or] at h
    rw [dictGet, if_neg (fun e => h.1 e.symm), dictGet_none_of_keys k l h.2]

theorem dictOf_self {ν : Type*} {d : List (String × ν)} (h : (d.map Prod.fst).Nodup) : dictOf Prod.fst Prod.snd d = d := by
  have := dictOf_nodup d [] (by simpa using h)
  simpa [dictOf] using this

theorem asShape_ints : ∀ s : List ℕ, asShape (s.map fun (n : ℕ) => PyVal.int n) = some s
  | [] => rfl
  | n :: s => by simp [asShape, asShape_ints s]

theorem asStrings_strs : ∀ s : List String, asStrings (s.map PyVal.str) = some s
  | [] => rfl
  | n :: s => by simp [asStrings, asStrings_strs s]

theorem fromJsonList_ints (loader : String) : ∀ s : List ℕ, fromJsonList loader (s.map fun (n : ℕ) => Json.int n) = .ok (s.map fun (n : ℕ) => PyVal.int n)
  | [] => by simp [fromJsonList]
  | n :: s => by
    rw [List.map_cons, fromJsonList, fromJsonList_ints loader s, fromJson]; rfl

theorem fromJsonList_strs (loader : String) : ∀ s : List String, fromJsonList loader (s.map Json.str) = .ok (s.map PyVal.str)
  | [] => by simp [fromJsonList]
  | n :: s => by
    rw [List.map_cons, fromJsonList, fromJsonList_strs loader s, fromJson]; rfl

theorem fromJsonDict_append (loader : String) : ∀ (d e : List (String × Json)) (x y : List (String × PyVal)),
    fromJsonDict loader d = .ok x → fromJsonDict loader e = .ok y → fromJsonDict loader (d ++ e) = .ok (x ++ y)
  | [], e, x, y, hx, hy => by
    rw [fromJsonDict] at hx; cases hx
    exact hy
  | (k, j) :: d, e, x, y, hx, hy => by
    rw [fromJsonDict] at hx
    obtain ⟨v, hv, hx⟩ := bind_ok_inv hx
    obtain ⟨r, hr, hx⟩ := map_ok_inv hx
    subst hx
    rw [List.cons_append, fromJsonDict, hv, fromJsonDict_append loader d e r y hr hy]; rfl

theorem fromJson_array (loader : String) {a : NdArr} (h : ArrayOK a) :
    fromJson loader (encodeArray a) = .ok (.ndarray { a with writable := false }) := by
  obtain ⟨hobj, w, hw, hi, hlen⟩ := h
  rw [encodeArray, fromJson]
  simp only [fromJsonDict, fromJson, fromJsonList_ints, Except.bind, Except.map]
  rw [dictOf_self (by simp)]
  have : objectHook loader [("__type__", PyVal.str "numpy.ndarray"), ("data", .str (String.ofList (b64encode a.bytes))), ("dtype", .str a.dtype),
    ("shape", .list (a.shape.map fun (n : ℕ) => .int n))] = decodeArray [("__type__", PyVal.str "numpy.ndarray"),
      ("data", .str (String.ofList (b64encode a.bytes))), ("dtype", .str a.dtype), ("shape", .list (a.shape.map fun (n : ℕ) => .int n))] := by
    simp [objectHook, dictGet]
  rw [this]
  simp only [decodeArray, dictItem, dictGet]
  simp only [String.reduceEq, if_false, if_true, Except.bind, String.toList_ofList, C49_base64, asShape_ints, fromBuffer, hi]
  rw [if_neg hobj, if_neg]
  rw [hlen, Nat.mul_mod_left, Nat.mul_div_cancel _ hw]
  simp

theorem metadataOfDict_total {d : List (String × PyVal)} (hv : ∀ k v, (k, v) ∈ d → EntryOK k v)
    (hk : ∀ k ∈ ["source_name", "skycoord", "dm", "mjd", "tobs", "fname"], ∃ v, dictGet d k = some v) : metadataOfDict d = .ok d := by
  have hget : ∀ k, dictGet (d.map fun kv => (DKey.str kv.1, kv.2)) (.str k) = dictGet d k := by
    intro k
    clear hv hk
    induction d with
    | nil => rfl
    | cons a d ih => simp only [List.map_cons, dictGet, DKey.str.injEq, ih]
  have hsame : ∀ ks : List String, (∀ k ∈ ks, ∃ v, dictGet d k = some v) →
      ks.foldl metaSetDefault (d.map fun kv => (DKey.str kv.1, kv.2)) = d.map fun kv => (DKey.str kv.1, kv.2) := by
    intro ks
    induction ks with
    | nil => intro _; rfl
    | cons k ks ih =>
      intro h
      obtain ⟨v, hv⟩ := h k (by simp)
      rw [List.foldl_cons]
      have : metaSetDefault (d.map fun kv => (DKey.str kv.1, kv.2)) k = d.map fun kv => (DKey.str kv.1, kv.2) := by
        unfold metaSetDefault; rw [hget, hv]
      rw [this, ih (fun k' hk' => h k' (by simp [hk']))]
  unfold metadataOfDict metadataInit
  rw [if_pos]
  · rw [reservedMetaKeys, hsame _ hk]
    simp only [Except.map, Except.ok.injEq]
    clear hv hk hget hsame
    induction d with
    | nil => rfl
    | cons a d ih => simp only [List.map_cons, List.filterMap_cons, ih]
  · rw [List.all_eq_true]
    rintro ⟨k, v⟩ hkv
    rw [List.mem_map] at hkv
    obtain ⟨⟨k', v'⟩, hm, he⟩ := hkv
    cases he
    exact (validMetaItem_iff k' v').2 (hv k' v' hm)

mutual

theorem jsonable_reloaded (saver : String) : ∀ v : PyVal, v.jsonable = true → (reloaded saver v).jsonable = true
  | .none, _ => rfl
  | .bool _, _ => rfl
  | .int _, _ => rfl
  | .float _, _ => rfl
  | .str _, _ => rfl
  | .list l, h => by
    rw [reloaded, PyVal.jsonable]; rw [PyVal.jsonable] at h
    exact jsonableList_reloaded saver l h
  | .dict d, h => by
    rw [reloaded, PyVal.jsonable]; rw [PyVal.jsonable] at h
    exact jsonableDict_reloaded saver d h
  | .metadata d, h => by
    rw [reloaded, PyVal.jsonable]; rw [PyVal.jsonable] at h
    exact jsonableDict_reloaded saver d h
  | .ndarray _, h => by cases h
  | .npInt _, h => by cases h
  | .npFloat _, h => by cases h
  | .frame _ _ _, h => by cases h
  | .sky _ _, h => by cases h
  | .object _ _ _, h => by cases h
  | .other _, h => by cases h

theorem jsonableList_reloaded (saver : String) : ∀ l : List PyVal, jsonableList l = true → jsonableList (reloadedList saver l) = true
  | [], _ => by simp [reloadedList, jsonableList]
  | v :: l, h => by
    rw [jsonableList, Bool.and_eq_true] at h
    rw [reloadedList, jsonableList, jsonable_reloaded saver v h.1, jsonableList_reloaded saver l h.2]; rfl

theorem jsonableDict_reloaded (saver : String) : ∀ l : List (String × PyVal), jsonableDict l = true →
    jsonableDict (reloadedDict saver l) = true
  | [], _ => by simp [reloadedDict, jsonableDict]
  | (k, v) :: l, h => by
    rw [jsonableDict, Bool.and_eq_true] at h
    rw [reloadedDict, jsonableDict, jsonable_reloaded saver v h.1, jsonableDict_reloaded saver l h.2]; rfl

end

theorem mem_reloadedDict (saver : String) {k : String} {v : PyVal} : ∀ {d : List (String × PyVal)}, (k, v) ∈ reloadedDict saver d →
    ∃ v', (k, v') ∈ d ∧ v = reloaded saver v'
  | [], h => by simp [reloadedDict] at h
  | (k', v') :: l, h => by
    rw [reloadedDict, List.mem_cons] at h
    rcases h with h | h
    · cases h; exact ⟨v', by simp, rfl⟩
    · obtain ⟨w, hw, he⟩ := mem_reloadedDict saver h
      exact ⟨w, by simp [hw], he⟩

theorem entryOK_reloaded (saver : String) {k : String} {v : PyVal} (h : EntryOK k v) : EntryOK k (reloaded saver v) := by
  obtain ⟨h1, h2, h3, h4, h5⟩ := h
  refine ⟨fun hk => ?_, fun hk => ?_, fun hk => ?_, fun hk => ?_, fun hk => jsonable_reloaded saver v (h5 hk)⟩
  · rcases h1 hk with rfl | ⟨s, rfl⟩ <;> simp [reloaded]
  · rcases h2 hk with rfl | ⟨s, t, rfl⟩ <;> simp [reloaded]
  · rcases h3 hk with rfl | rfl | ⟨q, rfl, hq⟩ <;> simp [reloaded]; exact hq
  · rcases h4 hk with rfl | rfl | ⟨q, rfl, hq⟩ <;> simp [reloaded]; exact hq

theorem dictSet_same {ν : Type*} (k : String) (v : ν) : ∀ d : List (String × ν), dictGet d k = some v → dictSet d k v = d
  | [], h => by cases h
  | (k', v') :: l, h => by
    rw [dictGet] at h
    rw [dictSet]
    split_ifs at h ⊢ with hk
    · cases h; rfl
    · rw [dictSet_same k v l h]

/-- What the hook makes of a saved riptide object. -/
theorem objectHook_object (saver loader : String) {cls : String} {ver : Option String} {f : List (String × PyVal)} (h : ObjectOK cls f) :
    objectHook loader (dictOf Prod.fst Prod.snd (reloadedDict saver f ++ [("__type__", .str cls),
      ("__version__", .str (writtenVersion saver ver))])) =
      .ok (.object cls (some (writtenVersion saver ver)) (restoreMeta cls (reloadedDict saver f))) := by
  rcases h with ⟨rfl, a, t, d, rfl, hdt, hd, hk, htobs⟩ | ⟨rfl, w, p, b, s, m, rfl, hm⟩ | ⟨rfl, p, m, k, s, rfl⟩
  · simp only [reloadedDict, reloaded, List.cons_append, List.nil_append]
    rw [dictOf_self (by simp)]
    have hmeta : metadataOfDict (reloadedDict saver d) = .ok (reloadedDict saver d) := by
      apply metadataOfDict_total
      · intro k v hkv
        obtain ⟨v', hv', rfl⟩ := mem_reloadedDict saver hkv
        exact entryOK_reloaded saver (hd k v' hv')
      · intro k hkm
        obtain ⟨v, hv⟩ := hk k hkm
        exact ⟨reloaded saver v, by rw [dictGet_reloaded, hv]; rfl⟩
    have hset : dictSet (reloadedDict saver d) "tobs" (.float (t.mulInt a.shape.prod)) = reloadedDict saver d := by
      apply dictSet_same
      rw [dictGet_reloaded, htobs]
      simp [reloaded]
    simp only [Nat.cast_list_prod] at hset
    simp [objectHook, decodeObject, fromDict, dictItem, dictGet, Except.bind, Except.map, timeSeriesFields, hdt, hmeta, hset, restoreMeta]
  · simp only [reloadedDict, List.cons_append, List.nil_append]
    rw [dictOf_self (by simp)]
    have hm' : reloaded saver m ≠ .none := by
      cases m <;> simp [reloaded] at hm ⊢
    simp only [objectHook, decodeObject, fromDict, dictItem, dictGet, Except.bind, Except.map, restoreMeta, String.reduceEq, if_false, if_true]
  · simp only [reloadedDict, List.cons_append, List.nil_append]
    rw [dictOf_self (by simp)]
    simp [objectHook, decodeObject, fromDict, dictItem, dictGet, Except.bind, Except.map, restoreMeta]

mutual

theorem reload_spec (saver loader : String) : ∀ v : PyVal, Savable v →
    ∃ j, toJson saver v = .ok j ∧ fromJson loader j = .ok (reloaded saver v)
  | .none, _ => ⟨_, rfl, rfl⟩
  | .bool _, _ => ⟨_, rfl, rfl⟩
  | .int _, _ => ⟨_, rfl, rfl⟩
  | .float _, _ => ⟨_, rfl, rfl⟩
  | .str _, _ => ⟨_, rfl, rfl⟩
  | .npInt _, _ => ⟨_, rfl, rfl⟩
  | .npFloat _, _ => ⟨_, rfl, rfl⟩
  | .other _, h => by rw [Savable] at h; exact h.elim
  | .list l, h => by
    rw [Savable] at h
    obtain ⟨j, h1, h2⟩ := reloadList_spec saver loader l h
    exact ⟨.arr j, by rw [toJson, h1]; rfl, by rw [fromJson, h2, reloaded]; rfl⟩
  | .dict d, h => by
    rw [Savable] at h
    obtain ⟨j, h1, h2⟩ := reloadDict_spec saver loader d h.2
    refine ⟨.obj j, by rw [toJson, h1]; rfl, ?_⟩
    have hk := reloadedDict_keys saver d
    have hg : dictGet (reloadedDict saver d) "__type__" = none := dictGet_none_of_keys _ _ (by rw [hk]; exact h.1.2)
    rw [fromJson, h2]
    simp only [Except.bind]
    rw [dictOf_self (by rw [hk]; exact h.1.1), objectHook, hg, reloaded]
  | .metadata d, h => by
    rw [Savable] at h
    obtain ⟨j, h1, h2⟩ := reloadDict_spec saver loader d h.2
    refine ⟨.obj j, by rw [toJson, h1]; rfl, ?_⟩
    have hk := reloadedDict_keys saver d
    have hg : dictGet (reloadedDict saver d) "__type__" = none := dictGet_none_of_keys _ _ (by rw [hk]; exact h.1.2)
    rw [fromJson, h2]
    simp only [Except.bind]
    rw [dictOf_self (by rw [hk]; exact h.1.1), objectHook, hg, reloaded]
  | .ndarray a, h => by
    rw [Savable] at h
    exact ⟨_, by rw [toJson], by rw [fromJson_array loader h, reloaded]⟩
  | .frame t v c, h => by
    rw [Savable] at h
    obtain ⟨h, n, hn⟩ := h
    refine ⟨_, by rw [toJson], ?_⟩
    rw [fromJson]
    simp only [fromJsonDict, fromJson, fromJsonList_strs, fromJson_array loader h, Except.bind, Except.map]
    rw [dictOf_self (by simp), reloaded]
    simp [objectHook, decodeFrame, dictItem, dictGet, Except.bind, asStrings_strs, hn]
  | .sky ra dec, _ => by
    refine ⟨_, by rw [toJson], ?_⟩
    rw [fromJson]
    simp only [fromJsonDict, fromJson, Except.bind, Except.map]
    rw [dictOf_self (by simp), reloaded]
    simp [objectHook, decodeSky, dictItem, dictGet, Except.bind]
  | .object cls ver f, h => by
    rw [Savable] at h
    obtain ⟨j, h1, h2⟩ := reloadDict_spec saver loader f h.2
    refine ⟨_, by rw [toJson, h1]; rfl, ?_⟩
    rw [fromJson, fromJsonDict_append loader _ _ _ [("__type__", .str cls), ("__version__", .str (writtenVersion saver ver))] h2
      (by simp [fromJsonDict, fromJson, Except.bind, Except.map])]
    simp only [Except.bind]
    rw [objectHook_object saver loader h.1, reloaded]

theorem reloadList_spec (saver loader : String) : ∀ l : List PyVal, SavableList l →
    ∃ j, toJsonList saver l = .ok j ∧ fromJsonList loader j = .ok (reloadedList saver l)
  | [], _ => ⟨[], by rw [toJsonList], by rw [fromJsonList, reloadedList]⟩
  | v :: l, h => by
    rw [SavableList] at h
    obtain ⟨j1, h1, h2⟩ := reload_spec saver loader v h.1
    obtain ⟨j2, h3, h4⟩ := reloadList_spec saver loader l h.2
    exact ⟨j1 :: j2, by rw [toJsonList, h1, h3]; rfl, by rw [fromJsonList, h2, h4, reloadedList]; rfl⟩

theorem reloadDict_spec (saver loader : String) : ∀ d : List (String × PyVal), SavableDict d →
    ∃ j, toJsonDict saver d = .ok j ∧ fromJsonDict loader j = .ok (reloadedDict saver d)
  | [], _ => ⟨[], by rw [toJsonDict], by rw [fromJsonDict, reloadedDict]⟩
  | (k, v) :: l, h => by
    rw [SavableDict] at h
    obtain ⟨j1, h1, h2⟩ := reload_spec saver loader v h.1
    obtain ⟨j2, h3, h4⟩ := reloadDict_spec saver loader l h.2
    exact ⟨(k, j1) :: j2, by rw [toJsonDict, h1, h3]; rfl, by rw [fromJsonDict, h2, h4, reloadedDict]; rfl⟩

end

theorem saveLoad_eq (saver loader : String) {v : PyVal} (h : Savable v) : saveLoad saver loader v = .ok (reloaded saver v) := by
  obtain ⟨j, h1, h2⟩ := reload_spec saver loader v h
  unfold saveLoad
  rw [h1]
  exact h2

theorem content_restoreMeta {cls : String} : ∀ f : List (String × PyVal), contentDict (restoreMeta cls f) = contentDict f := by
  intro f
  unfold restoreMeta
  split_ifs
  · induction f with
    | nil => rfl
    | cons a f ih =>
      rw [List.map_cons]
      split
      · rw [contentDict, contentDict, ih]; simp [content]
      · obtain ⟨k, v⟩ := a
        rw [contentDict, contentDict, ih]
  · rfl

mutual

theorem content_reloaded (saver : String) : ∀ v : PyVal, content (reloaded saver v) = content v
  | .none => rfl
  | .bool _ => rfl
  | .int _ => rfl
  | .float _ => rfl
  | .str _ => rfl
  | .npInt _ => rfl
  | .npFloat _ => rfl
  | .other _ => rfl
  | .list l => by rw [reloaded, content, content, contentList_reloaded saver l]
  | .dict d => by rw [reloaded, content, content, contentDict_reloaded saver d]
  | .metadata d => by rw [reloaded, content, content, contentDict_reloaded saver d]
  | .ndarray a => by rw [reloaded, content, content]
  | .frame t v c => by rw [reloaded, content, content]
  | .sky ra dec => by rw [reloaded]
  | .object cls ver f => by rw [reloaded, content, content, content_restoreMeta, contentDict_reloaded saver f]

theorem contentList_reloaded (saver : String) : ∀ l : List PyVal, contentList (reloadedList saver l) = contentList l
  | [] => by rw [reloadedList]
  | v :: l => by rw [reloadedList, contentList, contentList, content_reloaded saver v, contentList_reloaded saver l]

theorem contentDict_reloaded (saver : String) : ∀ l : List (String × PyVal), contentDict (reloadedDict saver l) = contentDict l
  | [] => by rw [reloadedDict]
  | (k, v) :: l => by rw [reloadedDict, contentDict, contentDict, content_reloaded saver v, contentDict_reloaded saver l]

end

/-- **C49**: whatever the versions of riptide, a tree of supported objects that is saved can be loaded and has the same content. -/
theorem C49_roundtrip (saver loader : String) {v : PyVal} (h : Savable v) :
    ∃ v', saveLoad saver loader v = .ok v' ∧ content v' = content v :=
  ⟨_, saveLoad_eq saver loader h, content_reloaded saver v⟩

/-! ## The loaded objects can be saved again -/

theorem reloaded_ne_none (saver : String) {v : PyVal} (h : v ≠ .none) : reloaded saver v ≠ .none := by
  cases v <;> simp [reloaded] at h ⊢

mutual

theorem savable_reloaded (saver : String) : ∀ v : PyVal, Savable v → Savable (reloaded saver v)
  | .none, _ => by simp [reloaded, Savable]
  | .bool _, _ => by simp [reloaded, Savable]
  | .int _, _ => by simp [reloaded, Savable]
  | .float _, _ => by simp [reloaded, Savable]
  | .str _, _ => by simp [reloaded, Savable]
  | .npInt _, _ => by simp [reloaded, Savable]
  | .npFloat _, _ => by simp [reloaded, Savable]
  | .other _, h => by rw [Savable] at h; exact h.elim
  | .sky _ _, _ => by simp [reloaded, Savable]
  | .list l, h => by
    rw [Savable] at h
    rw [reloaded, Savable]; exact savableList_reloaded saver l h
  | .dict d, h => by
    rw [Savable] at h
    rw [reloaded, Savable]
    exact ⟨by unfold KeysOK; rw [reloadedDict_keys]; exact h.1, savableDict_reloaded saver d h.2⟩
  | .metadata d, h => by
    rw [Savable] at h
    rw [reloaded, Savable]
    exact ⟨by unfold KeysOK; rw [reloadedDict_keys]; exact h.1, savableDict_reloaded saver d h.2⟩
  | .ndarray a, h => by
    rw [Savable] at h
    rw [reloaded, Savable]; exact h
  | .frame t v c, h => by
    rw [Savable] at h
    rw [reloaded, Savable]; exact h
  | .object cls ver f, h => by
    rw [Savable] at h
    have hd := savableDict_reloaded saver f h.2
    obtain ⟨ho, hf⟩ := h
    rw [reloaded, Savable]
    rcases ho with ⟨rfl, a, t, d, rfl, hdt, he, hk, htobs⟩ | ⟨rfl, w, p, b, s, m, rfl, hm⟩ | ⟨rfl, p, m, k, s, rfl⟩
    · have e : restoreMeta "TimeSeries" (reloadedDict saver [("data", .ndarray a), ("tsamp", .float t), ("metadata", .metadata d)]) =
          [("data", .ndarray { a with writable := false }), ("tsamp", .float t), ("metadata", .metadata (reloadedDict saver d))] := by
        simp [reloadedDict, reloaded, restoreMeta]
      rw [e]
      simp only [reloadedDict, reloaded, SavableDict, Savable] at hd
      refine ⟨Or.inl ⟨rfl, { a with writable := false }, t, reloadedDict saver d, rfl, hdt, ?_, ?_, ?_⟩, ?_⟩
      · intro k v hkv
        obtain ⟨v', hv', rfl⟩ := mem_reloadedDict saver hkv
        exact entryOK_reloaded saver (he k v' hv')
      · intro k hkm
        obtain ⟨v, hv⟩ := hk k hkm
        exact ⟨reloaded saver v, by rw [dictGet_reloaded, hv]; rfl⟩
      · rw [dictGet_reloaded, htobs]; simp [reloaded]
      · simp only [SavableDict, Savable]
        exact hd
    · have e : ∀ f, restoreMeta "Periodogram" f = f := by intro f; simp [restoreMeta]
      rw [e]
      refine ⟨Or.inr (Or.inl ⟨rfl, reloaded saver w, reloaded saver p, reloaded saver b, reloaded saver s, reloaded saver m, ?_,
        reloaded_ne_none saver hm⟩), hd⟩
      simp [reloadedDict]
    · have e : ∀ f, restoreMeta "Candidate" f = f := by intro f; simp [restoreMeta]
      rw [e]
      exact ⟨Or.inr (Or.inr ⟨rfl, reloaded saver p, reloaded saver m, reloaded saver k, reloaded saver s, by simp [reloadedDict]⟩), hd⟩

theorem savableList_reloaded (saver : String) : ∀ l : List PyVal, SavableList l → SavableList (reloadedList saver l)
  | [], _ => by simp [reloadedList, SavableList]
  | v :: l, h => by
    rw [SavableList] at h
    rw [reloadedList, SavableList]
    exact ⟨savable_reloaded saver v h.1, savableList_reloaded saver l h.2⟩

theorem savableDict_reloaded (saver : String) : ∀ d : List (String × PyVal), SavableDict d → SavableDict (reloadedDict saver d)
  | [], _ => by simp [reloadedDict, SavableDict]
  | (k, v) :: l, h => by
    rw [SavableDict] at h
    rw [reloadedDict, SavableDict]
    exact ⟨savable_reloaded saver v h.1, savableDict_reloaded saver l h.2⟩

end

theorem reloadedDict_restoreMeta (saver cls : String) : ∀ f : List (String × PyVal),
    reloadedDict saver (restoreMeta cls f) = reloadedDict saver f := by
  intro f
  unfold restoreMeta
  split_ifs
  · induction f with
    | nil => rfl
    | cons a f ih =>
      rw [List.map_cons]
      split
      · rw [reloadedDict, reloadedDict, ih]; simp [reloaded]
      · obtain ⟨k, v⟩ := a
        rw [reloadedDict, reloadedDict, ih]
  · rfl

theorem writtenVersion_again (saver saver' : String) (ver : Option String) (h : saver ≠ "") :
    writtenVersion saver' (some (writtenVersion saver ver)) = writtenVersion saver ver := by
  have : writtenVersion saver ver ≠ "" := by
    unfold writtenVersion
    cases ver with
    | none => exact h
    | some v => simp only; split_ifs with hv
                · exact h
                · exact hv
  rw [writtenVersion, if_neg this]

mutual

theorem reloaded_again (saver saver' : String) (hs : saver ≠ "") : ∀ v : PyVal, reloaded saver' (reloaded saver v) = reloaded saver v
  | .none => rfl
  | .bool _ => rfl
  | .int _ => rfl
  | .float _ => rfl
  | .str _ => rfl
  | .npInt _ => rfl
  | .npFloat _ => rfl
  | .other _ => rfl
  | .sky _ _ => rfl
  | .list l => by rw [reloaded, reloaded, reloadedList_again saver saver' hs l]
  | .dict d => by rw [reloaded, reloaded, reloadedDict_again saver saver' hs d]
  | .metadata d => by rw [reloaded, reloaded, reloadedDict_again saver saver' hs d]
  | .ndarray a => by rw [reloaded, reloaded]
  | .frame t v c => by rw [reloaded, reloaded]
  | .object cls ver f => by
    rw [reloaded, reloaded, writtenVersion_again saver saver' ver hs, reloadedDict_restoreMeta, reloadedDict_again saver saver' hs f]

theorem reloadedList_again (saver saver' : String) (hs : saver ≠ "") : ∀ l : List PyVal,
    reloadedList saver' (reloadedList saver l) = reloadedList saver l
  | [] => by rw [reloadedList, reloadedList]
  | v :: l => by rw [reloadedList, reloadedList, reloaded_again saver saver' hs v, reloadedList_again saver saver' hs l]

theorem reloadedDict_again (saver saver' : String) (hs : saver ≠ "") : ∀ l : List (String × PyVal),
    reloadedDict saver' (reloadedDict saver l) = reloadedDict saver l
  | [] => by rw [reloadedDict, reloadedDict]
  | (k, v) :: l => by rw [reloadedDict, reloadedDict, reloaded_again saver saver' hs v, reloadedDict_again saver saver' hs l]

end

/-- **C49**: what has been loaded can be saved and loaded any number of times, by any versions of riptide, without the slightest change. -/
theorem C49_stable (saver loader saver' loader' : String) (hs : saver ≠ "") {v v' : PyVal} (h : Savable v)
    (hv : saveLoad saver loader v = .ok v') : saveLoad saver' loader' v' = .ok v' := by
  rw [saveLoad_eq saver loader h] at hv
  cases hv
  rw [saveLoad_eq saver' loader' (savable_reloaded saver v h), reloaded_again saver saver' hs v]

/-- **C49**: arrays come back with the same type, shape and bytes, but read-only. -/
theorem C49_array (saver loader : String) {a : NdArr} (h : ArrayOK a) :
    saveLoad saver loader (.ndarray a) = .ok (.ndarray { a with writable := false }) := by
  rw [saveLoad_eq saver loader (by rw [Savable]; exact h), reloaded]

/-- **C49**: a loaded object has the class and the version of that saved; if it had none, the version that saved it. A time series has
`Metadata`, as before. -/
theorem C49_object (saver loader cls : String) (ver : Option String) {f : List (String × PyVal)} (h : Savable (.object cls ver f)) :
    ∃ f', saveLoad saver loader (.object cls ver f) =
        .ok (.object cls (some (if ver = none ∨ ver = some "" then saver else ver.getD "")) f') ∧
      contentDict f' = contentDict f ∧ (cls = "TimeSeries" → ∃ md, dictGet f' "metadata" = some (.metadata md)) := by
  refine ⟨restoreMeta cls (reloadedDict saver f), ?_, ?_, ?_⟩
  · rw [saveLoad_eq saver loader h, reloaded]
    congr 3
    unfold writtenVersion
    cases ver with
    | none => simp
    | some v => by_cases hv : v = "" <;> simp [hv]
  · rw [content_restoreMeta, contentDict_reloaded]
  · rintro rfl
    rw [Savable] at h
    rcases h.1 with ⟨-, a, t, d, rfl, -⟩ | ⟨h, -⟩ | ⟨h, -⟩
    · exact ⟨reloadedDict saver d, by simp [reloadedDict, reloaded, restoreMeta, dictGet]⟩
    · exact absurd h (by decide)
    · exact absurd h (by decide)

/-- **C49**: `Metadata` come back as a plain dictionary, also as an attribute of a `Periodogram` or a `Candidate`. -/
theorem C49_metadata_type (saver loader : String) {d : List (String × PyVal)} (h : Savable (.metadata d)) :
    ∃ d', saveLoad saver loader (.metadata d) = .ok (.dict d') ∧ contentDict d' = contentDict d :=
  ⟨_, by rw [saveLoad_eq saver loader h, reloaded], contentDict_reloaded saver d⟩

/-- **C49**: the columns of a loaded frame all have the common type of the columns of the original. -/
theorem C49_frame_types (saver loader : String) (types : List String) {a : NdArr} {cols : List String}
    (h : Savable (.frame types a cols)) :
    ∃ a', saveLoad saver loader (.frame types a cols) = .ok (.frame (List.replicate cols.length a.dtype) a' cols) ∧
      a'.dtype = a.dtype ∧ a'.shape = a.shape ∧ a'.bytes = a.bytes := by
  refine ⟨{ a with writable := false }, ?_, rfl, rfl, rfl⟩
  rw [saveLoad_eq saver loader h, reloaded, List.map_const']

/-- **C49**: a dictionary of the user with the entry `__type__` can be saved, but not loaded. -/
theorem C49_reserved_key (saver loader : String) : (∃ j, toJson saver (.dict [("__type__", .str "pulsar")]) = .ok j) ∧
    saveLoad saver loader (.dict [("__type__", .str "pulsar")]) = .error .attributeError := by
  refine ⟨⟨_, rfl⟩, ?_⟩
  simp [saveLoad, toJson, toJsonDict, Except.bind, Except.map, fromJson, fromJsonDict, dictOf, dictSet, objectHook, dictGet, decodeObject,
    fromDict]

/-- **C49**: an array of python objects, such as the values of a frame with a column of strings, can be saved, but not loaded. -/
theorem C49_object_array (saver loader : String) (shape : List ℕ) (bytes : List UInt8) (w : Bool) :
    (∃ j, toJson saver (.ndarray ⟨"object", shape, bytes, w⟩) = .ok j) ∧
    saveLoad saver loader (.ndarray ⟨"object", shape, bytes, w⟩) = .error .valueError := by
  refine ⟨⟨_, rfl⟩, ?_⟩
  simp only [saveLoad, toJson, Except.bind, encodeArray]
  rw [fromJson]
  simp only [fromJsonDict, fromJson, fromJsonList_ints, Except.bind, Except.map]
  rw [dictOf_self (by simp)]
  simp [objectHook, decodeArray, dictItem, dictGet, Except.bind, C49_base64, asShape_ints, fromBuffer]

/-! ## Examples -/

def exArray : NdArr := ⟨"float32", [2], [0, 0, 128, 63, 0, 0, 0, 64], true⟩

def exMetadata : List (String × PyVal) :=
  [("source_name", .none), ("skycoord", .sky (.fin 10) (.fin (-20))), ("dm", .float (.fin 3)), ("mjd", .none), ("tobs", .float (.fin 2)),
    ("fname", .str "x.inf"), ("beams", .list [.int 1, .int 2])]

theorem exArray_ok : ArrayOK exArray := ⟨by decide, 4, by decide, by decide, by decide⟩

theorem exMetadata_ok : KeysOK exMetadata ∧ SavableDict exMetadata := by
  refine ⟨⟨by decide, by decide⟩, ?_⟩
  simp [exMetadata, SavableDict, Savable, SavableList]

/-- A time series in a list with other things. -/
example : Savable (.list [.npInt 3, .object "TimeSeries" none [("data", .ndarray exArray), ("tsamp", .float (.fin 1)),
    ("metadata", .metadata exMetadata)]]) := by
  simp only [Savable, SavableList, SavableDict, and_true, true_and]
  refine ⟨Or.inl ⟨rfl, exArray, .fin 1, exMetadata, rfl, rfl, ?_, ?_, ?_⟩, exArray_ok, exMetadata_ok⟩
  · intro k v h
    rw [← validMetaItem_iff]
    have : exMetadata.all (fun kv => validMetaItem (.str kv.1) kv.2) = true := by decide +kernel
    rw [List.all_eq_true] at this
    exact this (k, v) h
  · intro k hk
    simp only [List.mem_cons, List.not_mem_nil, or_false] at hk
    rcases hk with rfl | rfl | rfl | rfl | rfl | rfl <;> exact ⟨_, rfl⟩
  · simp [exMetadata, dictGet, PyFloat.mulInt, exArray]

/-- A candidate with a frame of peaks with a column of integers and a column of floats. -/
example : Savable (.object "Candidate" (some "0.2.4") [("params", .dict [("period", .float (.fin 1))]), ("tsmeta", .metadata exMetadata),
    ("peaks", .frame ["int64", "float32"] ⟨"float64", [1, 2], List.replicate 16 0, true⟩ ["width", "snr"]), ("subints", .ndarray exArray)]) := by
  simp only [Savable, SavableDict, and_true, true_and]
  exact ⟨Or.inr (Or.inr ⟨rfl, _, _, _, _, rfl⟩), ⟨by decide, by decide⟩, exMetadata_ok,
    ⟨⟨by decide, 8, by decide, by decide, by decide⟩, 1, rfl⟩, exArray_ok⟩

/-- **C49**: a `TimeSeries` that is loaded has the right `tobs`, whatever is in the file. -/
theorem C49_tobs (items f : PyDict String PyVal) (h : fromDict "TimeSeries" items = .ok f) :
    ∃ a t md, dictGet f "data" = some (.ndarray a) ∧ dictGet f "tsamp" = some (.float t) ∧
      dictGet f "metadata" = some (.metadata md) ∧ dictGet md "tobs" = some (.float (t.mulInt a.shape.prod)) := by
  unfold fromDict at h
  rw [if_pos rfl] at h
  obtain ⟨data, _, h⟩ := bind_ok_inv h
  obtain ⟨tsamp, _, h⟩ := bind_ok_inv h
  obtain ⟨md, _, h⟩ := bind_ok_inv h
  unfold timeSeriesFields at h
  split at h
  · split_ifs at h
    obtain ⟨m, _, h⟩ := map_ok_inv h
    subst h
    exact ⟨_, _, _, rfl, rfl, rfl, by rw [dictGet_set, if_pos rfl]⟩
  · cases h

/-- Non-vacuity: the fields of a `TimeSeries`. -/
example : ∃ f, fromDict "TimeSeries" [("data", .ndarray exArray), ("tsamp", .float (.fin 1)), ("metadata", .dict exMetadata)] = .ok f := by
  have h : (fromDict "TimeSeries" [("data", .ndarray exArray), ("tsamp", .float (.fin 1)), ("metadata", .dict exMetadata)]).isOk = true := by decide +kernel
  cases e : fromDict "TimeSeries" [("data", .ndarray exArray), ("tsamp", .float (.fin 1)), ("metadata", .dict exMetadata)] with
  | ok f => exact ⟨f, rfl⟩
  | error e' => rw [e] at h; exact nomatch h

end Verif.Props
