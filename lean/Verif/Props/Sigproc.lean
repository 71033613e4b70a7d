import Verif.Lemmas.Sigproc
import Verif.Props.Dm
import Verif.Props.Candidates

/-!
# Claims about SIGPROC files (C50, C51, C52)
-/

namespace Verif.Props

open Verif.Model Verif.Spec Verif.Lemmas

/-! ## C50 -/

/-- The type under which a header key is read: what `extra_keys` says, otherwise the standard one. -/
def knownType (extraKeys : PyDict String SigType) (k : String) : Option SigType :=
  (dictGet extraKeys k).or (dictGet sigprocKeydb k)

theorem dictGet_update {κ ν : Type*} [DecidableEq κ] (k : κ) : ∀ (e d : PyDict κ ν), (e.map Prod.fst).Nodup →
    dictGet (e.foldl (fun d kv => dictSet d kv.1 kv.2) d) k = (dictGet e k).or (dictGet d k) := by
  intro e
  induction e with
  | nil => intro d _; rfl
  | cons a e ih =>
    obtain ⟨a, b⟩ := a
    intro d hnd
    simp only [List.map_cons, List.nodup_cons] at hnd
    rw [List.foldl_cons, ih _ hnd.2, dictGet_set]
    simp only [dictGet]
    by_cases hak : a = k
    · subst hak
      rw [if_pos rfl, if_pos rfl]
      have : dictGet e a = none := by
        cases h : dictGet e a with
        | none => rfl
        | some v =>
          exfalso
          apply hnd.1
          clear ih hnd
          induction e with
          | nil => simp [dictGet] at h
          | cons c e ih2 =>
            obtain ⟨c1, c2⟩ := c
            simp only [dictGet] at h
            by_cases hc : c1 = a
            · simp [hc]
            · rw [if_neg hc] at h
              simp only [List.map_cons, List.mem_cons]
              exact Or.inr (ih2 h)
      rw [this]; rfl
    · rw [if_neg hak, if_neg hak]

/-- C50: a header written by SIGPROC with known keys is read back, whatever data follow; the size found is the offset of the
data. A key that occurs twice has its last value. -/
theorem C50_roundtrip (extraKeys : PyDict String SigType) (hex : (extraKeys.map Prod.fst).Nodup)
    (kvs : List (String × SigVal)) (data : List UInt8)
    (hk : ∀ kv ∈ kvs, kv.1 ≠ "HEADER_END" ∧ (utf8Bytes kv.1).length < 2 ^ 31 ∧
      knownType extraKeys kv.1 = some (typeOf kv.2) ∧ InRange kv.2) :
    readSigprocHeader (encodeHeader kvs ++ data) extraKeys = .ok (dictOf Prod.fst Prod.snd kvs, (encodeHeader kvs).length) := by
  obtain ⟨f, hf⟩ : ∃ f, f = encodeHeader kvs ++ data := ⟨_, rfl⟩
  rw [← hf]
  unfold encodeHeader at hf
  simp only [List.append_assoc] at hf
  unfold readSigprocHeader
  have h0 : f.drop 0 = encodeStr "HEADER_START" ++ ((kvs.map encodeAttr).flatten ++ (encodeStr "HEADER_END" ++ data)) := by
    rw [List.drop_zero, hf]
  have h1 := readStr_encode f 0 "HEADER_START" _ (by decide) h0
  simp only
  rw [h1]
  simp only [Except.bind]
  rw [if_neg (show ¬ ¬ "HEADER_START" = headerStart from not_not.2 rfl)]
  have h2 := drop_add_of h0 rfl
  rw [headerLoop_encode _ f data kvs _ [] ?_ (by rw [h2, List.append_assoc])]
  · unfold encodeHeader dictOf
    simp
  · intro kv hkv
    obtain ⟨a1, a2, a3, a4⟩ := hk kv hkv
    refine ⟨a1, a2, ?_, a4⟩
    rw [dictGet_update _ _ _ hex]
    exact a3

theorem dictOf_nodup {κ ν : Type*} [DecidableEq κ] : ∀ (l d : List (κ × ν)), ((d ++ l).map Prod.fst).Nodup →
    l.foldl (fun d x => dictSet d x.1 x.2) d = d ++ l := by
  intro l
  induction l with
  | nil => intro d _; simp
  | cons a l ih =>
    intro d hnd
    have hset : dictSet d a.1 a.2 = d ++ [a] := by
      have hnot : a.1 ∉ d.map Prod.fst := by
        intro hmem
        rw [List.map_append, List.nodup_append] at hnd
        exact hnd.2.2 _ hmem _ (by simp) rfl
      clear hnd ih
      induction d with
      | nil => rfl
      | cons b d ih2 =>
        obtain ⟨b1, b2⟩ := b
        simp only [List.map_cons, List.mem_cons, not_or] at hnot
        rw [dictSet, if_neg (fun h => hnot.1 h.symm), ih2 hnot.2]; rfl
    rw [List.foldl_cons, hset, ih (d ++ [a]) (by simpa using hnd)]
    simp

/-- C50: if no key is repeated, the dictionary read is exactly the list of attributes written. -/
theorem C50_roundtrip_distinct (kvs : List (String × SigVal)) (data : List UInt8) (hnd : (kvs.map Prod.fst).Nodup)
    (hk : ∀ kv ∈ kvs, dictGet sigprocKeydb kv.1 = some (typeOf kv.2) ∧ InRange kv.2) :
    readSigprocHeader (encodeHeader kvs ++ data) [] = .ok (kvs, (encodeHeader kvs).length) := by
  have hkeys : ∀ k t, dictGet sigprocKeydb k = some t → k ≠ "HEADER_END" ∧ (utf8Bytes k).length < 2 ^ 31 := by
    intro k t h
    have hmem : ∀ (d : PyDict String SigType), dictGet d k = some t → k ∈ d.map Prod.fst := by
      intro d
      induction d with
      | nil => intro h; simp [dictGet] at h
      | cons c e ih2 =>
        obtain ⟨c1, c2⟩ := c
        intro h
        simp only [dictGet] at h
        by_cases hc : c1 = k
        · simp [hc]
        · rw [if_neg hc] at h
          simp only [List.map_cons, List.mem_cons]
          exact Or.inr (ih2 h)
    have hall : ∀ k ∈ sigprocKeydb.map Prod.fst, k ≠ "HEADER_END" ∧ (utf8Bytes k).length < 2 ^ 31 := by decide +kernel
    exact hall k (hmem _ h)
  rw [C50_roundtrip [] (by simp) kvs data]
  · congr 2
    have := dictOf_nodup kvs [] (by simpa using hnd)
    simpa [dictOf] using this
  · intro kv hkv
    obtain ⟨h1, h2⟩ := hk kv hkv
    exact ⟨(hkeys _ _ h1).1, (hkeys _ _ h1).2, h1, h2⟩

/-- A header with values of all types (`tsamp` is 0.25). -/
def demoHeader : List (String × SigVal) := [("source_name", .str "J0835-4510"), ("nchans", .int 1), ("nbits", .int 8),
  ("tsamp", .float 0x3FD0000000000000), ("signed", .bool true), ("src_raj", .float 0), ("src_dej", .float 0),
  ("refdm", .float 0x4050FF5C28F5C28F)]

instance (v : SigVal) : Decidable (InRange v) := by unfold InRange; cases v <;> infer_instance

example : (demoHeader.map Prod.fst).Nodup ∧
    ∀ kv ∈ demoHeader, dictGet sigprocKeydb kv.1 = some (typeOf kv.2) ∧ InRange kv.2 := by decide +kernel
example : decodeDouble 0x3FD0000000000000 = .fin (1 / 4) := by decide +kernel
-- the hypotheses of the general theorem, with an extra key
example : ∀ kv ∈ [("telescope_diameter", SigVal.float 0), ("nbits", .int 32)], kv.1 ≠ "HEADER_END" ∧
    (utf8Bytes kv.1).length < 2 ^ 31 ∧ knownType [("telescope_diameter", .float)] kv.1 = some (typeOf kv.2) ∧ InRange kv.2 := by
  decide +kernel

theorem dictSet_length {κ ν : Type*} [DecidableEq κ] (k : κ) (v : ν) : ∀ d : PyDict κ ν, (dictSet d k v).length ≤ d.length + 1 := by
  intro d
  induction d with
  | nil => simp [dictSet]
  | cons b d ih =>
    obtain ⟨b1, b2⟩ := b
    rw [dictSet]
    split_ifs
    · simp
    · simp only [List.length_cons]; omega

theorem readValue_type {f : List UInt8} {pos : ℕ} {t : SigType} {r : SigVal × ℕ} (h : readValue f pos t = .ok r) :
    typeOf r.1 = t := by
  cases t with
  | str => obtain ⟨a, -, rfl⟩ := map_ok_inv h; rfl
  | int => obtain ⟨a, -, h⟩ := map_ok_inv h; rw [← h]; rfl
  | float => obtain ⟨a, -, h⟩ := map_ok_inv h; rw [← h]; rfl
  | bool => obtain ⟨a, -, h⟩ := map_ok_inv h; rw [← h]; rfl
  | unsupported => cases h

theorem readAttribute_inv {keydb : PyDict String SigType} {f : List UInt8} {pos : ℕ} {r : String × Option SigVal × ℕ}
    (h : readAttribute keydb f pos = .ok r) :
    (r.1 = headerEnd ∧ r.2.1 = none) ∨ ∃ v, r.1 ≠ headerEnd ∧ r.2.1 = some v ∧ dictGet keydb r.1 = some (typeOf v) := by
  unfold readAttribute at h
  obtain ⟨a, -, h⟩ := bind_ok_inv h
  by_cases hk : a.1 = headerEnd
  · rw [if_pos hk] at h; cases h; exact Or.inl ⟨hk, rfl⟩
  · rw [if_neg hk] at h
    cases hd : dictGet keydb a.1 with
    | none => rw [hd] at h; cases h
    | some t =>
      rw [hd] at h
      obtain ⟨v, hv, rfl⟩ := map_ok_inv h
      exact Or.inr ⟨v.1, hk, rfl, by simp only; rw [hd, readValue_type hv]⟩

theorem headerLoop_inv (keydb : PyDict String SigType) (f : List UInt8) : ∀ (pos : ℕ) (attrs : PyDict String SigVal)
    (r : PyDict String SigVal × ℕ), headerLoop keydb f pos attrs = .ok r →
    (∀ k v, dictGet attrs k = some v → k ≠ "HEADER_END" ∧ dictGet keydb k = some (typeOf v)) →
    r.2 ≤ f.length ∧ pos + 4 + 4 * r.1.length ≤ r.2 + 4 * attrs.length ∧
    ∀ k v, dictGet r.1 k = some v → k ≠ "HEADER_END" ∧ dictGet keydb k = some (typeOf v) := by
  intro pos attrs
  induction pos, attrs using headerLoop.induct keydb f with
  | case1 pos attrs e h => intro r hr; rw [headerLoop_error h] at hr; cases hr
  | case2 pos attrs key pos' h =>
    intro r hr hd
    rw [headerLoop_ok_end h] at hr
    cases hr
    have := readAttribute_pos h
    simp only at this ⊢
    exact ⟨this.2.2, by omega, hd⟩
  | case3 pos attrs key val pos' h ih =>
    intro r hr hd
    rw [headerLoop_ok_step h] at hr
    have hp := readAttribute_pos h
    simp only at hp
    obtain ⟨a1, a2, a3⟩ := ih r hr (by
      intro k v hkv
      rw [dictGet_set] at hkv
      by_cases hk : key = k
      · subst hk
        rw [if_pos rfl] at hkv
        cases hkv
        rcases readAttribute_inv h with ⟨h1, h2⟩ | ⟨v', h1, h2, h3⟩
        · cases h2
        · cases h2; exact ⟨h1, h3⟩
      · rw [if_neg hk] at hkv; exact hd k v hkv)
    have := dictSet_length key val attrs
    exact ⟨a1, by omega, a3⟩

/-- C50: the parser yields a result or an exception on every sequence of bytes (it is a total function, its loop takes at least
four bytes per turn). A header that is accepted lies within the file, takes at least four bytes for each of its attributes and
the two flags, and has only known keys, with values of the right type. -/
theorem C50_accepted (f : List UInt8) (extraKeys : PyDict String SigType) (hex : (extraKeys.map Prod.fst).Nodup)
    (attrs : PyDict String SigVal) (n : ℕ) (h : readSigprocHeader f extraKeys = .ok (attrs, n)) :
    n ≤ f.length ∧ 4 * (attrs.length + 2) ≤ n ∧
    ∀ k v, dictGet attrs k = some v → k ≠ "HEADER_END" ∧ knownType extraKeys k = some (typeOf v) := by
  unfold readSigprocHeader at h
  obtain ⟨r, hr, h⟩ := bind_ok_inv h
  split_ifs at h with hs
  have hp := readStr_pos hr
  obtain ⟨a1, a2, a3⟩ := headerLoop_inv _ f _ _ _ h (by intro k v hkv; simp [dictGet] at hkv)
  refine ⟨a1, ?_, ?_⟩
  · simp only [List.length_nil] at a2; omega
  · intro k v hkv
    obtain ⟨b1, b2⟩ := a3 k v hkv
    rw [dictGet_update _ _ _ hex] at b2
    exact ⟨b1, b2⟩

/-- The bytes of an accepted 32-bit integer are those that encode it. -/
theorem encodeInt_unpackInt {b : List UInt8} {i : ℤ} (h : unpackInt b = .ok i) : b = encodeInt i := by
  unfold unpackInt at h
  split_ifs at h with h1 h2
  all_goals
    cases h
    have hlt := leNat_lt b
    rw [h1] at hlt
    have hb : ∀ (k : ℕ) (l : List UInt8), l.length = k → leBytes k (leNat l) = l := by
      intro k
      induction k with
      | zero => intro l hl; rw [List.length_eq_zero_iff] at hl; subst hl; rfl
      | succ k ih =>
        intro l hl
        match l, hl with
        | a :: l, hl =>
          have hl' : l.length = k := by simpa using hl
          have ha := a.toNat_lt
          have e1 : (a.toNat + 256 * leNat l) % 256 = a.toNat := by omega
          have e2 : (a.toNat + 256 * leNat l) / 256 = leNat l := by omega
          simp only [leNat, leBytes, e1, e2, ih l hl', UInt8.ofNat_toNat]
    rw [encodeInt]
    conv_lhs => rw [← hb 4 b h1]
    congr 1
    norm_num at *
    omega

theorem pyDecode_inv {b : List UInt8} {s : String} (h : pyDecode b = .ok s) : b = utf8Bytes s := by
  unfold pyDecode at h
  unfold String.fromUTF8? at h
  by_cases hv : ByteArray.IsValidUTF8 ⟨b.toArray⟩
  · rw [dif_pos hv] at h
    cases h
    simp [utf8Bytes, String.fromUTF8]
  · rw [dif_neg hv] at h; cases h

/-- A string that does not extend to the end of the file was written as SIGPROC does. -/
theorem readStr_inv {f : List UInt8} {pos : ℕ} {r : String × ℕ} (h : readStr f pos = .ok r) (hr : r.2 < f.length) :
    ∃ rest, f.drop pos = encodeStr r.1 ++ rest ∧ r.2 = pos + (encodeStr r.1).length := by
  unfold readStr at h
  obtain ⟨r1, h1, h⟩ := bind_ok_inv h
  obtain ⟨size, h2, h⟩ := bind_ok_inv h
  obtain ⟨r2, h3, h⟩ := bind_ok_inv h
  obtain ⟨s, h4, rfl⟩ := map_ok_inv h
  simp only at hr ⊢
  have e1 := encodeInt_unpackInt h2
  have e2 := pyDecode_inv h4
  have hlen4 : r1.1.length = 4 := by rw [e1, encodeInt_length]
  unfold fileRead at h1
  rw [if_neg (by norm_num), if_neg (by norm_num)] at h1
  cases h1
  simp only at h2 h3 hlen4 e1
  have ht4 : (4 : ℤ).toNat = 4 := rfl
  rw [ht4] at h2 h3 hlen4 e1
  rw [hlen4] at h3
  unfold fileRead at h3
  split_ifs at h3 with c1 c2
  · cases h3
    simp only [List.length_drop] at hr
    omega
  · cases h3
    simp only at e2 hr ⊢
    obtain ⟨m, hm⟩ : ∃ m, m = size.toNat := ⟨_, rfl⟩
    rw [← hm] at e2 hr ⊢
    have hsize : size = (m : ℤ) := by omega
    have hlt : m ≤ (f.drop (pos + 4)).length := by
      by_contra hcon
      rw [List.take_of_length_le (by omega)] at hr
      simp only [List.length_drop] at hr hcon
      omega
    have hl2 : ((f.drop (pos + 4)).take m).length = m := by rw [List.length_take]; omega
    refine ⟨(f.drop (pos + 4)).drop m, ?_, ?_⟩
    · conv_lhs => rw [← List.take_append_drop 4 (f.drop pos), List.drop_drop, e1]
      rw [encodeStr, ← e2, hl2, ← hsize, List.append_assoc, List.take_append_drop]
    · rw [encodeStr, ← e2, hl2, List.length_append, encodeInt_length, hl2]; omega

/-- C50: only files that begin with the flag are accepted. -/
theorem C50_starts_with_flag (f : List UInt8) (extraKeys : PyDict String SigType) (r : PyDict String SigVal × ℕ)
    (h : readSigprocHeader f extraKeys = .ok r) : encodeStr "HEADER_START" <+: f := by
  unfold readSigprocHeader at h
  obtain ⟨a, ha, h⟩ := bind_ok_inv h
  split_ifs at h with hs
  have hlt : a.2 < f.length := by
    by_contra hcon
    obtain ⟨e, he⟩ : ∃ e, readAttribute (extraKeys.foldl (fun d kv => dictSet d kv.1 kv.2) sigprocKeydb) f a.2 = .error e := by
      cases hra : readAttribute (extraKeys.foldl (fun d kv => dictSet d kv.1 kv.2) sigprocKeydb) f a.2 with
      | error e => exact ⟨e, rfl⟩
      | ok x => have := readAttribute_pos hra; omega
    rw [headerLoop_error he] at h
    cases h
  obtain ⟨rest, h1, -⟩ := readStr_inv ha hlt
  rw [List.drop_zero, show a.1 = "HEADER_START" from hs] at h1
  exact ⟨rest, h1.symm⟩

/-! ## C52 -/

theorem pyDivmod_add (a : ℕ) (y b : ℚ) (hy : 0 < y) (hb0 : 0 ≤ b) (hb : b < y) : pyDivmod (a * y + b) y = ((a : ℚ), b) := by
  have hfl : ⌊((a : ℚ) * y + b) / y⌋ = (a : ℤ) := by
    rw [Int.floor_eq_iff]
    constructor
    · rw [le_div_iff₀ hy]; push_cast; linarith
    · rw [div_lt_iff₀ hy]; push_cast; linarith
  unfold pyDivmod
  rw [hfl]
  refine Prod.ext ?_ ?_
  · simp
  · simp only [Int.cast_natCast]; ring

/-- C52: `±ddmmss.s` is read as `±(dd + mm / 60 + ss.s / 3600)`, also if `dd` is zero. -/
theorem C52_coordinates (negative : Bool) (d m : ℕ) (s : ℚ) (hm : m < 60) (hs0 : 0 ≤ s) (hs : s < 60) :
    parseFloatCoord ((if negative then -1 else 1) * (d * 10000 + m * 100 + s))
      = (if negative then -1 else 1) * (d + m / 60 + s / 3600) := by
  have hm' : (m : ℚ) ≤ 59 := by exact_mod_cast Nat.le_of_lt_succ hm
  have hm0 : (0 : ℚ) ≤ m := Nat.cast_nonneg m
  have hd0 : (0 : ℚ) ≤ d := Nat.cast_nonneg d
  obtain ⟨x, hx⟩ : ∃ x : ℚ, x = d * 10000 + m * 100 + s := ⟨_, rfl⟩
  have hx0 : 0 ≤ x := by rw [hx]; positivity
  have h1 : pyDivmod x 10000 = ((d : ℚ), m * 100 + s) := by
    rw [hx, show (d : ℚ) * 10000 + m * 100 + s = d * 10000 + (m * 100 + s) by ring]
    exact pyDivmod_add d 10000 _ (by norm_num) (by positivity) (by linarith)
  have h2 : pyDivmod (m * 100 + s) 100 = ((m : ℚ), s) := pyDivmod_add m 100 s (by norm_num) hs0 (by linarith)
  rw [← hx]
  have habs : |(if negative then -1 else 1) * x| = x := by
    cases negative
    · simp [abs_of_nonneg hx0]
    · simp [abs_of_nonneg hx0]
  unfold parseFloatCoord
  simp only [habs, h1, h2]
  by_cases hz : x = 0
  · have hd : (d : ℚ) = 0 := by nlinarith
    have hm2 : (m : ℚ) = 0 := by nlinarith
    have hs2 : s = 0 := by nlinarith
    simp [hd, hm2, hs2]
  · have hpos : 0 < x := lt_of_le_of_ne hx0 (Ne.symm hz)
    congr 1
    unfold npSign
    cases negative
    · simp only [Bool.false_eq_true, if_false, one_mul]
      rw [if_neg (by linarith), if_neg hz]
    · simp only [if_true, neg_one_mul, Left.neg_neg_iff]
      rw [if_pos hpos]

-- -00:30:36 is half a degree and a bit south
example : parseFloatCoord (-3036) = -(30 / 60 + 36 / 3600) := by decide +kernel
example : parseFloatCoord 83520.61149 = 8 + 35 / 60 + 20.61149 / 3600 := by decide +kernel

/-! ## C51 -/

theorem dictItem_ok {ν : Type*} {d : PyDict String ν} {k : String} {v : ν} (h : dictItem d k = .ok v) : dictGet d k = some v := by
  unfold dictItem at h
  cases hg : dictGet d k with
  | none => rw [hg] at h; cases h
  | some w => rw [hg] at h; cases h; rfl

theorem dictItem_error {ν : Type*} {d : PyDict String ν} {k : String} {e : PyErr} (h : dictItem d k = .error e) :
    e = .keyError := by
  unfold dictItem at h
  cases hg : dictGet d k with
  | none => rw [hg] at h; cases h; rfl
  | some w => rw [hg] at h; cases h

theorem asInt_ok {v : SigVal} {i : ℤ} (h : v.asInt = .ok i) : v = .int i := by
  cases v <;> simp [SigVal.asInt] at h
  rw [h]

theorem asInt_error {v : SigVal} {e : PyErr} (h : v.asInt = .error e) : e = .typeError := by
  cases v <;> simp [SigVal.asInt] at h <;> exact h.symm

theorem asFloat_error {v : SigVal} {e : PyErr} (h : v.asFloat = .error e) : e = .typeError := by
  cases v <;> simp [SigVal.asFloat] at h <;> exact h.symm

theorem bind_error_inv {α β ε : Type*} {x : Except ε α} {f : α → Except ε β} {e : ε} (h : x.bind f = .error e) :
    x = .error e ∨ ∃ a, x = .ok a ∧ f a = .error e := by
  cases x with
  | error e' => left; cases h; rfl
  | ok a => exact Or.inr ⟨a, rfl, h⟩

theorem map_error_inv {α β ε : Type*} {x : Except ε α} {f : α → β} {e : ε} (h : x.map f = .error e) : x = .error e := by
  cases x with
  | error e' => simpa [Except.map] using h
  | ok a => cases h

/-- A SIGPROC header that `Metadata.from_sigproc` must refuse with a `ValueError`: several channels, a number of bits other than 8
and 32, or 8 bits without signedness. -/
def Unsupported (attrs : PyDict String SigVal) : Prop :=
  ∃ nchans, dictGet attrs "nchans" = some (.int nchans) ∧
    (1 < nchans ∨ ∃ nbits, dictGet attrs "nbits" = some (.int nbits) ∧
      ((nbits ≠ 8 ∧ nbits ≠ 32) ∨ (nbits = 8 ∧ dictGet attrs "signed" = none)))

theorem sigprocChecks_valueError (h : SigHeader) : sigprocChecks h = .error .valueError ↔ Unsupported h.attrs := by
  unfold sigprocChecks Unsupported
  constructor
  · intro he
    rcases bind_error_inv he with h1 | ⟨v, h1, he⟩
    · cases dictItem_error h1
    rcases bind_error_inv he with h2 | ⟨nchans, h2, he⟩
    · cases asInt_error h2
    refine ⟨nchans, by rw [dictItem_ok h1, asInt_ok h2], ?_⟩
    split_ifs at he with hc
    · exact Or.inl hc
    right
    rcases bind_error_inv he with h3 | ⟨v, h3, he⟩
    · cases dictItem_error h3
    rcases bind_error_inv he with h4 | ⟨nbits, h4, he⟩
    · cases asInt_error h4
    refine ⟨nbits, by rw [dictItem_ok h3, asInt_ok h4], ?_⟩
    split_ifs at he with c1 c2
    · exact Or.inr c2
    · left; push Not at c1; exact c1
  · rintro ⟨nchans, h1, h2⟩
    have e1 : dictItem h.attrs "nchans" = .ok (.int nchans) := by unfold dictItem; rw [h1]
    rw [e1]
    simp only [Except.bind, SigVal.asInt]
    by_cases hc : nchans > 1
    · rw [if_pos hc]
    · rw [if_neg hc]
      rcases h2 with h2 | ⟨nbits, h2, h3⟩
      · exact absurd h2 hc
      have e2 : dictItem h.attrs "nbits" = .ok (.int nbits) := by unfold dictItem; rw [h2]
      rw [e2]
      simp only
      rcases h3 with ⟨a, b⟩ | ⟨a, b⟩
      · rw [if_pos (by push Not; exact ⟨a, b⟩)]
      · rw [if_neg (not_not.2 (Or.inl a)), if_pos ⟨a, b⟩]

theorem metadataInit_error {d : MetaDict} {e : PyErr} (h : metadataInit d = .error e) : e = .schemaError := by
  unfold metadataInit at h
  split_ifs at h
  cases h; rfl

/-- C51: `Metadata.from_sigproc` raises `ValueError` exactly for the unsupported files. -/
theorem C51_value_error (h : SigHeader) (fname : String) :
    metadataFromSigproc h fname = .error .valueError ↔ Unsupported h.attrs := by
  rw [← sigprocChecks_valueError]
  unfold metadataFromSigproc
  constructor
  · intro he
    rcases bind_error_inv he with h1 | ⟨v, h1, he⟩
    · exact h1
    exfalso
    simp only at he
    rcases bind_error_inv he with h2 | ⟨c, h2, he⟩
    · unfold SigHeader.skycoord at h2
      rcases bind_error_inv h2 with h3 | ⟨v, h3, h2⟩
      · cases dictItem_error h3
      rcases bind_error_inv h2 with h4 | ⟨v, h4, h2⟩
      · cases asFloat_error h4
      rcases bind_error_inv h2 with h5 | ⟨v, h5, h2⟩
      · cases dictItem_error h5
      · cases asFloat_error (map_error_inv h2)
    rcases bind_error_inv he with h2 | ⟨t, h2, he⟩
    · unfold SigHeader.tobs at h2
      rcases bind_error_inv h2 with h3 | ⟨n, h3, h2⟩
      · unfold SigHeader.nsamp at h3
        rcases bind_error_inv h3 with h4 | ⟨b, h4, h3⟩
        · unfold SigHeader.bytesPerSample at h4
          rcases bind_error_inv h4 with h5 | ⟨v, h5, h4⟩
          · cases dictItem_error h5
          rcases bind_error_inv h4 with h6 | ⟨v, h6, h4⟩
          · cases asInt_error h6
          rcases bind_error_inv h4 with h7 | ⟨v, h7, h4⟩
          · cases dictItem_error h7
          rcases bind_error_inv h4 with h8 | ⟨v, h8, h4⟩
          · cases asInt_error h8
          · cases h4
        · unfold pyFloorDiv at h3
          split_ifs at h3
          cases h3
      rcases bind_error_inv h2 with h5 | ⟨v, h5, h2⟩
      · cases dictItem_error h5
      · cases asFloat_error (map_error_inv h2)
    · cases metadataInit_error he
  · intro h1
    rw [h1]; rfl

theorem mem_dictSet_self {κ ν : Type*} [DecidableEq κ] (k : κ) (v : ν) : ∀ d : PyDict κ ν, (k, v) ∈ dictSet d k v := by
  intro d
  induction d with
  | nil => simp [dictSet]
  | cons b d ih =>
    obtain ⟨b1, b2⟩ := b
    rw [dictSet]
    split_ifs with hb
    · simp [hb]
    · simp [ih]

theorem readFloat32_length : ∀ (n : ℕ) (l : List UInt8), l.length = n → (readFloat32 l).length = n / 4 := by
  intro n
  induction n using Nat.strong_induction_on with
  | _ n ih =>
    intro l hl
    match l, hl with
    | [], hl => simp at hl; subst hl; rfl
    | [_], hl => simp at hl; subst hl; rfl
    | [_, _], hl => simp at hl; subst hl; rfl
    | [_, _, _], hl => simp at hl; subst hl; rfl
    | a :: b :: c :: d :: l, hl =>
      simp only [List.length_cons] at hl
      simp only [readFloat32, List.length_cons]
      rw [ih l.length (by omega) l rfl]
      omega

/-- C51: the number of samples loaded is the number of samples computed from the header and the file size, also if the file ends
with an incomplete sample; there is at least one; and the length in seconds, both in the header object and in the metadata, is that
number times the sampling time. The hypothesis excludes corrupt headers (see `C51_negative_channels`). -/
theorem C51_sample_count (f : List UInt8) (extraKeys : PyDict String SigType) (hex : (extraKeys.map Prod.fst).Nodup)
    (fname : String) (ts : LoadedSeries) (h : timeSeriesFromSigproc f extraKeys fname = .ok ts)
    (hsane : ∀ hd i, sigHeader f extraKeys = .ok hd → dictGet hd.attrs "nchans" = some (.int i) → 0 ≤ i) :
    ∃ hd, sigHeader f extraKeys = .ok hd ∧ hd.nsamp = .ok ts.samples.length ∧ ts.samples ≠ [] ∧
      hd.tobs = .ok (ts.tsamp.mulInt ts.samples.length) ∧
      dictGet ts.metadata (.str "tobs") = some (.float (ts.tsamp.mulInt ts.samples.length)) := by
  unfold timeSeriesFromSigproc at h
  obtain ⟨hd, e1, h⟩ := bind_ok_inv h
  obtain ⟨md, e2, h⟩ := bind_ok_inv h
  obtain ⟨samples, e3, h⟩ := bind_ok_inv h
  obtain ⟨v, e4, h⟩ := bind_ok_inv h
  obtain ⟨tsamp, e5, h⟩ := bind_ok_inv h
  obtain ⟨md2, e6, rfl⟩ := map_ok_inv h
  refine ⟨hd, e1, ?_⟩
  simp only
  have hsize : hd.filesize = f.length ∧ hd.bytesize ≤ f.length := by
    unfold sigHeader at e1
    obtain ⟨r, hr, rfl⟩ := map_ok_inv e1
    exact ⟨rfl, (C50_accepted f extraKeys hex r.1 r.2 hr).1⟩
  -- the checks
  unfold metadataFromSigproc at e2
  obtain ⟨u, c1, e2⟩ := bind_ok_inv e2
  simp only at e2
  obtain ⟨c, -, e2⟩ := bind_ok_inv e2
  obtain ⟨t, c2, e2⟩ := bind_ok_inv e2
  unfold sigprocChecks at c1
  obtain ⟨v1, d1, c1⟩ := bind_ok_inv c1
  obtain ⟨nchans, d2, c1⟩ := bind_ok_inv c1
  split_ifs at c1 with g1
  obtain ⟨v2, d3, c1⟩ := bind_ok_inv c1
  obtain ⟨nbits, d4, c1⟩ := bind_ok_inv c1
  split_ifs at c1 with g2 g3
  have hn0 := hsane hd nchans e1 (by rw [dictItem_ok d1, asInt_ok d2])
  -- the number of samples
  have hns : hd.nsamp = pyFloorDiv ((hd.filesize : ℤ) - hd.bytesize) ((nchans * nbits).fdiv 8) := by
    unfold SigHeader.nsamp SigHeader.bytesPerSample
    rw [d1, d3]
    simp only [Except.bind, d2, d4]
  have hc : nchans = 1 := by
    by_contra hne
    have : nchans = 0 := by omega
    rw [this] at hns
    unfold SigHeader.tobs at c2
    rw [hns] at c2
    simp [pyFloorDiv, Except.bind] at c2
  rw [hc, one_mul] at hns
  have hlen : hd.nsamp = .ok (samples.length : ℤ) := by
    rw [hns]
    unfold loadSigproc at e3
    rw [d3] at e3
    simp only [Except.bind, d4] at e3
    by_cases hb : nbits = 8
    · subst hb
      rw [if_pos rfl] at e3
      obtain ⟨sg, -, rfl⟩ := map_ok_inv e3
      unfold readInt8 pyFloorDiv
      rw [List.length_map, List.length_drop, hsize.1]
      simp
      omega
    · have hb : nbits = 32 := by tauto
      subst hb
      rw [if_neg (by norm_num)] at e3
      cases e3
      rw [readFloat32_length _ _ rfl, List.length_drop, hsize.1]
      unfold pyFloorDiv
      have : ((32 : ℤ).fdiv 8) = 4 := by decide
      rw [this, if_neg (by norm_num), Int.fdiv_eq_ediv_of_nonneg _ (by norm_num)]
      congr 1
      omega
  have htobs : hd.tobs = .ok (tsamp.mulInt samples.length) := by
    unfold SigHeader.tobs
    rw [hlen, e4]
    simp only [Except.bind, e5, Except.map]
  refine ⟨hlen, ?_, htobs, by rw [dictGet_set, if_pos rfl]⟩
  -- an empty file has no positive length
  rintro rfl
  rw [htobs] at c2
  cases c2
  unfold metadataInit at e2
  split_ifs at e2 with hall
  rw [List.all_eq_true] at hall
  have := hall _ (mem_dictSet_self _ _ _)
  simp only [validMetaItem] at this
  cases tsamp <;> simp [PyFloat.mulInt, validOptPos, PyFloat.pos] at this

theorem dictGet_toMeta (k : String) : ∀ d : PyDict String SigVal,
    dictGet (d.map (fun kv => (DKey.str kv.1, kv.2.toPy))) (.str k) = (dictGet d k).map SigVal.toPy := by
  intro d
  induction d with
  | nil => rfl
  | cons b d ih =>
    obtain ⟨b1, b2⟩ := b
    simp only [List.map_cons, dictGet, DKey.str.injEq]
    split_ifs
    · rfl
    · exact ih

theorem metaSetDefault_get (d : MetaDict) (k : String) (k' : DKey) :
    dictGet (metaSetDefault d k) k' = if .str k = k' then some ((dictGet d k').getD .none) else dictGet d k' := by
  unfold metaSetDefault
  by_cases hk : DKey.str k = k'
  · subst hk
    rw [if_pos rfl]
    cases hg : dictGet d (.str k) with
    | none => simp only; rw [dictGet_set, if_pos rfl]; rfl
    | some v => simp only [Option.getD_some]; exact hg
  · rw [if_neg hk]
    cases hg : dictGet d (.str k) with
    | none => simp only; rw [dictGet_set, if_neg hk]
    | some v => rfl

theorem setDefaults_get (k' : DKey) : ∀ (ks : List String) (d : MetaDict),
    dictGet (ks.foldl metaSetDefault d) k' = if ∃ k ∈ ks, .str k = k' then some ((dictGet d k').getD .none) else dictGet d k' := by
  intro ks
  induction ks with
  | nil => intro d; simp
  | cons a ks ih =>
    intro d
    rw [List.foldl_cons, ih, metaSetDefault_get]
    by_cases h1 : DKey.str a = k'
    · simp [h1]
    · simp [h1]

theorem knownItem_valid {k : String} {v : SigVal} (h : dictGet sigprocKeydb k = some (typeOf v)) :
    validMetaItem (.str k) v.toPy = true := by
  have hres : ∀ k ∈ ["skycoord", "dm", "mjd", "tobs", "fname"], dictGet sigprocKeydb k = none := by decide +kernel
  have hn : ∀ r ∈ ["skycoord", "dm", "mjd", "tobs", "fname"], k ≠ r := by
    rintro r hr rfl
    rw [hres k hr] at h; cases h
  have hj : v.toPy.jsonable = true := by cases v <;> rfl
  unfold validMetaItem
  simp only
  split_ifs with a1 a2 a3 a4 a5 a6
  · subst a1
    have : dictGet sigprocKeydb "source_name" = some .str := by decide +kernel
    rw [this] at h
    cases v <;> simp [typeOf] at h
    rfl
  · exact absurd a2 (hn _ (by simp))
  · exact absurd a3 (hn _ (by simp))
  · exact absurd a4 (hn _ (by simp))
  · exact absurd a5 (hn _ (by simp))
  · exact absurd a6 (hn _ (by simp))
  · exact hj

theorem all_dictSet {P : DKey × PyVal → Prop} {d : MetaDict} {k : DKey} {v : PyVal} (hd : ∀ kv ∈ d, P kv) (hv : P (k, v)) :
    ∀ kv ∈ dictSet d k v, P kv := by
  intro kv hkv
  rcases mem_dictSet hkv with rfl | h
  · exact hv
  · exact hd kv h

/-- A header value as an entry of the metadata, `None` if missing. -/
def headerEntry (kvs : PyDict String SigVal) (k : String) : PyVal := ((dictGet kvs k).map SigVal.toPy).getD .none

/-- The metadata of a valid header. -/
theorem metadataFromSigproc_ok (hd : SigHeader) (fname : String) (t : PyFloat) (c : PyFloat × PyFloat)
    (hk : ∀ kv ∈ hd.attrs, dictGet sigprocKeydb kv.1 = some (typeOf kv.2))
    (hchk : sigprocChecks hd = .ok ()) (hsky : hd.skycoord = .ok c) (htobs : hd.tobs = .ok t) (htpos : t.pos = true)
    (hdm : ∀ b, dictGet hd.attrs "refdm" = some (.float b) → (decodeDouble b).nonneg = true)
    (hmjd : ∀ b, dictGet hd.attrs "tstart" = some (.float b) → (decodeDouble b).nonneg = true) :
    ∃ md, metadataFromSigproc hd fname = .ok md ∧ metadataInit md = .ok md ∧
      dictGet md (.str "dm") = some (headerEntry hd.attrs "refdm") ∧ dictGet md (.str "mjd") = some (headerEntry hd.attrs "tstart") ∧
      dictGet md (.str "source_name") = some (headerEntry hd.attrs "source_name") ∧
      dictGet md (.str "skycoord") = some (.sky c.1 c.2) ∧ dictGet md (.str "fname") = some (.str fname) ∧
      dictGet md (.str "tobs") = some (.float t) ∧
      ∀ k ∉ reservedMetaKeys, dictGet md (.str k) = (dictGet hd.attrs k).map SigVal.toPy := by
  have hflt : ∀ key, dictGet sigprocKeydb key = some .float →
      (∀ b, dictGet hd.attrs key = some (.float b) → (decodeDouble b).nonneg = true) →
      validOptNonneg (headerEntry hd.attrs key) = true := by
    intro key hkey hb
    unfold headerEntry
    cases hg : dictGet hd.attrs key with
    | none => rfl
    | some v =>
      have := hk _ (dictGet_mem hg)
      simp only at this
      rw [hkey] at this
      cases v <;> simp [typeOf] at this
      simp only [Option.map_some, Option.getD_some, SigVal.toPy, validOptNonneg]
      exact hb _ hg
  have hstr : validOptStr (headerEntry hd.attrs "source_name") = true := by
    unfold headerEntry
    cases hg : dictGet hd.attrs "source_name" with
    | none => rfl
    | some v =>
      have := knownItem_valid (hk _ (dictGet_mem hg))
      simpa [validMetaItem] using this
  unfold metadataFromSigproc
  rw [hchk, hsky, htobs]
  simp only [Except.bind]
  have hget : ∀ k, getOrNone (hd.attrs.map (fun kv => (DKey.str kv.1, kv.2.toPy))) k = headerEntry hd.attrs k := by
    intro k; unfold getOrNone headerEntry; rw [dictGet_toMeta]
  obtain ⟨d, hd'⟩ : ∃ d : MetaDict, d = dictSet (dictSet (dictSet (dictSet (dictSet (dictSet
      (hd.attrs.map (fun kv => (DKey.str kv.1, kv.2.toPy))) (.str "dm") (headerEntry hd.attrs "refdm"))
      (.str "skycoord") (.sky c.1 c.2)) (.str "source_name") (headerEntry hd.attrs "source_name"))
      (.str "mjd") (headerEntry hd.attrs "tstart")) (.str "fname") (.str fname)) (.str "tobs") (.float t) := ⟨_, rfl⟩
  have hsn : getOrNone (dictSet (dictSet
      (hd.attrs.map (fun kv => (DKey.str kv.1, kv.2.toPy))) (.str "dm") (headerEntry hd.attrs "refdm"))
      (.str "skycoord") (.sky c.1 c.2)) "source_name" = headerEntry hd.attrs "source_name" := by
    rw [← hget "source_name"]; unfold getOrNone; simp [dictGet_set]
  have hts : getOrNone (dictSet (dictSet (dictSet
      (hd.attrs.map (fun kv => (DKey.str kv.1, kv.2.toPy))) (.str "dm") (headerEntry hd.attrs "refdm"))
      (.str "skycoord") (.sky c.1 c.2)) (.str "source_name") (headerEntry hd.attrs "source_name")) "tstart"
      = headerEntry hd.attrs "tstart" := by
    rw [← hget "tstart"]; unfold getOrNone; simp [dictGet_set]
  rw [hget, hsn, hts, ← hd']
  have hval : ∀ kv ∈ d, validMetaItem kv.1 kv.2 = true := by
    rw [hd']
    refine all_dictSet (all_dictSet (all_dictSet (all_dictSet (all_dictSet (all_dictSet ?_ ?_) rfl) ?_) ?_) rfl) ?_
    · intro kv hkv
      rw [List.mem_map] at hkv
      obtain ⟨a, ha, rfl⟩ := hkv
      exact knownItem_valid (hk a ha)
    · exact hflt "refdm" (by decide +kernel) hdm
    · exact hstr
    · exact hflt "tstart" (by decide +kernel) hmjd
    · exact htpos
  have hinit : metadataInit d = .ok (reservedMetaKeys.foldl metaSetDefault d) := by
    unfold metadataInit
    rw [if_pos (List.all_eq_true.2 hval)]
  have hall : ∀ k ∈ reservedMetaKeys, dictGet d (.str k) ≠ none := by
    intro k hkm
    rw [hd']
    simp only [reservedMetaKeys, List.mem_cons, List.not_mem_nil, or_false] at hkm
    rcases hkm with rfl | rfl | rfl | rfl | rfl | rfl <;> simp [dictGet_set]
  have hfold : ∀ (ks : List String), (∀ k ∈ ks, dictGet d (.str k) ≠ none) → ks.foldl metaSetDefault d = d := by
    intro ks
    induction ks with
    | nil => intro _; rfl
    | cons a ks ih =>
      intro h
      rw [List.foldl_cons]
      have h1 : metaSetDefault d a = d := by
        unfold metaSetDefault
        cases hg : dictGet d (.str a) with
        | none => exact absurd hg (h a (by simp))
        | some v => rfl
      rw [h1]
      exact ih (fun k hk => h k (by simp [hk]))
  rw [hfold _ hall] at hinit
  refine ⟨d, hinit, hinit, ?_, ?_, ?_, ?_, ?_, ?_, ?_⟩
  iterate 6 rw [hd']; simp [dictGet_set]
  intro k hkn
  simp only [reservedMetaKeys, List.mem_cons, List.not_mem_nil, or_false, not_or] at hkn
  rw [hd']
  simp only [dictGet_set, DKey.str.injEq]
  rw [if_neg (Ne.symm hkn.2.2.2.2.1), if_neg (Ne.symm hkn.2.2.2.2.2), if_neg (Ne.symm hkn.2.2.2.1), if_neg (Ne.symm hkn.1),
    if_neg (Ne.symm hkn.2.1), if_neg (Ne.symm hkn.2.2.1), dictGet_toMeta]

theorem readInt8_encode (signed : Bool) : ∀ samples : List RawSample, (∀ x ∈ samples, IsInt8 signed x) →
    readInt8 signed (samples.map encodeSample).flatten = samples := by
  intro samples
  induction samples with
  | nil => intro _; rfl
  | cons x l ih =>
    intro h
    obtain ⟨i, rfl, hi⟩ := h x (by simp)
    have ih := ih (fun y hy => h y (by simp [hy]))
    unfold readInt8 at ih ⊢
    simp only [List.map_cons, List.flatten_cons, encodeSample, leBytes, List.cons_append, List.nil_append, ih, List.cons.injEq,
      and_true, RawSample.int8.injEq]
    have h0 := Int.emod_nonneg i (show (256 : ℤ) ≠ 0 by norm_num)
    have h1 := Int.emod_lt_of_pos i (show (0 : ℤ) < 256 by norm_num)
    have hto : (UInt8.ofNat ((i % 256).toNat % 256)).toNat = (i % 256).toNat := by
      rw [UInt8.toNat_ofNat']; omega
    rw [hto]
    cases signed
    · simp only [Bool.false_eq_true, if_false, false_and] at hi ⊢; omega
    · simp only [if_true, true_and] at hi ⊢
      split_ifs <;> omega

theorem readFloat32_encode : ∀ samples : List RawSample, (∀ x ∈ samples, IsFloat32 x) →
    readFloat32 (samples.map encodeSample).flatten = samples := by
  intro samples
  induction samples with
  | nil => intro _; rfl
  | cons x l ih =>
    intro h
    obtain ⟨b, rfl, hb⟩ := h x (by simp)
    have ih := ih (fun y hy => h y (by simp [hy]))
    have h4 := leNat_leBytes 4 b (by norm_num; omega)
    simp only [leBytes] at h4
    simp only [List.map_cons, List.flatten_cons, encodeSample, leBytes, List.cons_append, List.nil_append, readFloat32, ih, h4]

theorem wholeSamples32 (b n : ℕ) : pyFloorDiv (((b + 4 * n : ℕ) : ℤ) - b) (((1 : ℤ) * 32).fdiv 8) = .ok n := by
  rw [show ((1 : ℤ) * 32).fdiv 8 = 4 by decide, pyFloorDiv, if_neg (by norm_num), Int.fdiv_eq_ediv_of_nonneg _ (by norm_num)]
  congr 1
  push_cast
  omega

theorem wholeSamples8 (b n : ℕ) : pyFloorDiv (((b + 1 * n : ℕ) : ℤ) - b) (((1 : ℤ) * 8).fdiv 8) = .ok n := by
  rw [show ((1 : ℤ) * 8).fdiv 8 = 1 by decide, pyFloorDiv, if_neg (by norm_num), Int.fdiv_eq_ediv_of_nonneg _ (by norm_num)]
  congr 1
  push_cast
  omega

/-- What is read from such a file. -/
theorem sigprocFile_parts (kvs : List (String × SigVal)) (samples : List RawSample) (fname : String) (hnd : (kvs.map Prod.fst).Nodup)
    (hk : ∀ kv ∈ kvs, dictGet sigprocKeydb kv.1 = some (typeOf kv.2) ∧ InRange kv.2)
    (hch : dictGet kvs "nchans" = some (.int 1))
    (hdata : (dictGet kvs "nbits" = some (.int 32) ∧ ∀ x ∈ samples, IsFloat32 x) ∨
      (dictGet kvs "nbits" = some (.int 8) ∧ ∃ s, dictGet kvs "signed" = some (.bool s) ∧ ∀ x ∈ samples, IsInt8 s x))
    (hne : samples ≠ []) (tb : ℕ) (t : ℚ) (htb : dictGet kvs "tsamp" = some (.float tb)) (ht : decodeDouble tb = .fin t) (htpos : 0 < t)
    (rab decb : ℕ) (ra dec : ℚ) (hra : dictGet kvs "src_raj" = some (.float rab)) (hra' : decodeDouble rab = .fin ra)
    (hdec : dictGet kvs "src_dej" = some (.float decb)) (hdec' : decodeDouble decb = .fin dec)
    (hdm : ∀ b, dictGet kvs "refdm" = some (.float b) → (decodeDouble b).nonneg = true)
    (hmjd : ∀ b, dictGet kvs "tstart" = some (.float b) → (decodeDouble b).nonneg = true) :
    ∃ hd md, sigHeader (encodeHeader kvs ++ (samples.map encodeSample).flatten) [] = .ok hd ∧ dictItem hd.attrs "tsamp" = .ok (.float tb) ∧
      loadSigproc (encodeHeader kvs ++ (samples.map encodeSample).flatten) hd = .ok samples ∧
      metadataFromSigproc hd fname = .ok md ∧ metadataInit md = .ok md ∧
      dictGet md (.str "dm") = some (headerEntry kvs "refdm") ∧ dictGet md (.str "mjd") = some (headerEntry kvs "tstart") ∧
      dictGet md (.str "source_name") = some (headerEntry kvs "source_name") ∧
      dictGet md (.str "skycoord") = some (.sky (.fin (15 * parseFloatCoord ra)) (.fin (parseFloatCoord dec))) ∧
      dictGet md (.str "fname") = some (.str fname) ∧ dictGet md (.str "tobs") = some (.float (.fin (samples.length * t))) ∧
      ∀ k ∉ reservedMetaKeys, dictGet md (.str k) = (dictGet kvs k).map SigVal.toPy := by
  obtain ⟨hd, hhd⟩ : ∃ hd : SigHeader, hd = { attrs := kvs, bytesize := (encodeHeader kvs).length,
                                                filesize := (encodeHeader kvs ++ (samples.map encodeSample).flatten).length } := ⟨_, rfl⟩
  have e1 : sigHeader (encodeHeader kvs ++ (samples.map encodeSample).flatten) [] = .ok hd := by
    unfold sigHeader
    rw [C50_roundtrip_distinct kvs _ hnd hk, hhd]; rfl
  have hattrs : hd.attrs = kvs := by rw [hhd]
  have hitem : ∀ k v, dictGet kvs k = some v → dictItem hd.attrs k = .ok v := by
    intro k v h; unfold dictItem; rw [hattrs, h]
  have hflen : hd.filesize = hd.bytesize + ((samples.map encodeSample).flatten).length := by rw [hhd]; simp
  have hdrop : (encodeHeader kvs ++ (samples.map encodeSample).flatten).drop hd.bytesize = (samples.map encodeSample).flatten := by
    rw [hhd]; simp
  have hlen8 : ∀ n, (∀ x ∈ samples, (encodeSample x).length = n) → ((samples.map encodeSample).flatten).length = n * samples.length := by
    intro n h
    clear hdata hne hdrop hflen hhd e1
    induction samples with
    | nil => simp
    | cons a l ih =>
      rw [List.map_cons, List.flatten_cons, List.length_append, ih (fun x hx => h x (by simp [hx])), h a (by simp), List.length_cons]
      ring
  have hload : loadSigproc (encodeHeader kvs ++ (samples.map encodeSample).flatten) hd = .ok samples ∧
      hd.nsamp = .ok samples.length ∧ sigprocChecks hd = .ok () := by
    unfold loadSigproc SigHeader.nsamp SigHeader.bytesPerSample sigprocChecks
    rw [hdrop, hitem _ _ hch]
    rcases hdata with ⟨h1, h2⟩ | ⟨h1, s, h2, h3⟩
    · rw [hitem _ _ h1]
      simp only [Except.bind, SigVal.asInt]
      refine ⟨?_, ?_, ?_⟩
      · rw [if_neg (by norm_num), readFloat32_encode _ h2]
      · rw [hflen, hlen8 4 (by intro x hx; obtain ⟨b, rfl, -⟩ := h2 x hx; rfl)]
        exact wholeSamples32 _ _
      · simp
    · rw [hitem _ _ h1]
      simp only [Except.bind, SigVal.asInt]
      refine ⟨?_, ?_, ?_⟩
      · rw [if_pos trivial, hitem _ _ h2]
        simp only [Except.map, SigVal.truth]
        rw [readInt8_encode _ _ h3]
      · rw [hflen, hlen8 1 (by intro x hx; obtain ⟨b, rfl, -⟩ := h3 x hx; rfl)]
        exact wholeSamples8 _ _
      · rw [hattrs, h2]; simp
  obtain ⟨hl, hns, hchk⟩ := hload
  have htobs : hd.tobs = .ok (.fin (samples.length * t)) := by
    unfold SigHeader.tobs
    rw [hns, hitem _ _ htb]
    simp [Except.bind, SigVal.asFloat, Except.map, ht, PyFloat.mulInt]
  have hsky : hd.skycoord = .ok (.fin (15 * parseFloatCoord ra), .fin (parseFloatCoord dec)) := by
    unfold SigHeader.skycoord
    rw [hitem _ _ hra, hitem _ _ hdec]
    simp [Except.bind, SigVal.asFloat, Except.map, hra', hdec', coordDegrees]
  have hpos : (0 : ℚ) < samples.length * t := by
    have : 0 < samples.length := List.length_pos_iff.2 hne
    positivity
  obtain ⟨md, m1, m2, m3, m4, m5, m6, m7, m8, m9⟩ := metadataFromSigproc_ok hd fname _ _
    (by rw [hattrs]; exact fun kv hkv => (hk kv hkv).1) hchk hsky htobs (by simpa [PyFloat.pos] using hpos)
    (by rw [hattrs]; exact hdm) (by rw [hattrs]; exact hmjd)
  rw [hattrs] at m3 m4 m5 m9
  exact ⟨hd, md, e1, hitem _ _ htb, hl, m1, m2, m3, m4, m5, m6, m7, m8, m9⟩

/-- C51: a file written with one channel of 8-bit data of declared signedness, or of 32-bit data, and valid attributes, is loaded:
the samples are those written, and the metadata are those of the header. -/
theorem C51_loads (kvs : List (String × SigVal)) (samples : List RawSample) (fname : String) (hnd : (kvs.map Prod.fst).Nodup)
    (hk : ∀ kv ∈ kvs, dictGet sigprocKeydb kv.1 = some (typeOf kv.2) ∧ InRange kv.2)
    (hch : dictGet kvs "nchans" = some (.int 1))
    (hdata : (dictGet kvs "nbits" = some (.int 32) ∧ ∀ x ∈ samples, IsFloat32 x) ∨
      (dictGet kvs "nbits" = some (.int 8) ∧ ∃ s, dictGet kvs "signed" = some (.bool s) ∧ ∀ x ∈ samples, IsInt8 s x))
    (hne : samples ≠ []) (tb : ℕ) (t : ℚ) (htb : dictGet kvs "tsamp" = some (.float tb)) (ht : decodeDouble tb = .fin t) (htpos : 0 < t)
    (rab decb : ℕ) (ra dec : ℚ) (hra : dictGet kvs "src_raj" = some (.float rab)) (hra' : decodeDouble rab = .fin ra)
    (hdec : dictGet kvs "src_dej" = some (.float decb)) (hdec' : decodeDouble decb = .fin dec)
    (hdm : ∀ b, dictGet kvs "refdm" = some (.float b) → (decodeDouble b).nonneg = true)
    (hmjd : ∀ b, dictGet kvs "tstart" = some (.float b) → (decodeDouble b).nonneg = true) :
    ∃ md, timeSeriesFromSigproc (encodeHeader kvs ++ (samples.map encodeSample).flatten) [] fname =
        .ok { samples, tsamp := .fin t, metadata := md } ∧
      dictGet md (.str "dm") = some (headerEntry kvs "refdm") ∧ dictGet md (.str "mjd") = some (headerEntry kvs "tstart") ∧
      dictGet md (.str "source_name") = some (headerEntry kvs "source_name") ∧
      dictGet md (.str "skycoord") = some (.sky (.fin (15 * parseFloatCoord ra)) (.fin (parseFloatCoord dec))) ∧
      dictGet md (.str "fname") = some (.str fname) ∧ dictGet md (.str "tobs") = some (.float (.fin (samples.length * t))) ∧
      ∀ k ∉ reservedMetaKeys, dictGet md (.str k) = (dictGet kvs k).map SigVal.toPy := by
  obtain ⟨hd, md, e1, htsamp, hl, m1, m2, m3, m4, m5, m6, m7, m8, m9⟩ := sigprocFile_parts kvs samples fname hnd hk hch hdata hne tb t htb ht htpos rab decb
    ra dec hra hra' hdec hdec' hdm hmjd
  refine ⟨dictSet md (.str "tobs") (.float (.fin (samples.length * t))), ?_, ?_⟩
  · unfold timeSeriesFromSigproc
    rw [e1]
    simp only [Except.bind]
    rw [m1]
    simp only
    rw [hl]
    simp only
    rw [htsamp]
    simp only [SigVal.asFloat, ht]
    rw [m2]
    simp [Except.map, PyFloat.mulInt]
  · simp only [dictGet_set]
    refine ⟨by simpa using m3, by simpa using m4, by simpa using m5, by simpa using m6, by simpa using m7, by simp, ?_⟩
    intro k hkn
    rw [if_neg ?_]
    · exact m9 k hkn
    · rintro h
      cases h
      exact hkn (by decide)

-- the hypotheses: the demonstration header above, with three signed samples
example : dictGet demoHeader "nchans" = some (.int 1) ∧ dictGet demoHeader "nbits" = some (.int 8) ∧
    dictGet demoHeader "signed" = some (.bool true) ∧ dictGet demoHeader "tsamp" = some (.float 0x3FD0000000000000) ∧
    decodeDouble 0x3FD0000000000000 = .fin (1 / 4) ∧ dictGet demoHeader "src_raj" = some (.float 0) ∧
    decodeDouble 0 = .fin 0 ∧ dictGet demoHeader "src_dej" = some (.float 0) := by decide +kernel
example : ∀ x ∈ [RawSample.int8 5, .int8 (-128), .int8 127], IsInt8 true x := by
  intro x hx
  simp only [List.mem_cons, List.not_mem_nil, or_false] at hx
  rcases hx with rfl | rfl | rfl
  · exact ⟨5, rfl, by decide⟩
  · exact ⟨-128, rfl, by decide⟩
  · exact ⟨127, rfl, by decide⟩
example : (decodeDouble 0x4050FF5C28F5C28F).nonneg = true := by decide +kernel

/-- A header that is not multi-channel but corrupt: `nchans` is -1 and `tsamp` is -0.25. -/
def corruptHeader : List (String × SigVal) := [("nchans", .int (-1)), ("nbits", .int 8),
  ("tsamp", .float 0xBFD0000000000000), ("signed", .bool true), ("src_raj", .float 0), ("src_dej", .float 0)]

/-- C51: a corrupt header with a negative number of channels and a negative sampling time is accepted, and then the header object
says that there are -2 samples though two are loaded. -/
theorem C51_negative_channels : ∃ ts hd, timeSeriesFromSigproc (encodeHeader corruptHeader ++ [5, 255]) [] "x.tim" = .ok ts ∧
    sigHeader (encodeHeader corruptHeader ++ [5, 255]) [] = .ok hd ∧ hd.nsamp = .ok (-2) ∧ ts.samples = [.int8 5, .int8 (-1)] := by
  obtain ⟨hd, hhd⟩ : ∃ hd : SigHeader, hd = { attrs := corruptHeader, bytesize := (encodeHeader corruptHeader).length,
                                                filesize := (encodeHeader corruptHeader ++ [5, 255]).length } := ⟨_, rfl⟩
  have e : sigHeader (encodeHeader corruptHeader ++ [5, 255]) [] = .ok hd := by
    unfold sigHeader
    rw [C50_roundtrip_distinct _ _ (by decide +kernel) (by decide +kernel), hhd]; rfl
  have hdrop : (encodeHeader corruptHeader ++ [5, 255]).drop hd.bytesize = [5, 255] := by rw [hhd]; simp
  have hl : loadSigproc (encodeHeader corruptHeader ++ [5, 255]) hd = .ok [.int8 5, .int8 (-1)] := by
    unfold loadSigproc
    rw [hdrop, hhd]
    decide +kernel
  have hns : hd.nsamp = .ok (-2) := by rw [hhd]; decide +kernel
  obtain ⟨md, m1, m2, -⟩ := metadataFromSigproc_ok hd "x.tim" (.fin (1 / 2)) (.fin 0, .fin 0) (by rw [hhd]; decide +kernel)
    (by rw [hhd]; decide +kernel) (by rw [hhd]; decide +kernel) (by rw [hhd]; decide +kernel) (by decide +kernel)
    (by rw [hhd]; intro b hb; simp [corruptHeader, dictGet] at hb) (by rw [hhd]; intro b hb; simp [corruptHeader, dictGet] at hb)
  refine ⟨{ samples := [.int8 5, .int8 (-1)], tsamp := .fin (-1 / 4), metadata := dictSet md (.str "tobs") (.float (.fin (-1 / 2))) },
    hd, ?_, e, hns, rfl⟩
  unfold timeSeriesFromSigproc
  rw [e]
  simp only [Except.bind]
  rw [m1]
  simp only
  rw [hl]
  simp only
  have hts : dictItem hd.attrs "tsamp" = .ok (.float 0xBFD0000000000000) := by rw [hhd]; decide +kernel
  have hdd : decodeDouble 0xBFD0000000000000 = .fin (-1 / 4) := by decide +kernel
  rw [hts]
  simp only [SigVal.asFloat, hdd]
  rw [m2]
  simp [Except.map, PyFloat.mulInt]
  norm_num

/-- C50: a flag (`signed`) is true for any byte but zero. -/
theorem C50_flag (b : UInt8) (data : List UInt8) :
    readSigprocHeader (encodeStr "HEADER_START" ++ (encodeStr "signed" ++ ([b] ++ (encodeStr "HEADER_END" ++ data)))) [] =
      .ok ([("signed", .bool (b != 0))], 41) := by
  obtain ⟨f, hf⟩ : ∃ f, f = encodeStr "HEADER_START" ++ (encodeStr "signed" ++ ([b] ++ (encodeStr "HEADER_END" ++ data))) := ⟨_, rfl⟩
  rw [← hf]
  have h0 : f.drop 0 = encodeStr "HEADER_START" ++ (encodeStr "signed" ++ ([b] ++ (encodeStr "HEADER_END" ++ data))) := by
    rw [List.drop_zero, hf]
  have l1 : (encodeStr "HEADER_START").length = 16 := by decide +kernel
  have l2 : (encodeStr "signed").length = 10 := by decide +kernel
  have l3 : (encodeStr "HEADER_END").length = 14 := by decide +kernel
  have r1 := readStr_encode f 0 _ _ (by decide) h0
  have d1 := drop_add_of h0 l1
  have r2 := readStr_encode f _ _ _ (by decide) d1
  have d2 := drop_add_of d1 l2
  have d3 := drop_add_of (k := 1) d2 rfl
  have r3 := readStr_encode f _ _ _ (by decide) d3
  rw [l1] at r1
  rw [l2] at r2
  rw [l3] at r3
  have v : readValue f (0 + 16 + 10) .bool = .ok (.bool (b != 0), 27) := by
    have h1 := fileRead_drop f (0 + 16 + 10) 1 _ _ d2 rfl
    rw [show ((1 : ℕ) : ℤ) = 1 from rfl] at h1
    simp only [readValue, h1, Except.bind, unpackUchar, List.length_singleton, if_true, Except.map, leNat]
    congr 3
    simp only [Nat.mul_zero, Nat.add_zero]
    by_cases hb : b = 0
    · subst hb; rfl
    · have h2 : b.toNat ≠ 0 := fun h => hb (UInt8.toNat_inj.mp (by simpa using h))
      have e1 : (b.toNat != 0) = true := by simpa using h2
      have e2 : (b != 0) = true := by simpa using hb
      rw [e1, e2]
  have a1 : readAttribute sigprocKeydb f 16 = .ok ("signed", some (.bool (b != 0)), 27) := by
    unfold readAttribute
    rw [show (0 + 16 : ℕ) = 16 from rfl] at r2
    rw [r2]
    simp only [Except.bind]
    rw [if_neg (by decide)]
    have hk : dictGet sigprocKeydb "signed" = some .bool := by decide +kernel
    rw [hk]
    simp only
    rw [v]
    rfl
  have a2 : readAttribute sigprocKeydb f 27 = .ok ("HEADER_END", none, 41) := by
    unfold readAttribute
    rw [show (0 + 16 + 10 + 1 : ℕ) = 27 from rfl] at r3
    rw [r3]
    simp only [Except.bind]
    rw [if_pos (show "HEADER_END" = headerEnd from rfl)]
  unfold readSigprocHeader
  simp only [List.foldl_nil, r1, Except.bind]
  rw [if_neg (show ¬ ¬ "HEADER_START" = headerStart from not_not.2 rfl)]
  rw [headerLoop]
  split
  · rename_i h; rw [a1] at h; cases h
  · rename_i h; rw [a1] at h; cases h
  · rename_i h
    rw [a1] at h
    cases h
    rw [headerLoop]
    split
    · rename_i h; rw [a2] at h; cases h
    · rename_i h; rw [a2] at h; cases h; rfl
    · rename_i h; rw [a2] at h; cases h

/-- C50: the values of the doubles in a header. Zero is represented by zero bits; each of the following bit patterns is the
next larger number, by one unit in the last place, the same for subnormal numbers and the first binade; the highest bit is the
sign. -/
theorem C50_doubles :
    decodeDouble 0 = .fin 0 ∧
    (∀ n, n < 2047 * 2 ^ 52 → ∃ x : ℚ, 0 ≤ x ∧ decodeDouble n = .fin x ∧ decodeDouble (n + 2 ^ 63) = .fin (-x) ∧
      (n + 1 < 2047 * 2 ^ 52 → decodeDouble (n + 1) = .fin (x + 2 ^ (n / 2 ^ 52 - 1) / 2 ^ 1074))) ∧
    decodeDouble (2047 * 2 ^ 52) = .inf false ∧ decodeDouble (2047 * 2 ^ 52 + 2 ^ 63) = .inf true := by
  refine ⟨by decide +kernel, ?_, by decide +kernel, by decide +kernel⟩
  intro n hn
  have hval : ∀ n, n < 2047 * 2 ^ 52 → decodeDouble n = .fin (if n / 2 ^ 52 = 0 then ((n % 2 ^ 52 : ℕ) : ℚ) / 2 ^ 1074 else
      ((2 ^ 52 + n % 2 ^ 52 : ℕ) : ℚ) * 2 ^ (n / 2 ^ 52) / 2 ^ 1075) ∧
      decodeDouble (n + 2 ^ 63) = .fin (-(if n / 2 ^ 52 = 0 then ((n % 2 ^ 52 : ℕ) : ℚ) / 2 ^ 1074 else
      ((2 ^ 52 + n % 2 ^ 52 : ℕ) : ℚ) * 2 ^ (n / 2 ^ 52) / 2 ^ 1075)) := by
    intro n hn
    have e1 : n / 2 ^ 63 % 2 = 0 := by omega
    have e2 : n / 2 ^ 52 % 2 ^ 11 = n / 2 ^ 52 := by omega
    have e3 : n / 2 ^ 52 ≠ 2047 := by omega
    have f1 : (n + 2 ^ 63) / 2 ^ 63 % 2 = 1 := by omega
    have f2 : (n + 2 ^ 63) / 2 ^ 52 % 2 ^ 11 = n / 2 ^ 52 := by omega
    have f3 : (n + 2 ^ 63) % 2 ^ 52 = n % 2 ^ 52 := by omega
    constructor
    · unfold decodeDouble
      simp only [e1, e2, e3, if_false, Nat.zero_ne_one, decide_false, Bool.false_eq_true]
    · unfold decodeDouble
      simp only [f1, f2, f3, e3, if_false, decide_true, if_true]
  refine ⟨_, ?_, (hval n hn).1, (hval n hn).2, ?_⟩
  · split_ifs <;> positivity
  · intro hn1
    rw [(hval _ hn1).1]
    congr 1
    have hp : (2 : ℚ) ^ 1075 = 2 * 2 ^ 1074 := by rw [pow_succ]; ring
    by_cases h0 : n / 2 ^ 52 = 0
    · rw [if_pos h0, h0]
      by_cases h1 : (n + 1) / 2 ^ 52 = 0
      · rw [if_pos h1]
        have : (n + 1) % 2 ^ 52 = n % 2 ^ 52 + 1 := by omega
        rw [this]
        push_cast
        ring
      · rw [if_neg h1]
        have a1 : (n + 1) % 2 ^ 52 = 0 := by omega
        have a2 : (n + 1) / 2 ^ 52 = 1 := by omega
        have a3 : n % 2 ^ 52 = 2 ^ 52 - 1 := by omega
        rw [a1, a2, a3, hp]
        push_cast
        norm_num
        ring
    · have h1 : (n + 1) / 2 ^ 52 ≠ 0 := by omega
      rw [if_neg h0, if_neg h1, hp]
      obtain ⟨e, he⟩ : ∃ e, n / 2 ^ 52 = e + 1 := ⟨n / 2 ^ 52 - 1, by omega⟩
      rw [he]
      by_cases h2 : (n + 1) % 2 ^ 52 = 0
      · have a2 : (n + 1) / 2 ^ 52 = e + 2 := by omega
        have a3 : n % 2 ^ 52 = 2 ^ 52 - 1 := by omega
        rw [h2, a2, a3, Nat.add_sub_cancel, pow_succ, pow_succ (n := e)]
        push_cast
        field_simp
        norm_num
        ring
      · have a2 : (n + 1) / 2 ^ 52 = e + 1 := by omega
        have a3 : (n + 1) % 2 ^ 52 = n % 2 ^ 52 + 1 := by omega
        rw [a2, a3, Nat.add_sub_cancel, pow_succ]
        push_cast
        field_simp
        ring

end Verif.Props
