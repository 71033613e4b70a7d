import Verif.Spec.Sigproc
import Verif.Model.Metadata
import Mathlib.Tactic.Ring
import Mathlib.Tactic.Linarith
import Mathlib.Tactic.NormNum

namespace Verif.Lemmas

open Verif.Model Verif.Spec

theorem leBytes_length (k n : ℕ) : (leBytes k n).length = k := by
  induction k generalizing n with
  | zero => rfl
  | succ k ih => simp [leBytes, ih]

theorem leNat_leBytes (k n : ℕ) (h : n < 256 ^ k) : leNat (leBytes k n) = n := by
  induction k generalizing n with
  | zero => simp only [pow_zero, Nat.lt_one_iff] at h; simp [leBytes, leNat, h]
  | succ k ih =>
    have h1 : n / 256 < 256 ^ k := by
      rw [Nat.div_lt_iff_lt_mul (by norm_num)]
      rwa [pow_succ] at h
    simp only [leBytes, leNat, ih _ h1, UInt8.toNat_ofNat']
    omega

theorem leNat_lt (l : List UInt8) : leNat l < 256 ^ l.length := by
  induction l with
  | nil => simp [leNat]
  | cons b l ih =>
    simp only [leNat, List.length_cons, pow_succ]
    have := b.toNat_lt
    omega

theorem encodeInt_length (i : ℤ) : (encodeInt i).length = 4 := leBytes_length _ _

theorem unpackInt_encodeInt (i : ℤ) (h1 : -2 ^ 31 ≤ i) (h2 : i < 2 ^ 31) : unpackInt (encodeInt i) = .ok i := by
  unfold unpackInt
  rw [if_pos (encodeInt_length i)]
  have h3 : (i % 2 ^ 32).toNat < 256 ^ 4 := by
    have := Int.emod_lt_of_pos i (by norm_num : (0 : ℤ) < 2 ^ 32)
    have := Int.emod_nonneg i (by norm_num : (2 ^ 32 : ℤ) ≠ 0)
    norm_num at *
    omega
  rw [encodeInt, leNat_leBytes _ _ h3]
  congr 1
  norm_num at *
  split_ifs <;> omega

theorem fileRead_drop (f : List UInt8) (pos k : ℕ) (b rest : List UInt8) (hf : f.drop pos = b ++ rest) (hk : b.length = k) :
    fileRead f pos k = .ok (b, pos + k) := by
  unfold fileRead
  rw [if_neg (by omega), if_neg (by omega), hf]
  simp [← hk]

theorem drop_add_of {f : List UInt8} {pos k : ℕ} {b rest : List UInt8} (hf : f.drop pos = b ++ rest) (hk : b.length = k) :
    f.drop (pos + k) = rest := by
  rw [← List.drop_drop, hf, ← hk]; simp

theorem pyDecode_utf8 (s : String) : pyDecode (utf8Bytes s) = .ok s := by
  unfold pyDecode utf8Bytes
  have h1 : (⟨s.toByteArray.data.toList.toArray⟩ : ByteArray) = s.toByteArray := by
    apply ByteArray.ext
    simp
  rw [h1]
  have h2 : String.fromUTF8? s.toByteArray = some s := by
    unfold String.fromUTF8?
    rw [dif_pos s.isValidUTF8]
    rfl
  rw [h2]

theorem readStr_encode (f : List UInt8) (pos : ℕ) (s : String) (rest : List UInt8) (hs : (utf8Bytes s).length < 2 ^ 31)
    (hf : f.drop pos = encodeStr s ++ rest) : readStr f pos = .ok (s, pos + (encodeStr s).length) := by
  unfold encodeStr at hf
  rw [List.append_assoc] at hf
  unfold readStr
  have h1 := fileRead_drop f pos 4 _ _ hf (encodeInt_length _)
  rw [show ((4 : ℕ) : ℤ) = 4 from rfl] at h1
  rw [h1]
  simp only [Except.bind]
  rw [unpackInt_encodeInt _ (by omega) (by omega)]
  simp only
  have h2 := drop_add_of hf (encodeInt_length _)
  rw [fileRead_drop f (pos + 4) _ _ _ h2 rfl]
  simp only [pyDecode_utf8, Except.map]
  simp [encodeStr, encodeInt_length, Nat.add_assoc]

theorem readValue_encode (f : List UInt8) (pos : ℕ) (v : SigVal) (rest : List UInt8) (hv : InRange v)
    (hf : f.drop pos = encodeVal v ++ rest) : readValue f pos (typeOf v) = .ok (v, pos + (encodeVal v).length) := by
  cases v with
  | str s =>
    simp only [typeOf, readValue]
    rw [readStr_encode f pos s rest hv hf]; rfl
  | int i =>
    simp only [typeOf, readValue]
    have h1 := fileRead_drop f pos 4 _ _ hf (encodeInt_length _)
    rw [show ((4 : ℕ) : ℤ) = 4 from rfl] at h1
    rw [h1]
    simp only [Except.bind]
    rw [encodeVal, unpackInt_encodeInt i hv.1 hv.2, encodeInt_length]; rfl
  | float bits =>
    simp only [typeOf, readValue]
    have h1 := fileRead_drop f pos 8 _ _ hf (leBytes_length _ _)
    rw [show ((8 : ℕ) : ℤ) = 8 from rfl] at h1
    rw [h1]
    simp only [Except.bind]
    rw [encodeVal, unpackDouble, if_pos (leBytes_length _ _), leNat_leBytes 8 bits (by norm_num; exact hv), leBytes_length]; rfl
  | bool b =>
    simp only [typeOf, readValue]
    have h1 := fileRead_drop f pos 1 _ _ hf rfl
    rw [show ((1 : ℕ) : ℤ) = 1 from rfl] at h1
    rw [h1]
    simp only [Except.bind, encodeVal]
    cases b <;> rfl

theorem headerLoop_ok_end {keydb : PyDict String SigType} {f : List UInt8} {pos : ℕ} {attrs : PyDict String SigVal}
    {key : String} {pos' : ℕ} (h : readAttribute keydb f pos = .ok (key, none, pos')) :
    headerLoop keydb f pos attrs = .ok (attrs, pos') := by
  rw [headerLoop]
  split
  · rename_i e he; rw [h] at he; cases he
  · rename_i he; rw [h] at he; cases he; rfl
  · rename_i he; rw [h] at he; cases he

theorem headerLoop_ok_step {keydb : PyDict String SigType} {f : List UInt8} {pos : ℕ} {attrs : PyDict String SigVal}
    {key : String} {val : SigVal} {pos' : ℕ} (h : readAttribute keydb f pos = .ok (key, some val, pos')) :
    headerLoop keydb f pos attrs = headerLoop keydb f pos' (dictSet attrs key val) := by
  rw [headerLoop]
  split
  · rename_i e he; rw [h] at he; cases he
  · rename_i he; rw [h] at he; cases he
  · rename_i he; rw [h] at he; cases he; rfl

theorem headerLoop_error {keydb : PyDict String SigType} {f : List UInt8} {pos : ℕ} {attrs : PyDict String SigVal}
    {e : PyErr} (h : readAttribute keydb f pos = .error e) : headerLoop keydb f pos attrs = .error e := by
  rw [headerLoop]
  split
  · rename_i e he; rw [h] at he; cases he; rfl
  · rename_i he; rw [h] at he; cases he
  · rename_i he; rw [h] at he; cases he

theorem headerLoop_encode (keydb : PyDict String SigType) (f rest : List UInt8) : ∀ (kvs : List (String × SigVal)) (pos : ℕ)
    (attrs : PyDict String SigVal),
    (∀ kv ∈ kvs, kv.1 ≠ "HEADER_END" ∧ (utf8Bytes kv.1).length < 2 ^ 31 ∧ dictGet keydb kv.1 = some (typeOf kv.2) ∧ InRange kv.2) →
    f.drop pos = (kvs.map encodeAttr).flatten ++ encodeStr "HEADER_END" ++ rest →
    headerLoop keydb f pos attrs = .ok (kvs.foldl (fun d kv => dictSet d kv.1 kv.2) attrs,
      pos + ((kvs.map encodeAttr).flatten ++ encodeStr "HEADER_END").length) := by
  intro kvs
  induction kvs with
  | nil =>
    intro pos attrs _ hf
    simp only [List.map_nil, List.flatten_nil, List.nil_append] at hf ⊢
    have h1 := readStr_encode f pos "HEADER_END" rest (by decide) hf
    apply headerLoop_ok_end (key := "HEADER_END")
    unfold readAttribute
    rw [h1]
    simp only [Except.bind]
    rw [if_pos (show "HEADER_END" = headerEnd from rfl)]
  | cons kv kvs ih =>
    intro pos attrs hk hf
    obtain ⟨k, v⟩ := kv
    obtain ⟨hne, hlen, htype, hrange⟩ := hk (k, v) List.mem_cons_self
    simp only at hne hlen htype hrange
    simp only [List.map_cons, List.flatten_cons, encodeAttr, List.append_assoc] at hf
    have h1 := readStr_encode f pos k _ hlen hf
    have h2 := drop_add_of hf rfl
    have h3 := readValue_encode f _ v _ hrange h2
    have h4 := drop_add_of h2 rfl
    have hattr : readAttribute keydb f pos = .ok (k, some v, pos + (encodeStr k).length + (encodeVal v).length) := by
      unfold readAttribute
      rw [h1]
      simp only [Except.bind]
      rw [if_neg (show ¬ k = headerEnd from hne), htype]
      simp only
      rw [h3]; rfl
    rw [headerLoop_ok_step hattr, ih _ _ (fun kv hkv => hk kv (List.mem_cons_of_mem _ hkv)) (by rw [h4, List.append_assoc])]
    simp only [List.foldl_cons, List.map_cons, List.flatten_cons, encodeAttr, List.length_append, Nat.add_assoc]

end Verif.Lemmas
