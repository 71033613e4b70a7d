import Verif.Model.CandFile
import Verif.Spec.CandFile
import Verif.Lemmas.Sigproc
import Verif.Props.JsonText
import Verif.Props.Rffa
import Verif.Props.Process

/-!
# C130: the files of candidates hold the candidates
-/

namespace Verif.Props

open Verif.Model Verif.Spec Verif.Lemmas

/-! ## Bits of numbers -/

/-- The formats for which the fields are wide enough. -/
structure FormatOK (f : FloatFormat) : Prop where
  prec : 2 ≤ f.prec
  exp : 2 ≤ f.expBits
  size : 8 * f.size = f.prec + f.expBits

theorem binary32_ok : FormatOK binary32 := ⟨by decide, by decide, by decide⟩

theorem binary64_ok : FormatOK binary64 := ⟨by decide, by decide, by decide⟩

/-- What the definition of the bits uses: the exponent and the significand of a number. -/
theorem format_normal {f : FloatFormat} (hf : FormatOK f) {q : ℚ} (hq : f.Has q) (h0 : q ≠ 0) :
    let u : ℤ := max f.emin (Int.log 2 |q| - (f.prec - 1 : ℕ))
    ∃ n : ℕ, |q| = n * 2 ^ u ∧ n < 2 ^ f.prec ∧ (u = f.emin ∨ 2 ^ (f.prec - 1) ≤ n) ∧ f.emin ≤ u ∧ u ≤ f.emin + 2 ^ f.expBits - 3 := by
  intro u
  obtain ⟨m, e, hm, he1, he2, hqe⟩ := hq
  have hp := hf.prec
  have habs : |q| = |(m : ℚ)| * 2 ^ e := by rw [hqe, abs_mul, abs_of_pos (show (0 : ℚ) < 2 ^ e by positivity)]
  have hpos : 0 < |q| := abs_pos.2 h0
  have hlo : (2 : ℚ) ^ Int.log 2 |q| ≤ |q| := by
    have := Int.zpow_log_le_self (b := 2) (by norm_num) hpos
    exact_mod_cast this
  have hhi : |q| < (2 : ℚ) ^ (Int.log 2 |q| + 1) := by
    have := Int.lt_zpow_succ_log_self (b := 2) (by norm_num) |q|
    exact_mod_cast this
  have hu : u ≤ e := by
    rcases le_or_gt f.emin (Int.log 2 |q| - (f.prec - 1 : ℕ)) with h | h
    · have hue : u = Int.log 2 |q| - (f.prec - 1 : ℕ) := max_eq_right h
      by_contra hc
      push Not at hc
      rw [hue] at hc
      have h1 : (2 : ℚ) ^ (f.prec + e : ℤ) ≤ 2 ^ Int.log 2 |q| := by
        apply zpow_le_zpow_right₀ (by norm_num)
        push_cast [Nat.cast_sub (by omega : 1 ≤ f.prec)] at hc
        omega
      have h2 : |q| < (2 : ℚ) ^ (f.prec + e : ℤ) := by
        rw [habs, zpow_add₀ (by norm_num)]
        refine mul_lt_mul_of_pos_right ?_ (by positivity)
        exact_mod_cast hm
      linarith
    · have : u = f.emin := max_eq_left h.le
      omega
  have hmq : |q| = ((m.natAbs * 2 ^ (e - u).toNat : ℕ) : ℚ) * 2 ^ u := by
    rw [habs]
    have h1 : (2 : ℚ) ^ e = 2 ^ (e - u).toNat * 2 ^ u := by
      rw [← zpow_natCast, ← zpow_add₀ (by norm_num)]
      congr 1
      omega
    rw [h1]
    push_cast
    rw [Nat.cast_natAbs]
    push_cast
    ring
  have hupos : (0 : ℚ) < 2 ^ u := by positivity
  refine ⟨m.natAbs * 2 ^ (e - u).toNat, hmq, ?_, ?_, le_max_left _ _, hu.trans he2⟩
  · have h1 : (2 : ℚ) ^ (Int.log 2 |q| + 1) ≤ 2 ^ (f.prec : ℤ) * 2 ^ u := by
      rw [← zpow_add₀ (by norm_num)]
      apply zpow_le_zpow_right₀ (by norm_num)
      have : Int.log 2 |q| - (f.prec - 1 : ℕ) ≤ u := le_max_right _ _
      push_cast [Nat.cast_sub (by omega : 1 ≤ f.prec)] at this
      omega
    have h2 : ((m.natAbs * 2 ^ (e - u).toNat : ℕ) : ℚ) * 2 ^ u < 2 ^ (f.prec : ℤ) * 2 ^ u := by
      rw [← hmq]
      exact hhi.trans_le h1
    have := lt_of_mul_lt_mul_right h2 hupos.le
    exact_mod_cast this
  · rcases le_or_gt (Int.log 2 |q| - (f.prec - 1 : ℕ)) f.emin with h | h
    · exact .inl (max_eq_left h)
    · right
      have hue : u = Int.log 2 |q| - (f.prec - 1 : ℕ) := max_eq_right h.le
      have h2 : (2 : ℚ) ^ ((f.prec - 1 : ℕ) : ℤ) * 2 ^ u ≤ ((m.natAbs * 2 ^ (e - u).toNat : ℕ) : ℚ) * 2 ^ u := by
        rw [← hmq, ← zpow_add₀ (by norm_num), hue]
        simpa using hlo
      have := le_of_mul_le_mul_right h2 hupos
      exact_mod_cast this

/-- The bits of a number of the format stand for the number. -/
theorem value_floatBits {f : FloatFormat} (hf : FormatOK f) {q : ℚ} (hq : f.Has q) : f.value (floatBits f q) = .fin q ∧ floatBits f q < 256 ^ f.size := by
  have hp := hf.prec
  have hw := hf.exp
  have h256 : 256 ^ f.size = 2 ^ (f.prec - 1) * 2 ^ f.expBits * 2 := by
    rw [show (256 : ℕ) = 2 ^ 8 by norm_num, ← pow_mul, hf.size, ← pow_add, ← pow_succ]
    congr 1
    omega
  have hsp : 2 ^ (f.prec + f.expBits - 1) = 2 ^ (f.prec - 1) * 2 ^ f.expBits := by
    rw [← pow_add]
    congr 1
    omega
  have hE : 4 ≤ 2 ^ f.expBits := by
    calc 4 = 2 ^ 2 := by norm_num
      _ ≤ 2 ^ f.expBits := Nat.pow_le_pow_right (by norm_num) hw
  have hP : 0 < 2 ^ (f.prec - 1) := by positivity
  have hPP : 2 ^ f.prec = 2 * 2 ^ (f.prec - 1) := by
    rw [← pow_succ']
    congr 1
    omega
  by_cases h0 : q = 0
  · subst h0
    refine ⟨?_, ?_⟩
    · simp only [floatBits, if_true, FloatFormat.value, Nat.zero_div, Nat.zero_mod]
      rw [if_neg (by omega)]
      simp
    · simp only [floatBits, if_true]
      positivity
  obtain ⟨n, hn, hlt, hnorm, hu1, hu2⟩ := format_normal hf hq h0
  set u : ℤ := max f.emin (Int.log 2 |q| - (f.prec - 1 : ℕ)) with hu
  have hfl : ⌊|q| / 2 ^ u⌋₊ = n := by
    rw [hn, mul_div_assoc, div_self (by positivity), mul_one, Nat.floor_natCast]
  obtain ⟨k, hk⟩ : ∃ k : ℕ, u = f.emin + k := ⟨(u - f.emin).toNat, by omega⟩
  have hk2 : k + 3 ≤ 2 ^ f.expBits := by
    have : (k : ℤ) + 3 ≤ 2 ^ f.expBits := by omega
    exact_mod_cast this
  have hbits : floatBits f q = (if q < 0 then 1 else 0) * (2 ^ (f.prec - 1) * 2 ^ f.expBits) + (k * 2 ^ (f.prec - 1) + n) := by
    unfold floatBits
    rw [if_neg h0]
    simp only [← hu, hfl]
    rw [show (u - f.emin).toNat = k by omega, hsp]
    split_ifs <;> simp
  -- the exponent and the significand that are stored
  obtain ⟨kk, ff, hkf, hff, hkk, hval⟩ : ∃ kk ff : ℕ, k * 2 ^ (f.prec - 1) + n = kk * 2 ^ (f.prec - 1) + ff ∧ ff < 2 ^ (f.prec - 1) ∧ kk + 1 < 2 ^ f.expBits ∧
      ((if kk = 0 then ff else 2 ^ (f.prec - 1) + ff : ℕ) : ℚ) * 2 ^ (f.emin + (kk - 1 : ℕ)) = |q| := by
    by_cases hc : n < 2 ^ (f.prec - 1)
    · have hk0 : k = 0 := by
        rcases hnorm with h | h
        · omega
        · omega
      subst hk0
      refine ⟨0, n, by simp, hc, by omega, ?_⟩
      rw [if_pos rfl, hn, hk]
    · refine ⟨k + 1, n - 2 ^ (f.prec - 1), ?_, by omega, by omega, ?_⟩
      · rw [add_mul]
        omega
      · rw [if_neg (by omega), Nat.add_sub_cancel' (by omega), hn, hk, Nat.add_sub_cancel]
  generalize hA : 2 ^ (f.prec - 1) = A at *
  generalize hB : 2 ^ f.expBits = B at *
  have hmag : kk * A + ff < A * B := by
    calc kk * A + ff < kk * A + A := by omega
      _ = A * (kk + 1) := by ring
      _ ≤ A * B := Nat.mul_le_mul_left _ (by omega)
  rw [hkf] at hbits
  have hAB : 0 < A * B := Nat.mul_pos hP (by omega)
  have e1 : floatBits f q / (A * B) % 2 = if q < 0 then 1 else 0 := by
    rw [hbits, mul_comm _ (A * B), Nat.mul_add_div hAB, Nat.div_eq_of_lt hmag]
    split_ifs <;> simp
  have e2 : floatBits f q / A % B = kk := by
    rw [hbits, show (if q < 0 then 1 else 0) * (A * B) + (kk * A + ff) = A * (B * (if q < 0 then 1 else 0) + kk) + ff by ring,
      Nat.mul_add_div hP, Nat.div_eq_of_lt hff, add_zero, Nat.mul_add_mod, Nat.mod_eq_of_lt (by omega)]
  have e3 : floatBits f q % A = ff := by
    rw [hbits, show (if q < 0 then 1 else 0) * (A * B) + (kk * A + ff) = A * (B * (if q < 0 then 1 else 0) + kk) + ff by ring,
      Nat.mul_add_mod, Nat.mod_eq_of_lt hff]
  refine ⟨?_, ?_⟩
  · simp only [FloatFormat.value, hA, hB, hsp, e1, e2, e3]
    rw [if_neg (by omega), hval]
    congr 1
    by_cases hneg : q < 0
    · simp [hneg, abs_of_neg hneg]
    · simp [hneg, abs_of_nonneg (not_lt.1 hneg)]
  · rw [hbits, h256]
    split_ifs <;> omega

/-! ## Arrays -/

theorem flatMap_drop_take {α β : Type*} (g : α → List β) {k : ℕ} (hg : ∀ a, (g a).length = k) : ∀ (l : List α) (i : ℕ) (hi : i < l.length),
    ((l.flatMap g).drop (i * k)).take k = g l[i]
  | a :: l, 0, _ => by
    rw [List.flatMap_cons, zero_mul, List.drop_zero, List.take_left' (hg a)]
    rfl
  | a :: l, i + 1, hi => by
    have : (i + 1) * k = (g a).length + i * k := by rw [hg a]; ring
    rw [List.flatMap_cons, this, List.drop_length_add_append]
    simpa using flatMap_drop_take g hg l i (by simpa using hi)

theorem floatArray_size (f : FloatFormat) (shape : List ℕ) (l : List ℚ) : (floatArray f shape l).bytes.length = l.length * f.size := by
  unfold floatArray
  simp only
  induction l with
  | nil => simp
  | cons a l ih => rw [List.flatMap_cons, List.length_append, ih, leBytes_length, List.length_cons]; ring

/-- The elements of an array are the numbers that it was made from. -/
theorem values_floatArray {f : FloatFormat} (hf : FormatOK f) (shape : List ℕ) {l : List ℚ} (hl : ∀ q ∈ l, f.Has q) {n : ℕ} (hn : n = l.length) (a : NdArr)
    (ha : a.bytes = (floatArray f shape l).bytes) : f.values a n = l.map .fin := by
  subst hn
  unfold FloatFormat.values
  rw [ha]
  apply List.ext_getElem (by simp)
  intro i h1 h2
  have hi : i < l.length := by simpa using h1
  rw [List.getElem_map, List.getElem_map, List.getElem_range]
  unfold floatArray
  simp only
  rw [flatMap_drop_take (fun q => leBytes f.size (floatBits f q)) (fun q => leBytes_length _ _) l i hi]
  obtain ⟨h3, h4⟩ := value_floatBits hf (hl _ (List.getElem_mem hi))
  rw [leNat_leBytes _ _ h4, h3]

theorem finite_all (l : List ℚ) : (l.map PyFloat.fin).mapM finite = some l := by
  induction l with
  | nil => rfl
  | cons a l ih => rw [List.map_cons, List.mapM_cons, ih]; rfl

/-! ## Candidates -/

/-- The numbers of a candidate are in the formats in which they are stored, and the metadata can be saved. -/
structure CandNumsOK (c : CandNums) : Prop where
  params : ∀ q ∈ [c.params.period, c.params.freq, c.params.dm, c.params.ducy, c.params.snr], binary64.Has q
  peaks : ∀ p ∈ c.peaks, ∀ q ∈ [p.period, p.freq, p.dm, (p.tag : ℚ), p.ducy, p.snr], binary64.Has q
  subints : ∀ q ∈ c.subints, binary32.Has q
  shape : c.subints.length = c.shape.prod
  keys : KeysOK c.tsmeta
  savable : SavableDict c.tsmeta
  floats : ValFloatsInDict binary64.Has c.tsmeta

/-- The object `v` has the attributes of the candidate `c`: the parameters, all columns of the table of peaks, the shape and the elements of the sub-integrations, and metadata with the same
content. -/
structure ShowsCand (v : PyVal) (c : CandNums) : Prop where
  params : paramsShown v = some c.params
  period : peaksShown v "period" = some (c.peaks.map (·.period))
  freq : peaksShown v "freq" = some (c.peaks.map (·.freq))
  dm : peaksShown v "dm" = some (c.peaks.map (·.dm))
  width : peaksShown v "width" = some (c.peaks.map fun p => (p.tag : ℚ))
  ducy : peaksShown v "ducy" = some (c.peaks.map (·.ducy))
  snr : peaksShown v "snr" = some (c.peaks.map (·.snr))
  subints : subintsShown v = some (c.shape, c.subints)
  tsmeta : ∃ md, candAttr v "tsmeta" = some md ∧ content md = .dict (contentDict c.tsmeta)

theorem candValue_savable {c : CandNums} (h : CandNumsOK c) : Savable c.value ∧ ValFloatsIn binary64.Has c.value := by
  unfold CandNums.value summaryDict summaryFrame
  have hb : ∀ f : FloatFormat, FormatOK f → itemSize f.dtype = some f.size → f.dtype ≠ "object" → ∀ shape l, l.length = shape.prod → ArrayOK (floatArray f shape l) := by
    intro f hf hi ho shape l hl
    refine ⟨ho, f.size, ?_, hi, ?_⟩
    · have := hf.size
      have := hf.prec
      omega
    · rw [floatArray_size, hl]
      rfl
  constructor
  · simp only [Savable, SavableDict, and_true]
    refine ⟨.inr (.inr ⟨rfl, _, _, _, _, rfl⟩), ⟨by simp, by simp⟩, ⟨h.keys, h.savable⟩, ⟨hb _ binary64_ok rfl (by decide) _ _ ?_, c.peaks.length, rfl⟩,
      hb _ binary32_ok rfl (by decide) _ _ h.shape⟩
    simp [List.length_flatMap]
  · have hp := h.params
    simp only [List.mem_cons, List.not_mem_nil, or_false, forall_eq_or_imp, forall_eq] at hp
    obtain ⟨p1, p2, p3, p4, p5⟩ := hp
    simp only [ValFloatsIn, ValFloatsInDict, and_true]
    exact ⟨⟨p1, p2, p3, trivial, p4, p5⟩, h.floats⟩

/-- A frame with the bytes of the table of peaks shows its columns. -/
theorem column_summary {peaks : List (HPeak ℚ)} (h : ∀ p ∈ peaks, ∀ q ∈ [p.period, p.freq, p.dm, (p.tag : ℚ), p.ducy, p.snr], binary64.Has q)
    (types : List String) (a : NdArr) (h1 : a.dtype = "float64") (h2 : a.shape = [peaks.length, 6])
    (h3 : a.bytes = (floatArray binary64 [peaks.length, 6] (peaks.flatMap fun p => [p.period, p.freq, p.dm, (p.tag : ℚ), p.ducy, p.snr])).bytes) (j : ℕ) (name : String)
    (hj : ["period", "freq", "dm", "width", "ducy", "snr"].idxOf? name = some j) (hj6 : j < 6) (g : HPeak ℚ → ℚ)
    (hg : ∀ p : HPeak ℚ, [p.period, p.freq, p.dm, (p.tag : ℚ), p.ducy, p.snr][j]? = some (g p)) :
    columnShown (.frame types a ["period", "freq", "dm", "width", "ducy", "snr"]) name = some (peaks.map g) := by
  unfold columnShown
  simp only [hj, h2]
  rw [if_pos ⟨h1, rfl⟩]
  rw [values_floatArray binary64_ok [peaks.length, 6] (l := peaks.flatMap fun p => [p.period, p.freq, p.dm, (p.tag : ℚ), p.ducy, p.snr]) ?_ ?_ _ h3]
  · have key : ∀ i (hi : i < peaks.length), (peaks.flatMap fun p => [p.period, p.freq, p.dm, (p.tag : ℚ), p.ducy, p.snr])[i * 6 + j]? = some (g peaks[i]) := by
      intro i hi
      have h1 := flatMap_drop_take (fun p : HPeak ℚ => [p.period, p.freq, p.dm, (p.tag : ℚ), p.ducy, p.snr]) (k := 6) (fun _ => rfl) peaks i hi
      have h2 := hg peaks[i]
      rw [← h1, List.getElem?_take, if_pos hj6, List.getElem?_drop] at h2
      exact h2
    have : ∀ (L : List ℕ), (∀ i ∈ L, i < peaks.length) → L.mapM (fun i => (((peaks.flatMap fun p => [p.period, p.freq, p.dm, (p.tag : ℚ), p.ducy, p.snr]).map PyFloat.fin)[i * 6 + j]?).bind finite) =
        some (L.map fun i => (peaks.map g).getD i 0) := by
      intro L
      induction L with
      | nil => intro _; rfl
      | cons i L ih =>
        intro hL
        have hi := hL i (by simp)
        rw [List.mapM_cons, ih fun k hk => hL k (by simp [hk]), List.getElem?_map, key i hi]
        simp [finite, hi]
    rw [this _ (by simp)]
    congr 1
    apply List.ext_getElem (by simp)
    intro i h1 h2
    simp at h1
    simp [h1]
  · intro q hq
    obtain ⟨p, hp, hq⟩ := List.mem_flatMap.1 hq
    exact h p hp q hq
  · simp [List.length_flatMap]

theorem shows_value {c : CandNums} (h : CandNumsOK c) : ShowsCand c.value c ∧ ∀ saver, ShowsCand (reloaded saver c.value) c := by
  have key : ∀ (v : PyVal) (ver : Option String) (md : PyVal) (types : List String) (a b : NdArr), content md = .dict (contentDict c.tsmeta) → a.dtype = "float64" →
      a.shape = [c.peaks.length, 6] →
      a.bytes = (floatArray binary64 [c.peaks.length, 6] (c.peaks.flatMap fun p => [p.period, p.freq, p.dm, (p.tag : ℚ), p.ducy, p.snr])).bytes → b.dtype = "float32" →
      b.shape = c.shape → b.bytes = (floatArray binary32 c.shape c.subints).bytes →
      v = .object "Candidate" ver [("params", summaryDict c.params), ("tsmeta", md), ("peaks", .frame types a ["period", "freq", "dm", "width", "ducy", "snr"]),
        ("subints", .ndarray b)] → ShowsCand v c := by
    rintro v ver md types a b hmd a1 a2 a3 b1 b2 b3 rfl
    have col := column_summary h.peaks types a a1 a2 a3
    have hpk : ∀ name, peaksShown (.object "Candidate" ver [("params", summaryDict c.params), ("tsmeta", md),
        ("peaks", .frame types a ["period", "freq", "dm", "width", "ducy", "snr"]), ("subints", .ndarray b)]) name =
        columnShown (.frame types a ["period", "freq", "dm", "width", "ducy", "snr"]) name := by
      intro name
      simp [peaksShown, candAttr, dictGet]
    refine ⟨?_, ?_, ?_, ?_, ?_, ?_, ?_, ?_, ⟨md, ?_, hmd⟩⟩
    · simp [paramsShown, candAttr, summaryDict, dictGet, entryFloat, entryNat]
    · rw [hpk]; exact col 0 _ rfl (by norm_num) _ (fun _ => rfl)
    · rw [hpk]; exact col 1 _ rfl (by norm_num) _ (fun _ => rfl)
    · rw [hpk]; exact col 2 _ rfl (by norm_num) _ (fun _ => rfl)
    · rw [hpk]; exact col 3 _ rfl (by norm_num) (fun p => (p.tag : ℚ)) (fun _ => rfl)
    · rw [hpk]; exact col 4 _ rfl (by norm_num) _ (fun _ => rfl)
    · rw [hpk]; exact col 5 _ rfl (by norm_num) _ (fun _ => rfl)
    · have e : (binary32.values b b.shape.prod).mapM finite = some c.subints := by
        rw [values_floatArray binary32_ok c.shape h.subints (by rw [b2, h.shape]) b b3, finite_all]
      rw [b2] at e
      unfold subintsShown
      simp only [candAttr, dictGet, String.reduceEq, if_false, if_true, b1, b2, e]
      rfl
    · simp [candAttr, dictGet]
  constructor
  · exact key _ _ _ _ _ _ (by rw [content]) rfl rfl rfl rfl rfl rfl rfl
  · intro saver
    refine key _ (some saver) (.dict (reloadedDict saver c.tsmeta)) (List.replicate 6 "float64") { floatArray binary64 [c.peaks.length, 6] (c.peaks.flatMap fun p => [p.period, p.freq, p.dm, (p.tag : ℚ), p.ducy, p.snr]) with writable := false }
      { floatArray binary32 c.shape c.subints with writable := false } (by rw [content, contentDict_reloaded]) rfl rfl rfl rfl rfl rfl ?_
    simp [CandNums.value, reloaded, reloadedDict, summaryDict, summaryFrame, restoreMeta, writtenVersion, floatArray, binary64]

/-- **C130.** A candidate that is saved is loaded with the same numbers: its parameters, every column of the table of its peaks, and the shape and the elements of its
sub-integrations, on every system and with every version of riptide. It bears the version of riptide that saved it. Saved again by any version, it gives the same file. -/
theorem C130_file {fc : FloatCode} (hf : FloatCode.Faithful fc binary64.Has) {codec codec' : TextCodec} (hc : AsciiCompatible codec) (hc' : AsciiCompatible codec')
    {linesep : List Char} (hs : linesep = ['\n'] ∨ linesep = ['\r', '\n'] ∨ linesep = ['\r']) (saver loader : String) (hne : saver ≠ "") (indent : Option ℕ) {c : CandNums}
    (h : CandNumsOK c) : ShowsCand c.value c ∧
    ∃ bytes v', saveJsonFile fc codec linesep saver indent c.value = .ok bytes ∧ loadJsonFile fc codec' loader bytes = .ok v' ∧ ShowsCand v' c ∧
      (∃ f, v' = .object "Candidate" (some saver) f) ∧ ∀ saver', saveJsonFile fc codec linesep saver' indent v' = .ok bytes := by
  obtain ⟨h1, h2⟩ := candValue_savable h
  obtain ⟨bytes, h3, h4⟩ := file_reloaded hf hc hc' hs saver loader indent h1 h2
  refine ⟨(shows_value h).1, bytes, _, h3, h4, (shows_value h).2 saver, ?_, fun saver' => C108_same_file hf hc hc' hs saver loader saver' hne indent h1 h2 h3 h4⟩
  unfold CandNums.value
  rw [reloaded]
  exact ⟨_, rfl⟩

/-! ## Numbers of single precision are numbers of double precision -/

theorem single_double {q : ℚ} (h : binary32.Has q) : binary64.Has q := by
  obtain ⟨m, e, h1, h2, h3, h4⟩ := h
  simp only [binary32, FloatFormat.emin] at h1 h2 h3
  refine ⟨m, e, ?_, ?_, ?_, h4⟩ <;> simp only [binary64, FloatFormat.emin] <;> norm_num at h1 h2 h3 ⊢ <;> omega

theorem nat_double {n : ℕ} (h : n < 2 ^ 53) : binary64.Has (n : ℚ) := by
  refine ⟨n, 0, ?_, ?_, ?_, by simp⟩
  · rw [abs_of_nonneg (by positivity)]
    exact_mod_cast h
  · simp only [binary64, FloatFormat.emin]; norm_num
  · simp only [binary64, FloatFormat.emin]; norm_num

/-! ## The arrays of candidates -/

/-- All rows have the same length. -/
def Rect : NdArray → Prop
  | .d1 _ => True
  | .d2 rows => ∀ row ∈ rows, row.length = (rows.headD []).length

theorem rect_of {rows : List (List ℝ)} {n : ℕ} (h : ∀ row ∈ rows, row.length = n) : Rect (.d2 rows) := by
  intro row hrow
  cases rows with
  | nil => simp at hrow
  | cons a l => rw [h row hrow, List.headD_cons, h a (by simp)]

theorem downsampleVertical_rect {X : List (List ℝ)} {bins : ℕ} {factor : ℝ} {out : List (List ℝ)} (h : downsampleVertical X bins factor = .ok out) : Rect (.d2 out) := by
  unfold downsampleVertical at h
  simp only at h
  split_ifs at h
  obtain ⟨cols, h1, h2⟩ := bind_ok_inv h
  cases h2
  refine rect_of (n := cols.length) ?_
  intro row hrow
  obtain ⟨i, -, rfl⟩ := List.mem_map.1 hrow
  simp

/-- What `fold` returns is an array. -/
theorem fold_rect {w w' : World} {id : ℕ} {period : ℝ} {bins : ℕ} {subints : Option ℤ} {out : NdArray} (h : tsFold w id period bins subints = .ok (w', out)) : Rect out := by
  obtain ⟨o, h1, h2⟩ := bind_ok_inv h
  obtain ⟨_, h3, h4⟩ := bind_ok_inv h2
  split_ifs at h4 with hts
  simp only at h4
  obtain ⟨⟨w1, r⟩, h5, h6⟩ := bind_ok_inv h4
  obtain ⟨tsdown, h7, h8⟩ := bind_ok_inv h6
  split_ifs at h8 with hm
  obtain ⟨y, h9, h10⟩ := bind_ok_inv h8
  cases h10
  set n := (w1.dataOf tsdown).length with hn
  set m := n / bins with hmdef
  set sc : List ℝ := List.map (fun x => x * (Real.sqrt (m * (period / bins / o.tsamp)))⁻¹) (List.take (m * bins) (w1.dataOf tsdown)) ++ List.drop (m * bins) (w1.dataOf tsdown) with hsc
  have hle : m * bins ≤ n := Nat.div_mul_le_self n bins
  have hlen : (World.dataOf { w1 with arrays := w1.arrays.set tsdown.data sc } tsdown).length = n := by
    unfold World.dataOf
    by_cases hi : tsdown.data < w1.arrays.length
    · have : sc.length = n := by
        rw [hsc]
        simp only [List.length_append, List.length_map, List.length_take, List.length_drop]
        omega
      simp [hi, this]
    · rw [List.set_eq_of_length_le (by omega)]
      rfl
  have hre : ∀ row ∈ reshape (World.dataOf { w1 with arrays := w1.arrays.set tsdown.data sc } tsdown) m bins, row.length = bins := by
    intro row hrow
    obtain ⟨i, hi, rfl⟩ := List.mem_map.1 hrow
    rw [List.mem_range] at hi
    rw [List.length_take, List.length_drop, hlen]
    have : (i + 1) * bins ≤ m * bins := Nat.mul_le_mul_right _ hi
    rw [add_mul] at this
    omega
  unfold foldOutput at h9
  split_ifs at h9
  · cases h9
    trivial
  · cases subints with
    | none =>
      cases h9
      exact rect_of hre
    | some s =>
      simp only at h9
      split_ifs at h9
      · cases h9
        exact rect_of hre
      · obtain ⟨out, ho, h11⟩ := bind_ok_inv h9
        cases h11
        exact downsampleVertical_rect ho

theorem makeCandidate_rect {ranges : List (SearchRange ℝ)} {subintsOf : SearchRange ℝ → Option ℤ} {w w' : World} {id : ℕ} {cl : PCluster ℝ} {x : CandObj ℝ}
    (h : makeCandidate ranges subintsOf w id cl = .ok (w', x)) : Rect x.subints ∧ x.peaks = cl.peaks ∧ cl.centre = .ok x.params := by
  obtain ⟨centre, h1, h2⟩ := bind_ok_inv h
  obtain ⟨r, h3, h4⟩ := bind_ok_inv h2
  cases r with
  | none => cases h4
  | some r =>
    obtain ⟨centre', h5, h6⟩ := bind_ok_inv h4
    obtain ⟨o, h7, h8⟩ := bind_ok_inv h6
    obtain ⟨q, h9, h10⟩ := map_ok_inv h8
    rw [h1] at h5
    cases Except.ok.inj h5
    obtain ⟨-, rfl⟩ := Prod.mk.inj h10
    exact ⟨fold_rect h9, rfl, h1⟩

theorem mem_buildGroup {K τ γ : Type*} [LinearOrder K] (make : τ → ℕ → HPeak K → Except PyErr γ) (ts : τ) : ∀ (l : List (ℕ × HPeak K)) (x : PCandidate K γ), x ∈ buildGroup make ts l →
    make ts x.source x.params = .ok x.data
  | [], x, h => by simp [buildGroup] at h
  | (i, p) :: l, x, h => by
    rw [buildGroup] at h
    cases e : make ts i p with
    | error _ => rw [e] at h; exact mem_buildGroup make ts l x h
    | ok d =>
      rw [e] at h
      rcases List.mem_cons.1 h with rfl | h
      · exact e
      · exact mem_buildGroup make ts l x h

theorem mem_buildGroups {K τ γ : Type*} [LinearOrder K] (load : K → Except PyErr τ) (make : τ → ℕ → HPeak K → Except PyErr γ) : ∀ (l : PyDict K (List (ℕ × HPeak K)))
    (r : List (PCandidate K γ)), buildGroups load make l = .ok r → ∀ x ∈ r, ∃ ts, make ts x.source x.params = .ok x.data
  | [], r, h, x, hx => by cases h; simp at hx
  | (dm, cl) :: l, r, h, x, hx => by
    rw [buildGroups] at h
    obtain ⟨ts, h1, h2⟩ := bind_ok_inv h
    obtain ⟨rest, h3, rfl⟩ := map_ok_inv h2
    rcases List.mem_append.1 hx with hx | hx
    · exact ⟨ts, mem_buildGroup make ts cl x hx⟩
    · exact mem_buildGroups load make l rest h3 x hx

/-- Where the candidates of a run come from. -/
theorem pipelineFiles_candidate {D : Disk} {t : PipeTools} {conf : PyVal} {fnames : List (List Char)} {s : PoolSchedule} {st : PipeState ℝ (CandObj ℝ)}
    (h : pipelineFiles D t conf fnames s = .ok st) : ∀ x ∈ st.candidates, Rect x.data.subints ∧ x.data.peaks = (st.heap x.source).peaks := by
  obtain ⟨v, -, h⟩ := bind_ok_inv h
  obtain ⟨c, -, h⟩ := bind_ok_inv h
  obtain ⟨ms, -, h⟩ := bind_ok_inv h
  obtain ⟨v', -, h⟩ := bind_ok_inv h
  obtain ⟨c', -, h⟩ := bind_ok_inv h
  obtain ⟨it, -, h⟩ := bind_ok_inv h
  obtain ⟨b, -, h⟩ := bind_ok_inv h
  obtain ⟨fs, -, h⟩ := bind_ok_inv h
  obtain ⟨new, hperm, hb⟩ := C69_appends_partial _ s _ _ h
  intro x hx
  have hx' : x ∈ new := by
    have := hperm.mem_iff.1 hx
    simpa [PipeState.fresh] using this
  unfold buildCandidates at hb
  obtain ⟨cs, -, hb⟩ := bind_ok_inv hb
  simp only at hb
  split_ifs at hb
  · have : new.mergeSort (fun a b => decide (b.params.snr ≤ a.params.snr)) = [] := (Except.ok.inj hb).symm
    have : new = [] := by
      have hp := List.mergeSort_perm new (fun a b => decide (b.params.snr ≤ a.params.snr))
      rw [this] at hp
      exact hp.nil_eq.symm
    rw [this] at hx'
    simp at hx'
  · obtain ⟨new', h3, h4⟩ := map_ok_inv hb
    have hx2 : x ∈ new' := by
      have h5 : x ∈ new.mergeSort (fun a b => decide (b.params.snr ≤ a.params.snr)) := (List.mergeSort_perm _ _).mem_iff.2 hx'
      rw [← h4] at h5
      simpa using (List.mergeSort_perm _ _).mem_iff.1 h5
    obtain ⟨ts, h6⟩ := mem_buildGroups _ _ _ _ h3 x hx2
    obtain ⟨r, h7, h8⟩ := map_ok_inv h6
    obtain ⟨h9, h10, -⟩ := makeCandidate_rect (w' := r.1) (x := r.2) h7
    rw [h8] at h9 h10
    exact ⟨h9, h10⟩

/-- Without peaks there are no candidates. -/
theorem process_no_peaks {K β τ γ : Type*} [LinearOrder K] [Field K] {j : PipeJob K β τ γ} {s : PoolSchedule} {st : PipeState K γ} (h : PipeState.fresh.process j s = .ok st)
    (h0 : st.peaks = []) : st.candidates = [] := by
  obtain ⟨st1, h1, h⟩ := bind_ok_inv h
  obtain ⟨st2, h2, h⟩ := bind_ok_inv h
  obtain ⟨st3, h3, h⟩ := bind_ok_inv h
  obtain ⟨st4, h4, h⟩ := bind_ok_inv h
  obtain ⟨p, -, rfl⟩ := map_ok_inv h1
  obtain ⟨q, h6, rfl⟩ := map_ok_inv h3
  obtain ⟨l, h7, rfl⟩ := map_ok_inv h4
  obtain ⟨c, h8, rfl⟩ := map_ok_inv h
  simp only at h0 h6 h7 h8 ⊢
  unfold PipeState.cluster at h2
  split_ifs at h2 with hp
  · cases h2
    simp only [PipeState.fresh] at h7 h8
    have hl : l = [] := by
      unfold applyFilters withCentres at h7
      obtain ⟨cs, h9, rfl⟩ := map_ok_inv h7
      obtain rfl : cs = [] := (Except.ok.inj h9).symm
      have e1 : ∀ o : Option K, filterDm o ([] : List (ℕ × HPeak K)) = [] := fun o => by cases o <;> rfl
      have e2 : ∀ o : Option K, filterSnr o ([] : List (ℕ × HPeak K)) = [] := fun o => by cases o <;> rfl
      have e3 : ∀ b, filterHarmonics q b ([] : List (ℕ × HPeak K)) = [] := fun b => by cases b <;> rfl
      rw [e1, e2, e3]
      rcases j.filters.maxNumber with _ | _ | n <;> simp [filterCap, sortBySnr]
    subst hl
    have hn : withCentres q ([] : List ℕ) = .ok [] := rfl
    unfold buildCandidates at h8
    rw [hn] at h8
    simpa [Except.bind, sortBySnr] using h8.symm
  · obtain ⟨new, -, rfl⟩ := map_ok_inv h2
    simp only [PipeState.addClusters] at h0
    rw [h0] at hp
    exact absurd rfl hp

theorem pipelineFiles_no_peaks {D : Disk} {t : PipeTools} {conf : PyVal} {fnames : List (List Char)} {s : PoolSchedule} {st : PipeState ℝ (CandObj ℝ)}
    (h : pipelineFiles D t conf fnames s = .ok st) (h0 : st.peaks = []) : st.candidates = [] := by
  obtain ⟨v, -, h⟩ := bind_ok_inv h
  obtain ⟨c, -, h⟩ := bind_ok_inv h
  obtain ⟨ms, -, h⟩ := bind_ok_inv h
  obtain ⟨v', -, h⟩ := bind_ok_inv h
  obtain ⟨c', -, h⟩ := bind_ok_inv h
  obtain ⟨it, -, h⟩ := bind_ok_inv h
  obtain ⟨b, -, h⟩ := bind_ok_inv h
  obtain ⟨fs, -, h⟩ := bind_ok_inv h
  exact process_no_peaks h h0

/-! ## The candidates of a run -/

/-- Metadata that can be saved. -/
def MetaOK (md : PyDict String PyVal) : Prop := KeysOK md ∧ SavableDict md ∧ ValFloatsInDict binary64.Has md

theorem candNums_ok {double single : ℝ → ℚ} (hd : ∀ x, binary64.Has (double x)) (hs : ∀ x, binary32.Has (single x)) {md : PyDict String PyVal} (hm : MetaOK md) {x : CandObj ℝ}
    (hr : Rect x.subints) (hw : ∀ p ∈ x.peaks, p.tag < 2 ^ 53) : CandNumsOK (candNums double single md x) := by
  refine ⟨?_, ?_, ?_, ?_, hm.1, hm.2.1, hm.2.2⟩
  · intro q hq
    simp only [candNums, List.mem_cons, List.not_mem_nil, or_false] at hq
    rcases hq with rfl | rfl | rfl | rfl | rfl
    · exact hd _
    · exact hd _
    · exact hd _
    · exact hd _
    · exact single_double (hs _)
  · intro p hp q hq
    obtain ⟨p, hp', rfl⟩ := List.mem_map.1 hp
    simp only [List.mem_cons, List.not_mem_nil, or_false] at hq
    rcases hq with rfl | rfl | rfl | rfl | rfl | rfl
    · exact hd _
    · exact hd _
    · exact hd _
    · exact nat_double (hw p hp')
    · exact hd _
    · exact single_double (hs _)
  · intro q hq
    unfold candNums at hq
    cases hx : x.subints with
    | d1 y =>
      simp only [hx, List.mem_map] at hq
      obtain ⟨a, -, rfl⟩ := hq
      exact hs a
    | d2 rows =>
      simp only [hx, List.mem_map] at hq
      obtain ⟨a, -, rfl⟩ := hq
      exact hs a
  · unfold candNums
    cases hx : x.subints with
    | d1 y => simp
    | d2 rows =>
      rw [hx] at hr
      simp only [List.length_map, List.length_flatten, List.prod_cons, List.prod_nil, mul_one]
      rw [List.map_congr_left (g := fun _ => (rows.headD []).length) hr]
      simp

theorem flatten_index {α : Type*} (n : ℕ) : ∀ (rows : List (List α)), (∀ row ∈ rows, row.length = n) → ∀ (i : ℕ) (row : List α), rows[i]? = some row → ∀ (j : ℕ) (y : α), row[j]? = some y →
    rows.flatten[i * n + j]? = some y
  | [], _, i, row, h, _, _, _ => by simp at h
  | r :: rows, hr, 0, row, h, j, y, hj => by
    simp only [List.getElem?_cons_zero, Option.some.injEq] at h
    subst h
    obtain ⟨hlt, -⟩ := List.getElem?_eq_some_iff.1 hj
    rw [List.flatten_cons, zero_mul, zero_add, List.getElem?_append_left hlt, hj]
  | r :: rows, hr, i + 1, row, h, j, y, hj => by
    rw [List.getElem?_cons_succ] at h
    rw [List.flatten_cons, List.getElem?_append_right (by rw [hr r (by simp), add_mul]; omega), hr r (by simp), add_mul, one_mul,
      show i * n + n + j - n = i * n + j by omega]
    exact flatten_index n rows (fun row hrow => hr row (List.mem_cons_of_mem _ hrow)) i row h j y hj

/-- What an object with these numbers shows of the candidate itself. -/
theorem showsObj_of {double single : ℝ → ℚ} {md : PyDict String PyVal} {x : CandObj ℝ} (hr : Rect x.subints) {v : PyVal} (h : ShowsCand v (candNums double single md x)) :
    ShowsObj double single v x := by
  have hp : ∀ f : HPeak ℚ → ℚ, ((candNums double single md x).peaks.map f) =
      x.peaks.map fun p => f { freq := double p.freq, snr := single p.snr, ducy := double p.ducy, dm := double p.dm, period := double p.period, tag := p.tag } := by
    intro f
    simp only [candNums, List.map_map]
    rfl
  refine ⟨⟨_, h.params, rfl, rfl, rfl, rfl, rfl, rfl⟩, ?_, ?_, ?_, ?_, ?_, ?_, ?_, ?_⟩
  · rw [h.period, hp]
  · rw [h.freq, hp]
  · rw [h.dm, hp]
  · rw [h.width, hp fun p => (p.tag : ℚ)]
  · rw [h.ducy, hp]
  · rw [h.snr, hp]
  · intro y hy
    rw [h.subints]
    simp only [candNums, hy]
  · intro rows hx
    rw [hx] at hr
    refine ⟨(rows.headD []).length, rows.flatten.map single, ?_, ?_, ?_⟩
    · rw [h.subints]
      simp only [candNums, hx]
    · rw [List.length_map, List.length_flatten, List.map_congr_left (g := fun _ => (rows.headD []).length) hr]
      simp
    · intro i row hrow
      refine ⟨hr row (List.mem_of_getElem? hrow), fun j y hy => ?_⟩
      rw [List.getElem?_map, flatten_index _ rows hr i row hrow j y hy]
      rfl

/-! ## A candidate -/

theorem binary64_finite {q : ℚ} (h : binary64.Has q) : BinaryFinite q := by
  obtain ⟨m, e, -, -, -, rfl⟩ := h
  unfold BinaryFinite
  rcases le_or_gt 0 e with he | he
  · obtain ⟨n, rfl⟩ := Int.eq_ofNat_of_zero_le he
    refine ⟨0, ?_⟩
    have : (m : ℚ) * 2 ^ (n : ℤ) = ((m * 2 ^ n : ℤ) : ℚ) := by push_cast; rw [zpow_natCast]
    rw [this, Rat.den_intCast]
    rfl
  · obtain ⟨n, hn⟩ : ∃ n : ℕ, e = -n := ⟨(-e).toNat, by omega⟩
    have : (m : ℚ) * 2 ^ e = Rat.divInt m (2 ^ n : ℕ) := by
      rw [hn, zpow_neg, zpow_natCast, Rat.divInt_eq_div]
      push_cast
      rw [div_eq_mul_inv]
    rw [this]
    have hd : (Rat.divInt m ((2 ^ n : ℕ) : ℤ)).den ∣ 2 ^ n := by
      exact_mod_cast Rat.den_dvd m ((2 ^ n : ℕ) : ℤ)
    obtain ⟨k, -, hk⟩ := (Nat.dvd_prime_pow Nat.prime_two).1 hd
    exact ⟨k, hk⟩

/-- A candidate with two peaks and three sub-integrations of two bins. -/
def candExample : CandNums where
  params := { period := 1 / 2, freq := 2, dm := 10, tag := 3, ducy := 3 / 64, snr := 75 / 8 }
  tsmeta := [("tobs", .float (.fin 600)), ("source_name", .str "J1855+0307"), ("dm", .float (.fin 10))]
  peaks := [{ period := 1 / 2, freq := 2, dm := 10, tag := 3, ducy := 3 / 64, snr := 75 / 8 }, { period := 1 / 2, freq := 2, dm := 21 / 2, tag := 2, ducy := 1 / 32, snr := 17 / 2 }]
  shape := [3, 2]
  subints := [1, -1 / 2, 3 / 4, 0, -5, 2]

/-- An integer number of units of `2 ^ -10`, less than `2 ^ 10`, is in both formats. -/
theorem has_small {q : ℚ} (m : ℤ) (hm : |m| < 2 ^ 20) (h : q = m * 2 ^ (-10 : ℤ)) : binary32.Has q ∧ binary64.Has q := by
  have h32 : binary32.Has q := by
    refine ⟨m, -10, ?_, ?_, ?_, h⟩
    · simp only [binary32]
      exact hm.trans (by norm_num)
    · simp [binary32, FloatFormat.emin]
    · simp [binary32, FloatFormat.emin]
  exact ⟨h32, single_double h32⟩

theorem candExample_ok : CandNumsOK candExample := by
  have key : ∀ l : List ℚ, (∀ q ∈ l, q ∈ ([1 / 2, 2, 10, 3, 3 / 64, 75 / 8, 21 / 2, 1 / 32, 17 / 2, 1, -1 / 2, 3 / 4, 0, -5] : List ℚ)) → ∀ q ∈ l, binary32.Has q ∧ binary64.Has q := by
    intro l hl q hq
    have := hl q hq
    simp only [List.mem_cons, List.not_mem_nil, or_false] at this
    refine has_small ⌊q * 1024⌋ ?_ ?_ <;> rcases this with rfl | rfl | rfl | rfl | rfl | rfl | rfl | rfl | rfl | rfl | rfl | rfl | rfl | rfl <;> norm_num
  refine ⟨?_, ?_, ?_, by simp [candExample], by simp [KeysOK, candExample], ?_, ?_⟩
  · exact fun q hq => (key _ (by simp [candExample]) q hq).2
  · intro p hp
    simp only [candExample, List.mem_cons, List.not_mem_nil, or_false] at hp
    rcases hp with rfl | rfl
    · exact fun q hq => (key _ (by norm_num) q hq).2
    · exact fun q hq => (key _ (by norm_num) q hq).2
  · exact fun q hq => (key _ (by norm_num [candExample]) q hq).1
  · simp [SavableDict, Savable, candExample]
  · simp only [ValFloatsInDict, ValFloatsIn, candExample, true_and, and_true]
    exact ⟨(has_small 614400 (by norm_num) (by norm_num)).2, (has_small 10240 (by norm_num) (by norm_num)).2⟩

/-- The hypotheses of `C130_file` are met. -/
example : ShowsCand candExample.value candExample ∧
    ∃ bytes v', saveJsonFile decimalCode asciiCodec ['\r', '\n'] "0.2.4" (some 4) candExample.value = .ok bytes ∧ loadJsonFile decimalCode asciiCodec "0.3.0" bytes = .ok v' ∧
      ShowsCand v' candExample ∧ (∃ f, v' = .object "Candidate" (some "0.2.4") f) ∧
      ∀ saver', saveJsonFile decimalCode asciiCodec ['\r', '\n'] saver' (some 4) v' = .ok bytes :=
  C130_file (fun q hq => decimalCode_faithful q (binary64_finite hq)) asciiCodec_ok asciiCodec_ok (.inr (.inl rfl)) "0.2.4" "0.3.0" (by decide) (some 4) candExample_ok

end Verif.Props
