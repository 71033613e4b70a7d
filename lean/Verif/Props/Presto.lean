import Verif.Lemmas.Presto
import Verif.Props.Sigproc
import Mathlib.Data.Fin.VecNotation
import Mathlib.Tactic.FinCases

/-!
# C53: PRESTO `.inf` files
-/

namespace Verif.Props

open Verif.Model Verif.Spec Verif.Lemmas

/-- The text fields of the common part of the file: `c` are its 12 lines. -/
structure InfCommonValues (c : Fin 12 → InfLine) (mjd : ℚ) (bary : ℤ) (nsamp : ℤ) (tsamp : ℚ) (breaks : ℤ) : Prop where
  lines : ∀ i, (c i).OK
  real : (c 1).value ≠ "None (Artificial Data Set)".toList
  mjd : FloatText (c 7).value mjd
  bary : IntText (c 8).value bary
  nsamp : IntText (c 9).value nsamp
  tsamp : FloatText (c 10).value tsamp
  breaks : IntText (c 11).value breaks

/-- The dictionary entries of the common part. -/
def infCommonItems (c : Fin 12 → InfLine) (mjd : ℚ) (bary nsamp : ℤ) (tsamp : ℚ) (breaks : ℤ) : List (String × PyVal) :=
  [("basename", .str (String.ofList (c 0).value)), ("telescope", .str (String.ofList (c 1).value)),
    ("instrument", .str (String.ofList (c 2).value)), ("source_name", .str (String.ofList (c 3).value)),
    ("raj", .str (String.ofList (c 4).value)), ("decj", .str (String.ofList (c 5).value)),
    ("observer", .str (String.ofList (c 6).value)), ("mjd", .float (.fin mjd)), ("barycentered", .bool (decide (bary ≠ 0))),
    ("nsamp", .int nsamp), ("tsamp", .float (.fin tsamp)), ("breaks", .bool (decide (breaks ≠ 0)))]

theorem infField_line {lines : List (List Char)} {n : ℕ} {l : InfLine} (h : lines[n]? = some l.text) (hl : l.OK)
    (vtype : List Char → Except PyErr PyVal) : infField lines n vtype = vtype l.value := by
  unfold infField
  rw [h]
  exact parseInfValue_line l hl vtype

theorem infBlock_cons {lines : List (List Char)} {n : ℕ} {l : InfLine} {key : String} {vtype : List Char → Except PyErr PyVal}
    {rest : List (ℕ × String × (List Char → Except PyErr PyVal))} {v : PyVal} {r : List (String × PyVal)}
    (h : lines[n]? = some l.text) (hl : l.OK) (hv : vtype l.value = .ok v) (hr : infBlock lines rest = .ok r) :
    infBlock lines ((n, key, vtype) :: rest) = .ok ((key, v) :: r) := by
  rw [infBlock, infField_line h hl, hv, hr]; rfl

theorem floatType_val {s : List Char} {x : ℚ} (h : FloatText s x) : pyFloatType s = .ok (.float (.fin x)) := by
  unfold pyFloatType; rw [h.val]; rfl

theorem intType_val {s : List Char} {i : ℤ} (h : IntText s i) : pyIntType s = .ok (.int i) := by
  unfold pyIntType; rw [h.val']; rfl

theorem boolType_val {s : List Char} {i : ℤ} (h : IntText s i) : parseBool s = .ok (.bool (decide (i ≠ 0))) := by
  unfold parseBool; rw [h.val']; rfl

theorem onoffPairs_lines (pairs : List (InfLine × ℤ × ℤ)) (rest : List (List Char))
    (hp : ∀ p ∈ pairs, p.1.OK ∧ PairText p.1.value p.2.1 p.2.2) (l : List Char) (e : PyErr) (hl : parseInfValue l parseIntPair = .error e) :
    onoffPairs (pairs.map (fun p => p.1.text) ++ l :: rest) = pairs.map fun p => .list [.int p.2.1, .int p.2.2] := by
  induction pairs with
  | nil => rw [List.map_nil, List.nil_append, onoffPairs, hl]; rfl
  | cons p pairs ih =>
    rw [List.map_cons, List.cons_append, onoffPairs, parseInfValue_line _ (hp p (by simp)).1, (hp p (by simp)).2.val]
    simp only
    rw [ih (fun q hq => hp q (by simp [hq]))]; rfl

/-- The parser up to the line of the band. -/
theorem inf2dict_common {c : Fin 12 → InfLine} {mjd : ℚ} {bary nsamp : ℤ} {tsamp : ℚ} {breaks : ℤ}
    (hc : InfCommonValues c mjd bary nsamp tsamp breaks) (pairs : List (InfLine × ℤ × ℤ))
    (hp : ∀ p ∈ pairs, p.1.OK ∧ PairText p.1.value p.2.1 p.2.2) (hb : pairs = [] ∨ breaks ≠ 0)
    (band : InfLine) (bandRest : List InfLine) (hband : ∀ l ∈ band :: bandRest, l.OK)
    (hcomma : ',' ∉ band.value) (tail : List Char) :
    ∃ more, inf2dict (linesText (List.ofFn c ++ pairs.map Prod.fst ++ band :: bandRest) ++ tail) =
      (infBand ((band :: bandRest).map InfLine.text ++ more)).map fun b =>
        infCommonItems c mjd bary nsamp tsamp breaks ++
          [("onoff_pairs", .list (pairs.map fun p => .list [.int p.2.1, .int p.2.2]))] ++ b := by
  obtain ⟨more, hmore⟩ := splitlines_strip (List.ofFn c ++ pairs.map Prod.fst ++ band :: bandRest) tail (by simp) (by
    intro l hl
    simp only [List.mem_append, List.mem_ofFn, List.mem_map] at hl
    rcases hl with (⟨i, rfl⟩ | ⟨p, hpm, rfl⟩) | hl
    · exact hc.lines i
    · exact (hp p hpm).1
    · exact hband l hl)
  refine ⟨more, ?_⟩
  unfold inf2dict
  simp only
  rw [hmore]
  obtain ⟨L, hL⟩ : ∃ L, L = (List.ofFn c ++ pairs.map Prod.fst ++ band :: bandRest).map InfLine.text ++ more := ⟨_, rfl⟩
  rw [← hL]
  have hL' : L = (List.ofFn c).map InfLine.text ++ (pairs.map (fun p => p.1.text) ++ ((band :: bandRest).map InfLine.text ++ more)) := by
    rw [hL]; simp [Function.comp_def]
  have hget : ∀ (n : ℕ) (h : n < 12), L[n]? = some (c ⟨n, h⟩).text := by
    intro n h
    rw [hL', List.getElem?_append_left (by simpa using h), List.getElem?_map, List.getElem?_ofFn, dif_pos h]
    rfl
  have hdrop : L.drop 12 = pairs.map (fun p => p.1.text) ++ ((band :: bandRest).map InfLine.text ++ more) := by
    rw [hL', List.drop_left' (by simp)]
  have hhead : infBlock L [(0, "basename", pyStrType), (1, "telescope", pyStrType)] =
      .ok [("basename", .str (String.ofList (c 0).value)), ("telescope", .str (String.ofList (c 1).value))] :=
    infBlock_cons (hget 0 (by omega)) (hc.lines _) rfl (infBlock_cons (hget 1 (by omega)) (hc.lines _) rfl rfl)
  have hcom : infBlock L infCommon = .ok ((infCommonItems c mjd bary nsamp tsamp breaks).drop 2) :=
    infBlock_cons (hget 2 (by omega)) (hc.lines _) rfl <| infBlock_cons (hget 3 (by omega)) (hc.lines _) rfl <|
    infBlock_cons (hget 4 (by omega)) (hc.lines _) rfl <| infBlock_cons (hget 5 (by omega)) (hc.lines _) rfl <|
    infBlock_cons (hget 6 (by omega)) (hc.lines _) rfl <|
    infBlock_cons (hget 7 (by omega)) (hc.lines _) (floatType_val hc.mjd) <|
    infBlock_cons (hget 8 (by omega)) (hc.lines _) (boolType_val hc.bary) <|
    infBlock_cons (hget 9 (by omega)) (hc.lines _) (intType_val hc.nsamp) <|
    infBlock_cons (hget 10 (by omega)) (hc.lines _) (floatType_val hc.tsamp) <|
    infBlock_cons (hget 11 (by omega)) (hc.lines _) (boolType_val hc.breaks) rfl
  rw [hhead, hcom]
  have hfake : ((dictGet [("basename", PyVal.str (String.ofList (c 0).value)),
      ("telescope", PyVal.str (String.ofList (c 1).value))] "telescope").getD .none).isStr "None (Artificial Data Set)" = false := by
    have e : dictGet [("basename", PyVal.str (String.ofList (c 0).value)),
      ("telescope", PyVal.str (String.ofList (c 1).value))] "telescope" = some (PyVal.str (String.ofList (c 1).value)) := by
      simp [dictGet]
    rw [e]
    simp only [Option.getD_some, PyVal.isStr, beq_eq_false_iff_ne]
    intro hcon
    apply hc.real
    rw [← hcon, String.toList_ofList]
  simp only [Except.bind]
  rw [if_neg (by rw [hfake]; simp)]
  unfold infRest
  simp only
  have hitems : [("basename", PyVal.str (String.ofList (c 0).value)), ("telescope", PyVal.str (String.ofList (c 1).value))] ++
      (infCommonItems c mjd bary nsamp tsamp breaks).drop 2 = infCommonItems c mjd bary nsamp tsamp breaks := rfl
  have hbr : dictGet (infCommonItems c mjd bary nsamp tsamp breaks) "breaks" = some (.bool (decide (breaks ≠ 0))) := by
    simp [dictGet, infCommonItems]
  rw [hitems, hbr, hdrop]
  have hstop : parseInfValue band.text parseIntPair = .error .valueError := by
    rw [parseInfValue_line _ (hband band (by simp)), parseIntPair, splitComma_single _ hcomma]
  have hpairs : (if ((some (PyVal.bool (decide (breaks ≠ 0)))).getD PyVal.none).isTrue = true then
      onoffPairs (pairs.map (fun p => p.1.text) ++ ((band :: bandRest).map InfLine.text ++ more)) else []) =
      pairs.map fun p => .list [.int p.2.1, .int p.2.2] := by
    simp only [Option.getD_some, PyVal.isTrue, decide_eq_true_eq]
    split_ifs with h
    · exact onoffPairs_lines pairs _ hp _ _ hstop
    · rcases hb with rfl | hb
      · rfl
      · exact absurd hb h
  rw [hpairs, List.drop_left' (by simp)]

/-- **C53**, radio files: whatever follows the 20 lines and the data breaks, the parser recovers the values written. -/
theorem C53_radio {c : Fin 12 → InfLine} {mjd : ℚ} {bary nsamp : ℤ} {tsamp : ℚ} {breaks : ℤ}
    (hc : InfCommonValues c mjd bary nsamp tsamp breaks) (pairs : List (InfLine × ℤ × ℤ))
    (hp : ∀ p ∈ pairs, p.1.OK ∧ PairText p.1.value p.2.1 p.2.2) (hb : pairs = [] ∨ breaks ≠ 0)
    (b : Fin 8 → InfLine) (hbo : ∀ i, (b i).OK) (hband : (b 0).value = "Radio".toList) {fov dm fbot bw cbw : ℚ} {nchan : ℤ}
    (h1 : FloatText (b 1).value fov) (h2 : FloatText (b 2).value dm) (h3 : FloatText (b 3).value fbot)
    (h4 : FloatText (b 4).value bw) (h5 : IntText (b 5).value nchan) (h6 : FloatText (b 6).value cbw) (tail : List Char) :
    inf2dict (linesText (List.ofFn c ++ pairs.map Prod.fst ++ List.ofFn b) ++ tail) =
      .ok (infCommonItems c mjd bary nsamp tsamp breaks ++
        [("onoff_pairs", .list (pairs.map fun p => .list [.int p.2.1, .int p.2.2]))] ++
        [("em_band", .str "Radio"), ("fov_arcsec", .float (.fin fov)), ("dm", .float (.fin dm)), ("fbot", .float (.fin fbot)),
          ("bandwidth", .float (.fin bw)), ("nchan", .int nchan), ("cbw", .float (.fin cbw)),
          ("analyst", .str (String.ofList (b 7).value))]) := by
  have hof : List.ofFn b = b 0 :: [b 1, b 2, b 3, b 4, b 5, b 6, b 7] := by simp [List.ofFn_succ]
  obtain ⟨more, hm⟩ := inf2dict_common hc pairs hp hb (b 0) [b 1, b 2, b 3, b 4, b 5, b 6, b 7]
    (by intro l hl; rw [← hof] at hl; rw [List.mem_ofFn] at hl; obtain ⟨i, rfl⟩ := hl; exact hbo i)
    (by rw [hband]; decide) tail
  rw [hof, hm]
  obtain ⟨L, hL⟩ : ∃ L, L = (b 0 :: [b 1, b 2, b 3, b 4, b 5, b 6, b 7]).map InfLine.text ++ more := ⟨_, rfl⟩
  rw [← hL]
  have hblock : infBlock L infRadio = .ok [("fov_arcsec", .float (.fin fov)), ("dm", .float (.fin dm)), ("fbot", .float (.fin fbot)),
          ("bandwidth", .float (.fin bw)), ("nchan", .int nchan), ("cbw", .float (.fin cbw)),
          ("analyst", .str (String.ofList (b 7).value))] := by
    subst hL
    exact infBlock_cons (l := b 1) rfl (hbo 1) (floatType_val h1) <| infBlock_cons (l := b 2) rfl (hbo 2) (floatType_val h2) <|
      infBlock_cons (l := b 3) rfl (hbo 3) (floatType_val h3) <| infBlock_cons (l := b 4) rfl (hbo 4) (floatType_val h4) <|
      infBlock_cons (l := b 5) rfl (hbo 5) (intType_val h5) <| infBlock_cons (l := b 6) rfl (hbo 6) (floatType_val h6) <|
      infBlock_cons (l := b 7) rfl (hbo 7) rfl rfl
  have h0 : infField L 0 pyStrType = .ok (.str "Radio") := by
    subst hL
    rw [infField_line (l := b 0) rfl (hbo 0), hband]; rfl
  unfold infBand
  rw [h0, hblock]
  rfl

/-- **C53**, X-ray and gamma-ray files. -/
theorem C53_high_energy {c : Fin 12 → InfLine} {mjd : ℚ} {bary nsamp : ℤ} {tsamp : ℚ} {breaks : ℤ}
    (hc : InfCommonValues c mjd bary nsamp tsamp breaks) (pairs : List (InfLine × ℤ × ℤ))
    (hp : ∀ p ∈ pairs, p.1.OK ∧ PairText p.1.value p.2.1 p.2.2) (hb : pairs = [] ∨ breaks ≠ 0)
    (b : Fin 5 → InfLine) (hbo : ∀ i, (b i).OK) (hband : (b 0).value = "X-ray".toList ∨ (b 0).value = "Gamma".toList)
    {fov energy bandpass : ℚ} (h1 : FloatText (b 1).value fov) (h2 : FloatText (b 2).value energy)
    (h3 : FloatText (b 3).value bandpass) (tail : List Char) :
    inf2dict (linesText (List.ofFn c ++ pairs.map Prod.fst ++ List.ofFn b) ++ tail) =
      .ok (infCommonItems c mjd bary nsamp tsamp breaks ++
        [("onoff_pairs", .list (pairs.map fun p => .list [.int p.2.1, .int p.2.2]))] ++
        [("em_band", .str (String.ofList (b 0).value)), ("fov_arcsec", .float (.fin fov)),
          ("central_energy_kev", .float (.fin energy)), ("energy_bandpass_kev", .float (.fin bandpass)),
          ("analyst", .str (String.ofList (b 4).value))]) := by
  have hof : List.ofFn b = b 0 :: [b 1, b 2, b 3, b 4] := by simp [List.ofFn_succ]
  obtain ⟨more, hm⟩ := inf2dict_common hc pairs hp hb (b 0) [b 1, b 2, b 3, b 4]
    (by intro l hl; rw [← hof] at hl; rw [List.mem_ofFn] at hl; obtain ⟨i, rfl⟩ := hl; exact hbo i)
    (by rcases hband with h | h <;> · rw [h]; decide) tail
  rw [hof, hm]
  obtain ⟨L, hL⟩ : ∃ L, L = (b 0 :: [b 1, b 2, b 3, b 4]).map InfLine.text ++ more := ⟨_, rfl⟩
  rw [← hL]
  have hblock : infBlock L infHighEnergy = .ok [("fov_arcsec", .float (.fin fov)),
          ("central_energy_kev", .float (.fin energy)), ("energy_bandpass_kev", .float (.fin bandpass)),
          ("analyst", .str (String.ofList (b 4).value))] := by
    subst hL
    exact infBlock_cons (l := b 1) rfl (hbo 1) (floatType_val h1) <| infBlock_cons (l := b 2) rfl (hbo 2) (floatType_val h2) <|
      infBlock_cons (l := b 3) rfl (hbo 3) (floatType_val h3) <| infBlock_cons (l := b 4) rfl (hbo 4) rfl rfl
  have h0 : infField L 0 pyStrType = .ok (.str (String.ofList (b 0).value)) := by
    subst hL
    rw [infField_line (l := b 0) rfl (hbo 0)]; rfl
  unfold infBand
  rw [h0, hblock]
  rcases hband with h | h <;> · rw [h]; rfl

/-- **C53**: a file of a band other than radio, X-ray and gamma rays is refused with `ValueError`. -/
theorem C53_other_band {c : Fin 12 → InfLine} {mjd : ℚ} {bary nsamp : ℤ} {tsamp : ℚ} {breaks : ℤ}
    (hc : InfCommonValues c mjd bary nsamp tsamp breaks) (pairs : List (InfLine × ℤ × ℤ))
    (hp : ∀ p ∈ pairs, p.1.OK ∧ PairText p.1.value p.2.1 p.2.2) (hb : pairs = [] ∨ breaks ≠ 0)
    (band : InfLine) (bandRest : List InfLine) (hband : ∀ l ∈ band :: bandRest, l.OK) (hcomma : ',' ∉ band.value)
    (hr : band.value ≠ "Radio".toList) (hx : band.value ≠ "X-ray".toList) (hg : band.value ≠ "Gamma".toList) (tail : List Char) :
    inf2dict (linesText (List.ofFn c ++ pairs.map Prod.fst ++ band :: bandRest) ++ tail) = .error .valueError := by
  obtain ⟨more, hm⟩ := inf2dict_common hc pairs hp hb band bandRest hband hcomma tail
  rw [hm]
  have h0 : infField ((band :: bandRest).map InfLine.text ++ more) 0 pyStrType = .ok (.str (String.ofList band.value)) := by
    rw [infField_line (l := band) rfl (hband band (by simp))]; rfl
  unfold infBand
  rw [h0]
  simp only [Except.bind]
  have key : ∀ w : String, band.value ≠ w.toList → ¬ (PyVal.str (String.ofList band.value)).isStr w = true := by
    intro w hw
    simp only [PyVal.isStr, beq_iff_eq]
    intro hcon; apply hw; rw [← hcon, String.toList_ofList]
  rw [if_neg (key _ hr), if_neg (not_or.mpr ⟨key _ hx, key _ hg⟩)]
  rfl

/-- **C53**: a simulated data set, as written by PRESTO's `makedata`, is refused with `ValueError` whatever its lines after the
telescope. -/
theorem C53_artificial (base tel : InfLine) (hbase : base.OK) (htel : tel.OK) (h : tel.value = "None (Artificial Data Set)".toList)
    (ls : List InfLine) (hls : ∀ l ∈ ls, l.OK) (tail : List Char) :
    inf2dict (linesText (base :: tel :: ls) ++ tail) = .error .valueError := by
  obtain ⟨more, hmore⟩ := splitlines_strip (base :: tel :: ls) tail (by simp) (by
    intro l hl
    simp only [List.mem_cons] at hl
    rcases hl with rfl | rfl | hl
    · exact hbase
    · exact htel
    · exact hls l hl)
  unfold inf2dict
  simp only
  rw [hmore, infBlock_cons (l := base) rfl hbase rfl (infBlock_cons (l := tel) rfl htel rfl rfl), h]
  rfl

/-- **C53**: the data file of `stem.ext` is `stem.dat`. -/
theorem C53_data_fname (stem ext : List Char) (h : '.' ∉ ext) : dataFname (stem ++ '.' :: ext) = stem ++ ".dat".toList := by
  unfold dataFname beforeLastDot
  rw [if_pos (by simp)]
  have e : stem ++ '.' :: ext = (stem ++ ['.']) ++ ext := by simp
  rw [e, rdropWhile_append_last (X := stem ++ ['.']) (by intro c hc; simp at hc; subst hc; decide) (by simp)]
  have : ext.rdropWhile (fun c => decide (c ≠ '.')) = [] := by
    rw [List.rdropWhile_eq_nil_iff]
    intro c hc
    simp only [ne_eq, decide_not, Bool.not_eq_true', decide_eq_false_iff_not]
    rintro rfl; exact h hc
  rw [this]
  simp

/-- **C53**: a file without an extension in a directory with a dot in its name gets a data file outside of that directory. -/
theorem C53_no_extension : dataFname "/obs.d/beam1".toList = "/obs.dat".toList := by decide +kernel

/-- **C53**: the time series loaded has the samples of the data file, the sampling time of the header, and its duration is that of
the samples, even if the header announces another number. -/
theorem C53_loads {parseSky : PyVal → PyVal → Except PyErr (PyFloat × PyFloat)} {files : List Char → Option (List UInt8)}
    {text fname : List Char} {ts : LoadedSeries} (h : timeSeriesFromPresto parseSky files text fname = .ok ts) :
    ∃ inf bytes, inf2dict text = .ok inf ∧ files (dataFname fname) = some bytes ∧ ts.samples = readFloat32 bytes ∧
      dictGet inf "tsamp" = some (.float ts.tsamp) ∧
      dictGet ts.metadata (.str "tobs") = some (.float (ts.tsamp.mulInt ts.samples.length)) := by
  unfold timeSeriesFromPresto at h
  obtain ⟨inf, hinf, h⟩ := bind_ok_inv h
  obtain ⟨md, -, h⟩ := bind_ok_inv h
  cases hf : files (dataFname fname) with
  | none => rw [hf] at h; cases h
  | some bytes =>
    rw [hf] at h
    simp only at h
    obtain ⟨t, ht, h⟩ := bind_ok_inv h
    refine ⟨inf, bytes, hinf, rfl, ?_⟩
    cases t with
    | float t =>
      obtain ⟨md', -, h⟩ := map_ok_inv h
      rw [← h]
      exact ⟨rfl, dictItem_ok ht, by rw [dictGet_set, if_pos rfl]⟩
    | _ => cases h

/-! ## Examples -/

theorem trimmed_of_ends {s : List Char} (h : s.head?.all (fun c => !isPySpace c) ∧ s.getLast?.all (fun c => !isPySpace c)) :
    Trimmed s := by
  refine ⟨fun c hc => ?_, fun c hc => ?_⟩
  · have := h.1; rw [hc] at this; simpa using this
  · have := h.2; rw [hc] at this; simpa using this

/-- A line with a dull label. -/
def exLine (v : String) : InfLine := ⟨List.replicate 40 '.', [' ', ' '], v.toList, []⟩

theorem exLine_ok {v : String} (h : (∀ c ∈ v.toList, isLineBreak c = false) ∧ v.toList.head?.all (fun c => !isPySpace c) ∧
    v.toList.getLast?.all (fun c => !isPySpace c)) : (exLine v).OK := by
  refine ⟨rfl, ?_, ?_, h.1, ?_, ?_, ?_, trimmed_of_ends h.2⟩
  · show ∀ c ∈ List.replicate 40 '.', isLineBreak c = false
    decide +kernel
  · show ∀ c ∈ [' ', ' '], isLineBreak c = false
    decide +kernel
  · intro c hc; cases hc
  · show ∀ c ∈ [' ', ' '], isPySpace c = true
    decide +kernel
  · intro c hc; cases hc

def exCommon : Fin 12 → InfLine :=
  ![exLine "J0000_DM10.00", exLine "Parkes", exLine "PMDAQ", exLine "J0000+0000", exLine "00:00:01.0000", exLine "-01:02:03.4",
    exLine "Unset", exLine "54000.5", exLine "1", exLine "8", exLine "2.5e-04", exLine "1"]

/-- The hypotheses about the common part are met. -/
theorem exCommon_values : InfCommonValues exCommon (108001 / 2) 1 8 (1 / 4000) 1 where
  lines := by
    intro i
    fin_cases i <;> exact exLine_ok (by decide +kernel)
  real := by decide +kernel
  mjd := ⟨false, "54000".toList, ".5".toList, [], 54000, 1 / 2, 0, ⟨[5, 4, 0, 0, 0], by decide, by decide, by decide, by decide +kernel⟩,
    .inr ⟨['5'], 5, by decide, ⟨[5], by decide, by decide, by decide, by decide +kernel⟩, by norm_num⟩, .inl ⟨rfl, rfl⟩,
    by decide +kernel, by norm_num⟩
  bary := ⟨1, .inl ⟨⟨[1], by decide, by decide, by decide, by decide +kernel⟩, rfl⟩⟩
  nsamp := ⟨8, .inl ⟨⟨[8], by decide, by decide, by decide, by decide +kernel⟩, rfl⟩⟩
  tsamp := ⟨false, "2".toList, ".5".toList, "e-04".toList, 2, 1 / 2, -4, ⟨[2], by decide, by decide, by decide, by decide +kernel⟩,
    .inr ⟨['5'], 5, by decide, ⟨[5], by decide, by decide, by decide, by decide +kernel⟩, by norm_num⟩,
    .inr ⟨['0', '4'], 4, .inr ⟨by decide, ⟨[0, 4], by decide, by decide, by decide, by decide +kernel⟩, rfl⟩⟩,
    by decide +kernel, by norm_num⟩
  breaks := ⟨1, .inl ⟨⟨[1], by decide, by decide, by decide, by decide +kernel⟩, rfl⟩⟩

theorem exPair : PairText "0, 7".toList 0 7 :=
  ⟨['0'], ['7'], [], [], [' '], [], ⟨0, .inl ⟨⟨[0], by decide, by decide, by decide, by decide +kernel⟩, rfl⟩⟩,
    ⟨7, .inl ⟨⟨[7], by decide, by decide, by decide, by decide +kernel⟩, rfl⟩⟩, by unfold Blank; decide, by unfold Blank; decide,
    by unfold Blank; decide, by unfold Blank; decide, by decide⟩

theorem exFloat1 : FloatText "1".toList 1 :=
  ⟨false, ['1'], [], [], 1, 0, 0, ⟨[1], by decide, by decide, by decide, by decide +kernel⟩, .inl ⟨rfl, rfl⟩, .inl ⟨rfl, rfl⟩, by decide,
    by norm_num⟩

theorem exFloatNeg : FloatText "-3".toList (-3) :=
  ⟨true, ['3'], [], [], 3, 0, 0, ⟨[3], by decide, by decide, by decide, by decide +kernel⟩, .inl ⟨rfl, rfl⟩, .inl ⟨rfl, rfl⟩, by decide,
    by norm_num⟩

/-- A complete radio file with a data break and notes at the end. -/
example : ∃ d, inf2dict (linesText (List.ofFn exCommon ++ [((exLine "0, 7"), (0 : ℤ), (7 : ℤ))].map Prod.fst ++
    List.ofFn ![exLine "Radio", exLine "1", exLine "-3", exLine "1", exLine "1", exLine "96", exLine "1", exLine "me"]) ++
    " Any additional notes:\n  none\n\n".toList) = .ok d ∧ d.length = 21 :=
  ⟨_, C53_radio exCommon_values [((exLine "0, 7"), (0 : ℤ), (7 : ℤ))]
    (by intro p hp; rw [List.mem_singleton] at hp; subst hp; exact ⟨exLine_ok (by decide +kernel), exPair⟩) (.inr (by decide))
    ![exLine "Radio", exLine "1", exLine "-3", exLine "1", exLine "1", exLine "96", exLine "1", exLine "me"]
    (by intro i; fin_cases i <;> exact exLine_ok (by decide +kernel)) rfl exFloat1 exFloatNeg exFloat1 exFloat1
    (nchan := 96) ⟨96, .inl ⟨⟨[9, 6], by decide, by decide, by decide, by decide +kernel⟩, rfl⟩⟩ exFloat1 _, rfl⟩

example : ∃ d, inf2dict (linesText (List.ofFn exCommon ++ ([] : List (InfLine × ℤ × ℤ)).map Prod.fst ++
    List.ofFn ![exLine "Gamma", exLine "1", exLine "1", exLine "1", exLine ""])) = .ok d ∧ d.length = 18 := by
  have := C53_high_energy exCommon_values [] (by simp) (.inl rfl)
    ![exLine "Gamma", exLine "1", exLine "1", exLine "1", exLine ""]
    (by intro i; fin_cases i <;> exact exLine_ok (by decide +kernel)) (.inr rfl) exFloat1 exFloat1 exFloat1 []
  rw [List.append_nil] at this
  exact ⟨_, this, rfl⟩

example : inf2dict (linesText (List.ofFn exCommon ++ ([] : List (InfLine × ℤ × ℤ)).map Prod.fst ++ exLine "Optical" :: []) ++ []) =
    .error .valueError :=
  C53_other_band exCommon_values [] (by simp) (.inl rfl) (exLine "Optical") []
    (by intro l hl; rw [List.mem_singleton] at hl; subst hl; exact exLine_ok (by decide +kernel)) (by decide +kernel)
    (by decide +kernel) (by decide +kernel) (by decide +kernel) []

example : inf2dict (linesText (exLine "fake" :: exLine "None (Artificial Data Set)" :: []) ++ []) = .error .valueError :=
  C53_artificial _ _ (exLine_ok (by decide +kernel)) (exLine_ok (by decide +kernel)) rfl [] (by simp) []

example : dataFname "/data/a.b/J0000_DM10.00.inf".toList = "/data/a.b/J0000_DM10.00.dat".toList :=
  C53_data_fname "/data/a.b/J0000_DM10.00".toList "inf".toList (by decide)

end Verif.Props
