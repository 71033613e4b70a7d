import Verif.Model.RseekFiles
import Verif.Props.Products
import Verif.Props.EndToEnd

/-!
# C106: a run of `rseek` on a file
-/

namespace Verif.Props

open Verif.Model Verif.Lemmas Verif.Spec Finset

/-! ## Numbers -/

theorem decimalUnits_near (k : ℕ) (x : ℝ) : |(decimalUnits k x : ℝ) - |x| * 10 ^ k| ≤ 1 / 2 := by
  have h := (pyRound_nearest (|x| * 10 ^ k)).1
  have h0 : 0 ≤ |x| * 10 ^ k := by positivity
  have hn : 0 ≤ pyRound (|x| * 10 ^ k) := by
    by_contra hc
    have h1 : pyRound (|x| * 10 ^ k) ≤ -1 := by omega
    have h2 : (pyRound (|x| * 10 ^ k) : ℝ) ≤ -1 := by exact_mod_cast h1
    rw [abs_le] at h
    generalize |x| * 10 ^ k = y at h h0 h2
    linarith [h.2]
  unfold decimalUnits
  have : (((pyRound (|x| * 10 ^ k)).toNat : ℕ) : ℝ) = (pyRound (|x| * 10 ^ k) : ℝ) := by exact_mod_cast Int.toNat_of_nonneg hn
  rw [this, abs_sub_comm]
  exact h

/-- The value that is printed with `k` decimals. -/
noncomputable def printedAs (k : ℕ) (x : ℝ) : ℚ := (if x < 0 then -1 else 1) * ((decimalUnits k x : ℚ) / 10 ^ k)

/-- **C106.** A number that is printed with `k` decimals is a decimal number that differs from it by at most half a unit of the last one. -/
theorem C106_number {k : ℕ} (hk : 0 < k) (x : ℝ) : FloatText (fixedText k x) (printedAs k x) ∧ |(printedAs k x : ℝ) - x| ≤ 1 / 2 * (1 / 10 ^ k) ∧
    ∃ a b, fixedText k x = a ++ '.' :: b ∧ b.length = k := by
  have hlt : decimalUnits k x % 10 ^ k < 10 ^ k := Nat.mod_lt _ (by positivity)
  refine ⟨⟨decide (x < 0), natText (decimalUnits k x / 10 ^ k), '.' :: padDigits k (decimalUnits k x % 10 ^ k), [], _, _, 0,
    padDigits_text 1 _ one_pos, .inr ⟨_, _, rfl, padDigits_text k _ hk, rfl⟩, .inl ⟨rfl, rfl⟩, ?_, ?_⟩, ?_,
    (if x < 0 then ['-'] else []) ++ natText (decimalUnits k x / 10 ^ k), padDigits k (decimalUnits k x % 10 ^ k), ?_, padDigits_length k _ hlt⟩
  · unfold fixedText
    simp
  · unfold printedAs
    rw [padDigits_length k _ hlt]
    have e : (decimalUnits k x : ℚ) = ((10 ^ k * (decimalUnits k x / 10 ^ k) + decimalUnits k x % 10 ^ k : ℕ) : ℚ) := by rw [Nat.div_add_mod]
    simp only [decide_eq_true_eq, zpow_zero, mul_one]
    rw [e]
    push_cast
    congr 1
    field_simp
  · have h := decimalUnits_near k x
    have h9 : (0 : ℝ) < 10 ^ k := by positivity
    have key : |(decimalUnits k x : ℝ) / 10 ^ k - (|x|)| ≤ 1 / 2 * (1 / 10 ^ k) := by
      have : (decimalUnits k x : ℝ) / 10 ^ k - |x| = ((decimalUnits k x : ℝ) - |x| * 10 ^ k) * (1 / 10 ^ k) := by field_simp
      rw [this, abs_mul, abs_of_pos (show (0 : ℝ) < 1 / 10 ^ k by positivity)]
      exact mul_le_mul_of_nonneg_right h (by positivity)
    unfold printedAs
    split_ifs with hx
    · rw [abs_of_neg hx] at key
      push_cast
      rw [abs_le] at key ⊢
      constructor <;> linarith [key.1, key.2]
    · rw [abs_of_nonneg (not_lt.mp hx)] at key
      push_cast
      rwa [one_mul]
  · unfold fixedText
    rw [List.append_assoc]

/-- The numbers of the tables of the pipeline are written in the same way. -/
theorem fixed9_eq (x : ℝ) : fixed9 x = fixedText 9 x := rfl

/-- A text with a number that differs from `x` by at most half a unit of the `k`-th decimal. -/
def ReadsTo (k : ℕ) (c : List Char) (x : ℝ) : Prop := ∃ q : ℚ, FloatText c q ∧ |(q : ℝ) - x| ≤ 1 / 2 * (1 / 10 ^ k)

theorem fixedText_reads {k : ℕ} (hk : 0 < k) (x : ℝ) : ReadsTo k (fixedText k x) x := ⟨_, (C106_number hk x).1, (C106_number hk x).2.1⟩

/-! ## Lines and words -/

/-- A text that is one word. -/
def IsWord (c : List Char) : Prop := c ≠ [] ∧ ' ' ∉ c ∧ '\n' ∉ c

theorem splitAtChar_ne (c : Char) (l : List Char) : splitAtChar c l ≠ [] := by
  cases l with
  | nil => simp [splitAtChar]
  | cons x l =>
    simp only [splitAtChar]
    split_ifs
    · simp
    · split <;> simp

theorem wordsOf_blank (l : List Char) : wordsOf (' ' :: l) = wordsOf l := by
  simp [wordsOf, splitAtChar]

theorem wordsOf_blanks (n : ℕ) (l : List Char) : wordsOf (List.replicate n ' ' ++ l) = wordsOf l := by
  induction n with
  | zero => rfl
  | succ n ih => rw [List.replicate_succ, List.cons_append, wordsOf_blank, ih]

theorem wordsOf_word {c : List Char} (hc : IsWord c) (l : List Char) : wordsOf (c ++ ' ' :: l) = c :: wordsOf l := by
  unfold wordsOf
  rw [splitAtChar_append _ hc.2.1, List.filter_cons_of_pos]
  simpa using hc.1

theorem wordsOf_last {c : List Char} (hc : IsWord c) : wordsOf c = [c] := by
  unfold wordsOf
  rw [splitAtChar_none _ hc.2.1, List.filter_cons_of_pos (by simpa using hc.1)]
  rfl

theorem spacedLine_words {pad : ℕ → ℕ} (hpad : ∀ j, 0 < j → 0 < pad j) (l : List (List Char)) (hl : ∀ c ∈ l, IsWord c) (j : ℕ) :
    wordsOf (spacedLine pad j l) = l ∧ '\n' ∉ spacedLine pad j l := by
  induction l generalizing j with
  | nil => simp [spacedLine, wordsOf, splitAtChar]
  | cons c l ih =>
    obtain ⟨i1, i2⟩ := ih (fun x hx => hl x (by simp [hx])) (j + 1)
    have hc := hl c (by simp)
    refine ⟨?_, ?_⟩
    · simp only [spacedLine]
      rw [List.append_assoc, wordsOf_blanks]
      cases l with
      | nil => simp only [spacedLine, List.append_nil]; exact wordsOf_last hc
      | cons d l =>
        obtain ⟨n, hn⟩ : ∃ n, pad (j + 1) = n + 1 := ⟨pad (j + 1) - 1, by have := hpad (j + 1) (by omega); omega⟩
        have e : spacedLine pad (j + 1) (d :: l) = ' ' :: (List.replicate n ' ' ++ d ++ spacedLine pad (j + 1 + 1) l) := by
          simp only [spacedLine]
          rw [hn, List.replicate_succ]
          rfl
        rw [e] at i1 ⊢
        rw [wordsOf_word hc, ← wordsOf_blank, i1]
    · simp only [spacedLine, List.mem_append, List.mem_replicate, not_or]
      exact ⟨⟨by rintro ⟨_, h⟩; exact absurd h (by decide), hc.2.2⟩, i2⟩

/-- **C106.** The lines of a printed table, split at the blanks, are its rows, if there is a blank between the cells. -/
theorem C106_table {pad : ℕ → ℕ → ℕ} (hpad : ∀ i j, 0 < j → 0 < pad i j) (ls : List (List (List Char))) (h : ∀ l ∈ ls, ∀ c ∈ l, IsWord c) (i : ℕ) :
    readWords (spacedLines pad i ls) = ls := by
  induction ls generalizing i with
  | nil => rfl
  | cons l ls ih =>
    obtain ⟨h1, h2⟩ := spacedLine_words (hpad i) l (h l (by simp)) 0
    have ih' := ih (fun x hx => h x (by simp [hx])) (i + 1)
    unfold readWords at ih' ⊢
    simp only [spacedLines]
    rw [splitAtChar_append _ h2, List.dropLast_cons_of_ne_nil (splitAtChar_ne _ _), List.map_cons, h1, ih']

theorem digits_word {s : List Char} {n : ℕ} (h : DigitsText s n) : IsWord s := by
  obtain ⟨ds, hne, hlt, rfl, _⟩ := h
  have key : ∀ a < 10, Nat.digitChar a ≠ ' ' ∧ Nat.digitChar a ≠ '\n' := by decide
  refine ⟨by simpa using hne, ?_, ?_⟩ <;> intro hm <;> obtain ⟨a, ha, he⟩ := List.mem_map.mp hm
  · exact (key a (hlt a ha)).1 he
  · exact (key a (hlt a ha)).2 he

theorem IsWord.append {a b : List Char} (ha : ' ' ∉ a ∧ '\n' ∉ a) (hb : IsWord b) : IsWord (a ++ b) := by
  obtain ⟨h1, h2, h3⟩ := hb
  refine ⟨by simp [h1], ?_, ?_⟩ <;> simp only [List.mem_append, not_or]
  · exact ⟨ha.1, h2⟩
  · exact ⟨ha.2, h3⟩

theorem natText_word (n : ℕ) : IsWord (natText n) := digits_word (padDigits_text 1 n one_pos)

theorem fixedText_word {k : ℕ} (hk : 0 < k) (x : ℝ) : IsWord (fixedText k x) := by
  unfold fixedText
  refine .append (by split_ifs <;> decide) (.append (natText_word _).2 ?_)
  rw [show ∀ l : List Char, '.' :: l = ['.'] ++ l from fun _ => rfl]
  exact .append (by decide) (digits_word (padDigits_text k _ hk))

theorem dmCell_word (dm : MVal) : IsWord (dmCell dm) := by
  have h : IsWord "None".toList := by unfold IsWord; decide +kernel
  cases dm with
  | num v => exact fixedText_word (by norm_num) v
  | none => exact h
  | other n => exact h

theorem rseekCells_word (dm : MVal) (p : Peak ℝ) : ∀ c ∈ rseekCells dm p, IsWord c := by
  intro c hc
  simp only [rseekCells, List.mem_cons, List.not_mem_nil, or_false] at hc
  rcases hc with rfl | rfl | rfl | rfl | rfl | rfl
  · exact fixedText_word (by norm_num) _
  · exact fixedText_word (by norm_num) _
  · exact natText_word _
  · exact .append (fixedText_word (by norm_num) _).2 (by unfold IsWord; decide)
  · exact dmCell_word _
  · exact fixedText_word (by norm_num) _

theorem rseekColumns_word : ∀ c ∈ rseekColumns, IsWord c := by
  unfold IsWord rseekColumns
  decide +kernel

/-- There is a blank between the cells. -/
def Separated (layout : TableLayout) : Prop := ∀ rows i j, 0 < j → 0 < layout rows i j

/-- The words of the line of a peak: period and frequency with nine decimals, the width in bins, the duty cycle in percent with two decimals, the DM with two
decimals (or `None`), the S/N with one decimal. -/
def ReadsRow (dm : PyVal) (cells : List (List Char)) (p : Peak ℝ) : Prop :=
  ∃ a b w d e s, cells = [a, b, w, d ++ ['%'], e, s] ∧ ReadsTo 9 a p.period ∧ ReadsTo 9 b p.freq ∧ IntText w p.width ∧ ReadsTo 2 d (100 * p.ducy) ∧
    (∀ q : ℚ, dm = .float (.fin q) → ReadsTo 2 e q) ∧ (dm = .none → e = "None".toList) ∧ ReadsTo 1 s p.snr

theorem rseekCells_reads (dm : PyVal) (p : Peak ℝ) : ReadsRow dm (rseekCells (metaVal dm) p) p := by
  refine ⟨_, _, _, _, _, _, rfl, fixedText_reads (by norm_num) _, fixedText_reads (by norm_num) _, natText_ok _, fixedText_reads (by norm_num) _, ?_, ?_,
    fixedText_reads (by norm_num) _⟩
  · rintro q rfl
    exact fixedText_reads (by norm_num) _
  · rintro rfl
    rfl

theorem rseekText_none (layout : TableLayout) (a : RseekArgs) (dm : MVal) :
    rseekText layout a dm none = "No peaks found above S/N = ".toList ++ fixedText 2 a.smin ++ ['\n'] := by
  rfl

theorem rseekText_some {layout : TableLayout} (hlay : Separated layout) (a : RseekArgs) (dm : MVal) (table : List (Peak ℝ)) :
    readWords (rseekText layout a dm (some table)) = rseekColumns :: table.map (rseekCells dm) := by
  show readWords (tableText layout dm table) = _
  unfold tableText
  refine C106_table (hlay _) _ ?_ 0
  intro l hl
  rcases List.mem_cons.mp hl with rfl | hl
  · exact rseekColumns_word
  · obtain ⟨p, _, rfl⟩ := List.mem_map.mp hl
    exact rseekCells_word _ p

/-- The line that is printed without a table. -/
def SaysNone (smin : ℝ) (text : List Char) : Prop := ∃ s, text = "No peaks found above S/N = ".toList ++ s ++ ['\n'] ∧ ReadsTo 2 s smin

/-- The names of the columns, in the order in which they are printed. -/
def IsHeader (cells : List (List Char)) : Prop :=
  cells = ["period".toList, "freq".toList, "width".toList, "ducy".toList, "dm".toList, "snr".toList]

/-- **C106.** What is printed. If there is a table, its lines are the names of the columns and then the rows, in the same order; else there is one line with the
minimum S/N. -/
theorem C106_printed {layout : TableLayout} (hlay : Separated layout) (a : RseekArgs) (dm : PyVal) (out : Option (List (Peak ℝ))) :
    (out = none → SaysNone a.smin (rseekText layout a (metaVal dm) out)) ∧
    ∀ table, out = some table → ∃ header rows, readWords (rseekText layout a (metaVal dm) out) = header :: rows ∧ IsHeader header ∧
      List.Forall₂ (ReadsRow dm) rows table := by
  constructor
  · intro h
    rw [h, rseekText_none]
    exact ⟨fixedText 2 a.smin, rfl, fixedText_reads (by norm_num) _⟩
  · intro table h
    rw [h, rseekText_some hlay]
    refine ⟨_, _, rfl, rfl, ?_⟩
    rw [List.forall₂_map_left_iff]
    exact List.forall₂_same.mpr fun p _ => rseekCells_reads dm p

/-! ## Runs -/

theorem loadMeta_init {D : Disk} {fmt : TsFormat} {f : List Char} {md : MetaDict} (h : loadMeta D fmt f = .ok md) :
    ∃ items, metadataInit items = .ok md := by
  cases fmt with
  | presto =>
    simp only [loadMeta] at h
    cases ht : D.text f with
    | none => rw [ht] at h; cases h
    | some text =>
      rw [ht] at h
      obtain ⟨inf, hinf, h⟩ := bind_ok_inv h
      obtain ⟨_, _, _, items, _, _, h3, _⟩ := metadataFromPresto_inv h
      exact ⟨items, h3⟩
  | sigproc =>
    simp only [loadMeta] at h
    cases ht : D.bytes f with
    | none => rw [ht] at h; cases h
    | some b =>
      rw [ht] at h
      obtain ⟨hd, hhd, h⟩ := bind_ok_inv h
      obtain ⟨_, _, _, items, _, _, h3, _⟩ := metadataFromSigproc_inv h
      exact ⟨items, h3⟩

/-- A run on a file is a run on the series of its samples, with the sampling time and the DM of its metadata. -/
theorem rseekProgram_eq {D : Disk} (hD : Resolves D) (t : RseekTools) {fmt : TsFormat} {f : List Char} {md : MetaDict} (hmd : loadMeta D fmt f = .ok md)
    {ts : ℚ} (hts : dictGet md (.str "tsamp") = some (.float (.fin ts))) (hpos : 0 < ts) {x : List ℝ} (hx : HasSamples D fmt f x) (hne : x ≠ [])
    (a : RseekArgs) :
    ∃ (w : World) (o : TsObj) (dm : PyVal), w.objs[0]? = some o ∧ w.dataOf o = x ∧ o.tsamp = ts ∧ GoodSeries w o ∧ w.lengthOf o = x.length * ts ∧
      dictGet md (.str "dm") = some dm ∧
      rseekProgram D t fmt f a = (rseekRun t.idx t.argsort t.fit a w 0).map fun out => (rseekText t.layout a (metaVal dm) out, out) := by
  obtain ⟨raw, t', n, md', k1, k2, k3, k4, k5, k6, k7⟩ := loadFile_ok hD hmd hx
  have hload : loadFile D fmt (D.realpath f) = loadFile D fmt f := by
    cases fmt with
    | presto => simp only [loadFile]; rw [hD.text, hD.idem]
    | sigproc => simp only [loadFile]; rw [hD.bytes, hD.idem]
  rw [hload] at k1
  rw [hts] at k4
  cases k4
  obtain ⟨dm, hdm⟩ : ∃ dm, dictGet md (.str "dm") = some dm := by
    obtain ⟨items, hi⟩ := loadMeta_init hmd
    exact ⟨_, (C54_total _ _ hi).1 "dm" (by decide)⟩
  have hlen : raw.length = x.length := k2.length_eq
  refine ⟨⟨[x], [metaVals (dictSet md' (.str "tobs") (.float ((PyFloat.fin ts).mulInt raw.length)))], [⟨0, ts, 0⟩]⟩, ⟨0, ts, 0⟩, dm, rfl, rfl, rfl,
    ⟨by simp, ?_, ?_⟩, ?_, hdm, ?_⟩
  · unfold World.lengthOf World.dataOf
    have : 0 < x.length := List.length_pos_iff.mpr hne
    have h2 : (0 : ℝ) < ts := by exact_mod_cast hpos
    simp only [List.getD_cons_zero]
    positivity
  · unfold World.metaOf World.lengthOf World.dataOf
    simp only [List.getD_cons_zero]
    rw [dictGet_metaVals, dictGet_set, if_pos rfl]
    simp only [Option.map_some, PyFloat.mulInt, metaVal, hlen]
    norm_num
  · unfold World.lengthOf World.dataOf
    simp only [List.getD_cons_zero]
  · unfold rseekProgram
    rw [k1]
    simp only [Except.bind]
    unfold worldOf
    rw [mapM_forall₂ k2]
    simp only [Except.bind, pyReal, Except.map]
    cases rseekRun t.idx t.argsort t.fit a _ 0 with
    | error e => rfl
    | ok out =>
      simp only
      rw [show World.obj ⟨[x], [metaVals (dictSet md' (.str "tobs") (.float ((PyFloat.fin ts).mulInt raw.length)))], [⟨0, (ts : ℝ), 0⟩]⟩ 0 =
        .ok ⟨0, (ts : ℝ), 0⟩ from rfl]
      simp only
      have : dictGet (World.metaOf ⟨[x], [metaVals (dictSet md' (.str "tobs") (.float ((PyFloat.fin ts).mulInt raw.length)))], [⟨0, (ts : ℝ), 0⟩]⟩
          ⟨0, (ts : ℝ), 0⟩) "dm" = some (metaVal dm) := by
        unfold World.metaOf
        simp only [List.getD_cons_zero]
        rw [dictGet_metaVals, dictGet_set, if_neg (by decide), k3, hdm]
        rfl
      rw [this]

/-- What is assumed of a run on a file: the metadata can be loaded, with a sampling time `ts` above zero, and the samples are `x`, at least one. -/
structure RseekFileOK (D : Disk) (t : RseekTools) (fmt : TsFormat) (f : List Char) (md : MetaDict) (ts : ℚ) (x : List ℝ) (bmin : ℕ) : Prop where
  disk : Resolves D
  metadata : loadMeta D fmt f = .ok md
  tsamp : dictGet md (.str "tsamp") = some (.float (.fin ts)) ∧ 0 < ts
  samples : HasSamples D fmt f x ∧ x ≠ []
  argsort : IsArgsort t.argsort
  layout : Separated t.layout
  idx : IdxFor t.idx (x.length / bmin)

/-- **C106.** What `rseek` prints and returns, in terms of the file. Let `g` be the periodogram of the dereddened and normalised samples. If no point of `g` is
significant, the program says so. Otherwise it prints a table, one row of words for each row that it returns, and
* every row is a significant point of `g` in the searched range, with its own period, width, duty cycle and S/N;
* the rows come in the order of decreasing S/N and differ by more than the clustering radius in frequency;
* every significant point is connected to a row by a chain of significant points with steps within the clustering radius, and that row has at least
  its S/N. -/
theorem C106_rseek {D : Disk} {t : RseekTools} {fmt : TsFormat} {f : List Char} {md : MetaDict} {ts : ℚ} {x : List ℝ} {a : RseekArgs}
    (hok : RseekFileOK D t fmt f md ts x a.bmin) (hcl : 0 ≤ a.clrad) {text : List Char} {out : Option (List (Peak ℝ))}
    (h : rseekProgram D t fmt f a = .ok (text, out)) :
    ∃ (dm : PyVal) (r : List ℝ) (g : Pgram ℝ) (thr : ℕ → ℝ → ℝ),
      dictGet md (.str "dm") = some dm ∧ runningMedianNum x ts a.rmedWidth a.rmedMinpts = .ok r ∧
      g.widths = generateWidthTrials a.bmin (3 / 10) a.wtsp ∧ g.tobs = x.length * ts ∧
      periodogramBinding t.idx (normalised (subtractArrays x r)) ts g.widths a.pmin a.pmax a.bmin a.bmax = .ok (g.periods, g.foldbins, g.snrs) ∧
      (∀ iw < g.widths.length, thresholdOf t.fit a.peaks g iw = .ok (thr iw)) ∧
      ((∀ k, ¬ SignificantAny g thr a.smin k) →
        out = none ∧ SaysNone a.smin text) ∧
      ((∃ k, SignificantAny g thr a.smin k) → ∃ table header rows, out = some table ∧ table ≠ [] ∧
        readWords text = header :: rows ∧ IsHeader header ∧ List.Forall₂ (ReadsRow dm) rows table ∧
        (∀ p ∈ table, SignificantAny g thr a.smin (p.iw, p.ip) ∧ p.snr = snrAt g p.iw p.ip ∧ g.periods[p.ip]? = some p.period ∧
          p.freq = 1 / p.period ∧ a.pmin ≤ p.period ∧ p.period < a.pmax ∧ g.widths[p.iw]? = some p.width ∧
          ∃ nb : ℕ, g.foldbins[p.ip]? = some nb ∧ p.ducy = (p.width : ℝ) / nb) ∧
        table.Pairwise (fun p q => q.snr ≤ p.snr ∧ a.clrad / (x.length * ts) < |p.freq - q.freq|) ∧
        ∀ k, SignificantAny g thr a.smin k → ∃ p ∈ table, snrAt g k.1 k.2 ≤ p.snr ∧
          Linked (SignificantAny g thr a.smin) (fun k => freqAt g k.2) (a.clrad / (x.length * ts)) (p.iw, p.ip) k) := by
  obtain ⟨w, o, dm, h1, h2, h3, h4, h5, h6, h7⟩ := rseekProgram_eq hok.disk t hok.metadata hok.tsamp.1 hok.tsamp.2 hok.samples.1 hok.samples.2 a
  rw [h7] at h
  obtain ⟨out', hrun, hout⟩ := map_ok_inv h
  obtain ⟨e1, e2⟩ := Prod.mk.inj hout
  subst e2
  obtain ⟨r, g, thr, k1, k2, k3, k4, k5, k6, k7⟩ := C80_rseek t.idx t.argsort hok.argsort t.fit a w 0 o h1 h4 (by rw [h2]; exact hok.idx) hcl out' hrun
  rw [h2, h3] at k1 k4
  rw [h5] at k3 k7
  obtain ⟨p1, p2⟩ := C106_printed hok.layout a dm out'
  rw [e1] at p1 p2
  refine ⟨dm, r, g, thr, h6, k1, k2, k3, k4, k5, ?_, ?_⟩
  · intro hn
    have := k6.mpr hn
    exact ⟨this, p1 this⟩
  · rintro ⟨k, hk⟩
    cases hout' : out' with
    | none => exact absurd hk (k6.mp hout' k)
    | some table =>
      obtain ⟨c1, c2, c3, c4⟩ := k7 table hout'
      obtain ⟨header, rows, q1, q2, q3⟩ := p2 table hout'
      exact ⟨table, header, rows, rfl, c1, q1, q2, q3, c2, c3, c4⟩

/-- **C106.** The program succeeds on every file with two periods of `Pmax`, if the running median of the samples exists and the range of periods is wider than
`3 / (bmin T)` in frequency. -/
theorem C106_succeeds {D : Disk} {t : RseekTools} {fmt : TsFormat} {f : List Char} {md : MetaDict} {ts : ℚ} {x : List ℝ} {a : RseekArgs}
    (hok : RseekFileOK D t fmt f md ts x a.bmin) (hv : PgArgs.Valid ⟨x.length, ts, a.pmin, a.pmax, a.bmin, a.bmax⟩)
    (h2 : 2 * a.pmax ≤ x.length * ts) (hr : 3 / (a.bmin * (x.length * ts)) < 1 / a.pmin - 1 / a.pmax) {r : List ℝ}
    (hrm : runningMedianNum x ts a.rmedWidth a.rmedMinpts = .ok r) : ∃ text out, rseekProgram D t fmt f a = .ok (text, out) := by
  obtain ⟨w, o, dm, h1, h2', h3, h4, h5, h6, h7⟩ := rseekProgram_eq hok.disk t hok.metadata hok.tsamp.1 hok.tsamp.2 hok.samples.1 hok.samples.2 a
  obtain ⟨out, hout⟩ := C81_rseek_succeeds t.idx t.argsort t.fit a w 0 o h1 h4 (by rw [h2']; exact hok.idx) (by rw [h2', h3]; exact hv)
    (by rw [h5]; exact h2) (by rw [h5]; exact hr) r (by rw [h2', h3]; exact hrm)
  rw [h7, hout]
  exact ⟨_, _, rfl⟩

/-- **C106.** A pulsar in the file is printed. The samples are a baseline between two bounds with narrow pulses of any searched period `P`. There is a period trial
at most `P` and less than one frequency step from `P`; for each width trial of at least `(D/P) b + smearing` bins and each `S` up to the bound of C97 that
exceeds the thresholds, a line of the table has an S/N of at least `S` before rounding to one decimal, and is linked to the trial. -/
theorem C106_pulsar {D : Disk} {t : RseekTools} {fmt : TsFormat} {f : List Char} {md : MetaDict} {ts : ℚ} {x : List ℝ} {a : RseekArgs}
    (hok : RseekFileOK D t fmt f md ts x a.bmin) (hcl : 0 ≤ a.clrad) {text : List Char} {out : Option (List (Peak ℝ))}
    (h : rseekProgram D t fmt f a = .ok (text, out)) (hN : x.length ≤ 2 ^ 64) (h2 : 2 * a.pmax ≤ x.length * ts)
    (m n : ℕ) (hm : a.rmedMinpts = .int m) (hn : |a.rmedWidth / ts - n| < 1 / 2)
    (P φ d lo hi : ℝ) (hP1 : a.pmin ≤ P) (hP2 : P < a.pmax) (pulse : ℕ → ℝ)
    (hx : PulsedData x ts P φ d lo hi pulse) (hnar : NarrowPulses x.length n m ts P d pulse) :
    ∃ (dm : PyVal) (g : Pgram ℝ) (thr : ℕ → ℝ → ℝ) (j : ℕ) (p : ℝ) (u : Trial),
      dictGet md (.str "dm") = some dm ∧ g.widths = generateWidthTrials a.bmin (3 / 10) a.wtsp ∧ (∀ iw < g.widths.length, thresholdOf t.fit a.peaks g iw = .ok (thr iw)) ∧
      g.periods[j]? = some p ∧ g.foldbins[j]? = some u.b ∧ u.OK x.length ts a.pmin a.bmin a.bmax ∧ 1 ≤ u.f ∧
      1 / p = u.freq ts ∧ 0 < p ∧ p ≤ P ∧ 1 / p - 1 / P < u.step ts ∧
      ∀ (k wd : ℕ), g.widths[k]? = some wd → d / P * u.b + smearing u ≤ wd →
        ∀ (K : ℕ) (L S : ℝ), K * (ts : ℝ) + P + u.f * ts ≤ x.length * ts →
          (L ≤ (∑ i ∈ range K, pulse i) * Real.sqrt (((u.b : ℝ) - wd) / (u.b * wd)) / Real.sqrt (u.m * downsampledVariance x.length u.f) ∨
            (downsampledVariance x.length u.f ≤ u.f ∧
              L ≤ (∑ i ∈ range K, pulse i) * Real.sqrt (((u.b : ℝ) - wd) / wd) / Real.sqrt x.length)) →
          0 ≤ S → S * (Real.sqrt ((∑ i ∈ range x.length, pulse i ^ 2) / x.length) + (hi - lo)) ≤ L - Real.sqrt (2 * x.length) * (hi - lo) →
          a.smin < S → thr k (1 / p) < S →
          ∃ table row, out = some table ∧ row ∈ table ∧ S ≤ row.snr ∧
            Linked (SignificantAny g thr a.smin) (fun k => freqAt g k.2) (a.clrad / (x.length * ts)) (row.iw, row.ip) (k, j) ∧
            ∃ cells ∈ (readWords text).tail, ReadsRow dm cells row ∧ ∃ s q, cells.getLast? = some s ∧ FloatText s q ∧ S - 1 / 20 ≤ (q : ℝ) := by
  obtain ⟨w, o, dm, h1, h2', h3, h4, h5, h6, h7⟩ := rseekProgram_eq hok.disk t hok.metadata hok.tsamp.1 hok.tsamp.2 hok.samples.1 hok.samples.2 a
  rw [h7] at h
  obtain ⟨out', hrun, hout⟩ := map_ok_inv h
  obtain ⟨e1, e2⟩ := Prod.mk.inj hout
  subst e2
  obtain ⟨g, thr, j, p, u, k1, k2, k3, k4, k5, k6, k7, k8, k9, k10, k11⟩ := C97_rseek t.idx t.argsort hok.argsort t.fit a w 0 o h1 h4
    (by rw [h2']; exact hok.idx) hcl out' hrun (by rw [h2']; exact hN) (by rw [h5]; exact h2) m n hm (by rw [h3]; exact hn) P φ d lo hi hP1 hP2 pulse
    (by rw [h2', h3]; exact hx) (by rw [h2', h3]; exact hnar)
  rw [h2', h3] at k5
  rw [h3] at k7 k10
  rw [h2', h3, h5] at k11
  refine ⟨dm, g, thr, j, p, u, h6, k1, k2, k3, k4, k5, k6, k7, k8, k9, k10, ?_⟩
  intro k wd hk hwd K L S hK hL hS hb hs1 hs2
  obtain ⟨table, ht, row, hrow, hsnr, _, hlink⟩ := (k11 k wd hk hwd K L S hK hL hS hb).2 hs1 hs2
  obtain ⟨_, rows, q1, _, q2⟩ := (C106_printed hok.layout a dm out').2 table ht
  rw [e1] at q1
  obtain ⟨cells, hc, hread⟩ := forall₂_mem_right q2 hrow
  have hread' := hread
  obtain ⟨a', b', w', d', e', s', hcells, _, _, _, _, _, _, q, hq1, hq2⟩ := hread'
  refine ⟨table, row, ht, hrow, hsnr, hlink, cells, by rw [q1]; exact hc, hread, s', q, by rw [hcells]; simp, hq1, ?_⟩
  have := (abs_le.mp hq2).1
  norm_num at this
  linarith

/-- **C106.** The files of an X-ray or gamma ray observation, for which the pipeline fails (C103), meet the hypotheses on the metadata; their DM is `None`. -/
theorem C106_high_energy {D : Disk} (f : List Char) {c : Fin 12 → InfLine} {mjd : ℚ} {bary nsamp : ℤ} {tsamp : ℚ} {breaks : ℤ}
    (hc : InfCommonValues c mjd bary nsamp tsamp breaks) (pairs : List (InfLine × ℤ × ℤ))
    (hp : ∀ p ∈ pairs, p.1.OK ∧ PairText p.1.value p.2.1 p.2.2) (hb : pairs = [] ∨ breaks ≠ 0)
    (b : Fin 5 → InfLine) (hbo : ∀ i, (b i).OK) (hband : (b 0).value = "X-ray".toList ∨ (b 0).value = "Gamma".toList)
    {fov energy bandpass : ℚ} (h1 : FloatText (b 1).value fov) (h2 : FloatText (b 2).value energy)
    (h3 : FloatText (b 3).value bandpass) (tail : List Char)
    (ht : D.text f = some (linesText (List.ofFn c ++ pairs.map Prod.fst ++ List.ofFn b) ++ tail)) {sky : PyFloat × PyFloat}
    (hsky : D.parseSky (.str (String.ofList (c 4).value)) (.str (String.ofList (c 5).value)) = .ok sky)
    (hmjd : 0 ≤ mjd) (htobs : 0 < nsamp * tsamp) :
    ∃ md, loadMeta D .presto f = .ok md ∧ dictGet md (.str "tsamp") = some (.float (.fin tsamp)) ∧ dictGet md (.str "dm") = some .none := by
  have hinf := C53_high_energy hc pairs hp hb b hbo hband h1 h2 h3 tail
  obtain ⟨md, hmd, -, -, -, k4, k5⟩ := loadMeta_presto ht hinf (by simp [infCommonItems, dictGet]) (by simp [infCommonItems, dictGet]) hsky
    (by simp [infCommonItems, dictGet]) (by simp [infCommonItems, dictGet]) htobs (by
      intro kv hkv
      rw [List.mem_append, List.mem_append] at hkv
      rcases hkv with (hkv | hkv) | hkv
      · exact common_valid hmjd kv hkv
      · rw [List.mem_singleton] at hkv
        subst hkv
        simp [validMetaItem, PyVal.jsonable, jsonable_pairs]
      · simp only [List.mem_cons, List.not_mem_nil, or_false] at hkv
        rcases hkv with rfl | rfl | rfl | rfl | rfl <;> simp [validMetaItem, PyVal.jsonable])
  refine ⟨md, hmd, ?_, ?_⟩
  · rw [k5 _ (by decide)]; simp [infCommonItems, dictGet]
  · rw [k4]; simp [infCommonItems, dictGet]

/-! ## Examples -/

/-- Numbers as they are printed. -/
example : fixedText 1 (5 / 4) = "1.2".toList ∧ fixedText 2 (100 * (1 / 8)) = "12.50".toList ∧ fixedText 2 (-1 / 1000) = "-0.00".toList := by
  have h1 : decimalUnits 1 (5 / 4) = 12 := by
    unfold decimalUnits pyRound
    rw [show |(5 / 4 : ℝ)| * 10 ^ 1 = 25 / 2 by rw [abs_of_pos (by norm_num)]; norm_num, show ⌊(25 / 2 : ℝ)⌋ = 12 by rw [Int.floor_eq_iff]; norm_num]
    norm_num
    rfl
  have h2 : decimalUnits 2 (100 * (1 / 8)) = 1250 := by
    unfold decimalUnits
    rw [show |(100 * (1 / 8) : ℝ)| * 10 ^ 2 = ((1250 : ℤ) : ℝ) by rw [abs_of_pos (by norm_num)]; norm_num, pyRound_intCast]
    rfl
  have h3 : decimalUnits 2 (-1 / 1000) = 0 := by
    unfold decimalUnits pyRound
    rw [show |(-1 / 1000 : ℝ)| * 10 ^ 2 = 1 / 10 by rw [abs_of_neg (by norm_num)]; norm_num, show ⌊(1 / 10 : ℝ)⌋ = 0 by rw [Int.floor_eq_iff]; norm_num]
    norm_num
  unfold fixedText
  rw [h1, h2, h3, if_neg (by norm_num), if_neg (by norm_num), if_pos (by norm_num)]
  decide +kernel

/-- A table with two blanks in front of each cell. -/
example : Separated (fun _ _ _ => 2) ∧
    readWords (spacedLines (fun _ _ => 2) 0 ["period".toList :: ["dm".toList], "1.500000000".toList :: ["None".toList]]) =
      ["period".toList :: ["dm".toList], "1.500000000".toList :: ["None".toList]] :=
  ⟨fun _ _ _ _ => by norm_num, by decide +kernel⟩

noncomputable def pulsarRseek : RseekArgs := ⟨32, 34, 32, 33, 7, 3 / 2, 33, .int 33, 1 / 5⟩

noncomputable def pulsarRseekTools : RseekTools := ⟨float32Idx, insArgsort, fun _ _ _ => 7, fun _ _ _ => 2⟩

theorem pulsarRseek_ok : ∃ md, RseekFileOK pulsarDisk pulsarRseekTools .presto "a.inf".toList md 1 pulsarSamples pulsarRseek.bmin := by
  obtain ⟨md, h1, h2⟩ := pulsarFile_meta
  refine ⟨md, pulsarDisk_resolves, h1, ⟨?_, one_pos⟩, ⟨pulsarFile_samples, ?_⟩, insArgsort_ok, fun _ _ _ _ => by norm_num [pulsarRseekTools], ?_⟩
  · obtain ⟨_, t, _, _, _, _, _, k4, _⟩ := loadFile_ok pulsarDisk_resolves h1 pulsarFile_samples
    obtain ⟨_, _, _, g4, _, _⟩ := fileMetaOf_ok h2
    obtain ⟨v, d4, e4⟩ := metaItem_ok g4
    rw [k4] at d4 ⊢
    cases d4
    cases t with
    | fin q =>
      have hq : (q : ℝ) = 1 := Except.ok.inj e4
      have : q = 1 := by exact_mod_cast hq
      rw [this]
    | inf b => cases e4
    | nan => cases e4
  · intro h
    have := pulsarSamples_length
    rw [h] at this
    cases this
  · rw [pulsarSamples_length]
    exact Or.inr ⟨Or.inl rfl, by norm_num [pulsarRseek]⟩

theorem pulsarRseek_runs : ∃ text out, rseekProgram pulsarDisk pulsarRseekTools .presto "a.inf".toList pulsarRseek = .ok (text, out) := by
  obtain ⟨md, hok⟩ := pulsarRseek_ok
  obtain ⟨r, hr⟩ := C27_partial pulsarSamples 33 33 (by norm_num) (by norm_num) (by rw [pulsarSamples_length]; norm_num)
  have hrn : pyRound ((33 : ℝ) / 1) = 33 := by
    have hfl : ⌊((33 : ℝ) / 1)⌋ = 33 := by rw [Int.floor_eq_iff]; norm_num
    unfold pyRound
    rw [hfl]
    norm_num
  refine C106_succeeds hok (r := r) ?_ ?_ ?_ ?_
  · rw [pulsarSamples_length]
    refine ⟨?_, ?_, ?_, ?_, ?_, ?_⟩ <;> norm_num [pulsarRseek]
  · rw [pulsarSamples_length]
    norm_num [pulsarRseek]
  · rw [pulsarSamples_length]
    norm_num [pulsarRseek]
  · simp only [pulsarRseek]
    rw [runningMedianNum_int]
    unfold runningMedianOf
    rw [Rat.cast_one, if_neg one_ne_zero]
    simp only [hrn]
    rw [if_pos (by norm_num), show (33 : ℤ).toNat = 33 from rfl, hr]
    rfl

/-- The hypotheses of C106 are met: `rseek` prints a line with an S/N of at least 9.95 for the file of C103. -/
theorem C106_example : ∃ text out, rseekProgram pulsarDisk pulsarRseekTools .presto "a.inf".toList pulsarRseek = .ok (text, out) ∧
    ∃ cells ∈ (readWords text).tail, ∃ s q, cells.getLast? = some s ∧ FloatText s q ∧ 995 / 100 ≤ (q : ℝ) := by
  obtain ⟨md, hok⟩ := pulsarRseek_ok
  obtain ⟨text, out, hrun⟩ := pulsarRseek_runs
  refine ⟨text, out, hrun, ?_⟩
  have hN : pulsarSamples.length = 1000 := pulsarSamples_length
  obtain ⟨_, g, thr, j, p, t, _, gw, hthr, _, _, hok', hf, hfr, hp0, hle, _, key⟩ := C106_pulsar hok (by norm_num [pulsarRseek]) hrun (by rw [hN]; norm_num)
    (by rw [hN]; norm_num [pulsarRseek]) 33 33 rfl (by norm_num [pulsarRseek]) (100 / 3) (-50 / 3) 3 0 (1 / 8) (by norm_num [pulsarRseek])
    (by norm_num [pulsarRseek]) (fun n => if (3 * n + 50) % 100 ≤ 9 then 10 else 0)
    (by
      rw [Rat.cast_one]
      refine ⟨pulsed_example', ?_, 17, by rw [hN]; norm_num, by norm_num⟩
      intro i hi
      rw [hN] at hi
      rw [List.getD_eq_getElem?_getD, pulsarSamples_get i hi, Option.getD_some]
      split_ifs <;> norm_num)
    (by
      rw [hN, Rat.cast_one]
      refine ⟨?_, ?_⟩
      · intro i hi
        have h : (3 * i + 50) % 100 ≤ 9 := by
          by_contra hc
          simp [hc] at hi
        norm_num
        omega
      · have f1 : ⌊(3 : ℝ) / 1⌋₊ = 3 := by norm_num
        have f2 : ⌊(100 / 3 : ℝ) / 1⌋₊ = 33 := by rw [Nat.floor_eq_iff (by norm_num)]; norm_num
        simp only [f1, f2]
        decide)
  rw [hN, Rat.cast_one] at hok' key
  rw [Rat.cast_one] at hfr
  simp only [pulsarRseek] at hok' gw
  have hf1 := first_stage hok' hf one_pos (by norm_num) hp0 hfr (by norm_num) (by norm_num; linarith)
  have hb := hok'.bins
  have hm : t.m ≤ 31 ∧ 30 ≤ t.m := by
    rw [hok'.rows, hf1, div_one, Nat.floor_natCast]
    constructor
    · exact (Nat.div_le_div_left hb.1 (by norm_num)).trans (by norm_num)
    · exact le_trans (by norm_num) (Nat.div_le_div_left hb.2 (by omega))
  have hclog : Nat.clog 2 t.m = 5 := by
    apply le_antisymm
    · exact (Nat.clog_mono_right 2 hm.1).trans (by decide +kernel)
    · exact le_trans (by decide +kernel) (Nat.clog_mono_right 2 hm.2)
  have hbR : (32 : ℝ) ≤ t.b ∧ (t.b : ℝ) ≤ 33 := ⟨by exact_mod_cast hb.1, by exact_mod_cast hb.2⟩
  have hsum : ∑ n ∈ range 960, (if (3 * n + 50) % 100 ≤ 9 then (10 : ℝ) else 0) = 970 := by
    have hc : ∑ n ∈ range 960, (if (3 * n + 50) % 100 ≤ 9 then 10 else 0) = 970 := by decide +kernel
    exact_mod_cast congrArg (Nat.cast (R := ℝ)) hc
  have hsq : ∑ n ∈ range 1000, (if (3 * n + 50) % 100 ≤ 9 then (10 : ℝ) else 0) ^ 2 = 10000 := by
    have hc : ∑ n ∈ range 1000, (if (3 * n + 50) % 100 ≤ 9 then 10 else 0) ^ 2 = 10000 := by decide +kernel
    exact_mod_cast congrArg (Nat.cast (R := ℝ)) hc
  have hgw5 : g.widths[5]? = some 9 := by rw [gw]; exact widths_example
  have h1 : (15 / 10 : ℝ) ≤ Real.sqrt (((t.b : ℝ) - (9 : ℕ)) / (9 : ℕ)) := by
    apply Real.le_sqrt_of_sq_le
    push_cast
    linarith [hbR.1]
  have h2 : Real.sqrt ((1000 : ℕ) : ℝ) ≤ 32 := by
    rw [Real.sqrt_le_left (by norm_num)]
    norm_num
  have hthr5 : thr 5 (1 / p) = 7 := by
    have ht := hthr 5 (List.getElem?_eq_some_iff.mp hgw5).1
    unfold thresholdOf dynThreshold at ht
    obtain ⟨⟨fc, smed, sstd⟩, _, h3⟩ := map_ok_inv ht
    rw [← h3]
    simp only
    split_ifs
    · rfl
    · rfl
  obtain ⟨_, _, _, _, _, _, cells, hc, _, s, q, e1, e2, e3⟩ := key 5 9 hgw5 (by
    unfold smearing
    rw [if_pos hf1, hclog]
    have hmR : (t.m : ℝ) ≤ 31 := by exact_mod_cast hm.1
    push_cast
    linarith [hbR.2]) 960 45 10 (by rw [hf1]; norm_num) (Or.inr ⟨by rw [hf1, variance_one], by
      rw [hsum, le_div_iff₀ (Real.sqrt_pos.mpr (by norm_num))]
      calc 45 * Real.sqrt ((1000 : ℕ) : ℝ) ≤ 45 * 32 := mul_le_mul_of_nonneg_left h2 (by norm_num)
        _ ≤ 970 * (15 / 10) := by norm_num
        _ ≤ _ := mul_le_mul_of_nonneg_left h1 (by norm_num)⟩) (by norm_num) (by
      rw [hsq]
      have h3 : Real.sqrt ((10000 : ℝ) / (1000 : ℕ)) ≤ 32 / 10 := by
        rw [Real.sqrt_le_left (by norm_num)]
        norm_num
      have h4 : Real.sqrt (2 * ((1000 : ℕ) : ℝ)) ≤ 45 := by
        rw [Real.sqrt_le_left (by norm_num)]
        norm_num
      calc 10 * (Real.sqrt ((10000 : ℝ) / (1000 : ℕ)) + (1 / 8 - 0)) ≤ 10 * (32 / 10 + (1 / 8 - 0)) :=
            mul_le_mul_of_nonneg_left (add_le_add_left h3 _) (by norm_num)
        _ ≤ 45 - 45 * (1 / 8 - 0) := by norm_num
        _ ≤ _ := sub_le_sub_left (mul_le_mul_of_nonneg_right h4 (by norm_num)) _)
    (by norm_num [pulsarRseek]) (by rw [hthr5]; norm_num)
  exact ⟨cells, hc, s, q, e1, e2, by linarith⟩

end Verif.Props
