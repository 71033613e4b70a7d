import Verif.Model.Products
import Verif.Spec.Csv
import Verif.Spec.Presto
import Verif.Props.PipelineFiles
import Verif.Props.Candidates
import Verif.Props.Trend
import Verif.Props.ClusterTable

/-!
# C104: the tables and the files that a run leaves in the output directory
-/

namespace Verif.Props

open Verif.Model Verif.Lemmas Verif.Spec

/-! ## Numbers -/

theorem padDigits_text (k n : ℕ) (hk : 0 < k) : DigitsText (padDigits k n) n := by
  refine ⟨(Nat.digits 10 n ++ List.replicate (k - (Nat.digits 10 n).length) 0).reverse, ?_, ?_, rfl, ?_⟩
  · intro h
    have := congrArg List.length h
    simp only [List.length_reverse, List.length_append, List.length_replicate, List.length_nil] at this
    omega
  · intro d hd
    rw [List.mem_reverse, List.mem_append, List.mem_replicate] at hd
    rcases hd with hd | hd
    · exact Nat.digits_lt_base (by norm_num) hd
    · omega
  · rw [List.reverse_reverse, Nat.ofDigits_append, Nat.ofDigits_digits, Nat.ofDigits_replicate_zero, mul_zero, add_zero]

theorem padDigits_length (k n : ℕ) (h : n < 10 ^ k) : (padDigits k n).length = k := by
  unfold padDigits
  simp only [List.length_map, List.length_reverse, List.length_append, List.length_replicate]
  have : (Nat.digits 10 n).length ≤ k := (Nat.digits_length_le_iff (by norm_num) n).mpr h
  omega

theorem ninthDecimals_near (x : ℝ) : |(ninthDecimals x : ℝ) - |x| * 10 ^ 9| ≤ 1 / 2 := by
  have h := (pyRound_nearest (|x| * 10 ^ 9)).1
  have h0 : 0 ≤ |x| * 10 ^ 9 := by positivity
  have hn : 0 ≤ pyRound (|x| * 10 ^ 9) := by
    by_contra hc
    have h1 : pyRound (|x| * 10 ^ 9) ≤ -1 := by omega
    have h2 : (pyRound (|x| * 10 ^ 9) : ℝ) ≤ -1 := by exact_mod_cast h1
    rw [abs_le] at h
    generalize |x| * 10 ^ 9 = y at h h0 h2
    linarith [h.2]
  unfold ninthDecimals
  have : (((pyRound (|x| * 10 ^ 9)).toNat : ℕ) : ℝ) = (pyRound (|x| * 10 ^ 9) : ℝ) := by exact_mod_cast Int.toNat_of_nonneg hn
  rw [this, abs_sub_comm]
  exact h

/-- The value that is printed. -/
noncomputable def printed9 (x : ℝ) : ℚ := (if x < 0 then -1 else 1) * ((ninthDecimals x : ℚ) / 10 ^ 9)

/-- **C104.** A number in a table is a decimal number with nine decimals that differs from it by at most half a unit of the ninth decimal. -/
theorem C104_number (x : ℝ) : FloatText (fixed9 x) (printed9 x) ∧ |(printed9 x : ℝ) - x| ≤ 1 / 2 * (1 / 10 ^ 9) ∧
    ∃ a b, fixed9 x = a ++ '.' :: b ∧ b.length = 9 := by
  have hlt : ninthDecimals x % 10 ^ 9 < 10 ^ 9 := Nat.mod_lt _ (by positivity)
  refine ⟨⟨decide (x < 0), natText (ninthDecimals x / 10 ^ 9), '.' :: padDigits 9 (ninthDecimals x % 10 ^ 9), [], _, _, 0,
    padDigits_text 1 _ one_pos, .inr ⟨_, _, rfl, padDigits_text 9 _ (by norm_num), rfl⟩, .inl ⟨rfl, rfl⟩, ?_, ?_⟩, ?_,
    (if x < 0 then ['-'] else []) ++ natText (ninthDecimals x / 10 ^ 9), padDigits 9 (ninthDecimals x % 10 ^ 9), ?_, padDigits_length 9 _ hlt⟩
  · unfold fixed9
    simp
  · unfold printed9
    rw [padDigits_length 9 _ hlt]
    have e : (ninthDecimals x : ℚ) = ((10 ^ 9 * (ninthDecimals x / 10 ^ 9) + ninthDecimals x % 10 ^ 9 : ℕ) : ℚ) := by rw [Nat.div_add_mod]
    simp only [decide_eq_true_eq, zpow_zero, mul_one]
    rw [e]
    push_cast
    congr 1
    field_simp
    ring
  · have h := ninthDecimals_near x
    have h9 : (0 : ℝ) < 10 ^ 9 := by positivity
    have key : |(ninthDecimals x : ℝ) / 10 ^ 9 - (|x|)| ≤ 1 / 2 * (1 / 10 ^ 9) := by
      have : (ninthDecimals x : ℝ) / 10 ^ 9 - |x| = ((ninthDecimals x : ℝ) - |x| * 10 ^ 9) * (1 / 10 ^ 9) := by field_simp
      rw [this, abs_mul, abs_of_pos (show (0 : ℝ) < 1 / 10 ^ 9 by positivity)]
      exact mul_le_mul_of_nonneg_right h (by positivity)
    unfold printed9
    split_ifs with hx
    · rw [abs_of_neg hx] at key
      push_cast
      rw [abs_le] at key ⊢
      constructor <;> linarith [key.1, key.2]
    · rw [abs_of_nonneg (not_lt.mp hx)] at key
      push_cast
      rwa [one_mul]
  · unfold fixed9
    rw [List.append_assoc]

theorem ninthDecimals_mono {x y : ℝ} (h : |x| ≤ |y|) : ninthDecimals x ≤ ninthDecimals y := by
  have hle : pyRound (|x| * 10 ^ 9) ≤ pyRound (|y| * 10 ^ 9) := by
    by_contra hc
    have h1 : pyRound (|y| * 10 ^ 9) + 1 ≤ pyRound (|x| * 10 ^ 9) := by omega
    have h2 : (pyRound (|y| * 10 ^ 9) : ℝ) + 1 ≤ pyRound (|x| * 10 ^ 9) := by exact_mod_cast h1
    have hx := abs_le.mp (pyRound_nearest (|x| * 10 ^ 9)).1
    have hy := abs_le.mp (pyRound_nearest (|y| * 10 ^ 9)).1
    have hxy : |x| * 10 ^ 9 ≤ |y| * 10 ^ 9 := mul_le_mul_of_nonneg_right h (by positivity)
    have e : |x| * 10 ^ 9 = |y| * 10 ^ 9 := by
      refine le_antisymm hxy ?_
      generalize |x| * 10 ^ 9 = a at hx h2 ⊢
      generalize |y| * 10 ^ 9 = b at hy h2 ⊢
      linarith [hx.1, hy.2]
    rw [e] at h1
    omega
  unfold ninthDecimals
  omega

/-- **C104.** Printing keeps the order: of two numbers, the larger one is not printed as a smaller number. -/
theorem C104_order {x y : ℝ} (h : x ≤ y) : printed9 x ≤ printed9 y := by
  unfold printed9
  have hx0 : (0 : ℚ) ≤ (ninthDecimals x : ℚ) / 10 ^ 9 := by positivity
  have hy0 : (0 : ℚ) ≤ (ninthDecimals y : ℚ) / 10 ^ 9 := by positivity
  split_ifs with h1 h2 h2
  · have := ninthDecimals_mono (x := y) (y := x) (by rw [abs_of_neg h1, abs_of_neg h2]; linarith)
    have : (ninthDecimals y : ℚ) / 10 ^ 9 ≤ (ninthDecimals x : ℚ) / 10 ^ 9 := by gcongr
    linarith
  · linarith
  · exact absurd (lt_of_le_of_lt h h2) h1
  · have := ninthDecimals_mono (x := x) (y := y) (by rw [abs_of_nonneg (not_lt.mp h1), abs_of_nonneg (not_lt.mp h2)]; exact h)
    have : (ninthDecimals x : ℚ) / 10 ^ 9 ≤ (ninthDecimals y : ℚ) / 10 ^ 9 := by gcongr
    linarith

theorem natText_ok (n : ℕ) : IntText (natText n) n := ⟨n, .inl ⟨padDigits_text 1 n one_pos, rfl⟩⟩

theorem intText_ok (i : ℤ) : IntText (intText i) i := by
  refine ⟨i.natAbs, ?_⟩
  unfold intText
  split_ifs with h
  · exact .inr ⟨_, rfl, padDigits_text 1 _ one_pos, by omega⟩
  · exact .inl ⟨padDigits_text 1 _ one_pos, by omega⟩

theorem pyRound_intCast (n : ℤ) : pyRound (n : ℝ) = n := by
  unfold pyRound
  rw [Int.floor_intCast, sub_self, if_pos (by norm_num)]

/-- Numbers as they are written. -/
example : fixed9 (1 / 8) = "0.125000000".toList ∧ fixed9 (-5 / 2) = "-2.500000000".toList ∧ fixed9 (1 / 10 ^ 10) = "0.000000000".toList := by
  have h1 : ninthDecimals (1 / 8) = 125000000 := by
    unfold ninthDecimals
    rw [show |(1 / 8 : ℝ)| * 10 ^ 9 = ((125000000 : ℤ) : ℝ) by rw [abs_of_pos (by norm_num)]; norm_num, pyRound_intCast]
    rfl
  have h2 : ninthDecimals (-5 / 2) = 2500000000 := by
    unfold ninthDecimals
    rw [show |(-5 / 2 : ℝ)| * 10 ^ 9 = ((2500000000 : ℤ) : ℝ) by rw [abs_of_neg (by norm_num)]; norm_num, pyRound_intCast]
    rfl
  have h3 : ninthDecimals (1 / 10 ^ 10) = 0 := by
    unfold ninthDecimals pyRound
    have : |(1 / 10 ^ 10 : ℝ)| * 10 ^ 9 = 1 / 10 := by rw [abs_of_pos (by norm_num)]; norm_num
    rw [this, show ⌊(1 / 10 : ℝ)⌋ = 0 by rw [Int.floor_eq_iff]; norm_num, if_pos (by norm_num)]
    rfl
  unfold fixed9
  rw [h1, h2, h3, if_neg (by norm_num), if_pos (by norm_num), if_neg (by norm_num)]
  decide +kernel

/-! ## Tables -/

/-- A text that can be a cell without quotes. -/
def PlainCell (c : List Char) : Prop := ',' ∉ c ∧ '\n' ∉ c

theorem splitAtChar_append (c : Char) {a : List Char} (ha : c ∉ a) (b : List Char) : splitAtChar c (a ++ c :: b) = a :: splitAtChar c b := by
  induction a with
  | nil => simp [splitAtChar]
  | cons x a ih =>
    simp only [List.mem_cons, not_or] at ha
    simp only [List.cons_append, splitAtChar, if_neg (Ne.symm ha.1), ih ha.2]

theorem splitAtChar_none (c : Char) {a : List Char} (ha : c ∉ a) : splitAtChar c a = [a] := by
  induction a with
  | nil => rfl
  | cons x a ih =>
    simp only [List.mem_cons, not_or] at ha
    simp only [splitAtChar, if_neg (Ne.symm ha.1), ih ha.2]

/-- A line without its end. -/
def csvBody : List (List Char) → List Char
  | [] => []
  | [c] => c
  | c :: l => c ++ ',' :: csvBody l

theorem csvLine_eq (l : List (List Char)) : csvLine l = csvBody l ++ ['\n'] := by
  induction l with
  | nil => rfl
  | cons c l ih =>
    cases l with
    | nil => rfl
    | cons d l => simp only [csvLine, csvBody, List.append_assoc, List.cons_append]; rw [ih]

theorem csvBody_plain {l : List (List Char)} (h : ∀ c ∈ l, PlainCell c) : '\n' ∉ csvBody l := by
  induction l with
  | nil => simp [csvBody]
  | cons c l ih =>
    cases l with
    | nil => exact (h c (by simp)).2
    | cons d l =>
      simp only [csvBody, List.mem_append, List.mem_cons, not_or]
      exact ⟨(h c (by simp)).2, by decide, ih fun x hx => h x (by simp [hx])⟩

theorem csvBody_split {l : List (List Char)} (hne : l ≠ []) (h : ∀ c ∈ l, PlainCell c) : splitAtChar ',' (csvBody l) = l := by
  induction l with
  | nil => exact absurd rfl hne
  | cons c l ih =>
    cases l with
    | nil => exact splitAtChar_none _ (h c (by simp)).1
    | cons d l =>
      simp only [csvBody]
      rw [splitAtChar_append _ (h c (by simp)).1, ih (by simp) fun x hx => h x (by simp [hx])]

/-- **C104.** What is read from a table are its column names and its cells. -/
theorem C104_table {header : List (List Char)} {rows : List (List (List Char))}
    (h : ∀ l ∈ header :: rows, l ≠ [] ∧ ∀ c ∈ l, PlainCell c) : readTable (csvText header rows) = header :: rows := by
  unfold readTable csvText
  generalize header :: rows = ls at h
  induction ls with
  | nil => rfl
  | cons l ls ih =>
    obtain ⟨h1, h2⟩ := h l (by simp)
    rw [List.map_cons, List.flatten_cons, csvLine_eq, List.append_assoc, List.singleton_append, splitAtChar_append _ (csvBody_plain h2)]
    have hne : splitAtChar '\n' (ls.map csvLine).flatten ≠ [] := by
      generalize (ls.map csvLine).flatten = s
      cases s with
      | nil => simp [splitAtChar]
      | cons x s =>
        simp only [splitAtChar]
        split_ifs
        · simp
        · split <;> simp
    rw [List.dropLast_cons_of_ne_nil hne, List.map_cons, csvBody_split h1 h2, ih fun x hx => h x (by simp [hx])]

theorem digits_plain {s : List Char} {n : ℕ} (h : DigitsText s n) : PlainCell s := by
  obtain ⟨ds, _, hlt, rfl, _⟩ := h
  have key : ∀ a < 10, Nat.digitChar a ≠ ',' ∧ Nat.digitChar a ≠ '\n' := by decide
  constructor <;> intro hm <;> obtain ⟨a, ha, he⟩ := List.mem_map.mp hm
  · exact (key a (hlt a ha)).1 he
  · exact (key a (hlt a ha)).2 he

theorem PlainCell.append {a b : List Char} (ha : PlainCell a) (hb : PlainCell b) : PlainCell (a ++ b) := by
  unfold PlainCell at *
  simp only [List.mem_append, not_or]
  exact ⟨⟨ha.1, hb.1⟩, ha.2, hb.2⟩

theorem PlainCell.cons {c : Char} {b : List Char} (h1 : c ≠ ',') (h2 : c ≠ '\n') (hb : PlainCell b) : PlainCell (c :: b) := by
  unfold PlainCell at *
  simp only [List.mem_cons, not_or]
  exact ⟨⟨h1.symm, hb.1⟩, h2.symm, hb.2⟩

theorem natText_plain (n : ℕ) : PlainCell (natText n) := digits_plain (padDigits_text 1 n one_pos)

theorem intText_plain (i : ℤ) : PlainCell (intText i) := by
  unfold intText
  split_ifs
  · exact .cons (by decide) (by decide) (natText_plain _)
  · exact natText_plain _

theorem fixed9_plain (x : ℝ) : PlainCell (fixed9 x) := by
  unfold fixed9
  refine .append ?_ (.append (natText_plain _) (.cons (by decide) (by decide) (digits_plain (padDigits_text 9 _ (by norm_num)))))
  split_ifs <;> constructor <;> decide

theorem rankCell_plain (r : Option ℕ) : PlainCell (rankCell r) := by
  cases r with
  | none => constructor <;> simp [rankCell]
  | some n => exact natText_plain n

/-- A cell with a number that differs from `x` by at most half a unit of the ninth decimal. -/
def ReadsNear (c : List Char) (x : ℝ) : Prop := ∃ q : ℚ, FloatText c q ∧ |(q : ℝ) - x| ≤ 1 / 2 * (1 / 10 ^ 9)

theorem fixed9_reads (x : ℝ) : ReadsNear (fixed9 x) x := ⟨_, (C104_number x).1, (C104_number x).2.1⟩

/-- The cells of the line of a peak. -/
def ReadsPeak (cells : List (List Char)) (p : HPeak ℝ) : Prop :=
  ∃ a b c w d s, cells = [a, b, c, w, d, s] ∧ ReadsNear a p.period ∧ ReadsNear b p.freq ∧ ReadsNear c p.dm ∧ IntText w p.tag ∧
    ReadsNear d p.ducy ∧ ReadsNear s p.snr

/-- The cells of the line of a cluster. -/
def ReadsCluster (cells : List (List Char)) (r : ClusterRow ℝ) : Prop :=
  ∃ k p d s w f n u v m, cells = [k, p, d, s, w, f, n, u, v, m] ∧ (∀ x, r.rank = some x → IntText k x) ∧ ReadsNear p r.period ∧ ReadsNear d r.dm ∧
    ReadsNear s r.snr ∧ ReadsNear w r.ducy ∧ ReadsNear f r.freq ∧ IntText n r.npeaks ∧ IntText u r.hfracNum ∧ IntText v r.hfracDenom ∧
    ∀ x, r.fundamentalRank = some x → IntText m x

theorem peakCells_reads (p : HPeak ℝ) : ReadsPeak (peakCells p) p :=
  ⟨_, _, _, _, _, _, rfl, fixed9_reads _, fixed9_reads _, fixed9_reads _, natText_ok _, fixed9_reads _, fixed9_reads _⟩

theorem rankCell_reads (r : Option ℕ) : ∀ x, r = some x → IntText (rankCell r) x := by
  rintro x rfl
  exact natText_ok x

theorem clusterCells_reads (r : ClusterRow ℝ) : ReadsCluster (clusterCells r) r :=
  ⟨_, _, _, _, _, _, _, _, _, _, rfl, rankCell_reads _, fixed9_reads _, fixed9_reads _, fixed9_reads _, fixed9_reads _, fixed9_reads _, natText_ok _,
    intText_ok _, intText_ok _, rankCell_reads _⟩

theorem peakCells_plain (p : HPeak ℝ) : peakCells p ≠ [] ∧ ∀ c ∈ peakCells p, PlainCell c := by
  refine ⟨by simp [peakCells], ?_⟩
  intro c hc
  simp only [peakCells, List.mem_cons, List.not_mem_nil, or_false] at hc
  rcases hc with rfl | rfl | rfl | rfl | rfl | rfl
  all_goals first | exact fixed9_plain _ | exact natText_plain _

theorem clusterCells_plain (r : ClusterRow ℝ) : clusterCells r ≠ [] ∧ ∀ c ∈ clusterCells r, PlainCell c := by
  refine ⟨by simp [clusterCells], ?_⟩
  intro c hc
  simp only [clusterCells, List.mem_cons, List.not_mem_nil, or_false] at hc
  rcases hc with rfl | rfl | rfl | rfl | rfl | rfl | rfl | rfl | rfl | rfl
  all_goals first | exact fixed9_plain _ | exact natText_plain _ | exact intText_plain _ | exact rankCell_plain _

theorem peakColumns_plain : peakColumns ≠ [] ∧ ∀ c ∈ peakColumns, PlainCell c := by
  unfold PlainCell peakColumns
  decide +kernel

theorem clusterColumns_plain : clusterColumns ≠ [] ∧ ∀ c ∈ clusterColumns, PlainCell c := by
  unfold PlainCell clusterColumns
  decide +kernel

theorem peakTable_reads (ps : List (HPeak ℝ)) : readTable (csvText peakColumns (ps.map peakCells)) = peakColumns :: ps.map peakCells := by
  apply C104_table
  intro l hl
  rcases List.mem_cons.mp hl with rfl | hl
  · exact peakColumns_plain
  · obtain ⟨p, _, rfl⟩ := List.mem_map.mp hl
    exact peakCells_plain p

theorem clusterTable_reads (rs : List (ClusterRow ℝ)) :
    readTable (csvText clusterColumns (rs.map clusterCells)) = clusterColumns :: rs.map clusterCells := by
  apply C104_table
  intro l hl
  rcases List.mem_cons.mp hl with rfl | hl
  · exact clusterColumns_plain
  · obtain ⟨p, _, rfl⟩ := List.mem_map.mp hl
    exact clusterCells_plain p

/-! ## Names of files -/

theorem digits04 {n : ℕ} (h : n < 10000) : fmt04 n = [n / 1000, n / 100 % 10, n / 10 % 10, n % 10].map Nat.digitChar := by
  unfold fmt04
  simp only
  congr 1
  have hlen : (Nat.digits 10 n).length ≤ 4 := (Nat.digits_length_le_iff (by norm_num) n).mpr (by norm_num; exact h)
  rw [List.reverse_eq_iff]
  refine Nat.ofDigits_inj_of_len_eq (b := 10) (by norm_num) ?_ ?_ ?_ ?_
  · simp only [List.length_append, List.length_replicate, List.reverse_cons, List.reverse_nil, List.nil_append, List.length_cons, List.length_nil]
    omega
  · intro d hd
    rw [List.mem_append, List.mem_replicate] at hd
    rcases hd with hd | hd
    · exact Nat.digits_lt_base (by norm_num) hd
    · omega
  · intro d hd
    simp only [List.reverse_cons, List.reverse_nil, List.nil_append, List.cons_append, List.mem_cons, List.not_mem_nil, or_false] at hd
    omega
  · rw [Nat.ofDigits_append_replicate_zero, Nat.ofDigits_digits]
    simp [Nat.ofDigits]
    omega

theorem append_lt_append {a b c d : List Char} (h : a < b) (hl : a.length = b.length) : a ++ c < b ++ d := by
  induction a generalizing b with
  | nil =>
    cases b with
    | nil => exact absurd h (List.lt_irrefl _)
    | cons => simp at hl
  | cons x a ih =>
    cases b with
    | nil => simp at hl
    | cons y b =>
      simp only [List.length_cons, Nat.add_right_cancel_iff] at hl
      rw [List.cons_append, List.cons_append]
      rcases List.cons_lt_cons_iff.mp h with h | ⟨h1, h2⟩
      · exact List.cons_lt_cons_iff.mpr (.inl h)
      · exact List.cons_lt_cons_iff.mpr (.inr ⟨h1, ih h2 hl⟩)

theorem prefix_lt {a b : List Char} (p : List Char) (h : a < b) : p ++ a < p ++ b := by
  induction p with
  | nil => exact h
  | cons x p ih => exact List.cons_lt_cons_iff.mpr (.inr ⟨rfl, ih⟩)

/-- **C104.** Up to 10000 candidates, the names of their files are in alphabetical order when they are in the order of the ranks. -/
theorem C104_names_sorted {m n : ℕ} (hmn : m < n) (hn : n < 10000) (e e' : List Char) : candidateFileName m e < candidateFileName n e' := by
  unfold candidateFileName
  rw [List.append_assoc, List.append_assoc]
  refine prefix_lt _ ?_
  rw [digits04 (hmn.trans hn), digits04 hn]
  refine append_lt_append ?_ (by simp)
  have mono : ∀ a < 10, ∀ b < 10, a < b → Nat.digitChar a < Nat.digitChar b := by decide +kernel
  simp only [List.map_cons, List.map_nil]
  by_cases h1 : m / 1000 = n / 1000
  · rw [h1]
    refine List.cons_lt_cons_iff.mpr (.inr ⟨rfl, ?_⟩)
    by_cases h2 : m / 100 % 10 = n / 100 % 10
    · rw [h2]
      refine List.cons_lt_cons_iff.mpr (.inr ⟨rfl, ?_⟩)
      by_cases h3 : m / 10 % 10 = n / 10 % 10
      · rw [h3]
        refine List.cons_lt_cons_iff.mpr (.inr ⟨rfl, List.cons_lt_cons_iff.mpr (.inl (mono _ (by omega) _ (by omega) (by omega)))⟩)
      · exact List.cons_lt_cons_iff.mpr (.inl (mono _ (by omega) _ (by omega) (by omega)))
    · exact List.cons_lt_cons_iff.mpr (.inl (mono _ (by omega) _ (by omega) (by omega)))
  · exact List.cons_lt_cons_iff.mpr (.inl (mono _ (by omega) _ (by omega) (by omega)))

/-- **C104.** Beyond, they are not: the file of candidate 10000 comes before that of candidate 9999 (and of candidate 1001). -/
theorem C104_names_unsorted : candidateFileName 10000 ".json".toList < candidateFileName 9999 ".json".toList ∧
    candidateFileName 10000 ".json".toList < candidateFileName 1001 ".json".toList := by
  decide +kernel

theorem name_take (r : ℕ) (ext : List Char) : (candidateFileName r ext).take 10 = "candidate_".toList := by
  unfold candidateFileName
  rw [List.append_assoc, List.take_left' (by decide)]

theorem name_ne {r : ℕ} {ext s : List Char} (h : s.take 10 ≠ "candidate_".toList) : candidateFileName r ext ≠ s := by
  rintro rfl
  exact h (name_take r ext)

/-! ## The directory -/

theorem writeAll_other (fs : List (List Char × List Char)) (d : OutDir) {name : List Char} (h : name ∉ fs.map Prod.fst) :
    d.writeAll fs name = d name := by
  induction fs generalizing d with
  | nil => rfl
  | cons f fs ih =>
    simp only [List.map_cons, List.mem_cons, not_or] at h
    show (d.write f).writeAll fs name = d name
    rw [ih _ h.2]
    unfold OutDir.write
    rw [if_neg h.1]

theorem writeAll_mem (fs : List (List Char × List Char)) (d : OutDir) (hnd : (fs.map Prod.fst).Nodup) {f : List Char × List Char} (h : f ∈ fs) :
    d.writeAll fs f.1 = some f.2 := by
  induction fs generalizing d with
  | nil => cases h
  | cons g fs ih =>
    rw [List.map_cons, List.nodup_cons] at hnd
    show (d.write g).writeAll fs f.1 = _
    rcases List.mem_cons.mp h with rfl | h
    · rw [writeAll_other _ _ hnd.1]
      unfold OutDir.write
      rw [if_pos rfl]
    · exact ih _ hnd.2 h

theorem mem_allCandidateFiles {e : CandCoding} {st : PipeState ℝ (CandObj ℝ)} {f : List Char × List Char} (h : f ∈ allCandidateFiles e st) :
    ∃ r x, st.candidates[r]? = some x ∧ (f = (candidateFileName r ".json".toList, e.json x) ∨
      ∃ g, e.png = some g ∧ f = (candidateFileName r ".png".toList, g x)) := by
  unfold allCandidateFiles at h
  obtain ⟨l, hl, hf⟩ := List.mem_flatten.mp h
  obtain ⟨r, hr, rfl⟩ := List.mem_mapIdx.mp hl
  refine ⟨r, st.candidates[r], List.getElem?_eq_getElem hr, ?_⟩
  unfold candidateFiles at hf
  rcases List.mem_cons.mp hf with hf | hf
  · exact .inl hf
  · cases hp : e.png with
    | none => rw [hp] at hf; simp at hf
    | some g =>
      rw [hp] at hf
      simp only [Option.map_some, Option.toList_some, List.mem_singleton] at hf
      exact .inr ⟨g, rfl, hf⟩

theorem allCandidateFiles_mem {e : CandCoding} {st : PipeState ℝ (CandObj ℝ)} {r : ℕ} {x : PCandidate ℝ (CandObj ℝ)}
    (h : st.candidates[r]? = some x) : (candidateFileName r ".json".toList, e.json x) ∈ allCandidateFiles e st ∧
      ∀ g, e.png = some g → (candidateFileName r ".png".toList, g x) ∈ allCandidateFiles e st := by
  obtain ⟨hr, rfl⟩ := List.getElem?_eq_some_iff.mp h
  unfold allCandidateFiles
  constructor
  · exact List.mem_flatten.mpr ⟨_, List.mem_mapIdx.mpr ⟨r, hr, rfl⟩, by simp [candidateFiles]⟩
  · intro g hg
    exact List.mem_flatten.mpr ⟨_, List.mem_mapIdx.mpr ⟨r, hr, rfl⟩, by simp [candidateFiles, hg]⟩

theorem candidateFiles_names (e : CandCoding) (n : ℕ) : ∀ (l : List (PCandidate ℝ (CandObj ℝ))),
    (((l.mapIdx fun i => candidateFiles e (n + i)).flatten).map Prod.fst).Nodup ∧
    ∀ f ∈ (l.mapIdx fun i => candidateFiles e (n + i)).flatten, ∃ r, n ≤ r ∧ (f.1 = candidateFileName r ".json".toList ∨ f.1 = candidateFileName r ".png".toList) := by
  intro l
  induction l generalizing n with
  | nil => simp
  | cons x l ih =>
    have e1 : ((x :: l).mapIdx fun i => candidateFiles e (n + i)).flatten =
        candidateFiles e n x ++ (l.mapIdx fun i => candidateFiles e (n + 1 + i)).flatten := by
      rw [List.mapIdx_cons]
      simp only [List.flatten_cons, Nat.add_zero]
      congr 3
      funext i
      congr 1
      omega
    obtain ⟨k1, k2⟩ := ih (n + 1)
    have own : ∀ f ∈ candidateFiles e n x, f.1 = candidateFileName n ".json".toList ∨ f.1 = candidateFileName n ".png".toList := by
      intro f hf
      unfold candidateFiles at hf
      rcases List.mem_cons.mp hf with rfl | hf
      · exact .inl rfl
      · cases hp : e.png with
        | none => rw [hp] at hf; simp at hf
        | some g =>
          rw [hp] at hf
          simp only [Option.map_some, Option.toList_some, List.mem_singleton] at hf
          rw [hf]
          exact .inr rfl
    rw [e1]
    constructor
    · rw [List.map_append, List.nodup_append]
      refine ⟨?_, k1, ?_⟩
      · unfold candidateFiles
        cases e.png with
        | none => simp
        | some g =>
          simp only [Option.map_some, Option.toList_some, List.map_cons, List.map_nil, List.nodup_cons, List.mem_singleton, List.not_mem_nil,
            not_false_eq_true, List.nodup_nil, and_true]
          exact C46_json_ne_png n n
      · intro a ha b hb hab
        obtain ⟨f, hf, rfl⟩ := List.mem_map.mp ha
        obtain ⟨g, hg, rfl⟩ := List.mem_map.mp hb
        obtain ⟨r, hr, h2⟩ := k2 g hg
        have h1 := own f hf
        rw [hab] at h1
        rcases h1 with h1 | h1 <;> rcases h2 with h2 | h2 <;> rw [h1] at h2
        · have := C46_file_names_distinct _ _ _ h2; omega
        · exact C46_json_ne_png _ _ h2
        · exact C46_json_ne_png _ _ h2.symm
        · have := C46_file_names_distinct _ _ _ h2; omega
    · intro f hf
      rcases List.mem_append.mp hf with hf | hf
      · exact ⟨n, le_rfl, own f hf⟩
      · obtain ⟨r, hr, h⟩ := k2 f hf
        exact ⟨r, by omega, h⟩

theorem tableFiles_names {st : PipeState ℝ (CandObj ℝ)} {tables : List (List Char × List Char)} (h : tableFiles st = .ok tables) :
    (tables.map Prod.fst).Sublist ["peaks.csv".toList, "clusters.csv".toList, "candidates.csv".toList] := by
  unfold tableFiles at h
  obtain ⟨cl, h1, rfl⟩ := map_ok_inv h
  rw [List.map_cons, List.map_append]
  refine List.Sublist.cons_cons _ ?_
  have hs : (cl.map Prod.fst).Sublist ["clusters.csv".toList] := by
    split_ifs at h1
    · cases h1; exact List.nil_sublist _
    · obtain ⟨rows, _, rfl⟩ := map_ok_inv h1
      exact List.Sublist.refl _
  refine List.Sublist.append (l₂ := ["clusters.csv".toList]) (r₂ := ["candidates.csv".toList]) hs ?_
  split_ifs
  · exact List.nil_sublist _
  · exact List.Sublist.refl _

/-- All names that are written are different. -/
theorem savedNames_nodup {e : CandCoding} {st : PipeState ℝ (CandObj ℝ)} {tables order : List (List Char × List Char)}
    (h : tableFiles st = .ok tables) (ho : order.Perm (allCandidateFiles e st)) : ((tables ++ order).map Prod.fst).Nodup := by
  have hs := tableFiles_names h
  have hc := candidateFiles_names e 0 st.candidates
  simp only [Nat.zero_add] at hc
  rw [List.map_append, List.nodup_append]
  refine ⟨hs.nodup (by decide +kernel), ((ho.map Prod.fst).nodup_iff).mpr hc.1, ?_⟩
  intro a ha b hb hab
  obtain ⟨f, hf, rfl⟩ := List.mem_map.mp hb
  obtain ⟨r, _, hr⟩ := hc.2 f (ho.mem_iff.mp hf)
  have ha' := hs.subset ha
  have hne : a.take 10 ≠ "candidate_".toList := by
    simp only [List.mem_cons, List.not_mem_nil, or_false] at ha'
    rcases ha' with rfl | rfl | rfl <;> decide +kernel
  rw [hab] at hne
  rcases hr with hr | hr <;> exact name_ne hne hr.symm

/-- The tables that are written. -/
theorem tableFiles_spec {st : PipeState ℝ (CandObj ℝ)} {tables : List (List Char × List Char)} (h : tableFiles st = .ok tables) :
    (("peaks.csv".toList, csvText peakColumns (st.peaks.map peakCells)) ∈ tables) ∧
    (st.clusters ≠ [] → ∃ cl, clustersToDataframe st.heap st.clusters = .ok cl ∧
      ("clusters.csv".toList, csvText clusterColumns (cl.map clusterCells)) ∈ tables) ∧
    (st.candidates ≠ [] → ("candidates.csv".toList, csvText peakColumns ((st.candidates.map (·.params)).map peakCells)) ∈ tables) ∧
    (∀ f ∈ tables, f.1 = "peaks.csv".toList ∨ (st.clusters ≠ [] ∧ f.1 = "clusters.csv".toList) ∨
      (st.candidates ≠ [] ∧ f.1 = "candidates.csv".toList)) := by
  unfold tableFiles at h
  obtain ⟨cl, hcl, rfl⟩ := map_ok_inv h
  refine ⟨List.mem_cons_self, ?_, ?_, ?_⟩
  · intro hc
    rw [if_neg (fun h => hc (List.eq_nil_of_length_eq_zero h))] at hcl
    obtain ⟨rows, hr, rfl⟩ := map_ok_inv hcl
    exact ⟨rows, hr, List.mem_cons_of_mem _ (List.mem_append_left _ List.mem_cons_self)⟩
  · intro hc
    refine List.mem_cons_of_mem _ (List.mem_append_right _ ?_)
    rw [if_neg (fun h => hc (List.eq_nil_of_length_eq_zero h)), List.map_map]
    exact List.mem_cons_self
  · intro f hf
    rcases List.mem_cons.mp hf with rfl | hf
    · exact .inl rfl
    · rcases List.mem_append.mp hf with hf | hf
      · split_ifs at hcl with hc
        · cases hcl; cases hf
        · obtain ⟨rows, _, rfl⟩ := map_ok_inv hcl
          rw [List.mem_singleton.mp hf]
          exact .inr (.inl ⟨fun h => hc (by rw [h]; rfl), rfl⟩)
      · split_ifs at hf with hc
        · cases hf
        · rw [List.mem_singleton.mp hf]
          exact .inr (.inr ⟨fun h => hc (by rw [h]; rfl), rfl⟩)

theorem peakTable_forall (ps : List (HPeak ℝ)) : List.Forall₂ ReadsPeak (ps.map peakCells) ps := by
  rw [List.forall₂_map_left_iff]
  exact List.forall₂_same.mpr fun p _ => peakCells_reads p

/-- **C104.** What `save_products` leaves in the directory, if there are peaks. The tables can be read: the columns have these names, there is one line
for each peak, cluster and candidate, in the order of the lists, and each number is within half a unit of the ninth decimal. Candidate number `r` is
in the file with number `r`, and its plot, if plots are made. All other files are as they were. The processes of the pool may write in any order. -/
theorem C104_saved {e : CandCoding} {st : PipeState ℝ (CandObj ℝ)} {d d' : OutDir} (h : SavesProducts e st d d') (hp : st.peaks ≠ []) :
    (∃ text rows, d' "peaks.csv".toList = some text ∧
      readTable text = ["period".toList, "freq".toList, "dm".toList, "width".toList, "ducy".toList, "snr".toList] :: rows ∧
      List.Forall₂ ReadsPeak rows st.peaks) ∧
    (st.clusters ≠ [] → ∃ text rows cl, clustersToDataframe st.heap st.clusters = .ok cl ∧ d' "clusters.csv".toList = some text ∧
      readTable text = ["rank".toList, "period".toList, "dm".toList, "snr".toList, "ducy".toList, "freq".toList, "npeaks".toList,
        "hfrac_num".toList, "hfrac_denom".toList, "fundamental_rank".toList] :: rows ∧ List.Forall₂ ReadsCluster rows cl) ∧
    (st.candidates ≠ [] → ∃ text rows qs, d' "candidates.csv".toList = some text ∧
      readTable text = ["period".toList, "freq".toList, "dm".toList, "width".toList, "ducy".toList, "snr".toList] :: rows ∧
      List.Forall₂ (fun cells c => ReadsPeak cells c.params) rows st.candidates ∧
      List.Forall₂ (fun cells q => FloatText (cells.getD 5 []) q) rows qs ∧
      (st.candidates.Pairwise (fun a b => b.params.snr ≤ a.params.snr) → qs.Pairwise (fun a b => b ≤ a))) ∧
    (∀ r x, st.candidates[r]? = some x → d' (candidateFileName r ".json".toList) = some (e.json x) ∧
      ∀ g, e.png = some g → d' (candidateFileName r ".png".toList) = some (g x)) ∧
    (∀ name, name ≠ "peaks.csv".toList → (st.clusters ≠ [] → name ≠ "clusters.csv".toList) → (st.candidates ≠ [] → name ≠ "candidates.csv".toList) →
      (∀ r < st.candidates.length, name ≠ candidateFileName r ".json".toList ∧ (e.png ≠ none → name ≠ candidateFileName r ".png".toList)) →
      d' name = d name) := by
  unfold SavesProducts at h
  rw [if_neg (by simpa using hp)] at h
  obtain ⟨tables, order, ht, ho, rfl⟩ := h
  have hnd := savedNames_nodup (e := e) ht ho
  have hw : (d.writeAll tables).writeAll order = d.writeAll (tables ++ order) := by
    unfold OutDir.writeAll
    rw [List.foldl_append]
  rw [hw]
  have get : ∀ f ∈ tables ++ order, d.writeAll (tables ++ order) f.1 = some f.2 := fun f hf => writeAll_mem _ _ hnd hf
  obtain ⟨t1, t2, t3, t4⟩ := tableFiles_spec ht
  refine ⟨⟨_, _, get _ (List.mem_append_left _ t1), peakTable_reads _, peakTable_forall _⟩, ?_, ?_, ?_, ?_⟩
  · intro hc
    obtain ⟨cl, hcl, hm⟩ := t2 hc
    refine ⟨_, _, cl, hcl, get _ (List.mem_append_left _ hm), clusterTable_reads _, ?_⟩
    rw [List.forall₂_map_left_iff]
    exact List.forall₂_same.mpr fun p _ => clusterCells_reads p
  · intro hc
    refine ⟨_, _, st.candidates.map fun c => printed9 c.params.snr, get _ (List.mem_append_left _ (t3 hc)), peakTable_reads _, ?_, ?_, ?_⟩
    · have := peakTable_forall (st.candidates.map (·.params))
      rwa [List.forall₂_map_right_iff] at this
    · rw [List.forall₂_map_left_iff, List.forall₂_map_left_iff, List.forall₂_map_right_iff]
      exact List.forall₂_same.mpr fun p _ => (C104_number p.params.snr).1
    · intro hs
      exact List.pairwise_map.mpr (hs.imp fun h => C104_order h)
  · intro r x hx
    obtain ⟨h1, h2⟩ := allCandidateFiles_mem (e := e) hx
    exact ⟨get _ (List.mem_append_right _ (ho.mem_iff.mpr h1)), fun g hg => get _ (List.mem_append_right _ (ho.mem_iff.mpr (h2 g hg)))⟩
  · intro name n1 n2 n3 n4
    apply writeAll_other
    intro hm
    obtain ⟨f, hf, rfl⟩ := List.mem_map.mp hm
    rcases List.mem_append.mp hf with hf | hf
    · rcases t4 f hf with h | ⟨h', h⟩ | ⟨h', h⟩
      · exact n1 h
      · exact n2 h' h
      · exact n3 h' h
    · obtain ⟨r, x, hx, hh⟩ := mem_allCandidateFiles (ho.mem_iff.mp hf)
      obtain ⟨hr, _⟩ := List.getElem?_eq_some_iff.mp hx
      rcases hh with hh | ⟨g, hg, hh⟩
      · exact (n4 r hr).1 (by rw [hh])
      · exact (n4 r hr).2 (by rw [hg]; simp) (by rw [hh])

/-- **C104.** The result does not depend on the order in which the processes write. -/
theorem C104_deterministic {e : CandCoding} {st : PipeState ℝ (CandObj ℝ)} {d d₁ d₂ : OutDir} (h1 : SavesProducts e st d d₁)
    (h2 : SavesProducts e st d d₂) : d₁ = d₂ := by
  unfold SavesProducts at h1 h2
  split_ifs at h1 h2 with hp
  · rw [h1, h2]
  · obtain ⟨t1, o1, ht1, ho1, rfl⟩ := h1
    obtain ⟨t2, o2, ht2, ho2, rfl⟩ := h2
    rw [ht1] at ht2
    cases ht2
    have hw : ∀ o : List (List Char × List Char), (d.writeAll t1).writeAll o = d.writeAll (t1 ++ o) := by
      intro o
      unfold OutDir.writeAll
      rw [List.foldl_append]
    rw [hw, hw]
    funext name
    have hperm : (t1 ++ o1).Perm (t1 ++ o2) := (List.Perm.refl t1).append (ho1.trans ho2.symm)
    by_cases hm : name ∈ (t1 ++ o1).map Prod.fst
    · obtain ⟨f, hf, rfl⟩ := List.mem_map.mp hm
      rw [writeAll_mem _ _ (savedNames_nodup ht1 ho1) hf, writeAll_mem _ _ (savedNames_nodup ht1 ho2) (hperm.mem_iff.mp hf)]
    · rw [writeAll_other _ _ hm, writeAll_other _ _ (fun h => hm ((hperm.map Prod.fst).mem_iff.mpr h))]

/-- **C104.** Files of an earlier run are not removed. If a second run into the same directory has fewer candidates, the files of the others are still those of
the first run; if it finds no peaks, everything is still there, including the tables. -/
theorem C104_stale {e : CandCoding} {st₁ st₂ : PipeState ℝ (CandObj ℝ)} {d d₁ d₂ : OutDir} (h1 : SavesProducts e st₁ d d₁)
    (h2 : SavesProducts e st₂ d₁ d₂) (hp : st₁.peaks ≠ []) :
    (∀ r x, st₂.candidates.length ≤ r → st₁.candidates[r]? = some x → d₂ (candidateFileName r ".json".toList) = some (e.json x)) ∧
    (st₂.peaks = [] → d₂ = d₁) := by
  have hz : st₂.peaks = [] → d₂ = d₁ := by
    intro h
    unfold SavesProducts at h2
    rwa [if_pos (by simp [h])] at h2
  refine ⟨fun r x hr hx => ?_, hz⟩
  have k1 := ((C104_saved h1 hp).2.2.2.1 r x hx).1
  by_cases h : st₂.peaks = []
  · rw [hz h, k1]
  · rw [← k1]
    refine (C104_saved h2 h).2.2.2.2 _ (name_ne (by decide +kernel)) (fun _ => name_ne (by decide +kernel))
      (fun _ => name_ne (by decide +kernel)) ?_
    intro q hq
    refine ⟨fun he => ?_, fun _ => C46_json_ne_png _ _⟩
    have := C46_file_names_distinct _ _ _ he
    omega

/-! ## Runs -/

/-- The table of clusters after a run. -/
theorem job_cluster_table {K : Type*} [LinearOrder K] [Field K] [IsStrictOrderedRing K] {β τ γ : Type*} (j : PipeJob K β τ γ)
    (g : β → List (HPeak K)) (ts : K → τ) (h : JobOK j g ts) (s : PoolSchedule) (hs : JobSchedule j s) (st : PipeState K γ)
    (hst : PipeState.fresh.process j s = .ok st) :
    (st.peaks ≠ [] → st.clusters ≠ []) ∧ (st.clusters ≠ [] →
    ∃ (c : ℕ → HPeak K) (rows : List (ClusterRow K)) (order : List ℕ), (∀ i ∈ st.clusters, (st.heap i).centre = .ok (c i)) ∧
      clustersToDataframe st.heap st.clusters = .ok rows ∧ order.Perm st.clusters ∧ rows.length = order.length ∧
      rows.Pairwise (fun a b => b.snr ≤ a.snr) ∧
      (∀ (k i : ℕ) (row : ClusterRow K), order[k]? = some i → rows[k]? = some row →
        row.rank = some k ∧ row.npeaks = (st.heap i).peaks.length ∧ row.period = (c i).period ∧ row.dm = (c i).dm ∧
        row.snr = (c i).snr ∧ row.ducy = (c i).ducy ∧ row.freq = (c i).freq ∧
        ∃ (m f : ℕ) (frow : ClusterRow K), m ≤ k ∧ order[m]? = some f ∧ rows[m]? = some frow ∧ row.fundamentalRank = some m ∧
          frow.fundamentalRank = some m ∧ (m = k → row.hfracNum = 0 ∧ row.hfracDenom = 0) ∧
          (m < k → 0 < row.hfracDenom ∧ IsCoprime row.hfracNum row.hfracDenom ∧
            j.test (c f) (c i) = .ok (true, (row.hfracNum : ℚ) / row.hfracDenom)))) := by
  obtain ⟨peaks, heap, next, L, c, hrun, hperm, hsorted, hnd, hpart, hcl, hsep, hc1, hc2, hc3, hgood, hin⟩ :=
    job_clusters h.processes h.search h.pos h.argsort h.tmed hs
  have htot : ∀ i ∈ L, ∀ k ∈ L, ∃ r, j.test (c i) (c k) = .ok r :=
    fun i hi k hk => h.test _ _ (hgood i hi).1 (hgood k hk).1 (hgood i hi).2 (hgood k hk).2
  obtain ⟨heap', rank, hflag, hpk, -⟩ := C44_flag_harmonics j.test heap L c hnd hc1 (fun i hi => (hcl i hi).2.1) htot
  rw [process_eq, hrun] at hst
  simp only [Except.bind, PipeState.flag] at hst
  rw [hflag] at hst
  simp only [Except.map] at hst
  obtain ⟨st1, h1, h2⟩ : ∃ st1, PipeState.filter j { peaks := peaks, heap := heap', next := next, clusters := L, filtered := [], candidates := [] }
      = .ok st1 ∧ PipeState.build j st1 = .ok st := bind_ok_inv hst
  obtain ⟨F, _, rfl⟩ := map_ok_inv h1
  obtain ⟨C, _, rfl⟩ := map_ok_inv h2
  refine ⟨fun hp hL => ?_, fun hne => ?_⟩
  · have hL' : L = [] := hL
    rw [hL'] at hpart
    exact hp hpart.symm.eq_nil
  · obtain ⟨heap'', rows, order, e1, e2, e3, e4, e5, e6, -⟩ := C67_cluster_table j.test heap L c hnd hne hc1 (fun i hi => (hcl i hi).2.1) htot
    rw [hflag] at e1
    cases e1
    refine ⟨c, rows, order, ?_, e2, e3, e4, e5, ?_⟩
    · intro i hi
      have h1 := hc1 i hi
      unfold PCluster.centre at h1 ⊢
      simp only
      rw [hpk i]
      exact h1
    · intro k i row h1 h2
      simp only [hpk]
      exact e6 k i row h1 h2

/-- The table of clusters, as it is on the disk after a run, for clusters with the centres `c`: one line for each cluster, numbered from zero by
decreasing S/N. Each line has the values of the brightest peak, the number of peaks, and the number of the line of its fundamental,
which is the line itself for those that are no harmonics (with the fraction 0 / 0). -/
def ClusterTableOK (st : PipeState ℝ (CandObj ℝ)) (c : ℕ → HPeak ℝ) (rows : List (List (List Char))) : Prop :=
  ∃ (order parents : List ℕ), order.Perm st.clusters ∧ rows.length = order.length ∧ parents.length = order.length ∧
    order.Pairwise (fun i k => (c k).snr ≤ (c i).snr) ∧
    ∀ (k i : ℕ) (cells : List (List Char)), order[k]? = some i → rows[k]? = some cells →
      ∃ (r p d s w f n u v m : List Char) (j num den : ℤ), cells = [r, p, d, s, w, f, n, u, v, m] ∧ IntText r k ∧ ReadsNear p (c i).period ∧
        ReadsNear d (c i).dm ∧ ReadsNear s (c i).snr ∧ ReadsNear w (c i).ducy ∧ ReadsNear f (c i).freq ∧ IntText n (st.heap i).peaks.length ∧
        IntText u num ∧ IntText v den ∧ IntText m j ∧ 0 ≤ j ∧ j ≤ k ∧ parents[k]? = some j.toNat ∧ parents[j.toNat]? = some j.toNat ∧
        (j = k → num = 0 ∧ den = 0) ∧ (j < k → 0 < den ∧ IsCoprime num den)

/-- **C104.** The output directory after a run on files, as in C103. Saving does not fail. Without peaks nothing is written. Otherwise the directory has
the table of all peaks and that of all clusters; and each cluster that passes the filters has a number `r`: its line in the table of candidates is
number `r`, and the file with number `r` has the candidate folded from the samples on the disk. The S/N does not increase along the table. -/
theorem C104_run {D : Disk} {t : PipeTools} {conf : PyVal} {c : RunConf} {a : HarmConf} {fnames : List (List Char)}
    {ms : List FileMeta} {lo hi : ℝ} {n : ℕ} (h : FilesOK D t conf c a fnames ms lo hi n) (h0 : 0 < lo) (hlt : lo < hi) (s : PoolSchedule)
    (hs : RunSchedule c ms s) (st : PipeState ℝ (CandObj ℝ)) (hst : pipelineFiles D t conf fnames s = .ok st) (e : CandCoding) (d : OutDir) :
    ∃ d', SavesProducts e st d d' ∧ (∀ d'', SavesProducts e st d d'' → d'' = d') ∧ (st.peaks = [] → d' = d) ∧
      (st.peaks ≠ [] →
        (∃ text rows, d' "peaks.csv".toList = some text ∧
          readTable text = ["period".toList, "freq".toList, "dm".toList, "width".toList, "ducy".toList, "snr".toList] :: rows ∧
          List.Forall₂ ReadsPeak rows st.peaks) ∧
        (∃ text rows cen, (∀ i ∈ st.clusters, (st.heap i).centre = .ok (cen i)) ∧ d' "clusters.csv".toList = some text ∧
          readTable text = ["rank".toList, "period".toList, "dm".toList, "snr".toList, "ducy".toList, "freq".toList, "npeaks".toList,
            "hfrac_num".toList, "hfrac_denom".toList, "fundamental_rank".toList] :: rows ∧ ClusterTableOK st cen rows) ∧
        (st.filtered ≠ [] → ∃ text rows qs, d' "candidates.csv".toList = some text ∧
          readTable text = ["period".toList, "freq".toList, "dm".toList, "width".toList, "ducy".toList, "snr".toList] :: rows ∧
          rows.length = st.filtered.length ∧ List.Forall₂ (fun cells q => FloatText (cells.getD 5 []) q) rows qs ∧ qs.Pairwise (fun a b => b ≤ a) ∧
          ∀ i ∈ st.filtered, ∃ r x cells, st.candidates[r]? = some x ∧ x.source = i ∧ (st.heap i).centre = .ok x.params ∧
            FoldedFromDisk D c fnames (st.heap i).peaks x.params x.data ∧ rows[r]? = some cells ∧ ReadsPeak cells x.params ∧
            d' (candidateFileName r ".json".toList) = some (e.json x) ∧
            ∀ g, e.png = some g → d' (candidateFileName r ".png".toList) = some (g x))) := by
  obtain ⟨k1, k2⟩ := C103_run h
  obtain ⟨-, b2⟩ := C103_no_candidate_lost h h0 hlt s hs
  obtain ⟨b1, -, b3⟩ := b2 st hst
  rw [k2] at hst
  obtain ⟨h1, h2⟩ := C102_run k1 s
  have hsort : st.candidates.Pairwise (fun a b => b.params.snr ≤ a.params.snr) := ((C102_no_candidate_lost k1 h0 hlt s hs).2 st hst).2.1
  rw [h1] at hst
  have hp : ∃ it, prepare c.prepConf ms = .ok it := by
    unfold pipelineProcess at hst
    obtain ⟨it, hit, _⟩ := bind_ok_inv hst
    exact ⟨it, hit⟩
  have hok := h2 h0 hlt hp
  obtain ⟨it, fn, g, ts, hjob, hsch, hrun⟩ := run_parts hok hs hst
  obtain ⟨c1, c2⟩ := job_cluster_table _ g ts hjob s hsch st hrun
  obtain ⟨d', hd⟩ : ∃ d', SavesProducts e st d d' := by
    unfold SavesProducts
    by_cases hz : st.peaks.length = 0
    · exact ⟨d, by rw [if_pos hz]⟩
    · simp only [if_neg hz]
      have hcl := c1 (fun h => hz (by rw [h]; rfl))
      obtain ⟨cen, rows, order, -, hr, -⟩ := c2 hcl
      have htab : ∃ tables, tableFiles st = .ok tables := by
        unfold tableFiles
        rw [if_neg (fun h => hcl (List.eq_nil_of_length_eq_zero h)), hr]
        exact ⟨_, rfl⟩
      obtain ⟨tables, htab⟩ := htab
      exact ⟨_, tables, _, htab, List.Perm.refl _, rfl⟩
  refine ⟨d', hd, fun d'' hd'' => C104_deterministic hd'' hd, ?_, ?_⟩
  · intro hz
    unfold SavesProducts at hd
    rwa [if_pos (by rw [hz]; rfl)] at hd
  · intro hpk
    obtain ⟨s1, s2, s3, s4, -⟩ := C104_saved hd hpk
    refine ⟨s1, ?_, ?_⟩
    · obtain ⟨text, rows, cl, e1, e2, e3, e4⟩ := s2 (c1 hpk)
      obtain ⟨cen, cl', order, f1, f2, f3, f4, f5, f6⟩ := c2 (c1 hpk)
      rw [e1] at f2
      cases f2
      refine ⟨text, rows, cen, f1, e2, e3, order, cl.map fun r => r.fundamentalRank.getD 0, f3, e4.length_eq.trans f4, by simpa using f4, ?_, ?_⟩
      · rw [List.pairwise_iff_getElem] at f5 ⊢
        intro i k hi hk hik
        have q1 := f6 i _ _ (List.getElem?_eq_getElem hi) (List.getElem?_eq_getElem (f4 ▸ hi))
        have q2 := f6 k _ _ (List.getElem?_eq_getElem hk) (List.getElem?_eq_getElem (f4 ▸ hk))
        rw [← q1.2.2.2.2.1, ← q2.2.2.2.2.1]
        exact f5 i k _ _ hik
      · intro k i cells ho hr
        obtain ⟨hk, hkr⟩ := List.getElem?_eq_some_iff.mp hr
        have hk' : k < cl.length := by rw [← e4.length_eq]; exact hk
        have hrd := e4.get hk hk'
        rw [List.get_eq_getElem, List.get_eq_getElem, hkr] at hrd
        obtain ⟨q1, q2, q3, q4, q5, q6, q7, m, f, frow, q8, q9, q10, q11, q12, q13, q14⟩ := f6 k i _ ho (List.getElem?_eq_getElem hk')
        obtain ⟨x1, x2, x3, x4, x5, x6, x7, x8, x9, x10, y0, y1, y2, y3, y4, y5, y6, y7, y8, y9, y10⟩ := hrd
        rw [q3] at y2
        rw [q4] at y3
        rw [q5] at y4
        rw [q6] at y5
        rw [q7] at y6
        rw [q2] at y7
        refine ⟨x1, x2, x3, x4, x5, x6, x7, x8, x9, x10, m, _, _, y0, y1 k q1, y2, y3, y4, y5, y6, y7, y8, y9, y10 m q11, by omega, by omega, ?_, ?_, ?_, ?_⟩
        · rw [Int.toNat_natCast, List.getElem?_map, List.getElem?_eq_getElem hk', Option.map_some, q11]
          rfl
        · rw [Int.toNat_natCast, List.getElem?_map, q10, Option.map_some, q12]
          rfl
        · intro hj
          exact q13 (by omega)
        · intro hj
          exact ⟨(q14 (by omega)).1, (q14 (by omega)).2.1⟩
    · intro hf
      have hcn : st.candidates ≠ [] := by
        intro hc
        rw [hc] at b1
        exact hf (List.eq_nil_of_length_eq_zero b1.symm)
      obtain ⟨text, rows, qs, e1, e2, e3, e4, e5⟩ := s3 hcn
      refine ⟨text, rows, qs, e1, e2, e3.length_eq.trans b1, e4, e5 hsort, ?_⟩
      intro i hi'
      obtain ⟨x, hx, x1, -, x2, x3⟩ := b3 i hi'
      obtain ⟨r, hr, rfl⟩ := List.getElem_of_mem hx
      have hr' : r < rows.length := by rw [e3.length_eq]; exact hr
      have hrd := e3.get hr' hr
      rw [List.get_eq_getElem, List.get_eq_getElem] at hrd
      have hg := List.getElem?_eq_getElem hr
      exact ⟨r, _, rows[r], hg, x1, x2, x3, List.getElem?_eq_getElem hr', hrd, s4 r _ hg⟩

/-- The hypotheses of `C104_run` are met by the run of C103 on files: it leaves a table of candidates, with at least one line, and the file of the first candidate. -/
theorem C104_example (e : CandCoding) (d : OutDir) :
    ∃ st d', pipelineFiles pulsarDisk pulsarTools pulsarDict ["a.inf".toList] ⟨fun _ => 1, fun _ => [0]⟩ = .ok st ∧ SavesProducts e st d d' ∧
      (∃ text rows, d' "candidates.csv".toList = some text ∧
        readTable text = ["period".toList, "freq".toList, "dm".toList, "width".toList, "ducy".toList, "snr".toList] :: rows ∧ rows ≠ []) ∧
      ∃ x, d' "candidate_0000.json".toList = some (e.json x) := by
  obtain ⟨st, hst, x, hx, -, -⟩ := C103_example
  obtain ⟨-, b2⟩ := C103_no_candidate_lost pulsar_files_ok (by norm_num) (by norm_num) _ pulsar_schedule
  obtain ⟨b1, b3, b4⟩ := b2 st hst
  obtain ⟨d', hd, -, hz, hp⟩ := C104_run pulsar_files_ok (by norm_num) (by norm_num) _ pulsar_schedule st hst e d
  have hf : st.filtered ≠ [] := by
    intro h
    have := b3 x hx
    rw [h] at this
    cases this
  have hk : st.peaks ≠ [] := by
    intro h
    obtain ⟨k1, k2⟩ := C103_run pulsar_files_ok
    have hst' := hst
    rw [k2] at hst'
    obtain ⟨h1, h2⟩ := C102_run k1 ⟨fun _ => 1, fun _ => [0]⟩
    rw [h1] at hst'
    have hok := h2 (by norm_num) (by norm_num) pulsar_prepared
    obtain ⟨it, fn, g, ts, hjob, hsch, hrun⟩ := run_parts hok pulsar_schedule hst'
    obtain ⟨st2, c, q1, -, -, q2, -, q3, -, -, q4, -⟩ := C68_every_peak_accounted_for _ g ts hjob _ hsch
    rw [hrun] at q1
    cases q1
    have hc := (q4 _ (b3 x hx)).1
    have hm := (q3 _ hc).2.1
    have : c x.source ∈ st.peaks := q2.mem_iff.mp (List.mem_flatten.mpr ⟨_, List.mem_map_of_mem hc, hm⟩)
    rw [h] at this
    cases this
  obtain ⟨-, -, h3⟩ := hp hk
  obtain ⟨text, rows, qs, e1, e2, e3, -⟩ := h3 hf
  have hne : st.candidates ≠ [] := List.ne_nil_of_mem hx
  refine ⟨st, d', hst, hd, ⟨text, rows, e1, e2, ?_⟩, st.candidates.head hne, ?_⟩
  · rintro rfl
    exact hf (List.eq_nil_of_length_eq_zero e3.symm)
  · have h0 : st.candidates[0]? = some (st.candidates.head hne) := by
      rw [← List.head?_eq_getElem?]
      exact List.head?_eq_some_head hne
    have hn : "candidate_0000.json".toList = candidateFileName 0 ".json".toList := by decide +kernel
    rw [hn]
    exact ((C104_saved hd hk).2.2.2.1 0 _ h0).1

/-- A state with one peak, without clusters and with `k` candidates of it. -/
def exProducts (k : ℕ) : PipeState ℝ (CandObj ℝ) where
  peaks := [{ freq := 1, snr := 10, ducy := 1, dm := 0, period := 1 }]
  heap := fun _ => { peaks := [] }
  next := 0
  clusters := []
  filtered := []
  candidates := (List.range k).map fun i => ⟨{ freq := 1, snr := 10, ducy := 1, dm := 0, period := 1 }, i,
    ⟨{ freq := 1, snr := 10, ducy := 1, dm := 0, period := 1 }, 0, [], .d1 []⟩⟩

/-- Saving three candidates and then one, in the same directory: the files of the second and the third candidate of the first run are still there. -/
example (e : CandCoding) (d : OutDir) : ∃ d₁ d₂ x y, SavesProducts e (exProducts 3) d d₁ ∧ SavesProducts e (exProducts 1) d₁ d₂ ∧
    d₂ (candidateFileName 1 ".json".toList) = some (e.json x) ∧ d₂ (candidateFileName 2 ".json".toList) = some (e.json y) := by
  have key : ∀ k d, ∃ d', SavesProducts e (exProducts k) d d' := by
    intro k d
    unfold SavesProducts
    simp only [exProducts, List.length_cons, List.length_nil]
    simp only [show (0 + 1 = 0) = False by simp, if_false]
    have htab : ∃ tables, tableFiles (exProducts k) = .ok tables := ⟨_, rfl⟩
    obtain ⟨tables, htab⟩ := htab
    exact ⟨_, tables, _, htab, List.Perm.refl _, rfl⟩
  obtain ⟨d₁, h1⟩ := key 3 d
  obtain ⟨d₂, h2⟩ := key 1 d₁
  have hs := (C104_stale h1 h2 (by simp [exProducts])).1
  exact ⟨d₁, d₂, _, _, h1, h2, hs 1 _ (by simp [exProducts]) (by simp [exProducts]; rfl), hs 2 _ (by simp [exProducts]) (by simp [exProducts]; rfl)⟩

end Verif.Props
