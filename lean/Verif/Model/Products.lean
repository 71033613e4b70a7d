import Verif.Model.ClusterTable
import Verif.Model.PipelineFiles

/-!
# Model of `Pipeline.save_products`: the text of the tables and the content of the output directory

`riptide/pipeline/pipeline.py` 335-380 and 382-395. The text of the tables is that of `DataFrame.to_csv(sep=',', index=False,
float_format='%.9f')` on Linux. Simplifications: numbers are real numbers, so that there is neither a negative zero nor `nan` nor `inf`; no cell needs
quotes; the directory exists and can be written to; plotting does not fail (compare `CandObj.plot`).
-/

namespace Verif.Model

/-! ## Numbers -/

/-- The decimal digits of `n`, with zeros in front if there are fewer than `k`. -/
def padDigits (k n : ℕ) : List Char :=
  let digits := Nat.digits 10 n
  ((digits ++ List.replicate (k - digits.length) 0).reverse).map Nat.digitChar

/-- `'%d' % n`. -/
def natText (n : ℕ) : List Char := padDigits 1 n

/-- `'%d' % i`. -/
def intText (i : ℤ) : List Char := if i < 0 then '-' :: natText i.natAbs else natText i.natAbs

/-- `|x|` in units of the ninth decimal, rounded to the nearest integer, ties to even. -/
noncomputable def ninthDecimals (x : ℝ) : ℕ := (pyRound (|x| * 10 ^ 9)).toNat

/-- `'%.9f' % x`. -/
noncomputable def fixed9 (x : ℝ) : List Char :=
  (if x < 0 then ['-'] else []) ++ (natText (ninthDecimals x / 10 ^ 9) ++ '.' :: padDigits 9 (ninthDecimals x % 10 ^ 9))

/-! ## Tables -/

/-- A line of a table. -/
def csvLine : List (List Char) → List Char
  | [] => ['\n']
  | [c] => c ++ ['\n']
  | c :: l => c ++ ',' :: csvLine l

/-- The text of a table. -/
def csvText (header : List (List Char)) (rows : List (List (List Char))) : List Char := ((header :: rows).map csvLine).flatten

/-- The names of the entries of `Peak.summary_dict`, peak_detection.py 31. -/
def peakColumns : List (List Char) :=
  ["period".toList, "freq".toList, "dm".toList, "width".toList, "ducy".toList, "snr".toList]

/-- The cells of a peak, peak_detection.py 26-32. -/
noncomputable def peakCells (p : HPeak ℝ) : List (List Char) :=
  [fixed9 p.period, fixed9 p.freq, fixed9 p.dm, natText p.tag, fixed9 p.ducy, fixed9 p.snr]

/-- The columns of the table of clusters, peak_cluster.py 82. -/
def clusterColumns : List (List Char) :=
  ["rank".toList, "period".toList, "dm".toList, "snr".toList, "ducy".toList, "freq".toList, "npeaks".toList, "hfrac_num".toList,
    "hfrac_denom".toList, "fundamental_rank".toList]

/-- A rank; `None` is an empty cell (this does not occur after the flagging of harmonics). -/
def rankCell (r : Option ℕ) : List Char := (r.map natText).getD []

/-- The cells of a row of the table of clusters. -/
noncomputable def clusterCells (r : ClusterRow ℝ) : List (List Char) :=
  [rankCell r.rank, fixed9 r.period, fixed9 r.dm, fixed9 r.snr, fixed9 r.ducy, fixed9 r.freq, natText r.npeaks, intText r.hfracNum,
    intText r.hfracDenom, rankCell r.fundamentalRank]

/-! ## The directory -/

/-- A directory: the content of its files. -/
abbrev OutDir := List Char → Option (List Char)

/-- Writing a file, which replaces a file of the same name. -/
def OutDir.write (d : OutDir) (f : List Char × List Char) : OutDir := fun name => if name = f.1 then some f.2 else d name

/-- Writing several files. -/
def OutDir.writeAll (d : OutDir) (fs : List (List Char × List Char)) : OutDir := fs.foldl OutDir.write d

/-- How candidates are encoded: `save_json`, and the plot if `plot_candidates` is set. -/
structure CandCoding where
  json : PCandidate ℝ (CandObj ℝ) → List Char
  png : Option (PCandidate ℝ (CandObj ℝ) → List Char)

/-- The files of a candidate, `CandidateWriter.__call__`, lines 41-53. -/
def candidateFiles (e : CandCoding) (rank : ℕ) (c : PCandidate ℝ (CandObj ℝ)) : List (List Char × List Char) :=
  (candidateFileName rank ".json".toList, e.json c) :: (e.png.map fun f => (candidateFileName rank ".png".toList, f c)).toList

/-- Lines 345-366: the tables. -/
noncomputable def tableFiles (st : PipeState ℝ (CandObj ℝ)) : Except PyErr (List (List Char × List Char)) :=
  (if st.clusters.length = 0 then .ok [] else
    (clustersToDataframe st.heap st.clusters).map fun rows => [("clusters.csv".toList, csvText clusterColumns (rows.map clusterCells))]).map fun cl =>
  ("peaks.csv".toList, csvText peakColumns (st.peaks.map peakCells)) :: (cl ++
    (if st.candidates.length = 0 then [] else
      [("candidates.csv".toList, csvText peakColumns (st.candidates.map fun c => peakCells c.params))]))

/-- The files of all candidates, in the order of the candidates. -/
def allCandidateFiles (e : CandCoding) (st : PipeState ℝ (CandObj ℝ)) : List (List Char × List Char) :=
  (st.candidates.mapIdx (candidateFiles e)).flatten

/-- `Pipeline.save_products(outdir)`, lines 336-380, which leaves the directory `d'`: the processes of the pool write the files of the candidates in
some order. -/
def SavesProducts (e : CandCoding) (st : PipeState ℝ (CandObj ℝ)) (d d' : OutDir) : Prop :=
  if st.peaks.length = 0 then d' = d
  else ∃ tables order, tableFiles st = .ok tables ∧ order.Perm (allCandidateFiles e st) ∧ d' = (d.writeAll tables).writeAll order

end Verif.Model
