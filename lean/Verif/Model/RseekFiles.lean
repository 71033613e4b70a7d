import Verif.Model.Rseek
import Verif.Model.Products

/-!
# Model of a run of `rseek` on a file, `riptide/apps/rseek.py`: from the file to the text that is printed

Simplifications: those of `Model/Rseek.lean`, `Model/PipelineFiles.lean` and `Model/Products.lean`. `DataFrame.to_string` puts blanks in front of the cells, in
order to align them; their numbers are a parameter. Messages to the log are left out.
-/

namespace Verif.Model

/-- `|x|` in units of the `k`-th decimal, rounded to the nearest integer, ties to even. -/
noncomputable def decimalUnits (k : ℕ) (x : ℝ) : ℕ := (pyRound (|x| * 10 ^ k)).toNat

/-- `'{:.kf}'.format(x)` for `0 < k`. -/
noncomputable def fixedText (k : ℕ) (x : ℝ) : List Char :=
  (if x < 0 then ['-'] else []) ++ (natText (decimalUnits k x / 10 ^ k) ++ '.' :: padDigits k (decimalUnits k x % 10 ^ k))

/-- The cell of the DM, rseek.py 153: pandas writes `None` without calling the formatter. -/
noncomputable def dmCell : MVal → List Char
  | .num v => fixedText 2 v
  | _ => "None".toList

/-- The columns that are printed, rseek.py 157. -/
def rseekColumns : List (List Char) :=
  ["period".toList, "freq".toList, "width".toList, "ducy".toList, "dm".toList, "snr".toList]

/-- The cells of a row without the blanks in front of them, rseek.py 149-155. -/
noncomputable def rseekCells (dm : MVal) (p : Peak ℝ) : List (List Char) :=
  [fixedText 9 p.period, fixedText 9 p.freq, natText p.width, fixedText 2 (100 * p.ducy) ++ ['%'], dmCell dm, fixedText 1 p.snr]

/-- The blanks that `to_string` puts in front of the cells of a table: the number for each line and each column. -/
abbrev TableLayout := List (List (List Char)) → ℕ → ℕ → ℕ

/-- A line: the cells from column `j` on, each with `pad` blanks in front of it. -/
def spacedLine (pad : ℕ → ℕ) : ℕ → List (List Char) → List Char
  | _, [] => []
  | j, c :: cs => List.replicate (pad j) ' ' ++ c ++ spacedLine pad (j + 1) cs

/-- The lines of a table, from line `i` on, each with its end. -/
def spacedLines (pad : ℕ → ℕ → ℕ) : ℕ → List (List (List Char)) → List Char
  | _, [] => []
  | i, l :: ls => spacedLine (pad i) 0 l ++ '\n' :: spacedLines pad (i + 1) ls

/-- The line of rseek.py 130. -/
noncomputable def noPeaksText (smin : ℝ) : List Char := "No peaks found above S/N = ".toList ++ fixedText 2 smin ++ ['\n']

/-- The table of rseek.py 156-161. -/
noncomputable def tableText (layout : TableLayout) (dm : MVal) (table : List (Peak ℝ)) : List Char :=
  spacedLines (layout (rseekColumns :: table.map (rseekCells dm))) 0 (rseekColumns :: table.map (rseekCells dm))

/-- What is printed, rseek.py 129-131 and 156-161. -/
noncomputable def rseekText (layout : TableLayout) (a : RseekArgs) (dm : MVal) : Option (List (Peak ℝ)) → List Char
  | none => noPeaksText a.smin
  | some table => tableText layout dm table

/-- What a run depends on besides the disk. -/
structure RseekTools where
  idx : IdxRule
  argsort : List ℝ → List ℕ
  fit : List ℝ → List ℝ → ℝ → ℝ
  layout : TableLayout

/-- `run_program(args)`, rseek.py 84-162, for the format `fmt` and the file `fname`: what is printed and what is returned. `find_peaks` takes the DM from the
metadata, peak_detection.py 195. -/
noncomputable def rseekProgram (D : Disk) (t : RseekTools) (fmt : TsFormat) (fname : List Char) (a : RseekArgs) :
    Except PyErr (List Char × Option (List (Peak ℝ))) :=
  ((loadFile D fmt fname).bind worldOf).bind fun s =>
  (rseekRun t.idx t.argsort t.fit a s.1 s.2).bind fun out =>
  (s.1.obj s.2).bind fun o =>
  match dictGet (s.1.metaOf o) "dm" with
  | none => .error .keyError
  | some dm => .ok (rseekText t.layout a dm out, out)

end Verif.Model
