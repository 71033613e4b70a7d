import Verif.Model.Saving
import Verif.Model.RseekFiles

/-!
# Model of the figures: what `Candidate.plot` and `Periodogram.plot` draw

`riptide/candidate.py` 105-122 and 149-281, `riptide/periodogram.py` 59-88. What is drawn is a value: the cells of an image and its extent, the heights of
bars, the points of a line, the texts of a table. Colours, fonts, positions of the panels and the vertical extent of shaded areas are left out;
numbers are real numbers. `imshow` draws cell `(i, j)` in the `i`-th of equal strips from the top to the bottom of the extent and in the
`j`-th of equal strips from left to right; `bar` draws bar `j` from `j - 1/2` to `j + 1/2`.
-/

namespace Verif.Model

/-! ## Candidates -/

/-- The panel of the sub-integrations. `shade` is the shaded range of the horizontal axis. -/
structure ImagePanel where
  cells : List (List ℝ)
  left : ℝ
  right : ℝ
  bottom : ℝ
  top : ℝ
  shade : ℝ × ℝ
  xlim : ℝ × ℝ

/-- The panel of the profile. -/
structure BarPanel where
  heights : List ℝ
  shade : ℝ × ℝ
  xlim : ℝ × ℝ

/-- A line with markers. -/
structure LinePanel where
  points : List (ℝ × ℝ)
  xlim : ℝ × ℝ

/-- A line of the table: `TableEntry.plot`, candidate.py 152-164. -/
structure TableLine where
  name : List Char
  value : List Char
  unit : List Char

/-- The figure of a candidate. -/
structure CandFigure where
  subints : ImagePanel
  profile : BarPanel
  table : List TableLine
  dm : LinePanel

/-- `plot_subints(X, T)`, candidate.py 219-239. -/
noncomputable def drawSubints (T : ℝ) : NdArray → Except PyErr ImagePanel
  | .d1 _ => .error .valueError
  | .d2 rows =>
    let nbins := (rows.headD []).length
    let ext := nbins + nbins / 2
    .ok { cells := rows.map fun r => r ++ r.take (nbins / 2), left := -(1 / 2), right := ext - 1 / 2, bottom := T, top := 0,
          shade := (nbins, ext), xlim := (-(1 / 2), ext - 1 / 2) }

/-- `plot_profile(P)`, candidate.py 242-258: the median is that of the extended profile. -/
noncomputable def drawProfile (P : List ℝ) : BarPanel :=
  let nbins := P.length
  let Q := P ++ P.take (nbins / 2)
  { heights := Q.map fun x => x - npMedian Q, shade := (nbins, Q.length), xlim := (-(1 / 2), Q.length - 1 / 2) }

/-- Texts made by astropy: `coord.ra.to_string(...)`, `coord.dec.to_string(...)`; `obsdate.mjd` and `obsdate.iso`. -/
structure AstroTexts where
  ra : PyVal → List Char
  dec : PyVal → List Char
  time : PyVal → Except PyErr (ℝ × List Char)

/-- The right ascension and declination of a `SkyCoord`. -/
def skyTexts (a : AstroTexts) : PyVal → Except PyErr (List Char × List Char)
  | .sky ra dec => .ok (a.ra (.sky ra dec), a.dec (.sky ra dec))
  | _ => .error .attributeError

/-- `plot_table(params, tsmeta)`, candidate.py 167-201. -/
noncomputable def drawTable (a : AstroTexts) (p : HPeak ℝ) (md : MetaDict) : Except PyErr (List TableLine) :=
  (metaItem (skyTexts a) md "skycoord").bind fun c =>
  (metaItem a.time md "mjd").bind fun t =>
  (metaItem pyStr md "source_name").map fun source =>
  [ ⟨"Period".toList, fixedText 6 (p.period * 1000), "ms".toList⟩,
    ⟨"DM".toList, fixedText 2 p.dm, "pc cm$^{-3}$".toList⟩,
    ⟨"Width".toList, natText p.tag, "bins".toList⟩,
    ⟨"Duty cycle".toList, fixedText 2 (p.ducy * 100), "%".toList⟩,
    ⟨"S/N".toList, fixedText 1 p.snr, []⟩,
    ⟨[], [], []⟩,
    ⟨"Source".toList, source.toList, []⟩,
    ⟨"RA".toList, c.1, []⟩,
    ⟨"Dec".toList, c.2, []⟩,
    ⟨"MJD".toList, fixedText 6 t.1, []⟩,
    ⟨"UTC".toList, t.2, []⟩ ]

open Classical in
/-- `plot_dm_curve(dm, snr)`, candidate.py 204-216. -/
noncomputable def drawDmCurve : List (ℝ × ℝ) → Except PyErr LinePanel
  | [] => .error .valueError
  | q :: l =>
    let lo := (l.map Prod.fst).foldl min q.1
    let hi := (l.map Prod.fst).foldl max q.1
    .ok { points := q :: l, xlim := if lo = hi then (lo - 1 / 2, lo + 1 / 2) else (lo, hi) }

/-- `plot_candidate(cand)`, candidate.py 261-281. -/
noncomputable def drawCandidate (a : AstroTexts) (md : MetaDict) (x : CandObj ℝ) : Except PyErr CandFigure :=
  (metaItem pyReal md "tobs").bind fun T =>
  (drawSubints T x.subints).bind fun s =>
  (drawTable a x.params md).bind fun t =>
  (drawDmCurve x.dmCurve).map fun d => { subints := s, profile := drawProfile x.profile, table := t, dm := d }

/-! ## Periodograms -/

/-- The position that an index of an axis of length `n` means in numpy. -/
def npIndex (n : ℕ) (i : ℤ) : Except PyErr ℕ :=
  if 0 ≤ i ∧ i < n then .ok i.toNat
  else if i < 0 ∧ -(n : ℤ) ≤ i then .ok (n + i).toNat
  else .error .indexError

/-- `max` of a row; an error for an empty one. -/
noncomputable def rowMax : List ℝ → Except PyErr ℝ
  | [] => .error .valueError
  | v :: l => .ok (l.foldl max v)

/-- The values that `Periodogram.plot(iwidth)` draws, periodogram.py 69-72. -/
noncomputable def plotSnrs (g : Pgram ℝ) : Option ℤ → Except PyErr (List ℝ)
  | none => g.snrs.mapM rowMax
  | some i => (npIndex g.widths.length i).map fun k => g.snrs.map fun row => row.getD k 0

/-- The title, periodogram.py 79-83. -/
def plotTitle (g : Pgram ℝ) : Option ℤ → Except PyErr (List Char)
  | none => .ok "Best S/N at any trial width".toList
  | some i => (npIndex g.widths.length i).map fun k => "S/N at trial width = ".toList ++ natText (g.widths.getD k 0)

/-- `periods.min(), periods.max()`, periodogram.py 75. -/
noncomputable def periodLimits : List ℝ → Except PyErr (ℝ × ℝ)
  | [] => .error .valueError
  | p :: l => .ok (l.foldl min p, l.foldl max p)

/-- `Periodogram.plot(iwidth)`, periodogram.py 59-88. -/
noncomputable def drawPeriodogram (g : Pgram ℝ) (iwidth : Option ℤ) : Except PyErr (LinePanel × List Char) :=
  (plotSnrs g iwidth).bind fun snr =>
  (periodLimits g.periods).bind fun lim =>
  (plotTitle g iwidth).map fun title => ({ points := g.periods.zip snr, xlim := lim }, title)

end Verif.Model
