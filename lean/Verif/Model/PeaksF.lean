import Verif.Model.Peaks
import Verif.Model.PeriodogramF

/-!
# Model of `riptide/clustering.py`, `riptide/peak_detection.py` and the clustering part of `riptide/apps/rseek.py` in double precision

Where `Model/Peaks.lean` computes with the numbers of an ordered field, here frequencies, periods and duty cycles are `double`s, and every operation
on them is the exact operation followed by the rounding `A.fl`. The S/N values are single precision numbers, which the
conversion to double precision (`astype(float)`, peak_detection.py 202) does not change; they are compared, never computed with, except for
the control points of the threshold.

Simplifications: rounding is symmetric, i.e. the absolute value of a rounded difference is the rounded distance; no overflow, no NaN; the values of the fitted
polynomial at the trial frequencies (peak_detection.py 87-108, 119-124, 130, made of `numpy.percentile`, `numpy.log`, `numpy.polyfit` and `poly1d`) are arbitrary, one for
each width trial and period trial, so that no assumption is made about how they are rounded.
-/

namespace Verif.Model

/-- `cluster1d(x, r, already_sorted)`, clustering.py 4-51, with rounded differences. -/
def DArith.cluster1d (A : DArith) (argsort : List ℚ → List ℕ) (x : List ℚ) (r : ℚ) (alreadySorted : Bool) : List (List ℕ) :=
  if x.length = 0 then []
  else
    let indices := if alreadySorted then List.range x.length else argsort x
    let d := if alreadySorted then diff x else diff (indices.map (fun i => x.getD i 0))
    let ibreaks := (List.range d.length).filter (fun i => A.fl |d.getD i 0| > r)
    if ibreaks.length = 0 then [indices]
    else
      let ibounds := [0] ++ ibreaks.map (· + 1) ++ [x.length]
      (ibounds.dropLast.zip ibounds.tail).map (fun b => (indices.drop b.1).take (b.2 - b.1))

/-- `Periodogram`, periodogram.py 9-44: periods in double precision, S/N values. -/
structure PgramF where
  widths : List ℕ
  periods : List ℚ
  foldbins : List ℕ
  snrs : List (List ℝ)
  tobs : ℚ

/-- `Periodogram.freqs`, periodogram.py 36-39. -/
def PgramF.freqs (A : DArith) (g : PgramF) : List ℚ := g.periods.map (fun p => A.fl (1 / p))

/-- `pgram.snrs[:, iw].astype(float)`, peak_detection.py 202. -/
def PgramF.column (g : PgramF) (iw : ℕ) : List ℝ := g.snrs.map (fun row => row.getD iw 0)

/-- The optional parameters of the peak search. `nstd` and `polydeg` only affect the values of the fitted polynomial. -/
structure PeakParamsF where
  smin : ℝ
  segwidth : ℚ
  minseg : ℕ
  clrad : ℚ

/-- The number of segments of `segment_stats(f, s, T, segwidth)`, peak_detection.py 66-84. Simplification: as in `segmentStats`. -/
def DArith.segments (A : DArith) (f : List ℚ) (T segwidth : ℚ) : Except PyErr ℕ :=
  if T = 0 then .error .zeroDivisionError
  else
    let w := A.fl (segwidth / T)
    match f.head?, f.getLast? with
    | some f0, some f1 =>
      if w = 0 then .error .overflowError
      else
        let m := ⌈A.fl (A.fl |f1 - f0| / w)⌉₊
        if m = 0 then .error .zeroDivisionError
        else if f.length / m = 0 then .error .unspecified
        else .ok m
    | _, _ => .error .indexError

open Classical in
/-- Second half of `find_peaks_single`, peak_detection.py 130-142, for given values of the dynamic threshold. -/
noncomputable def DArith.selectPeaks (A : DArith) (argsort : List ℚ → List ℕ) (thr : ℕ → ℝ) (smin : ℝ) (radius : ℚ) (f : List ℚ) (s : List ℝ) :
    List ℕ :=
  let indices := (List.range f.length).filter (fun i => s.getD i 0 > thr i ∧ s.getD i 0 > smin)
  let fsel := indices.map (fun i => f.getD i 0)
  (A.cluster1d argsort fsel radius false).map fun cl =>
    let ix := cl.map (fun k => indices.getD k 0)
    ix.getD (argmax (ix.map (fun i => s.getD i 0))) 0

/-- `find_peaks_single(f, s, T, ...)`, peak_detection.py 111-142. `poly i` is the value of the fitted polynomial at trial `i`. The polynomial `[smin]` has the value
`smin` everywhere, without rounding error. -/
noncomputable def DArith.findPeaksSingle (A : DArith) (argsort : List ℚ → List ℕ) (poly : ℕ → ℝ) (p : PeakParamsF) (f : List ℚ) (s : List ℝ) (T : ℚ) :
    Except PyErr (List ℕ) :=
  (A.segments f T p.segwidth).map fun m =>
    A.selectPeaks argsort (if m ≥ p.minseg then poly else fun _ => p.smin) p.smin (A.fl (p.clrad / T)) f s

/-- `Peak`, peak_detection.py 14-34 (`dm` omitted: copied from the metadata). -/
structure PeakF where
  period : ℚ
  freq : ℚ
  width : ℕ
  ducy : ℚ
  iw : ℕ
  ip : ℕ
  snr : ℝ

open Classical in
/-- `sorted(peaks, key=lambda p: p.snr, reverse=True)` (stable). -/
noncomputable def sortPeaksF (l : List PeakF) : List PeakF := l.mergeSort (fun a b => b.snr ≤ a.snr)

/-- The peaks of width trial `iw`, peak_detection.py 200-218. -/
noncomputable def DArith.peaksOfWidth (A : DArith) (argsort : List ℚ → List ℕ) (poly : ℕ → ℝ) (p : PeakParamsF) (g : PgramF) (iw width : ℕ) :
    Except PyErr (List PeakF) :=
  let f := g.freqs A
  let s := g.column iw
  (A.findPeaksSingle argsort poly p f s g.tobs).map fun ips =>
    ips.map fun ip =>
      let freq := f.getD ip 0
      { freq, period := A.fl (1 / freq), width, ducy := A.fl ((width : ℚ) / (g.foldbins.getD ip 0 : ℕ)), iw, ip, snr := s.getD ip 0 }

/-- `find_peaks(pgram, ...)`, peak_detection.py 145-222; the polynomial coefficients are not returned. -/
noncomputable def DArith.findPeaks (A : DArith) (argsort : List ℚ → List ℕ) (poly : ℕ → ℕ → ℝ) (p : PeakParamsF) (g : PgramF) :
    Except PyErr (List PeakF) :=
  (g.widths.zipIdx.mapM fun (width, iw) => A.peaksOfWidth argsort (poly iw) p g iw width).map
    fun (ls : List (List PeakF)) => sortPeaksF ls.flatten

open Classical in
/-- `max(l, key=lambda p: p.snr)`: the first maximum. -/
noncomputable def maxPeakF : List PeakF → Option PeakF
  | [] => none
  | a :: l => some (l.foldl (fun m b => if m.snr < b.snr then b else m) a)

/-- The table printed by `rseek`, rseek.py 133-141; `length` is `ts.length`. -/
noncomputable def DArith.rseekTable (A : DArith) (argsort : List ℚ → List ℕ) (peaks : List PeakF) (clrad length : ℚ) : List PeakF :=
  let freqs := peaks.map (fun p => p.freq)
  let best := (A.cluster1d argsort freqs (A.fl (clrad / length)) false).filterMap
    (fun indices => maxPeakF (indices.filterMap (fun ii => peaks[ii]?)))
  sortPeaksF best

open Classical in
/-- `Pipeline.search` line 187: `sorted(peaks, key=lambda p: p.period)`. -/
noncomputable def sortByPeriodF (l : List PeakF) : List PeakF := l.mergeSort (fun a b => a.period ≤ b.period)

/-- `Pipeline.cluster_peaks`, pipeline.py 192-215: the peaks of each cluster, in double precision. `tmed` is `dmiter.tobs_median()`. -/
def DArith.clusterPeaks (A : DArith) (argsort : List ℚ → List ℕ) (peaks : List PeakF) (radius tmed : ℚ) : Except PyErr (List (List PeakF)) :=
  if peaks.length = 0 then .ok []
  else if tmed = 0 then .error .zeroDivisionError
  else .ok ((A.cluster1d argsort (peaks.map (fun p => p.freq)) (A.fl (radius / tmed)) true).map (fun ids => ids.filterMap (fun i => peaks[i]?)))

end Verif.Model
