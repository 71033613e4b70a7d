import Verif.Model.Py
import Mathlib.Algebra.Order.Field.Basic
import Mathlib.Algebra.Order.Group.Abs
import Mathlib.Algebra.Order.Floor.Semiring
import Mathlib.Data.List.Sort

/-!
# Model of `riptide/clustering.py`, `riptide/peak_detection.py` and the clustering part of `riptide/apps/rseek.py`

Simplifications: exact arithmetic in an ordered field; `numpy.argsort` is any function that returns a sorting permutation
(numpy does not say in which order it leaves equal elements); the polynomial fit (`numpy.polyfit`, `poly1d`, `log`) is any
function from the control points to a threshold as a function of frequency; no NaN.
-/

namespace Verif.Model

variable {K : Type*} [Field K] [LinearOrder K]

/-- What is known about `x.argsort()`: a permutation of the indices that sorts `x`. -/
def IsArgsort (argsort : List K → List ℕ) : Prop :=
  ∀ x, (argsort x).Perm (List.range x.length) ∧ ((argsort x).map (fun i => x.getD i 0)).Pairwise (· ≤ ·)

/-- `numpy.diff`. -/
def diff (x : List K) : List K := List.zipWith (fun a b => b - a) x x.tail

/-- `cluster1d(x, r, already_sorted)`, clustering.py 4-51. -/
def cluster1d (argsort : List K → List ℕ) (x : List K) (r : K) (alreadySorted : Bool) : List (List ℕ) :=
  if x.length = 0 then []
  else
    let indices := if alreadySorted then List.range x.length else argsort x
    let d := if alreadySorted then diff x else diff (indices.map (fun i => x.getD i 0))
    let ibreaks := (List.range d.length).filter (fun i => |d.getD i 0| > r)
    if ibreaks.length = 0 then [indices]
    else
      let ibounds := [0] ++ ibreaks.map (· + 1) ++ [x.length]
      (ibounds.dropLast.zip ibounds.tail).map (fun b => (indices.drop b.1).take (b.2 - b.1))

/-- `numpy.percentile(x, q)` for non-empty `x`, linear interpolation between order statistics. -/
def percentile [FloorSemiring K] (x : List K) (q : K) : K :=
  let s := x.mergeSort (· ≤ ·)
  let v := ((x.length : K) - 1) * q / 100
  let i := ⌊v⌋₊
  s.getD i 0 + (v - i) * (s.getD (i + 1) 0 - s.getD i 0)

/-- Row `i` of `x.reshape(m, p)`. -/
def reshapeRow (p : ℕ) (x : List K) (i : ℕ) : List K := (x.drop (i * p)).take p

/-- `segment_stats(f, s, T, segwidth)`, peak_detection.py 37-84. Simplification: the result of numpy on segments without
elements (`p = 0`) depends on the numpy version; for `segwidth < 0` the model gives another type of error. -/
def segmentStats [FloorSemiring K] (f s : List K) (T segwidth : K) : Except PyErr (List K × List K × List K) :=
  if T = 0 then .error .zeroDivisionError
  else
    let w := segwidth / T
    match f.head?, f.getLast? with
    | some f0, some f1 =>
      if w = 0 then .error .overflowError
      else
        let m := ⌈|f1 - f0| / w⌉₊
        if m = 0 then .error .zeroDivisionError
        else
          let p := f.length / m
          if p = 0 then .error .unspecified
          else
            let n := m * p
            let f := f.take n
            let s := s.take n
            let fc := (List.range m).map (fun i => percentile (reshapeRow p f i) 50)
            let s25 := (List.range m).map (fun i => percentile (reshapeRow p s i) 25)
            let smed := (List.range m).map (fun i => percentile (reshapeRow p s i) 50)
            let s75 := (List.range m).map (fun i => percentile (reshapeRow p s i) 75)
            .ok (fc, smed, List.zipWith (fun a b => (a - b) / (1349 / 1000)) s75 s25)
    | _, _ => .error .indexError

/-- `x.argmax()` for non-empty `x`: the position of the first maximum. -/
def argmaxAux : List K → ℕ → K → ℕ → ℕ
  | [], _, _, best => best
  | a :: l, i, v, best => if v < a then argmaxAux l (i + 1) a i else argmaxAux l (i + 1) v best

def argmax : List K → ℕ
  | [] => 0
  | a :: l => argmaxAux l 1 a 0

/-- The optional parameters of the peak search. -/
structure PeakParams (K : Type*) where
  smin : K
  segwidth : K
  nstd : K
  minseg : ℕ
  clrad : K

/-- Dynamic threshold of `find_peaks_single`, peak_detection.py 118-130. `fit` stands for `fit_threshold` with
`poly(log(f))` (lines 87-108, 124, 131). -/
def dynThreshold [FloorSemiring K] (fit : List K → List K → K → K) (p : PeakParams K) (f s : List K) (T : K) :
    Except PyErr (K → K) :=
  (segmentStats f s T p.segwidth).map fun (fc, smed, sstd) =>
    let sc := List.zipWith (fun a b => a + p.nstd * b) smed sstd
    if fc.length ≥ p.minseg then fit fc sc else fun _ => p.smin

/-- Second half of `find_peaks_single`, peak_detection.py 131-142, for a given dynamic threshold. -/
def selectPeaks (argsort : List K → List ℕ) (thr : K → K) (smin radius : K) (f s : List K) : List ℕ :=
  let indices := (List.range f.length).filter (fun i => s.getD i 0 > thr (f.getD i 0) ∧ s.getD i 0 > smin)
  let fsel := indices.map (fun i => f.getD i 0)
  (cluster1d argsort fsel radius false).map fun cl =>
    let ix := cl.map (fun k => indices.getD k 0)
    ix.getD (argmax (ix.map (fun i => s.getD i 0))) 0

/-- `find_peaks_single(f, s, T, ...)`, peak_detection.py 111-142; the polynomial coefficients are not returned. -/
def findPeaksSingle [FloorSemiring K] (argsort : List K → List ℕ) (fit : List K → List K → K → K) (p : PeakParams K)
    (f s : List K) (T : K) : Except PyErr (List ℕ) :=
  (dynThreshold fit p f s T).map fun thr => selectPeaks argsort thr p.smin (p.clrad / T) f s

/-- `Peak`, peak_detection.py 14-34 (`dm` omitted: copied from the metadata). -/
structure Peak (K : Type*) where
  period : K
  freq : K
  width : ℕ
  ducy : K
  iw : ℕ
  ip : ℕ
  snr : K

/-- `Periodogram`, periodogram.py 9-44. -/
structure Pgram (K : Type*) where
  widths : List ℕ
  periods : List K
  foldbins : List ℕ
  snrs : List (List K)
  tobs : K

/-- `Periodogram.freqs`, periodogram.py 36-39. -/
def Pgram.freqs (g : Pgram K) : List K := g.periods.map (fun p => 1 / p)

/-- `pgram.snrs[:, iw]`. -/
def Pgram.column (g : Pgram K) (iw : ℕ) : List K := g.snrs.map (fun row => row.getD iw 0)

/-- `sorted(peaks, key=lambda p: p.snr, reverse=True)` (stable). -/
def sortPeaks (l : List (Peak K)) : List (Peak K) := l.mergeSort (fun a b => b.snr ≤ a.snr)

/-- The peaks of width trial `iw`, peak_detection.py 200-218. -/
def peaksOfWidth [FloorSemiring K] (argsort : List K → List ℕ) (fit : List K → List K → K → K) (p : PeakParams K)
    (g : Pgram K) (iw width : ℕ) : Except PyErr (List (Peak K)) :=
  let s := g.column iw
  (findPeaksSingle argsort fit p g.freqs s g.tobs).map fun ips =>
    ips.map fun ip =>
      let freq := g.freqs.getD ip 0
      { freq, period := 1 / freq, width, ducy := (width : K) / (g.foldbins.getD ip 0 : ℕ), iw, ip, snr := s.getD ip 0 }

/-- `find_peaks(pgram, ...)`, peak_detection.py 145-222; the polynomial coefficients are not returned. -/
def findPeaks [FloorSemiring K] (argsort : List K → List ℕ) (fit : List K → List K → K → K) (p : PeakParams K)
    (g : Pgram K) : Except PyErr (List (Peak K)) :=
  (g.widths.zipIdx.mapM fun (width, iw) => peaksOfWidth argsort fit p g iw width).map
    fun (ls : List (List (Peak K))) => sortPeaks ls.flatten

/-- `max(l, key=lambda p: p.snr)`: the first maximum. -/
def maxPeak : List (Peak K) → Option (Peak K)
  | [] => none
  | a :: l => some (l.foldl (fun m b => if m.snr < b.snr then b else m) a)

/-- The table printed by `rseek`, rseek.py 135-141; `radius` is `clrad / length`. -/
def rseekTable (argsort : List K → List ℕ) (peaks : List (Peak K)) (radius : K) : List (Peak K) :=
  let freqs := peaks.map (fun p => p.freq)
  let best := (cluster1d argsort freqs radius false).filterMap
    (fun indices => maxPeak (indices.filterMap (fun ii => peaks[ii]?)))
  sortPeaks best

end Verif.Model
