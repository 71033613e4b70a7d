import Verif.Model.Py
import Mathlib.Algebra.Order.Field.Basic
import Mathlib.Data.List.Sort

/-!
# Model of `riptide/pipeline/dmiter.py`

Simplifications: exact arithmetic in an ordered field, where `fmin`, `fmax`, `nchans` are such that no division by zero happens
(theorems assume `0 < fmin < fmax`, `nchans ≥ 1`); logging is omitted; the cap in DM from the galactic latitude is passed as a
number (lines 186-194 compute it with a sine, see `Prepare.lean`).
-/

namespace Verif.Model

variable {K : Type*} [Field K] [LinearOrder K]

/-- `KDM`, dmiter.py 12. -/
def KDM : K := 1 / (241 / 1000000)

/-- `kdisp`, dmiter.py 44. -/
def kdisp (fmin fmax : K) : K := KDM * (1 / fmin ^ 2 - 1 / fmax ^ 2)

/-- `ksmear`, dmiter.py 45-49. -/
def ksmear (fmin fmax nchans : K) : K :=
  let cw := (fmax - fmin) / nchans
  let fmid := (fmax + fmin) / 2
  KDM * (1 / (fmid - cw / 2) ^ 2 - 1 / (fmid + cw / 2) ^ 2)

/-- Entry of `radii` for a trial DM, dmiter.py 53. -/
def dmRadius (fmin fmax nchans wmin dm : K) : K := max wmin (ksmear fmin fmax nchans * dm) / kdisp fmin fmax

/-- `dm_gap(i, j)`, dmiter.py 55-56. -/
def dmGap (d : List K) (radius : K → K) (i j : ℕ) : K :=
  (d.getD j 0 - radius (d.getD j 0)) - (d.getD i 0 + radius (d.getD i 0))

/-- `largest_in_range(i)`, dmiter.py 58-62, for `i < trial_dms.size`. -/
def largestInRange (d : List K) (radius : K → K) (i : ℕ) : ℕ :=
  match (List.range' i (d.length - i)).find? (fun j => dmGap d radius i j > 0) with
  | some j => max (j - 1) (i + 1)
  | none => max (d.length - 1) (i + 1)

theorem lt_largestInRange (d : List K) (radius : K → K) (i : ℕ) : i < largestInRange d radius i := by
  unfold largestInRange
  split <;> omega

/-- The `while True` loop, dmiter.py 67-79: what is appended to `selected` from `icur = i` on. -/
def selectLoop (d : List K) (radius : K → K) (i : ℕ) : List K :=
  if _h : largestInRange d radius i < d.length then
    d.getD (largestInRange d radius i) 0 :: selectLoop d radius (largestInRange d radius i)
  else []
termination_by d.length - i
decreasing_by
  have := lt_largestInRange d radius i
  omega

/-- `select_dms(trial_dms, dm_start, dm_end, fmin, fmax, nchans, wmin)`, dmiter.py 15-80. -/
def selectDms (trialDms : List K) (dmStart dmEnd fmin fmax nchans wmin : K) : Except PyErr (List K) :=
  let d := (trialDms.filter (fun x => dmStart ≤ x ∧ x ≤ dmEnd)).mergeSort (· ≤ ·)
  if d.length = 0 then .error .valueError
  else .ok (d.getD 0 0 :: selectLoop d (dmRadius fmin fmax nchans wmin) 0)

/-- The metadata entries used by `DMIterator`: DM, file name and, for PRESTO files, `fbot`, `nchan`, `cbw`. -/
structure DmMeta (K : Type*) where
  dm : K
  fname : String
  fbot : K
  nchan : ℕ
  cbw : K

/-- `fmt`, the format of the time series files. -/
inductive TsFormat
  | presto
  | sigproc
  deriving DecidableEq

/-- `get_band_params(meta, fmt)`, dmiter.py 84-99. -/
def getBandParams (m : DmMeta K) : TsFormat → Except PyErr (K × K × ℕ)
  | .presto =>
    let ftop := m.fbot + (m.nchan : K) * m.cbw
    .ok (min m.fbot ftop, max m.fbot ftop, m.nchan)
  | .sigproc => .error .valueError

/-- `infer_band_params(metadata_list, fmt)`, dmiter.py 102-117. -/
def inferBandParams (ms : List (DmMeta K)) (fmt : TsFormat) : Except PyErr (K × K × ℕ) := do
  let params ← ms.mapM (fun m => getBandParams m fmt)
  match params with
  | [] => .error .valueError
  | p :: _ => if params.all (fun q => p = q) then .ok p else .error .runtimeError

/-- `min(...)` and `max(...)` of a sequence; python raises `ValueError` on an empty one. -/
def pyMin : List K → Except PyErr K
  | [] => .error .valueError
  | a :: l => .ok (l.foldl min a)

def pyMax : List K → Except PyErr K
  | [] => .error .valueError
  | a :: l => .ok (l.foldl max a)

/-- `DMIterator`, the attributes used after construction. -/
structure DmIter (K : Type*) where
  metadataDict : PyDict K String
  selectedDms : List K

/-- `self.dm_start`, dmiter.py 178-179. -/
def dmStartOf (ms : List (DmMeta K)) : Option K → Except PyErr K
  | some x => .ok x
  | none => pyMin (ms.map (fun m => m.dm))

/-- `self.dm_end` before the cap, dmiter.py 180-181. -/
def dmEndOf (ms : List (DmMeta K)) : Option K → Except PyErr K
  | some x => .ok x
  | none => pyMax (ms.map (fun m => m.dm))

/-- Lines 188-194: the cap on the largest DM. -/
def applyCap (cap : Option K) (dm1 : K) : K :=
  match cap with
  | some c => min dm1 c
  | none => dm1

/-- Lines 199-215: band parameters from the files, otherwise the arguments `fmin`, `fmax`, `nchans` (`none` unless all given). -/
def bandOf (ms : List (DmMeta K)) (fmt : TsFormat) (band : Option (K × K × ℕ)) : Except PyErr (K × K × ℕ) :=
  match inferBandParams ms fmt with
  | .ok b => .ok b
  | .error _ => match band with
    | some b => .ok b
    | none => .error .valueError

/-- `DMIterator.__init__`, dmiter.py 174-229. `cap` is `galactic_dm_cap`, if a cap is applied; `band` stands for the arguments
`fmin`, `fmax`, `nchans` if all are given. `get_galactic_coordnates` (line 187) indexes the first entry of the metadata list and
so raises `IndexError` if there is none, unless `min` has raised `ValueError` before; for the `RuntimeError` if the coordinates
differ and for the cap see `dmIteratorOf` in `Prepare.lean`. The dictionary of metadata is modelled as a dictionary of file names. -/
def dmIterator (ms : List (DmMeta K)) (dmStart dmEnd cap : Option K) (fmt : TsFormat) (wmin : K)
    (band : Option (K × K × ℕ)) : Except PyErr (DmIter K) :=
  (dmStartOf ms dmStart).bind fun dm0 =>
  (dmEndOf ms dmEnd).bind fun dm1 =>
  if ms.length = 0 then .error .indexError
  else
    (bandOf ms fmt band).bind fun b =>
    let metadataDict := dictOf (fun m => m.dm) (fun m => m.fname) ms
    (selectDms (metadataDict.map Prod.fst) dm0 (applyCap cap dm1) b.1 b.2.1 (b.2.2 : K) wmin).map
      fun selectedDms => { metadataDict, selectedDms }

/-- The loop of `iterate_filenames`, dmiter.py 235-243: `chunk` is the current chunk. -/
def chunkLoop {β : Type*} (chunksize : ℕ) : List β → List β → List (List β)
  | [], chunk => if chunk.length = 0 then [] else [chunk]
  | x :: l, chunk =>
    let chunk := chunk ++ [x]
    if chunk.length = chunksize then chunk :: chunkLoop chunksize l [] else chunkLoop chunksize l chunk

/-- `DMIterator.get_filename(dm)`, dmiter.py 245-246, also line 237. -/
def getFilename (it : DmIter K) (dm : K) : Except PyErr String :=
  match dictGet it.metadataDict dm with
  | some f => .ok f
  | none => .error .keyError

/-- `DMIterator.iterate_filenames(chunksize)`, dmiter.py 231-243, as the list of what is yielded. -/
def iterateFilenames (it : DmIter K) (chunksize : ℕ) : Except PyErr (List (List String)) :=
  (it.selectedDms.mapM (getFilename it)).map (fun fnames => chunkLoop chunksize fnames [])

end Verif.Model
