import Verif.Model.Dm
import Verif.Model.Ranges
import Verif.Model.WorkerConf
import Mathlib.Analysis.SpecialFunctions.Trigonometric.Basic

/-!
# Model of `Pipeline.prepare`

`riptide/pipeline/pipeline.py` 77-84 and 135-172, the remaining part of `DMIterator` (`riptide/pipeline/dmiter.py` 120-133, 186-194,
248-252). Simplifications: exact arithmetic; the metadata of the files are given, and they have a DM (without one, the
comparisons of numpy raise an error). The object `WorkerPool` is not modelled here, see `Worker.lean` and `WorkerConf.lean`.
-/

namespace Verif.Model

/-- The entries of the metadata that are read by `prepare`. `gl` and `gb` are the galactic coordinates in degrees of the entry
`skycoord`, which both formats of files have. -/
structure FileMeta extends DmMeta ℝ where
  tsamp : ℝ
  tobs : ℝ
  gl : ℝ
  gb : ℝ

/-- `get_galactic_coordnates(metadata_list)`, dmiter.py 120-133. -/
noncomputable def galacticCoordinates : List FileMeta → Except PyErr (ℝ × ℝ)
  | [] => .error .indexError
  | m :: ms => if (m :: ms).all (fun q => (q.gl, q.gb) = (m.gl, m.gb)) then .ok (m.gl, m.gb) else .error .runtimeError

/-- `galactic_dm_cap`, dmiter.py 188-189. The division by zero of numpy gives infinity, which is no cap. -/
noncomputable def galacticCap (dmsinbMax : Option ℝ) (gb : ℝ) : Option ℝ :=
  dmsinbMax.bind fun x =>
    if |Real.sin (gb * Real.pi / 180)| = 0 then none else some (x / |Real.sin (gb * Real.pi / 180)|)

/-- The arguments `fmin`, `fmax`, `nchans` if none of them is `None`, dmiter.py 209-212. -/
def bandArguments (fmin fmax : Option ℝ) (nchans : Option ℕ) : Option (ℝ × ℝ × ℕ) :=
  match fmin, fmax, nchans with
  | some a, some b, some n => some (a, b, n)
  | _, _, _ => none

/-- `DMIterator.__init__`, dmiter.py 174-229: `dmIterator` with lines 187-189. -/
noncomputable def dmIteratorOf (ms : List FileMeta) (dmStart dmEnd dmsinbMax : Option ℝ) (fmt : TsFormat) (wmin : ℝ)
    (fmin fmax : Option ℝ) (nchans : Option ℕ) : Except PyErr (DmIter ℝ) :=
  (dmStartOf (ms.map (·.toDmMeta)) dmStart).bind fun dm0 =>
  (dmEndOf (ms.map (·.toDmMeta)) dmEnd).bind fun dm1 =>
  (galacticCoordinates ms).bind fun g =>
  dmIterator (ms.map (·.toDmMeta)) (some dm0) (some dm1) (galacticCap dmsinbMax g.2) fmt wmin (bandArguments fmin fmax nchans)

/-- `DMIterator.tsamp_max()`, dmiter.py 251-252: of all files, also those that are not selected. -/
noncomputable def tsampMax (ms : List FileMeta) : Except PyErr ℝ := pyMax (ms.map (·.tsamp))

/-- The sections `data`, `dmselect`, `ranges` of the configuration. -/
structure PrepConf where
  fmt : TsFormat
  fmin : Option ℝ
  fmax : Option ℝ
  nchans : Option ℕ
  dmMin : Option ℝ
  dmMax : Option ℝ
  dmsinbMax : Option ℝ
  ranges : List (SearchRange ℝ)

/-- `Pipeline.wmin()`, pipeline.py 77-84. A validated `bins_min` is not zero. -/
noncomputable def pipelineWmin (c : PrepConf) : Except PyErr ℝ := pyMin (c.ranges.map fun r => r.pmin / r.binsMin)

/-- `Pipeline.prepare(files)`, pipeline.py 135-172, with the attribute `dmiter` as result. -/
noncomputable def prepare (c : PrepConf) (ms : List FileMeta) : Except PyErr (DmIter ℝ) :=
  (pipelineWmin c).bind fun wmin =>
  (dmIteratorOf ms c.dmMin c.dmMax c.dmsinbMax c.fmt wmin c.fmin c.fmax c.nchans).bind fun it =>
  (tsampMax ms).bind fun t =>
  (validateRanges c.ranges t).map fun _ => it

/-- An entry that may be `None`. -/
def optionalArg {β : Type*} (conv : PyVal → Except PyErr β) (d : List (String × PyVal)) (k : String) : Except PyErr (Option β) :=
  match dictGet d k with
  | some .none => .ok none
  | some v => (conv v).map some
  | none => .error .keyError

/-- `conf['data']['format']`. -/
def pyFormat : PyVal → Except PyErr TsFormat
  | .str s => if s = "presto" then .ok .presto else if s = "sigproc" then .ok .sigproc else .error .keyError
  | _ => .error .keyError

/-- The entries of a search range that are read by `wmin`, `validate_ranges` and `get_search_range`, pipeline.py 80-83 and
config_validation.py 122-125. -/
noncomputable def searchRangeOf (v : PyVal) : Except PyErr (SearchRange ℝ) :=
  (pyDict v).bind fun conf =>
  (required pyDict conf "ffa_search").bind fun s =>
  (required pyDict conf "candidates").bind fun cand =>
  (required pyReal s "period_min").bind fun pmin =>
  (required pyReal s "period_max").bind fun pmax =>
  (required pyCount s "bins_min").bind fun binsMin =>
  (required pyCount cand "bins").bind fun candBins =>
  .ok ⟨pmin, pmax, binsMin, candBins, 0⟩

/-- The arguments that `prepare` takes from the validated configuration, pipeline.py 150-160. `float(dmsinb_max)`
(dmiter.py 182) is the number itself. -/
noncomputable def prepConfOf (v : PyVal) : Except PyErr PrepConf :=
  (pyDict v).bind fun conf =>
  (required pyDict conf "data").bind fun data =>
  (required pyDict conf "dmselect").bind fun sel =>
  (required pyList conf "ranges").bind fun rs =>
  (required pyFormat data "format").bind fun fmt =>
  (optionalArg pyReal data "fmin").bind fun fmin =>
  (optionalArg pyReal data "fmax").bind fun fmax =>
  (optionalArg pyCount data "nchans").bind fun nchans =>
  (optionalArg pyReal sel "min").bind fun dmMin =>
  (optionalArg pyReal sel "max").bind fun dmMax =>
  (optionalArg pyReal sel "dmsinb_max").bind fun dmsinbMax =>
  (rs.mapM searchRangeOf).bind fun ranges =>
  .ok ⟨fmt, fmin, fmax, nchans, dmMin, dmMax, dmsinbMax, ranges⟩

end Verif.Model
