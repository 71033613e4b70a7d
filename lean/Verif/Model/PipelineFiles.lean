import Verif.Model.PipelineConf
import Verif.Model.Presto

/-!
# Model of a run of the pipeline on files

`riptide/pipeline/dmiter.py` 168-177: the metadata of the files given to `Pipeline.process`; `riptide/pipeline/worker_pool.py` 24-27 and
`riptide/pipeline/pipeline.py` 311: loading the time series of a file. Simplifications: metadata that are missing or have a wrong type
are an error when they are loaded (in python, when they are used first, which is in `DMIterator.__init__` as well); samples
that are not finite are left out.
-/

namespace Verif.Model

/-- Files, symbolic links and coordinates: the content of a file as text and as bytes; `os.path.realpath`; `SkyCoord(raj, decj, unit=...)`; the
galactic coordinates of a `SkyCoord`, in degrees. -/
structure Disk where
  text : List Char → Option (List Char)
  bytes : List Char → Option (List UInt8)
  realpath : List Char → List Char
  parseSky : PyVal → PyVal → Except PyErr (PyFloat × PyFloat)
  galactic : PyVal → ℝ × ℝ

/-- The number denoted by the 32 bits of a C `float`. -/
def decodeFloat (bits : ℕ) : PyFloat :=
  let negative := decide (bits / 2 ^ 31 % 2 = 1)
  let e : ℕ := bits / 2 ^ 23 % 2 ^ 8
  let m : ℕ := bits % 2 ^ 23
  if e = 255 then (if m = 0 then .inf negative else .nan)
  else
    let a : ℚ := if e = 0 then (m : ℚ) / 2 ^ 149 else ((2 ^ 23 + m : ℕ) : ℚ) * 2 ^ e / 2 ^ 150
    .fin (if negative then -a else a)

/-- A sample as a number. -/
noncomputable def sampleReal : RawSample → Except PyErr ℝ
  | .int8 i => .ok i
  | .float32 b => match decodeFloat b with
    | .fin q => .ok q
    | _ => .error .unspecified

/-- The metadata loader of a format, dmiter.py 168-171: `Metadata.from_sigproc(fname)` and `Metadata.from_presto_inf(fname)`. -/
def loadMeta (D : Disk) : TsFormat → List Char → Except PyErr MetaDict
  | .presto, fname => match D.text fname with
    | none => .error .fileNotFoundError
    | some text => (inf2dict text).bind fun inf => metadataFromPresto D.parseSky inf (D.realpath (D.realpath fname))
  | .sigproc, fname => match D.bytes fname with
    | none => .error .fileNotFoundError
    | some f => (sigHeader f []).bind fun h => metadataFromSigproc h (String.ofList (D.realpath fname))

/-- `md[key]` where it must exist. -/
def metaItem {β : Type*} (conv : PyVal → Except PyErr β) (md : MetaDict) (key : String) : Except PyErr β :=
  match dictGet md (.str key) with
  | some v => conv v
  | none => .error .keyError

/-- A `str`. -/
def pyStr : PyVal → Except PyErr String
  | .str s => .ok s
  | _ => .error .typeError

/-- The attributes `l` and `b` of `coord.galactic`, dmiter.py 126-128. -/
def pyGalactic (D : Disk) : PyVal → Except PyErr (ℝ × ℝ)
  | .sky ra dec => .ok (D.galactic (.sky ra dec))
  | _ => .error .attributeError

/-- The band of `get_band_params`, dmiter.py 89-92; nothing is read for SIGPROC files. -/
noncomputable def metaBand (md : MetaDict) : TsFormat → Except PyErr (ℝ × ℕ × ℝ)
  | .presto => (metaItem pyReal md "fbot").bind fun fbot => (metaItem pyCount md "nchan").bind fun nchan =>
    (metaItem pyReal md "cbw").map fun cbw => (fbot, nchan, cbw)
  | .sigproc => .ok (0, 0, 0)

/-- What `DMIterator` reads from the metadata of a file. -/
noncomputable def fileMetaOf (D : Disk) (fmt : TsFormat) (md : MetaDict) : Except PyErr FileMeta :=
  (metaItem pyReal md "dm").bind fun dm =>
  (metaItem (pyGalactic D) md "skycoord").bind fun g =>
  (metaBand md fmt).bind fun b =>
  (metaItem pyStr md "fname").bind fun fname =>
  (metaItem pyReal md "tobs").bind fun tobs =>
  (metaItem pyReal md "tsamp").map fun tsamp =>
  { dm, fname, fbot := b.1, nchan := b.2.1, cbw := b.2.2, tsamp, tobs, gl := g.1, gb := g.2 }

/-- An entry of the metadata in the model of `TimeSeries`. -/
noncomputable def metaVal : PyVal → MVal
  | .none => .none
  | .float (.fin q) => .num q
  | .int i => .num i
  | _ => .other 0

/-- The metadata in the model of `TimeSeries`. -/
noncomputable def metaVals (md : MetaDict) : PyDict String MVal :=
  md.filterMap fun kv => match kv.1 with
    | .str k => some (k, metaVal kv.2)
    | .nonStr _ => none

/-- A loaded series as the only object of a heap. -/
noncomputable def worldOf (s : LoadedSeries) : Except PyErr (World × ℕ) :=
  (s.samples.mapM sampleReal).bind fun x =>
  (pyReal (.float s.tsamp)).map fun t => (⟨[x], [metaVals s.metadata], [⟨0, t, 0⟩]⟩, 0)

/-- The time series loader of a format, worker_pool.py 24-27: `TimeSeries.from_sigproc(fname)` and `TimeSeries.from_presto_inf(fname)`. -/
def loadFile (D : Disk) : TsFormat → List Char → Except PyErr LoadedSeries
  | .presto, fname => match D.text fname with
    | none => .error .fileNotFoundError
    | some text => timeSeriesFromPresto D.parseSky D.bytes text (D.realpath fname)
  | .sigproc, fname => match D.bytes fname with
    | none => .error .fileNotFoundError
    | some f => timeSeriesFromSigproc f [] (String.ofList (D.realpath fname))

/-- The loader of the files in a run. -/
noncomputable def diskLoader (D : Disk) (fmt : TsFormat) (fname : String) : Except PyErr (World × ℕ) :=
  (loadFile D fmt fname.toList).bind worldOf

/-- What the files stand for, dmiter.py 176-177. -/
noncomputable def loadMetas (D : Disk) (fmt : TsFormat) (fnames : List (List Char)) : Except PyErr (List FileMeta) :=
  fnames.mapM fun f => (loadMeta D fmt f).bind (fileMetaOf D fmt)

/-- `Pipeline(conf).process(fnames)` up to `save_products`. -/
noncomputable def pipelineFiles (D : Disk) (t : PipeTools) (conf : PyVal) (fnames : List (List Char)) (s : PoolSchedule) :
    Except PyErr (PipeState ℝ (CandObj ℝ)) :=
  (validatePipelineConfig conf).bind fun v =>
  (runConfOf v).bind fun c =>
  (loadMetas D c.1.prep.fmt fnames).bind fun ms =>
  pipelineRun { t with loader := diskLoader D c.1.prep.fmt } conf ms s

end Verif.Model
