import Verif.Model.Yaml
import Verif.Model.Saving

/-!
# Model of the program `rffa`

`riptide/pipeline/pipeline.py` 411-500: `get_parser` and `run_program`, from the files on the disk to the files on the disk. Simplifications: the
arguments are given as the values of the options, `--version` and `--help` are left out; reading a text never fails to decode; the
directory of the products can be written to; other programs do not use the files; the log file has one content while the input files are read.
-/

namespace Verif.Model

/-- What does not change during a run: `os.path.realpath`, `os.path.isdir`, `os.path.join`, the directory in which the program was started; the error that
opening a file for writing raises, if any; how texts are stored; PyYAML's parser; astropy's coordinates; the texts that the logger can have written to
a file. -/
structure Host where
  realpath : List Char → List Char
  isDir : List Char → Bool
  join : List Char → List Char → List Char
  cwd : List Char
  openError : List Char → Option PyErr
  encode : List Char → List UInt8
  decode : List UInt8 → List Char
  parseYaml : List Char → Except PyErr YamlNode
  parseSky : PyVal → PyVal → Except PyErr (PyFloat × PyFloat)
  galactic : PyVal → ℝ × ℝ
  logText : List UInt8 → Prop

/-- The files of the machine: the content of each, by its real path. -/
abbrev Files := List Char → Option (List UInt8)

/-- `open(path, 'w')` and writing: the content of the file is replaced. -/
def Files.put (H : Host) (F : Files) (path : List Char) (content : List UInt8) : Files :=
  fun p => if p = H.realpath path then some content else F p

/-- What the readers of `Model/PipelineFiles.lean` see. -/
def diskOf (H : Host) (F : Files) : Disk where
  text p := (F (H.realpath p)).map H.decode
  bytes p := F (H.realpath p)
  realpath := H.realpath
  parseSky := H.parseSky
  galactic := H.galactic

/-- The values of the options, `none` if not given; pipeline.py 424-460. -/
structure RffaArgs where
  config : Option (List Char)
  outdir : Option (List Char)
  logfile : Option (List Char)
  logLevel : Option (List Char)
  logTimings : Bool
  files : List (List Char)

/-- How a run of the program ends: with a usage error (exit status 2), an exception or normally. -/
inductive RffaEnd
  | usage
  | raised (e : PyErr)
  | done
  deriving DecidableEq

/-- `parser.parse_args()`, pipeline.py 411-461: the configuration file, the output directory and the input files. The default of `--outdir` is a string and
is checked as well. -/
def rffaParse (H : Host) (a : RffaArgs) : Option (List Char × List Char × List (List Char)) :=
  match a.config with
  | none => none
  | some config =>
    if H.isDir (a.outdir.getD H.cwd) ∧ a.logLevel.getD "DEBUG".toList ∈ ["DEBUG".toList, "INFO".toList, "WARNING".toList] ∧ a.files ≠ [] then
      some (config, a.outdir.getD H.cwd, a.files)
    else none

/-- `if args.logfile`, pipeline.py 480: also the empty name means that there is none. -/
def RffaArgs.log (a : RffaArgs) : Option (List Char) :=
  match a.logfile with
  | some (c :: l) => some (c :: l)
  | _ => none

/-- `logging.FileHandler(args.logfile, mode='w')`, pipeline.py 481. -/
def openLog (H : Host) (F : Files) (a : RffaArgs) : Except PyErr Files :=
  match a.log with
  | none => .ok F
  | some l =>
    match H.openError l with
    | some e => .error e
    | none => .ok (F.put H l [])

/-- The files when the log file has the given content. -/
def withLog (H : Host) (F : Files) (a : RffaArgs) (content : List UInt8) : Files :=
  match a.log with
  | none => F
  | some l => F.put H l content

/-- `json.dumps(conf)` of `from_yaml_config`, pipeline.py 396-401, raises `TypeError` for objects that it does not know. -/
def jsonChecked (conf : PyVal) : Except PyErr PyVal := if jsonPlain conf then .ok conf else .error .typeError

/-- `Pipeline.from_yaml_config(fname)`, pipeline.py 396-402, before the validation, which is the first step of `pipelineFiles`. -/
def readConfig (H : Host) (F : Files) (fname : List Char) : Except PyErr PyVal :=
  match F (H.realpath fname) with
  | none => .error .fileNotFoundError
  | some bytes => (H.parseYaml (H.decode bytes)).bind fun node => node.construct.bind jsonChecked

/-- `bool` of an entry of a validated configuration. -/
def asBool : PyVal → Except PyErr Bool
  | .bool b => .ok b
  | _ => .error .typeError

/-- `self.config['processes']` and `self.config['plot_candidates']`, pipeline.py 370-371. -/
noncomputable def saveConfOf (conf : PyVal) : Except PyErr (ℕ × Bool) :=
  (validatePipelineConfig conf).bind fun v =>
  (pyDict v).bind fun d =>
  (required pyCount d "processes").bind fun n =>
  (required asBool d "plot_candidates").map fun b => (n, b)

/-- How candidates are stored: `save_json` and `savefig`. -/
structure CandOutput where
  json : PCandidate ℝ (CandObj ℝ) → List Char
  png : PCandidate ℝ (CandObj ℝ) → Except PyErr (List Char)

/-- Writing files of a directory one after the other. -/
def Files.putAll (H : Host) (outdir : List Char) (F : Files) (fs : List (List Char × List Char)) : Files :=
  fs.foldl (fun F f => F.put H (H.join outdir f.1) (H.encode f.2)) F

/-- `Pipeline.save_products(outdir)`, lines 336-380, as in `SavesPlots`, with the directory as a part of the machine. -/
def SavesTo (H : Host) (outdir : List Char) (o : CandOutput) (processes : ℕ) (plot : Bool) (st : PipeState ℝ (CandObj ℝ)) (F F' : Files)
    (res : Except PyErr Unit) : Prop :=
  let png := if plot then some o.png else none
  if st.peaks.length = 0 then F' = F ∧ res = .ok ()
  else ∃ tables order, tableFiles st = .ok tables ∧ order.Perm ((writerRuns o.json png processes st.candidates).map Prod.fst).flatten ∧
    F' = (F.putAll H outdir tables).putAll H outdir order ∧
    ((res = .ok () ∧ ∀ r ∈ writerRuns o.json png processes st.candidates, r.2 = none) ∨
      ∃ e, res = .error e ∧ ∃ r ∈ writerRuns o.json png processes st.candidates, r.2 = some e)

/-- How the program ends if saving returns or raises `res`. -/
def endOf : Except PyErr Unit → RffaEnd
  | .ok _ => .done
  | .error e => .raised e

/-- `run_program` after the log file has been opened, lines 483-500; `F` are the files at that time. `t0`, `t1` and `t2` are the content of the log file
when the configuration is read (line 397 comes before), when the input files are read, and in the end. -/
def RffaBody (H : Host) (t : PipeTools) (o : CandOutput) (s : PoolSchedule) (a : RffaArgs) (config outdir : List Char) (files : List (List Char))
    (F F' : Files) (out : RffaEnd) : Prop :=
  ∃ t0 t1 t2, H.logText t0 ∧ H.logText t1 ∧ H.logText t2 ∧
    match readConfig H (withLog H F a t0) config with
    | .error e => out = .raised e ∧ F' = withLog H F a t2
    | .ok conf =>
      match pipelineFiles (diskOf H (withLog H F a t1)) t conf files s with
      | .error e => out = .raised e ∧ F' = withLog H F a t2
      | .ok st => ∃ n plot F1 res, saveConfOf conf = .ok (n, plot) ∧ SavesTo H outdir o n plot st F F1 res ∧ F' = withLog H F1 a t2 ∧ out = endOf res

/-- A run of the program with the arguments `a`, which finds the files `F`, leaves `F'` and ends with `out`. -/
def RffaRuns (H : Host) (t : PipeTools) (o : CandOutput) (s : PoolSchedule) (a : RffaArgs) (F F' : Files) (out : RffaEnd) : Prop :=
  match rffaParse H a with
  | none => out = .usage ∧ F' = F
  | some (config, outdir, files) =>
    match openLog H F a with
    | .error e => out = .raised e ∧ F' = F
    | .ok F0 => RffaBody H t o s a config outdir files F0 F' out

end Verif.Model
