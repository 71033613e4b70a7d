import Verif.Model.PipelineRun

/-!
# Model of a run of the pipeline with its configuration and its harmonic test

`riptide/pipeline/pipeline.py` 65-75, 135-172, 218-249 and 382-395: what the stages read from the validated configuration, and `htest` on the
real numbers that the other stages compute. Simplifications: exact arithmetic, except that the conversion of the ratio of two frequencies
to a `Fraction` is any function; a `rmed_minpts` of type `float` is a TypeError at once (in python, it is an error in the search of every file, see
C84); a `clrad` of `None` is one too.
-/

namespace Verif.Model

/-- The section `harmonic_flagging`. -/
structure HarmConf where
  denomMax : ℤ
  phaseDistanceMax : ℝ
  dmDistanceMax : ℝ
  snrDistanceMax : ℝ

/-! ## The harmonic test on real numbers -/

/-- `sorted((F, H), key=freq)`, harmonic_testing.py 52: `(slow, fast)`. -/
noncomputable def slowFastReal (F H : HPeak ℝ) : HPeak ℝ × HPeak ℝ := if H.freq < F.freq then (H, F) else (F, H)

open Classical in
/-- harmonic_testing.py 65-66. -/
noncomputable def orientReal (H slow : HPeak ℝ) (fraction : ℚ) : Except PyErr ℚ :=
  if H = slow then pyDiv 1 fraction else .ok fraction

/-- harmonic_testing.py 71. -/
noncomputable def dmDelayReal (dmAbsdiff fmin fmax : ℝ) : Except PyErr ℝ :=
  (pyDiv 1 (fmin ^ 2)).bind fun a => (pyDiv 1 (fmax ^ 2)).bind fun b => .ok (dmAbsdiff * 4150 * |a - b|)

/-- harmonic_testing.py 72. -/
noncomputable def dmDistanceReal (F H : HPeak ℝ) (delay : ℝ) : Except PyErr ℝ :=
  (pyDiv F.ducy F.freq).bind fun wF => (pyDiv H.ducy H.freq).bind fun wH => pyDiv delay (min wF wH)

/-- harmonic_testing.py 75. The square root of a negative integer is not modelled. -/
noncomputable def snrExpectedReal (F : HPeak ℝ) (fraction : ℚ) : Except PyErr ℝ :=
  if fraction.num * fraction.den < 0 then .error .unspecified
  else if fraction.num * fraction.den = 0 then .error .zeroDivisionError
  else .ok (F.snr / Real.sqrt (fraction.num * fraction.den))

open Classical in
/-- `htest(F, H, tobs, fmin, fmax, **kwargs)` with `hdiag`, harmonic_testing.py 9-155; compare `htest`. `frac` is the conversion of a `float` to
a `Fraction`, line 55. -/
noncomputable def htestReal (frac : ℝ → ℚ) (F H : HPeak ℝ) (tobs fmin fmax : ℝ) (a : HarmConf) : Except PyErr (Bool × ℚ) :=
  if ¬ fmax > fmin then .error .valueError
  else if ¬ tobs > 0 then .error .valueError
  else
    (pyDiv (slowFastReal F H).2.freq (slowFastReal F H).1.freq).bind fun ratio =>
    (limitDenominator (frac ratio) a.denomMax).bind fun fraction0 =>
    (pyDiv (|fraction0 * (slowFastReal F H).1.freq - (slowFastReal F H).2.freq| * tobs) (slowFastReal F H).2.ducy).bind fun phase =>
    (orientReal H (slowFastReal F H).1 fraction0).bind fun fraction =>
    (dmDelayReal |F.dm - H.dm| fmin fmax).bind fun delay =>
    (dmDistanceReal F H delay).bind fun dmDist =>
    (snrExpectedReal F fraction).bind fun snrExp =>
    .ok (decide (phase ≤ a.phaseDistanceMax) && decide (dmDist ≤ a.dmDistanceMax) && decide (|H.snr - snrExp| ≤ a.snrDistanceMax), fraction)

/-! ## The configuration -/

/-- The entries of an element of `ranges`. -/
noncomputable def pipeRangeOf (v : PyVal) : Except PyErr PipeRange :=
  (rangeConfOf v).bind fun rc =>
  (pyDict v).bind fun conf =>
  (required pyDict conf "candidates").bind fun cand =>
  (required pyCount cand "bins").bind fun bins =>
  (optionalArg pyCount cand "subints").bind fun subints =>
  .ok { search := rc.search, peaks := rc.peaks, candBins := bins, candSubints := subints.map fun n => (n : ℤ) }

/-- The truth value of `remove_harmonics`, pipeline.py 271: `None` is false. -/
def pyTruth : PyVal → Except PyErr Bool
  | .bool b => .ok b
  | .none => .ok false
  | _ => .error .typeError

/-- The section `candidate_filters`, pipeline.py 254-277. -/
noncomputable def filtersOf (d : List (String × PyVal)) : Except PyErr (FilterParams ℝ) :=
  (optionalArg pyReal d "dm_min").bind fun dmMin =>
  (optionalArg pyReal d "snr_min").bind fun snrMin =>
  (required pyTruth d "remove_harmonics").bind fun removeHarmonics =>
  (optionalArg pyCount d "max_number").bind fun maxNumber =>
  .ok { dmMin, snrMin, removeHarmonics, maxNumber }

/-- The section `harmonic_flagging`, pipeline.py 227. -/
noncomputable def harmConfOf (d : List (String × PyVal)) : Except PyErr HarmConf :=
  (required pyCount d "denom_max").bind fun denomMax =>
  (required pyReal d "phase_distance_max").bind fun phase =>
  (required pyReal d "dm_distance_max").bind fun dm =>
  (required pyReal d "snr_distance_max").bind fun snr =>
  .ok ⟨denomMax, phase, dm, snr⟩

/-- What a run takes from the validated configuration. -/
noncomputable def runConfOf (v : PyVal) : Except PyErr (RunConf × HarmConf) :=
  (prepConfOf v).bind fun prep =>
  (pyDict v).bind fun conf =>
  (required pyCount conf "processes").bind fun processes =>
  (required pyDict conf "dereddening").bind fun der =>
  (required pyReal der "rmed_width").bind fun width =>
  (required pyCount der "rmed_minpts").bind fun minpts =>
  (required pyList conf "ranges").bind fun rs =>
  (rs.mapM pipeRangeOf).bind fun ranges =>
  (required pyDict conf "clustering").bind fun clust =>
  (required pyReal clust "radius").bind fun radius =>
  (required pyDict conf "harmonic_flagging").bind fun hd =>
  (harmConfOf hd).bind fun harm =>
  (required pyDict conf "candidate_filters").bind fun fd =>
  (filtersOf fd).bind fun filters =>
  .ok ({ prep, ranges, rmedWidth := width, rmedMinpts := minpts, processes, radius, filters }, harm)

/-! ## The run -/

/-- What a run depends on besides its configuration and its files, see `PipeEnv`; `frac` is the conversion of a `float` to a `Fraction`. -/
structure PipeTools where
  idx : IdxRule
  argsort : List ℝ → List ℕ
  fit : List ℝ → List ℝ → ℝ → ℝ
  frac : ℝ → ℚ
  loader : String → Except PyErr (World × ℕ)

/-- The environment in which the harmonic test is that of `flag_harmonics`, lines 224-227 and 240. -/
noncomputable def PipeTools.env (t : PipeTools) (h : HarmConf) (tobs fmin fmax : ℝ) : PipeEnv where
  idx := t.idx
  argsort := t.argsort
  fit := t.fit
  test := fun F H => htestReal t.frac F H tobs fmin fmax h
  loader := t.loader

/-- The attributes `fmin`, `fmax`, `nchans` of the DM iterator, dmiter.py 198-215. -/
noncomputable def iterBand (c : PrepConf) (ms : List FileMeta) : Except PyErr (ℝ × ℝ × ℕ) :=
  bandOf (ms.map (·.toDmMeta)) c.fmt (bandArguments c.fmin c.fmax c.nchans)

/-- `Pipeline(conf).process(files)` up to `save_products`, lines 65-75 and 382-395. `ms` are the metadata of the files. -/
noncomputable def pipelineRun (t : PipeTools) (conf : PyVal) (ms : List FileMeta) (s : PoolSchedule) :
    Except PyErr (PipeState ℝ (CandObj ℝ)) :=
  (validatePipelineConfig conf).bind fun v =>
  (runConfOf v).bind fun c =>
  (prepare c.1.prepConf ms).bind fun it =>
  (iterBand c.1.prepConf ms).bind fun b =>
  (it.selectedDms.mapM (getFilename it)).bind fun fnames =>
  PipeState.fresh.process (pipelineJob (t.env c.2 (tobsMedian ms) b.1 b.2.1) c.1 ms it fnames) s

end Verif.Model
