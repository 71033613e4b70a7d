import Verif.Model.Presto

/-!
# Model of `riptide/pipeline/config_validation.py`: `validate_pipeline_config`

A schema of the library `schema` is modelled as the function that validates an object and returns it, possibly converted. The
model is for objects that the YAML reader makes; other objects are `PyVal`s that fail.
-/

namespace Verif.Model

/-- `Schema(...).validate(data)`: the validated object. All errors of the library are `SchemaError`. -/
abbrev SchemaFn := PyVal → Except PyErr PyVal

/-- The type `int`: `isinstance(True, int)` is true. -/
def schemaInt : SchemaFn
  | .int i => .ok (.int i)
  | .bool b => .ok (.bool b)
  | _ => .error .schemaError

/-- The type `float`. -/
def schemaFloat : SchemaFn
  | .float x => .ok (.float x)
  | _ => .error .schemaError

/-- The type `str`. -/
def schemaStr : SchemaFn
  | .str s => .ok (.str s)
  | _ => .error .schemaError

/-- The type `bool`. -/
def schemaBool : SchemaFn
  | .bool b => .ok (.bool b)
  | _ => .error .schemaError

/-- The value `None`. -/
def schemaNone : SchemaFn
  | .none => .ok .none
  | _ => .error .schemaError

/-- `float(x)`. -/
def toFloat : PyVal → Except PyErr PyFloat
  | .float x => .ok x
  | .int i => .ok (.fin i)
  | .bool b => .ok (.fin (if b then 1 else 0))
  | .str s => pyFloat s.toList
  | _ => .error .typeError

/-- `Use(float)`: exceptions of the conversion become `SchemaError`. -/
def schemaUseFloat (v : PyVal) : Except PyErr PyVal :=
  match toFloat v with
  | .ok x => .ok (.float x)
  | .error _ => .error .schemaError

/-- `And(a, b)`. -/
def schemaAnd (a b : SchemaFn) : SchemaFn := fun v => (a v).bind b

/-- `Or(a, b)`: the first that accepts. -/
def schemaOr (a b : SchemaFn) : SchemaFn := fun v =>
  match a v with
  | .ok w => .ok w
  | .error _ => b v

/-- A callable: it must return a true value; exceptions count as failures. -/
def schemaPred (p : PyVal → Except PyErr Bool) : SchemaFn := fun v =>
  match p v with
  | .ok true => .ok v
  | _ => .error .schemaError

/-- `x > a` for an object and a number: `TypeError` for strings, `None` and containers. -/
def greaterThan (a : ℚ) : PyVal → Except PyErr Bool
  | .float (.fin q) => .ok (decide (a < q))
  | .float (.inf neg) => .ok (!neg)
  | .float .nan => .ok false
  | .int i => .ok (decide (a < i))
  | .bool b => .ok (decide (a < if b then 1 else 0))
  | _ => .error .typeError

/-- `x < a`. -/
def lessThan (a : ℚ) : PyVal → Except PyErr Bool
  | .float (.fin q) => .ok (decide (q < a))
  | .float (.inf neg) => .ok neg
  | .float .nan => .ok false
  | .int i => .ok (decide (i < a))
  | .bool b => .ok (decide ((if b then 1 else 0) < a))
  | _ => .error .typeError

/-- `strictly_positive`, lines 12-13. -/
def strictlyPositive : SchemaFn := schemaPred (greaterThan 0)

/-- The value of the dictionary schema for a key. -/
def schemaLookup (items : List (String × Bool × SchemaFn)) (k : String) : Option SchemaFn :=
  (items.find? fun it => it.1 = k).map fun it => it.2.2

/-- The items of a dictionary, in order. -/
def schemaItems (items : List (String × Bool × SchemaFn)) : List (String × PyVal) → Except PyErr (List (String × PyVal))
  | [] => .ok []
  | (k, v) :: d => match schemaLookup items k with
    | none => .error .schemaError
    | some s => (s v).bind fun w => (schemaItems items d).map fun r => (k, w) :: r

/-- A dictionary schema, `items` being the key, whether it is `Optional`, and the schema of the value: keys that are not in the schema
are errors, and so are missing keys that are not optional. -/
def schemaDict (items : List (String × Bool × SchemaFn)) : SchemaFn
  | .dict d => (schemaItems items d).bind fun w =>
    if items.all (fun it => it.2.1 || (dictGet d it.1).isSome) then .ok (.dict w) else .error .schemaError
  | _ => .error .schemaError

/-- The elements of a list. -/
def schemaElements (s : SchemaFn) : List PyVal → Except PyErr (List PyVal)
  | [] => .ok []
  | v :: l => (s v).bind fun w => (schemaElements s l).map fun r => w :: r

/-- `[s]`: a list, possibly empty, all elements of which match. -/
def schemaList (s : SchemaFn) : SchemaFn
  | .list l => (schemaElements s l).map .list
  | _ => .error .schemaError

/-- `And(int, strictly_positive)`. -/
def posIntSchema : SchemaFn := schemaAnd schemaInt strictlyPositive

/-- `And(Use(float), strictly_positive)`. -/
def posFloatSchema : SchemaFn := schemaAnd schemaUseFloat strictlyPositive

/-- Lines 22-32. -/
def ffaSearchSchema : SchemaFn := schemaDict [
  ("period_min", false, posFloatSchema), ("period_max", false, posFloatSchema), ("bins_min", false, posIntSchema),
  ("bins_max", false, posIntSchema), ("fpmin", true, posIntSchema),
  ("wtsp", true, schemaAnd schemaUseFloat (schemaPred (greaterThan 1))),
  ("ducy_max", true, schemaAnd schemaFloat (schemaAnd (schemaPred (greaterThan 0)) (schemaPred (lessThan 1))))]

/-- Lines 34-47. -/
def findPeaksSchema : SchemaFn := schemaDict [
  ("smin", true, posFloatSchema), ("segwidth", true, posFloatSchema), ("nstd", true, posFloatSchema), ("minseg", true, posIntSchema),
  ("polydeg", true, posFloatSchema), ("clrad", true, schemaOr posFloatSchema schemaNone)]

/-- `SEARCH_RANGE_SCHEMA`, lines 19-53. -/
def searchRangeSchema : SchemaFn := schemaDict [
  ("name", false, schemaStr), ("ffa_search", false, ffaSearchSchema), ("find_peaks", false, findPeaksSchema),
  ("candidates", false, schemaDict [("bins", false, posIntSchema), ("subints", false, posIntSchema)])]

/-- Lines 60-62. -/
def formatSchema : SchemaFn := schemaPred fun v =>
  match v with
  | .str s => .ok (decide (s = "presto" ∨ s = "sigproc"))
  | _ => .ok false

/-- `PIPELINE_CONFIG_SCHEMA`, lines 56-114. -/
def pipelineConfigSchema : SchemaFn := schemaDict [
  ("processes", false, posIntSchema),
  ("data", false, schemaDict [("format", false, formatSchema), ("fmin", false, schemaOr posFloatSchema schemaNone),
    ("fmax", false, schemaOr posFloatSchema schemaNone), ("nchans", false, schemaOr posIntSchema schemaNone)]),
  ("dmselect", false, schemaDict [("min", false, schemaOr schemaUseFloat schemaNone), ("max", false, schemaOr schemaUseFloat schemaNone),
    ("dmsinb_max", false, schemaOr strictlyPositive schemaNone)]),
  ("dereddening", false, schemaDict [("rmed_width", false, strictlyPositive), ("rmed_minpts", false, strictlyPositive)]),
  ("ranges", false, schemaList searchRangeSchema),
  ("clustering", false, schemaDict [("radius", false, strictlyPositive)]),
  ("harmonic_flagging", false, schemaDict [("denom_max", false, posIntSchema), ("phase_distance_max", false, posFloatSchema),
    ("dm_distance_max", false, posFloatSchema), ("snr_distance_max", false, posFloatSchema)]),
  ("candidate_filters", false, schemaDict [("dm_min", false, schemaOr schemaUseFloat schemaNone),
    ("snr_min", false, schemaOr schemaUseFloat schemaNone), ("remove_harmonics", false, schemaOr schemaBool schemaNone),
    ("max_number", false, schemaOr posIntSchema schemaNone)]),
  ("plot_candidates", false, schemaBool)]

/-- `validate_pipeline_config(conf)`, lines 171-198. -/
def validatePipelineConfig (conf : PyVal) : Except PyErr PyVal :=
  match pipelineConfigSchema conf with
  | .ok w => .ok w
  | .error _ => .error .invalidPipelineConfig

/-- The keyword argument `clrad` of `find_peaks(pgram, **conf['find_peaks'])`, worker_pool.py 67, and its use
`cluster1d(fsel, clrad / T)`, peak_detection.py 136, with the default value of line 146. Simplification: exact division, `T` is the
positive duration of the data. -/
def clusterRadius (findPeaks : List (String × PyVal)) (tobs : ℚ) : Except PyErr PyFloat :=
  match (dictGet findPeaks "clrad").getD (.float (.fin (1 / 10))) with
  | .float (.fin q) => .ok (.fin (q / tobs))
  | .float x => .ok x
  | .int i => .ok (.fin (i / tobs))
  | .bool b => .ok (.fin ((if b then 1 else 0) / tobs))
  | _ => .error .typeError

end Verif.Model
