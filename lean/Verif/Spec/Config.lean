import Verif.Model.Presto

/-!
# Pipeline configurations

What is accepted as a configuration, described without the functions of the schema library.
-/

namespace Verif.Spec

open Verif.Model

/-- `v` is a number, or a text with a number, of value `x`. -/
def HasFloat (v : PyVal) (x : PyFloat) : Prop :=
  v = .float x ∨ (∃ i : ℤ, v = .int i ∧ x = .fin i) ∨ (v = .bool true ∧ x = .fin 1) ∨ (v = .bool false ∧ x = .fin 0) ∨
    ∃ s : String, v = .str s ∧ pyFloat s.toList = .ok x

/-- `x` is larger than `a`. -/
def Above (a : ℚ) (x : PyFloat) : Prop := x = .inf false ∨ ∃ q, x = .fin q ∧ a < q

/-- A positive integer; python counts `True` as one. -/
def PosInt (v : PyVal) : Prop := (∃ i : ℤ, v = .int i ∧ 0 < i) ∨ v = .bool true

/-- A positive number or a text with a positive number. -/
def PosNumber (v : PyVal) : Prop := ∃ x, HasFloat v x ∧ Above 0 x

/-- A positive number that is not a text. -/
def PosPlain (v : PyVal) : Prop := PosInt v ∨ ∃ x, v = .float x ∧ Above 0 x

/-- Any number, or text with a number. -/
def AnyNumber (v : PyVal) : Prop := ∃ x, HasFloat v x

/-- A dictionary with the keys listed: the key, whether it can be left out, and the condition on the value. -/
def Section (fields : List (String × Bool × (PyVal → Prop))) (v : PyVal) : Prop :=
  ∃ d, v = .dict d ∧ (∀ k x, (k, x) ∈ d → ∃ o P, (k, o, P) ∈ fields ∧ P x) ∧ (∀ k P, (k, false, P) ∈ fields → ∃ x, (k, x) ∈ d)

/-- A list with a condition on the elements. -/
def ListOf (P : PyVal → Prop) (v : PyVal) : Prop := ∃ l, v = .list l ∧ ∀ x ∈ l, P x

/-- `P` or blank. -/
def OrBlank (P : PyVal → Prop) (v : PyVal) : Prop := v = .none ∨ P v

/-- The section `ffa_search` of a range. -/
def FfaSearchConf : PyVal → Prop := Section [("period_min", false, PosNumber), ("period_max", false, PosNumber), ("bins_min", false, PosInt),
  ("bins_max", false, PosInt), ("fpmin", true, PosInt), ("wtsp", true, fun v => ∃ x, HasFloat v x ∧ Above 1 x),
  ("ducy_max", true, fun v => ∃ q : ℚ, v = .float (.fin q) ∧ 0 < q ∧ q < 1)]

/-- The section `find_peaks` of a range. -/
def FindPeaksConf : PyVal → Prop := Section [("smin", true, PosNumber), ("segwidth", true, PosNumber), ("nstd", true, PosNumber),
  ("minseg", true, PosInt), ("polydeg", true, PosNumber), ("clrad", true, OrBlank PosNumber)]

/-- A search range; `Peaks` and `Subints` are the conditions on the section `find_peaks` and the number of sub-integrations. -/
def RangeConf (Peaks Subints : PyVal → Prop) : PyVal → Prop := Section [("name", false, fun v => ∃ s, v = .str s),
  ("ffa_search", false, FfaSearchConf), ("find_peaks", false, Peaks),
  ("candidates", false, Section [("bins", false, PosInt), ("subints", false, Subints)])]

/-- A configuration. -/
def PipelineConf (Peaks Subints : PyVal → Prop) : PyVal → Prop := Section [
  ("processes", false, PosInt),
  ("data", false, Section [("format", false, fun v => v = .str "presto" ∨ v = .str "sigproc"), ("fmin", false, OrBlank PosNumber),
    ("fmax", false, OrBlank PosNumber), ("nchans", false, OrBlank PosInt)]),
  ("dmselect", false, Section [("min", false, OrBlank AnyNumber), ("max", false, OrBlank AnyNumber), ("dmsinb_max", false, OrBlank PosPlain)]),
  ("dereddening", false, Section [("rmed_width", false, PosPlain), ("rmed_minpts", false, PosPlain)]),
  ("ranges", false, ListOf (RangeConf Peaks Subints)),
  ("clustering", false, Section [("radius", false, PosPlain)]),
  ("harmonic_flagging", false, Section [("denom_max", false, PosInt), ("phase_distance_max", false, PosNumber),
    ("dm_distance_max", false, PosNumber), ("snr_distance_max", false, PosNumber)]),
  ("candidate_filters", false, Section [("dm_min", false, OrBlank AnyNumber), ("snr_min", false, OrBlank AnyNumber),
    ("remove_harmonics", false, OrBlank fun v => ∃ b, v = .bool b), ("max_number", false, OrBlank PosInt)]),
  ("plot_candidates", false, fun v => ∃ b, v = .bool b)]

/-- What the comments of the example configuration allow: `find_peaks` can be left blank, and `subints` can be null. -/
def Documented : PyVal → Prop := PipelineConf (OrBlank FindPeaksConf) (OrBlank PosInt)

/-- A positive `float`. -/
def PosFloat (v : PyVal) : Prop := ∃ x, v = .float x ∧ Above 0 x

/-- Any `float`. -/
def IsFloat (v : PyVal) : Prop := ∃ x, v = .float x

/-- A validated configuration: the types that the rest of the pipeline gets. -/
def ValidatedConf : PyVal → Prop := Section [
  ("processes", false, PosInt),
  ("data", false, Section [("format", false, fun v => v = .str "presto" ∨ v = .str "sigproc"), ("fmin", false, OrBlank PosFloat),
    ("fmax", false, OrBlank PosFloat), ("nchans", false, OrBlank PosInt)]),
  ("dmselect", false, Section [("min", false, OrBlank IsFloat), ("max", false, OrBlank IsFloat), ("dmsinb_max", false, OrBlank PosPlain)]),
  ("dereddening", false, Section [("rmed_width", false, PosPlain), ("rmed_minpts", false, PosPlain)]),
  ("ranges", false, ListOf (Section [("name", false, fun v => ∃ s, v = .str s),
    ("ffa_search", false, Section [("period_min", false, PosFloat), ("period_max", false, PosFloat), ("bins_min", false, PosInt),
      ("bins_max", false, PosInt), ("fpmin", true, PosInt), ("wtsp", true, fun v => ∃ x, v = .float x ∧ Above 1 x),
      ("ducy_max", true, fun v => ∃ q : ℚ, v = .float (.fin q) ∧ 0 < q ∧ q < 1)]),
    ("find_peaks", false, Section [("smin", true, PosFloat), ("segwidth", true, PosFloat), ("nstd", true, PosFloat),
      ("minseg", true, PosInt), ("polydeg", true, PosFloat), ("clrad", true, OrBlank PosFloat)]),
    ("candidates", false, Section [("bins", false, PosInt), ("subints", false, PosInt)])])),
  ("clustering", false, Section [("radius", false, PosPlain)]),
  ("harmonic_flagging", false, Section [("denom_max", false, PosInt), ("phase_distance_max", false, PosFloat),
    ("dm_distance_max", false, PosFloat), ("snr_distance_max", false, PosFloat)]),
  ("candidate_filters", false, Section [("dm_min", false, OrBlank IsFloat), ("snr_min", false, OrBlank IsFloat),
    ("remove_harmonics", false, OrBlank fun v => ∃ b, v = .bool b), ("max_number", false, OrBlank PosInt)]),
  ("plot_candidates", false, fun v => ∃ b, v = .bool b)]

mutual

/-- The tree with every number, and every text that is a number, as a `float`. -/
def numeric : PyVal → PyVal
  | .int i => .float (.fin i)
  | .bool b => .float (.fin (if b then 1 else 0))
  | .str s => match pyFloat s.toList with
    | .ok x => .float x
    | .error _ => .str s
  | .list l => .list (numericList l)
  | .dict d => .dict (numericDict d)
  | v => v

def numericList : List PyVal → List PyVal
  | [] => []
  | v :: l => numeric v :: numericList l

def numericDict : List (String × PyVal) → List (String × PyVal)
  | [] => []
  | (k, v) :: l => (k, numeric v) :: numericDict l

end

end Verif.Spec
