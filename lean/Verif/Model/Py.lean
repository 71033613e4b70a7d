import Mathlib.Tactic.TypeStar

/-!
# Python exceptions and dictionaries
-/

namespace Verif.Model

/-- The python exceptions that the modelled functions can raise. `unspecified` is used where the behaviour depends on the version
of a library that is not modelled. -/
inductive PyErr
  | valueError
  | typeError
  | indexError
  | keyError
  | attributeError
  | zeroDivisionError
  | overflowError
  | runtimeError
  | schemaError
  | invalidSearchRange
  | invalidPipelineConfig
  | structError
  | unicodeDecodeError
  | assertionError
  | fileNotFoundError
  | unspecified
  deriving DecidableEq, Repr

/-- A python `dict` with keys in insertion order. -/
abbrev PyDict (κ ν : Type*) := List (κ × ν)

/-- `d[k] = v`: an existing key keeps its position. -/
def dictSet {κ ν : Type*} [DecidableEq κ] : PyDict κ ν → κ → ν → PyDict κ ν
  | [], k, v => [(k, v)]
  | (k', v') :: d, k, v => if k' = k then (k', v) :: d else (k', v') :: dictSet d k v

/-- `d.get(k)`. -/
def dictGet {κ ν : Type*} [DecidableEq κ] : PyDict κ ν → κ → Option ν
  | [], _ => none
  | (k', v') :: d, k => if k' = k then some v' else dictGet d k

/-- `{key(x): val(x) for x in l}`. -/
def dictOf {κ ν β : Type*} [DecidableEq κ] (key : β → κ) (val : β → ν) (l : List β) : PyDict κ ν :=
  l.foldl (fun d x => dictSet d (key x) (val x)) []

end Verif.Model
