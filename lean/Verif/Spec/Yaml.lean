import Verif.Model.Yaml
import Verif.Spec.Decimal

/-!
# Entries of configuration files

Where the numbers of a configuration are, and which numbers each entry takes, without the functions of the schema library.
-/

namespace Verif.Spec

open Verif.Model

/-- A step down a tree: the key of a dictionary or the position in a list. -/
inductive Step
  | key (k : String)
  | index (i : ℕ)
  deriving DecidableEq

/-- `d[k]`. -/
def itemOf {α : Type} (d : List (String × α)) (k : String) : Option α := (d.find? fun it => decide (it.1 = k)).map Prod.snd

/-- `v[a][b]...`. -/
def entry : List Step → PyVal → Option PyVal
  | [], v => some v
  | .key k :: p, .dict d => (itemOf d k).bind (entry p)
  | .index i :: p, .list l => l[i]?.bind (entry p)
  | _ :: _, _ => none

/-- The node of a file at this place. Of items with the same key, the last counts. -/
def nodeAt : List Step → YamlNode → Option YamlNode
  | [], n => some n
  | .key k :: p, .map m => (itemOf m.reverse k).bind (nodeAt p)
  | .index i :: p, .seq l => l[i]?.bind (nodeAt p)
  | _ :: _, _ => none

/-- The dictionary with another object for an existing key. -/
def onItem {α : Type} (k : String) (f : α → α) : List (String × α) → List (String × α)
  | [] => []
  | (k', v) :: d => if k' = k then (k', f v) :: d else (k', v) :: onItem k f d

/-- The tree with another object at an existing place. -/
def withEntry : List Step → PyVal → PyVal → PyVal
  | [], x, _ => x
  | .key k :: p, x, .dict d => .dict (onItem k (withEntry p x) d)
  | .index i :: p, x, .list l => .list (l.modify i (withEntry p x))
  | _ :: _, _, v => v

/-- What the numbers of the configuration can be. -/
inductive Kind
  | anyNumber
  | positive
  | aboveOne
  | posInt
  | posPlain
  | fraction

/-- The numeric entries of the configuration, see `riptide/pipeline/config/example.yaml`. -/
inductive Entry : List Step → Kind → Prop
  | processes : Entry [.key "processes"] .posInt
  | fmin : Entry [.key "data", .key "fmin"] .positive
  | fmax : Entry [.key "data", .key "fmax"] .positive
  | nchans : Entry [.key "data", .key "nchans"] .posInt
  | dmMin : Entry [.key "dmselect", .key "min"] .anyNumber
  | dmMax : Entry [.key "dmselect", .key "max"] .anyNumber
  | dmsinb : Entry [.key "dmselect", .key "dmsinb_max"] .posPlain
  | rmedWidth : Entry [.key "dereddening", .key "rmed_width"] .posPlain
  | rmedMinpts : Entry [.key "dereddening", .key "rmed_minpts"] .posPlain
  | periodMin (i : ℕ) : Entry [.key "ranges", .index i, .key "ffa_search", .key "period_min"] .positive
  | periodMax (i : ℕ) : Entry [.key "ranges", .index i, .key "ffa_search", .key "period_max"] .positive
  | binsMin (i : ℕ) : Entry [.key "ranges", .index i, .key "ffa_search", .key "bins_min"] .posInt
  | binsMax (i : ℕ) : Entry [.key "ranges", .index i, .key "ffa_search", .key "bins_max"] .posInt
  | fpmin (i : ℕ) : Entry [.key "ranges", .index i, .key "ffa_search", .key "fpmin"] .posInt
  | wtsp (i : ℕ) : Entry [.key "ranges", .index i, .key "ffa_search", .key "wtsp"] .aboveOne
  | ducyMax (i : ℕ) : Entry [.key "ranges", .index i, .key "ffa_search", .key "ducy_max"] .fraction
  | smin (i : ℕ) : Entry [.key "ranges", .index i, .key "find_peaks", .key "smin"] .positive
  | segwidth (i : ℕ) : Entry [.key "ranges", .index i, .key "find_peaks", .key "segwidth"] .positive
  | nstd (i : ℕ) : Entry [.key "ranges", .index i, .key "find_peaks", .key "nstd"] .positive
  | minseg (i : ℕ) : Entry [.key "ranges", .index i, .key "find_peaks", .key "minseg"] .posInt
  | polydeg (i : ℕ) : Entry [.key "ranges", .index i, .key "find_peaks", .key "polydeg"] .positive
  | clrad (i : ℕ) : Entry [.key "ranges", .index i, .key "find_peaks", .key "clrad"] .positive
  | bins (i : ℕ) : Entry [.key "ranges", .index i, .key "candidates", .key "bins"] .posInt
  | subints (i : ℕ) : Entry [.key "ranges", .index i, .key "candidates", .key "subints"] .posInt
  | radius : Entry [.key "clustering", .key "radius"] .posPlain
  | denomMax : Entry [.key "harmonic_flagging", .key "denom_max"] .posInt
  | phaseMax : Entry [.key "harmonic_flagging", .key "phase_distance_max"] .positive
  | dmDistMax : Entry [.key "harmonic_flagging", .key "dm_distance_max"] .positive
  | snrDistMax : Entry [.key "harmonic_flagging", .key "snr_distance_max"] .positive
  | filterDm : Entry [.key "candidate_filters", .key "dm_min"] .anyNumber
  | filterSnr : Entry [.key "candidate_filters", .key "snr_min"] .anyNumber
  | maxNumber : Entry [.key "candidate_filters", .key "max_number"] .posInt

/-- The values documented for an entry. -/
def Kind.InRange : Kind → ℚ → Prop
  | .anyNumber, _ => True
  | .positive, q => 0 < q
  | .aboveOne, q => 1 < q
  | .posInt, q => 0 < q
  | .posPlain, q => 0 < q
  | .fraction, q => 0 < q ∧ q < 1

/-- The ways of writing the number that an entry takes. -/
def Kind.Notation : Kind → Decimal → Prop
  | .anyNumber, _ => True
  | .positive, _ => True
  | .aboveOne, _ => True
  | .posInt, d => d.Whole ∧ NoLeadingZero d.whole
  | .posPlain, d => d.Dotted ∨ d.Whole ∧ NoLeadingZero d.whole
  | .fraction, d => d.Dotted

/-- An object of python of the value `q`, of a type that the entry can have. -/
def Kind.Holds : Kind → ℚ → PyVal → Prop
  | .posInt, q, v => ∃ i : ℤ, v = .int i ∧ (i : ℚ) = q
  | .posPlain, q, v => v = .float (.fin q) ∨ ∃ i : ℤ, v = .int i ∧ (i : ℚ) = q
  | _, q, v => v = .float (.fin q)

/-- There is a date somewhere in the tree. -/
inductive HasDate : PyVal → Prop
  | date (t : ℕ) : HasDate (.other t)
  | list {l : List PyVal} {v : PyVal} : v ∈ l → HasDate v → HasDate (.list l)
  | dict {d : List (String × PyVal)} {k : String} {v : PyVal} : (k, v) ∈ d → HasDate v → HasDate (.dict d)

end Verif.Spec
