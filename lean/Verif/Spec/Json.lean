import Verif.Model.Json
import Verif.Props.Metadata

/-!
# Saved objects

What can be saved, and what two objects have in common when they are equal.
-/

namespace Verif.Spec

open Verif.Model

mutual

/-- The content of a tree of objects, without the distinctions that python's `==` does not make between the values: numpy or
python numbers, `Metadata` or `dict`; and without the attribute `version`, whether arrays can be written, and the types of the
columns of a frame that do not belong to its array of values. -/
def content : PyVal → PyVal
  | .none => .none
  | .bool b => .bool b
  | .int i => .int i
  | .float x => .float x
  | .str s => .str s
  | .list l => .list (contentList l)
  | .dict d => .dict (contentDict d)
  | .metadata d => .dict (contentDict d)
  | .ndarray a => .ndarray { a with writable := true }
  | .npInt i => .int i
  | .npFloat x => .float x
  | .frame _ v c => .frame [] { v with writable := true } c
  | .sky ra dec => .sky ra dec
  | .object cls _ f => .object cls none (contentDict f)
  | .other t => .other t

def contentList : List PyVal → List PyVal
  | [] => []
  | v :: l => content v :: contentList l

def contentDict : List (String × PyVal) → List (String × PyVal)
  | [] => []
  | (k, v) :: l => (k, content v) :: contentDict l

end

/-- An array of a numeric type whose bytes are those of its elements. -/
def ArrayOK (a : NdArr) : Prop := a.dtype ≠ "object" ∧ ∃ w, 0 < w ∧ itemSize a.dtype = some w ∧ a.bytes.length = a.shape.prod * w

/-- The keys of a dictionary: distinct, and none is the word that marks special objects in the file. -/
def KeysOK (d : List (String × PyVal)) : Prop := (d.map Prod.fst).Nodup ∧ "__type__" ∉ d.map Prod.fst

/-- The attributes of a riptide object, as left by its constructor. -/
def ObjectOK (cls : String) (f : List (String × PyVal)) : Prop :=
  (cls = "TimeSeries" ∧ ∃ a t d, f = [("data", .ndarray a), ("tsamp", .float t), ("metadata", .metadata d)] ∧ a.dtype = "float32" ∧
    (∀ k v, (k, v) ∈ d → Props.EntryOK k v) ∧ (∀ k ∈ ["source_name", "skycoord", "dm", "mjd", "tobs", "fname"], ∃ v, dictGet d k = some v) ∧
    dictGet d "tobs" = some (.float (t.mulInt a.shape.prod))) ∨
  (cls = "Periodogram" ∧ ∃ w p b s m, f = [("widths", w), ("periods", p), ("foldbins", b), ("snrs", s), ("metadata", m)] ∧ m ≠ .none) ∨
  (cls = "Candidate" ∧ ∃ p m k s, f = [("params", p), ("tsmeta", m), ("peaks", k), ("subints", s)])

mutual

/-- Trees of supported objects. -/
def Savable : PyVal → Prop
  | .list l => SavableList l
  | .dict d => KeysOK d ∧ SavableDict d
  | .metadata d => KeysOK d ∧ SavableDict d
  | .ndarray a => ArrayOK a
  | .frame _ v c => ArrayOK v ∧ ∃ n, v.shape = [n, c.length]
  | .object cls _ f => ObjectOK cls f ∧ SavableDict f
  | .other _ => False
  | _ => True

def SavableList : List PyVal → Prop
  | [] => True
  | v :: l => Savable v ∧ SavableList l

def SavableDict : List (String × PyVal) → Prop
  | [] => True
  | (_, v) :: l => Savable v ∧ SavableDict l

end

end Verif.Spec
