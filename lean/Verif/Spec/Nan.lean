import Verif.Model.Nan

/-! # What is assumed of the arithmetic on values that need not be finite -/

namespace Verif.Spec

open Verif.Model

/-- numpy adds every element of an array exactly once, in some order. -/
def AddsAll (N : NArith) : Prop := ∀ n, 0 < n → (N.tree n).leaves.Perm (List.range n)

/-- Comparisons in C++ code are right for values that are not NaN. -/
def ComparesNumbers (N : NArith) : Prop := ∀ a b, a ≠ .nan → b ≠ .nan → N.lt a b = a.lt b

/-- A value that is a finite number. -/
def IsNumber (v : FVal) : Prop := ∃ q, v = .fin q

/-- `v` is a median of the elements of `win`: one of them, with less than half of the elements below it and less than half above it. -/
def IsMedianOf (win : List FVal) (v : FVal) : Prop :=
  v ∈ win ∧ 2 * (win.filter (fun u => u.lt v)).length < win.length ∧ 2 * (win.filter (fun u => v.lt u)).length < win.length

end Verif.Spec
