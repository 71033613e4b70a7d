import Mathlib.Algebra.Order.Group.Abs
import Mathlib.Algebra.Order.Ring.Defs
import Mathlib.Logic.Relation

/-! # Friends of friends (independent of the model) -/

namespace Verif.Spec

variable {K : Type*} [CommRing K] [LinearOrder K]

/-- Points `i` and `j` of the selection `S` are linked by a chain of points of `S` with steps of at most `r`. -/
def Linked {β : Type*} (S : β → Prop) (x : β → K) (r : K) : β → β → Prop :=
  Relation.ReflTransGen (fun i j => S i ∧ S j ∧ |x i - x j| ≤ r)

end Verif.Spec
