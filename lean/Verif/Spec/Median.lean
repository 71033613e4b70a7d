import Mathlib.Order.Defs.LinearOrder
import Mathlib.Data.List.Perm.Basic
import Mathlib.Data.Int.Cast.Defs
import Mathlib.Data.Int.Notation

/-! # Order statistics and the running median (independent of the model) -/

namespace Verif.Spec

variable {α : Type*} [LinearOrder α]

/-- `v` is the element at position `n` (from 0) of the sorted list. -/
def IsNth (l : List α) (n : ℕ) (v : α) : Prop := ∃ l' : List α, l'.Perm l ∧ l'.Pairwise (· ≤ ·) ∧ l'[n]? = some v

/-- The signal padded at both ends with its first and last value; `none` for an empty list. -/
def padded (x : List α) (i : ℤ) : Option α :=
  if i < 0 then x.head? else if (x.length : ℤ) ≤ i then x.getLast? else x[i.toNat]?

/-- `v` is the median of the window of `w` elements (`w` odd) centred at `i`. -/
def IsRunningMedian (x : List α) (w i : ℕ) (v : α) : Prop :=
  ∃ win : List α, win.length = w ∧
    (∀ k (h : k < win.length), padded x ((i : ℤ) + k - ((w / 2 : ℕ) : ℤ)) = some win[k]) ∧ IsNth win (w / 2) v

end Verif.Spec
