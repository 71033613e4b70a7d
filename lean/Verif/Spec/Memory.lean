import Verif.Model.Memory

/-!
# Vocabulary for memory contents (mentions only the memory type, none of the code)
-/

namespace Verif.Spec

open Verif.Model

variable {α : Type*}

/-- `n` cells from address `a` hold the values `f 0, …, f (n-1)`. -/
def Holds (mem : Mem α) (a n : ℕ) (f : ℕ → α) : Prop := ∀ i < n, mem (a + i) = .val (f i)

/-- `n` cells from address `a` are allocated. -/
def Alloc (mem : Mem α) (a n : ℕ) : Prop := ∀ i < n, mem (a + i) ≠ .unalloc

/-- Two address ranges do not overlap. -/
def Disj (a n b k : ℕ) : Prop := a + n ≤ b ∨ b + k ≤ a

/-- `mem'` differs from `mem` at most on `n` cells from address `a`. -/
def SameOutside (mem mem' : Mem α) (a n : ℕ) : Prop := ∀ b, (b < a ∨ a + n ≤ b) → mem' b = mem b

/-- A block of `m` rows and `p` columns at address `a` holds `x`. -/
def HoldsBlock (mem : Mem α) (a m p : ℕ) (x : ℕ → ℕ → α) : Prop :=
  ∀ r < m, ∀ c < p, mem (a + r * p + c) = .val (x r c)

/-- Effect of a run: everything outside the two work areas is unchanged and they stay allocated. -/
structure Frame (mem mem' : Mem α) (temp out n : ℕ) : Prop where
  same : ∀ b, (b < temp ∨ temp + n ≤ b) → (b < out ∨ out + n ≤ b) → mem' b = mem b
  tempAlloc : Alloc mem' temp n
  outAlloc : Alloc mem' out n

end Verif.Spec
