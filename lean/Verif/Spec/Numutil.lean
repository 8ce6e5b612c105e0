import Verif.Model.Numutil
/-!
# Iterates and compositions
-/
namespace Unpy.Numutil.Spec

/-- The items `x, f(x), f(f(x)), ...`, as long as `f` does not raise. -/
inductive Iterate {α ε : Type} (f : α → Except ε α) (x : α) : Nat → α → Prop
  | zero : Iterate f x 0 x
  | succ {i a b} : Iterate f x i a → f a = .ok b → Iterate f x (i + 1) b

/-- The ordered sequences of allowed numbers with a given sum. -/
def IsComposition (allowed : Int → Prop) (n : Int) (l : List Int) : Prop :=
  l ≠ [] ∧ (∀ x ∈ l, allowed x) ∧ l.sum = n

/-- The triangular numbers 1, 3, 6, 10, ... -/
def Triangular (m : Int) : Prop := ∃ k : Nat, 1 ≤ k ∧ 2 * m = k * (k + 1)

end Unpy.Numutil.Spec
