import Verif.Model.MathOnce
/-!
# What expressions with sequences mean
-/
namespace Unpy.MathOnce.Spec
open Unpy.MathOnce
variable {N : Type}

/-- The term at an index: that of the operands, termwise; none if an operand has none. -/
def meaning (items : Nat → Nat → Option N) : Ex N → Nat → Option N
  | .gen i, k => items i k
  | .scalar c, _ => some c
  | .un f e, k => (meaning items e k).map f
  | .bin f a b, k => (meaning items a k).bind fun x => (meaning items b k).map fun y => f x y

/-- The generators in the expression, from left to right. -/
def gens : Ex N → List Nat
  | .gen i => [i]
  | .scalar _ => []
  | .un _ e => gens e
  | .bin _ a b => gens a ++ gens b

/-- The terms up to an index, or up to the first that there is not. -/
def terms (f : Nat → Option N) : Nat → Nat → List N
  | 0, _ => []
  | n + 1, k =>
    match f k with
    | some x => x :: terms f n (k + 1)
    | none => []

/-- The same expression with other generators. -/
def rename (ρ : Nat → Nat) : Ex N → Ex N
  | .gen i => .gen (ρ i)
  | .scalar c => .scalar c
  | .un f e => .un f (rename ρ e)
  | .bin f a b => .bin f (rename ρ a) (rename ρ b)

end Unpy.MathOnce.Spec
