import Verif.Model.CurryWraps
/-! # What decorated functions mean -/
namespace Unpy.Spec.CurryWraps
open Unpy.CurryWraps
variable {V : Type}

/-- what the function computes from all its arguments -/
def whole : Fn V → List V → V
  | .base _ body, args => body args
  | .curried f given, args => whole f (given ++ args)
  | .flipped f, args => whole f args.reverse

/-- no curried function inside has got too many arguments -/
def Made : Fn V → Prop
  | .base _ _ => True
  | .curried f given => Made f ∧ given.length ≤ f.arity
  | .flipped f => Made f

/-- `steps` are the `n` arguments split over calls, such that only the last call completes them -/
def Split (n : Nat) (steps : List (List V)) : Prop :=
  steps ≠ [] ∧ steps.flatten.length = n ∧ ∀ k, 0 < k → k < steps.length → (steps.take k).flatten.length < n

end Unpy.Spec.CurryWraps
