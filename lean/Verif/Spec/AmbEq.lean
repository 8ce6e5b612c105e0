import Verif.Model.Amb
/-!
# When monadic lists are equal
-/
namespace Unpy.Spec.AmbEq
open Unpy.Amb
variable {α : Type}

/-- The same with tuples instead of monadic lists, at any depth -/
def astuple : Obj α → Obj α
  | .nil => .nil
  | .atom a => .atom a
  | .iter xs => .iter (xs.attach.map fun ⟨x, _⟩ => astuple x)
  | .ml xs => .iter (xs.attach.map fun ⟨x, _⟩ => astuple x)

/-- No monadic lists inside -/
inductive Plain : Obj α → Prop
  | nil : Plain .nil
  | atom : Plain (.atom a)
  | iter : (∀ x ∈ xs, Plain x) → Plain (.iter xs)

end Unpy.Spec.AmbEq
