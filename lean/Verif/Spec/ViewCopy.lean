import Verif.Model.ViewCopy
import Verif.Spec.View
/-!
# Specification of assigning to a slice of a view from a sequence that is alive
-/
namespace Unpy.Spec.View
open Unpy Unpy.View
universe u
variable {α : Type u}

/-- The slices through which the right-hand side looks at the data (`md`: how the view in each variable was made) -/
def through (md : List (Bool × List Slice)) : Live → Option (List Slice)
  | .seq => some []
  | .var w => (md[w]?).map (·.2)

/-- No position is written before it is read: the writes, to `ps`, never run ahead of the reads, from `qs`. -/
def NotAhead (ps qs : List Int) : Prop := ∀ (a b : Nat) (x : Int), a < b → b < ps.length → ps[a]? = some x → qs[b]? ≠ some x

end Unpy.Spec.View
