import Verif.Model.Callsite
/-!
# Whose file `callsite_filename` should return
-/
namespace Unpy.Callsite.Spec
open Unpy Unpy.Callsite

/-- The file of the function that made the call -/
def fileOf (stack : List Frame) : Option String := stack.head?.map (·.filename)

/-- Functions that are named like the helpers of the library -/
def NamedLikeHelper (r : Frame) : Prop :=
  r.function = "maybe_force_args" ∨ r.function = "curried" ∨ r.function = "curry" ∨ r.function = "_currycall" ∨ r.function = "call" ∨ r.function = "callwith"

end Unpy.Callsite.Spec
