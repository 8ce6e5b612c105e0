import Verif.Model.FixShared
/-!
# The ordinary value of a function that ends in a jump (C80)
-/
namespace Unpy.Spec.FixShared
open Unpy.FixShared
variable {F A V : Type}

/-- The value of `f(a)`, if jumps are ordinary calls and nothing is decorated. -/
inductive Value (d : Defs F A V) : F → A → V → Prop where
  | ret {f a v} (h : d.body f a = .ret v) : Value d f a v
  | jump {f a g b v} (h : d.body f a = .jump g b) (hv : Value d g b v) : Value d f a v

/-- The values of several calls -/
inductive Values (d : Defs F A V) : List (F × A) → List V → Prop where
  | nil : Values d [] []
  | cons {f a v cs vs} (h : Value d f a v) (hs : Values d cs vs) : Values d ((f, a) :: cs) (v :: vs)

end Unpy.Spec.FixShared
