import Verif.Model.Namelambda
/-!
# What renaming a function should do

The qualified name of a function is that of the scope it is defined in, with a dot at the end unless it is empty, followed by its name.
-/
namespace Unpy.Namelambda.Spec
open Unpy.Namelambda

/-- The name of a scope as it is put in front: empty, or with a dot at the end. -/
def Scope (s : Text) : Prop := s = [] ∨ ∃ t, s = t ++ ['.']

/-- A function with this name, defined in this scope, with this code. -/
def function (scope name : Text) (code : Nat) : Fn := { name, qual := scope ++ name, coName := name, code }

end Unpy.Namelambda.Spec
