import Verif.Spec.Slices
/-!
# Specification for reading a shadowed sequence: as the updated list is read
-/
namespace Unpy.Spec.Shadowed
open Unpy Unpy.Slices
universe u
variable {α : Type u}

/-- `l[k]` -/
def pyItem (l : List α) (k : Int) : Res α :=
  if -(l.length : Int) ≤ k ∧ k < l.length then
    match l[(if k < 0 then k + l.length else k).toNat]? with
    | some a => .ok a
    | none => .error .IndexError
  else .error .IndexError

/-- Replacements that can be read any number of times, in any order: items, and sequences -/
def Steady : Upd α → Prop
  | .int _ _ => True
  | .slice _ (.seq _) => True
  | _ => False

end Unpy.Spec.Shadowed
