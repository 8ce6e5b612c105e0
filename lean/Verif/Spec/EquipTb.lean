import Verif.Model.EquipTb
/-!
# What a traceback shows
-/
namespace Unpy.EquipTb.Spec
open Unpy Unpy.EquipTb
variable {F E : Type}

/-- The frames that a traceback shows, most recent call last: one follows `tb_next`. -/
def shownTb : Tb F → List F
  | .mk none f => [f]
  | .mk (some tb) f => f :: shownTb tb

def shown : Option (Tb F) → List F
  | none => []
  | some tb => shownTb tb

end Unpy.EquipTb.Spec
