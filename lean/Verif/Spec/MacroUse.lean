import Verif.Model.MacroUse
/-!
# Uses of macros
-/
namespace Unpy.MacroUse.Spec
open Unpy Unpy.MacroUse
variable {M : Type}

/-- The tree stands for the macro: a name bound to it, or a capture of it. -/
inductive Refers (E : Expander M) (m : M) : Tree → Prop
  | name {x} : E.isbound x = some m → Refers E m (.name x)
  | captured {key} : E.isbound (E.lookup key) = some m → Refers E m (.captured key)

/-- A macro as written in a `with`: itself, or with arguments in brackets or parentheses -/
inductive Head (E : Expander M) (m : M) : Tree → Prop
  | bare {t} : Refers E m t → Head E m t
  | brackets {t args} : Refers E m t → Head E m (.subscript t args)
  | parentheses {t} : Refers E m t → Head E m (.call t)

/-- Rename all names in a tree. -/
def rename (r : String → String) : Tree → Tree
  | .name x => .name (r x)
  | .captured key => .captured key
  | .attribute v x => .attribute (rename r v) (r x)
  | .subscript v s => .subscript (rename r v) (rename r s)
  | .call f => .call (rename r f)
  | .with_ item others => .with_ (rename r item) (others.map (rename r))
  | .other n => .other n

/-- The expander after macros have been imported under other names -/
def Renamed (r : String → String) (E E' : Expander M) : Prop :=
  (∀ x, E'.isbound (r x) = E.isbound x) ∧ ∀ key, E'.isbound (E'.lookup key) = E.isbound (E.lookup key)

/-- The macros that assert something, as the library names them -/
def testMacros : List String := ["test", "test_signals", "test_raises", "error", "fail", "warn"]

end Unpy.MacroUse.Spec
