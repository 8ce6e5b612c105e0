import Verif.Model.Overlap
/-! # Blocks in effect -/
namespace Unpy.Spec.Overlap
open Unpy.Overlap
variable {F R : Type}

/-- the blocks that have been entered and not left, the last entered first -/
def live : List (Nat × F) → List (Op F) → List (Nat × F)
  | l, [] => l
  | l, .enter i b :: ops => live ((i, b) :: l) ops
  | l, .leave i _ :: ops => live (l.filter (fun e => e.1 ≠ i)) ops

/-- what the program may do: enter a block with a new number, and leave a block that it is in -/
def Allowed : List (Nat × F) → List (Op F) → Prop
  | _, [] => True
  | l, .enter i b :: ops => i ∉ l.map (·.1) ∧ Allowed ((i, b) :: l) ops
  | l, .leave i b :: ops => (i, b) ∈ l ∧ Allowed (l.filter (fun e => e.1 ≠ i)) ops

/-- the blocks are nested: the block that is left is always the last one entered -/
def Nested : List (Nat × F) → List (Op F) → Prop
  | _, [] => True
  | l, .enter i b :: ops => Nested ((i, b) :: l) ops
  | l, .leave i b :: ops => ∃ rest, l = (i, b) :: rest ∧ Nested rest ops

/-- `r` is what the innermost of these blocks that has it says, if one has it; or else what is outside says -/
def Innermost (has : F → Option R) (blocks : List (Nat × F)) (outside : Option R) (r : Option R) : Prop :=
  (∃ before i b after x, blocks = before ++ (i, b) :: after ∧ has b = some x ∧ r = some x ∧ ∀ e ∈ before, has e.2 = none) ∨
  ((∀ e ∈ blocks, has e.2 = none) ∧ r = outside)

end Unpy.Spec.Overlap
