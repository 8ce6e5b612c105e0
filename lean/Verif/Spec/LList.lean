import Verif.Model.LList
/-!
# Independent specifications for the llist.py properties

Only the type of objects is shared with the model.
-/
namespace Unpy.Spec.LList
open Unpy.LList (Obj)
universe u
variable {α : Type u}

/-- `l` is a linked list with exactly these items, in this order. -/
inductive IsList : Obj α → List (Obj α) → Prop
  | nil : IsList .nil []
  | cons {a d xs} : IsList d xs → IsList (.cons a d) (a :: xs)

/-- The linked lists `ls` have the items `xss`, respectively. -/
inductive AreLists : List (Obj α) → List (List (Obj α)) → Prop
  | nil : AreLists [] []
  | cons {l xs ls xss} : IsList l xs → AreLists ls xss → AreLists (l :: ls) (xs :: xss)

/-- `l` is a chain of cells holding these items whose last cdr is the atom `t`: not a linked list. -/
inductive IsImproper : Obj α → List (Obj α) → α → Prop
  | last {a t} : IsImproper (.cons a (.atom t)) [a] t
  | cons {a d xs t} : IsImproper d xs t → IsImproper (.cons a d) (a :: xs) t

/-- `ts` are the tails of `l`: `l` itself, its cdr, the cdr of that, and so on, up to the last one that is a cell. -/
inductive AreTails : Obj α → List (Obj α) → Prop
  | stop {l} : l.isCons = false → AreTails l []
  | cons {a d ts} : AreTails d ts → AreTails (.cons a d) (.cons a d :: ts)

/-- Same shape, and equal atoms at corresponding places. -/
inductive SameStructure (eqA : α → α → Bool) : Obj α → Obj α → Prop
  | atom {a b} : eqA a b = true → SameStructure eqA (.atom a) (.atom b)
  | nil : SameStructure eqA .nil .nil
  | cons {a a' d d'} : SameStructure eqA a a' → SameStructure eqA d d' →
      SameStructure eqA (.cons a d) (.cons a' d')

/-- The leaves (everything that is not a cons) of a tree, left to right, depth first. -/
def leaves : Obj α → List (Obj α)
  | .cons a d => leaves a ++ leaves d
  | x => [x]

/-- The leaves, but without a `nil` that is the cdr half of a cell. -/
def leavesNoNil : Obj α → List (Obj α)
  | .cons a .nil => leavesNoNil a
  | .cons a d => leavesNoNil a ++ leavesNoNil d
  | x => [x]

/-- No cell has a cons in its car half and a leaf in its cdr half. -/
def LeafAfterLeaf : Obj α → Prop
  | .cons a d => (a.isCons = true → d.isCons = true) ∧ LeafAfterLeaf a ∧ LeafAfterLeaf d
  | _ => True

end Unpy.Spec.LList
