import Verif.Model.ForceArgs
/-!
# Ordinary arguments

Shared with the model: the types of objects and functions, and the heap.
-/
namespace Unpy.Spec.ForceArgs
open Unpy.ForceArgs (Obj Heap Env MKind IKind Func Body)

variable {α σ R : Type}

/-- What every set is like: its elements are hashable, and no two of them are equal. -/
def SetLike (E : Env α) (xs : List (Obj α)) : Prop :=
  (∀ x ∈ xs, E.hashable x = true) ∧ xs.Pairwise fun x y => E.eqv y x = false

/-- The object is at most `n` containers deep (in particular, it does not contain itself), and in it there are only atoms and containers that can
be built from their items; no views of mappings. -/
def Plain (E : Env α) (h : Heap α) : Nat → Obj α → Prop
  | 0, _ => False
  | _ + 1, .atom _ => True
  | n + 1, .imm k xs => (∀ x ∈ xs, Plain E h n x) ∧ (∀ cls, k = .seq cls → E.ctor cls = true) ∧
    (k = .frozenset ∨ k = .newset → SetLike E xs)
  | n + 1, .ref addr => ∃ k xs, h addr = some (k, xs) ∧ (∀ x ∈ xs, Plain E h n x) ∧ (k = .set → SetLike E xs)
  | _ + 1, .view .. => False

/-- The function is called with these arguments by Python itself. -/
def direct (f : Func α σ R) : Body α σ R := f.body

end Unpy.Spec.ForceArgs
