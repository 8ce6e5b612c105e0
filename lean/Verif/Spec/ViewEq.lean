import Verif.Model.ViewEq
/-! # What comparing and printing a view should do -/
namespace Unpy.Spec.View
open Unpy Unpy.View
universe u
variable {α : Type u}

/-- Two sequences are equal if they have the same length, and no item differs from that at the same place.  The first difference
decides, or the first comparison that fails. -/
def sameItems (ne : α → α → Res Bool) (l l' : List α) : Res Bool :=
  if l.length = l'.length then
    match (l.zip l').find? (fun p => ne p.1 p.2 ≠ .ok false) with
    | none => .ok true
    | some p => match ne p.1 p.2 with
      | .ok _ => .ok false
      | .error e => .error e
  else .ok false

/-- A part of a sequence is of the same type; that of a named tuple is a tuple. -/
def part (kind : Kind) (items : List α) : PySeq α := match kind with
  | .namedtuple _ => ⟨.tuple, items⟩
  | k => ⟨k, items⟩

end Unpy.Spec.View
