import Verif.Model.View
/-!
# Model of comparing and printing views (`_StrReprEqMixin`, collections.py:559-577)

Simplification: `zip(self, other)` reads both in one go, that is, comparing two items does not change the sequences.
-/
namespace Unpy.View
open Unpy
universe u
variable {α : Type u}

/-- What a view is compared with: another view, or an object that may have a `len` and may be iterable. -/
inductive Other (α : Type u) where
  | var (w : Nat)
  | obj (len : Option Nat) (items : Option (List α))

/-- A list, tuple, or another sequence with these items -/
def Other.seq (l : List α) : Other α := .obj (some l.length) (some l)

/-- The loop (collections.py:574-577); `ne` is the operator `!=` of the items. -/
def eqLoop (ne : α → α → Res Bool) : List (α × α) → Res Bool
  | [] => .ok true
  | (v1, v2) :: rest => match ne v1 v2 with
    | .error e => .error e
    | .ok true => .ok false
    | .ok false => eqLoop ne rest

/-- `len(v)` of the view in a variable -/
def lenOf (st : St α) (v : Nat) : Res Nat × St α := match step st (.use v .len) with
  | (.ok (.num n), st) => (.ok n, st)
  | (.ok _, st) => (.error .TypeError, st)
  | (.error e, st) => (.error e, st)

/-- The items of the view in a variable -/
def itemsOf (st : St α) (v : Nat) : Res (List α) × St α := match step st (.use v .iter) with
  | (.ok (.items l), st) => (.ok l, st)
  | (.ok _, st) => (.error .TypeError, st)
  | (.error e, st) => (.error e, st)

/-- `len(other)` -/
def lenOther (st : St α) : Other α → Res Nat × St α
  | .var w => lenOf st w
  | .obj (some n) _ => (.ok n, st)
  | .obj none _ => (.error .TypeError, st)

/-- The items of `other` -/
def itemsOther (st : St α) : Other α → Res (List α) × St α
  | .var w => itemsOf st w
  | .obj _ (some l) => (.ok l, st)
  | .obj _ none => (.error .TypeError, st)

/-- `other is self` (collections.py:570) -/
def isSame (st : St α) (v : Nat) : Other α → Bool
  | .var w => st.vars[v]? == st.vars[w]?
  | .obj _ _ => false

/-- `v == other` (collections.py:569-577).  If `other` is not a view, its own `__eq__` does not know about views, so that
`other == v` is the same. -/
def eq (ne : α → α → Res Bool) (st : St α) (v : Nat) (other : Other α) : Res Bool × St α :=
  if isSame st v other then (.ok true, st)
  else match lenOf st v with
    | (.error e, st) => (.error e, st)
    | (.ok n, st) => match lenOther st other with
      | (.error e, st) => (.error e, st)
      | (.ok m, st) =>
        if n ≠ m then (.ok false, st)
        else match itemsOf st v with
          | (.error e, st) => (.error e, st)
          | (.ok l, st) => match itemsOther st other with
            | (.error e, st) => (.error e, st)
            | (.ok l', st) => (eqLoop ne (l.zip l'), st)

/-- Types of sequences to view -/
inductive Kind where
  | list | tuple | namedtuple (name : String) | str | range | bytes
  deriving DecidableEq, Repr

/-- A sequence of a type; of a string, the items are its characters. -/
structure PySeq (α : Type u) where
  kind : Kind
  items : List α
  deriving DecidableEq, Repr

/-- `ctor(x for x in self)` (collections.py:561-563): a string is not made of the items of a generator, but shows the generator, as
`generator`; a range is not made of a generator at all. -/
def lowlevelRepr (generator : List α) (kind : Kind) (items : List α) : Res (PySeq α) :=
  let ctor : Kind := match kind with
    | .namedtuple _ => .tuple
    | k => k
  match ctor with
  | .str => .ok ⟨.str, generator⟩
  | .range => .error .TypeError
  | k => .ok ⟨k, items⟩

/-- What `str(v)` shows (collections.py:564-565): the string of a sequence; `repr(v)` (566-567) shows the class and the representation of that. -/
def shown (generator : List α) (kind : Kind) (st : St α) (v : Nat) : Res (PySeq α) × St α := match itemsOf st v with
  | (.ok l, st) => (lowlevelRepr generator kind l, st)
  | (.error e, st) => (.error e, st)

end Unpy.View
