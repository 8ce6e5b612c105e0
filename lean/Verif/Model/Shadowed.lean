import Verif.Model.Slices
/-!
# Model of reading a `ShadowedSequence` directly (collections.py:741-846), and of rebuilding sequences of other types (fup.py:105-118)

`Model/Slices.lean` has the layers, reading one item, and `fupdate`, which reads all items once, in order.  Here the object is
subscripted by the user.

Simplified: a `ShadowedSequence` without effect (`ix is None`) is not modelled; the sequence at the bottom is a list, tuple, named
tuple, string or range.
-/
namespace Unpy.Shadowed
open Unpy Unpy.Slices
universe u
variable {α : Type u}

/-- The type of the sequence at the bottom -/
inductive Base where
  | list
  | tuple
  | named (cls : Nat)
  | str
  | range
  deriving DecidableEq, Repr

/-- What a constructor makes of a generator: a sequence of a type, or a string that describes the generator, as
`"<generator object ShadowedSequence...>"` -/
inductive Made (α : Type u) where
  | seq (b : Base) (l : List α)
  | description
  deriving DecidableEq, Repr

/-- `ctor(gen)`, where `ctor` is the type, and `_make` for a named tuple (fup.py:109-112); `gen` gives these items, or raises.  `str(gen)`
does not run the generator, `range(gen)` raises. -/
def construct (b : Base) (gen : Res (List α)) : Res (Made α) :=
  match b with
  | .str => .ok .description
  | .range => .error .TypeError
  | b => match gen with
    | .ok l => .ok (.seq b l)
    | .error e => .error e

/-- `fupdate(target, ...)` for a target of that type with these items (fup.py:105-118) -/
def fupdateAs (b : Base) (l : List α) (us : List (Upd α)) : Res (Made α) :=
  match shadows (.base l) us with
  | .error e => .error e
  | .ok s => construct b (s.collect 0 s.len [])

/-- collections.py:805-809 `__getitem__` with an index -/
def item (s : Seq α) (k : Int) (cs : List Nat) : Res α × List Nat :=
  if k ≥ s.len || k < -s.len then (.error .IndexError, cs) else s.getone k cs

/-- The generator of collections.py:802: the items at these positions, one after the other.  A StopIteration that escapes becomes
RuntimeError (PEP 479). -/
def itemsAt (s : Seq α) : List Int → List Nat → Res (List α) × List Nat
  | [], cs => (.ok [], cs)
  | j :: js, cs =>
    match s.getone j cs with
    | (.error .StopIteration, cs') => (.error .RuntimeError, cs')
    | (.error e, cs') => (.error e, cs')
    | (.ok a, cs') => match itemsAt s js cs' with
      | (.ok l, cs2) => (.ok (a :: l), cs2)
      | (.error e, cs2) => (.error e, cs2)

/-- The type of `self.seq`: the sequence at the bottom if there is one layer, otherwise `ShadowedSequence` (none) -/
def under (b : Base) : Seq α → Option Base
  | .base _ => some b
  | .shadowInt (.base _) _ _ => some b
  | .shadowSlice (.base _) _ _ => some b
  | _ => none

/-- collections.py:796-802 `__getitem__` with a slice, where the sequence at the bottom has type `b`: `range(n)[k]`, then
`ctor(...)` with `ctor = type(self.seq)`, and `tuple` if that is a named tuple.  `ShadowedSequence(generator)` raises TypeError
(collections.py:770-771). -/
def slice (b : Base) (s : Seq α) (k : Slice) (cs : List Nat) : Res (Made α) × List Nat :=
  if k.by = 0 then (.error .ValueError, cs) else
  match under b s with
  | none => (.error .TypeError, cs)
  | some .str => (.ok .description, cs)
  | some .range => (.error .TypeError, cs)
  | some b =>
    let r := itemsAt s (k.indices s.len) cs
    match r.1 with
    | .ok l => (.ok (.seq (match b with
      | .named _ => .tuple
      | b => b) l), r.2)
    | .error e => (.error e, r.2)

end Unpy.Shadowed
