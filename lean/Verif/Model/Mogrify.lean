import Verif.Model.Eff
/-!
# Model of `mogrify` (unpythonic/collections.py:41-152) and `force` (unpythonic/lazyutil.py:80-100)

Mutable containers live in a heap and are referred to by address, so that updating in place, and one container
being inside another in two places, can be seen.  Immutable containers are values: their identity is not modelled.

Simplifications.  Views (collections.py:101-104, 130-132) and `MappingView` (collections.py:137-138) are not modelled.
`str`, `bytes`, `range`, `env` and `dyn` are atoms.  The user function does not itself change the containers being
walked.  A set is a list in the order of its iteration; of equal elements the one added first stays.  Containers
follow the protocol of the builtin they are named after.
-/
namespace Unpy.Mogrify
open Unpy.Fold (Err)

/-- Mutable containers: `list`, `set`, `dict` (with its keys, in order), `box`/`ThreadLocalBox`. -/
inductive MKind (κ : Type) where
  | list | set | dict (keys : List κ) | box
  deriving DecidableEq

/-- Immutable containers: a `Sequence` by class (tuples, named tuples), `frozenset`, `frozendict`, `Some`, `cons`,
`Values` (its two items are the tuple `rets` and the frozendict `kwrets`, funutil.py:304-305). -/
inductive IKind (κ : Type) where
  | seq (cls : Nat) | frozenset | frozendict (keys : List κ) | some | cons | values
  deriving DecidableEq

/-- Python objects: an atom, `nil`, an immutable container with its items (of a mapping: the values, in the order of
the keys), a reference to a mutable container. -/
inductive MVal (α κ : Type) where
  | atom (a : α)
  | nil
  | imm (k : IKind κ) (items : List (MVal α κ))
  | ref (addr : Nat)

/-- The mutable containers, by address: kind and items. -/
abbrev Heap (α κ : Type) := Nat → Option (MKind κ × List (MVal α κ))

/-- `eqv`, `hashable`: equality and hashability of objects, as used by sets. -/
structure Env (α κ : Type) where
  eqv : MVal α κ → MVal α κ → Bool
  hashable : MVal α κ → Bool

abbrev Out (σ ε α κ : Type) (β : Type) := Except (Err ε) β × (Heap α κ × σ)

variable {σ ε α κ : Type}

/-- `[doit(elt) for elt in x]` -/
def mapAll (go : MVal α κ → Heap α κ × σ → Option (Out σ ε α κ (MVal α κ))) :
    List (MVal α κ) → Heap α κ × σ → Option (Out σ ε α κ (List (MVal α κ)))
  | [], st => some (.ok [], st)
  | x :: xs, st => match go x st with
    | none => none
    | some (.error e, st) => some (.error e, st)
    | some (.ok y, st) => match mapAll go xs st with
      | none => none
      | some (.error e, st) => some (.error e, st)
      | some (.ok ys, st) => some (.ok (y :: ys), st)

/-- `{doit(elt) for elt in x}`: each result is added to the set right away, which raises TypeError if it is not
hashable; an element equal to one already there changes nothing. -/
def mapSet (E : Env α κ) (go : MVal α κ → Heap α κ × σ → Option (Out σ ε α κ (MVal α κ))) :
    List (MVal α κ) → List (MVal α κ) → Heap α κ × σ → Option (Out σ ε α κ (List (MVal α κ)))
  | acc, [], st => some (.ok acc, st)
  | acc, x :: xs, st => match go x st with
    | none => none
    | some (.error e, st) => some (.error e, st)
    | some (.ok y, st) =>
      if E.hashable y then mapSet E go (if acc.any (E.eqv y) then acc else acc ++ [y]) xs st
      else some (.error (.py .TypeError), st)

/-- Whether the container is built by a set comprehension. -/
def MKind.isSet : MKind κ → Bool
  | .set => true
  | _ => false
def IKind.isSet : IKind κ → Bool
  | .frozenset => true
  | _ => false

/-- The items of a container, processed (the comprehensions of collections.py:84-151). -/
def items (E : Env α κ) (go : MVal α κ → Heap α κ × σ → Option (Out σ ε α κ (MVal α κ))) (isSet : Bool)
    (xs : List (MVal α κ)) (st : Heap α κ × σ) : Option (Out σ ε α κ (List (MVal α κ))) :=
  if isSet then mapSet E go [] xs st else mapAll go xs st

/-- What an exception becomes when it comes out of a generator: a StopIteration is replaced by a RuntimeError (PEP 479). -/
def escape : Err ε → Err ε
  | .py .StopIteration => .py .RuntimeError
  | e => e

/-- The items of an immutable container, processed.  Those of a sequence are processed by a generator expression
(collections.py:147), all others in comprehensions, or one by one. -/
def immItems (E : Env α κ) (go : MVal α κ → Heap α κ × σ → Option (Out σ ε α κ (MVal α κ))) (k : IKind κ)
    (xs : List (MVal α κ)) (st : Heap α κ × σ) : Option (Out σ ε α κ (List (MVal α κ))) :=
  match k, items E go k.isSet xs st with
  | .seq _, some (.error e, st) => some (.error (escape e), st)
  | _, o => o

/-- `x.clear()`, then `x.extend(y)` or `x.update(y)`; for a box, `x.set(y)` (collections.py:93-99, 106-112, 116-118,
121). -/
def store (h : Heap α κ) (addr : Nat) (k : MKind κ) (xs : List (MVal α κ)) : Heap α κ :=
  fun a => if a = addr then some (k, xs) else h a

/-- `doit` (collections.py:84-151); `func` is applied to atoms (collections.py:151).  The first number bounds the depth
of the recursion; `none`: not deep enough.  A mutable container is emptied and filled only when all its items have been
processed. -/
def doit (E : Env α κ) (func : α → σ → Except (Err ε) (MVal α κ) × σ) :
    Nat → MVal α κ → Heap α κ × σ → Option (Out σ ε α κ (MVal α κ))
  | 0, _, _ => none
  | _ + 1, .atom a, st => let r := func a st.2; some (r.1, (st.1, r.2))
  | _ + 1, .nil, st => some (.ok .nil, st)
  | n + 1, .imm k xs, st => match immItems E (doit E func n) k xs st with
    | none => none
    | some (.error e, st) => some (.error e, st)
    | some (.ok ys, st) => some (.ok (.imm k ys), st)
  | n + 1, .ref addr, st => match st.1 addr with
    | none => some (.ok (.ref addr), st)          -- there are no dangling references
    | some (k, xs) => match items E (doit E func n) k.isSet xs st with
      | none => none
      | some (.error e, st) => some (.error e, st)
      | some (.ok ys, st) => some (.ok (.ref addr), (store st.1 addr k ys, st.2))

/-- `mogrify(func, container)` (collections.py:152) ends with this outcome, however large the bound. -/
def Mogrifies (E : Env α κ) (func : α → σ → Except (Err ε) (MVal α κ) × σ) (x : MVal α κ) (st : Heap α κ × σ)
    (r : Out σ ε α κ (MVal α κ)) : Prop := ∃ N, ∀ n, N ≤ n → doit E func n x st = some r

/-! ## `force` -/

/-- Atoms: a promise, by identity, or anything else. -/
inductive Atom (β : Type) where
  | lazy (id : Nat)
  | plain (b : β)
  deriving DecidableEq

/-- A promise that has not been forced yet, or has: with its value, or the exception of its thunk
(lazyutil.py:33-71, one thread).  `thunk` is what its evaluation does.  Simplifications: what it raises is an `Exception`; the value is an atom (possibly
another promise). -/
inductive Promise (ε β : Type) where
  | pending (thunk : Except (Err ε) (Atom β))
  | done (result : Except (Err ε) (Atom β))

/-- The state of the promises, and the promises whose thunk was run, in that order. -/
structure World (ε β : Type) where
  promises : Nat → Promise ε β
  runs : List Nat

/-- `force1(x)` (lazyutil.py:78-88) on an atom. -/
def force1 {β : Type} : Atom β → World ε β → Except (Err ε) (MVal (Atom β) κ) × World ε β
  | .plain b, w => (.ok (.atom (.plain b)), w)
  | .lazy i, w => match w.promises i with
    | .done r => (r.map .atom, w)
    | .pending r => (r.map .atom, ⟨fun j => if j = i then .done r else w.promises j, w.runs ++ [i]⟩)

end Unpy.Mogrify
