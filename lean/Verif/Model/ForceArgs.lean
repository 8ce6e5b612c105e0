import Verif.Model.Py
import Verif.Model.PyDict
/-!
# Model of calls through the library: `maybe_force_args` (`unpythonic/lazyutil.py`) on ordinary arguments

All functions of the library that call a function given by the user (`curry`, `memoize`, `compose`, `flip`, `rotate`, `apply`,
`notf`, `andf`, `orf`, `tokth`, the pipes, `withself`, `call`, `callwith`) do so by `maybe_force_args`, which prepares the
arguments by `mogrify(force1, ...)`.  Here no argument is or contains a promise, so that `force1` leaves the atoms alone; what `mogrify`
does with the containers on the way (collections.py:84-151) is the point.

Mutable containers live in a heap and are referred to by address; immutable containers are values: their identity is not modelled.
A set is a list in the order of its iteration, the order of insertion; of equal elements the one added first stays.  Keys of
mappings are atoms.  `str`, `bytes`, `range`, `env` and `dyn` are atoms.  Named tuples are `seq`.  Not modelled: `ThreadLocalBox`
(as a box), views of sequences (`SequenceView`, `MutableSequenceView`), containers with a protocol of their own.
-/
namespace Unpy.ForceArgs

/-- Mutable containers: `MutableSequence`, `MutableSet`, `MutableMapping` (with its keys, in order), `box`. -/
inductive MKind (α : Type) where
  | list | set | dict (keys : List α) | box
  deriving DecidableEq

/-- Immutable containers: tuples; other instances of `Sequence`, by class; `Set`; `Mapping`, with its keys; `Some`; `cons`; `Values`, with
the number of positional values and the names of the others.  `newset` is a set that was just made, so that nobody else has a
reference to it. -/
inductive IKind (α : Type) where
  | tuple | seq (cls : Nat) | frozenset | mapping (keys : List α) | some | cons | values (n : Nat) (names : List String)
  | newset
  deriving DecidableEq

/-- `d.keys()`, `d.values()`, `d.items()` -/
inductive Which where
  | keys | values | items
  deriving DecidableEq

/-- Python objects: an atom, an immutable container with its items (of a mapping: the values), a reference to a mutable container, a
view of the mutable mapping at an address. -/
inductive Obj (α : Type) where
  | atom (a : α)
  | imm (k : IKind α) (items : List (Obj α))
  | ref (addr : Nat)
  | view (w : Which) (addr : Nat)

/-- The mutable containers, by address: kind and items. -/
abbrev Heap (α : Type) := Nat → Option (MKind α × List (Obj α))

/-- Equality and hashability of objects, as used by sets; and whether the constructor of a class of sequences takes an iterable. -/
structure Env (α : Type) where
  eqv : Obj α → Obj α → Bool
  hashable : Obj α → Bool
  ctor : Nat → Bool

variable {α : Type}

/-- What iterating over a view of a mapping gives. -/
def viewItems (keys : List α) (xs : List (Obj α)) : Which → List (Obj α)
  | .keys => keys.map .atom
  | .values => xs
  | .items => List.zipWith (fun k x => .imm .tuple [.atom k, x]) keys xs

/-- `[doit(elt) for elt in x]` -/
def mapAll (go : Obj α → Heap α → Res (Obj α) × Heap α) : List (Obj α) → Heap α → Res (List (Obj α)) × Heap α
  | [], h => (.ok [], h)
  | x :: xs, h => match go x h with
    | (.error e, h) => (.error e, h)
    | (.ok y, h) => match mapAll go xs h with
      | (.error e, h) => (.error e, h)
      | (.ok ys, h) => (.ok (y :: ys), h)

/-- `{doit(elt) for elt in x}`: each result is added right away, which raises TypeError if it is not hashable; an element equal to
one already there changes nothing. -/
def mapSet (E : Env α) (go : Obj α → Heap α → Res (Obj α) × Heap α) :
    List (Obj α) → List (Obj α) → Heap α → Res (List (Obj α)) × Heap α
  | acc, [], h => (.ok acc, h)
  | acc, x :: xs, h => match go x h with
    | (.error e, h) => (.error e, h)
    | (.ok y, h) =>
      if E.hashable y then mapSet E go (if acc.any (E.eqv y) then acc else acc ++ [y]) xs h else (.error .TypeError, h)

/-- `x.clear()`, then `x.extend(y)` or `x.update(y)`; for a box, `x.set(y)` (collections.py:92-97, 105-110, 116-117, 120). -/
def store (h : Heap α) (addr : Nat) (k : MKind α) (xs : List (Obj α)) : Heap α :=
  fun a => if a = addr then some (k, xs) else h a

/-- Whether the container is built from a set comprehension. -/
def MKind.isSet : MKind α → Bool
  | .set => true
  | _ => false
def IKind.isSet : IKind α → Bool
  | .frozenset | .newset => true
  | _ => false
/-- Whether the constructor takes the items. -/
def IKind.buildable (E : Env α) : IKind α → Bool
  | .seq cls => E.ctor cls
  | _ => true

/-- `doit` (collections.py:84-151) for `force1` and no promises.  The number is what is left of Python's stack; RecursionError, a RuntimeError,
if it does not suffice.  The constructor of a class of sequences may not take an iterable (TypeError, collections.py:143-147).  A view of
a mapping becomes a set (collections.py:136-137). -/
def doit (E : Env α) : Nat → Obj α → Heap α → Res (Obj α) × Heap α
  | 0, _, h => (.error .RuntimeError, h)
  | _ + 1, .atom a, h => (.ok (.atom a), h)
  | n + 1, .imm k xs, h =>
    if k.buildable E then
      match (if k.isSet then mapSet E (doit E n) [] xs h else mapAll (doit E n) xs h) with
      | (.error e, h) => (.error e, h)
      | (.ok ys, h) => (.ok (.imm k ys), h)
    else (.error .TypeError, h)
  | n + 1, .ref addr, h => match h addr with
    | none => (.ok (.ref addr), h)            -- there are no dangling references
    | some (k, xs) => match (if k.isSet then mapSet E (doit E n) [] xs h else mapAll (doit E n) xs h) with
      | (.error e, h) => (.error e, h)
      | (.ok ys, h) => (.ok (.ref addr), store h addr k ys)
  | n + 1, .view w addr, h => match h addr with
    | some (.dict keys, xs) => match mapSet E (doit E n) [] (viewItems keys xs w) h with
      | (.error e, h) => (.error e, h)
      | (.ok ys, h) => (.ok (.imm .newset ys), h)
    | _ => (.ok (.view w addr), h)            -- there are no views of anything else

/-! ## Calls -/

variable {σ R : Type}

/-- What calling a function does: it sees its arguments, and the containers, and may change anything. -/
abbrev Body (α σ R : Type) := List (Obj α) → PyDict String (Obj α) → Heap α → σ → Res R × Heap α × σ

/-- A function, and whether it is marked by `passthrough_lazy_args` (`islazy`, lazyutil.py:102-111). -/
structure Func (α σ R : Type) where
  lazy : Bool
  body : Body α σ R

/-- `maybe_force_args(f, *thunks, **kwthunks)` (lazyutil.py:113-124), except for `jump`.  Its own first parameter is called `f`: a named argument of
this name is a TypeError.  `depth` is what is left of Python's stack. -/
def maybeForceArgs (E : Env α) (depth : Nat) (f : Func α σ R) : Body α σ R := fun args kwargs h s =>
  if PyDict.has kwargs "f" then (.error .TypeError, h, s)
  else if f.lazy then f.body args kwargs h s
  else match mapAll (doit E depth) args h with
    | (.error e, h) => (.error e, h, s)
    | (.ok args, h) => match mapAll (doit E depth) (kwargs.map Prod.snd) h with
      | (.error e, h) => (.error e, h, s)
      | (.ok vals, h) => f.body args (List.zip (kwargs.map Prod.fst) vals) h s

/-- `call(f, *args, **kwargs)` (funutil.py:28-96); a function is no container, so that `force(f)` is `f`. -/
def call (E : Env α) (depth : Nat) (f : Func α σ R) : Body α σ R := maybeForceArgs E depth f

/-- `callwith(*args, **kwargs)(f)` (funutil.py:100-197) -/
def callwith (E : Env α) (depth : Nat) (args : List (Obj α)) (kwargs : PyDict String (Obj α)) (f : Func α σ R) :
    Heap α → σ → Res R × Heap α × σ := maybeForceArgs E depth f args kwargs

/-- `withself(f)` (fun.py:1046-1075), with `self` for the resulting function, an object that is no container. -/
def withself (E : Env α) (depth : Nat) (self : α) (f : Func α σ R) : Func α σ R :=
  ⟨f.lazy, fun args kwargs h s => maybeForceArgs E depth f (.atom self :: args) kwargs h s⟩

/-! ## A list, and another thread -/

/-- How far `doit` is with a list (collections.py:90-98): not begun; the new items are made; the list is empty; it is filled again.
The items are atoms. -/
inductive Stage (α : Type) where
  | begin
  | copied (items : List α)
  | cleared (items : List α)
  | done

/-- What happens next: `doit` takes a step, or another thread appends to the list. -/
inductive Ev (α : Type) where
  | own
  | append (a : α)

/-- One step (collections.py:91, 93, 97), or `list.append` in another thread. -/
def step : List α × Stage α → Ev α → List α × Stage α
  | (xs, .begin), .own => (xs, .copied xs)
  | (_, .copied ys), .own => ([], .cleared ys)
  | (xs, .cleared ys), .own => (xs ++ ys, .done)
  | (xs, .done), .own => (xs, .done)
  | (xs, st), .append a => (xs ++ [a], st)

/-- The list `xs` is an argument of a call, while other things happen. -/
def interleaved (xs : List α) (evs : List (Ev α)) : List α × Stage α := evs.foldl step (xs, .begin)

end Unpy.ForceArgs
