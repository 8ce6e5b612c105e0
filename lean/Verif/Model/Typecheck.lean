import Verif.Model.Py
/-!
# Model of `unpythonic/typecheck.py`

`isoftype` is modelled over a data type `Ty` of type specifications, as they look at run time on Python 3.11
and later: a special form of the `typing` module, a bare generic (`typing.List`), a subscripted generic
(`typing.List[int]`), or a class.  What Python itself knows of values and classes (`isinstance`, `issubclass`,
iteration, truth value) is a `World`.

Not modelled: PEP 604 unions and PEP 585 generics (`int | str`, `list[int]`), `typing.Generic`.
-/
namespace Unpy.Typecheck

/-- The classes of the standard library that `isoftype` names. -/
inductive Std where
  | str | bytes | int
  | tuple
  | dict | mutableMapping | mapping
  | itemsView
  | list | frozenset | set | deque | byteString | mutableSet | keysView | valuesView | mappingView
  | abstractSet | mutableSequence | sequence
  | callable
  | iterator | iterable | container | collection | hashable | sized
  deriving DecidableEq, Repr

/-- The three mapping types (typecheck.py:267-269), as the pairs (statictype, runtimetype), both written as
the run-time class. -/
inductive MapKind where
  | dict | mutableMapping | mapping
  deriving DecidableEq, Repr

def MapKind.std : MapKind → Std
  | .dict => .dict
  | .mutableMapping => .mutableMapping
  | .mapping => .mapping

/-- The collection types (typecheck.py:318-331). -/
inductive CollKind where
  | list | frozenset | set | deque | byteString | mutableSet | keysView | valuesView | mappingView
  | abstractSet | mutableSequence | sequence
  deriving DecidableEq, Repr

def CollKind.std : CollKind → Std
  | .list => .list | .frozenset => .frozenset | .set => .set | .deque => .deque
  | .byteString => .byteString | .mutableSet => .mutableSet | .keysView => .keysView
  | .valuesView => .valuesView | .mappingView => .mappingView | .abstractSet => .abstractSet
  | .mutableSequence => .mutableSequence | .sequence => .sequence

/-- The one-trick ponies (typecheck.py:201-206). -/
inductive Pony where
  | iterator | iterable | container | collection | hashable | sized
  deriving DecidableEq, Repr

def Pony.std : Pony → Std
  | .iterator => .iterator | .iterable => .iterable | .container => .container
  | .collection => .collection | .hashable => .hashable | .sized => .sized

/-- The protocols (typecheck.py:217-223). -/
inductive Proto where
  | int | float | complex | bytes | index | abs | round
  deriving DecidableEq, Repr

/-- A type specification; `C` is the type of classes. -/
inductive Ty (C : Type) where
  /-- `typing.Any` -/
  | any
  /-- `typing.TypeVar("T", *constraints, bound=...)` -/
  | typevar (constraints : List (Ty C)) (bound : Option C)
  /-- `typing.Union[...]`, and `typing.Optional[T]`, which is `Union[T, NoneType]` -/
  | union (args : List (Ty C))
  /-- bare `typing.Union` -/
  | bareUnion
  /-- `typing.NewType("N", supertype)` -/
  | newtype (supertype : Ty C)
  | pony (p : Pony)
  /-- `typing.Reversible` -/
  | reversible
  /-- `typing.SupportsInt` and friends -/
  | supports (p : Proto)
  /-- a bare generic: `typing.Tuple`, `typing.List`, `typing.Dict`, `typing.Callable`, ... -/
  | bare (k : Std)
  /-- `typing.Tuple[T, ...]` -/
  | tupleAll (t : Ty C)
  /-- `typing.Tuple[T1, ..., Tn]`; `[]` is `typing.Tuple[()]`, whose `__args__` is empty -/
  | tupleOf (ts : List (Ty C))
  /-- `typing.Dict[K, V]` and friends -/
  | map (k : MapKind) (key value : Ty C)
  /-- `typing.ItemsView[K, V]` -/
  | items (key value : Ty C)
  /-- `typing.List[T]` and friends -/
  | coll (k : CollKind) (t : Ty C)
  /-- `typing.Callable[[...], T]`; its arguments are never looked at -/
  | callable
  /-- a class -/
  | cls (c : C)
  /-- any other object of the `typing` module -/
  | other

/-- What Python knows of the values and classes of a program. -/
structure World (C V : Type) where
  std : Std → C
  /-- `issubclass` -/
  sub : C → C → Bool
  /-- `isinstance` -/
  inst : V → C → Bool
  /-- `for x in value` -/
  iter : V → List V
  /-- `for k, v in value.items()` of a mapping, `for k, v in value` of an items view -/
  pairs : V → List (V × V)
  /-- `bool(value)` -/
  truthy : V → Bool
  /-- `callable(value)` -/
  isCallable : V → Bool
  /-- `hasattr(value, "__reversed__")` -/
  hasReversed : V → Bool
  /-- `isinstance(value, typing.Reversible)` -/
  isReversible : V → Bool
  /-- `safeissubclass(type(value), typing.SupportsInt)` and friends -/
  supports : V → Proto → Bool

/-- `any(f(x) for x in xs)`: stops at the first true one; an exception propagates. -/
def anyM (f : α → Res Bool) : List α → Res Bool
  | [] => .ok false
  | x :: xs =>
    match f x with
    | .error e => .error e
    | .ok true => .ok true
    | .ok false => anyM f xs

/-- `all(f(x) for x in xs)` -/
def allM (f : α → Res Bool) : List α → Res Bool
  | [] => .ok true
  | x :: xs =>
    match f x with
    | .error e => .error e
    | .ok false => .ok false
    | .ok true => allM f xs

/-- `isoftype(k, K) and isoftype(v, V)` -/
def both (f g : V → Res Bool) (kv : V × V) : Res Bool :=
  match f kv.1 with
  | .error e => .error e
  | .ok false => .ok false
  | .ok true => g kv.2

variable {C V : Type} [DecidableEq C]

/-- `ismapping` (typecheck.py:254-266), and the same steps for `ItemsView` (typecheck.py:275-287); `f` and
`g` are the checks of keys and values. -/
def ismapping (w : World C V) (runtimetype : C) (f g : V → Res Bool) (v : V) : Res Bool :=
  if !w.inst v runtimetype then .ok false
  else if !w.truthy v then .ok false
  else allM (both f g) (w.pairs v)

/-- `iscollection` (typecheck.py:295-317); `f` is the check of the elements. -/
def iscollection (w : World C V) (runtimetype : C) (f : V → Res Bool) (v : V) : Res Bool :=
  if !w.inst v runtimetype then .ok false
  else if !w.truthy v then .ok false
  else allM f (w.iter v)

/-- The check against an unconstrained `TypeVar`, used when there are no type arguments. -/
def unconstrained (_ : V) : Res Bool := .ok true

/-- The table of typecheck.py:267-269, in order. -/
def mapKinds : List MapKind := [.dict, .mutableMapping, .mapping]

/-- The table of typecheck.py:318-331, in order. -/
def collKinds : List CollKind :=
  [.list, .frozenset, .set, .deque, .byteString, .mutableSet, .keysView, .valuesView, .mappingView,
   .abstractSet, .mutableSequence, .mappingView, .sequence]

/-- The tests from `safeissubclass(T, typing.Text)` on (typecheck.py:229-374), for a `T` that has no type
arguments: a class, or a bare generic.  `strOrBytes` is `T in (str, bytes)`; `fallback` is what is done when
no test applies. -/
def byClass (w : World C V) (v : V) (c : C) (strOrBytes : Bool) (fallback : Res Bool) : Res Bool :=
  if w.sub c (w.std .str) then .ok (w.inst v (w.std .str))
  else if w.sub c (w.std .tuple) then .ok (w.inst v (w.std .tuple))
  else match mapKinds.find? (fun k => w.sub c (w.std k.std)) with
    | some k => ismapping w (w.std k.std) unconstrained unconstrained v
    | none =>
      if w.sub c (w.std .itemsView) then ismapping w (w.std .itemsView) unconstrained unconstrained v
      else match (if strOrBytes then none else collKinds.find? (fun k => w.sub c (w.std k.std))) with
        | some k =>
          iscollection w (w.std k.std)
            (if k = .byteString then fun x => .ok (w.inst x (w.std .int)) else unconstrained) v
        | none =>
          if w.sub c (w.std .callable) then .ok (w.isCallable v)
          else fallback

mutual
/-- `isinstance(value, T)` (typecheck.py:191), which is Python's own: it works for classes, bare generics (for these it is `isinstance` with the class they stand for), protocols, and unions
of such, and raises TypeError for the rest.  Simplified: a method that only the object has, and not its class, does not count for the protocols; and all `other` objects raise. -/
def pyIsinstance (w : World C V) (v : V) : Ty C → Res Bool
  | .cls c => .ok (w.inst v c)
  | .bare k => .ok (w.inst v (w.std k))
  | .pony p => .ok (w.inst v (w.std p.std))
  | .reversible => .ok (w.isReversible v)
  | .supports p => .ok (w.supports v p)
  | .union ts => pyIsinstanceAny w v ts
  | _ => .error .TypeError

/-- `isinstance(value, typing.Union[...])`: the members in order, until one is right.  `typing.Any` is here a class without instances. -/
def pyIsinstanceAny (w : World C V) (v : V) : List (Ty C) → Res Bool
  | [] => .ok false
  | .any :: ts => pyIsinstanceAny w v ts
  | t :: ts =>
    match pyIsinstance w v t with
    | .error e => .error e
    | .ok true => .ok true
    | .ok false => pyIsinstanceAny w v ts
end

mutual
/-- `isoftype(value, T)` (typecheck.py:28-374) -/
def isoftype (w : World C V) : Ty C → V → Res Bool
  | .any, _ => .ok true
  | .typevar [] _, _ => .ok true
  | .typevar (t :: ts) _, v => anyOf w (t :: ts) v
  | .union args, v => anyOf w args v
  | .bareUnion, _ => .ok false
  | .newtype t, v => pyIsinstance w v t
  | .pony p, v => .ok (w.inst v (w.std p.std))
  | .reversible, v => .ok (w.hasReversed v)
  | .supports p, v => .ok (w.supports v p)
  | .bare k, v => byClass w v (w.std k) false (.error .NotImplementedError)
  | .tupleAll t, v =>
    if !w.inst v (w.std .tuple) then .ok false
    else if !w.truthy v then .ok false
    else allM (isoftype w t) (w.iter v)
  | .tupleOf ts, v =>
    if !w.inst v (w.std .tuple) then .ok false
    else if ts.isEmpty then .ok true
    else if (w.iter v).length ≠ ts.length then .ok false
    else allOf w ts (w.iter v)
  | .map k key value, v => ismapping w (w.std k.std) (isoftype w key) (isoftype w value) v
  | .items key value, v => ismapping w (w.std .itemsView) (isoftype w key) (isoftype w value) v
  | .coll k t, v =>
    iscollection w (w.std k.std)
      (if k = .byteString then fun x => .ok (w.inst x (w.std .int)) else isoftype w t) v
  | .callable, v => .ok (w.isCallable v)
  | .cls c, v => byClass w v c (c = w.std .str || c = w.std .bytes) (.ok (w.inst v c))
  | .other, _ => .error .NotImplementedError

/-- `any(isoftype(value, U) for U in ts)` (typecheck.py:99, 177) -/
def anyOf (w : World C V) : List (Ty C) → V → Res Bool
  | [], _ => .ok false
  | t :: ts, v =>
    match isoftype w t v with
    | .error e => .error e
    | .ok true => .ok true
    | .ok false => anyOf w ts v

/-- `all(isoftype(elt, U) for elt, U in zip(value, ts))` (typecheck.py:251) -/
def allOf (w : World C V) : List (Ty C) → List V → Res Bool
  | [], _ => .ok true
  | _ :: _, [] => .ok true
  | t :: ts, x :: xs =>
    match isoftype w t x with
    | .error e => .error e
    | .ok false => .ok false
    | .ok true => allOf w ts xs
end

end Unpy.Typecheck
