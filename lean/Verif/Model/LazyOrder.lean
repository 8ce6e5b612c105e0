import Verif.Model.Py
/-!
# Model of `lazyrec[...]` (`unpythonic/syntax/lazify.py`) and `force` (`unpythonic/lazyutil.py`) on leaves with effects

Which containers there are, and what they are built from, is in `Model/Lazyrec.lean`.  Here the expressions at the leaves have effects, may raise, and
are evaluated in some order.

Simplifications.  Containers are tuples, lists, boxes, `Some`, linked lists made by `ll(...)`, and dictionary literals; no sets, no starred items, no constructors that
unpack their arguments.  Keys of dictionaries are leaves; hashing and comparing them has no effects and does not raise.  A linked list is the list of its
items.  The value of a leaf is not a promise, nor a container with promises in it.  One thread.
-/
namespace Unpy.LazyOrder

/-- Containers whose items are all the same to `lazyrec`. -/
inductive Kind where
  | tuple
  | list
  | box
  | some
  | ll
  deriving DecidableEq

/-- Is it updated in place (collections.py:90-99, 120-122)? -/
def Kind.mutable : Kind → Bool
  | .list => true
  | .box => true
  | _ => false

mutual
/-- Expressions. -/
inductive Ex where
  /-- any other expression, by number -/
  | leaf (i : Nat)
  /-- `lazy[e]`, where `e` is the leaf with this number -/
  | lazy (i : Nat)
  | seq (k : Kind) (es : Exs)
  | dict (es : Ents)
inductive Exs where
  | nil
  | cons (e : Ex) (es : Exs)
/-- `key: e, ...` -/
inductive Ents where
  | nil
  | cons (key : Nat) (e : Ex) (es : Ents)
end

/-! ## The macro -/

mutual
/-- `_lazyrec` (lazify.py:509-529): leaves become `lazy[...]`; keys stay as they are. -/
def lazyrec : Ex → Ex
  | .leaf i => .lazy i
  | .lazy i => .lazy i
  | .seq k es => .seq k (lazyrecs es)
  | .dict es => .dict (lazyrecD es)
def lazyrecs : Exs → Exs
  | .nil => .nil
  | .cons e es => .cons (lazyrec e) (lazyrecs es)
def lazyrecD : Ents → Ents
  | .nil => .nil
  | .cons key e es => .cons key (lazyrec e) (lazyrecD es)
end

/-! ## Running -/

mutual
/-- Objects: values of leaves, promises by number, containers with what is in them. -/
inductive Obj (V : Type) where
  | val (v : V)
  | promise (p : Nat)
  | seq (k : Kind) (os : Objs V)
  | dict (os : Items V)
inductive Objs (V : Type) where
  | nil
  | cons (o : Obj V) (os : Objs V)
inductive Items (V : Type) where
  | nil
  | cons (key : V) (o : Obj V) (os : Items V)
end

/-- A promise (lazyutil.py:33-71): not evaluated, with the number of its leaf; or with its value; or with the exception of its thunk. -/
inductive Promise (X V : Type) where
  | pending (i : Nat)
  | done (v : V)
  | failed (x : X)

structure St (σ X V : Type) where
  user : σ
  promises : List (Promise X V)

/-- What the leaves do; which keys are equal; which exceptions are instances of `Exception`; and what an exception becomes when it comes out of a generator
(StopIteration: RuntimeError, see PEP 479; all others: the same). -/
structure World (σ X V : Type) where
  leaf : Nat → σ → Except X V × σ
  eqv : V → V → Bool
  isException : X → Bool
  escape : X → X

variable {σ X V : Type}

/-- `d[key] = o` -/
def put (W : World σ X V) (key : V) (o : Obj V) : Items V → Items V
  | .nil => .cons key o .nil
  | .cons key' o' os => if W.eqv key' key then .cons key' o os else .cons key' o' (put W key o os)

/-- The entries of a dictionary literal are put into it one after the other. -/
def putAll (W : World σ X V) (d : Items V) : Items V → Items V
  | .nil => d
  | .cons key o os => putAll W (put W key o d) os

mutual
/-- Evaluation.  Items are evaluated from left to right; in a dictionary literal each key before its value. -/
def eval (W : World σ X V) : Ex → St σ X V → Except X (Obj V) × St σ X V
  | .leaf i, s => match W.leaf i s.user with
    | (.error x, u) => (.error x, { s with user := u })
    | (.ok v, u) => (.ok (.val v), { s with user := u })
  | .lazy i, s => (.ok (.promise s.promises.length), { s with promises := s.promises ++ [.pending i] })
  | .seq k es, s => match evals W es s with
    | (.error x, s) => (.error x, s)
    | (.ok os, s) => (.ok (.seq k os), s)
  | .dict es, s => match evalD W es s with
    | (.error x, s) => (.error x, s)
    | (.ok os, s) => (.ok (.dict (putAll W .nil os)), s)
def evals (W : World σ X V) : Exs → St σ X V → Except X (Objs V) × St σ X V
  | .nil, s => (.ok .nil, s)
  | .cons e es, s => match eval W e s with
    | (.error x, s) => (.error x, s)
    | (.ok o, s) => match evals W es s with
      | (.error x, s) => (.error x, s)
      | (.ok os, s) => (.ok (.cons o os), s)
def evalD (W : World σ X V) : Ents → St σ X V → Except X (Items V) × St σ X V
  | .nil, s => (.ok .nil, s)
  | .cons key e es, s => match W.leaf key s.user with
    | (.error x, u) => (.error x, { s with user := u })
    | (.ok v, u) => match eval W e { s with user := u } with
      | (.error x, s) => (.error x, s)
      | (.ok o, s) => match evalD W es s with
        | (.error x, s) => (.error x, s)
        | (.ok os, s) => (.ok (.cons v o os), s)
end

/-- `Lazy.force` (lazyutil.py:52-71): the thunk is run if it has not been run before, and its value or its exception is kept; an exception that is no
`Exception` is not kept. -/
def force1 (W : World σ X V) (p : Nat) (s : St σ X V) : Except X (Obj V) × St σ X V :=
  match s.promises[p]? with
  | some (.done v) => (.ok (.val v), s)
  | some (.failed x) => (.error x, s)
  | some (.pending i) => (match W.leaf i s.user with
    | (.ok v, u) => (.ok (.val v), ⟨u, s.promises.set p (.done v)⟩)
    | (.error x, u) => (.error x, ⟨u, if W.isException x then s.promises.set p (.failed x) else s.promises⟩))
  | none => (.ok (.promise p), s)          -- there are no other promises

/-- An exception from an item of such a container: tuples are made by a generator expression (collections.py:147). -/
def fromItem (W : World σ X V) (k : Kind) (x : X) : X := if k = .tuple then W.escape x else x

mutual
/-- `force(x)` (lazyutil.py:80-93), that is `mogrify(force1, x)` (collections.py:84-151): the outcome, what the object `x` is afterwards, and the state.
Mutable containers are updated when all their items have been processed; immutable ones are made new. -/
def force (W : World σ X V) : Obj V → St σ X V → Except X (Obj V) × Obj V × St σ X V
  | .val v, s => (.ok (.val v), .val v, s)
  | .promise p, s => ((force1 W p s).1, .promise p, (force1 W p s).2)
  | .seq k os, s => match forces W os s with
    | (.error x, os', s) => (.error (fromItem W k x), .seq k os', s)
    | (.ok rs, os', s) => (.ok (.seq k rs), .seq k (if k.mutable then rs else os'), s)
  | .dict os, s => match forceD W os s with
    | (.error x, os', s) => (.error x, .dict os', s)
    | (.ok rs, _, s) => (.ok (.dict rs), .dict rs, s)
def forces (W : World σ X V) : Objs V → St σ X V → Except X (Objs V) × Objs V × St σ X V
  | .nil, s => (.ok .nil, .nil, s)
  | .cons o os, s => match force W o s with
    | (.error x, o', s) => (.error x, .cons o' os, s)
    | (.ok r, o', s) => match forces W os s with
      | (.error x, os', s) => (.error x, .cons o' os', s)
      | (.ok rs, os', s) => (.ok (.cons r rs), .cons o' os', s)
def forceD (W : World σ X V) : Items V → St σ X V → Except X (Items V) × Items V × St σ X V
  | .nil, s => (.ok .nil, .nil, s)
  | .cons key o os, s => match force W o s with
    | (.error x, o', s) => (.error x, .cons key o' os, s)
    | (.ok r, o', s) => match forceD W os s with
      | (.error x, os', s) => (.error x, .cons key o' os', s)
      | (.ok rs, os', s) => (.ok (.cons key r rs), .cons key o' os', s)
end

end Unpy.LazyOrder
