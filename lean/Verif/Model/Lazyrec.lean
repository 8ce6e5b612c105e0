import Verif.Model.Py
/-!
# Model of the macro `lazyrec[...]` (`unpythonic/syntax/lazify.py`) and of `force` (`unpythonic/lazyutil.py`) on what it makes

Expressions are container literals, calls of the known constructors, `lazy[...]`, and other expressions, which are numbered; a
world says what each of those evaluates to.  Values are trees.

Simplifications: the constructors `cons` and `ThreadLocalBox` are left out; a linked list is the list of its items; named arguments
of constructors other than `dict` and `frozendict` are an error, except `x` for `box` and `Some`; equality of values is an equivalence relation given by the world, and of values
that are equal, only one is looked at; a set is iterated in the order in which its items were added; when several things go wrong in a container, which exception comes first is not modelled.
That a promise is evaluated only once is in `Model/Lazy.lean`; mutable containers that occur more than once are in `Model/Mogrify.lean`.
-/
namespace Unpy.Lazyrec
open Unpy (PyErr Res)

/-- Literals `(...)`, `[...]`, `{...}`. -/
inductive Lit where
  | tuple
  | list
  | set
  deriving DecidableEq

/-- The constructors that `lazyrec` knows (lazify.py:472-490), but `cons` and `ThreadLocalBox`. -/
inductive Ctor where
  | dict
  | frozendict
  | list
  | tuple
  | set
  | frozenset
  | box
  | some
  | llist
  | ll
  deriving DecidableEq

mutual
/-- Expressions. -/
inductive Ex where
  /-- any other expression -/
  | atom (i : Nat)
  | lit (k : Lit) (items : Items)
  | dict (es : Entries)
  | call (c : Ctor) (args : Items) (kws : Kws)
  /-- `lazy[e]` -/
  | lazy (e : Ex)
/-- Items of a literal, or positional arguments: `e` or `*e`. -/
inductive Items where
  | nil
  | item (e : Ex) (r : Items)
  | star (e : Ex) (r : Items)
/-- Entries of a dictionary literal: `k: v` or `**e`. -/
inductive Entries where
  | nil
  | kv (k v : Ex) (r : Entries)
  | dstar (e : Ex) (r : Entries)
/-- Named arguments: `x=e` or `**e`. -/
inductive Kws where
  | nil
  | kw (x : String) (e : Ex) (r : Kws)
  | dstar (e : Ex) (r : Kws)
end

/-! ## The macro -/

/-- `_is_literal_container(tree, maps_only=False)` (lazify.py:556-571) -/
def isLit : Ex → Bool
  | .lit .. => true
  | .dict _ => true
  | .call .. => true
  | _ => false

/-- `_is_literal_container(tree, maps_only=True)` (lazify.py:556-571) -/
def isMapLit : Ex → Bool
  | .dict _ => true
  | .call .dict .. => true
  | .call .frozendict .. => true
  | _ => false

/-- Constructors for which all positional arguments are lazified, not only literal ones: `_ctor_handling_modes` (lazify.py:475-489) -/
def allMode : Ctor → Bool
  | .box => true
  | .some => true
  | .ll => true
  | _ => false

/-- `_ctorcalls_that_take_exactly_one_positional_arg` (lazify.py:504) -/
def takesOne : Ctor → Bool
  | .tuple => true
  | .list => true
  | .set => true
  | .dict => true
  | .frozenset => true
  | .llist => true
  | _ => false

/-- `len(tree.args)` -/
def Items.length : Items → Nat
  | .nil => 0
  | .item _ r => r.length + 1
  | .star _ r => r.length + 1

mutual
/-- `transform` in `_lazyrec` (lazify.py:513-530); an error is a SyntaxError when the program is compiled -/
def lazyrec : Ex → Res Ex
  | .lit k items => (recElts items).map (.lit k)
  | .dict es => (recEntries es).map .dict
  | .call c args kws =>
    if takesOne c && decide (args.length > 1) then .error .SyntaxError else
    match recArgs (allMode c) args with
    | .error x => .error x
    | .ok args' => (recKws kws).map (.call c args')
  | .lazy e => .ok (.lazy e)
  | e => .ok (.lazy e)
/-- `[rec(x) for x in tree.elts]` (lazify.py:515).  What comes of `*e` is `lazy[*e]`, thus `lambda: *e`, which does not compile. -/
def recElts : Items → Res Items
  | .nil => .ok .nil
  | .item e r =>
    match lazyrec e with
    | .error x => .error x
    | .ok e' => (recElts r).map (.item e')
  | .star _ _ => .error .SyntaxError
/-- `[rec(x) for x in tree.values]` (lazify.py:517); these include the `e` of `**e` -/
def recEntries : Entries → Res Entries
  | .nil => .ok .nil
  | .kv k v r =>
    match lazyrec v with
    | .error x => .error x
    | .ok v' => (recEntries r).map (.kv k v')
  | .dstar e r =>
    match lazyrec e with
    | .error x => .error x
    | .ok e' => (recEntries r).map (.dstar e')
/-- The first loop of `lazify_ctorcall` (lazify.py:536-545) -/
def recArgs (all : Bool) : Items → Res Items
  | .nil => .ok .nil
  | .item e r =>
    match (if all || isLit e then lazyrec e else .ok e) with
    | .error x => .error x
    | .ok e' => (recArgs all r).map (.item e')
  | .star e r =>
    match (if isLit e then lazyrec e else .ok e) with
    | .error x => .error x
    | .ok e' => (recArgs all r).map (.star e')
/-- The second loop of `lazify_ctorcall` (lazify.py:546-552); the mode for named arguments is "all" for all constructors -/
def recKws : Kws → Res Kws
  | .nil => .ok .nil
  | .kw x e r =>
    match lazyrec e with
    | .error x => .error x
    | .ok e' => (recKws r).map (.kw x e')
  | .dstar e r =>
    match (if isMapLit e then lazyrec e else .ok e) with
    | .error x => .error x
    | .ok e' => (recKws r).map (.dstar e')
end

/-! ## Values -/

/-- Kinds of containers of items.  `ll`: linked lists. -/
inductive Kind where
  | tuple
  | list
  | set
  | frozenset
  | box
  | some
  | ll
  deriving DecidableEq

/-- Values. -/
inductive Val (A : Type) where
  | atom (a : A)
  /-- `Lazy(lambda: e)` -/
  | promise (e : Ex)
  | seq (k : Kind) (xs : List (Val A))
  /-- a `dict`, or if `fz`, a `frozendict`, with these keys and values -/
  | map (fz : Bool) (ks vs : List (Val A))

/-- What is known about other values and about expressions. -/
structure World (A : Type) where
  /-- what expression `i` evaluates to -/
  val : Nat → Res (Val A)
  hashable : A → Bool
  /-- the items of a value that is not one of our containers, for example a string -/
  iter : A → Option (List A)
  /-- a string, as a value -/
  str : String → A
  /-- which string a value is, if any -/
  strOf : A → Option String
  none : A
  /-- `a == b`.  A promise is equal only to itself, and no promise occurs at two places. -/
  eqv : Val A → Val A → Bool

variable {A : Type}

mutual
/-- whether `hash(v)` works.  `box` and `Some` have `__eq__` but no `__hash__` (collections.py:210, 308); a `frozendict` hashes
its items (collections.py:478-479), a linked list too (llist.py:265-270). -/
def hashable (W : World A) : Val A → Bool
  | .atom a => W.hashable a
  | .promise _ => true
  | .seq .tuple xs => hashableL W xs
  | .seq .ll xs => hashableL W xs
  | .seq .frozenset _ => true
  | .seq _ _ => false
  | .map true _ vs => hashableL W vs
  | .map false _ _ => false
def hashableL (W : World A) : List (Val A) → Bool
  | [] => true
  | v :: vs => hashable W v && hashableL W vs
end

/-- What is left of `xs` when they are added to a set that has `kept`, which come first. -/
def addAll (W : World A) (kept : List (Val A)) : List (Val A) → List (Val A)
  | [] => kept
  | x :: xs => if kept.any (W.eqv · x) then addAll W kept xs else addAll W (kept ++ [x]) xs

/-- A container of this kind, from its items. -/
def mk (W : World A) : Kind → List (Val A) → Res (Val A)
  | .set, xs => if hashableL W xs then .ok (.seq .set (addAll W [] xs)) else .error .TypeError
  | .frozenset, xs => if hashableL W xs then .ok (.seq .frozenset (addAll W [] xs)) else .error .TypeError
  | k, xs => .ok (.seq k xs)

/-- `iter(v)` -/
def iter (W : World A) : Val A → Res (List (Val A))
  | .atom a =>
    match W.iter a with
    | some as => .ok (as.map .atom)
    | none => .error .TypeError
  | .promise _ => .error .TypeError
  | .seq _ xs => .ok xs
  | .map _ ks _ => .ok ks

/-- `d[k] = v` -/
def put (W : World A) : List (Val A) → List (Val A) → Val A → Val A → List (Val A) × List (Val A)
  | k' :: ks, v' :: vs, k, v =>
    if W.eqv k' k then (k' :: ks, v :: vs) else (k' :: (put W ks vs k v).1, v' :: (put W ks vs k v).2)
  | _, _, k, v => ([k], [v])

/-- `d.update(...)` for a mapping with these keys and values -/
def putAll (W : World A) : List (Val A) × List (Val A) → List (Val A) → List (Val A) → List (Val A) × List (Val A)
  | d, k :: ks, v :: vs => putAll W (put W d.1 d.2 k v) ks vs
  | d, _, _ => d

/-- `d[k] = v` for the pairs in an iterable -/
def putPairs (W : World A) : List (Val A) × List (Val A) → List (Val A) → Res (List (Val A) × List (Val A))
  | d, [] => .ok d
  | d, p :: ps =>
    match iter W p with
    | .error x => .error x
    | .ok [k, v] => if hashable W k then putPairs W (put W d.1 d.2 k v) ps else .error .TypeError
    | .ok _ => .error .ValueError

/-- `d.update(m)` -/
def update (W : World A) (d : List (Val A) × List (Val A)) : Val A → Res (List (Val A) × List (Val A))
  | .map _ ks vs => .ok (putAll W d ks vs)
  | v =>
    match iter W v with
    | .error x => .error x
    | .ok ps => putPairs W d ps

/-- several of these -/
def updates (W : World A) (d : List (Val A) × List (Val A)) : List (Val A) → Res (List (Val A) × List (Val A))
  | [] => .ok d
  | m :: ms =>
    match update W d m with
    | .error x => .error x
    | .ok d' => updates W d' ms

/-- A call of a constructor, with positional arguments and named ones: names and values. -/
def construct (W : World A) (c : Ctor) (args : List (Val A)) (names : List String) (vals : List (Val A)) : Res (Val A) :=
  let strs := names.map fun x => Val.atom (W.str x)
  let one (k : Kind) : Res (Val A) :=
    if names.isEmpty then
      match args with
      | [] => if c = .llist then .error .TypeError else mk W k []
      | [v] => match iter W v with
        | .error x => .error x
        | .ok xs => mk W k xs
      | _ => .error .TypeError
    else .error .TypeError
  let boxed (k : Kind) : Res (Val A) :=
    match args, names, vals with
    | [], [], _ => .ok (.seq k [.atom W.none])
    | [v], [], _ => .ok (.seq k [v])
    | [], [x], [v] => if x = "x" then .ok (.seq k [v]) else .error .TypeError
    | _, _, _ => .error .TypeError
  match c with
  | .list => one .list
  | .tuple => one .tuple
  | .set => one .set
  | .frozenset => one .frozenset
  | .llist => one .ll
  | .ll => if names.isEmpty then .ok (.seq .ll args) else .error .TypeError
  | .box => boxed .box
  | .some => boxed .some
  | .dict =>
    if args.length > 1 then .error .TypeError else
    (updates W ([], []) args).map fun d => let d' := putAll W d strs vals; .map false d'.1 d'.2
  | .frozendict => (updates W ([], []) args).map fun d => let d' := putAll W d strs vals; .map true d'.1 d'.2

/-- The names that `**m` gives. -/
def strings (W : World A) : List (Val A) → Res (List String)
  | [] => .ok []
  | .atom a :: ks =>
    match W.strOf a with
    | some x => (strings W ks).map (x :: ·)
    | none => .error .TypeError
  | _ :: _ => .error .TypeError

/-! ## Evaluation -/

mutual
/-- Evaluation of an expression. -/
def eval (W : World A) : Ex → Res (Val A)
  | .atom i => W.val i
  | .lit k items =>
    match evalItems W items with
    | .error x => .error x
    | .ok xs => mk W (match k with | .tuple => .tuple | .list => .list | .set => .set) xs
  | .dict es =>
    match evalEntries W ([], []) es with
    | .error x => .error x
    | .ok d => .ok (.map false d.1 d.2)
  | .call c args kws =>
    match evalItems W args with
    | .error x => .error x
    | .ok xs =>
      match evalKws W kws with
      | .error x => .error x
      | .ok (ns, vs) => if ns.Nodup then construct W c xs ns vs else .error .TypeError
  | .lazy e => .ok (.promise e)
/-- of items or positional arguments -/
def evalItems (W : World A) : Items → Res (List (Val A))
  | .nil => .ok []
  | .item e r =>
    match eval W e with
    | .error x => .error x
    | .ok v => (evalItems W r).map (v :: ·)
  | .star e r =>
    match eval W e with
    | .error x => .error x
    | .ok v =>
      match iter W v with
      | .error x => .error x
      | .ok vs => (evalItems W r).map (vs ++ ·)
/-- of a dictionary literal, when its beginning has made the dictionary `d` -/
def evalEntries (W : World A) (d : List (Val A) × List (Val A)) : Entries → Res (List (Val A) × List (Val A))
  | .nil => .ok d
  | .kv k v r =>
    match eval W k with
    | .error x => .error x
    | .ok kv =>
      match eval W v with
      | .error x => .error x
      | .ok vv => if hashable W kv then evalEntries W (put W d.1 d.2 kv vv) r else .error .TypeError
  | .dstar e r =>
    match eval W e with
    | .error x => .error x
    | .ok (.map _ ks vs) => evalEntries W (putAll W d ks vs) r
    | .ok _ => .error .TypeError
/-- of named arguments -/
def evalKws (W : World A) : Kws → Res (List String × List (Val A))
  | .nil => .ok ([], [])
  | .kw x e r =>
    match eval W e with
    | .error x => .error x
    | .ok v => (evalKws W r).map fun p => (x :: p.1, v :: p.2)
  | .dstar e r =>
    match eval W e with
    | .error x => .error x
    | .ok (.map _ ks vs) =>
      match strings W ks with
      | .error x => .error x
      | .ok ns => (evalKws W r).map fun p => (ns ++ p.1, vs ++ p.2)
    | .ok _ => .error .TypeError
end

/-! ## `force` -/

mutual
/-- `force` (lazyutil.py:88-98), that is, `mogrify(force1, v)` (collections.py:83-153).  Keys of mappings are left alone. -/
def force (W : World A) : Val A → Res (Val A)
  | .atom a => .ok (.atom a)
  | .promise e => eval W e
  | .seq k xs =>
    match forceL W xs with
    | .error x => .error x
    | .ok ys => mk W k ys
  | .map fz ks vs => (forceL W vs).map (.map fz ks)
def forceL (W : World A) : List (Val A) → Res (List (Val A))
  | [] => .ok []
  | v :: vs =>
    match force W v with
    | .error x => .error x
    | .ok w => (forceL W vs).map (w :: ·)
end

/-- `lazyrec[e]`, evaluated. -/
def evalLazyrec (W : World A) (e : Ex) : Res (Val A) :=
  match lazyrec e with
  | .error x => .error x
  | .ok e' => eval W e'

/-- `force(lazyrec[e])` -/
def forceLazyrec (W : World A) (e : Ex) : Res (Val A) :=
  match evalLazyrec W e with
  | .error x => .error x
  | .ok v => force W v

end Unpy.Lazyrec
