import Verif.Model.Py
import Verif.Model.PyDict
/-!
# Model of `unpythonic.env.env` (env.py:12-215) and `unpythonic.assignonce.assignonce` (assignonce.py:8-39)

An environment is its `_env` dict plus the `_finalized` flag.  `assignonce` is the same class with
`__setattr__` and `set` overridden; the parameter `once` says which of the two classes the object has.

Simplifications: iteration, `repr`, `__eq__` and pickling are not modelled; `update` takes mappings given as lists
of items; `pop`/`setdefault` take at most one default.
-/
namespace Unpy.EnvM
universe u
open Unpy

/-- What the code needs to know about Python values and strings. -/
structure World (V : Type u) where
  /-- `str.isidentifier` -/
  isIdent : String → Bool
  /-- names found by ordinary attribute lookup on the class `env` (methods, `_reserved_names`, `__dict__`, ...);
  for these `__getattr__` is not called -/
  classAttr : String → Bool
  /-- `bool(v)`, used when client code overwrites `_finalized` -/
  truthy : V → Bool
  /-- the items of a value that client code stores as `_env` -/
  asDict : V → List (String × V)
  /-- `None` -/
  none : V

/-- env.py:54-55 `_reserved_names` -/
def reservedNames : List String :=
  ["set", "clear", "finalize", "_env", "_finalized", "_direct_write", "_reserved_names"]

/-- env.py:56 `_direct_write` -/
def directWrite : List String := ["_env", "_finalized"]

/-- env.py:60-65: the instance attributes `_env` and `_finalized` -/
structure Env (V : Type u) where
  env : PyDict String V := []
  finalized : Bool := false
  deriving DecidableEq, Repr

/-- What a method call returns. -/
inductive Out (V : Type u) where
  | unit
  | val (v : V)
  | item (k : String) (v : V)
  | bool (b : Bool)
  | nat (n : Nat)
  /-- the attribute of that name found on the class (a method) or the instance, not a binding -/
  | classAttr (name : String)
  /-- the env itself -/
  | self
  deriving DecidableEq, Repr

variable {V : Type u}

/-- env.py:74-86 `env.__setattr__` -/
def envSetattr (w : World V) (e : Env V) (name : String) (v : V) : Res (Out V) × Env V :=
  if directWrite.contains name then
    (.ok .unit, if name = "_env" then { e with env := w.asDict v } else { e with finalized := w.truthy v })
  else if reservedNames.contains name then (.error .AttributeError, e)
  else if e.finalized && !e.env.has name then (.error .AttributeError, e)
  else if !w.isIdent name then (.error .ValueError, e)
  else (.ok .unit, { e with env := e.env.set name v })

/-- assignonce.py:26-30 `assignonce.__setattr__` (`once`), else `env.__setattr__` -/
def setattr (w : World V) (once : Bool) (e : Env V) (name : String) (v : V) : Res (Out V) × Env V :=
  if once then
    if reservedNames.contains name || !e.env.has name then envSetattr w e name v
    else (.error .AttributeError, e)
  else envSetattr w e name v

/-- attribute read: ordinary lookup first, then env.py:88-95 `__getattr__` -/
def getattr (w : World V) (e : Env V) (name : String) : Res (Out V) :=
  if directWrite.contains name || w.classAttr name then .ok (.classAttr name)
  else if !w.isIdent name then .error .ValueError
  else match e.env.get? name with
    | none => .error .AttributeError
    | some v => .ok (.val v)

/-- env.py:97-105 `__delattr__` -/
def delattr (w : World V) (e : Env V) (name : String) : Res (Out V) × Env V :=
  if !w.isIdent name then (.error .ValueError, e)
  else if e.finalized then (.error .TypeError, e)
  else if !e.env.has name then (.error .AttributeError, e)
  else (.ok .unit, { e with env := e.env.erase name })

/-- env.py:124-125 `get` -/
def get (w : World V) (e : Env V) (name : String) (dflt : V) : Res (Out V) :=
  if e.env.has name then getattr w e name else .ok (.val dflt)

/-- env.py:133-136 `pop` -/
def pop (e : Env V) (k : String) (dflt : Option V) : Res (Out V) × Env V :=
  if e.finalized then (.error .TypeError, e)
  else match e.env.get? k, dflt with
    | some v, _ => (.ok (.val v), { e with env := e.env.erase k })
    | none, some d => (.ok (.val d), e)
    | none, none => (.error .KeyError, e)

/-- env.py:137-140 `popitem`: `dict.popitem` removes the last item -/
def popitem (e : Env V) : Res (Out V) × Env V :=
  if e.finalized then (.error .TypeError, e)
  else match e.env.getLast? with
    | some (k, v) => (.ok (.item k v), { e with env := e.env.dropLast })
    | none => (.error .KeyError, e)

/-- env.py:141-144 `clear` -/
def clear (e : Env V) : Res (Out V) × Env V :=
  if e.finalized then (.error .TypeError, e) else (.ok .unit, { e with env := [] })

/-- env.py:145-155 `update`; a binding called `self` clashes with the parameter. -/
def update (e : Env V) (mappings : List (List (String × V))) (bindings : List (String × V)) :
    Res (Out V) × Env V :=
  if PyDict.has bindings "self" then (.error .TypeError, e)
  else if mappings.length > 1 then (.error .ValueError, e)
  else if e.finalized && mappings.any (fun m => m.any (fun p => !e.env.has p.1)) then (.error .AttributeError, e)
  else if e.finalized && bindings.any (fun p => !e.env.has p.1) then (.error .AttributeError, e)
  else (.ok .unit, { e with env := (e.env.update mappings.flatten).update bindings })

/-- env.py:156-159 `setdefault` -/
def setdefault (w : World V) (e : Env V) (k : String) (dflt : Option V) : Res (Out V) × Env V :=
  if e.finalized && !e.env.has k then (.error .AttributeError, e)
  else match e.env.get? k with
    | some v => (.ok (.val v), e)
    | none => (.ok (.val (dflt.getD w.none)), { e with env := e.env.set k (dflt.getD w.none) })

/-- env.py:185-199 `set`/`_set` and assignonce.py:32-39 `assignonce.set` -/
def set (w : World V) (once : Bool) (e : Env V) (name : String) (v : V) : Res (Out V) × Env V :=
  if !e.env.has name then (.error .AttributeError, e)
  else if once then
    match envSetattr w e name v with
    | (.ok _, e') => (.ok (.val v), e')
    | (.error x, e') => (.error x, e')
  else
    match setattr w once e name v with
    | (.ok _, e') => (.ok (.val v), e')
    | (.error x, e') => (.error x, e')

/-- env.py:201-211 `__lshift__` -/
def lshift (w : World V) (once : Bool) (e : Env V) (name : String) (v : V) : Res (Out V) × Env V :=
  match set w once e name v with
  | (.ok _, e') => (.ok .self, e')
  | (.error x, e') => (.error x, e')

/-- The public operations. -/
inductive Op (V : Type u) where
  | setattr (name : String) (v : V)
  | setitem (name : String) (v : V)
  | getattr (name : String)
  | getitem (name : String)
  | get (name : String) (dflt : V)
  | contains (name : String)
  | len
  | delattr (name : String)
  | delitem (name : String)
  | pop (k : String) (dflt : Option V)
  | popitem
  | clear
  | update (mappings : List (List (String × V))) (bindings : List (String × V))
  | setdefault (k : String) (dflt : Option V)
  | set (name : String) (v : V)
  | lshift (name : String) (v : V)
  | finalize
  /-- leaving a `with` block on the env -/
  | exit

/-- One operation. -/
def step (w : World V) (once : Bool) (e : Env V) : Op V → Res (Out V) × Env V
  | .setattr n v => setattr w once e n v
  | .setitem n v => setattr w once e n v          -- env.py:165-166
  | .getattr n => (getattr w e n, e)
  | .getitem n => (getattr w e n, e)              -- env.py:162-163
  | .get n d => (get w e n d, e)
  | .contains n => (.ok (.bool (e.env.has n)), e) -- env.py:108-109
  | .len => (.ok (.nat e.env.length), e)          -- env.py:129-130
  | .delattr n => delattr w e n
  | .delitem n => delattr w e n                   -- env.py:168-169
  | .pop k d => pop e k d
  | .popitem => popitem e
  | .clear => clear e
  | .update ms bs => update e ms bs
  | .setdefault k d => setdefault w e k d
  | .set n v => set w once e n v
  | .lshift n v => lshift w once e n v
  | .finalize => (.ok .unit, { e with finalized := true })  -- env.py:213-222
  | .exit => (.ok .unit, { e with env := [] })    -- env.py:175-176: clears even a finalized env

/-- A history of operations; a raising operation does not stop the history. -/
def run (w : World V) (once : Bool) (e : Env V) : List (Op V) → Env V
  | [] => e
  | op :: ops => run w once (step w once e op).2 ops

/-- env.py:67-69 `__init__` -/
def initBindings (w : World V) (once : Bool) (e : Env V) : List (String × V) → Res Unit × Env V
  | [] => (.ok (), e)
  | (n, v) :: bs =>
    match setattr w once e n v with
    | (.ok _, e') => initBindings w once e' bs
    | (.error x, e') => (.error x, e')

/-- `env(**bindings)` / `assignonce(**bindings)`: env.py:60-65 `__new__` calls `__init__` explicitly, and then
`type.__call__` calls `__init__` again on the same instance.  Arguments called `cls` and `self` clash with the first
parameters of `__new__` and `__init__`. -/
def new (w : World V) (once : Bool) (bindings : List (String × V)) : Res (Env V) :=
  if PyDict.has bindings "cls" || PyDict.has bindings "self" then .error .TypeError
  else match initBindings w once {} bindings with
  | (.error x, _) => .error x
  | (.ok (), e) =>
    match initBindings w once e bindings with
    | (.error x, _) => .error x
    | (.ok (), e') => .ok e'

end Unpy.EnvM
