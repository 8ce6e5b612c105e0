import Verif.Model.Arity
/-!
# Model of `unpythonic/dispatch.py`: `@generic`, `@augment`, `@typed` and the dispatcher

`V` are the run-time values, `T` the type specifications and `C` the classes.  The type checker `isoftype` is
a parameter `isof` (modelled on its own in `Verif.Model.Typecheck`); it may raise.  What a multimethod does is
not modelled: the dispatcher returns which multimethod is called.

Simplified: docstrings and error messages, whose construction needs the source code of the multimethods
(`_format_callable`), are left out (see `Verif.Model.DispatchList` for docstrings, and for functions without source code); a class attribute is either some plain method or a dispatcher.
-/
namespace Unpy.Dispatch
open Unpy.Arity
variable {C V T : Type}

/-- A function definition, as the decorators see it: its name, its signature, its type hints
(`typing.get_type_hints`), and an identity for its body. -/
structure Fn (V T : Type) where
  name : String
  sig : Sig V
  hints : PyDict String T
  body : Nat

/-- An entry `(multimethod, type_signature)` of a method registry (dispatch.py:741). -/
structure MM (V T : Type) where
  sig : Sig V
  hints : PyDict String T
  body : Nat
  deriving DecidableEq

/-- A dispatcher (dispatch.py:662-674).  `sig` is what `inspect.signature` says of it: because of `@wraps`,
the signature of the function that created it. -/
structure Disp (V T : Type) where
  name : String
  sig : Sig V
  registry : List (MM V T)
  /-- `_register` has been deleted by `@typed` -/
  typed : Bool

/-- `_dispatcher_registry` (dispatch.py:38): dispatchers by full name. -/
abbrev Reg (V T : Type) := PyDict String (Disp V T)

/-- `self_parameter_names` (dispatch.py:43) -/
def selfNames : List String := ["self", "this", "cls", "klass"]

/-! ## Registering -/

/-- The type signature that is registered (dispatch.py:727-731): a first parameter with a self-like name
gets `typing.Any`, unless it has an annotation.  The dict display `{name: Any, **type_signature}` has the
name first, with the value of the annotation if there is one. -/
def typeSignature (anyT : T) (f : Fn V T) : PyDict String T :=
  match f.sig with
  | [] => f.hints
  | p :: _ =>
    if p.name ∈ selfNames then
      (p.name, (PyDict.get? f.hints p.name).getD anyT) :: PyDict.erase f.hints p.name
    else f.hints

/-- `_register_to(dispatcher, multimethod)` (dispatch.py:682-760) -/
def registerTo (anyT : T) (d : Disp V T) (f : Fn V T) : Res (Disp V T) :=
  let ts := typeSignature anyT f
  if f.sig.all (fun p => PyDict.has ts p.name) then
    .ok { d with registry := d.registry ++ [⟨f.sig, ts, f.body⟩] }
  else .error .TypeError

/-- `_setup(fullname, multimethod)` (dispatch.py:644-680).  The new dispatcher is stored before the
multimethod is registered to it, so it stays if that raises. -/
def setup (anyT : T) (st : Reg V T) (fullname : String) (f : Fn V T) : Res Unit × Reg V T :=
  let st := if PyDict.has st fullname then st else PyDict.set st fullname ⟨f.name, f.sig, [], false⟩
  match PyDict.get? st fullname with
  | none => (.error .KeyError, st)   -- does not happen
  | some d =>
    if d.typed then (.error .TypeError, st)
    else match registerTo anyT d f with
      | .error e => (.error e, st)
      | .ok d' => (.ok (), PyDict.set st fullname d')

/-- The decorators, applied to a function with the given full name. -/
inductive Op (V T : Type) where
  /-- `@generic` (dispatch.py:76-242) -/
  | generic (fullname : String) (f : Fn V T)
  /-- `@augment(target)` (dispatch.py:245-291), with the full name of the target -/
  | augment (target : String) (f : Fn V T)
  /-- `@typed` (dispatch.py:294-315) -/
  | typed (fullname : String) (f : Fn V T)

/-- The full name of the generic function that a decorator works on. -/
def Op.target : Op V T → String
  | .generic n _ => n
  | .augment n _ => n
  | .typed n _ => n

def Op.fn : Op V T → Fn V T
  | .generic _ f => f
  | .augment _ f => f
  | .typed _ f => f

def step (anyT : T) (st : Reg V T) : Op V T → Res Unit × Reg V T
  | .generic n f => setup anyT st n f
  | .augment n f =>
    -- `isgeneric(target)`: a target that is not in the registry is a plain function
    if PyDict.has st n then setup anyT st n f else (.error .TypeError, st)
  | .typed n f =>
    match setup anyT st n f with
    | (.error e, st) => (.error e, st)
    | (.ok (), st) =>
      match PyDict.get? st n with
      | none => (.error .KeyError, st)   -- does not happen
      | some d => (.ok (), PyDict.set st n { d with typed := true })

/-- A history of decorations; one that raises is caught by the program, which goes on. -/
def run (anyT : T) (st : Reg V T) (ops : List (Op V T)) : Reg V T :=
  ops.foldl (fun st op => (step anyT st op).2) st

/-! ## Calling -/

/-- A class attribute. -/
inductive Attr where
  | plain
  /-- a dispatcher, by its full name -/
  | generic (fullname : String)
  deriving DecidableEq

/-- What Python knows of the classes and values of a program. -/
structure World (C V : Type) where
  /-- `cls.__mro__`, with the class itself first -/
  mro : C → List C
  /-- `cls.__dict__` -/
  own : C → String → Option Attr
  /-- `value.__class__` -/
  clsOf : V → C
  /-- the value itself, if it is a class -/
  asType : V → Option C
  /-- `bool(value)` -/
  truthy : V → Bool

/-- `getattr(cls, name)`: the attribute of the first class in the MRO that has one. -/
def getattr (w : World C V) (c : C) (name : String) : Option Attr :=
  (w.mro c).findSome? (fun d => w.own d name)

/-- The registry behind an attribute, most recent multimethod first; empty if it is no dispatcher. -/
def entries (st : Reg V T) : Option Attr → List (MM V T)
  | some (.generic n) =>
    match PyDict.get? st n with
    | some d => d.registry.reverse
    | none => []
  | _ => []

/-- `_list_multimethods(dispatcher, self_or_cls)` (dispatch.py:442-482) -/
def listMultimethods (w : World C V) (st : Reg V T) (d : Disp V T) (self : Option V) : List (MM V T) :=
  d.registry.reverse ++
    match self with
    | none => []
    | some s =>
      if w.truthy s then
        let cls := match w.asType s with
          | some c => c
          | none => w.clsOf s
        (w.mro cls).tail.flatMap (fun base => entries st (getattr w base d.name))
      else []

/-- `_name_of_1st_positional_parameter(f)` (dispatch.py:431-440) -/
def firstPositional (sig : Sig V) : Option String :=
  (sig.find? (fun p => p.kind = .posOnly ∨ p.kind = .posOrKw)).map (·.name)

/-- `_extract_self_or_cls(thecallable, args)` (dispatch.py:572-596) -/
def extractSelf (d : Disp V T) (args : List V) : Res (Option V) :=
  match firstPositional d.sig with
  | none => .ok none
  | some n =>
    if n ∈ selfNames then
      match args with
      | [] => .error .TypeError
      | a :: _ => .ok (some a)
    else .ok none

/-- `_get_argument_type_mismatches(type_signature, bound_arguments)` (dispatch.py:532-570): whether there is a
mismatch.  All parameters are checked, also after a mismatch. -/
def mismatch (isof : T → BVal V → Res Bool) (hints : PyDict String T) : List (String × BVal V) → Res Bool
  | [] => .ok false
  | (p, v) :: rest =>
    match PyDict.get? hints p with
    | none => .error .ValueError
    | some t =>
      match isof t v with
      | .error e => .error e
      | .ok ok =>
        match mismatch isof hints rest with
        | .error e => .error e
        | .ok m => .ok (!ok || m)

/-- The test of one multimethod (dispatch.py:524-527) -/
def test (isof : T → BVal V → Res Bool) (args : List V) (kwargs : PyDict String V) (m : MM V T) : Res Bool :=
  match key m.sig args kwargs with
  | .error e => .error e
  | .ok bound =>
    match mismatch isof m.hints bound with
    | .error e => .error e
    | .ok b => .ok (!b)

/-- The loop of `_resolve_multimethod` (dispatch.py:523-530): a TypeError means "does not match". -/
def scan (isof : T → BVal V → Res Bool) (args : List V) (kwargs : PyDict String V) :
    List (MM V T) → Res (Option (MM V T))
  | [] => .ok none
  | m :: ms =>
    match test isof args kwargs m with
    | .ok true => .ok (some m)
    | .ok false => scan isof args kwargs ms
    | .error e => if e = .TypeError then scan isof args kwargs ms else .error e

/-- Calling the dispatcher (dispatch.py:666-672): the multimethod that is called, or the exception. -/
def call (isof : T → BVal V → Res Bool) (w : World C V) (st : Reg V T) (d : Disp V T) (args : List V)
    (kwargs : PyDict String V) : Res (MM V T) :=
  match extractSelf d args with
  | .error e => .error e
  | .ok self =>
    match scan isof args kwargs (listMultimethods w st d self) with
    | .error e => .error e
    | .ok (some m) => .ok m
    | .ok none => .error .TypeError   -- `_raise_multiple_dispatch_error`

end Unpy.Dispatch
