import Verif.Model.Eff
/-!
# Model of `unpythonic/excutil.py`: `raisef`, `tryf`, `reraise_in`, `reraise`

Exception instances (`E`, compared by identity) have a class (`C`).  Not modelled: tracebacks, `__context__`,
`equip_with_traceback`, `async_raise`.
-/
namespace Unpy.Excutil
open Unpy Unpy.Eff

variable {σ E C V : Type}

/-- `type(e)`, `issubclass(c, d)`, and the `TypeError` raised for wrong arguments. -/
structure Classes (E C : Type) where
  typ : E → C
  sub : C → C → Bool
  typeError : E

/-- An excspec: one object or a tuple of objects; each may be an exception type or something else (`none`). -/
inductive ExcSpec (C : Type) where
  | one (c : Option C)
  | tuple (cs : List (Option C))

/-- A handler of `tryf`: whether it accepts an argument (excutil.py:92-98), and what it does with or without it. -/
structure Handler (σ E V : Type) where
  accepts : Bool
  call : Option E → Eff σ E V

/-- The check of an excspec (excutil.py:110-114). -/
def ExcSpec.valid : ExcSpec C → Bool
  | .one c => c.isSome
  | .tuple cs => cs.all Option.isSome

/-- `issubclass(exctype, excspec)`, or of any of a tuple (excutil.py:127-138). -/
def ExcSpec.accepts (cl : Classes E C) (exctype : C) : ExcSpec C → Bool
  | .one (some t) => cl.sub exctype t
  | .one none => false
  | .tuple cs => cs.any (fun c => match c with
    | some t => cl.sub exctype t
    | none => false)

/-- The loop over the handlers (excutil.py:125-138).  When it ends without a match, the `except` block does, and `tryf`
returns `None`. -/
def runHandlers (cl : Classes E C) (pyNone : V) (exception : E) : List (ExcSpec C × Handler σ E V) → Eff σ E V
  | [] => ret pyNone
  | (excspec, handler) :: rest =>
    if excspec.accepts cl (cl.typ exception) then
      if handler.accepts then handler.call (some exception) else handler.call none
    else runHandlers cl pyNone exception rest

/-- `tryf(body, *handlers, elsef=None, finallyf=None)` (excutil.py:57-148). -/
def tryf (cl : Classes E C) (pyNone : V) (body : Eff σ E V) (handlers : List (ExcSpec C × Handler σ E V))
    (elsef finallyf : Option (Eff σ E V)) : Eff σ E V := fun s =>
  if handlers.any (fun h => !h.1.valid) then (.error cl.typeError, s) else
  let (r, s1) : Except E V × σ :=
    match body s with
    | (.error e, s1) => runHandlers cl pyNone e handlers s1
    | (.ok v, s1) =>
      match elsef with
      | some f => f s1
      | none => (.ok v, s1)
  match finallyf with
  | none => (r, s1)
  | some f =>
    match f s1 with
    | (.ok _, s2) => (r, s2)
    | (.error e, s2) => (.error e, s2)

/-! ## raisef, reraise -/

/-- What is being raised: the exception, and the cause set by `raise ... from ...`, if any. -/
structure Raised (E : Type) where
  exc : E
  cause : Option E

/-- What a `raise` statement may be given: an exception class, an exception, or something else. -/
inductive Raisable (E C : Type) where
  | cls (c : C)
  | inst (e : E)
  | bad

/-- `raise exc from cause`; `mk` instantiates a class without arguments, which may itself raise. -/
def raiseFrom (cl : Classes E C) (mk : C → Except E E) (exc : Raisable E C) (cause : Option E) : Raised E :=
  match exc with
  | .cls c =>
    match mk c with
    | .ok e => ⟨e, cause⟩
    | .error e => ⟨e, none⟩
  | .inst e => ⟨e, cause⟩
  | .bad => ⟨cl.typeError, none⟩

/-- `raisef(exc, cause=None)` (excutil.py:30-55); an exception instance is assumed to be true in a boolean context. -/
def raisef (cl : Classes E C) (mk : C → Except E E) (exc : Raisable E C) (cause : Option E) : Raised E :=
  raiseFrom cl mk exc cause

/-- `_reraise_handler(mapping, libraryexc)` (excutil.py:396-416); `isinstance` with something that is neither a class
nor a tuple of classes raises `TypeError` when it gets to it.  The final `raise` raises `libraryexc` as it is. -/
def reraiseHandler (cl : Classes E C) (mk : C → Except E E) (libraryexc : E) (orig : Option E) :
    List (ExcSpec C × Raisable E C) → Raised E
  | [] => ⟨libraryexc, orig⟩
  | (lib, app) :: rest =>
    if !lib.valid && !lib.accepts cl (cl.typ libraryexc) then ⟨cl.typeError, none⟩
    else if lib.accepts cl (cl.typ libraryexc) then raiseFrom cl mk app (some libraryexc)
    else reraiseHandler cl mk libraryexc orig rest

/-- `reraise_in(body, mapping)` (excutil.py:319-356). -/
def reraiseIn (cl : Classes E C) (mk : C → Except E E) (body : Eff σ (Raised E) V)
    (mapping : List (ExcSpec C × Raisable E C)) : Eff σ (Raised E) V := fun s =>
  match body s with
  | (.ok v, s1) => (.ok v, s1)
  | (.error r, s1) => (.error (reraiseHandler cl mk r.exc r.cause mapping), s1)

/-- The exception types that `contextlib` and generators treat in a special way. -/
structure Gens (E C : Type) where
  stopIteration : C
  runtimeError : C
  /-- The new `RuntimeError("generator raised StopIteration")`. -/
  wrap : E → E

/-- `with reraise(mapping): body` (excutil.py:359-394), by the stdlib's `contextmanager`: the exception is thrown into
the generator; a `StopIteration` that comes out of the generator's code is replaced by a `RuntimeError` (PEP 479); and
`__exit__` (contextlib.py) lets the original through when what comes out is that same object, or a `RuntimeError` caused by it
if the original is a `StopIteration`. -/
def withReraise [DecidableEq E] (cl : Classes E C) (g : Gens E C) (mk : C → Except E E) (body : Eff σ (Raised E) V)
    (mapping : List (ExcSpec C × Raisable E C)) : Eff σ (Raised E) V := fun s =>
  match body s with
  | (.ok v, s1) => (.ok v, s1)
  | (.error r, s1) =>
    let raised := reraiseHandler cl mk r.exc r.cause mapping
    let out : Raised E :=
      if cl.sub (cl.typ raised.exc) g.stopIteration then ⟨g.wrap raised.exc, some raised.exc⟩ else raised
    if out.exc = r.exc then (.error out, s1)
    else if cl.sub (cl.typ out.exc) g.runtimeError ∧ cl.sub (cl.typ r.exc) g.stopIteration ∧ out.cause = some r.exc then
      (.error r, s1)
    else (.error out, s1)

end Unpy.Excutil
