import Verif.Model.Resignal
/-!
# Model of `unpythonic/conditions.py`, continued: what may be signalled

`signal`, `error`, `cerror` and `warn` take an instance or a class, and so does their argument `cause`.  Here these are told apart; in `Verif.Model.Conditions`, conditions are instances.

Simplifications: the representations in error messages do not fail, and attributes can be set on all exceptions; a condition is not shared with other signals, so that storing `__protocol__` and `__cause__`
in it is making a new value; `signal` returns `None` instead of the condition.
-/
namespace Unpy.Cond
open Unpy.Fold (Err)
variable {σ ε Ty C K V W : Type}

/-- What is given as the condition, or as the cause: `None`, an instance of an exception class, an exception class, or something else -/
inductive Arg (C K V : Type) where
  | nothing
  | inst (c : C)
  | cls (t : K)
  | other (v : V)

/-- A condition as handlers see it: the instance, its `__protocol__` and its `__cause__` (conditions.py:225-226) -/
structure Sent (C : Type) where
  inst : C
  protocol : Protocol
  cause : Option C

/-- What Python knows of exception classes and instances -/
structure Classes (σ ε C K V W : Type) where
  /-- calling a class without arguments; it may do anything -/
  make : K → σ → Except (Err ε) C × σ
  /-- `except TypeError` -/
  isTypeError : Err ε → Bool
  /-- the ControlError that says that something cannot be signalled, or cannot be a cause; the error message shows what -/
  control : (asCause : Bool) → (shown : Arg C K V) → C
  /-- `isinstance(c, Warning)` -/
  isWarning : C → Bool
  /-- `type(c)`, as the category of a warning -/
  category : C → W
  /-- the category `Warning` -/
  generic : W
  /-- `str` -/
  str : Arg C K V → String
  /-- `warnings.warn` with this category and this text; filters may turn it into an exception -/
  emit : W → String → σ → Except (Err ε) Unit × σ

/-- Do something that changes the world and may raise. -/
def act {α : Type} (f : σ → Except (Err ε) α × σ) (ok : α → Prog σ ε Ty C V) (bad : Err ε → Prog σ ε Ty C V) : Prog σ ε Ty C V :=
  .look fun s => match f s with
    | (.ok a, s') => .put s' (ok a)
    | (.error e, s') => .put s' (bad e)

/-- `canonize(exc, err_reason)` (conditions.py:209-219), and what is done with the result.  Its error message shows the condition, also if it is about the cause. -/
def canonize (L : Classes σ ε C K V W) (asCause : Bool) (condition exc : Arg C K V) (k : Option C → Prog σ ε Ty (Sent C) V) : Prog σ ε Ty (Sent C) V :=
  let refuse : Prog σ ε Ty (Sent C) V := error ⟨L.control asCause condition, .error, none⟩
  match exc with
  | .nothing => k none
  | .inst c => k (some c)
  | .cls t => act (L.make t) (fun c => k (some c)) fun e => if L.isTypeError e then refuse else .raise e
  | .other _ => refuse

/-- `_prepare_signal_instance` (conditions.py:221-231), and what is done with the result -/
def prepare (L : Classes σ ε C K V W) (condition cause : Arg C K V) (p : Protocol) (k : Sent C → Prog σ ε Ty (Sent C) V) : Prog σ ε Ty (Sent C) V :=
  canonize L false condition condition fun c =>
    let condition := match c with
      | some c => .inst c
      | none => .nothing
    canonize L true condition cause fun cause =>
      match c with
      | some c => k ⟨c, p, cause⟩
      | none => .raise (.py .AttributeError)

/-- `warnings.warn(...)` in `warn` (conditions.py:847-850) -/
def emission (L : Classes σ ε C K V W) (condition : Arg C K V) : W × String :=
  match condition with
  | .inst c => if L.isWarning c then (L.category c, L.str (.inst c)) else (L.generic, L.str (.inst c))
  | a => (L.generic, L.str a)

/-- `signal`, `error`, `cerror` and `warn` (conditions.py:91-200, 729-850), called with `condition` and `cause=cause` -/
def Protocol.callArg (L : Classes σ ε C K V W) (E : Env σ ε Ty (Sent C) V) (p : Protocol) (condition cause : Arg C K V) : Prog σ ε Ty (Sent C) V :=
  match p with
  | .signal => prepare L condition cause .signal fun c => .signal c (.ret E.none)
  | .error => prepare L condition cause .error fun c => Cond.error c
  | .cerror => .restarts [("proceed", noneFn E)] (prepare L condition cause .cerror fun c => Cond.error c)
  | .warn =>
    .restarts [("muffle", noneFn E)]
      (.seq (.restarts [("_proceed", noneFn E)] (prepare L condition cause .warn fun c => .signal c (.ret E.none))) fun _ =>
        act (L.emit (emission L condition).1 (emission L condition).2) (fun _ => .ret E.none) .raise)

end Unpy.Cond
