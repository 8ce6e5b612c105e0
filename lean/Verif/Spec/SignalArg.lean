import Verif.Model.SignalArg
import Verif.Spec.Conditions
/-!
# Signalling a class is signalling an instance of it
-/
namespace Unpy.Spec.Cond
open Unpy Unpy.Cond
open Unpy.Fold (Err)
variable {σ ε Ty C K V W : Type}

/-- What an argument stands for: an instance for itself, a class for a new instance of it, made without arguments; `None` for nothing.  Making the instance may change the world. -/
inductive Stands (L : Classes σ ε C K V W) : Arg C K V → σ → Option C → σ → Prop where
  | nothing {s} : Stands L .nothing s none s
  | inst {c s} : Stands L (.inst c) s (some c) s
  | cls {t s c s'} : L.make t s = (.ok c, s') → Stands L (.cls t) s (some c) s'

/-- What `signal(c)`, `error(c)` and `cerror(c)` do with an instance: the handlers are called; if all decline, `signal` returns, and the others raise ControlError; `cerror` has a restart `proceed`. -/
def sends (E : Env σ ε Ty (Sent C) V) (p : Protocol) (c : Sent C) : Prog σ ε Ty (Sent C) V :=
  match p with
  | .signal | .warn => .signal c (.ret E.none)
  | .error => .signal c (.raise (.py .ControlError))
  | .cerror => .restarts [("proceed", fun args => if args.pos.isEmpty && args.named.isEmpty then .ret E.none else .raise (.py .TypeError))] (.signal c (.raise (.py .ControlError)))

/-- The category and text of the warning for a condition: instances of `Warning` have their own category. -/
def warning (L : Classes σ ε C K V W) (c : C) : W × String := (if L.isWarning c then L.category c else L.generic, L.str (.inst c))

/-- What `warn` comes to, if the warning has been emitted, or emitting it has raised an exception -/
def warned (E : Env σ ε Ty (Sent C) V) : Except (Err ε) Unit → Except (Exc ε V) V
  | .ok _ => .ok E.none
  | .error e => .error (.err e)

end Unpy.Spec.Cond
