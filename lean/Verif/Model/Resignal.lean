import Verif.Model.Conditions
/-!
# Model of `unpythonic/conditions.py`, continued: `resignal`, `available_restarts`, `available_handlers`

A condition instance now carries what `_prepare_signal_instance` stores in it (conditions.py:223-226): the protocol
it was signalled with, and its cause.  Simplification: the values of a mapping are instances (a class would be
instantiated first; see `Verif.Model.SignalArg` for what goes wrong with `warn`), and are not shared with other signals, so storing these attributes is making a new value.
-/
namespace Unpy.Cond
open Unpy.Fold (Err)
variable {σ ε Ty C V : Type}

/-- `__protocol__` (conditions.py:173, 226): the function used for signalling; custom ones are left out. -/
inductive Protocol where
  | signal | error | cerror | warn
  deriving DecidableEq

/-- A condition instance with its `__protocol__` and `__cause__` (conditions.py:225-226). -/
inductive Cnd (C : Type) where
  | mk (inst : C) (protocol : Protocol) (cause : Option (Cnd C))

def Cnd.inst : Cnd C → C
  | .mk c _ _ => c
def Cnd.protocol : Cnd C → Protocol
  | .mk _ p _ => p
def Cnd.cause : Cnd C → Option (Cnd C)
  | .mk _ _ k => k

/-- `protocol(c, cause=cause)` (conditions.py:91-200, 729-850): the condition is prepared, then signalled. -/
def Protocol.call (E : Env σ ε Ty (Cnd C) V) (p : Protocol) (c : C) (cause : Option (Cnd C)) :
    Prog σ ε Ty (Cnd C) V :=
  match p with
  | .signal => .signal (.mk c .signal cause) (.ret E.none)
  | .error => Cond.error (.mk c .error cause)
  | .cerror => Cond.cerror E (.mk c .cerror cause)
  | .warn => Cond.warn E (.mk c .warn cause)

/-- `_resignal_handler` (conditions.py:884-892): a loop over the mapping that goes on after a match.  (A condition
that has been signalled has a `__protocol__`, so lines 889-890 are left out.) -/
def resignalHandler (E : Env σ ε Ty (Cnd C) V) : List (Ty × C) → Cnd C → Prog σ ε Ty (Cnd C) V
  | [], _ => .ret E.none
  | (lib, app) :: m, c =>
    if E.isa c lib then .seq (c.protocol.call E app (some c)) (fun _ => resignalHandler E m c)
    else resignalHandler E m c

/-- `resignal_in` (conditions.py:927-928), and `resignal` (conditions.py:961-962); `base` is `BaseException`. -/
def resignal (E : Env σ ε Ty (Cnd C) V) (base : Ty) (m : List (Ty × C)) (p : Prog σ ε Ty (Cnd C) V) :
    Prog σ ε Ty (Cnd C) V :=
  .handlers [(base, resignalHandler E m)] p

/-- `invoker` (conditions.py:332-417): the condition is ignored.  (It has a parameter `restart_name`, which no
named argument can be called.) -/
def invoker (name : String) (args : Args V) : C → Prog σ ε Ty C V := fun _ => .invoke name args

/-- The loops of `available_restarts` (conditions.py:546-553) and `available_handlers` (conditions.py:567-575):
the items in order, without those whose key has been seen. -/
def unseen {K F : Type} [DecidableEq K] : List K → List (K × F) → List (K × F)
  | _, [] => []
  | seen, (k, f) :: xs => if k ∈ seen then unseen seen xs else (k, f) :: unseen (k :: seen) xs

/-- `sorted(xs, key=key)` (conditions.py:554, 576): a stable sort, here by insertion. -/
def insertBy {α : Type} (key : α → String) (x : α) : List α → List α
  | [] => [x]
  | y :: ys => if key x ≤ key y then x :: y :: ys else y :: insertBy key x ys
def sortedBy {α : Type} (key : α → String) (xs : List α) : List α := xs.foldr (insertBy key) []

/-- `available_restarts` (conditions.py:536-554), as a function of the stack of restarts. -/
def availableRestarts {F : Type} (rstack : List (Nat × List (String × F))) : List (String × F) :=
  sortedBy Prod.fst (unseen [] (rstack.flatMap (fun e => e.2)))

/-- `available_handlers` (conditions.py:556-576), as a function of the stack of handlers.  What handlers are bound
to is here a list of types (of one type, if it is not a tuple); `name` is `__name__`. -/
def availableHandlers {T F : Type} [DecidableEq T] (name : T → String) (hstack : List (List (List T × F))) :
    List (T × F) :=
  sortedBy (fun a => name a.1) (unseen [] (hstack.flatten.flatMap (fun b => b.1.map (fun t => (t, b.2)))))

end Unpy.Cond
