import Verif.Model.Fold
/-!
# Model of `unpythonic/conditions.py`

A thread of a Python program that uses conditions and restarts is written as a program tree, in which any function
of results so far may stand.  `eval` runs it; because a handler may signal again, it takes a number that bounds
the nesting, and theorems are about runs that end for some bound.

Simplifications: one thread; user code does not catch `BaseException`, of which `InvokeRestart` is a subclass; the
checks of argument types (conditions.py:436-438, 490-494) are left out; a condition is an instance (signalling a
class instantiates it first, conditions.py:211-222); tracebacks, `__cause__` and `__protocol__` are not modelled.
-/
namespace Unpy.Cond
open Unpy.Fold (Err)
variable {σ ε Ty C V : Type}

/-- A `BoundRestart` (conditions.py:517): its name, and the `with restarts` block it belongs to, numbered. -/
structure BR where
  name : String
  ctx : Nat
  deriving DecidableEq

/-- Arguments: positional ones, and named ones. -/
structure Args (V : Type) where
  pos : List V
  named : List (String × V) := []

/-- What can be propagating: an ordinary exception, or an `InvokeRestart` (conditions.py:498-504). -/
inductive Exc (ε V : Type) where
  | err (e : Err ε)
  | invoke (b : BR) (args : Args V)

/-- A program. -/
inductive Prog (σ ε Ty C V : Type) where
  | ret (v : V)
  | raise (e : Err ε)
  /-- look at the world -/
  | look (k : σ → Prog σ ε Ty C V)
  /-- change the world -/
  | put (s : σ) (k : Prog σ ε Ty C V)
  /-- run `p`, then `k` on its value -/
  | seq (p : Prog σ ε Ty C V) (k : V → Prog σ ε Ty C V)
  /-- `try: p except Exception as e: h(e)` -/
  | tryExcept (p : Prog σ ε Ty C V) (h : Err ε → Prog σ ε Ty C V)
  /-- `try: p finally: q` -/
  | tryFinally (p q : Prog σ ε Ty C V)
  /-- `with handlers((t, h), ...): p` -/
  | handlers (bs : List (Ty × (C → Prog σ ε Ty C V))) (p : Prog σ ε Ty C V)
  /-- `with_restarts(name=f, ...)(p)` -/
  | restarts (bs : List (String × (Args V → Prog σ ε Ty C V))) (p : Prog σ ε Ty C V)
  /-- `signal(c)`, then `k` -/
  | signal (c : C) (k : Prog σ ε Ty C V)
  /-- `invoke("name", *args, **named)` -/
  | invoke (name : String) (args : Args V)
  /-- `invoke(b, *args, **named)` -/
  | invokeBound (b : BR) (args : Args V)
  /-- `b = find_restart("name")`, then `k(b)` -/
  | findRestart (name : String) (k : Option BR → Prog σ ε Ty C V)

/-- What the conditions are: `isinstance`, the `ControlError` instance made by `invoke` for an unknown name
(conditions.py:264), the value `None`, and what `warnings.warn` does with a condition. -/
structure Env (σ ε Ty C V : Type) where
  isa : C → Ty → Bool
  ctrl : String → C
  none : V
  warn : C → σ → Except (Err ε) Unit × σ

/-- The state: the world, the two stacks (conditions.py:75-79; innermost first), the modification count of the
deque of handlers, and a source of identities for `with restarts` blocks. -/
structure St (σ ε Ty C V : Type) where
  world : σ
  hstack : List (List (Ty × (C → Prog σ ε Ty C V)))
  hver : Nat
  rstack : List (Nat × List (String × (Args V → Prog σ ε Ty C V)))
  next : Nat

/-- `_error` (conditions.py:784-796), so also `error` (conditions.py:729-747). -/
def error (c : C) : Prog σ ε Ty C V := .signal c (.raise (.py .ControlError))

/-- `lambda: None` as a restart function. -/
def noneFn (E : Env σ ε Ty C V) : Args V → Prog σ ε Ty C V := fun args =>
  if args.pos.isEmpty && args.named.isEmpty then .ret E.none else .raise (.py .TypeError)

/-- `cerror` (conditions.py:748-782). -/
def cerror (E : Env σ ε Ty C V) (c : C) : Prog σ ε Ty C V := .restarts [("proceed", noneFn E)] (error c)

/-- `warn` (conditions.py:798-850). -/
def warn (E : Env σ ε Ty C V) (c : C) : Prog σ ε Ty C V :=
  .restarts [("muffle", noneFn E)]
    (.seq (.restarts [("_proceed", noneFn E)] (.signal c (.ret E.none))) fun _ =>
      .look fun s => match E.warn c s with
        | (.ok _, s') => .put s' (.ret E.none)
        | (.error e, s') => .put s' (.raise e))

/-- `_Stacked.__enter__`, `__exit__` for `handlers` (conditions.py:423-427): each changes the deque. -/
def pushH (bs : List (Ty × (C → Prog σ ε Ty C V))) (st : St σ ε Ty C V) : St σ ε Ty C V :=
  { st with hstack := bs :: st.hstack, hver := st.hver + 1 }
def popH (st : St σ ε Ty C V) : St σ ε Ty C V :=
  { st with hstack := st.hstack.tail, hver := st.hver + 1 }
/-- `_Stacked.__enter__`, `__exit__` for `Restarts` (conditions.py:423-427, class conditions.py:429-440); entering gives the block its
identity, that of its dictionary `bindings` (conditions.py:430-433). -/
def pushR (bs : List (String × (Args V → Prog σ ε Ty C V))) (st : St σ ε Ty C V) : St σ ε Ty C V :=
  { st with rstack := (st.next, bs) :: st.rstack, next := st.next + 1 }
def popR (st : St σ ε Ty C V) : St σ ε Ty C V := { st with rstack := st.rstack.tail }

/-- `find_restart` (conditions.py:518-534). -/
def findR (name : String) : List (Nat × List (String × (Args V → Prog σ ε Ty C V))) → Option BR
  | [] => none
  | (id, bs) :: rs => if (bs.lookup name).isSome then some ⟨name, id⟩ else findR name rs

abbrev Out (σ ε Ty C V : Type) := Except (Exc ε V) V × St σ ε Ty C V

/-- The inner loop of `_find_handlers` (conditions.py:509-515) with the call of each handler found
(conditions.py:190-194): the bindings of one `with handlers`, in order. -/
def sigFrame (E : Env σ ε Ty C V) (ev : Prog σ ε Ty C V → St σ ε Ty C V → Option (Out σ ε Ty C V)) (c : C) :
    List (Ty × (C → Prog σ ε Ty C V)) → St σ ε Ty C V → Option (Except (Exc ε V) Unit × St σ ε Ty C V)
  | [], st => some (.ok (), st)
  | (t, h) :: bs, st =>
    if E.isa c t then
      match ev (h c) st with
      | none => none
      | some (.ok _, st') => sigFrame E ev c bs st'
      | some (.error e, st') => some (.error e, st')
    else sigFrame E ev c bs st

/-- The outer loop of `_find_handlers` (conditions.py:508): a loop over the live deque, whose iterator raises
RuntimeError if the deque has been modified since the loop began. -/
def sigFrames (E : Env σ ε Ty C V) (ev : Prog σ ε Ty C V → St σ ε Ty C V → Option (Out σ ε Ty C V)) (c : C)
    (ver : Nat) : List (List (Ty × (C → Prog σ ε Ty C V))) → St σ ε Ty C V →
    Option (Except (Exc ε V) Unit × St σ ε Ty C V)
  | [], st => if st.hver ≠ ver then some (.error (.err (.py .RuntimeError)), st) else some (.ok (), st)
  | bs :: rest, st =>
    if st.hver ≠ ver then some (.error (.err (.py .RuntimeError)), st) else
    match sigFrame E ev c bs st with
    | none => none
    | some (.ok _, st') => sigFrames E ev c ver rest st'
    | some (.error e, st') => some (.error e, st')

/-- A named argument for which Python finds two values: `invoke` has a parameter `name_or_restart` (conditions.py:232). -/
def clashInvoke (args : Args V) : Bool := args.named.any (·.1 = "name_or_restart")

/-- The same for `InvokeRestart.__init__` (conditions.py:499). -/
def clashInit (args : Args V) : Bool := args.named.any fun p => p.1 = "self" || p.1 = "restart"

/-- `raise InvokeRestart(b, *args, **named)` (conditions.py:270) -/
def raiseInvoke (b : BR) (args : Args V) : Exc ε V :=
  if clashInit args then .err (.py .TypeError) else .invoke b args

/-- Run a program; `none`: the bound was too small. -/
def eval (E : Env σ ε Ty C V) : Nat → Prog σ ε Ty C V → St σ ε Ty C V → Option (Out σ ε Ty C V)
  | 0, _, _ => none
  | n + 1, p, st =>
    match p with
    | .ret v => some (.ok v, st)
    | .raise e => some (.error (.err e), st)
    | .look k => eval E n (k st.world) st
    | .put s k => eval E n k { st with world := s }
    | .seq p k =>
      match eval E n p st with
      | none => none
      | some (.ok v, st') => eval E n (k v) st'
      | some (.error e, st') => some (.error e, st')
    | .tryExcept p h =>
      match eval E n p st with
      | some (.error (.err e), st') => eval E n (h e) st'
      | out => out
    | .tryFinally p q =>
      match eval E n p st with
      | none => none
      | some (r, st') =>
        match eval E n q st' with
        | none => none
        | some (.ok _, st'') => some (r, st'')
        | some (.error e, st'') => some (.error e, st'')
    | .handlers bs p =>
      match eval E n p (pushH bs st) with
      | none => none
      | some (r, st') => some (r, popH st')
    -- restarts (conditions.py:667-678), with_restarts (conditions.py:716-724): the restart function runs inside
    -- the `with Restarts` block
    | .restarts bs p =>
      match eval E n p (pushR bs st) with
      | none => none
      | some (.error (.invoke b args), st') =>
        if b.ctx = st.next then
          match bs.lookup b.name with
          | none => some (.error (.err (.py .KeyError)), popR st')   -- not reached: `b` comes from `find_restart`
          | some f =>
            match eval E n (f args) st' with
            | none => none
            | some (r, st'') => some (r, popR st'')
        else some (.error (.invoke b args), popR st')
      | some (r, st') => some (r, popR st')
    -- signal (conditions.py:176-200)
    | .signal c k =>
      match sigFrames E (eval E n) c st.hver st.hstack st with
      | none => none
      | some (.ok _, st') => eval E n k st'
      | some (.error e, st') => some (.error e, st')
    -- invoke (conditions.py:261-270)
    | .invoke name args =>
      if clashInvoke args then some (.error (.err (.py .TypeError)), st) else
      match findR name st.rstack with
      | some b => some (.error (raiseInvoke b args), st)
      | none => eval E n (error (E.ctrl name)) st
    | .invokeBound b args =>
      if clashInvoke args then some (.error (.err (.py .TypeError)), st)
      else some (.error (raiseInvoke b args), st)
    | .findRestart name k => eval E n (k (findR name st.rstack)) st

end Unpy.Cond
