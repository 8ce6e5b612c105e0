import Verif.Model.Conditions
/-!
# What runs when a condition is signalled, and where a restart goes
-/
namespace Unpy.Spec.Cond
open Unpy Unpy.Cond
open Unpy.Fold (Err)
variable {σ ε Ty C V : Type}

/-- The run of `p` from `st` ends with `r` in `st'`. -/
def Ends (E : Env σ ε Ty C V) (p : Prog σ ε Ty C V) (st : St σ ε Ty C V) (r : Except (Exc ε V) V)
    (st' : St σ ε Ty C V) : Prop := ∃ n, eval E n p st = some (r, st')

/-- No named argument is called like a parameter of `invoke`, or of the exception that it raises. -/
def Free (args : Args V) : Prop := ∀ p ∈ args.named, p.1 ∉ ["name_or_restart", "restart", "self"]

/-- The handlers for a condition, innermost block first, within a block in the order written. -/
def matching (E : Env σ ε Ty C V) (c : C) (hs : List (List (Ty × (C → Prog σ ε Ty C V)))) :
    List (Prog σ ε Ty C V) :=
  (hs.flatten.filter (fun b => E.isa c b.1)).map (fun b => b.2 c)

/-- Programs run one after another until one raises; their values are ignored. -/
inductive RunsAll (E : Env σ ε Ty C V) :
    List (Prog σ ε Ty C V) → St σ ε Ty C V → Except (Exc ε V) Unit → St σ ε Ty C V → Prop where
  | nil {st} : RunsAll E [] st (.ok ()) st
  | next {h hs st v st1 r st'} : Ends E h st (.ok v) st1 → RunsAll E hs st1 r st' → RunsAll E (h :: hs) st r st'
  | stop {h hs st e st1} : Ends E h st (.error e) st1 → RunsAll E (h :: hs) st (.error e) st1

/-- As long as the handlers for `c` decline, they leave the stack of handlers alone: none has entered a
`with handlers` block by the time the next block's handlers are looked up. -/
def Quiet (E : Env σ ε Ty C V) (c : C) (st : St σ ε Ty C V) : Prop :=
  ∀ inner outer st1, st.hstack = inner ++ outer → RunsAll E (matching E c inner) st (.ok ()) st1 → st1.hver = st.hver

/-- An unfinished block around a point of a program. -/
inductive Frame (σ ε Ty C V : Type) where
  /-- something that lets `InvokeRestart` pass without further ado -/
  | plain
  | tryFinally (q : Prog σ ε Ty C V)
  | handlers (bs : List (Ty × (C → Prog σ ε Ty C V)))
  | restarts (id : Nat) (bs : List (String × (Args V → Prog σ ε Ty C V)))
  /-- a `with restarts` block whose restart function is running -/
  | restartFn (id : Nat) (bs : List (String × (Args V → Prog σ ε Ty C V)))

/-- `Active E p st q st' fs`: the run of `p` from `st` gets, in state `st'`, to running `q`, with the blocks `fs`
(innermost first) unfinished around it. -/
inductive Active (E : Env σ ε Ty C V) : Prog σ ε Ty C V → St σ ε Ty C V → Prog σ ε Ty C V → St σ ε Ty C V →
    List (Frame σ ε Ty C V) → Prop where
  | here {p st} : Active E p st p st []
  | look {k st q st' fs} : Active E (k st.world) st q st' fs → Active E (.look k) st q st' fs
  | put {s k st q st' fs} : Active E k { st with world := s } q st' fs → Active E (.put s k) st q st' fs
  | findRestart {name k st q st' fs} : Active E (k (findR name st.rstack)) st q st' fs →
      Active E (.findRestart name k) st q st' fs
  | inSeq {p k st q st' fs} : Active E p st q st' fs → Active E (.seq p k) st q st' (fs ++ [.plain])
  | afterSeq {p k st v st1 q st' fs} : Ends E p st (.ok v) st1 → Active E (k v) st1 q st' fs →
      Active E (.seq p k) st q st' fs
  | inTry {p h st q st' fs} : Active E p st q st' fs → Active E (.tryExcept p h) st q st' (fs ++ [.plain])
  | inExcept {p h st e st1 q st' fs} : Ends E p st (.error (.err e)) st1 → Active E (h e) st1 q st' fs →
      Active E (.tryExcept p h) st q st' fs
  | inTryFinally {p f st q st' fs} : Active E p st q st' fs →
      Active E (.tryFinally p f) st q st' (fs ++ [.tryFinally f])
  | inFinally {p f st r st1 q st' fs} : Ends E p st r st1 → Active E f st1 q st' fs →
      Active E (.tryFinally p f) st q st' (fs ++ [.plain])
  | inHandlers {bs p st q st' fs} : Active E p (pushH bs st) q st' fs →
      Active E (.handlers bs p) st q st' (fs ++ [.handlers bs])
  | inRestarts {bs p st q st' fs} : Active E p (pushR bs st) q st' fs →
      Active E (.restarts bs p) st q st' (fs ++ [.restarts st.next bs])
  | inRestartFn {bs p st b args f st1 q st' fs} : Ends E p (pushR bs st) (.error (.invoke b args)) st1 →
      b.ctx = st.next → bs.lookup b.name = some f → Active E (f args) st1 q st' fs →
      Active E (.restarts bs p) st q st' (fs ++ [.restartFn st.next bs])
  /-- in a handler, after those of the blocks further in, and those before it in its block, have declined -/
  | inHandler {c k st inner b1 t h b2 outer st0 st1 q st' fs} :
      st.hstack = inner ++ (b1 ++ (t, h) :: b2) :: outer → E.isa c t = true →
      RunsAll E (matching E c inner) st (.ok ()) st0 → st0.hver = st.hver →
      RunsAll E (matching E c [b1]) st0 (.ok ()) st1 → Active E (h c) st1 q st' fs →
      Active E (.signal c k) st q st' (fs ++ [.plain])
  | afterSignal {c k st st1 q st' fs} : RunsAll E (matching E c st.hstack) st (.ok ()) st1 → st1.hver = st.hver →
      Active E k st1 q st' fs → Active E (.signal c k) st q st' fs
  | unknown {name args st q st' fs} : (∀ p ∈ args.named, p.1 ≠ "name_or_restart") → findR name st.rstack = none → Active E (error (E.ctrl name)) st q st' fs →
      Active E (.invoke name args) st q st' fs

/-- `with handlers` blocks among the frames. -/
def hOf : List (Frame σ ε Ty C V) → List (List (Ty × (C → Prog σ ε Ty C V)))
  | [] => []
  | .handlers bs :: fs => bs :: hOf fs
  | _ :: fs => hOf fs

/-- `with restarts` blocks among the frames. -/
def rOf : List (Frame σ ε Ty C V) → List (Nat × List (String × (Args V → Prog σ ε Ty C V)))
  | [] => []
  | .restarts id bs :: fs => (id, bs) :: rOf fs
  | .restartFn id bs :: fs => (id, bs) :: rOf fs
  | _ :: fs => rOf fs

/-- The state after leaving these blocks by an exception that is for none of them: `finally` blocks run (and end
normally), the stacks are popped. -/
inductive LeaveAll (E : Env σ ε Ty C V) : List (Frame σ ε Ty C V) → St σ ε Ty C V → St σ ε Ty C V → Prop where
  | nil {st} : LeaveAll E [] st st
  | plain {fs st st'} : LeaveAll E fs st st' → LeaveAll E (.plain :: fs) st st'
  | tryFinally {q fs st v st1 st'} : Ends E q st (.ok v) st1 → LeaveAll E fs st1 st' →
      LeaveAll E (.tryFinally q :: fs) st st'
  | handlers {bs fs st st'} : LeaveAll E fs (popH st) st' → LeaveAll E (.handlers bs :: fs) st st'
  | restarts {id bs fs st st'} : LeaveAll E fs (popR st) st' → LeaveAll E (.restarts id bs :: fs) st st'
  | restartFn {id bs fs st st'} : LeaveAll E fs (popR st) st' → LeaveAll E (.restartFn id bs :: fs) st st'

end Unpy.Spec.Cond
