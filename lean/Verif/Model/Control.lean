/-!
# Model of the control channel of the REPL server (`unpythonic/net/server.py`), and of `bg` and `fg`

The server has any number of REPL sessions and control channels, each in a thread of its own; what they do is interleaved.  The messages themselves (`_send`, `_recv`,
net/common.py:43-65) are decoded as in `Model/Net.lean`; here they are JSON values.
-/
namespace Unpy.Control

inductive Json where
  | null
  | bool (b : Bool)
  | num (n : Int)
  | str (s : String)
  | arr (js : List Json)
  /-- keys are distinct -/
  | obj (kvs : List (String × Json))

/-- `bool(j)` -/
def truthy : Json → Bool
  | .null => false
  | .bool b => b
  | .num n => n != 0
  | .str s => s != ""
  | .arr js => !js.isEmpty
  | .obj kvs => !kvs.isEmpty

def isStr (s : String) : Json → Bool
  | .str t => t == s
  | _ => false

/-- `j[k]` for a dictionary -/
def lookup (k : String) : List (String × Json) → Option Json
  | [] => none
  | (k', j) :: kvs => if k' = k then some j else lookup k kvs

/-- one string is a part of another one -/
def isPart (s : List Char) : List Char → Bool
  | [] => s.isEmpty
  | c :: cs => s.isPrefixOf (c :: cs) || isPart s cs

/-- `"command" in request`; none for TypeError -/
def hasCommand : Json → Option Bool
  | .obj kvs => some (lookup "command" kvs).isSome
  | .arr js => some (js.any (isStr "command"))
  | .str s => some (isPart "command".toList s.toList)
  | .null | .bool _ | .num _ => none

/-- the key of a dictionary with integer keys that is equal to `j`, if there can be one; none for TypeError (unhashable).  (Numbers that are not integers are left out.) -/
def asKey : Json → Option (Option Nat)
  | .null => some none
  | .bool b => some (some b.toNat)
  | .num n => some (if n < 0 then none else some n.toNat)
  | .str _ => some none
  | .arr _ | .obj _ => none

inductive Reason where
  | missingCommand | missingId | noSession | missingParameter | notPaired | sessionGone | noThread | interruptFailed | unknownCommand
  deriving DecidableEq

inductive Reply where
  | describe
  | paired
  | completion (j : Json)
  | interrupted
  | failed (r : Reason)

/-- A REPL session -/
structure Sess where
  /-- it is in `_active_sessions` -/
  active : Bool
  /-- `self.thread` has been set -/
  hasThread : Bool
  /-- `thread.ident` -/
  ident : Nat
  /-- the thread is running -/
  alive : Bool

/-- A control channel; `paired_repl_session_id` -/
inductive Chan where
  | closed
  | idle (paired : Option Nat)
  /-- inside of the handling of KeyboardInterrupt, with the session looked up (net/server.py:393-394) -/
  | busy (paired : Nat) (target : Nat)

structure S where
  /-- the session with id `n + 1` is the one with index `n` -/
  sess : List Sess
  chan : Nat → Chan

def S.init : S := ⟨[], fun _ => .closed⟩

/-- What happens -/
inductive Ev where
  /-- a REPL session begins, in a thread with this ident (net/server.py:440-441) -/
  | opens (ident : Nat)
  /-- `self.thread = ...` (net/server.py:471) -/
  | ready (id : Nat)
  /-- `del _active_sessions[...]` (net/server.py:500) -/
  | closes (id : Nat)
  /-- the thread of the session ends -/
  | exits (id : Nat)
  /-- a control channel is opened -/
  | connect (c : Nat)
  /-- a request is received; none if the channel has been closed by the client, and for an empty message -/
  | recv (c : Nat) (m : Option Json)
  /-- the rest of the handling of KeyboardInterrupt (net/server.py:404-414) -/
  | deliver (c : Nat)

inductive Out where
  | reply (c : Nat) (r : Reply)
  /-- KeyboardInterrupt is raised in the thread of session `id` -/
  | interrupt (c : Nat) (id : Nat)
  /-- the channel is closed by the server -/
  | hangup (c : Nat)

def getSess (w : S) : Nat → Option Sess
  | 0 => none
  | n + 1 => w.sess[n]?

def setSess (w : S) (id : Nat) (f : Sess → Sess) : S := match id with
  | 0 => w
  | n + 1 => { w with sess := w.sess.modify n f }

def setChan (w : S) (c : Nat) (x : Chan) : S := { w with chan := fun c' => if c' = c then x else w.chan c' }

/-- `id in _active_sessions` -/
def isActive (w : S) (id : Nat) : Bool := match getSess w id with
  | some s => s.active
  | none => false

/-- What the handler does with a request -/
inductive Action where
  | hangup
  | reply (r : Reply) (paired : Option Nat)
  | interrupt (paired : Nat) (target : Nat)

/-- PairWithSession (net/server.py:363-374) -/
def pair (w : S) (p : Option Nat) (kvs : List (String × Json)) : Action := match lookup "id" kvs with
  | none => .reply (.failed .missingId) p
  | some j => match asKey j with
    | none => .hangup
    | some none => .reply (.failed .noSession) p
    | some (some n) => if isActive w n then .reply .paired (some n) else .reply (.failed .noSession) p

/-- TabComplete (net/server.py:376-382).  `complete` is that of `rlcompleter`; none if it raises an exception. -/
def tabComplete (complete : Json → Json → Option Json) (p : Option Nat) (kvs : List (String × Json)) : Action :=
  match lookup "text" kvs, lookup "state" kvs with
  | some t, some s => (match complete t s with
    | some r => .reply (.completion r) p
    | none => .hangup)
  | _, _ => .reply (.failed .missingParameter) p

/-- KeyboardInterrupt (net/server.py:384-402), up to the call of `async_raise` -/
def kbInterrupt (w : S) : Option Nat → Action
  | none => .reply (.failed .notPaired) none
  | some n => match getSess w n with
    | none => .reply (.failed .sessionGone) (some n)
    | some s => if !s.active then .reply (.failed .sessionGone) (some n)
      else if !s.hasThread then .reply (.failed .noThread) (some n)
      else .interrupt n n

/-- The body of the loop (net/server.py:347-420).  Exceptions end the loop (net/server.py:422-425). -/
def handle (complete : Json → Json → Option Json) (w : S) (p : Option Nat) : Option Json → Action
  | none => .hangup
  | some j => if !truthy j then .hangup else match hasCommand j with
    | none => .hangup
    | some false => .reply (.failed .missingCommand) p
    | some true => match j with
      | .obj kvs => (match lookup "command" kvs with
        | some cmd =>
          if isStr "DescribeServer" cmd then .reply .describe p
          else if isStr "PairWithSession" cmd then pair w p kvs
          else if isStr "TabComplete" cmd then tabComplete complete p kvs
          else if isStr "KeyboardInterrupt" cmd then kbInterrupt w p
          else .reply (.failed .unknownCommand) p
        | none => .hangup)
      | _ => .hangup

/-- `async_raise` (excutil.py:302-308): the exception goes to the running thread that has the ident of the given thread, if there is one.  (Only the threads of sessions are
modelled.) -/
def victim (w : S) (id : Nat) : Option Nat := match getSess w id with
  | none => none
  | some s => (w.sess.findIdx? fun s' => s'.alive && s'.ident == s.ident).map (· + 1)

/-- One step.  What cannot happen is ignored. -/
def step (complete : Json → Json → Option Json) (w : S) : Ev → S × List Out
  | .opens ident => ({ w with sess := w.sess ++ [⟨true, false, ident, true⟩] }, [])
  | .ready id => (setSess w id fun s => { s with hasThread := true }, [])
  | .closes id => (setSess w id fun s => { s with active := false }, [])
  | .exits id => (setSess w id fun s => { s with alive := false }, [])
  | .connect c => (setChan w c (.idle none), [])
  | .recv c m => (match w.chan c with
    | .idle p => (match handle complete w p m with
      | .hangup => (setChan w c .closed, [.hangup c])
      | .reply r p => (setChan w c (.idle p), [.reply c r])
      | .interrupt p t => (setChan w c (.busy p t), []))
    | _ => (w, []))
  | .deliver c => (match w.chan c with
    | .busy p t => (match victim w t with
      | some v => (setChan w c (.idle (some p)), [.interrupt c v, .reply c .interrupted])
      | none => (setChan w c (.idle (some p)), [.reply c (.failed .interruptFailed)]))
    | _ => (w, []))

/-- A history, the oldest event first -/
def run (complete : Json → Json → Option Json) : List Ev → S → S × List Out
  | [], w => (w, [])
  | e :: es, w => ((run complete es (step complete w e).1).1, (step complete w e).2 ++ (run complete es (step complete w e).1).2)

/-! ## `bg` and `fg` -/

/-- What a thunk does: it returns, it raises an Exception, or it raises another exception (KeyboardInterrupt, SystemExit) -/
inductive Outcome where
  | returns (v : Nat)
  | raises (e : Nat)
  | escapes

inductive Status where
  | running
  | success (v : Nat)
  | fail (e : Nat)

/-- What `fg` does -/
inductive FgResult where
  | value (v : Nat)
  | raised (e : Nat)
  | thread
  | typeError
  | valueError
  | attributeError
  deriving DecidableEq

/-- The argument of `fg` -/
structure Arg where
  /-- `"ident" in x`; none for a TypeError, if it is no container -/
  contains : Option Bool
  /-- `x.ident` -/
  ident : Option Nat

/-- A `threading.Thread`: the class has none of the methods `__contains__`, `__iter__`, `__getitem__`. -/
def thread (ident : Nat) : Arg := ⟨none, some ident⟩

/-- `_bg_results` -/
abbrev Results := Nat → Option Status

def Results.put (r : Results) (ident : Nat) (s : Option Status) : Results := fun i => if i = ident then s else r i

/-- `worker` (net/server.py:247), when it starts -/
def begins (r : Results) (ident : Nat) : Results := r.put ident (some .running)

/-- `worker` (net/server.py:248-253), when the thunk is done -/
def finishes (r : Results) (ident : Nat) : Outcome → Results
  | .returns v => r.put ident (some (.success v))
  | .raises e => r.put ident (some (.fail e))
  | .escapes => r

/-- `fg` (net/server.py:260-284) -/
def fg (r : Results) (x : Arg) : FgResult × Results := match x.contains with
  | none => (.typeError, r)
  | some false => (.typeError, r)
  | some true => match x.ident with
    | none => (.attributeError, r)
    | some i => match r i with
      | none => (.valueError, r)
      | some .running => (.thread, r)
      | some (.success v) => (.value v, r.put i none)
      | some (.fail e) => (.raised e, r.put i none)

/-- What happens: `bg` starts a thread with this ident and returns it (net/server.py:255-257); the worker begins to run in it; the thunk is done; `fg` is called. -/
inductive Job where
  | starts (ident : Nat)
  | begins (ident : Nat)
  | finishes (ident : Nat) (o : Outcome)
  | fg (x : Arg)

/-- The results of the calls of `fg` -/
def jobs : Results → List Job → List FgResult
  | _, [] => []
  | r, .starts _ :: js => jobs r js
  | r, .begins i :: js => jobs (begins r i) js
  | r, .finishes i o :: js => jobs (finishes r i o) js
  | r, .fg x :: js => (fg r x).1 :: jobs (fg r x).2 js

end Unpy.Control
