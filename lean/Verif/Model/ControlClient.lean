import Verif.Model.Control
/-!
# Model of the client's side of the control channel (`ControlClient`, net/client.py:75-142)

Messages go through the channel in order and are not lost; a server answers each request that it reads, or hangs up.  An exception in the client, like KeyboardInterrupt (Ctrl+C), can come before the
request is sent, or while the client waits for the reply.  Simplifications: it does not come in the middle of sending, nor while a message is being decoded; sending into a closed channel is silent
(if it raises an exception, the result is the same, None, see `remoteExecute`); what is printed is left out.
-/
namespace Unpy.Control
variable {σ : Type}

/-- The connection: the state of the server, whether it still answers, and the replies that are not read yet -/
structure Link (σ : Type) where
  state : σ
  up : Bool
  inbox : List Json

/-- `self._send(request)` (net/common.py:43-50), and what the server does with it: it replies, or hangs up (none) -/
def send (serve : σ → Json → σ × Option Json) (l : Link σ) (req : Json) : Link σ :=
  if l.up then
    match serve l.state req with
    | (s, some j) => ⟨s, true, l.inbox ++ [j]⟩
    | (s, none) => ⟨s, false, l.inbox⟩
  else l

/-- `self._recv()` (net/common.py:52-65): None at the end of the data.  (It does not get to wait for a server that has nothing to answer, because the client calls it after sending a request only.) -/
def recv (l : Link σ) : Option Json × Link σ := match l.inbox with
  | j :: js => (some j, { l with inbox := js })
  | [] => (none, l)

/-- When the client is interrupted -/
inductive Fault where
  | beforeSend
  | whileWaiting

/-- What is done with the reply (net/client.py:104-111); exceptions (`reply["status"]` of something without it) are caught (net/client.py:112-114) -/
def judge (j : Json) : Option (List (String × Json)) :=
  if !truthy j then none
  else match j with
  | .obj kvs => (match lookup "status" kvs with
    | some s => if isStr "ok" s then some kvs else none
    | none => none)
  | _ => none

/-- `_remote_execute(request)` (net/client.py:93-114) -/
def remoteExecute (serve : σ → Json → σ × Option Json) (fault : Option Fault) (l : Link σ) (req : Json) : Option (List (String × Json)) × Link σ :=
  match fault with
  | some .beforeSend => (none, l)
  | some .whileWaiting => (none, send serve l req)
  | none =>
    match recv (send serve l req) with
    | (none, l) => (none, l)
    | (some j, l) => (judge j, l)

/-- The requests (net/client.py:118, 122, 129, 142) -/
def reqDescribe : Json := .obj [("command", .str "DescribeServer")]
def reqPair (id : Nat) : Json := .obj [("command", .str "PairWithSession"), ("id", .num id)]
def reqComplete (text : String) (state : Nat) : Json := .obj [("command", .str "TabComplete"), ("text", .str text), ("state", .num state)]
def reqInterrupt : Json := .obj [("command", .str "KeyboardInterrupt")]

/-- `complete(text, state)` (net/client.py:124-132): None, a value, or KeyError (`.error ()`) -/
def complete (serve : σ → Json → σ × Option Json) (fault : Option Fault) (l : Link σ) (text : String) (state : Nat) : Except Unit (Option Json) × Link σ :=
  match remoteExecute serve fault l (reqComplete text state) with
  | (some (kv :: kvs), l) => (match lookup "result" (kv :: kvs) with
    | some j => (.ok (some j), l)
    | none => (.error (), l))
  | (_, l) => (.ok none, l)

/-- What happens: the client makes a request, or the rest of the world changes something -/
inductive COp (σ : Type) where
  | call (fault : Option Fault) (req : Json)
  | change (f : σ → σ)

/-- The results of the calls of `_remote_execute`, in order -/
def calls (serve : σ → Json → σ × Option Json) : Link σ → List (COp σ) → List (Option (List (String × Json)))
  | _, [] => []
  | l, .call fault req :: ops => (remoteExecute serve fault l req).1 :: calls serve (remoteExecute serve fault l req).2 ops
  | l, .change f :: ops => calls serve { l with state := f l.state } ops

/-- The reply as JSON (net/server.py:353-418); `prompts` and the reasons are texts that are not modelled -/
def encodeReply (prompts : Json) (reason : Reason → Json) : Reply → Json
  | .describe => .obj [("status", .str "ok"), ("prompts", prompts), ("control_protocol_version", .str "1.0"),
      ("supported_commands", .arr [.str "DescribeServer", .str "PairWithSession", .str "TabComplete", .str "KeyboardInterrupt"])]
  | .paired => .obj [("status", .str "ok")]
  | .completion j => .obj [("status", .str "ok"), ("result", j)]
  | .interrupted => .obj [("status", .str "ok")]
  | .failed r => .obj [("status", .str "failed"), ("reason", reason r)]

/-- `ControlSession` (net/server.py:332-420) as a server of one channel, whose state is the sessions and `paired_repl_session_id` -/
def controlServe (compl : Json → Json → Option Json) (prompts : Json) (reason : Reason → Json) : S × Option Nat → Json → (S × Option Nat) × Option Json
  | (w, p), j => match handle compl w p (some j) with
    | .hangup => ((w, p), none)
    | .reply r p' => ((w, p'), some (encodeReply prompts reason r))
    | .interrupt p' t => ((w, some p'), some (encodeReply prompts reason (match victim w t with
      | some _ => .interrupted
      | none => .failed .interruptFailed)))

end Unpy.Control
