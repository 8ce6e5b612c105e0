import Verif.Model.Control
/-!
# Specification of the control channel, in terms of what has happened

Histories are given with the newest event first.
-/
namespace Unpy.Spec.Control
open Unpy.Control (Json Ev Reply Reason Out)

/-! ## The REPL sessions -/

/-- The number of sessions there have been; they are numbered from 1. -/
def sessions : List Ev → Nat
  | [] => 0
  | .opens _ :: h => sessions h + 1
  | _ :: h => sessions h

/-- The session with this number is open. -/
def Open : List Ev → Nat → Prop
  | [], _ => False
  | .opens _ :: h, n => n = sessions h + 1 ∨ Open h n
  | .closes m :: h, n => m ≠ n ∧ Open h n
  | _ :: h, n => Open h n

/-- The session can be interrupted: it has told which thread is its thread. -/
def Ready : List Ev → Nat → Prop
  | [], _ => False
  | .opens _ :: h, n => n ≠ sessions h + 1 ∧ Ready h n
  | .ready m :: h, n => m = n ∨ Ready h n
  | _ :: h, n => Ready h n

/-- The thread of the session is running. -/
def Alive : List Ev → Nat → Prop
  | [], _ => False
  | .opens _ :: h, n => n = sessions h + 1 ∨ Alive h n
  | .exits m :: h, n => m ≠ n ∧ Alive h n
  | _ :: h, n => Alive h n

/-- The ident of the thread of the session -/
def ident : List Ev → Nat → Nat
  | [], _ => 0
  | .opens i :: h, n => if n = sessions h + 1 then i else ident h n
  | _ :: h, n => ident h n

/-! ## Requests -/

inductive Request where
  | describe
  | pair (id : Option Json)
  | complete (text state : Option Json)
  | interrupt
  | unknown
  | noCommand
  /-- a message that is no request -/
  | none

def field (kvs : List (String × Json)) (k : String) : Option Json := (kvs.find? (·.1 == k)).map (·.2)

/-- a list has this string in it -/
def HasStr (s : String) (js : List Json) : Bool := js.any fun | .str t => t == s | _ => false

/-- Messages that are empty are no requests.  Those that are no dictionaries are requests without a command, if one can see in them that there is no "command". -/
def request : Json → Request
  | .obj [] | .arr [] | .str "" => .none
  | .arr js => if HasStr "command" js then .none else .noCommand
  | .str s => if "command".toList <:+: s.toList then .none else .noCommand
  | .obj kvs => match field kvs "command" with
    | some (.str "DescribeServer") => .describe
    | some (.str "PairWithSession") => .pair (field kvs "id")
    | some (.str "TabComplete") => .complete (field kvs "text") (field kvs "state")
    | some (.str "KeyboardInterrupt") => .interrupt
    | some _ => .unknown
    | .none => .noCommand
  | _ => .none

/-- The id names this session. -/
def Names (n : Nat) : Json → Prop
  | .num i => i = n
  | .bool b => n = b.toNat
  | _ => False

/-- A value that can be the key of a dictionary -/
def IsKey : Json → Prop
  | .arr _ | .obj _ => False
  | _ => True

/-! ## Control channels -/

/-- The session the channel is paired with: the one of the last request for pairing that named an open session. -/
def Paired : List Ev → Nat → Nat → Prop
  | [], _, _ => False
  | .connect c' :: h, c, n => c' ≠ c ∧ Paired h c n
  | .recv c' (some j) :: h, c, n =>
    (c' = c ∧ ∃ id, request j = .pair (some id) ∧ Names n id ∧ Open h n) ∨
    (Paired h c n ∧ ¬ (c' = c ∧ ∃ id n', request j = .pair (some id) ∧ Names n' id ∧ Open h n'))
  | _ :: h, c, n => Paired h c n

/-- The request can be answered: `complete` can fail, and the ids of sessions can be compared with keys only. -/
def Answerable (complete : Json → Json → Option Json) (j : Json) : Prop := match request j with
  | .none => False
  | .pair (some id) => IsKey id
  | .complete (some t) (some s) => (complete t s).isSome
  | _ => True

/-- The state of a channel: it is closed, or it waits for a request, or it is about to interrupt a session -/
inductive Status where
  | closed
  | waits
  | interrupts (n : Nat)

/-- the status of a channel after a message.  (`Paired`, `Open` and `Ready` are those before it.) -/
inductive After (complete : Json → Json → Option Json) (h : List Ev) (c : Nat) : Option Json → Status → Prop where
  | closed : After complete h c none .closed
  | failed {j} (hj : ¬ Answerable complete j) : After complete h c (some j) .closed
  | interrupts {j n} (hj : request j = .interrupt) (hp : Paired h c n) (ho : Open h n) (hr : Ready h n) : After complete h c (some j) (.interrupts n)
  | waits {j} (hj : Answerable complete j) (hn : ∀ n, request j = .interrupt → Paired h c n → Open h n → ¬ Ready h n) : After complete h c (some j) .waits

inductive Has (complete : Json → Json → Option Json) : List Ev → Nat → Status → Prop where
  | init {c} : Has complete [] c .closed
  | connect {h c} : Has complete (.connect c :: h) c .waits
  | recv {h c m s} (hw : Has complete h c .waits) (hs : After complete h c m s) : Has complete (.recv c m :: h) c s
  | deliver {h c n} (hw : Has complete h c (.interrupts n)) : Has complete (.deliver c :: h) c .waits
  | opens {h c i s} (hs : Has complete h c s) : Has complete (.opens i :: h) c s
  | ready {h c i s} (hs : Has complete h c s) : Has complete (.ready i :: h) c s
  | closes {h c i s} (hs : Has complete h c s) : Has complete (.closes i :: h) c s
  | exits {h c i s} (hs : Has complete h c s) : Has complete (.exits i :: h) c s
  | connects {h c d s} (hd : d ≠ c) (hs : Has complete h c s) : Has complete (.connect d :: h) c s
  | recvs {h c d m s} (hd : d ≠ c) (hs : Has complete h c s) : Has complete (.recv d m :: h) c s
  | delivers {h c d s} (hd : d ≠ c) (hs : Has complete h c s) : Has complete (.deliver d :: h) c s

/-- The histories there can be.  The idents of running threads are distinct; the thread of a session runs until the session is closed. -/
inductive Legal (complete : Json → Json → Option Json) : List Ev → Prop where
  | nil : Legal complete []
  | opens {h i} (hl : Legal complete h) (hi : ∀ n, Alive h n → ident h n ≠ i) : Legal complete (.opens i :: h)
  | ready {h n} (hl : Legal complete h) (hn : Open h n) : Legal complete (.ready n :: h)
  | closes {h n} (hl : Legal complete h) (hn : Open h n) : Legal complete (.closes n :: h)
  | exits {h n} (hl : Legal complete h) (hn : Alive h n) (ho : ¬ Open h n) : Legal complete (.exits n :: h)
  | connect {h c} (hl : Legal complete h) (hc : Has complete h c .closed) : Legal complete (.connect c :: h)
  | recv {h c m} (hl : Legal complete h) (hc : Has complete h c .waits) : Legal complete (.recv c m :: h)
  | deliver {h c n} (hl : Legal complete h) (hc : Has complete h c (.interrupts n)) : Legal complete (.deliver c :: h)

/-- The answer to a request -/
inductive Answer (complete : Json → Json → Option Json) (h : List Ev) (c : Nat) (j : Json) : Reply → Prop where
  | describe (hj : request j = .describe) : Answer complete h c j .describe
  | noCommand (hj : request j = .noCommand) : Answer complete h c j (.failed .missingCommand)
  | unknown (hj : request j = .unknown) : Answer complete h c j (.failed .unknownCommand)
  | noId (hj : request j = .pair none) : Answer complete h c j (.failed .missingId)
  | paired {id n} (hj : request j = .pair (some id)) (hn : Names n id) (ho : Open h n) : Answer complete h c j .paired
  | noSession {id} (hj : request j = .pair (some id)) (hn : ∀ n, Names n id → ¬ Open h n) : Answer complete h c j (.failed .noSession)
  | noText {s} (hj : request j = .complete none s) : Answer complete h c j (.failed .missingParameter)
  | noState {t} (hj : request j = .complete t none) : Answer complete h c j (.failed .missingParameter)
  | completion {t s r} (hj : request j = .complete (some t) (some s)) (hr : complete t s = some r) : Answer complete h c j (.completion r)
  | notPaired (hj : request j = .interrupt) (hp : ∀ n, ¬ Paired h c n) : Answer complete h c j (.failed .notPaired)
  | gone {n} (hj : request j = .interrupt) (hp : Paired h c n) (ho : ¬ Open h n) : Answer complete h c j (.failed .sessionGone)
  | noThread {n} (hj : request j = .interrupt) (hp : Paired h c n) (ho : Open h n) (hr : ¬ Ready h n) : Answer complete h c j (.failed .noThread)

/-- what an event does is about this channel -/
def About (c : Nat) : Ev → Prop
  | .connect d | .recv d _ | .deliver d => d = c
  | _ => False

/-- the channel of an output -/
def channel : Out → Nat
  | .reply c _ | .interrupt c _ | .hangup c => c

/-- an event of another channel -/
def Elsewhere (c : Nat) : Ev → Bool
  | .connect d | .recv d _ | .deliver d => d != c
  | _ => false

/-- a message received by this channel -/
def IsMessage (c : Nat) : Ev → Bool
  | .recv d _ => d == c
  | _ => false

/-- a reply in this channel, or the end of it -/
def IsAnswer (c : Nat) : Out → Bool
  | .reply d _ | .hangup d => d == c
  | .interrupt .. => false

/-! ## Background jobs -/
open Unpy.Control (Job Arg)

/-- nothing happens to the job with this ident, and nobody asks for its result -/
def Untouched (i : Nat) : Job → Prop
  | .starts k | .begins k | .finishes k _ => k ≠ i
  | .fg x => x.ident ≠ some i

end Unpy.Spec.Control
