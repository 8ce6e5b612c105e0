/-!
# Model of `PTYSocketProxy` (`unpythonic/net/ptyproxy.py`)

What the operating system does is given: what each `poll` reports, what each read gives, and how much each write takes.  Bytes are numbers.

Not modelled: that the operating system reads at most 4096 bytes at once (the lists are arbitrary); `openpty` and `setraw` (net/ptyproxy.py:57-58); failures of `poll` itself.
-/
namespace Unpy.Pty

/-- The two ends that are connected: the socket, and the program at the slave side of the PTY -/
inductive Side where
  | sock | slave
  deriving DecidableEq, Repr

inductive Exc where
  /-- ConnectionResetError -/
  | reset
  /-- another OSError, such as BrokenPipeError, or EIO -/
  | os
  /-- TypeError -/
  | type
  /-- RuntimeError -/
  | runtime
  deriving DecidableEq, Repr

/-- What a read from one end gives: some bytes, or the end (no bytes), or an exception -/
inductive Read where
  | data (b : Nat) (bs : List Nat)
  | eof
  | raises (e : Exc)
  deriving DecidableEq, Repr

/-- What the write to the other end does: it takes so many of the bytes, at most all; or it raises an exception -/
inductive Write where
  | takes (n : Nat)
  | raises (e : Exc)
  deriving DecidableEq, Repr

/-- One `(fd, event)` of `poll` -/
structure Event where
  «from» : Side
  got : Read
  put : Write
  deriving DecidableEq, Repr

/-- One round of the loop: whether `stop` has been called before it (`_terminated`), and what `poll` gives -/
structure Round where
  stop : Bool
  events : List Event

/-- `on_socket_disconnect`, `on_slave_disconnect`: not set, or what happens when it is called -/
inductive Callback where
  | unset
  | returns
  | raises (e : Exc)
  deriving DecidableEq, Repr

structure Config where
  onSock : Callback
  onSlave : Callback

def Config.on (c : Config) : Side → Callback
  | .sock => c.onSock
  | .slave => c.onSlave

/-- How the thread is: it forwards; it has returned; it was ended by an exception -/
inductive Status where
  | running | returned | died (e : Exc)
  deriving DecidableEq, Repr

structure State where
  /-- the bytes that have been delivered, in order -/
  toSock : List Nat := []
  toSlave : List Nat := []
  /-- the calls of the callbacks, in order -/
  calls : List Side := []
  status : Status := .running
  deriving DecidableEq, Repr

/-- `self.on_…_disconnect(self)`: the state afterwards, and the exception; what is not set is `None`, which cannot be called -/
def callback (c : Config) (s : State) (x : Side) : State × Option Exc := match c.on x with
  | .unset => (s, some .type)
  | .returns => ({ s with calls := s.calls ++ [x] }, none)
  | .raises e => ({ s with calls := s.calls ++ [x] }, some e)

/-- The body of `for fd, event in fdlist` (net/ptyproxy.py:80-91).  Whether it has returned; the exception. -/
def handle (c : Config) (s : State) (e : Event) : State × Bool × Option Exc :=
  match e.from with
  | .slave => match e.got with
    | .raises x => (s, false, some x)
    | .eof => let r := callback c s .slave; (r.1, r.2.isNone, r.2)
    | .data b bs => match e.put with
      | .raises x => (s, false, some x)
      | .takes n => ({ s with toSock := s.toSock ++ (b :: bs).take n }, false, none)
  | .sock => match e.got with
    | .raises x => (s, false, some x)
    | .eof => let r := callback c s .sock; (r.1, r.2.isNone, r.2)
    | .data b bs => match e.put with
      | .raises x => (s, false, some x)
      | .takes n => ({ s with toSlave := s.toSlave ++ (b :: bs).take n }, false, none)

/-- `except ConnectionResetError` (net/ptyproxy.py:92-94) -/
def caught (c : Config) (s : State) : Exc → State
  | .reset => match callback c s .sock with
    | (s, none) => { s with status := .returned }
    | (s, some e) => { s with status := .died e }
  | e => { s with status := .died e }

/-- The loop over the events (net/ptyproxy.py:79-91) in its `try` -/
def events (c : Config) (s : State) : List Event → State
  | [] => s
  | e :: es => match handle c s e with
    | (s, _, some x) => caught c s x
    | (s, true, none) => { s with status := .returned }
    | (s, false, none) => events c s es

/-- `while not self._terminated` (net/ptyproxy.py:76-94) -/
def forward (c : Config) (s : State) : List Round → State
  | [] => s
  | r :: rs =>
    if s.status = .running then
      if r.stop then { s with status := .returned } else forward c (events c s r.events) rs
    else s

/-! ## Starting and stopping -/

structure Proxy where
  /-- `self._thread` is set -/
  thread : Bool := false
  terminated : Bool := true
  /-- the file descriptors are there -/
  fds : Bool := true
  /-- how often the master and the slave have been closed -/
  closed : Nat := 0
  deriving DecidableEq, Repr

/-- `start` (net/ptyproxy.py:67-101): the exception.  `os.ttyname(None)` is a TypeError (line 97). -/
def start (p : Proxy) : Proxy × Option Exc :=
  if p.thread then (p, some .runtime)
  else if p.fds then ({ p with terminated := false, thread := true }, none)
  else ({ p with terminated := false }, some .type)

/-- `stop` (net/ptyproxy.py:103-112).  `own`: it is called from the thread itself, in a callback, and a thread cannot join itself. -/
def stop (own : Bool) (p : Proxy) : Proxy × Option Exc :=
  if p.thread then
    if own then ({ p with terminated := true }, some .runtime)
    else ({ thread := false, terminated := true, fds := false, closed := p.closed + 1 }, none)
  else (p, none)

end Unpy.Pty
