/-!
# Model of starting and stopping the REPL server (`unpythonic/net/server.py`)

The state is that of the process: the standard streams and the prompts in `sys`, the ports, and the globals of the module.

Not modelled: the sessions (`Model/Control.lean`, `Model/Client.lean`), the banner, port 0, and servers on several interfaces.  `shutdown`, `server_close` and `join` are taken to succeed.
-/
namespace Unpy.Lifecycle

/-- A stream: some file object, or a `Shim` of the server for `sys.stdin`, `sys.stdout` or `sys.stderr` -/
inductive Stream where
  | file (n : Nat)
  | shimIn | shimOut | shimErr
  deriving DecidableEq, Repr

/-- What the server changes in `sys`; a prompt is none if there is no such attribute -/
structure Sys where
  stdin : Stream
  stdout : Stream
  stderr : Stream
  ps1 : Option String
  ps2 : Option String
  deriving DecidableEq, Repr

/-- What the module keeps from the time of its import (net/server.py:148-151, 157-159); none for `None` -/
structure Kept where
  stdin : Stream
  stdout : Stream
  stderr : Stream
  ps1 : Option String
  ps2 : Option String
  deriving DecidableEq, Repr

/-! ## Sessions and `halt` -/

/-- What happens while the server runs -/
inductive Ev where
  /-- a session is opened (net/server.py:439-440), or ends (501) -/
  | opens (id : Nat)
  | ends (id : Nat)
  /-- `halt` (net/server.py:223-235) -/
  | halt (doit : Bool)
  /-- a second has passed -/
  | tick
  /-- Ctrl+C at the server -/
  | ctrlC
  deriving DecidableEq

/-- `_active_sessions` and `_halt_pending` (net/server.py:154-156) -/
structure Main where
  active : List Nat := []
  pending : Bool := false
  deriving DecidableEq, Repr

def handle (m : Main) : Ev → Main
  | .opens id => { m with active := m.active ++ [id] }
  | .ends id => { m with active := m.active.filter (· != id) }
  | .halt doit => { m with pending := doit }
  | .tick | .ctrlC => m

structure State where
  main : Main := {}
  sys : Sys
  kept : Kept
  /-- `_server_instance`: its ports -/
  instance? : Option (Nat × Nat) := none
  /-- the ports that this process listens on -/
  listening : List Nat := []
  /-- `_console_locals_namespace` -/
  locals? : Option Nat := none
  /-- the namespaces into which the utilities have been put -/
  equipped : List Nat := []
  /-- how often `stop` is registered with `atexit` -/
  atexit : Nat := 0
  deriving DecidableEq, Repr

/-- The import of the module (net/server.py:148-163): both prompts, or none -/
def init (sys : Sys) : State where
  sys := sys
  kept := match sys.ps1, sys.ps2 with
    | some p, some q => ⟨sys.stdin, sys.stdout, sys.stderr, some p, some q⟩
    | _, _ => ⟨sys.stdin, sys.stdout, sys.stderr, none, none⟩

inductive Exc where
  | runtime | os | attribute
  deriving DecidableEq, Repr

/-- `start` (net/server.py:505-612).  `busy`: the ports that other programs listen on. -/
def start (ns repl control : Nat) (busy : List Nat) (s : State) : State × Option Exc :=
  if s.instance?.isSome then (s, some .runtime)
  else
    let s := { s with locals? := some ns, equipped := s.equipped ++ [ns], sys := ⟨.shimIn, .shimOut, .shimErr, some ">>>> ", some ".... "⟩ }
    if repl ∈ busy ++ s.listening then (s, some .os)
    else
      let s := { s with listening := s.listening ++ [repl] }
      if control ∈ busy ++ s.listening then (s, some .os)
      else ({ s with listening := s.listening ++ [control], instance? := some (repl, control), atexit := s.atexit + 1 }, none)

/-- `if _original_ps1: sys.ps1 = _original_ps1` `else: delattr(sys, "ps1")` (net/server.py:634-641): the attribute afterwards; none for AttributeError -/
def restore (kept now : Option String) : Option (Option String) := match kept with
  | some p => if p ≠ "" then some (some p) else now.map (fun _ => none)
  | none => now.map (fun _ => none)

/-- `stop` (net/server.py:614-641) -/
def stop (s : State) : State × Option Exc := match s.instance? with
  | none => (s, none)
  | some (repl, control) =>
    let s := { s with
      listening := (s.listening.erase repl).erase control, instance? := none, locals? := none, atexit := 0,
      sys := { s.sys with stdin := s.kept.stdin, stdout := s.kept.stdout, stderr := s.kept.stderr } }
    match restore s.kept.ps1 s.sys.ps1 with
    | none => (s, some .attribute)
    | some p =>
      let s := { s with sys := { s.sys with ps1 := p } }
      match restore s.kept.ps2 s.sys.ps2 with
      | none => (s, some .attribute)
      | some q => ({ s with sys := { s.sys with ps2 := q } }, none)

/-- What a program does: it starts or stops the server, or assigns to the attributes of `sys`, for example with `contextlib.redirect_stdout`; or something happens in the sessions -/
inductive Op where
  | start (ns repl control : Nat) (busy : List Nat)
  | stop
  | assign (sys : Sys)
  | ev (e : Ev)
  deriving DecidableEq

def step (s : State) : Op → State × Option Exc
  | .start ns repl control busy => start ns repl control busy s
  | .stop => stop s
  | .assign sys => ({ s with sys := sys }, none)
  | .ev e => ({ s with main := handle s.main e }, none)

/-- The state after all -/
def run (s : State) (ops : List Op) : State := ops.foldl (fun s o => (step s o).1) s

/-- The loop of `main` (net/server.py:649-656): whether it is over, and what is left of the events -/
def loop (m : Main) : List Ev → Option (List Ev)
  | [] => none
  | .ctrlC :: es => some es
  | .tick :: es => if m.pending && m.active.isEmpty then some es else loop m es
  | e :: es => loop (handle m e) es

end Unpy.Lifecycle
