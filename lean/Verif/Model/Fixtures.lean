/-!
# Model of the test framework (`unpythonic/test/fixtures.py`, `unpythonic/syntax/testingtools.py`)

Test programs (`Cmd`) are trees of what matters here of user code: tests, testsets, sessions, signals, exceptions, side effects
(`user`).  What a test macro expands to is a call of one of the three assert functions with the body of the test as a thunk.

Not modelled: threads; texts of the messages; `the[...]`; handlers and restarts of the user; conditions that are not `Exception`s;
callbacks that run tests or signal.
-/
namespace Unpy.Fixtures

/-- Exceptions. -/
inductive Exc where
  | user (n : Nat)
  /-- `ControlError`: an error condition is not handled -/
  | control
  /-- `TestSessionExit` -/
  | exit
  | runtime
  /-- a `BaseException` that is not an `Exception` -/
  | base
  deriving DecidableEq

/-- `isinstance(e, Exception)` -/
def Exc.isException : Exc → Bool
  | .base => false
  | _ => true

/-- `TestFailure`, `TestError`, `TestWarning`. -/
inductive Kind where
  | fail
  | error
  | warn
  deriving DecidableEq

/-- Conditions that are signaled: by the framework; by the user. -/
inductive Cond where
  | testing (k : Kind)
  | user (n : Nat)
  deriving DecidableEq

/-- `signal`, `error`, `cerror`, `warn` of `unpythonic.conditions`. -/
inductive Protocol where
  | signal
  | error
  | cerror
  | warn
  deriving DecidableEq

/-- A `postproc` callback: it returns; it is `terminate`; it raises. -/
inductive Postproc where
  | returns
  | terminate
  | raises (e : Exc)

/-- The value of the expression tested. -/
inductive Value where
  | val (truth : Bool)
  /-- the markers of `fail[]`, `error[]`, `warn[]` -/
  | marker (k : Kind)
  /-- `bool(v)` raises -/
  | badBool (e : Exc)
  /-- `str(v)` or `repr(v)` raises -/
  | badStr (truth : Bool) (e : Exc)

/-- Test programs. -/
inductive Cmd where
  | skip
  | seq (a b : Cmd)
  /-- a side effect -/
  | user (n : Nat)
  /-- `test[...]`, `with test:`; the value after running the body -/
  | test (body : Cmd) (v : Value)
  | testSignals (t : Nat) (body : Cmd)
  | testRaises (t : Nat) (body : Cmd)
  | testset (pp : Option Postproc) (body : Cmd)
  | session (body : Cmd)
  | signal (p : Protocol) (n : Nat)
  | raise (e : Exc)
  | terminate
  | catchSignals (state : Bool) (body : Cmd)
  /-- `try: body; except Exception: h` -/
  | tryExcept (body h : Cmd)

/-- What is printed, with the level of indentation; side effects of the user; Python's warnings. -/
inductive Msg where
  | sessionBegin
  | sessionEnd
  | terminating
  | begin (level : Nat)
  | fin (level runs fails errors warns : Nat)
  | report (level : Nat) (k : Kind)
  | straySignal (level : Nat)
  | strayException (level : Nat)
  | user (n : Nat)
  | warning (n : Nat)
  deriving DecidableEq

/-- The counters and the per-thread state. -/
structure State where
  run : Nat
  failed : Nat
  errored : Nat
  warned : Nat
  /-- `catch_uncaught_signals` -/
  catching : List Bool
  postprocs : List Postproc
  level : Nat
  log : List Msg

/-- How code ends: normally; by an exception; by the restart `_got_signal` of the `i`th frame. -/
inductive Out where
  | ok
  | exc (e : Exc)
  | jump (i : Nat) (n : Nat)

/-- Handlers in effect: `intercept` in `_observe`, `print_and_proceed` in `testset`. -/
inductive Frame where
  | observe
  | testset (level : Nat)

/-- What is not fixed by the code: the classes of the user's conditions and exceptions; `TestConfig.postproc`. -/
structure World where
  isCond : Nat → Nat → Bool
  isExc : Exc → Nat → Bool
  postproc : Option Postproc

/-- What a handler does: return; invoke the restart `proceed` or `_proceed`; raise; invoke `_got_signal`. -/
inductive Handled where
  | returns
  | proceed
  | exc (e : Exc)
  | jump (i : Nat) (n : Nat)

def State.print (s : State) (m : Msg) : State := { s with log := s.log ++ [m] }

/-- `terminate` (fixtures.py:506-514) -/
def terminate (s : State) : Out × State := (.exc .exit, s.print .terminating)

/-- The `postproc` in effect (fixtures.py:665-672). -/
def callPostproc (W : World) (s : State) : Out × State :=
  match (match s.postprocs with
    | p :: _ => some p
    | [] => W.postproc) with
  | none => (.ok, s)
  | some .returns => (.ok, s)
  | some .terminate => terminate s
  | some (.raises e) => (.exc e, s)

/-- The position of the innermost `_observe`, counted from the outside: that of the restart `_got_signal` bound last. -/
def innermost : List Frame → Option Nat
  | [] => none
  | .observe :: H => some H.length
  | .testset _ :: H => innermost H

/-- `_observe.intercept` (testingtools.py:516-526); `H`: all handlers in effect. -/
def intercept (H : List Frame) (c : Cond) (s : State) : Handled × State :=
  match s.catching with
  | true :: _ => match c with
    | .testing _ => (.returns, s)
    | .user n => match innermost H with
      | some i => (.jump i n, s)
      | none => (.exc .control, s)
  | _ => (.returns, s)

/-- The end of `testset.print_and_proceed` (fixtures.py:662-684). -/
def postprocAndProceed (W : World) (p : Protocol) (s : State) : Handled × State :=
  match callPostproc W s with
  | (.exc e, s) => (.exc e, s)
  | (_, s) => match p with
    | .cerror | .warn => (.proceed, s)
    | _ => (.returns, s)

/-- `testset.print_and_proceed` (fixtures.py:640-684), for a condition signaled with `p`. -/
def printAndProceed (W : World) (level : Nat) (p : Protocol) (c : Cond) (s : State) : Handled × State :=
  match c with
  | .testing k => postprocAndProceed W p (s.print (.report (level + 1) k))
  | .user _ => match s.catching with
    | true :: _ =>
      postprocAndProceed W p ({ s with run := s.run + 1, errored := s.errored + 1 }.print (.straySignal (level + 1)))
    | _ => (.returns, s)

/-- The handlers, from the innermost, until one does not return (conditions.py:193-198). -/
def handlers (W : World) (H : List Frame) (p : Protocol) (c : Cond) : List Frame → State → Handled × State
  | [], s => (.returns, s)
  | f :: fs, s =>
    match (match f with
      | .observe => intercept H c s
      | .testset level => printAndProceed W level p c s) with
    | (.returns, s) => handlers W H p c fs s
    | r => r

/-- `signal`, `error`, `cerror`, `warn` (conditions.py:91-200, 729-848) -/
def signal (W : World) (H : List Frame) (p : Protocol) (c : Cond) (s : State) : Out × State :=
  let warning := fun s : State => match p, c with
    | .warn, .user n => s.print (.warning n)
    | _, _ => s
  match handlers W H p c H s with
  | (.returns, s) => match p with
    | .error | .cerror => (.exc .control, s)
    | _ => (.ok, warning s)
  | (.proceed, s) => (.ok, warning s)
  | (.exc e, s) => (.exc e, s)
  | (.jump i n, s) => (.jump i n, s)

/-- How a test fared: `completed`, `signaled`, `raised` (fixtures.py:183-201). -/
inductive Mode where
  | completed
  | signaled (n : Nat)
  | raised (e : Exc)

/-- `_observe` (testingtools.py:503-539), for a thunk that ended so; `i`: the position of its frame.  `none`: what is not caught
here. -/
def observed (i : Nat) : Out → Option Mode
  | .ok => some .completed
  | .jump j n => if j = i then some (.signaled n) else none
  | .exc e => if e.isException then some (.raised e) else none

/-- The end of an assert function: count, and signal (testingtools.py:621-711). -/
def conclude (W : World) (H : List Frame) (k : Kind) (s : State) : Out × State :=
  let s := match k with
    | .fail => { s with failed := s.failed + 1 }
    | .error => { s with errored := s.errored + 1 }
    | .warn => { s with warned := s.warned + 1, run := s.run - 1 }
  signal W H .cerror (.testing k) s

/-- `unpythonic_assert` (testingtools.py:542-711), after running the thunk.  The message is made before the test is counted, the value
is tested after that. -/
def assertValue (W : World) (H : List Frame) (m : Mode) (v : Value) (s : State) : Out × State :=
  match m, v with
  | .completed, .badStr _ e => (.exc e, s)
  | .completed, v =>
    let s := { s with run := s.run + 1 }
    match v with
    | .marker k => conclude W H k s
    | .val true => (.ok, s)
    | .val false => conclude W H .fail s
    | .badBool e => (.exc e, s)
    | .badStr _ _ => (.ok, s)
  | _, _ => conclude W H .error { s with run := s.run + 1 }

/-- `unpythonic_assert_signals` (testingtools.py:713-746), after running the thunk. -/
def assertSignals (W : World) (H : List Frame) (m : Mode) (t : Nat) (s : State) : Out × State :=
  let s := { s with run := s.run + 1 }
  match m with
  | .completed => conclude W H .fail s
  | .signaled n => if W.isCond n t then (.ok, s) else conclude W H .error s
  | .raised _ => conclude W H .error s

/-- `unpythonic_assert_raises` (testingtools.py:748-781), after running the thunk. -/
def assertRaises (W : World) (H : List Frame) (m : Mode) (t : Nat) (s : State) : Out × State :=
  let s := { s with run := s.run + 1 }
  match m with
  | .completed => conclude W H .fail s
  | .signaled _ => conclude W H .error s
  | .raised e => if W.isExc e t then (.ok, s) else conclude W H .error s

/-- `testset` (fixtures.py:606-720), with its body as a function of the state. -/
def testset (pp : Option Postproc) (body : Nat → State → Out × State) (s₀ : State) : Out × State :=
  let level := s₀.level
  let s := { s₀ with level := level + 1 }.print (.begin level)
  let s := match pp with
    | some p => { s with postprocs := p :: s.postprocs }
    | none => s
  let (o, s) := body level s
  -- a generator that ends normally after an exception was thrown into it makes the `with` statement swallow the exception
  let (o, s) : Out × State := match o with
    | .exc .exit => (.ok, s)
    | .exc e =>
      if e.isException then
        (.ok, { s with run := s.run + 1, errored := s.errored + 1 }.print (.strayException (level + 1)))
      else (.exc e, s)
    | o => (o, s)
  let s := match pp with
    | some _ => { s with postprocs := s.postprocs.drop 1 }
    | none => s
  let s := { s with level := s.level - 1 }
  (o, s.print (.fin level (s.run - s₀.run) (s.failed - s₀.failed) (s.errored - s₀.errored) (s.warned - s₀.warned)))

/-- Run a test program; `H`: the handlers in effect. -/
def exec (W : World) : List Frame → Cmd → State → Out × State
  | _, .skip, s => (.ok, s)
  | H, .seq a b, s => match exec W H a s with
    | (.ok, s) => exec W H b s
    | r => r
  | _, .user n, s => (.ok, s.print (.user n))
  | H, .test body v, s => match exec W (.observe :: H) body s with
    | (o, s) => match observed H.length o with
      | some m => assertValue W H m v s
      | none => (o, s)
  | H, .testSignals t body, s => match exec W (.observe :: H) body s with
    | (o, s) => match observed H.length o with
      | some m => assertSignals W H m t s
      | none => (o, s)
  | H, .testRaises t body, s => match exec W (.observe :: H) body s with
    | (o, s) => match observed H.length o with
      | some m => assertRaises W H m t s
      | none => (o, s)
  | H, .testset pp body, s => testset pp (fun level => exec W (.testset level :: H) body) s
  | H, .session body, s =>
    -- `session` (fixtures.py:569-601)
    if s.level > 0 then (.exc .runtime, s)
    else match testset none (fun level => exec W (.testset level :: H) body) (s.print .sessionBegin) with
      | (.ok, s) => (.ok, s.print .sessionEnd)
      | (.exc .exit, s) => (.ok, s.print .sessionEnd)
      | r => r
  | H, .signal p n, s => signal W H p (.user n) s
  | _, .raise e, s => (.exc e, s)
  | _, .terminate, s => terminate s
  | H, .catchSignals b body, s =>
    -- `catch_signals` (fixtures.py:536-565)
    match exec W H body { s with catching := b :: s.catching } with
    | (o, s) => (o, { s with catching := s.catching.drop 1 })
  | H, .tryExcept body h, s => match exec W H body s with
    | (.exc e, s) => if e.isException then exec W H h s else (.exc e, s)
    | r => r

/-- The state to begin with. -/
def start : State := ⟨0, 0, 0, 0, [true], [], 0, []⟩

/-- Run a test program. -/
def run (W : World) (c : Cmd) : Out × State := exec W [] c start

end Unpy.Fixtures
