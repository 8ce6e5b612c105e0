import Verif.Model.Fixtures
/-!
# What the test framework should do

Every test that is run has exactly one verdict, whatever happens in it; then the program goes on.  Also a condition signaled, or an
exception raised, outside of any test but in a testset, has a verdict: error.  Exceptions that are not caught end the innermost
testset.  The tally of a testset is that of the verdicts since its beginning.  `terminate` ends the session.

With `careful`, the interpreter stops at things that the framework is known to do otherwise.
-/
namespace Unpy.Fixtures.Spec
open Unpy.Fixtures

inductive Verdict where
  | pass
  | fail
  | error
  | warn
  deriving DecidableEq

/-- Verdicts in a testset: how many tests; how many failed; how many errors; and how many warnings, which are not counted as tests. -/
def runs (vs : List Verdict) : Nat := vs.countP (· != .warn)
def fails (vs : List Verdict) : Nat := vs.count .fail
def errors (vs : List Verdict) : Nat := vs.count .error
def warns (vs : List Verdict) : Nat := vs.count .warn

/-- What surrounds a piece of code, from the inside. -/
inductive Around where
  | test
  | testset (level : Nat)

/-- The context: what surrounds the code; whether signals are caught; the callback in effect; the number of testsets. -/
structure Ctx where
  around : List Around
  catching : Bool
  postproc : Option Postproc
  level : Nat

/-- How code ends. -/
inductive Out where
  | ok
  | exc (e : Exc)
  /-- a signal ends the innermost test -/
  | signaled (n : Nat)
  /-- the careful interpreter stops -/
  | stopped

structure State where
  verdicts : List Verdict
  log : List Msg

def State.print (s : State) (m : Msg) : State := { s with log := s.log ++ [m] }
def State.verdict (s : State) (v : Verdict) : State := { s with verdicts := s.verdicts ++ [v] }

/-- The level of the innermost testset. -/
def innermostTestset : List Around → Option Nat
  | [] => none
  | .testset l :: _ => some l
  | .test :: as => innermostTestset as

def callback (x : Ctx) (s : State) : Out × State :=
  match x.postproc with
  | none => (.ok, s)
  | some .returns => (.ok, s)
  | some .terminate => (.exc .exit, s.print .terminating)
  | some (.raises e) => (.exc e, s)

/-- Other verdicts than `pass` are reported by the innermost testset; if there is none, that is an exception. -/
def report (x : Ctx) (k : Kind) (s : State) : Out × State :=
  match innermostTestset x.around with
  | some l => callback x (s.print (.report (l + 1) k))
  | none => (.exc .control, s)

def conclude (x : Ctx) (v : Verdict) (s : State) : Out × State :=
  let s := s.verdict v
  match v with
  | .pass => (.ok, s)
  | .fail => report x .fail s
  | .error => report x .error s
  | .warn => report x .warn s

/-- The verdict on the value of a test. -/
def judge : Value → Verdict
  | .val true | .badStr true _ => .pass
  | .val false | .badStr false _ => .fail
  | .marker .fail => .fail
  | .marker .error => .error
  | .marker .warn => .warn
  | .badBool _ => .error

def isBad : Value → Bool
  | .badBool _ | .badStr .. => true
  | _ => false

/-- The end of a test, from how its body ended and the verdicts in the three cases. -/
def endTest (careful : Bool) (x : Ctx) (completed : Verdict) (signaled : Nat → Verdict) (raised : Exc → Verdict) :
    Out × State → Out × State
  | (.ok, s) => conclude x completed s
  | (.signaled n, s) => conclude x (signaled n) s
  | (.exc .exit, s) => if careful then (.stopped, s) else (.exc .exit, s)
  | (.exc e, s) => if e.isException then conclude x (raised e) s else (.exc e, s)
  | (.stopped, s) => (.stopped, s)

/-- The end of a testset: an exception has a verdict; the tally. -/
def endTestset (careful : Bool) (level : Nat) (before : Nat) : Out × State → Out × State
  | (.stopped, s) => (.stopped, s)
  | (.exc .exit, s) => if careful then (.stopped, s) else (.exc .exit, tally s)
  | (.exc e, s) =>
    if e.isException then (.ok, tally ((s.verdict .error).print (.strayException (level + 1)))) else (.exc e, tally s)
  | (o, s) => (o, tally s)
where tally (s : State) : State :=
  let vs := s.verdicts.drop before
  s.print (.fin level (runs vs) (fails vs) (errors vs) (warns vs))

/-- A condition that is not handled by the user. -/
def signal (careful : Bool) (x : Ctx) (p : Protocol) (n : Nat) (s : State) : Out × State :=
  let unhandled := fun s : State => match p with
    | .signal => ((.ok, s) : Out × State)
    | .warn => (.ok, s.print (.warning n))
    | .error | .cerror => (.exc .control, s)
  match x.catching, x.around with
  | true, .test :: _ => (.signaled n, s)
  | true, .testset l :: rest =>
    match callback x ((s.verdict .error).print (.straySignal (l + 1))) with
    | (.ok, s) => match p with
      | .cerror => (.ok, s)
      | .warn => (.ok, s.print (.warning n))
      | .signal => if careful && !rest.isEmpty then (.stopped, s) else (.ok, s)
      | .error => if careful && !rest.isEmpty then (.stopped, s) else (.exc .control, s)
    | r => r
  | _, _ => unhandled s

def inTestset (x : Ctx) (pp : Option Postproc) : Ctx :=
  ⟨.testset x.level :: x.around, x.catching, match pp with | some p => some p | none => x.postproc, x.level + 1⟩

def inTest (x : Ctx) : Ctx := { x with around := .test :: x.around }

def exec (careful : Bool) (W : World) : Ctx → Cmd → State → Out × State
  | _, .skip, s => (.ok, s)
  | x, .seq a b, s => match exec careful W x a s with
    | (.ok, s) => exec careful W x b s
    | r => r
  | _, .user n, s => (.ok, s.print (.user n))
  | x, .test body v, s => match exec careful W (inTest x) body s with
    | (.ok, s) => if careful && isBad v then (.stopped, s) else conclude x (judge v) s
    | r => endTest careful x .pass (fun _ => .error) (fun _ => .error) r
  | x, .testSignals t body, s =>
    endTest careful x .fail (fun n => if W.isCond n t then .pass else .error) (fun _ => .error) (exec careful W (inTest x) body s)
  | x, .testRaises t body, s =>
    endTest careful x .fail (fun _ => .error) (fun e => if W.isExc e t then .pass else .error) (exec careful W (inTest x) body s)
  | x, .testset pp body, s =>
    endTestset careful x.level s.verdicts.length (exec careful W (inTestset x pp) body (s.print (.begin x.level)))
  | x, .session body, s =>
    if x.level > 0 then (.exc .runtime, s)
    else
      match endTestset false x.level s.verdicts.length
        (exec careful W (inTestset x none) body ((s.print .sessionBegin).print (.begin x.level))) with
      | (.ok, s) => (.ok, s.print .sessionEnd)
      | (.exc .exit, s) => (.ok, s.print .sessionEnd)
      | r => r
  | x, .signal p n, s => signal careful x p n s
  | _, .raise e, s => (.exc e, s)
  | _, .terminate, s => (.exc .exit, s.print .terminating)
  | x, .catchSignals b body, s => exec careful W { x with catching := b } body s
  | x, .tryExcept body h, s => match exec careful W x body s with
    | (.exc e, s) => if e.isException then exec careful W x h s else (.exc e, s)
    | r => r

/-- Run a test program. -/
def run (careful : Bool) (W : World) (c : Cmd) : Out × State := exec careful W ⟨[], true, W.postproc, 0⟩ c ⟨[], []⟩

end Unpy.Fixtures.Spec
