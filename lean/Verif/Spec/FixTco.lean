import Verif.Model.FixTco
/-!
# Recursion with tail calls
-/
namespace Unpy.FixTco.Spec
open Unpy Unpy.FixTco

variable {F A V E : Type}

/-- Run a body, given what calls give.  A tail call is a call. -/
def runPure (call : F → A → Option (Out E V)) : Prog F A E V → Option (Out E V)
  | .ret v => some (.ok v)
  | .raise e => some (.error e)
  | .jump f a => call f a
  | .call f a k =>
    match call f a with
    | none => none
    | some r => runPure call (k r)

/-- The undecorated functions: plain recursion, at most `n` calls deep.  It terminates if it gives a value for some `n`. -/
def plain (body : F → A → Prog F A E V) : Nat → F → A → Option (Out E V)
  | 0, _, _ => none
  | n + 1, f, a => runPure (plain body n) (body f a)

/-- A body that does not catch exceptions. -/
inductive Propagates : Prog F A E V → Prop
  | ret (v) : Propagates (.ret v)
  | raise (e) : Propagates (.raise e)
  | jump (f a) : Propagates (.jump f a)
  | call {f a k} : (∀ e, k (.error e) = .raise e) → (∀ v, Propagates (k (.ok v))) → Propagates (.call f a k)

/-- All calls and jumps that a body can make, whatever they give, are in a given set. -/
inductive CallsIn (U : List (F × A)) : Prog F A E V → Prop
  | ret (v) : CallsIn U (.ret v)
  | raise (e) : CallsIn U (.raise e)
  | jump {f a} : (f, a) ∈ U → CallsIn U (.jump f a)
  | call {f a k} : (f, a) ∈ U → (∀ r, CallsIn U (k r)) → CallsIn U (.call f a k)

/-- The states between outermost calls: any history of calls. -/
inductive Reach [DecidableEq F] [DecidableEq A] (d : Defs F A E V) : St F A E V → Prop
  | init : Reach d FixTco.init
  | call {st st' fuel f a r} : Reach d st → go d fuel (.call f a) st = some (r, st') → Reach d st'

end Unpy.FixTco.Spec
