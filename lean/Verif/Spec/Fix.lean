import Verif.Model.Fix
/-!
# Recursion, plain and with cycles broken
-/
namespace Unpy.Fix.Spec
open Unpy Unpy.Fix

variable {F A V E : Type}

/-- Run a body, given what calls give. -/
def runPure (call : F → A → Option (Out E V)) : Prog F A E V → Option (Out E V)
  | .ret v => some (.ok v)
  | .raise e => some (.error e)
  | .call f a k =>
    match call f a with
    | none => none
    | some r => runPure call (k r)

/-- The undecorated functions: plain recursion, at most `n` calls deep.  It terminates if it gives a value for some `n`. -/
def plain (body : F → A → Prog F A E V) : Nat → F → A → Option (Out E V)
  | 0, _, _ => none
  | n + 1, f, a => runPure (plain body n) (body f a)

/-- Recursion in which a call that is already active (on the call stack) gives bottom. -/
def guarded [DecidableEq F] [DecidableEq A] (body : F → A → Prog F A E V) (bottom : F → A → Out E V) :
    Nat → List (F × A) → F → A → Option (Out E V)
  | 0, _, _, _ => none
  | n + 1, stack, f, a =>
    if (f, a) ∈ stack then some (bottom f a)
    else runPure (guarded body bottom n ((f, a) :: stack)) (body f a)

/-- All calls that a body can make, whatever they give, are in a given set. -/
inductive CallsIn (U : List (F × A)) : Prog F A E V → Prop
  | ret (v) : CallsIn U (.ret v)
  | raise (e) : CallsIn U (.raise e)
  | call {f a k} : (f, a) ∈ U → (∀ r, CallsIn U (k r)) → CallsIn U (.call f a k)

/-- The states between outermost calls: any history of calls. -/
inductive Reach [DecidableEq F] [DecidableEq A] (d : Defs F A E V) : St F A E V → Prop
  | init : Reach d Fix.init
  | call {st st' fuel f a r} : Reach d st → callFix d fuel f a st = some (r, st') → Reach d st'

end Unpy.Fix.Spec
