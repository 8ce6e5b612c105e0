import Verif.Model.Describe
/-! # Specification of the description of an exception: those that led to it, from the first one on -/
namespace Unpy.Spec.Describe
open Unpy.Describe (Exc)

/-- How an exception is linked to an earlier one -/
inductive Link where
  | cause | context

/-- `raise ... from` comes before the context, which may be suppressed. -/
inductive Linked (heap : Nat → Exc) : Nat → Link → Nat → Prop where
  | cause {e c} : (heap e).cause = some c → Linked heap c .cause e
  | context {e c} : (heap e).cause = none → (heap e).suppress = false → (heap e).context = some c → Linked heap c .context e

/-- `Story heap first rest last`: the exceptions from the first to the last one, each with its link to the one before -/
inductive Story (heap : Nat → Exc) (first : Nat) : List (Link × Nat) → Nat → Prop where
  | single : (∀ l c, ¬ Linked heap c l first) → Story heap first [] first
  | snoc {rest e l e'} : Story heap first rest e → Linked heap e l e' → Story heap first (rest ++ [(l, e')]) e'

def heading (x : Exc) : String := match x.traceback with
  | some t => "\nTraceback (most recent call last):\n" ++ t
  | none => ""

def line (x : Exc) : String := if x.msg = "" then x.type else x.type ++ ": " ++ x.msg

def between : Link → String
  | .cause => "\n\nThe above exception was the direct cause of the following exception:\n"
  | .context => "\n\nDuring handling of the above exception, another exception occurred:\n"

/-- The text of a story -/
def told (heap : Nat → Exc) (first : Nat) (rest : List (Link × Nat)) : String :=
  heading (heap first) ++ line (heap first) ++ String.join (rest.map (fun p => between p.1 ++ heading (heap p.2) ++ line (heap p.2)))

end Unpy.Spec.Describe
