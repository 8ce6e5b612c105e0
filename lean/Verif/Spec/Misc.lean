import Verif.Model.Misc
/-!
# Utilities: what they should do
-/
namespace Unpy.Misc.Spec
open Unpy Unpy.Misc

variable {α : Type}

/-- The items put into the container in a history. -/
def added : List (PopOp α) → List α
  | [] => []
  | .next :: ops => added ops
  | .append x :: ops => x :: added ops
  | .appendleft x :: ops => x :: added ops

/-- No item is put in at the left. -/
def NoLeft (ops : List (PopOp α)) : Prop := ∀ x, .appendleft x ∉ ops

/-- The last `n` items of a list (all, if not given). -/
def lastN (n : Option Nat) (l : List α) : List α :=
  match n with
  | none => l
  | some n => (l.reverse.take n).reverse

/-- Durations between successive points in time. -/
def durations : Rat → List Rat → List Rat
  | _, [] => []
  | t, t' :: ts => (t' - t) :: durations t' ts

/-- An onion: each object holds the next one in its attribute, and the last one does not have it. -/
inductive Onion (h : Heap) : List Nat → Prop
  | core {o} : h o = none → Onion h [o]
  | layer {o o' l} : h o = some o' → Onion h (o' :: l) → Onion h (o :: o' :: l)

/-- A number below one hundred as two decimal digits. -/
def twoDigits (n : Nat) : String := String.ofList [Nat.digitChar (n / 10), Nat.digitChar (n % 10)]

/-- How to show `d` days, `h` hours, `m` minutes and `s` seconds. -/
def humanTime : Nat → Nat → Nat → Nat → String
  | 0, 0, 0, 1 => "1 second"
  | 0, 0, 0, s => toString s ++ " seconds"
  | 0, 0, m, s => twoDigits m ++ ":" ++ twoDigits s
  | 0, h, m, s => twoDigits h ++ ":" ++ twoDigits m ++ ":" ++ twoDigits s
  | 1, h, m, s => "1 day " ++ twoDigits h ++ ":" ++ twoDigits m ++ ":" ++ twoDigits s
  | d, h, m, s => toString d ++ " days " ++ twoDigits h ++ ":" ++ twoDigits m ++ ":" ++ twoDigits s

end Unpy.Misc.Spec
