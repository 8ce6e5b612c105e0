import Verif.Model.GMemoMany
/-!
# Sequences defined by generators that use each other
-/
namespace Unpy.Spec.GMemoMany
open Unpy.GMemoSelf (Out)
open Unpy.GMemoMany
variable {G S V E : Type}

/-- One more item has been taken from the instance number `i`. -/
def taken (pos : Nat → Nat) (i : Nat) : Nat → Nat := fun i' => if i' = i then pos i + 1 else pos i'

/-- The generator `g`, in a state, and having taken `pos i` items of its instance number `i`, delivers the next outcome, and is then in
another state (or has ended), when the item number `n` of each generator `g'` is `o g' n`. -/
inductive Goes (p : Prog G S V E) (o : G → Nat → Out V E) (g : G) : S × (Nat → Nat) → Out V E → Option (S × (Nat → Nat)) → Prop where
  | yield {s pos v s'} : p.step g s = .yield v s' → Goes p o g (s, pos) (.item v) (some (s', pos))
  | raise {s pos e} : p.step g s = .raise e → Goes p o g (s, pos) (.raised e) none
  | stop {s pos} : p.step g s = .stop → Goes p o g (s, pos) .stopped none
  | ask {s pos i k r c} : p.step g s = .ask i k → Goes p o g (k (o (p.inner g i) (pos i)), taken pos i) r c → Goes p o g (s, pos) r c

/-- The sequences `o` are what the generators deliver when the instances that they use deliver these same sequences; `sts g n` is the
state of the generator `g` before its item number `n`. -/
def Solves (p : Prog G S V E) (o : G → Nat → Out V E) (sts : G → Nat → Option (S × (Nat → Nat))) : Prop :=
  ∀ g, sts g 0 = some (p.start g, fun _ => 0) ∧
    ∀ n, match sts g n with
      | some c => Goes p o g c (o g n) (sts g (n + 1))
      | none => o g n = .stopped ∧ sts g (n + 1) = none

/-- On the way to its next outcome, the generator `g` asks for the item number `m` of the generator `g'`. -/
inductive Asks (p : Prog G S V E) (o : G → Nat → Out V E) (g : G) : S × (Nat → Nat) → G → Nat → Prop where
  | here {s pos i k} : p.step g s = .ask i k → Asks p o g (s, pos) (p.inner g i) (pos i)
  | later {s pos i k g' m} : p.step g s = .ask i k → Asks p o g (k (o (p.inner g i) (pos i)), taken pos i) g' m → Asks p o g (s, pos) g' m

/-- To compute the item number `n` of the generator `g`, some other item is needed, and perhaps others for that. -/
inductive Needs (p : Prog G S V E) (o : G → Nat → Out V E) (sts : G → Nat → Option (S × (Nat → Nat))) : G × Nat → G × Nat → Prop where
  | one {g n c g' m} : sts g n = some c → Asks p o g c g' m → Needs p o sts (g, n) (g', m)
  | trans {a b c} : Needs p o sts a b → Needs p o sts b c → Needs p o sts a c

/-- No item needs itself. -/
def Acyclic (p : Prog G S V E) (o : G → Nat → Out V E) (sts : G → Nat → Option (S × (Nat → Nat))) : Prop :=
  ∀ a, ¬ Needs p o sts a a

/-- The generators are in layers: each uses its own earlier items, and generators in lower layers. -/
def Layered (p : Prog G S V E) (o : G → Nat → Out V E) (sts : G → Nat → Option (S × (Nat → Nat))) (layer : G → Nat) : Prop :=
  ∀ g n c g' m, sts g n = some c → Asks p o g c g' m → (g' = g ∧ m < n) ∨ layer g' < layer g

end Unpy.Spec.GMemoMany
