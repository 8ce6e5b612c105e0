import Verif.Model.TcoLazy
import Verif.Spec.LazyCompose
/-!
# What tail calls should do in lazy code: the same as other calls
-/
namespace Unpy.TcoLazy.Spec
open Unpy.Eff Unpy.TcoLazy
open Unpy.LazyCompose (Arg)
open Unpy.LazyCompose.Spec (values)
variable {σ ε V P : Type}

/-- A body in which tail calls are ordinary calls -/
def exec (call : Nat → List (Arg V P) → Eff σ ε V) : Code σ ε V P → Eff σ ε V
  | .done v => ret v
  | .eff m k => bind m fun v => exec call (k v)
  | .call f args k => bind (call f args) fun v => exec call (k v)
  | .tail f args => call f args

/-- The program without trampolines: marked functions get the arguments as they are, the others get their values. -/
def direct (W : World σ ε V P) : Nat → Nat → List (Arg V P) → Eff σ ε V
  | 0, _, _ => raise W.recursion
  | n + 1, f, args =>
    if (W.fns f).mark then exec (direct W n) ((W.fns f).body args)
    else bind (values W.forceP args) fun vs => exec (direct W n) ((W.fns f).body (vs.map .val))

/-- The arguments are values. -/
def Values (args : List (Arg V P)) : Prop := ∃ vs : List V, args = vs.map .val

/-- All the tail calls that the code can make -/
def Tails (good : Nat → List (Arg V P) → Prop) : Code σ ε V P → Prop
  | .done _ => True
  | .eff _ k => ∀ v, Tails good (k v)
  | .call _ _ k => ∀ v, Tails good (k v)
  | .tail f args => good f args

/-- Functions without a trampoline make no tail calls. -/
def Claimed (W : World σ ε V P) : Prop := ∀ f, (W.fns f).tramp = none → ∀ args, Tails (fun _ _ => False) ((W.fns f).body args)

/-- `S` has all the functions that can run in a trampoline that is not aware of lazy code; and their tail calls do not give promises to functions that have not been marked. -/
structure Safe (W : World σ ε V P) (S : Nat → Prop) : Prop where
  entry : ∀ f, (W.fns f).tramp = some false → S f
  tails : ∀ f, S f → ∀ args, (W.fns f).mark = true ∨ Values args → Tails (fun g as => S g ∧ ((W.fns g).mark = true ∨ Values as)) ((W.fns f).body args)

end Unpy.TcoLazy.Spec
