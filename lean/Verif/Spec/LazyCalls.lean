import Verif.Model.LazyCalls
import Verif.Spec.LazyCompose
/-!
# What functions that call other functions should do in lazy code
-/
namespace Unpy.LazyCalls.Spec
open Unpy.Eff Unpy.LazyCalls
open Unpy.LazyCompose (Arg)
open Unpy.LazyCompose.Spec (values)
variable {σ ε V P : Type}

/-- Calling a function: a marked one gets the arguments as they are, others get their values. -/
def callWith (W : World σ ε V P) (f : Fn σ ε V P) (args : List (Arg V P)) : Eff σ ε V :=
  if f.lazy then f.call args else bind (values W.forceP args) fun vs => f.call (vs.map .val)

/-- Calling any value: what is not a function is given the values of the arguments, and there is a TypeError. -/
def callValue (W : World σ ε V P) (f : V) (args : List (Arg V P)) : Eff σ ε V :=
  match W.fns f with
  | some F => callWith W F args
  | none => bind (values W.forceP args) fun _ => raise W.typeError

/-- The value of an argument -/
def valueOf (W : World σ ε V P) : Arg V P → Eff σ ε V
  | .val v => ret v
  | .promise p => W.forceP p

/-- The items of the list that is the last argument of `apply` -/
def itemsOf (W : World σ ε V P) : Last V P → Eff σ ε (List (Arg V P))
  | .literal items => ret items
  | .other a => bind (valueOf W a) fun v => match W.items v with
    | some vs => ret (vs.map .val)
    | none => raise W.typeError

/-- The functions are called until one returns something falsey; that gives `False`, otherwise it is what the last one returns, and `True` if there are none. -/
def conj (W : World σ ε V P) (args : List (Arg V P)) : List (Fn σ ε V P) → Eff σ ε V
  | [] => ret (W.ofBool true)
  | [f] => bind (callWith W f args) fun v => ret (if W.truthy v then v else W.ofBool false)
  | f :: fs => bind (callWith W f args) fun v => if W.truthy v then conj W args fs else ret (W.ofBool false)

/-- The functions are called until one returns something truthy, and that is the result; `False` if there is none. -/
def disj (W : World σ ε V P) (args : List (Arg V P)) : List (Fn σ ε V P) → Eff σ ε V
  | [] => ret (W.ofBool false)
  | f :: fs => bind (callWith W f args) fun v => if W.truthy v then ret v else disj W args fs

/-- `ys` is `xs` rotated: there is in place `i` what was in place `i + k`, modulo the length. -/
def Rotated {α : Type} (k : Int) (xs ys : List α) : Prop :=
  ys.length = xs.length ∧ ∀ i : Nat, i < xs.length → ys[i]? = xs[((i + k) % xs.length).toNat]?

end Unpy.LazyCalls.Spec
