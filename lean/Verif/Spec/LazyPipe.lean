import Verif.Model.LazyPipe
import Verif.Spec.LazyCalls
/-!
# What pipes should do in lazy code
-/
namespace Unpy.LazyPipe.Spec
open Unpy.Eff Unpy.LazyCalls Unpy.LazyPipe Unpy.LazyCalls.Spec
open Unpy.LazyCompose (Arg)
open Unpy.LazyCompose.Spec (values)
variable {σ ε V P : Type}

/-- The values that are passed on: those in a `Values`, if there can be many; otherwise, the value itself -/
def contents (W : Pipes σ ε V P) (multi : Bool) (x : V) : List V :=
  if multi then (W.rets x).getD [x] else [x]

/-- The functions after the first are called in turn, with values; each is evaluated before it is called. -/
def onward (W : Pipes σ ε V P) (multi : Bool) (x : V) : List (Arg V P) → Eff σ ε V
  | [] => ret x
  | f :: fs => bind (valueOf W.toWorld f) fun f => bind (callValue W.toWorld f ((contents W multi x).map .val)) fun y => onward W multi y fs

/-- The first function gets the arguments: as they are if it is marked, and otherwise their values. -/
def chain (W : Pipes σ ε V P) (multi : Bool) (args : List (Arg V P)) (f : Arg V P) (fs : List (Arg V P)) : Eff σ ε V :=
  bind (valueOf W.toWorld f) fun f => bind (callValue W.toWorld f args) fun y => onward W multi y fs

/-- What comes out for a value: it itself, but a `Values` of one value is that value, and one of none is an error. -/
def outcome (W : Pipes σ ε V P) (multi : Bool) (x : V) : Eff σ ε (Result V P) :=
  match contents W multi x with
  | [] => raise W.indexError
  | [v] => ret (.item (.val v))
  | vs => ret (.values (vs.map .val))

/-- No promise comes out. -/
def NoPromise : Result V P → Prop
  | .item a => ∃ v, a = .val v
  | .values as => ∃ vs : List V, as = vs.map .val

end Unpy.LazyPipe.Spec
