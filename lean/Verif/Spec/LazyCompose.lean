import Verif.Model.LazyCompose
/-!
# What composing functions should do in lazy code
-/
namespace Unpy.LazyCompose.Spec
open Unpy Unpy.Eff Unpy.LazyCompose
variable {σ ε V P : Type}

/-- The values of arguments: promises are forced, from left to right. -/
def values (forceP : P → Eff σ ε V) : List (Arg V P) → Eff σ ε (List V)
  | [] => ret []
  | .val v :: as => bind (values forceP as) fun vs => ret (v :: vs)
  | .promise p :: as => bind (forceP p) fun v => bind (values forceP as) fun vs => ret (v :: vs)

/-- A function that accepts promises is given the arguments as they are; others are given their values. -/
def callWith (forceP : P → Eff σ ε V) (accepts : Bool) (call : List (Arg V P) → Eff σ ε (Out V)) (args : List (Arg V P)) : Eff σ ε (Out V) :=
  if accepts then call args else bind (values forceP args) fun vs => call (vs.map .val)

/-- What is passed on to the next function -/
def passed (pack : List V → V) (unpack : Bool) : Out V → List V
  | .one v => [v]
  | .many vs => if unpack then vs else [pack vs]

/-- The functions after the first are called in turn. -/
def onward (pack : List V → V) (unpack : Bool) : List (List (Arg V P) → Eff σ ε (Out V)) → Out V → Eff σ ε (Out V)
  | [], o => ret o
  | f :: fs, o => bind (f ((passed pack unpack o).map .val)) (onward pack unpack fs)

end Unpy.LazyCompose.Spec
