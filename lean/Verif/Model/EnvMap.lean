import Verif.Model.Env
import Verif.Model.Containers
/-!
# Model of `unpythonic.env.env`, continued: `update` with pairs, iteration, comparison (env.py:107-155)
-/
namespace Unpy.EnvM
open Unpy
universe u
variable {V : Type u}

/-- env.py:145-155 `update(pairs, **bindings)`, where `pairs` is not a mapping, but an iterable of tuples of a name and a value, which
`dict.update` takes, too.  In a finalized env, line 151 asks `k not in self` for the tuple itself: that is a TypeError if the value is not hashable, and
a tuple is never the name of a binding.  `hashable`: whether `hash` of the value works. -/
def updatePairs (hashable : V → Bool) (e : Env V) (pairs : List (String × V)) (bindings : List (String × V)) : Res (Out V) × Env V :=
  if PyDict.has bindings "self" then (.error .TypeError, e)
  else match e.finalized, pairs with
    | true, p :: _ => (.error (if hashable p.2 then .AttributeError else .TypeError), e)
    | fin, _ =>
      if fin && bindings.any (fun p => !e.env.has p.1) then (.error .AttributeError, e)
      else (.ok .unit, { e with env := (e.env.update pairs).update bindings })

/-- env.py:112-113 `__iter__` and env.py:120-121 `keys` -/
def iter (e : Env V) : List String := PyDict.keys e.env

/-- env.py:117-119 `items` -/
def items (e : Env V) : List (String × V) := e.env

/-- env.py:122-123 `values` -/
def values (e : Env V) : List V := e.env.map Prod.snd

/-- env.py:126-127 `__eq__` with a dict -/
def eqDict [DecidableEq V] (e : Env V) (d : PyDict String V) : Bool := FD.dictEq d e.env

/-- env.py:126-127 `__eq__` with another env: `other == self._env` is `other.__eq__(self._env)`, which is `self._env == other._env`. -/
def eqEnv [DecidableEq V] (e other : Env V) : Bool := eqDict other e.env

end Unpy.EnvM
