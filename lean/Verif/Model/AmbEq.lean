import Verif.Model.Amb
/-!
# Model of comparing a `MonadicList` (`unpythonic/amb.py`)

Simplified: iterables other than `MonadicList` are tuples; the other objects have no length, and `==` between two of them does not raise.  Whether two objects are the same object is not
modelled: Python skips the comparison of an item with itself, and takes it to be equal.
-/
namespace Unpy.AmbEq
open Unpy Unpy.Amb
variable {α : Type} [DecidableEq α]

mutual
/-- `a == b`.  Where neither is a `MonadicList`, this is Python's; a tuple or another object does not know about a `MonadicList`, and leaves it to that. -/
def eq : Obj α → Obj α → Res Bool
  -- amb.py:299-304: `len(self) != len(other)`; then `other == self.x`, for a `MonadicList` the same again with the tuple
  | .ml xs, .ml ys => if xs.length ≠ ys.length then .ok false else eqs xs ys
  | .ml xs, .iter ys => if xs.length ≠ ys.length then .ok false else eqs ys xs
  | .ml _, .nil => .error .TypeError
  | .ml _, .atom _ => .error .TypeError
  -- the reflected comparison: `self` is on the right
  | .iter xs, .ml ys => if ys.length ≠ xs.length then .ok false else eqs xs ys
  | .nil, .ml _ => .error .TypeError
  | .atom _, .ml _ => .error .TypeError
  | .iter xs, .iter ys => eqs xs ys
  | .atom a, .atom b => .ok (decide (a = b))
  | .nil, .nil => .ok true
  | .iter _, .nil => .ok false
  | .iter _, .atom _ => .ok false
  | .nil, .iter _ => .ok false
  | .atom _, .iter _ => .ok false
  | .nil, .atom _ => .ok false
  | .atom _, .nil => .ok false
termination_by a b => sizeOf a + sizeOf b

/-- `xs == ys` for tuples (Python): the items are compared up to the first that differ; only if there are none, the lengths matter. -/
def eqs : List (Obj α) → List (Obj α) → Res Bool
  | [], [] => .ok true
  | x :: xs, y :: ys =>
    match eq x y with
    | .error e => .error e
    | .ok true => eqs xs ys
    | .ok false => .ok false
  | _, _ => .ok false
termination_by xs ys => sizeOf xs + sizeOf ys
end

end Unpy.AmbEq
