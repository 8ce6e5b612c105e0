import Verif.Model.LazyOrder
/-!
# Words for what happens to the leaves of a container literal

Shared with the model: expressions, objects, the state, and the world.
-/
namespace Unpy.Spec.LazyOrder
open Unpy.LazyOrder
variable {σ X V : Type}

mutual
/-- The keys in an expression, in the order in which they are written. -/
def keys : Ex → List Nat
  | .leaf _ => []
  | .lazy _ => []
  | .seq _ es => keysOf es
  | .dict es => keysIn es
def keysOf : Exs → List Nat
  | .nil => []
  | .cons e es => keys e ++ keysOf es
def keysIn : Ents → List Nat
  | .nil => []
  | .cons key e es => key :: (keys e ++ keysIn es)
end

/-- Run the leaves with these numbers, until one raises. -/
def run (W : World σ X V) : List Nat → σ → Option X × σ
  | [], u => (none, u)
  | i :: is, u => match W.leaf i u with
    | (.error x, u) => (some x, u)
    | (.ok _, u) => run W is u

/-- There is no `lazy[...]` in it. -/
def noLazy : Ex → Bool
  | .leaf _ => true
  | .lazy _ => false
  | .seq _ es => noLazys es
  | .dict es => noLazyD es
where
  noLazys : Exs → Bool
    | .nil => true
    | .cons e es => noLazy e && noLazys es
  noLazyD : Ents → Bool
    | .nil => true
    | .cons _ e es => noLazy e && noLazyD es

/-- The leaf is a constant: it has this value, whenever it is evaluated, and no effect. -/
def Constant (W : World σ X V) (i : Nat) (v : V) : Prop := ∀ u, W.leaf i u = (.ok v, u)

/-- These leaves are constants, with these values. -/
def Constants (W : World σ X V) : List Nat → List V → Prop
  | [], [] => True
  | i :: is, v :: vs => Constant W i v ∧ Constants W is vs
  | _, _ => False

/-- The keys of one dictionary. -/
def ownKeys : Ents → List Nat
  | .nil => []
  | .cons key _ es => key :: ownKeys es

mutual
/-- The keys of dictionaries are constants, and in each dictionary they are different. -/
def PlainKeys (W : World σ X V) : Ex → Prop
  | .leaf _ => True
  | .lazy _ => True
  | .seq _ es => PlainKeysOf W es
  | .dict es => (∃ vs, Constants W (ownKeys es) vs ∧ vs.Pairwise fun v w => W.eqv v w = false) ∧ PlainKeysIn W es
def PlainKeysOf (W : World σ X V) : Exs → Prop
  | .nil => True
  | .cons e es => PlainKeys W e ∧ PlainKeysOf W es
def PlainKeysIn (W : World σ X V) : Ents → Prop
  | .nil => True
  | .cons _ e es => PlainKeys W e ∧ PlainKeysIn W es
end

/-- There is a tuple in it. -/
def hasTuple : Ex → Bool
  | .leaf _ => false
  | .lazy _ => false
  | .seq k es => decide (k = .tuple) || hasTuples es
  | .dict es => hasTupleD es
where
  hasTuples : Exs → Bool
    | .nil => false
    | .cons e es => hasTuple e || hasTuples es
  hasTupleD : Ents → Bool
    | .nil => false
    | .cons _ e es => hasTuple e || hasTupleD es

/-- Two outcomes are the same; if there are tuples, but for exceptions that do not come out of a generator as they are (StopIteration). -/
def Same {O : Type} (W : World σ X V) (tuples : Bool) : Except X O → Except X O → Prop
  | .ok o, .ok o' => o = o'
  | .error x, .error x' => (tuples = false ∨ W.escape x = x) → x' = x
  | _, _ => False

end Unpy.Spec.LazyOrder
