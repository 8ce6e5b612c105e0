import Verif.Spec.Curry
import Verif.Model.Sig
/-!
# What a composition of curried functions should do

The functions are applied one after the other, all but the last inside of a curry context, so that they can pass arguments on.
-/
namespace Unpy.Spec.Curry
open Unpy Unpy.Curry Unpy.Eff Unpy.Arity
open Unpy.Fold (Err Vals)
variable {σ ε A : Type}

/-- A call with these values; a value named `f` cannot be passed to a function, it is a TypeError. -/
def pass {R : Type} (v : Vals (Obj A)) (m : Eff σ (Err ε) R) : Eff σ (Err ε) R :=
  if PyDict.has v.kwrets "f" then raise (.py .TypeError) else m

/-- Curried functions one after the other, in a curry context; each gets the values of the one before. -/
def through (fs : Funcs σ ε A) (depth : Nat) : List (Obj A) → Vals (Obj A) → Eff σ (Err ε) (Vals (Obj A))
  | [], v => ret v
  | g :: gs, v => bind (curry fs depth true g [] []) fun c => bind (pass v (callObj fs depth true c v.rets v.kwrets)) fun r => through fs depth gs (values r)

/-- The same, and a last one in the curry context `ctx` of the call -/
def inOrder (fs : Funcs σ ε A) (depth : Nat) (ctx : Bool) (init : List (Obj A)) (last : Obj A) (v : Vals (Obj A)) : Eff σ (Err ε) (Ret (Obj A)) :=
  bind (through fs depth init v) fun v => bind (curry fs depth ctx last [] []) fun c => pass v (callObj fs depth ctx c v.rets v.kwrets)

/-- What a pipe returns in the end: a single positional value by itself, several or named ones as `Values`; there must be one. -/
def finish : Ret (Obj A) → Eff σ (Err ε) (Ret (Obj A))
  | .many ⟨[v], []⟩ => ret (.one v)
  | .many ⟨[], []⟩ => raise (.py .IndexError)
  | r => ret r

/-- An operation of a stack machine: it takes `takes` values from the top (the left) and puts `gives` there. -/
structure StackOp (σ ε A : Type) where
  takes : Nat
  gives : Nat
  op : List (Obj A) → Eff σ (Err ε) (List (Obj A))

/-- Running operations -/
def machine : List (StackOp σ ε A) → List (Obj A) → Eff σ (Err ε) (List (Obj A))
  | [], stack => ret stack
  | o :: os, stack => bind (o.op (stack.take o.takes)) fun vs => machine os (vs ++ stack.drop o.takes)

/-- There is enough on a stack of `n` values for each operation, and in the end there are `m`. -/
def Fits : List (StackOp σ ε A) → Nat → Nat → Prop
  | [], n, m => n = m
  | o :: os, n, m => o.takes ≤ n ∧ Fits os (n - o.takes + o.gives) m

/-- Return these values. -/
def pack : List (Obj A) → Ret (Obj A)
  | [v] => .one v
  | vs => .many ⟨vs, []⟩

/-- The object is a function of as many parameters as the operation takes values, without defaults or stars, and does what the operation does; it returns as many values as said, of which the first is not callable. -/
structure Implements (fs : Funcs σ ε A) (f : A) (o : StackOp σ ε A) : Prop where
  isFunc : ∃ F, fs f = some F ∧ F.sig.length = o.takes ∧ (∀ p ∈ F.sig, p.kind = .posOrKw ∧ p.default = none) ∧ (F.sig.map (·.name)).Nodup ∧
    ∀ args, F.body true args [] = bind (o.op args) fun vs => ret (pack vs)
  gives : ∀ args s vs s', o.op args s = (.ok vs, s') → vs.length = o.gives ∧ ∀ v ∈ vs.head?, callable fs v = false

end Unpy.Spec.Curry
