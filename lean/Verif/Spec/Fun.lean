import Verif.Model.Eff
/-!
# Independent specifications for the function combinators

Only the vocabulary of effectful calls (`Eff`, `Ret`, `Args`) is shared with the model.
-/
namespace Unpy.Spec.Fun
open Unpy.Eff
open Unpy.Fold (Err Vals)
universe u v w
variable {σ : Type u} {ε : Type v} {V : Type w}

/-- How a returned value is handed to the next function: a `Values` as its positional and named parts,
anything else as one positional argument. -/
def asArgs : Ret V → Args V
  | .one v => ⟨[v], []⟩
  | .many vs => vs

/-- Apply the functions one after the other, the first in the list first; an exception ends the chain. -/
def thread : List (Fn σ ε V) → Ret V → Eff σ (Err ε) (Ret V)
  | [], r => ret r
  | f :: fs, r => bind (f (asArgs r)) (thread fs)

/-- The same for functions of one argument. -/
def thread1 : List (Fn1 σ ε V) → V → Eff σ (Err ε) V
  | [], x => ret x
  | f :: fs, x => bind (f x) (thread1 fs)

/-- At the end of a pipe, a `Values` of exactly one positional value counts as that value. -/
def finish : Ret V → Eff σ (Err ε) (Ret V)
  | .many ⟨[x], []⟩ => ret (.one x)
  | .many ⟨[], []⟩ => raise (.py .IndexError)
  | r => ret r

/-- No named argument is called by one of these names. -/
def Free (names : List String) (args : Args V) : Prop := ∀ p ∈ args.kwrets, p.1 ∉ names

/-- The function does not introduce these names: called with named arguments of other names only, it returns
no `Values` with a named value called by one of them. -/
def Keeps (names : List String) (f : Fn σ ε V) : Prop :=
  ∀ args s vs s', Free names args → f args s = (.ok (.many vs), s') → Free names vs

/-- `Calls fs args s vs s'`: called in order with the same arguments, starting in world `s`, the
functions return `vs`, and the world is then `s'`. -/
inductive Calls {A B : Type w} {ε : Type v} : List (A → Eff σ ε B) → A → σ → List B → σ → Prop
  | nil {a s} : Calls [] a s [] s
  | cons {f fs a s v s' vs s''} : f a s = (.ok v, s') → Calls fs a s' vs s'' →
      Calls (f :: fs) a s (v :: vs) s''

end Unpy.Spec.Fun
