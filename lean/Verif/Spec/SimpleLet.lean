import Verif.Model.SimpleLet
/-!
# What simple let expressions should do
-/
namespace Unpy.SimpleLet.Spec
open Unpy.SimpleLet Unpy.Eff
variable {σ ε V : Type}

/-- One after the other, stopping at the first that raises -/
def inOrder {α : Type} : List (Eff σ ε α) → Eff σ ε (List α)
  | [] => ret []
  | m :: ms => bind m fun a => bind (inOrder ms) fun as => ret (a :: as)

/-- The scope, outside of class bodies, where besides the names seen so far those bound are seen -/
def scope (names : String → Option V) : Env V := ⟨fun _ => none, names⟩

/-- The names seen, with some more, which hide those that are there -/
def plus (names : String → Option V) (new : List (String × V)) : String → Option V := fun x => (new.lookup x).or (names x)

/-- Each value is evaluated where the names bound before are seen; a name bound again hides the earlier one. -/
def oneByOne (names : String → Option V) : List (String × Expr σ ε V) → Eff σ ε (String → Option V)
  | [] => ret names
  | (x, e) :: bs => bind (e (scope names)) fun v => oneByOne (plus names [(x, v)]) bs

/-- The value of the expression does not depend on the names. -/
def Independent (xs : List String) (e : Expr σ ε V) : Prop :=
  ∀ names names' : String → Option V, (∀ x, x ∉ xs → names x = names' x) → e (scope names) = e (scope names')

/-- Bindings as written -/
def written (bs : List (String × Expr σ ε V)) : List (Arg σ ε V) := bs.map fun b => .binding b.1 b.2

end Unpy.SimpleLet.Spec
