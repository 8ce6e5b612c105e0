import Verif.Model.SymName
/-!
# Specification for names of symbols: the names that occur in a history
-/
namespace Unpy.Spec.SymName
open Unpy Unpy.SymName
universe u v
variable {K : Type u} {N : Type v}

/-- `n` is the name in a call, or in a pickle -/
def Mentions (n : N) : Op K N → Prop
  | .call m => n = m
  | .loads p => n = p.arg
  | _ => False

/-- No two different names that occur are equal to Python; every pickle was made of a symbol. -/
def Plain (key : N → K) (ops : List (Op K N)) : Prop :=
  (∀ o ∈ ops, ∀ o' ∈ ops, ∀ n n', Mentions n o → Mentions n' o' → key n = key n' → n = n') ∧
  (∀ p, .loads p ∈ ops → p.state.name = p.arg)

end Unpy.Spec.SymName
