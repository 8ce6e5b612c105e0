import Verif.Spec.Memo
/-!
# Which memoized functions may call each other
-/
namespace Unpy.Spec.MemoMany
open Unpy.Spec.Memo
universe u v w
variable {K : Type u} {Out : Type v} {F : Type w}

/-- The functions always finish. -/
def Total (body : K → List Out → K ⊕ Out) : Prop := ∀ k, ∃ out, Computes body k out

/-- The functions are in layers: a function calls itself, or functions in lower layers. -/
def Layered (fn : K → F) (layer : F → Nat) (body : K → List Out → K ⊕ Out) : Prop :=
  ∀ k subs k', body k subs = .inl k' → fn k' = fn k ∨ layer (fn k') < layer (fn k)

end Unpy.Spec.MemoMany
