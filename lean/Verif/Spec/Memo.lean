/-!
# What a (recursive, pure) function computes, without memoization
-/
namespace Unpy.Spec.Memo
universe u v
variable {K : Type u} {Out : Type v}

/-- `Eval body k subs out`: the function body on arguments `k`, having already received the outcomes
`subs` from its recursive calls, finishes with `out` when each recursive call is an ordinary call. -/
inductive Eval (body : K → List Out → K ⊕ Out) : K → List Out → Out → Prop
  | ret {k subs out} : body k subs = .inr out → Eval body k subs out
  | call {k subs k' o out} : body k subs = .inl k' → Eval body k' [] o →
      Eval body k (subs ++ [o]) out → Eval body k subs out

/-- The plain function called on `k` finishes with `out`. -/
def Computes (body : K → List Out → K ⊕ Out) (k : K) (out : Out) : Prop := Eval body k [] out

/-- Evaluating the function on `k` can lead, through one or more recursive calls, to a call on `k'`. -/
inductive Reaches (body : K → List Out → K ⊕ Out) : K → K → Prop
  | one {k subs k'} : body k subs = .inl k' → Reaches body k k'
  | trans {k k' k''} : Reaches body k k' → Reaches body k' k'' → Reaches body k k''

/-- The recursion is not circular: no call waits for another call with the same arguments.  (A
function that does is an infinite recursion, with or without memoization.) -/
def Acyclic (body : K → List Out → K ⊕ Out) : Prop := ∀ k, ¬ Reaches body k k

end Unpy.Spec.Memo
