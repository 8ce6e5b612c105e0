import Verif.Model.Tco
/-!
# Tail calls as ordinary calls; chains of generators
-/
namespace Unpy.Spec.Tco
open Unpy Unpy.Tco Unpy.Eff
open Unpy.Fold (Err Vals)
variable {σ ε V : Type}

/-- `f` is a function with this body of its own: one that is not decorated, or one that a decorator has put in the place of another -/
def Own (P : Prog σ ε V) (f : V) (body : Nat → Args V → Eff σ (Err ε) V) : Prop :=
  P f = .func body ∨ ∃ e, P f = .wrapper body e

/-- `Direct P d f args s r s'`: calling `f` on `args` in world `s`, where `return jump(g, ...)` is read as
`return g(...)`, finishes with `r` in world `s'`; every function runs at stack depth `d`. -/
inductive Direct (P : Prog σ ε V) (d : Nat) : V → Args V → σ → Except (Err ε) V → σ → Prop where
  | raises {f body args s e s'} : Own P f body → body d args s = (.error e, s') →
      Direct P d f args s (.error e) s'
  | returns {f body args s v s'} : Own P f body → body d args s = (.ok v, s') →
      (∀ t a, P v ≠ .jump t a) → Direct P d f args s (.ok v) s'
  | tailCall {f body args s v s' t a r s''} : Own P f body → body d args s = (.ok v, s') →
      P v = .jump t a → Direct P d t a s' r s'' → Direct P d f args s r s''
  | notCallable {f body args s v s' t a} : Own P f body → body d args s = (.ok v, s') →
      P v = .jump t a → (P t = .data ∨ ∃ t' a', P t = .jump t' a') →
      Direct P d f args s (.error (.py .RuntimeError)) s'
  | decorated {f e args s r s'} : P f = .trampolined e → Direct P d e args s r s' → Direct P d f args s r s'

end Unpy.Spec.Tco

namespace Unpy.Spec.Gtco
open Unpy Unpy.Gtco
open Unpy.Fold (Err)
variable {ε V G : Type}

/-- `g` yields `xs` and then is `g'`, where returning a generator means going on as that generator. -/
inductive Reaches (next : G → GOut ε V G) : G → List V → G → Prop where
  | refl {g} : Reaches next g [] g
  | yield {g v g1 xs g'} : next g = .yield v g1 → Reaches next g1 xs g' → Reaches next g (v :: xs) g'
  | tail {g g1 xs g'} : next g = .ret (.gen g1) ∨ next g = .ret (.tramp g1) → Reaches next g1 xs g' →
      Reaches next g xs g'

/-- How a chain ends: the last items and the end. -/
inductive Final : GOut ε V G → List V → End ε V → Prop where
  | raise {e} : Final (.raise e) [] (.raise e)
  | value {v} : Final (.ret (.other v)) [] (.retVal v)
  | batch {xs} : Final (.ret (.iter xs none)) xs .retNone
  | batchRaise {xs e} : Final (.ret (.iter xs (some e))) xs (.raise e)

/-- The chain of generators starting at `g` yields `xs` in total and ends with `e`. -/
def Chain (next : G → GOut ε V G) (g : G) (xs : List V) (e : End ε V) : Prop :=
  ∃ ys zs g', Reaches next g ys g' ∧ Final (next g') zs e ∧ xs = ys ++ zs

end Unpy.Spec.Gtco
