import Verif.Model.Resignal
/-!
# What `resignal` turns a condition into; what is in scope
-/
namespace Unpy.Spec.Cond
open Unpy Unpy.Cond
variable {σ ε Ty C V : Type}

/-- The signals that a condition is turned into: one for each entry of the mapping whose type it is an instance of,
in order; by the protocol of the original, with the original as the cause. -/
def converted (E : Env σ ε Ty (Cnd C) V) (m : List (Ty × C)) (c : Cnd C) : List (Prog σ ε Ty (Cnd C) V) :=
  (m.filter (fun e => E.isa c e.1)).map (fun e => c.protocol.call E e.2 (some c))

/-- The restart in scope under a name: that of the innermost block which binds the name. -/
def InScope {F : Type} (rstack : List (Nat × List (String × F))) (name : String) (f : F) : Prop :=
  ∃ inner id bs outer, rstack = inner ++ (id, bs) :: outer ∧ bs.lookup name = some f ∧
    ∀ b ∈ inner, b.2.lookup name = none

/-- The handler that comes first among those bound to exactly this type: inner blocks before outer ones, within a
block in the order written. -/
def FirstBound {T F : Type} (hstack : List (List (List T × F))) (t : T) (h : F) : Prop :=
  ∃ before ts after, hstack.flatten = before ++ (ts, h) :: after ∧ t ∈ ts ∧ ∀ b ∈ before, t ∉ b.1

end Unpy.Spec.Cond
