import Verif.Model.GMemoSelf
/-!
# What a sequence that is defined by itself is (C147)
-/
namespace Unpy.Spec.GMemoSelf
open Unpy.GMemoSelf
variable {S V E : Type}

/-- Going on from state `s`, the generator does `r` and is then in the state `s'` (`none`: it has ended), where item `m` of itself is `o m`, and it uses only items before the `n`-th. -/
inductive Goes (fn : Fn S V E) (o : Nat → Out V E) (n : Nat) : S → Out V E → Option S → Prop where
  | yield {s v s'} (h : fn.step s = .yield v s') : Goes fn o n s (.item v) (some s')
  | raise {s e} (h : fn.step s = .raise e) : Goes fn o n s (.raised e) none
  | stop {s} (h : fn.step s = .stop) : Goes fn o n s .stopped none
  | ask {s m k r s'} (h : fn.step s = .ask m k) (hm : m < n) (hk : Goes fn o n (k (o m)) r s') : Goes fn o n s r s'

/-- The outcomes `o` are those of the generator, if the instances that it uses itself have the same outcomes; each depends on earlier ones only. -/
def Solves (fn : Fn S V E) (o : Nat → Out V E) : Prop :=
  ∃ st : Nat → Option S, st 0 = some fn.start ∧
    ∀ n, match st n with
      | some s => Goes fn o n s (o n) (st (n + 1))
      | none => o n = .stopped ∧ st (n + 1) = none

/-- There is at most one such sequence (shown in `Props/GMemoSelf.lean`). -/
def Unique (fn : Fn S V E) : Prop := ∀ o o', Solves fn o → Solves fn o' → o = o'

end Unpy.Spec.GMemoSelf
