import Verif.Proof.FixLazy
/-!
# C151: `@fix` in lazy code
-/
namespace Unpy.Props
open Unpy Unpy.Fix Unpy.Fix.Spec

variable {F A V E : Type} [DecidableEq F] [DecidableEq A]

/-- C151: in a `with lazify` block, whenever plain recursion terminates, `@fix` gives the same result, after any history of
earlier calls, with or without `memo`.  (Missing: cycles are not broken, see below.) -/
theorem C151_ordinary_partial (d : Defs F A E V) (st : St F (Obj A) E V) (hst : Reach (lazyDefs d) st) (f : F) (a : A) (p : List Nat)
    (n : Nat) (x : Out E V) (h : plain d.body n f a = some x) :
    ∃ st', callFix (lazyDefs d) n f (a, p) st = some (x, st') := by
  have hp : plain (lazyDefs d).body n f (a, p) = some x := by rw [plain_lazy]; exact h
  have hv := reach_visited hst
  have ha : Above (lazyDefs d) n st.visited := by rw [hv]; intro k hk; cases hk
  obtain ⟨⟨r, st'⟩, hq⟩ := callFix_enough (lazyDefs d) n n (Nat.le_refl _) f (a, p) st x (reach_memoOk hst) hp ha
  obtain ⟨_, _, h3⟩ := callFix_inv (lazyDefs d) n f (a, p) st r st' (reach_memoOk hst) hq (.inl ⟨n, x, hp, ha⟩)
  exact ⟨st', by rw [hq, h3 n x hp]⟩

/-- C151 refuted: in a `with lazify` block, no cycle is ever broken, because the arguments of each call are new promises.
Whenever plain recursion does not terminate, `@fix` does not either: no number of nested calls is enough. -/
theorem C151_cycles_refuted (d : Defs F A E V) (st : St F (Obj A) E V) (hst : Reach (lazyDefs d) st) (f : F) (a : A)
    (p : List Nat) (h : ∀ n, plain d.body n f a = none) (fuel : Nat) : callFix (lazyDefs d) fuel f (a, p) st = none := by
  cases hc : callFix (lazyDefs d) fuel f (a, p) st with
  | none => rfl
  | some q =>
    obtain ⟨r, st'⟩ := q
    have hv := reach_visited hst
    obtain ⟨⟨n, hn⟩, _⟩ := callFix_lazy d fuel f a p st r st' (by rw [hv]; simp) (reach_memoT d st hst) hc
    rw [h n] at hn; cases hn

namespace FixLazyDemo
/-- `f(k) = k` if `k > 2`, else `f((k + 1) % 3)` -/
def d : Defs Unit Nat Unit Nat :=
  ⟨fun _ a => if a > 2 then .ret a else .call () ((a + 1) % 3) (fun r => match r with | .ok v => .ret v | .error e => .raise e),
    fun _ => true, fun _ _ => .ok 77, ()⟩

private theorem never (n : Nat) : ∀ k, k ≤ 2 → plain d.body n () k = none := by
  induction n with
  | zero => intro k _; rfl
  | succ n ih =>
    intro k hk
    show runPure (plain d.body n) (if k > 2 then _ else _) = none
    rw [if_neg (by omega), runPure, ih ((k + 1) % 3) (by omega)]
end FixLazyDemo

/-- Outside, the cycle is broken; in lazy code it is not, here after a call that terminates. -/
example : (callFix FixLazyDemo.d 4 () 0 Fix.init).map Prod.fst = some (.ok 77) ∧
    (∀ n, plain FixLazyDemo.d.body n () 0 = none) ∧
    plain FixLazyDemo.d.body 1 () 5 = some (.ok 5) ∧
    ∃ st, Reach (lazyDefs FixLazyDemo.d) st ∧ st.memo ≠ [] ∧
      ∀ fuel, callFix (lazyDefs FixLazyDemo.d) fuel () (0, [1]) st = none := by
  refine ⟨rfl, fun n => FixLazyDemo.never n 0 (by omega), rfl, ⟨[], [(((), (5, [0])), .ok 5)]⟩, ?_, by simp, ?_⟩
  · exact Reach.call (fuel := 1) (f := ()) (a := (5, [0])) (r := .ok 5) Reach.init rfl
  · exact C151_cycles_refuted FixLazyDemo.d _ (Reach.call (fuel := 1) (f := ()) (a := (5, [0])) (r := .ok 5) Reach.init rfl) ()
      0 [1] (fun n => FixLazyDemo.never n 0 (by omega))

end Unpy.Props
