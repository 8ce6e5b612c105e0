import Verif.Proof.LazyMemo
/-!
# C150: memoized functions in lazy code
-/
namespace Unpy.Props
open Unpy Unpy.LazyMemo
open Unpy.Spec.LazyMemo (result needed value firsts)

variable {V E : Type} [DecidableEq V]

/-- C150: in a `with lazify` block, whatever calls have been made before, a call of a memoized function returns or raises what
the function itself does, and the expressions of arguments that are evaluated, and the order in which they are, are those that
the function needs. -/
theorem C150_transparent (thunk : Nat → Except E V) (f : Fn V E) (cs : List (List (Arg V))) :
    (calls thunk f cs St.init).1 = cs.map (result thunk f) ∧
    (calls thunk f cs St.init).2.forced = firsts (cs.flatMap (needed thunk f)) := by
  obtain ⟨h1, h2, _⟩ := calls_eq thunk f cs St.init (inv_init thunk f)
  exact ⟨h1, by rw [h2]; exact adds_nil _⟩

/-- C150: the body of an ordinary function, called from a `with lazify` block, is run at most once for the same values of the
arguments. -/
theorem C150_strict_once (thunk : Nat → Except E V) (f : Fn V E) (hf : f.isLazy = false) (cs : List (List (Arg V))) :
    ((calls thunk f cs St.init).2.evals.map (·.map (value thunk))).Nodup := by
  obtain ⟨_, _, hi⟩ := calls_eq thunk f cs St.init (inv_init thunk f)
  have hp := hi.plain hf
  have hn := hi.nodup
  generalize (calls thunk f cs St.init).2.evals = l at hp hn
  induction l with
  | nil => exact List.nodup_nil
  | cons a l ih =>
    obtain ⟨vs, rfl⟩ := hp a List.mem_cons_self
    rw [List.nodup_cons] at hn
    rw [List.map_cons, List.nodup_cons]
    refine ⟨?_, ih (fun b hb => hp b (List.mem_cons_of_mem _ hb)) hn.2⟩
    intro hm
    obtain ⟨b, hb, he⟩ := List.mem_map.1 hm
    obtain ⟨ws, rfl⟩ := hp b (List.mem_cons_of_mem _ hb)
    rw [values_plain, values_plain] at he
    have : ws = vs := (List.map_inj_right (fun x y h => by simpa using h)).1 he
    subst this
    exact hn.1 hb

/-- C150: the body of any memoized function is run at most once for the same arguments: for the same objects, if they are
promises.  (Missing: different promises with the same value, see `C150_once_refuted`.) -/
theorem C150_once_partial (thunk : Nat → Except E V) (f : Fn V E) (cs : List (List (Arg V))) :
    (calls thunk f cs St.init).2.evals.Nodup :=
  (calls_eq thunk f cs St.init (inv_init thunk f)).2.2.nodup

namespace LazyMemoDemo

/-- Each promise is one of 5, but the third raises 0. -/
def thunk : Nat → Except Nat Nat := fun i => if i = 2 then .error 0 else .ok 5

/-- `lambda a, b, c: a + b` -/
def add2first (isLazy : Bool) : Fn Nat Nat := ⟨.use 0 fun
  | .error e => .done (.error e)
  | .ok a => .use 1 fun
    | .error e => .done (.error e)
    | .ok b => .done (.ok (a + b)), 0, isLazy⟩

end LazyMemoDemo
open LazyMemoDemo

example : (calls LazyMemoDemo.thunk (add2first true) [[.promise 0, .plain 3, .promise 2], [.promise 0, .plain 3, .promise 2]] St.init).1 =
      [.ok 8, .ok 8] ∧
    (calls LazyMemoDemo.thunk (add2first true) [[.promise 0, .plain 3, .promise 2], [.promise 0, .plain 3, .promise 2]] St.init).2.forced = [0] ∧
    (calls LazyMemoDemo.thunk (add2first true) [[.promise 0, .plain 3, .promise 2], [.promise 0, .plain 3, .promise 2]] St.init).2.evals.length = 1 ∧
    (calls LazyMemoDemo.thunk (add2first false) [[.promise 0, .promise 1], [.promise 3, .promise 4], [.promise 3, .promise 2]] St.init).1 =
      [.ok 10, .ok 10, .error 0] ∧
    (calls LazyMemoDemo.thunk (add2first false) [[.promise 0, .promise 1], [.promise 3, .promise 4], [.promise 3, .promise 2]] St.init).2.evals.length = 1 ∧
    (calls LazyMemoDemo.thunk (add2first false) [[.promise 0, .promise 1], [.promise 3, .promise 4], [.promise 3, .promise 2]] St.init).2.forced =
      [0, 1, 3, 4, 2] := ⟨rfl, rfl, rfl, rfl, rfl, rfl⟩

/-- C150 refuted: in a `with lazify` block, each argument that is not a name makes a new promise, and promises are not equal even
if their values are.  So of a function defined in the block, `f(5, 5)` twice runs the body twice (of a test of the library it is
said that the second call gets the result from the memo, syntax/tests/test_lazify.py:451-455). -/
theorem C150_once_refuted : ∃ (thunk : Nat → Except Nat Nat) (f : Fn Nat Nat) (cs : List (List (Arg Nat))),
    f.isLazy = true ∧ ¬ ((calls thunk f cs St.init).2.evals.map (·.map (value thunk))).Nodup :=
  ⟨LazyMemoDemo.thunk, add2first true, [[.promise 0, .promise 1], [.promise 3, .promise 4]], rfl, by
    simp [calls, lazyCall, maybeForceArgs, memoized, lookup, callFn, run, force1, add2first, St.init, LazyMemoDemo.thunk, value]⟩

end Unpy.Props
