import Verif.Props.TcoMacro
/-!
# C90: names whose calls in tail position do take stack
-/
namespace Unpy.Props
open Unpy.Tail Unpy.Tail.Spec
open Unpy.PyExpr (M ret raise bind Err)

/-- The variables `loop`, `iszero`, `pred`, `r`. -/
def loopEnv : Env Nat := fun x =>
  if x = "loop" then some (.inl 0) else if x = "iszero" then some (.inl 1) else
  if x = "pred" then some (.inl 2) else if x = "r" then some (.inl 3) else none

/-- ```
def loop(n):
    if iszero(n):
        return n
    return loop(pred(n))
r = loop(k)
``` -/
def loopProg (k : Nat) : List (St Nat) :=
  [.defn false "loop" ["n"] []
    [.ite (.call (.name "iszero") [.name "n"]) [.ret (some (.name "n"))] [],
     .ret (some (.call (.name "loop") [.call (.name "pred") [.name "n"]]))],
   .assign "r" (.call (.name "loop") [.cst k])]

/-- The function `loop`. -/
private def loopFun (tr : Bool) : Tail.Val Nat := .clo tr ["n"] []
    [.ite (.call (.name "iszero") [.name "n"]) [.ret (some (.name "n"))] [],
     .ret (some (.call (.name "loop") [.call (.name "pred") [.name "n"]]))] loopEnv

private def loopHeap (tr : Bool) (c : Option (Tail.Val Nat)) (rest : List (Option (Tail.Val Nat))) : List (Option (Tail.Val Nat)) :=
  some (loopFun tr) :: some (.ext 0) :: some (.ext 1) :: c :: rest

private theorem ext_proper' (N j b : Nat) (s : State Nat Unit) :
    proper countWorld (N + 1) 1 (.ext j) [.base b] s =
      some (.ok (.base (match j with | 0 => if b = 0 then 1 else 0 | _ => b - 1)), s) := by
  cases j <;> rfl

private theorem truthy_count' (b : Nat) : Tail.truthy countWorld (.base b) = (b != 0) := rfl

private theorem loop_call (N k : Nat) (c : Option (Tail.Val Nat)) (rest : List (Option (Tail.Val Nat))) :
    tailCall countWorld (N + 1) (proper countWorld (N + 1) 1) (loopFun false) [.base k] ⟨loopHeap false c rest, ()⟩ =
      some (.ok (if k = 0 then .val (.base 0) else .tail (loopFun false) [.base (k - 1)]),
        ⟨loopHeap false c (rest ++ [some (.base k)]), ()⟩) := by
  cases k with
  | zero =>
    simp [tailCall, loopFun, loopHeap, alloc, PyExpr.bind, PyExpr.ret, frame, tailExecs, tailExec, tailEval, eval, evals, load,
      loopEnv, ext_proper', truthy_count']
  | succ k =>
    simp [tailCall, loopFun, loopHeap, alloc, PyExpr.bind, PyExpr.ret, frame, tailExecs, tailExec, tailEval, eval, evals, load,
      loopEnv, ext_proper', truthy_count']

private theorem loop_loop (N : Nat) (c : Option (Tail.Val Nat)) : ∀ (k n : Nat), k < n → ∀ rest, ∃ rest',
    tailLoop countWorld (N + 1) (proper countWorld (N + 1) 1) n (loopFun false) [.base k] ⟨loopHeap false c rest, ()⟩ =
      some (.ok (.base 0), ⟨loopHeap false c rest', ()⟩)
  | _, 0, h, _ => absurd h (by omega)
  | 0, n + 1, _, rest => ⟨rest ++ [some (.base 0)], by simp [tailLoop, PyExpr.bind, loop_call, PyExpr.ret]⟩
  | k + 1, n + 1, h, rest => by
    obtain ⟨rest', ih⟩ := loop_loop N c k n (by omega) (rest ++ [some (.base (k + 1))])
    refine ⟨rest', ?_⟩
    have hc : callable (loopFun false) = true := rfl
    simp only [tailLoop, PyExpr.bind, loop_call]
    simpa [hc] using ih

private theorem loop_proper (N k : Nat) (h : k ≤ N) : ∃ rest,
    properRun countWorld (N + 1) 2 loopEnv (loopProg k) countState =
      some (.ok .next, ⟨loopHeap false (some (.base 0)) rest, ()⟩) := by
  obtain ⟨rest, hl⟩ := loop_loop N none k (N + 1) (by omega) []
  refine ⟨rest, ?_⟩
  have hp : proper countWorld (N + 1) 2 (loopFun false) [.base k] ⟨loopHeap false none [], ()⟩ = some (.ok (.base 0), ⟨loopHeap false none rest, ()⟩) := hl
  simp [loopHeap, loopFun] at hp
  simp [properRun, loopProg, countState, execs, exec, PyExpr.bind, PyExpr.ret, store, loopEnv, eval, evals, load, hp,
    loopHeap, loopFun]

private theorem ext_apply (N d j b : Nat) (s : State Nat Unit) :
    apply countWorld N (d + 1) (.ext j) [.base b] s =
      some (.ok (.base (match j with | 0 => if b = 0 then 1 else 0 | _ => b - 1)), s) := by
  cases d <;> cases j <;> rfl

private theorem loop_deep (N : Nat) (c : Option (Tail.Val Nat)) : ∀ (d k : Nat), d ≤ k → ∀ rest,
    apply countWorld N d (loopFun true) [.base k] ⟨loopHeap true c rest, ()⟩ = none
  | 0, _, _, _ => rfl
  | 1, _, _, _ => rfl
  | d + 2, 0, h, _ => absurd h (by omega)
  | d + 2, k + 1, h, rest => by
    cases N with
    | zero => rfl
    | succ N =>
    have ih := loop_deep (N + 1) c d k (by omega) (rest ++ [some (.base (k + 1))])
    simp only [loopFun, loopHeap] at ih
    cases d with
    | zero =>
      simp [apply, callWith, trampoline, callEntry, enter, loopFun, loopHeap, alloc, PyExpr.bind, PyExpr.ret, frame, execs, exec, eval, evals, load,
        loopEnv]
    | succ d =>
      rw [apply]
      simp [callWith, trampoline, callEntry, enter, loopFun, loopHeap, alloc, PyExpr.bind, PyExpr.ret, frame, execs, exec, eval, evals, load,
        loopEnv, ext_apply, truthy_count', ih]

/-- C90 is violated: the macro leaves calls of functions named `loop` (or `jump`, or `Values`) as they are, also if they are functions of the program.  A function named `loop` that counts down by calling itself
in tail position needs no more stack for greater numbers if tail calls are proper, but in a `with tco` block it needs a stack deeper than the number it counts down from. -/
theorem C90_loop_refuted (k : Nat) :
    (∃ t, properRun countWorld (k + 1) 2 loopEnv (loopProg k) countState = some (.ok .next, t)) ∧
      ∀ N d, d ≤ k → run countWorld N d loopEnv (tco fallbacks 0 (loopProg k)) countState = none := by
  refine ⟨?_, fun N d h => ?_⟩
  · obtain ⟨rest, h⟩ := loop_proper k k (Nat.le_refl k)
    exact ⟨_, h⟩
  · have hp := loop_deep N none d k h []
    simp only [loopHeap, loopFun] at hp
    have e : tco fallbacks 0 (loopProg k) = [.defn true "loop" ["n"] []
        [.ite (.call (.name "iszero") [.name "n"]) [.ret (some (.name "n"))] [],
         .ret (some (.call (.name "loop") [.call (.name "pred") [.name "n"]]))],
       .assign "r" (.call (.name "loop") [.cst k])] := by
      simp [tco, loopProg, passReturns, passReturn, passDefs, passDef, passLambdas, passLambda, passReturnE, retEc, isec, fallbacks, retexpr, leftAlone, passLambdaE, mapLam, mapLams]
    rw [e]
    simp [run, countState, execs, exec, PyExpr.bind, PyExpr.ret, store, loopEnv, eval, evals, load, hp]

end Unpy.Props
