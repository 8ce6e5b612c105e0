import Verif.Proof.Autoreturn
/-!
# C91: the block macro `autoreturn`
-/
namespace Unpy.Props
open Unpy.Tail Unpy.Tail.Spec
open Unpy.PyExpr (M ret raise bind Err)
variable {β ω ε : Type}

section
open Unpy.Tail.Auto Unpy.Tail.StSim

/-- C91.  In a `with autoreturn` block, a call of a function returns the value of the expression in tail position along the
path executed (`valRun`), and does nothing else differently: the expanded program, run by Python, ends if the program does,
with the same result or exception, the same values in the variables and the same side effects, within the same bounds on the
stack and on loops.  Partial: no function definition is in tail position within an `if` or a `try`
(`C91_branch_def_refuted`). -/
theorem C91_value_partial (P : World β ω ε) (b : List (St β)) (hb : noBranchDefs .no b = true) (ρ : Env β) (s : State β ω)
    (hs : Start ρ s) (N d : Nat) : SameEnd (valRun P N d ρ b s) (plainRun P N d ρ (autoSs b) s) :=
  sameEnd_of (execs_sim (call_sim d) b ρ ρ (start_env hs) hb) (Auto.start_rel hs.2)

end

private theorem tailBody_ret : ∀ {b : List (St β)}, (match b.getLast? with | some (.ret _) => true | _ => false) = true →
    tailBody b = b
  | [], _ => rfl
  | [t], h => by
    cases t <;> simp at h
    rfl
  | t :: t' :: ts, h => by
    simp only [List.getLast?_cons_cons] at h
    rw [tailBody, tailBody_ret h]
    all_goals (intros; contradiction)

mutual
private theorem auto_explicit : ∀ (t : St β), explicitReturns t = true → autoS t = t
  | .ret _, _ => rfl
  | .expr _, _ => rfl
  | .assign .., _ => rfl
  | .ite c b₁ b₂, h => by
    simp only [explicitReturns, Bool.and_eq_true] at h
    rw [autoS, autos_explicit b₁ h.1, autos_explicit b₂ h.2]
  | .while c b, h => by
    simp only [explicitReturns] at h
    rw [autoS, autos_explicit b h]
  | .defn tr x ps ls b, h => by
    rw [explicitReturns, Bool.and_eq_true] at h
    rw [autoS, autos_explicit b h.2, tailBody_ret h.1]
  | .tryx b hh hd o f, h => by
    simp only [explicitReturns, Bool.and_eq_true] at h
    rw [autoS, autos_explicit b h.1.1.1, autos_explicit hd h.1.1.2, autos_explicit o h.1.2, autos_explicit f h.2]

private theorem autos_explicit : ∀ (ts : List (St β)), explicitReturnss ts = true → autoSs ts = ts
  | [], _ => rfl
  | t :: ts, h => by
    simp only [explicitReturnss, Bool.and_eq_true] at h
    rw [autoSs, auto_explicit t h.1, autos_explicit ts h.2]
end

/-- C91.  Code in which each function ends with an explicit `return` is left as it is. -/
theorem C91_explicit_return (b : List (St β)) (h : explicitReturnss b = true) : autoSs b = b := autos_explicit b h

/-! ## Examples

`r = f(x)` for some functions `f`; `boom` raises, `log` leaves a trace. -/

def autoWorld : World Nat (List Nat) Unit where
  truthy b := b != 0
  call k bs w := match k, bs with
    | 0, [] => (.error (.user ()), w)
    | 1, [b] => (.ok b, w ++ [b])
    | _, _ => (.error (.py .TypeError), w)

def autoEnv : Env Nat := fun x =>
  if x = "f" then some (.inl 0) else if x = "r" then some (.inl 1) else if x = "boom" then some (.inl 2) else
  if x = "log" then some (.inl 3) else none

def autoState : State Nat (List Nat) := { heap := [none, none, some (.ext 0), some (.ext 1)], world := [] }

def autoCall (body : List (St Nat)) (arg : Nat) : List (St Nat) :=
  [.defn false "f" ["x"] ["g"] body, .assign "r" (.call (.name "f") [.cst arg])]

/-- What is seen of the variable `r`, and the trace. -/
def autoSeen (r : Option (Except (Err Unit) (Flow (Tail.Val Nat)) × State Nat (List Nat))) : Option (Spec.Obs Nat × List Nat) :=
  match r with
  | some (.ok .next, ⟨_ :: some v :: _, w⟩) => some (obs v, w)
  | _ => none

private theorem auto_start : Start autoEnv autoState := by
  constructor
  · intro x v
    unfold autoEnv
    repeat' split
    all_goals simp
  · intro c hc v hv
    simp only [autoState, List.mem_cons, List.not_mem_nil, or_false] at hc
    rcases hc with rfl | rfl | rfl | rfl <;> simp_all [Simple]
    all_goals (subst hv; trivial)

/-- `if x: 1 / else: 2`, and a `try` with everything: -/
private def autoIf : List (St Nat) := [.ite (.name "x") [.expr (.cst 1)] [.expr (.cst 2)]]
private def autoTry : List (St Nat) :=
  [.tryx [.ite (.name "x") [.expr (.call (.name "boom") [])] []] true [.expr (.cst 3)] [.expr (.cst 4)]
    [.expr (.call (.name "log") [.cst 9])]]

example (N d : Nat) : SameEnd (valRun autoWorld N d autoEnv (autoCall autoTry 0) autoState)
    (plainRun autoWorld N d autoEnv (autoSs (autoCall autoTry 0)) autoState) :=
  C91_value_partial autoWorld _ (by decide) autoEnv autoState auto_start N d
example : autoSeen (valRun autoWorld 5 5 autoEnv (autoCall autoIf 1) autoState) = some (.base 1, []) := rfl
example : autoSeen (plainRun autoWorld 5 5 autoEnv (autoSs (autoCall autoIf 0)) autoState) = some (.base 2, []) := rfl
example : autoSeen (plainRun autoWorld 5 5 autoEnv (autoSs (autoCall autoTry 1)) autoState) = some (.base 3, [9]) := rfl
example : autoSeen (plainRun autoWorld 5 5 autoEnv (autoSs (autoCall autoTry 0)) autoState) = some (.base 4, [9]) := rfl
example : autoSeen (plainRun autoWorld 5 5 autoEnv (autoCall autoTry 0) autoState) = some (.non, [9]) := rfl
/-- A loop has no value. -/
example : autoSeen (plainRun autoWorld 5 5 autoEnv (autoSs (autoCall [.while .ff [.expr (.cst 1)]] 0)) autoState) =
    some (.non, []) := rfl
/-- A function is returned. -/
example : autoSeen (plainRun autoWorld 5 5 autoEnv (autoSs (autoCall [.defn false "g" [] [] [.expr (.cst 1)]] 0)) autoState) =
    some (.function, []) := rfl
example : explicitReturnss (autoCall [.ite (.name "x") [.ret (some (.cst 1))] [], .ret (some (.cst 2))] 0) = true := by decide

/-- C91.  A function definition in tail position within an `if`, as in
`def f(x): if x: def g(): 1`, is not expanded to a program that compiles: two statements are put in the place of one.  By the
documentation, the function should be returned. -/
theorem C91_branch_def_refuted :
    let b := autoCall [.ite (.name "x") [.defn false "g" [] [] [.expr (.cst 1)]] []] 1
    autoSeen (valRun autoWorld 5 5 autoEnv b autoState) = some (.function, []) ∧
    (match autoSs b with
      | .defn _ _ _ _ [.ite _ [.expr .bad] _] :: _ => True
      | _ => False) ∧
    ∀ N d, ¬ SameEnd (valRun autoWorld (N + 2) (d + 2) autoEnv b autoState)
      (plainRun autoWorld (N + 2) (d + 2) autoEnv (autoSs b) autoState) := by
  refine ⟨rfl, trivial, fun N d h => ?_⟩
  exact h.1

end Unpy.Props
