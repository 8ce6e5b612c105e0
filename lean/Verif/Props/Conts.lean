import Verif.Proof.Conts
/-!
# C94: the block macro `continuations`
-/
namespace Unpy.Props
open Unpy.Conts Unpy.Conts.Spec
open Unpy.PyExpr (M ret raise bind Err)
variable {β ω ε : Type}

/-- C94.  For any block of functions, loops, conditionals and `call_cc`, any external functions, and any limits on the rounds of
loops and on the depth of calls: the expanded block does what the documentation says, unless the careful interpreter stops.
That is, if the interpreter ends, then the expanded block ends with the same outcome (raises the same exception if any), the same
values in all variables, and the same calls of external functions in the same order; and if the interpreter does not end, then the expanded
block does not either.

Missing: the situations where the careful interpreter stops, in which the macro does something else (C94_two_callcc_refuted and
others below); and what is not in the model (exceptions caught by the program, assignment to variables of `let` and variables of
`do`, named return values). -/
theorem C94_meaning_partial (P : World β ω ε) (N d : Nat) (ρ : Env) (b : List (Conts.St β)) (h : List (Option (Init β)))
    (w : ω) {o : List (Out.St β)} (ho : expand b = some o) :
    Stopped (Spec.run true P (N + 1) d ρ b (start h w)) ∨
    match Spec.run false P (N + 1) d ρ b (start h w), Conts.run P (N + 1) d ρ o (startI h w) with
      | none, none => True
      | some r, some r' => Same r r'
      | _, _ => False := by
  rcases Sim.run_sub P (N + 1) d ρ b (start h w) with hf | hc
  · exact .inl hf
  rcases Sim.run_sim P N d ρ b ho (start h w) with hf | hr
  · exact .inl hf
  right
  rw [hc, ← Sim.startI_eq, hr]
  match Spec.run true P (N + 1) d ρ b (start h w) with
  | none => trivial
  | some (e, s) =>
    refine ⟨?_, ?_, rfl⟩
    · cases e <;> simp [Except.map]
    · simp only [Sim.τst, List.map_map]
      refine List.map_congr_left fun c _ => ?_
      cases c with
      | none => rfl
      | some v => simp [Sim.obs_τ]

/-- C94.  The macro refuses a block exactly if there is a `call_cc` that is not at the top level of the block or of a function,
or is the last statement of the block; or there is a `return` at the top level of the block. -/
theorem C94_syntax_errors (b : List (Conts.St β)) : (expand b).isSome = legal b := Sim.expand_legal b

/-! ## Programs -/

/-- External function 0, with the variable `print`: its arguments are logged.  0 is `False`. -/
def contsWorld : World Nat (List (List Nat)) String where
  truthy := (· != 0)
  ff := 0
  isFf := (· == 0)
  isFf_ff := by simp
  call := fun n args w => if n = 0 then (.ok 0, w ++ [args]) else (.error (.user "no such function"), w)

/-- The variables of the programs below. -/
def contsEnv : Env := fun x =>
  (["print", "get_cc", "cc", "f", "g", "h", "main", "k", "x"].idxOf? x)

/-- `print`, `get_cc`; the others not assigned to. -/
def contsInit : List (Option (Init Nat)) := [some (.ext 0), some .getcc, none, none, none, none, none, none, none]

/-- A variable. -/
def showVar : Option (Option (Spec.Obs Nat)) → String
  | some (some v) => v.show
  | _ => "unassigned"

/-- Whether no exception is raised, what is logged, and what is the value of `x` at the end: by the interpreter. -/
def contsSpec (careful : Bool) (b : List (Conts.St Nat)) :
    Option (Bool × List (List Nat) × String) :=
  (Spec.run careful contsWorld 30 10 contsEnv b (start contsInit [])).map fun r =>
    (r.1.isOk, r.2.world, showVar (r.2.heap[8]?.map (Option.map obs)))

/-- The same: by the expanded block. -/
def contsRun (b : List (Conts.St Nat)) : Option (Bool × List (List Nat) × String) :=
  (expand b).bind fun o => (Conts.run contsWorld 30 10 contsEnv o (startI contsInit [])).map fun r =>
    (r.1.isOk, r.2.world, showVar (r.2.heap[8]?.map (Option.map obsI)))

section
open Conts.Ex Conts.St

/-- `f()` -/
private def callF (f : String) : Conts.Ex Nat := .call (.name f) []
/-- `print(n)` -/
private def prints (n : Nat) : Conts.St Nat := .expr (.call (.name "print") [.cst n])
/-- `call_cc[f()]` -/
private def capture (f : String) : Conts.St Nat := .callcc [] none none (.call (.name f) []) .skip

/-- A continuation that is stored and used again:
```
def f():
    nonlocal k
    k = cc
    return 1
def main():
    x = call_cc[f()]
    print(x)
    return (x, 5)
x = main()
k(2)
x = k(3)
```
-/
def contsResume : List (Conts.St Nat) :=
  [.defn "f" [] [.nonlocal ["k"], .assign "k" (.name "cc"), .ret (some (.cst 1))],
   .defn "main" [] [.callcc ["x"] none none (.call (.name "f") []) .skip, .expr (.call (.name "print") [.name "x"]),
     .ret (some (.tup [.name "x", .cst 5]))],
   .assign "x" (callF "main"), .expr (.call (.name "k") [.cst 2]), .assign "x" (.call (.name "k") [.cst 3])]

example : contsSpec true contsResume = some (true, [[1], [2], [3]], "(3, 5)") ∧
    contsRun contsResume = some (true, [[1], [2], [3]], "(3, 5)") := by decide +kernel

/-- `call_cc` in a function that was called by `call_cc`, `get_cc`, several targets, a condition, a loop:
```
def g():
    return Values(1, 2, 3)
def f():
    x, *h = call_cc[g()]
    return x
def main():
    call_cc[f() if 1 else None]
    print(4)
    k, x = call_cc[get_cc(7)]
    print(x)
    return k(0) if x else Values(8, 9)
x = main()
while x:
    x = 0
```
(the loop makes one round) -/
def contsNested : List (Conts.St Nat) :=
  [.defn "g" [] [.ret (some (.values [.cst 1, .cst 2, .cst 3]))],
   .defn "f" [] [.callcc ["x"] (some "h") none (.call (.name "g") []) .skip, .ret (some (.name "x"))],
   .defn "main" [] [.callcc [] none (some (.cst 1)) (.call (.name "f") []) .skip, prints 4,
     .callcc ["k", "x"] none none (.call (.name "get_cc") [.cst 7]) .skip, .expr (.call (.name "print") [.name "x"]),
     .ret (some (.ife (.name "x") (.call (.name "k") [.name "k", .cst 0]) (.values [.cst 8, .cst 9])))],
   .assign "x" (callF "main"), .while (.name "x") [prints 6, .assign "x" (.cst 0)]]

example : contsSpec true contsNested = some (true, [[4], [7], [0], [6]], "0") ∧
    contsRun contsNested = some (true, [[4], [7], [0], [6]], "0") := by decide +kernel

example : legal contsNested = true ∧
    legal [.ite (.cst 1) [capture "f"] [], prints (1 : Nat)] = false ∧
    legal [prints 1, capture "f"] = false ∧
    legal [.ret (some (.cst (1 : Nat)))] = false ∧
    legal [.defn "f" [] [capture "g"], prints 1] = true := ⟨rfl, rfl, rfl, rfl, rfl⟩

/-- `and`, `or`, `let` and `do` in tail position, in a function that was called by `call_cc`:
```
def g():
    return x or do[print(1), let[[h, 5] in h and f(h)]]
def f(h):
    return print(h) and f(h)
def main():
    k = call_cc[g()]
    print(6)
    return k or 9
x = 0
x = main()
```
-/
def contsOr : List (Conts.St Nat) :=
  [.defn "g" [] [.ret (some (.bool true (.name "x") (.doe (.call (.name "print") [.cst 1])
     (.letx "h" (.cst 5) (.bool false (.name "h") (.call (.name "f") [.name "h"]))))))],
   .defn "f" ["h"] [.ret (some (.bool false (.call (.name "print") [.name "h"]) (.call (.name "f") [.name "h"])))],
   .defn "main" [] [.callcc ["k"] none none (.call (.name "g") []) .skip, prints 6, .ret (some (.bool true (.name "k") (.cst 9)))],
   .assign "x" (.cst 0), .assign "x" (callF "main")]

example : contsSpec true contsOr = some (true, [[1], [5], [6]], "9") ∧
    contsRun contsOr = some (true, [[1], [5], [6]], "9") := by decide +kernel

/-- `and` in tail position:
```
def f():
    return None and f()
x = f()
```
-/
def contsAnd : List (Conts.St Nat) :=
  [.defn "f" [] [.ret (some (.bool false .non (callF "f")))], .assign "x" (callF "f")]

/-- C94.  `return None and f()` gives `False` (0 here), not `None` (tailtools.py:1632-1636). -/
theorem C94_and_refuted :
    contsSpec false contsAnd = some (true, [], "None") ∧ contsRun contsAnd = some (true, [], "0") := by decide +kernel

/-- `call_cc` twice in a function that was itself called by `call_cc`:
```
def g():
    return 1
def f():
    call_cc[g()]
    call_cc[g()]
    return 1
def main():
    call_cc[f()]
    print(7)
main()
```
-/
def contsTwice : List (Conts.St Nat) :=
  [.defn "g" [] [.ret (some (.cst 1))], .defn "f" [] [capture "g", capture "g", .ret (some (.cst 1))],
   .defn "main" [] [capture "f", prints 7], .expr (callF "main")]

/-- C94.  A function with two `call_cc`s, itself called by `call_cc`: the rest of the function that called it is never run.  The
continuation made by the second one has for its parent the `cc` of the first continuation, which is `identity`, not the parent of
the first continuation (tailtools.py:1109-1111).  The documentation allows several `call_cc`s in a function (425-426) and
says that a function with a `call_cc` in it goes on to its own `cc` in the end (464-481). -/
theorem C94_two_callcc_refuted :
    contsSpec false contsTwice = some (true, [[7]], "unassigned") ∧ contsRun contsTwice = some (true, [], "unassigned") :=
  by decide +kernel

/-- `call_cc[None]` in a function that was itself called by `call_cc`:
```
def f():
    call_cc[None]
    print(6)
def main():
    call_cc[f()]
    print(7)
main()
```
-/
def contsSkip : List (Conts.St Nat) :=
  [.defn "f" [] [.callcc [] none none .skip .skip, prints 6], .defn "main" [] [capture "f", prints 7], .expr (callF "main")]

/-- C94.  `call_cc[... if p else None]` where the call is skipped, in a function that was called by `call_cc`: what
follows that function is run twice.  The continuation is called with `cc=cc` and has `cc` for its parent, too
(tailtools.py:1090, 1109-1111). -/
theorem C94_skip_refuted :
    contsSpec false contsSkip = some (true, [[6], [7]], "unassigned") ∧ contsRun contsSkip = some (true, [[6], [7], [7]], "unassigned") :=
  by decide +kernel

/-- A tail call, after a `call_cc`, of a function with a `call_cc`:
```
def g():
    return 1
def h():
    call_cc[g()]
    print(5)
def f():
    call_cc[g()]
    return h()
def main():
    call_cc[f()]
    print(7)
main()
```
-/
def contsCompose : List (Conts.St Nat) :=
  [.defn "g" [] [.ret (some (.cst 1))], .defn "h" [] [capture "g", prints 5], .defn "f" [] [capture "g", .ret (some (callF "h"))],
   .defn "main" [] [capture "f", prints 7], .expr (callF "main")]

/-- C94.  After a `call_cc`, in a function that was itself called by `call_cc`, a tail call of a function that uses
`call_cc` ends in a TypeError: the composed continuation that is passed to it as `cc` becomes the parent of the continuation made
there, and is called with `cc=...`, which it passes to `jump` a second time (tailtools.py:765-766).  The documentation says that a composed
continuation is passed to tail calls (504-507). -/
theorem C94_composed_refuted :
    contsSpec false contsCompose = some (true, [[5], [7]], "unassigned") ∧ contsRun contsCompose = some (false, [[5]], "unassigned") :=
  by decide +kernel

/-- A composed continuation called normally:
```
def g():
    return 1
def h():
    cc(1)
    return 1
def f():
    call_cc[g()]
    return h()
def main():
    call_cc[f()]
    print(7)
main()
```
-/
def contsCallComposed : List (Conts.St Nat) :=
  [.defn "g" [] [.ret (some (.cst 1))], .defn "h" [] [.expr (.call (.name "cc") [.cst 1]), .ret (some (.cst 1))],
   .defn "f" [] [capture "g", .ret (some (callF "h"))],
   .defn "main" [] [capture "f", prints 7], .expr (callF "main")]

/-- C94.  A composed continuation that is called other than in tail position does not run: it has no trampoline, and the value of
the call is a `jump` object (tailtools.py:764-766).  Any other `cc` can be called like a function. -/
theorem C94_call_composed_refuted :
    contsSpec false contsCallComposed = some (true, [[7], [7]], "unassigned") ∧
    contsRun contsCallComposed = some (true, [[7]], "unassigned") := by decide +kernel

/-- `cc` called in tail position:
```
def f():
    return cc(5)
x = f()
```
-/
def contsReturnCc : List (Conts.St Nat) :=
  [.defn "f" [] [.ret (some (.call (.name "cc") [.cst 5]))], .assign "x" (callF "f")]

/-- C94.  `return cc(5)` in a function that is called normally gives `Values(5, cc=identity)`, not `5`: the tail call passes
`cc=cc` on, and `identity` returns all its arguments (fun.py:673-675). -/
theorem C94_return_cc_refuted :
    contsSpec false contsReturnCc = some (true, [], "5") ∧
    contsRun contsReturnCc = some (true, [], "Values(5, cc=identity)") := by decide +kernel

end

end Unpy.Props
