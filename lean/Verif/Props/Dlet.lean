import Verif.Proof.DletRun
import Verif.Model.Py
/-!
# Functions with `let` variables (C106)
-/
namespace Unpy.Props
open Unpy Unpy.Dlet Unpy.Dlet.Lemmas
open Unpy.Spec.Dlet (CalmProg)

/-- Statements in a list. -/
def c106Block : List S → Ss
  | [] => .nil
  | s :: ss => .cons s (c106Block ss)

/-- Arguments in a list. -/
def c106Args : List E → Es
  | [] => .nil
  | e :: es => .cons e (c106Args es)

/-- `@dlet[x := 1, y := 2] def f(): body`, and then `f()` is printed; the global variable `x` is 9. -/
def c106Prog (body : List S) : Prog where
  before := c106Block [.assign "x" (.int 9)]
  recursive := false
  block := false
  bindings := [("x", .int 1), ("y", .int 2)]
  name := "f"
  params := []
  defaults := .nil
  globals := []
  body := c106Block body
  after := c106Block [.expr (.show (.call (.var "f") .nil))]

/-- C106: a function decorated by `dlet`, `dletrec`, `blet` or `bletrec` runs as if let variables were a scope around it: each name and each `name := value` in it is
the let variable, unless a parameter, a `global` name or a local variable hides it; local variables do so from the next statement on, until they are deleted.  The
module with the function has the same output and ends in the same way, for all programs and for any number of steps.  Partial: the blocks of compound statements do
not assign or delete let variables (`C106_block_refuted`, `C106_block_local_refuted`), functions in functions and their parameters have other names than the let
variables (`C106_parameter_refuted`, `C106_default_refuted`), they do not delete let variables
(`C106_nested_delete_refuted`), a function that declares a let variable `global` has no functions in it
(`C106_global_refuted`), and the defaults of the decorated function are simple expressions without let variables (`C106_own_default_refuted`). -/
theorem C106_scope_partial (p : Prog) (h : CalmProg p) (n : Nat) : run n p = Spec.Dlet.run n p := run_spec h n

/-- ```
@dlet[x := 1, y := 2]
def f():
    x = show(x) - 5           # 1
    if x: show(x)             # -4
    del x
    show(x := x - 10)         # -9
    def g(a=x):
        y = a                 # hides y from here on, in g
        return lambda x: y - (z := x - 1)
    show(g()(3))              # -11
    while y: show(y := y - 1) # 1, 0
    return y - g(7)(y)        # -8
``` -/
private def prog0 : Prog := c106Prog [
  .assign "x" (.sub (.show (.var "x")) (.int 5)),
  .ite (.var "x") (c106Block [.expr (.show (.var "x"))]) .nil,
  .del "x",
  .expr (.show (.walrus "x" (.sub (.var "x") (.int 10)))),
  .fdef "g" ["a"] (c106Args [.var "x"]) [] (c106Block [.assign "y" (.var "a"),
    .ret (.lam ["x"] (.sub (.var "y") (.walrus "z" (.sub (.var "x") (.int 1)))))]),
  .expr (.show (.call (.call (.var "g") .nil) (c106Args [.int 3]))),
  .while (.var "y") (c106Block [.expr (.show (.walrus "y" (.sub (.var "y") (.int 1))))]),
  .ret (.sub (.var "y") (.call (.call (.var "g") (c106Args [.int 7])) (c106Args [.var "y"])))]

/-- Beside `C106_scope_partial`: its hypothesis holds here. -/
example : CalmProg prog0 := by
  simp [CalmProg, prog0, c106Prog, c106Block, c106Args, Spec.Dlet.CalmAll, Spec.Dlet.Calm, Spec.Dlet.KeepsAll, Spec.Dlet.Keeps, Spec.Dlet.definesAny,
    Spec.Dlet.defines, Spec.Dlet.SimpleAll]

/-- The output, latest first. -/
example : run 30 prog0 = (.ok (), [-8, 0, 1, -11, -9, -4, 1]) := by decide +kernel

/-- `@bletrec[x := lambda n: n - z, y := show(x(3))] def f(): global z; z = 6; show(x(3)); x = y; return x`: the bindings see each other, and so does the
function, which is called at once. -/
private def prog1 : Prog where
  before := c106Block [.assign "z" (.int 5)]
  recursive := true
  block := true
  bindings := [("x", .lam ["n"] (.sub (.var "n") (.var "z"))), ("y", .show (.call (.var "x") (c106Args [.int 3])))]
  name := "f"
  params := []
  defaults := .nil
  globals := ["z"]
  body := c106Block [.assign "z" (.int 6), .expr (.show (.call (.var "x") (c106Args [.int 3]))), .assign "x" (.var "y"), .ret (.var "x")]
  after := c106Block [.expr (.show (.var "f"))]

example : CalmProg prog1 := by
  simp [CalmProg, prog1, c106Block, c106Args, Spec.Dlet.CalmAll, Spec.Dlet.Calm, Spec.Dlet.definesAny, Spec.Dlet.defines, Spec.Dlet.SimpleAll]
example : run 30 prog1 = (.ok (), [-2, -3, -2]) := by decide +kernel

/-- `@dlet[x := z] def f(a, b=show(z)): …` with parameters, called twice: the let variable is kept from call to call. -/
private def prog2 : Prog where
  before := c106Block [.assign "z" (.int 5)]
  recursive := false
  block := false
  bindings := [("x", .show (.var "z")), ("y", .int 2)]
  name := "f"
  params := ["a", "b"]
  defaults := c106Args [.show (.sub (.var "z") (.int 1))]
  globals := []
  body := c106Block [.ret (.walrus "x" (.sub (.sub (.var "x") (.var "a")) (.var "b")))]
  after := c106Block [.expr (.show (.call (.var "f") (c106Args [.int 1]))), .expr (.show (.call (.var "f") (c106Args [.int 1, .int 2]))), .expr (.var "x")]

example : CalmProg prog2 := by
  simp [CalmProg, prog2, c106Block, c106Args, Spec.Dlet.CalmAll, Spec.Dlet.Calm, Spec.Dlet.definesAny, Spec.Dlet.defines, Spec.Dlet.SimpleAll, Spec.Dlet.Simple]
example : run 30 prog2 = (.error (.name "x"), [-3, 0, 4, 5]) := by decide +kernel

/-- A let variable may be bound once: `@dlet[x := 1, x := 2]` is an error. -/
example : run 9 { c106Prog [] with bindings := [("x", .int 1), ("x", .int 2)] } = (.error (.rebind "x"), []) := by decide +kernel

/-- `global z; z = 4; show(z); del z; return z`: the global variable is deleted. -/
example : run 20 { c106Prog [.assign "z" (.int 4), .expr (.show (.var "z")), .del "z", .ret (.var "z")] with globals := ["z"] } = (.error (.name "z"), [4]) := by decide +kernel

/-- `@dletrec[x := y, y := 2]`: `y` has no value yet. -/
example : run 9 { c106Prog [] with bindings := [("x", .var "y"), ("y", .int 2)], recursive := true } = (.error (.attr "y"), []) := by decide +kernel

/-- C106, refuted for assignments in the block of a compound statement: after `if 1: x = 5`, in the same block, `return x` returns the let variable, 1, and not the
local variable, 5, though it is in the lexically remaining part of the scope. -/
theorem C106_block_refuted : ∃ p, p = c106Prog [.ite (.int 1) (c106Block [.assign "x" (.int 5), .ret (.var "x")]) .nil] ∧
    Spec.Dlet.run 20 p = (.ok (), [5]) ∧ run 20 p = (.ok (), [1]) :=
  ⟨_, rfl, by decide +kernel, by decide +kernel⟩

/-- C106, refuted for local variables deleted in the block of a compound statement: after `x = 5`, with `if 1: del x; return x` the local variable is
meant and not the let variable, so that an exception is raised. -/
theorem C106_block_local_refuted : ∃ p, p = c106Prog [.assign "x" (.int 5), .ite (.int 1) (c106Block [.del "x", .ret (.var "x")]) .nil] ∧
    Spec.Dlet.run 20 p = (.ok (), [1]) ∧ run 20 p = (.error (.unbound "x"), []) :=
  ⟨_, rfl, by decide +kernel, by decide +kernel⟩

/-- C106, refuted for functions in functions with parameters named like let variables: after `def g(x): return 0`, in the decorated function, `return x` does not return
the let variable, 1, but the global one, 9: the parameter is taken for one of the decorated function. -/
theorem C106_parameter_refuted : ∃ p, p = c106Prog [.fdef "g" ["x"] .nil [] (c106Block [.ret (.int 0)]), .ret (.var "x")] ∧
    Spec.Dlet.run 20 p = (.ok (), [1]) ∧ run 20 p = (.ok (), [9]) :=
  ⟨_, rfl, by decide +kernel, by decide +kernel⟩

/-- C106, refuted for defaults of functions in functions: `def g(x=x): return x` does not see the let variable, 1, but the global one, 9. -/
theorem C106_default_refuted : ∃ p, p = c106Prog [.fdef "g" ["x"] (c106Args [.var "x"]) [] (c106Block [.ret (.var "x")]), .ret (.call (.var "g") .nil)] ∧
    Spec.Dlet.run 20 p = (.ok (), [1]) ∧ run 20 p = (.ok (), [9]) :=
  ⟨_, rfl, by decide +kernel, by decide +kernel⟩

/-- C106, refuted for functions in a function that declares a let variable `global`: with `global x` in the decorated function, a function in it still
sees the let variable, 1, and not the global one, 9, if it does not say `global x` itself. -/
theorem C106_global_refuted : ∃ p, p = { c106Prog [.fdef "g" [] .nil [] (c106Block [.ret (.var "x")]), .ret (.call (.var "g") .nil)] with globals := ["x"] } ∧
    Spec.Dlet.run 20 p = (.ok (), [9]) ∧ run 20 p = (.ok (), [1]) :=
  ⟨_, rfl, by decide +kernel, by decide +kernel⟩

/-- C106, refuted for the defaults of the decorated function: in `@dlet[x := 1, y := 2] def f(a=x): return a` the default is taken for the let variable, but there it
cannot be seen, and an exception is raised. -/
theorem C106_own_default_refuted : ∃ p, p = { c106Prog [.ret (.var "a")] with params := ["a"], defaults := c106Args [.var "x"] } ∧
    Spec.Dlet.run 20 p = (.ok (), [1]) ∧ run 20 p = (.error .noenv, []) :=
  ⟨_, rfl, by decide +kernel, by decide +kernel⟩

/-- C106, refuted for functions in functions that delete a let variable: after `x = 5` in the decorated function, its local variable hides the let variable for the functions
in it.  But `def g(): x = 6; del x; return x` returns the let variable, 1. -/
theorem C106_nested_delete_refuted : ∃ p, p = c106Prog [.assign "x" (.int 5),
      .fdef "g" [] .nil [] (c106Block [.assign "x" (.int 6), .del "x", .ret (.var "x")]), .ret (.call (.var "g") .nil)] ∧
    Spec.Dlet.run 20 p = (.error (.unbound "x"), []) ∧ run 20 p = (.ok (), [1]) :=
  ⟨_, rfl, by decide +kernel, by decide +kernel⟩

end Unpy.Props
