import Verif.Proof.Autocurry
/-!
# C104: programs in a `with autocurry` block
-/
namespace Unpy.Props
open Unpy.Autocurry Unpy.Autocurry.Lemmas

/-- What the expanded program does: the value or the exception, and the output, the last first. -/
def c104Code (n : Nat) (e : E) : Except Err Spec.Seen × List Int :=
  let r := eval n false [] (autocurry e) []
  (r.1.map Spec.seenV, r.2)

/-- What the program does in plain Python, without the macro. -/
def c104Plain (n : Nat) (e : E) : Except Err Spec.Seen × List Int :=
  let r := Spec.eval false n true [] e []
  (r.1.map Spec.seenRV, r.2)

/-- What it should do when all functions and calls in the block are curried. -/
def c104Curried (n : Nat) (e : E) : Except Err Spec.Seen × List Int :=
  let r := Spec.eval true n true [] e []
  (r.1.map Spec.seenRV, r.2)

private theorem c104_sim (au : Bool) (n : Nat) (e : E) (ok : Ok au true (.block false) e) (h : (Spec.eval au n true [] e []).1 ≠ .error .call) :
    c104Code n e = ((Spec.eval au n true [] e []).1.map Spec.seenRV, (Spec.eval au n true [] e []).2) := by
  have h1 := eval_sim n true (.block false) false .nil e ok []
  unfold c104Code autocurry
  simp only [Lemmas.trans] at h1
  revert h h1
  match Spec.eval au n true [] e [] with
  | (.ok v, s) => rintro - ⟨w, h1, h2⟩; simp only [h1, Except.map, seen_rel h2]
  | (.error e, s) =>
    rintro h (h1 | h1)
    · exact absurd (congrArg Except.error h1) h
    · simp only [h1, Except.map]

private theorem c104_error {α β : Type} {f : α → β} {r : Except Err α} (h : r.map f ≠ .error .call) : r ≠ .error .call := by
  rintro rfl; exact h rfl

/-- C104, plain programs.  A program that runs without a TypeError of a call in plain Python does the same in a `with autocurry` block, with
the code outside that uses its functions: it has the same value, or the same exception, and the same output. -/
theorem C104_plain (n : Nat) (e : E) (h : (c104Plain n e).1 ≠ .error .call) : c104Code n e = c104Plain n e :=
  c104_sim false n e (nofun) (c104_error h)

/-- C104, partial.  In a `with autocurry` block all functions that are made and all calls are curried: arguments are taken one at a time, a
function with too few arguments waits for more, and those that are too many are given to its result.

What is missing: lambdas in a function curried by the user, other than the one curried directly; calls and lambdas in defaults of lambdas; and
programs with a TypeError of a call; see the refutations. -/
theorem C104_curried_partial (n : Nat) (e : E) (hf : Spec.Fine false e) (h : (c104Curried n e).1 ≠ .error .call) : c104Code n e = c104Curried n e :=
  c104_sim true n e (fun _ => ⟨nofun, fun _ => hf⟩) (c104_error h)

/-! ## Cases -/

private def args : List E → Es
  | [] => .nil
  | e :: es => .cons e (args es)

/-- `(lambda x, y, ...: e)`, without defaults -/
private def fn (ps : List String) (e : E) : E := .lam ps .nil e

private def sub3 : E := .sub (.sub (.name "a") (.name "b")) (.name "c")

/-- With `def f(a, b, c=7): return a - b - c`: `show(f(10, 2)) - f(1, 2, 3)`, and then outside, `show(f(20, 5))`. -/
def c104Program : E :=
  .fdef "f" ["a", "b", "c"] (args [.int 7]) sub3
    (.sub (.sub (.call .show (args [.call (.name "f") (args [.int 10, .int 2])])) (.call (.name "f") (args [.int 1, .int 2, .int 3])))
      (.leave (.call .show (args [.call (.name "f") (args [.int 20, .int 5])]))))

example : c104Plain 20 c104Program = (.ok (.int (-3)), [8, 1]) := rfl
example : c104Code 20 c104Program = (.ok (.int (-3)), [8, 1]) := rfl

/-- A function that calls itself: `def f(n): return f(show(n) - 1) if n - 3 else n`, from 5. -/
def c104Loop : E :=
  .fdef "f" ["n"] .nil (.ite (.call (.name "f") (args [.sub (.call .show (args [.name "n"])) (.int 1)])) (.sub (.name "n") (.int 3)) (.name "n"))
    (.call (.name "f") (args [.int 5]))

example : c104Plain 40 c104Loop = (.ok (.int 3), [4, 5]) := rfl
example : c104Code 40 c104Loop = (.ok (.int 3), [4, 5]) := rfl

/-- With `def f(a, b, c): return a - b - c`: `f(30)(2, 3) - (lambda x: f(x, 1))(9, 4)`, and then outside, `f(3)(2)(1)`. -/
def c104Curry : E :=
  .fdef "f" ["a", "b", "c"] .nil sub3
    (.sub (.sub (.call (.call (.name "f") (args [.int 30])) (args [.int 2, .int 3]))
        (.call (fn ["x"] (.call (.name "f") (args [.name "x", .int 1]))) (args [.int 9, .int 4])))
      (.leave (.call (.call (.call (.name "f") (args [.int 3])) (args [.int 2])) (args [.int 1]))))

example : Spec.Fine false c104Curry := by simp [c104Curry, Spec.Fine, Spec.FineAll, Spec.BareAll, Spec.decorated, args, fn, sub3]
example : c104Curried 20 c104Curry = (.ok (.int 21), []) := rfl
example : c104Code 20 c104Curry = (.ok (.int 21), []) := rfl
example : c104Plain 20 c104Curry = (.error .call, []) := rfl

/-- `curry(lambda x, y: x - y)(5)(3)`, with a `curry` of the user -/
def c104Manual : E := .call (.call (.curry (fn ["x", "y"] (.sub (.name "x") (.name "y")))) (args [.int 5])) (args [.int 3])

example : Spec.Fine false c104Manual := by simp [c104Manual, Spec.Fine, Spec.FineAll, args, fn]
example : c104Curried 20 c104Manual = (.ok (.int 2), []) := rfl

/-- Several values: `(lambda x: Values(f, x))(5, 3)` is `f(5, 3)`. -/
def c104Values : E :=
  .fdef "f" ["a", "b"] .nil (.sub (.name "a") (.name "b")) (.call (fn ["x"] (.values (args [.name "f", .name "x"]))) (args [.int 5, .int 3]))

example : Spec.Fine false c104Values := by simp [c104Values, Spec.Fine, Spec.FineAll, Spec.BareAll, Spec.decorated, args, fn]
example : c104Curried 20 c104Values = (.ok (.int 2), []) := rfl

/-- Other exceptions are the same, too: `show((1, 2))` is a TypeError of `show`, `y` is a NameError. -/
example : c104Code 20 (.call .show (args [.tuple (args [.int 1, .int 2])])) = (.error .type, []) ∧ c104Code 20 (.call (fn ["x"] (.name "y")) (args [.int 1])) = (.error .name, []) :=
  ⟨rfl, rfl⟩

/-- C104, refuted for a call of something that is no function: `5(1)` is 5 in a `with autocurry` block, and not a TypeError; outside, it is
one. -/
theorem C104_callable_refuted : ∃ e, e = .call (.int 5) (args [.int 1]) ∧ c104Plain 9 e = (.error .call, []) ∧ c104Curried 9 e = (.error .call, []) ∧
    c104Code 9 e = (.ok (.int 5), []) ∧ c104Code 9 (.leave e) = (.error .call, []) :=
  ⟨_, rfl, rfl, rfl, rfl, rfl⟩

/-- C104, refuted for arguments left over: `(lambda x: (lambda y: y)(x, 1))(2)` is `Values(2, 1)`, and not a TypeError, though no function takes the
last argument. -/
theorem C104_leftover_refuted : ∃ e, e = .call (fn ["x"] (.call (fn ["y"] (.name "y")) (args [.name "x", .int 1]))) (args [.int 2]) ∧
    c104Plain 9 e = (.error .call, []) ∧ c104Curried 9 e = (.error .call, []) ∧ c104Code 9 e = (.ok (.values [.int 2, .int 1]), []) :=
  ⟨_, rfl, rfl, rfl, rfl⟩

/-- If the function returns several values, all of them are kept: `(lambda x: (lambda y: Values(y, 7))(x, 1))(2)` is `Values(2, 7, 1)`. -/
example : c104Code 9 (.call (fn ["x"] (.call (fn ["y"] (.values (args [.name "y", .int 7]))) (args [.name "x", .int 1]))) (args [.int 2])) =
    (.ok (.values [.int 2, .int 7, .int 1]), []) := rfl

/-- C104, refuted for lambdas in a lambda curried by the user: with `f = curry(lambda x: lambda y, z: x - y - z)` in the block, `f(1)(2)(3)` outside is a
TypeError; without that `curry` it is not. -/
theorem C104_nested_refuted : ∃ e e', e = .call (fn ["f"] (.leave (.call (.call (.call (.name "f") (args [.int 1])) (args [.int 2])) (args [.int 3]))))
      (args [.curry (fn ["x"] (fn ["y", "z"] (.sub (.sub (.name "x") (.name "y")) (.name "z"))))]) ∧
    e' = .call (fn ["f"] (.leave (.call (.call (.call (.name "f") (args [.int 1])) (args [.int 2])) (args [.int 3]))))
      (args [fn ["x"] (fn ["y", "z"] (.sub (.sub (.name "x") (.name "y")) (.name "z")))]) ∧
    c104Curried 20 e = (.ok (.int (-4)), []) ∧ c104Code 20 e = (.error .call, []) ∧ c104Code 20 e' = (.ok (.int (-4)), []) :=
  ⟨_, _, rfl, rfl, rfl, rfl, rfl⟩

/-- C104, refuted for lambdas that are arguments of a function curried by the user: in `curry(use)(lambda x, y: x - y)` the lambda is not curried, as
if `curry(use)` was a `curry` for it. -/
theorem C104_argument_refuted : ∃ e, e = .fdef "use" ["f"] .nil (.leave (.call (.call (.name "f") (args [.int 1])) (args [.int 2])))
      (.call (.curry (.name "use")) (args [fn ["x", "y"] (.sub (.name "x") (.name "y"))])) ∧
    c104Curried 20 e = (.ok (.int (-1)), []) ∧ c104Code 20 e = (.error .call, []) :=
  ⟨_, rfl, rfl, rfl⟩

/-- C104, refuted for defaults of lambdas: with a function `f` of two arguments from outside of the block, `(lambda g=f(1): g(2))()` is a TypeError, as the
call in the default is not curried; in a default of a `def`, it is. -/
theorem C104_default_refuted : ∃ e e', e = .call (fn ["f"] (.call (.lam ["g"] (args [.call (.name "f") (args [.int 1])]) (.call (.name "g") (args [.int 2]))) .nil))
      (args [.leave (fn ["x", "y"] (.sub (.name "x") (.name "y")))]) ∧
    e' = .call (fn ["f"] (.fdef "h" ["g"] (args [.call (.name "f") (args [.int 1])]) (.call (.name "g") (args [.int 2])) (.call (.name "h") .nil)))
      (args [.leave (fn ["x", "y"] (.sub (.name "x") (.name "y")))]) ∧
    c104Curried 20 e = (.ok (.int (-1)), []) ∧ c104Code 20 e = (.error .call, []) ∧ c104Code 20 e' = (.ok (.int (-1)), []) :=
  ⟨_, _, rfl, rfl, rfl, rfl, rfl⟩

end Unpy.Props
