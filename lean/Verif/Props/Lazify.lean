import Verif.Proof.Lazify
/-!
# C95: the block macro `lazify`
-/
namespace Unpy.Props
open Unpy.Lazify Unpy.Lazify.Spec
open Unpy.PyExpr (M ret raise bind Err)
open Unpy.Conts (Env State Flow)
variable {β ω ε : Type}

/-- C95.  For any block of functions, loops and conditionals, any operators and external functions, and any limits on the rounds of
loops and on the depth of calls: the expanded block does what call by need does, unless the careful interpreter stops.  That is, if
the interpreter ends, then the expanded block ends with the same outcome (returns the same or raises the same exception if any), the
same values in all variables, the same arguments evaluated, and the same calls of external functions in the same order; and if the
interpreter does not end, then the expanded block does not either.

Missing: the situations where the careful interpreter stops, in which the macro does something else (C95_augassign_refuted and
others below); and what is not in the model (containers other than tuples, attributes, named arguments, `let`, exceptions caught by
the program). -/
theorem C95_meaning_partial (P : World β ω ε) (N d : Nat) (ρ : Env) (b : List (Lazify.St β)) (h : List (Option (Init β)))
    (w : ω) :
    Stopped (Spec.run true P N d ρ b (start h w)) ∨
    match Spec.run false P N d ρ b (start h w), Lazify.run P N d ρ (trSs b) (startI h w) with
      | none, none => True
      | some r, some r' => Same r r'
      | _, _ => False := by
  rcases Sim.run_sub P N d ρ b (start h w) with hf | hc
  · exact .inl hf
  rcases Sim.run_sim P N d ρ b (start h w) with hf | hr
  · exact .inl hf
  right
  rw [hc, ← Sim.startI_eq, hr]
  match Spec.run true P N d ρ b (start h w) with
  | none => trivial
  | some (e, s) =>
    refine ⟨?_, ?_, ?_, rfl⟩
    · match e with
      | .error _ => rfl
      | .ok .next => trivial
      | .ok (.ret v) => exact (Sim.obs_τ v).symm
    · simp only [Sim.τst, List.map_map]
      refine List.map_congr_left fun c _ => ?_
      cases c with
      | none => rfl
      | some v => simp [Sim.obs_τ]
    · simp only [Sim.τst, List.map_map]
      exact List.map_congr_left fun c _ => (Sim.promObs_τ c).symm

/-! ## Programs -/

/-- Operators 0 and 1 are `+` and `/`; external function 0, with the variable `print`: its arguments are logged, and the first one
is returned. -/
def lazifyWorld : World Nat (List (List Nat)) String where
  truthy := (· != 0)
  eq := (· == ·)
  ofBool := fun b => if b then 1 else 0
  index := some
  op := fun n args => match n, args with
    | 0, [a, b] => .ok (a + b)
    | 1, [_, 0] => .error (.user "ZeroDivisionError")
    | 1, [a, b] => .ok (a / b)
    | _, _ => .error (.user "no such operator")
  call := fun n args w => if n = 0 then (.ok (args.headD 0), w ++ [args]) else (.error (.user "no such function"), w)

/-- The variables of the programs below. -/
def lazifyEnv : Env := fun x => (["print", "f", "g", "h", "box", "y", "x", "list"].idxOf? x)

/-- `print`; the others not assigned to. -/
def lazifyInit : List (Option (Init Nat)) := [some (.ext 0), none, none, none, none, none, none, none]

/-- A variable. -/
def lazifyVar : Option (Option (Spec.Obs Nat)) → String
  | some (some v) => v.show
  | _ => "unassigned"

/-- Which exception is raised, if any. -/
def lazifyErr : Except (Err String) (Flow γ) → String
  | .ok _ => "ok"
  | .error (.py .TypeError) => "TypeError"
  | .error (.user e) => e
  | .error _ => "other"

/-- Which exception is raised, what is logged, and what is the value of `x` at the end: by the interpreter. -/
def lazifySpec (careful : Bool) (b : List (Lazify.St Nat)) : Option (String × List (List Nat) × String) :=
  (Spec.run careful lazifyWorld 10 10 lazifyEnv b (start lazifyInit [])).map fun r =>
    (lazifyErr r.1, r.2.world.ext, lazifyVar (r.2.heap[6]?.map (Option.map obs)))

/-- The same: by the expanded block. -/
def lazifyRun (b : List (Lazify.St Nat)) : Option (String × List (List Nat) × String) :=
  (Lazify.run lazifyWorld 10 10 lazifyEnv (trSs b) (startI lazifyInit [])).map fun r =>
    (lazifyErr r.1, r.2.world.ext, lazifyVar (r.2.heap[6]?.map (Option.map obsI)))

section
open Lazify.Ex Lazify.St

/-- `1 / 0` -/
def lazifyBad : Lazify.Ex Nat := op 1 [cst 1, cst 0]

/-- `def f(a, b): return a + a`, `def g(a, b): return f(a + 1, b)`, `x = g(print(20), 1/0)`: the second argument is passed through
two functions and never evaluated; the first is used twice and printed once. -/
def lazifyTwice : List (Lazify.St Nat) :=
  [defn "f" ["a", "b"] none [] [.ret (op 0 [name "a", name "a"])],
   defn "g" ["a", "b"] none [] [.ret (call (name "f") [op 0 [name "a", cst 1], name "b"])],
   assign "x" (call (name "g") [call (name "print") [cst 20], lazifyBad])]

example : lazifySpec true lazifyTwice = some ("ok", [[20]], "42") := by decide +kernel
example : lazifyRun lazifyTwice = some ("ok", [[20]], "42") := by decide +kernel

/-- `def f(*a): return a[1]`, `def g(t, *a): return f(t[1], *a)`, `x = g((1/0, 2), 3, 1/0)`, then `print(1/0)`: an item of a
tuple that is not evaluated, `*args` passed through, and a strict function. -/
def lazifyTuples : List (Lazify.St Nat) :=
  [defn "f" [] (some "a") [] [.ret (sub (name "a") (cst 1))],
   defn "g" ["t"] (some "a") [] [.ret (callS (name "f") [sub (name "t") (cst 1)] (name "a"))],
   assign "x" (call (name "g") [tup [lazifyBad, cst 2], cst 3, lazifyBad]),
   expr (call (name "print") [lazifyBad])]

example : lazifySpec true lazifyTuples = some ("ZeroDivisionError", [], "3") := by decide +kernel
example : lazifyRun lazifyTuples = some ("ZeroDivisionError", [], "3") := by decide +kernel

/-- `def f(n): n += 1; return n`, `x = f(1)` -/
def lazifyAug : List (Lazify.St Nat) :=
  [defn "f" ["n"] none [] [aug "n" 0 (cst 1), .ret (name "n")], assign "x" (call (name "f") [cst 1])]

/-- C95: refuted for augmented assignment.  In a function, `n += 1` on a parameter `n` raises TypeError (the promise is not forced,
as the name is not in Load context), even for the call `f(1)`. -/
theorem C95_augassign_refuted : lazifySpec false lazifyAug = some ("ok", [], "2") ∧
    lazifyRun lazifyAug = some ("TypeError", [], "unassigned") := by decide +kernel

/-- `def h(): return (1, 2)`, `def f(a, b): return b`, `def g(t): return f(*t)`, `x = g(h())` -/
def lazifyStar : List (Lazify.St Nat) :=
  [defn "h" [] none [] [.ret (tup [cst 1, cst 2])],
   defn "f" ["a", "b"] none [] [.ret (name "b")],
   defn "g" ["t"] none [] [.ret (callS (name "f") [] (name "t"))],
   assign "x" (call (name "g") [call (name "h") []])]

/-- C95: refuted for unpacking a parameter in a call.  In a function, `f(*t)` for a parameter `t` raises TypeError (the promise is
not forced), unless the caller has written a tuple, list or set as the argument. -/
theorem C95_star_refuted : lazifySpec false lazifyStar = some ("ok", [], "2") ∧
    lazifyRun lazifyStar = some ("TypeError", [], "unassigned") := by decide +kernel

/-- `def f(a): g = lambda b=a + 1: b; return g()`, `x = f(1)` -/
def lazifyDefault : List (Lazify.St Nat) :=
  [defn "f" ["a"] none [] [assign "g" (lam ["b"] none [op 0 [name "a", cst 1]] (name "b")), .ret (call (name "g") [])],
   assign "x" (call (name "f") [cst 1])]

/-- C95: refuted for the defaults of parameters.  They are not transformed, so that a default that computes with a parameter of
the function around it raises TypeError. -/
theorem C95_default_refuted : lazifySpec false lazifyDefault = some ("ok", [], "2") ∧
    lazifyRun lazifyDefault = some ("TypeError", [], "unassigned") := by decide +kernel

/-- `def f(a): return ((1, 2) if a == (1, 2) else (3, 4))[0]`, `x = f((1, 2))` -/
def lazifyFlat : List (Lazify.St Nat) :=
  [defn "f" ["a"] none []
     [.ret (sub (ife (eq (name "a") (tup [cst 1, cst 2])) (tup [cst 1, cst 2]) (tup [cst 3, cst 4])) (cst 0))],
   assign "x" (call (name "f") [tup [cst 1, cst 2]])]

/-- C95: refuted for what is computed within `(...)[i]`.  Names in there are forced only superficially; `a == (1, 2)` compares the
promises in the tuple `a`, so that the program takes the wrong branch, without any error. -/
theorem C95_flat_refuted : lazifySpec false lazifyFlat = some ("ok", [], "1") ∧
    lazifyRun lazifyFlat = some ("ok", [], "3") := by decide +kernel

/-- `y = lazy[(lazy[1], 2)]`, `x = (y == (1, 2))` -/
def lazifyNested : List (Lazify.St Nat) :=
  [assign "y" (lazy (tup [lazy (cst 1), cst 2])), assign "x" (eq (name "y") (tup [cst 1, cst 2]))]

/-- C95: refuted for a promise that evaluates to a container with a promise in it.  Using its name does not evaluate the items,
unlike for a container that is not in a promise. -/
theorem C95_nested_refuted : lazifySpec false lazifyNested = some ("ok", [], "1") ∧
    lazifyRun lazifyNested = some ("ok", [], "0") := by decide +kernel

/-- `def box(a, b): return a`, `x = box(1, 1/0)` -/
def lazifyBox : List (Lazify.St Nat) :=
  [defn "box" ["a", "b"] none [] [.ret (name "a")], assign "x" (call (name "box") [cst 1, lazifyBad])]

/-- C95: refuted for functions of the user's own with the name of a container constructor, such as `box`, `Some`, `cons`, `ll`.
The arguments are evaluated even if they are not used. -/
theorem C95_name_refuted : lazifySpec false lazifyBox = some ("ok", [], "1") ∧
    lazifyRun lazifyBox = some ("ZeroDivisionError", [], "unassigned") := by decide +kernel

/-- `def box(a): return 5`, `def list(a): return 6`, `def f(a, b): return a + b`, `x = f(box(1/0), list((1/0, 2)))`: within an argument that is a call of a constructor, the items are delayed. -/
def lazifyItems : List (Lazify.St Nat) :=
  [defn "box" ["a"] none [] [.ret (cst 5)], defn "list" ["a"] none [] [.ret (cst 6)],
   defn "f" ["a", "b"] none [] [.ret (op 0 [name "a", name "b"])],
   assign "x" (call (name "f") [call (name "box") [lazifyBad], call (name "list") [tup [lazifyBad, cst 2]]])]

example : lazifyRun lazifyItems = some ("ok", [], "11") := by decide +kernel

end

end Unpy.Props
