import Verif.Proof.Envify
/-!
# C97: the block macro `envify`
-/
namespace Unpy.Props
open Unpy.Envify Unpy.Envify.Spec
open Unpy.PyExpr (M ret raise bind Err)
open Unpy.Conts (Flow)
variable {β ω ε : Type}

/-- C97.  For any block of functions (with defaults, keyword-only parameters and `*args`), lambdas, calls with positional and named
arguments, `while` and `for` loops, conditionals, `del`, `try` with `except:` and comprehensions, any operators and external functions, and
any limits on the rounds of loops and on the depth of calls: the expanded block does what Python does, except that `x := v` for
a parameter `x` of a function assigns to that parameter; unless the careful interpreter stops.  That is, if the interpreter ends,
then the expanded block ends with the same outcome (returns the same or raises the same exception if any), the same values in the
variables of the block, and the same calls of external functions in the same order; and if the interpreter does not end, then
the expanded block does not either.

Missing: the situations where the careful interpreter stops, in which the macro does something else (C97_shadow_refuted and others
below); and what is not in the model (`**kwargs`, classes, `with`, handlers for some exceptions only, `break` and `continue`, `let` and
`do` in the source). -/
theorem C97_meaning_partial (P : World β ω ε) (N d : Nat) (vars : List String) (b : List (Envify.St β))
    (h : List (String × Option (Init β))) (w : ω) :
    Stopped (Spec.run true P N d vars b (start h w)) ∨
    match Spec.run false P N d vars b (start h w), Envify.run P N d vars (expand b) (startI h w) with
      | none, none => True
      | some r, some r' => Same r r'
      | _, _ => False := by
  rcases Sim.run_sub P N d vars b (start h w) with hf | hc
  · exact .inl hf
  rcases Sim.run_sim P N d vars b (start h w) (startI h w) (Sim.start_R h w) with hf | hr
  · exact .inl hf
  right
  rw [hc]
  have hlook : ∀ {s : State (Spec.Val β) ω} {s' : State (Envify.Val β) ω}, Sim.R s s' →
      ∀ x c, look obs s x = some c → look obsI s' x = some c := by
    intro s s' hR x c hx
    unfold look at hx ⊢
    cases hf : s.frames[0]? with
    | none => simp [hf] at hx
    | some f =>
      obtain ⟨f', hf'⟩ := Sim.some_of_len hR.flen hf
      cases hl : f.lookup x with
      | none => simp [hf, hl] at hx
      | some o =>
        obtain ⟨o', ho', hoo⟩ := hR.frames 0 f f' hf hf' x o hl
        simp only [hf, hl, Option.bind_some, Option.map_some, Option.some.injEq] at hx
        simp only [hf', ho', Option.bind_some, Option.map_some, ← hx]
        match o, o', hoo with
        | none, none, _ => rfl
        | some v, some v', hv => simp [Sim.obs_V hv]
        | none, some _, h => exact h.elim
        | some _, none, h => exact h.elim
  match Spec.run true P N d vars b (start h w), Envify.run P N d vars (expand b) (startI h w), hr with
  | none, none, _ => trivial
  | some (.error e, s), some (.error e', s'), hr => exact ⟨hr.1, hlook hr.2, hr.2.ext⟩
  | some (.ok fl, s), some (.ok fl', s'), hr =>
    refine ⟨?_, hlook hr.2, hr.2.ext⟩
    match fl, fl', hr.1 with
    | .next, .next, _ => trivial
    | .ret v, .ret v', h => exact Sim.obs_V h
    | .next, .ret _, h => exact h.elim
    | .ret _, .next, h => exact h.elim
  | none, some _, hr => simp [Sim.Rel] at hr
  | some (.error _, _), none, hr => simp [Sim.Rel] at hr
  | some (.ok _, _), none, hr => simp [Sim.Rel] at hr
  | some (.error _, _), some (.ok _, _), hr => simp [Sim.Rel] at hr
  | some (.ok _, _), some (.error _, _), hr => simp [Sim.Rel] at hr

/-! ## Programs -/

/-- Operators 0 and 1 are `+` and `<`; external function 0, with the variable `print`: its arguments are logged, and the first one is
returned. -/
def envifyWorld : World Nat (List (List Nat)) String where
  truthy := (· != 0)
  op := fun n args => match n, args with
    | 0, [a, b] => .ok (a + b)
    | 1, [a, b] => .ok (if a < b then 1 else 0)
    | _, _ => .error (.user "no such operator")
  call := fun n args w => if n = 0 then (.ok (args.headD 0), w ++ [args]) else (.error (.user "no such function"), w)

/-- The variables of the programs below. -/
def envifyVars : List String := ["print", "f", "g", "x"]

/-- `print`; the others not assigned to. -/
def envifyInit : List (String × Option (Init Nat)) := [("print", some (.ext 0)), ("f", none), ("g", none), ("x", none)]

/-- A variable. -/
def envifyVar : Option (Option (Envify.Spec.Obs Nat)) → String
  | some (some v) => v.show
  | _ => "unassigned"

/-- Which exception is raised, if any. -/
def envifyErr {γ : Type} : Except (Err String) γ → String
  | .ok _ => "ok"
  | .error (.py .TypeError) => "TypeError"
  | .error (.py .AttributeError) => "AttributeError"
  | .error .nameError => "NameError"
  | .error .unmodelled => "stopped"
  | .error (.user e) => e
  | .error _ => "other"

/-- Which exception is raised, what is logged, and what is the value of `x` at the end: by the interpreter. -/
def envifySpec (careful : Bool) (b : List (Envify.St Nat)) : Option (String × List (List Nat) × String) :=
  (Spec.run careful envifyWorld 10 10 envifyVars b (start envifyInit [])).map fun r =>
    (envifyErr r.1, r.2.ext, envifyVar (look obs r.2 "x"))

/-- The same: by the expanded block. -/
def envifyRun (b : List (Envify.St Nat)) : Option (String × List (List Nat) × String) :=
  (Envify.run envifyWorld 10 10 envifyVars (expand b) (startI envifyInit [])).map fun r =>
    (envifyErr r.1, r.2.ext, envifyVar (look obsI r.2 "x"))

section
open Envify.Ex Envify.St

/-- Positional parameters only. -/
private abbrev pos (ps : List String) : Sig := ⟨ps, [], none⟩

/-- `def f(n): return lambda i: n := n + i`, `g = f(10)`, `print(g(1))`, `print(g(10))`, `print(f(5)(2))`, `x = g(0)`: an accumulator. -/
def envifyAcc : List (Envify.St Nat) :=
  [defn "f" (pos ["n"]) [] [.ret (lam (pos ["i"]) [] (asg "n" (op 0 [name "n", name "i"])))],
   assign "g" (call (name "f") [] [cst 10]),
   expr (call (name "print") [] [call (name "g") [] [cst 1]]),
   expr (call (name "print") [] [call (name "g") [] [cst 10]]),
   expr (call (name "print") [] [call (call (name "f") [] [cst 5]) [] [cst 2]]),
   assign "x" (call (name "g") [] [cst 0])]

example : envifySpec true envifyAcc = some ("ok", [[11], [21], [7]], "21") := by decide +kernel
example : envifyRun envifyAcc = some ("ok", [[11], [21], [7]], "21") := by decide +kernel

/-- `f = lambda a, b=1: [(a := a + c) for c in (1, 2, b)]`,
`def g(n, m=0): while n < 4: n += 1; def h(): nonlocal m; m = m + n; (y := n); return y; print(h())` and `return (n, m)`,
`x = (f(0), f(0, 5), g(2))`: defaults, a comprehension, a loop, `nonlocal`, and `:=` for a local variable. -/
def envifyMany : List (Envify.St Nat) :=
  [assign "f" (lam (pos ["a", "b"]) [.cst 1] (comp "c" (asg "a" (op 0 [name "a", name "c"])) (tup [cst 1, cst 2, name "b"]))),
   defn "g" (pos ["n", "m"]) [.cst 0]
    [.while (op 1 [name "n", cst 4])
      [aug "n" 0 (cst 1),
       defn "h" (pos []) [] [.nonlocal ["m"], assign "m" (op 0 [name "m", name "n"]), expr (asg "y" (name "n")), .ret (name "y")],
       expr (call (name "print") [] [call (name "h") [] []])],
     .ret (tup [name "n", name "m"])],
   assign "x" (tup [call (name "f") [] [cst 0], call (name "f") [] [cst 0, cst 5], call (name "g") [] [cst 2]])]

example : envifySpec true envifyMany = some ("ok", [[3], [4]], "((1, 3, 4), (1, 3, 8), (4, 7))") := by decide +kernel
example : envifyRun envifyMany = some ("ok", [[3], [4]], "((1, 3, 4), (1, 3, 8), (4, 7))") := by decide +kernel

/-- `def f(n, *rest, k): for i in rest: n += i; (k := k + i)`, `try: del m; m = m`, `except: print(k); m = 9`, `return (n, k, rest, m)`,
`g = lambda a, b=5, *, c: (c := c + a, b, c)`, `x = (f(1, 2, 3, k=10), g(c=7, a=1), g(1, c=2, b=3))`: `for`, `del`, an exception that is
caught, `*args`, and named arguments. -/
def envifyMore : List (Envify.St Nat) :=
  [defn "f" ⟨["n"], ["k"], some "rest"⟩ []
    [loop "i" (name "rest") [aug "n" 0 (name "i"), expr (asg "k" (op 0 [name "k", name "i"]))],
     attempt [del "m", assign "m" (name "m")] [expr (call (name "print") [] [name "k"]), assign "m" (cst 9)],
     .ret (tup [name "n", name "k", name "rest", name "m"])],
   assign "g" (lam ⟨["a", "b"], ["c"], none⟩ [.cst 5] (tup [asg "c" (op 0 [name "c", name "a"]), name "b", name "c"])),
   assign "x" (tup [call (name "f") ["k"] [cst 1, cst 2, cst 3, cst 10], call (name "g") ["c", "a"] [cst 7, cst 1],
     call (name "g") ["c", "b"] [cst 1, cst 2, cst 3]])]

example : envifySpec true envifyMore = some ("ok", [[15]], "((6, 15, (2, 3), 9), (8, 5, 8), (3, 3, 3))") := by decide +kernel
example : envifyRun envifyMore = some ("ok", [[15]], "((6, 15, (2, 3), 9), (8, 5, 8), (3, 3, 3))") := by decide +kernel

/-- `def f(a): for a in (1, 2): print(a)` and `return a`, `x = f(5)`: the variable of the loop is a parameter. -/
def envifyFor : List (Envify.St Nat) :=
  [defn "f" (pos ["a"]) [] [loop "a" (tup [cst 1, cst 2]) [expr (call (name "print") [] [name "a"])], .ret (name "a")],
   assign "x" (call (name "f") [] [cst 5])]

example : envifySpec true envifyFor = some ("ok", [[1], [2]], "2") := by decide +kernel
example : envifyRun envifyFor = some ("ok", [[1], [2]], "2") := by decide +kernel

/-- `def f(x): def g(): x = 1; return x` and `print(g()); return x`, `x = f(5)` -/
def envifyShadow : List (Envify.St Nat) :=
  [defn "f" (pos ["x"]) []
    [defn "g" (pos []) [] [assign "x" (cst 1), .ret (name "x")], expr (call (name "print") [] [call (name "g") [] []]), .ret (name "x")],
   assign "x" (call (name "f") [] [cst 5])]

/-- C97: refuted for a local variable with the name of a parameter of an enclosing function.  An assignment to it assigns to the
parameter of the enclosing function: here `f(5)` returns 1. -/
theorem C97_shadow_refuted : envifySpec false envifyShadow = some ("ok", [[1]], "5") ∧
    envifyRun envifyShadow = some ("ok", [[1]], "1") := by decide +kernel

/-- `def f(a): [a for a in (1, 2)]; return a`, `x = f(5)` -/
def envifyComp : List (Envify.St Nat) :=
  [defn "f" (pos ["a"]) [] [expr (comp "a" (name "a") (tup [cst 1, cst 2])), .ret (name "a")],
   assign "x" (call (name "f") [] [cst 5])]

/-- C97: refuted for comprehensions.  A comprehension whose variable has the name of a parameter assigns its items to the parameter:
with `def f(a): [a for a in (1, 2)]; return a`, `f(5)` returns 2. -/
theorem C97_comprehension_refuted : envifySpec false envifyComp = some ("ok", [], "5") ∧
    envifyRun envifyComp = some ("ok", [], "2") := by decide +kernel

/-- `def f(g): def g(): return 1` and `return g(7)`, `x = f(print)` -/
def envifyDef : List (Envify.St Nat) :=
  [defn "f" (pos ["g"]) [] [defn "g" (pos []) [] [.ret (cst 1)], .ret (call (name "g") [] [cst 7])],
   assign "x" (call (name "f") [] [name "print"])]

/-- C97: refuted for `def` with the name of a parameter.  The function that is defined is not seen; the name still means the
argument: here `g(7)` in `f(print)` calls `print`, where it should raise TypeError, as `g` has no parameters. -/
theorem C97_def_refuted : envifySpec false envifyDef = some ("TypeError", [], "unassigned") ∧
    envifyRun envifyDef = some ("ok", [[7]], "7") := by decide +kernel

/-- `x = 1`, `f = lambda x=x: x`, `x = f()` -/
def envifyDefault : List (Envify.St Nat) :=
  [assign "x" (cst 1), assign "f" (lam (pos ["x"]) [.name "x"] (name "x")), assign "x" (op 0 [call (name "f") [] [], cst 1])]

/-- C97: refuted for defaults.  A default that mentions a variable with the name of a parameter (as in the idiom `lambda x=x: ...`)
raises NameError when the function is defined. -/
theorem C97_default_refuted : envifySpec false envifyDefault = some ("ok", [], "2") ∧
    envifyRun envifyDefault = some ("NameError", [], "1") := by decide +kernel

/-- `def f(a): del a` and `return a`, `x = f(5)` -/
def envifyDel : List (Envify.St Nat) :=
  [defn "f" (pos ["a"]) [] [del "a", .ret (name "a")], assign "x" (call (name "f") [] [cst 5])]

/-- `def f(a): del a; (a := 1)` and `return a`, `x = f(5)` -/
def envifyDelSet : List (Envify.St Nat) :=
  [defn "f" (pos ["a"]) [] [del "a", expr (asg "a" (cst 1)), .ret (name "a")], assign "x" (call (name "f") [] [cst 5])]

/-- `def f(a): del a` and `del a`, `x = f(5)` -/
def envifyDelTwice : List (Envify.St Nat) :=
  [defn "f" (pos ["a"]) [] [del "a", del "a"], assign "x" (call (name "f") [] [cst 5])]

/-- C97: refuted for parameters that have been deleted.  Use of a deleted parameter, and deleting it again, raise AttributeError instead of
NameError; and after `del a`, the assignment `a := 1` raises AttributeError too, where Python assigns. -/
theorem C97_del_refuted :
    (envifySpec false envifyDel = some ("NameError", [], "unassigned") ∧
      envifyRun envifyDel = some ("AttributeError", [], "unassigned")) ∧
    (envifySpec false envifyDelTwice = some ("NameError", [], "unassigned") ∧
      envifyRun envifyDelTwice = some ("AttributeError", [], "unassigned")) ∧
    envifySpec false envifyDelSet = some ("ok", [], "1") ∧
    envifyRun envifyDelSet = some ("AttributeError", [], "unassigned") :=
  ⟨by decide +kernel, by decide +kernel, by decide +kernel, by decide +kernel⟩

/-- `def f(a): return a`, `x = f(1)`, with `a` a given name -/
def envifyName (a : String) : List (Envify.St Nat) :=
  [defn "f" (pos [a]) [] [.ret (name a)], assign "x" (call (name "f") [] [cst 1])]

/-- `f = lambda a: a`, `x = f(1)`, with `a` a given name -/
def envifyNameLam (a : String) : List (Envify.St Nat) :=
  [assign "f" (lam (pos [a]) [] (name a)), assign "x" (call (name "f") [] [cst 1])]

/-- C97: refuted for a parameter named `self`.  A call of such a function raises TypeError, so that methods are not possible in a
`with envify` block; likewise for `cls` in a `def`. -/
theorem C97_self_refuted :
    (envifySpec false (envifyName "self") = some ("ok", [], "1") ∧
      envifyRun (envifyName "self") = some ("TypeError", [], "unassigned")) ∧
    envifyRun (envifyNameLam "self") = some ("TypeError", [], "unassigned") ∧
    envifyRun (envifyName "cls") = some ("TypeError", [], "unassigned") :=
  ⟨by decide +kernel, by decide +kernel, by decide +kernel⟩

/-- C97: refuted for a parameter with a name that environments reserve: `set`, `clear`, `finalize`.  For a `def`, a call raises
AttributeError; for a lambda, the name means a method of the environment instead of the argument. -/
theorem C97_reserved_refuted : ∀ a ∈ ["set", "clear", "finalize"],
    envifySpec false (envifyName a) = some ("ok", [], "1") ∧
    envifyRun (envifyName a) = some ("AttributeError", [], "unassigned") ∧
    envifyRun (envifyNameLam a) = some ("ok", [], "<bound method>") := by
  intro a ha
  simp only [List.mem_cons, List.not_mem_nil, or_false] at ha
  rcases ha with rfl | rfl | rfl <;> exact ⟨by decide +kernel, by decide +kernel, by decide +kernel⟩

/-- C97: refuted for a parameter with the name of a method of environments, as `items` or `values`.  In the body of the function the name means
that method instead of the argument; no error is raised. -/
theorem C97_method_refuted : ∀ a ∈ ["items", "keys", "values", "get", "pop", "popitem", "update", "setdefault"],
    envifySpec false (envifyName a) = some ("ok", [], "1") ∧
    envifyRun (envifyName a) = some ("ok", [], "<bound method>") ∧
    envifyRun (envifyNameLam a) = some ("ok", [], "<bound method>") := by
  intro a ha
  simp only [List.mem_cons, List.not_mem_nil, or_false] at ha
  rcases ha with rfl | rfl | rfl | rfl | rfl | rfl | rfl | rfl <;> exact ⟨by decide +kernel, by decide +kernel, by decide +kernel⟩

/-! In all these, the careful interpreter stops. -/

example : (envifySpec true envifyShadow).map (·.1) = some "stopped" ∧ (envifySpec true envifyComp).map (·.1) = some "stopped" ∧
    (envifySpec true envifyDef).map (·.1) = some "stopped" ∧ (envifySpec true envifyDefault).map (·.1) = some "stopped" ∧
    (envifySpec true envifyDel).map (·.1) = some "stopped" ∧
    (envifySpec true (envifyName "values")).map (·.1) = some "stopped" := by decide +kernel

end

end Unpy.Props
