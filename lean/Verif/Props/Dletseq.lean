import Verif.Proof.Dletseq
/-! # C117: `dletseq` and `bletseq` are `letseq` over a function definition -/
namespace Unpy.Props
open Unpy.Dletseq (E S St runCalls define callBody stores decorate expand bletseq_eq single_eq calm_eq)
open Unpy.Spec.Dletseq (Chain Written Calm Source Silent sets reads assigned expOf)

/-- C117: `bletseq`: for all bindings, one or more, all other decorators, and all bodies: the name is bound to what the body returns with the values bound one after the other, each of which sees those
before it; everything that is printed, all errors and the decorators come in the order of the program. -/
theorem C117_bletseq (bindings : List (String × E)) (decos : List String) (body : List S) (g : String → Option Int) (hne : bindings ≠ [])
    (hb : Chain [] bindings) (hw : Written (bindings.map Prod.fst).reverse body) :
    Unpy.Dletseq.runB bindings decos body g = Unpy.Spec.Dletseq.runB bindings decos body g := by
  cases bindings with
  | nil => exact absurd rfl hne
  | cons b bs => exact bletseq_eq b bs decos body g hb hw

/-- C117: `dletseq` with one binding, for all functions, decorators and sequences of calls: the value is computed once, at the definition, and the variable keeps what is assigned to it from call to call.
Missing: a parameter with the name of the variable, `C117_parameter_refuted`; more bindings, `C117_calm_partial`. -/
theorem C117_single_partial (x : String) (v : E) (params decos : List String) (body : List S) (g : String → Option Int) (calls : List ((String → Option Int) × List Int))
    (hb : Chain [] [(x, v)]) (hw : Written [x] body) (hx : x ∉ params) :
    Unpy.Dletseq.runD [(x, v)] params decos body g calls = Unpy.Spec.Dletseq.runD [(x, v)] params decos body g calls :=
  single_eq x v params decos body g calls hb hw hx

/-- C117: `dletseq` with more bindings, for all functions and all sequences of calls, if the values of all bindings but the first are calm: they depend on the variables before them only, and computing
them does nothing else; if no let variable is assigned to; if no parameter has the name of a let variable, and none is assigned to; and without other decorators.  Missing: all else, see the refutations. -/
theorem C117_calm_partial (first : String × E) (rest : List (String × E)) (params : List String) (body : List S) (g : String → Option Int)
    (calls : List ((String → Option Int) × List Int)) (hv : Source first.2 ∧ sets first.2 = []) (hcalm : Calm [first.1] rest)
    (hw : Written ((first :: rest).map Prod.fst).reverse body) (h0 : ∀ st ∈ body, sets (expOf st) = [])
    (hps : ∀ y ∈ (first :: rest).map Prod.fst, y ∉ params) (hst : ∀ y ∈ assigned body, y ∉ params) :
    Unpy.Dletseq.runD (first :: rest) params [] body g calls = Unpy.Spec.Dletseq.runD (first :: rest) params [] body g calls := by
  obtain ⟨x, v⟩ := first
  cases rest with
  | nil => exact single_eq x v params [] body g calls ⟨hv.1, by rw [hv.2]; simp, trivial⟩ (by simpa using hw) (hps x (by simp))
  | cons p fwd => exact calm_eq x v p fwd params body g calls hv hcalm hw h0 hps hst

private def noGlobals : String → Option Int := fun _ => none

/-- C117 is violated: with more than one binding, what a call assigns to a let variable (but the first) is forgotten.  `@dletseq[x := 0, y := x]` `def f(): (y := y + 1); return y` gives 1 each time; with
the one binding `y := 0`, it counts. -/
theorem C117_state_refuted :
    Chain [] [("x", .int 0), ("y", .var "x")] ∧ Written ["y", "x"] [.expr (.set "y" (.add (.var "y") (.int 1))), .ret (.var "y")] ∧
    Unpy.Dletseq.runD [("x", .int 0), ("y", .var "x")] [] [] [.expr (.set "y" (.add (.var "y") (.int 1))), .ret (.var "y")] noGlobals [(noGlobals, []), (noGlobals, [])] =
      (.ok [.ok (some 1), .ok (some 1)], []) ∧
    Unpy.Spec.Dletseq.runD [("x", .int 0), ("y", .var "x")] [] [] [.expr (.set "y" (.add (.var "y") (.int 1))), .ret (.var "y")] noGlobals [(noGlobals, []), (noGlobals, [])] =
      (.ok [.ok (some 1), .ok (some 2)], []) := by
  refine ⟨by simp [Chain, Source, sets], ?_, by rfl, by rfl⟩
  simp [Written, assigned, expOf, Source, sets]

/-- C117 is violated: the values of all bindings but the first are computed in each call, and not at all at the definition. -/
theorem C117_once_refuted (calls : Nat) :
    Chain [] [("x", .int 1), ("y", .show (.var "x"))] ∧ Written ["y", "x"] [.ret (.var "y")] ∧
    (Unpy.Dletseq.runD [("x", .int 1), ("y", .show (.var "x"))] [] [] [.ret (.var "y")] noGlobals (List.replicate calls (noGlobals, []))).2 = List.replicate calls (.shown 1) ∧
    (Unpy.Spec.Dletseq.runD [("x", .int 1), ("y", .show (.var "x"))] [] [] [.ret (.var "y")] noGlobals (List.replicate calls (noGlobals, []))).2 = [.shown 1] := by
  refine ⟨by simp [Chain, Source, sets], by simp [Written, assigned, expOf, Source, sets], ?_, ?_⟩
  · have key : ∀ (n : Nat) (s : St), s.heap[0]? = some 1 →
        (runCalls [(1, 0)] (.mk [] [] (some (1, "x", .int 1)) (.inner (.mk [] [] (some (0, "y", .show (.envget 1 "x"))) (.user [.ret (.envget 0 "y")])) true))
          (List.replicate n (noGlobals, [])) s).2.trace = s.trace ++ List.replicate n (.shown 1) := by
      intro n
      induction n with
      | zero => intro s _; simp [runCalls]
      | succ n ih =>
        intro s hs
        simp only [List.replicate_succ, runCalls]
        rw [ih]
        · simp [Unpy.Dletseq.call, callBody, define, Unpy.Dletseq.eval, List.lookup, hs, Unpy.Dletseq.exec, stores, decorate]
        · have hlt := (List.getElem?_eq_some_iff.1 hs).1
          simp [Unpy.Dletseq.call, callBody, define, Unpy.Dletseq.eval, List.lookup, hs, Unpy.Dletseq.exec, stores, decorate]
          rw [List.getElem_append_left hlt]; exact (List.getElem?_eq_some_iff.1 hs).2
    have hx : expand true [("x", .int 1), ("y", .show (.var "x"))] [] [] [.ret (.var "y")] =
        .mk [] [] (some (1, "x", .int 1)) (.inner (.mk [] [] (some (0, "y", .show (.envget 1 "x"))) (.user [.ret (.envget 0 "y")])) true) := by rfl
    simp only [Unpy.Dletseq.runD, hx, define, Unpy.Dletseq.eval]
    exact (key calls (decorate [] { heap := [1] }) rfl).trans (by simp [decorate])
  · have key : ∀ (n : Nat) (ls : Unpy.Spec.Dletseq.Vars), (Unpy.Spec.Dletseq.calls [] [.ret (.var "y")] (List.replicate n (noGlobals, [])) ls).2 = [] := by
      intro n
      induction n with
      | zero => intro ls; rfl
      | succ n ih =>
        intro ls
        simp only [List.replicate_succ, Unpy.Spec.Dletseq.calls, Unpy.Spec.Dletseq.call, List.length_nil, if_true, Unpy.Spec.Dletseq.exec, Unpy.Spec.Dletseq.eval]
        obtain ⟨r, hr⟩ : ∃ r, Unpy.Spec.Dletseq.name noGlobals ([] ++ assigned [.ret (.var "y")]) (fun x => List.lookup x (([] : List String).zip ([] : List Int))) ls "y" = r := ⟨_, rfl⟩
        rw [hr]
        cases r <;> simp [ih]
    have := key calls [("y", 1), ("x", 1)]
    simp [Unpy.Spec.Dletseq.runD, Unpy.Spec.Dletseq.bind, Unpy.Spec.Dletseq.eval, Unpy.Spec.Dletseq.name, List.lookup, this]

/-- C117 is violated: a let variable hides a parameter of the same name (with `dlet`, the parameter hides the let variable): `@dletseq[x := 1]` `def f(x): return x` gives 1, whatever the argument. -/
theorem C117_parameter_refuted (n : Int) :
    Chain [] [("x", .int 1)] ∧ Written ["x"] [.ret (.var "x")] ∧
    Unpy.Dletseq.runD [("x", .int 1)] ["x"] [] [.ret (.var "x")] noGlobals [(noGlobals, [n])] = (.ok [.ok (some 1)], []) ∧
    Unpy.Spec.Dletseq.runD [("x", .int 1)] ["x"] [] [.ret (.var "x")] noGlobals [(noGlobals, [n])] = (.ok [.ok (some n)], []) := by
  refine ⟨by simp [Chain, Source, sets], by simp [Written, assigned, expOf, Source, sets], rfl, rfl⟩

/-- C117 is violated: with more than one binding, a parameter that the body assigns to has no value: UnboundLocalError. -/
theorem C117_assigned_parameter_refuted (n : Int) :
    Calm ["a"] [("b", .int 2)] ∧ Written ["b", "a"] [.assign "x" (.add (.var "x") (.int 1)), .ret (.var "x")] ∧
    Unpy.Dletseq.runD [("a", .int 1), ("b", .int 2)] ["x"] [] [.assign "x" (.add (.var "x") (.int 1)), .ret (.var "x")] noGlobals [(noGlobals, [n])] = (.ok [.error .unboundLocal], []) ∧
    Unpy.Spec.Dletseq.runD [("a", .int 1), ("b", .int 2)] ["x"] [] [.assign "x" (.add (.var "x") (.int 1)), .ret (.var "x")] noGlobals [(noGlobals, [n])] = (.ok [.ok (some (n + 1))], []) := by
  refine ⟨by simp [Calm, Source, Silent, sets, reads], ?_, rfl, rfl⟩
  simp [Written, assigned, expOf, Source, sets]

/-- C117 is violated: the values of all bindings but the first see the parameters, not the names outside of the function. -/
theorem C117_scope_refuted (n m : Int) :
    Chain [] [("a", .int 1), ("b", .var "x")] ∧ Written ["b", "a"] [.ret (.var "b")] ∧
    Unpy.Dletseq.runD [("a", .int 1), ("b", .var "x")] ["x"] [] [.ret (.var "b")] (fun _ => some m) [(fun _ => some m, [n])] = (.ok [.ok (some n)], []) ∧
    Unpy.Spec.Dletseq.runD [("a", .int 1), ("b", .var "x")] ["x"] [] [.ret (.var "b")] (fun _ => some m) [(fun _ => some m, [n])] = (.ok [.ok (some m)], []) := by
  refine ⟨by simp [Chain, Source, sets], by simp [Written, assigned, expOf, Source, sets], rfl, rfl⟩

/-- C117 is violated: with more than one binding, the other decorators are not applied to the function, but to a function inside it, in each call. -/
theorem C117_decorators_refuted :
    Calm ["a"] [("b", .int 2)] ∧ Written ["b", "a"] [.ret (.var "b")] ∧
    (Unpy.Dletseq.runD [("a", .int 1), ("b", .int 2)] [] ["d"] [.ret (.var "b")] noGlobals []).2 = [] ∧
    (Unpy.Dletseq.runD [("a", .int 1), ("b", .int 2)] [] ["d"] [.ret (.var "b")] noGlobals [(noGlobals, []), (noGlobals, [])]).2 = [.applied "d", .applied "d"] ∧
    (Unpy.Spec.Dletseq.runD [("a", .int 1), ("b", .int 2)] [] ["d"] [.ret (.var "b")] noGlobals []).2 = [.applied "d"] ∧
    (Unpy.Spec.Dletseq.runD [("a", .int 1), ("b", .int 2)] [] ["d"] [.ret (.var "b")] noGlobals [(noGlobals, []), (noGlobals, [])]).2 = [.applied "d"] := by
  refine ⟨by simp [Calm, Source, Silent, sets, reads], by simp [Written, assigned, expOf, Source, sets], ?_⟩
  exact ⟨rfl, rfl, rfl, rfl⟩

/-! ## The hypotheses are met -/

-- @bletseq[x := show(1), x := x + 1, y := (x := x + 5) + g] def r(): z = x + y; return z
example : Chain [] [("x", .show (.int 1)), ("x", .add (.var "x") (.int 1)), ("y", .add (.set "x" (.add (.var "x") (.int 5))) (.var "g"))] := by simp [Chain, Source, sets]
example : Written ["y", "x", "x"] [.assign "z" (.add (.var "x") (.var "y")), .ret (.var "z")] := by simp [Written, assigned, expOf, Source, sets]
example : Unpy.Dletseq.runB [("x", .show (.int 1)), ("x", .add (.var "x") (.int 1)), ("y", .add (.set "x" (.add (.var "x") (.int 5))) (.var "g"))] ["d"]
    [.assign "z" (.add (.var "x") (.var "y")), .ret (.var "z")] (fun _ => some 100) = (.ok (some 114), [.shown 1, .applied "d"]) := by rfl
-- @dletseq[n := 0] def f(k): (n := n + k); return n
example : Unpy.Dletseq.runD [("n", .show (.int 0))] ["k"] ["d"] [.expr (.set "n" (.add (.var "n") (.var "k"))), .ret (.var "n")] noGlobals
    [(noGlobals, [3]), (noGlobals, []), (noGlobals, [4])] = (.ok [.ok (some 3), .error .type, .ok (some 7)], [.shown 0, .applied "d"]) := by rfl
-- @dletseq[x := show(1), x := x + 1, x := x + 2] def f(k): z = k + x; return z
example : Calm ["x"] [("x", .add (.var "x") (.int 1)), ("x", .add (.var "x") (.int 2))] := by simp [Calm, Source, Silent, sets, reads]
example : Unpy.Dletseq.runD [("x", .show (.int 1)), ("x", .add (.var "x") (.int 1)), ("x", .add (.var "x") (.int 2))] ["k"] [] [.assign "z" (.add (.var "k") (.var "x")), .ret (.var "z")] noGlobals
    [(noGlobals, [10]), (noGlobals, [20])] = (.ok [.ok (some 14), .ok (some 24)], [.shown 1]) := by rfl

end Unpy.Props
