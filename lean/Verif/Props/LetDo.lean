import Verif.Proof.LetDoClash
import Verif.Proof.LetDoInv
/-!
# C87: `let`, `letrec` and `do` make lexically scoped variables;  C88: the macros built on them
-/
namespace Unpy.Props
open Unpy Unpy.PyExpr Unpy.LetDo
open Unpy.Spec.LetDo (Wf Usable NoClash program python Glob Obs)

variable {β ω ε : Type}

/-- C87, for programs that keep to the conditions `Wf`.  If the macros expand, then running the expansion has the same
outcome (result or exception, and side effects, and not ending) as the program has by the rules of lexical scoping.
(Missing: programs that do not keep to them, see `C87_shadow_refuted`, `C87_default_refuted`, `C87_method_name_refuted` and `C87_local_rhs_refuted`.) -/
theorem C87_scoping_partial (P : World β ω ε) (t t' : Ex β) (hw : Wf P t) (m c : Nat) (h : expand m t 0 = .ok (t', c))
    (n : Nat) (globals : String → Option (Glob β)) (w : ω) :
    python P n globals t' w = program P n globals t w :=
  program_eq hw h n globals w

/-- The macros expand exactly if no `do` redeclares a name, and no item of a `do` contains a `let`, `letrec` or `do` that has
a name of the outer `do` as a variable. -/
theorem C87_expands_iff (P : World β ω ε) (t : Ex β) (hw : Wf P t) (c : Nat) :
    (∃ m r, expand m t c = .ok r) ↔ NoClash t :=
  expands_iff hw c

/-- Otherwise there is a SyntaxError (whatever the bound on the depth of the expansion, if large enough). -/
theorem C87_syntax_error (P : World β ω ε) (t : Ex β) (hw : Wf P t) (h : ¬ NoClash t) :
    ∃ k, ∀ n c, k ≤ n → expand n t c = .error .syntaxError :=
  ⟨size t, fun n c hn => expand_error hw h n c hn⟩

/-! ### A world for the examples: numbers, `print` and `add` -/

namespace LetDoDemo

def world : World Nat (List Nat) String where
  truthy n := n != 0
  call k bs w := match k, bs with
    | 0, [b] => (.ok 0, w ++ [b])
    | 1, [a, b] => (.ok (a + b), w)
    | _, _ => (.error (.user "bad call"), w)
  classAttr x := x == "items"

def globals : String → Option (Glob Nat)
  | "print" => some (.ext 0)
  | "add" => some (.ext 1)
  | _ => none

def v (x : String) : Ex Nat := .name (.user x)

/-- `let[x := 10][let[f := lambda: x := add(x, 1)][(f(), f(), x)]]` -/
def counter : Ex Nat := .letx false ["x"] [.cst 10]
  (.letx false ["f"] [.lam [] [] (.assign (.user "x") (.call (v "add") [v "x", .cst 1]))]
    (.tup [.call (v "f") [], .call (v "f") [], v "x"]))

/-- `do[local[x := 17], print(x), x := 23, local[f := lambda y: add(x, y)], delete[x], let[z := 1][f(z)]]` -/
def script : Ex Nat := .doe [.loc ["x"], .loc [], .loc [], .loc ["f"], .del "x", .loc []]
  [.cst 17, .call (v "print") [v "x"], .assign (.user "x") (.cst 23), .lam [.user "y"] [] (.call (v "add") [v "x", v "y"]),
   v "x", .letx false ["z"] [.cst 1] (v "z")]

/-- `do[local[x := 17], let[x := 23][print(x)], print(x)]`, the example of the documentation (letdo.py:781-784) -/
def shadow : Ex Nat := .doe [.loc ["x"], .loc [], .loc []]
  [.cst 17, .letx false ["x"] [.cst 23] (.call (v "print") [v "x"]), .call (v "print") [v "x"]]

/-- `let[x := 1][(lambda x=x: x)()]` -/
def default : Ex Nat := .letx false ["x"] [.cst 1] (.call (.lam [.user "x"] [v "x"] (v "x")) [])

/-- `let[items := 1][items]` -/
def items : Ex Nat := .letx false ["items"] [.cst 1] (v "items")

/-- `let[x := 1][(do[local[x := (x := 5)], x], x)]` -/
def rhs : Ex Nat := .letx false ["x"] [.cst 1]
  (.tup [.doe [.loc ["x"], .loc []] [.assign (.user "x") (.cst 5), v "x"], v "x"])

end LetDoDemo

open LetDoDemo

example : Wf world counter := by
  simp [counter, v, Wf, Spec.LetDo.Wfs, Usable, world, Spec.LetDo.readsAny]
example : ∃ t', expand 20 counter 0 = .ok (t', 2) ∧
    python world 9 globals t' [] = some (.ok (some (.tup [.base 11, .base 12, .base 12])), []) := ⟨_, rfl, rfl⟩
example : program world 9 globals counter [] = some (.ok (some (.tup [.base 11, .base 12, .base 12])), []) := rfl

example : Wf world script ∧ NoClash script := by
  simp [script, v, Wf, Spec.LetDo.Wfs, Spec.LetDo.WfItems, Usable, world, Spec.LetDo.readsAny, Spec.LetDo.assigns,
    Spec.LetDo.assignsAny, NoClash, Spec.LetDo.NoClashes, Spec.LetDo.NoClashItems, Spec.LetDo.rebinds, Spec.LetDo.rebindsAny]
example : program world 9 globals script [] = some (.ok (some (.base 1)), [17]) := rfl

/-- The documentation's example of a `let` in a `do` that shadows a name of the `do` (it should print 23 and 17) does not
expand: it raises SyntaxError. -/
theorem C87_shadow_refuted : Wf world shadow ∧
    program world 9 globals shadow [] = some (.ok (some (.base 0)), [23, 17]) ∧
    ∃ k, ∀ n c, k ≤ n → expand n shadow c = .error .syntaxError := by
  have hw : Wf world shadow := by
    simp [shadow, v, Wf, Spec.LetDo.Wfs, Spec.LetDo.WfItems, Usable, world, Spec.LetDo.assigns]
  refine ⟨hw, rfl, C87_syntax_error world shadow hw ?_⟩
  simp [shadow, v, NoClash, Spec.LetDo.NoClashes, Spec.LetDo.NoClashItems, Spec.LetDo.rebinds, Spec.LetDo.rebindsAny]

/-- In `let[x := 1][(lambda x=x: x)()]` the default of the parameter is not the `x` of the `let`: the expansion raises
NameError (or takes a global `x`), though by the rules of scoping the result is 1. -/
theorem C87_default_refuted : ∃ t' c, expand 9 default 0 = .ok (t', c) ∧
    program world 9 globals default [] = some (.ok (some (.base 1)), []) ∧
    python world 9 globals t' [] = some (.error .nameError, []) :=
  ⟨_, _, rfl, rfl, rfl⟩

/-- A variable may have the name of a method of `env` (as far as it is not reserved), but then reading it yields the
method: `let[items := 1][items]` is not 1, and not even an object of the program. -/
theorem C87_method_name_refuted : ∃ t' c, expand 9 items 0 = .ok (t', c) ∧
    program world 9 globals items [] = some (.ok (some (.base 1)), []) ∧
    python world 9 globals t' [] = some (.ok none, []) :=
  ⟨_, _, rfl, rfl, rfl⟩

/-- In `local[x := (x := 5)]` the inner assignment goes to the new variable, although "the old bindings are still in effect on
the RHS" (letdo.py:641-645): the outer `x` keeps its value 1. -/
theorem C87_local_rhs_refuted : ∃ t' c, expand 9 rhs 0 = .ok (t', c) ∧
    program world 9 globals rhs [] = some (.ok (some (.tup [.base 5, .base 5])), []) ∧
    python world 9 globals t' [] = some (.ok (some (.tup [.base 5, .base 1])), []) :=
  ⟨_, _, rfl, rfl, rfl⟩

/-! ## C88 -/

/-- C88, `cond`: it evaluates the tests in order, up to the first that is true, and then only what belongs to that. -/
theorem C88_cond (P : World β ω ε) (ap : Spec.LetDo.Val β → List (Spec.LetDo.Val β) → M (Spec.LetDo.St β ω) ε (Spec.LetDo.Val β))
    (ρ : Name → Option (Spec.LetDo.Ref β)) : ∀ (ts : List (Ex β)) (t : Ex β), LetDo.cond ts = .ok t →
    Spec.LetDo.eval P ap ρ t = Spec.LetDo.cond P ap ρ ts
  | [], t, h => by simp [LetDo.cond] at h
  | [t'], t, h => by simp only [LetDo.cond, Except.ok.injEq] at h; subst h; rfl
  | c :: y :: more, t, h => by
    simp only [LetDo.cond] at h
    split at h
    · cases h
    · rename_i e he
      cases h
      have ih := C88_cond P ap ρ more e he
      simp only [Spec.LetDo.eval, Spec.LetDo.cond, ih]

/-- `cond` is accepted exactly if it has an odd number of parts. -/
theorem C88_cond_syntax : ∀ (ts : List (Ex β)), (∃ t, LetDo.cond ts = .ok t) ↔ ts.length % 2 = 1
  | [] => by simp [LetDo.cond]
  | [t'] => by simp [LetDo.cond]
  | c :: y :: more => by
    have ih := C88_cond_syntax more
    have hl : (c :: y :: more).length % 2 = more.length % 2 := by simp only [List.length_cons]; omega
    rw [hl, ← ih]
    simp only [LetDo.cond]
    cases LetDo.cond more <;> simp

example : ∃ t, LetDo.cond [v "a", .cst 1, .cst 3, .cst 2, v "b"] = .ok t ∧
    Spec.LetDo.program world 9 (fun x => if x = "a" then some (.base 0) else none) t [] = some (.ok (some (.base 2)), []) :=
  ⟨_, rfl, rfl⟩

/-- C88, `letseq`: each value is evaluated in the scope of the variables before it. -/
theorem C88_letseq (P : World β ω ε) : ∀ (n : Nat) (ρ : Name → Option (Spec.LetDo.Ref β)) (xs : List String)
    (vs : List (Ex β)) (b : Ex β), xs.length = vs.length →
    Spec.LetDo.eval P (Spec.LetDo.apply P n) ρ (LetDo.letseq xs vs b) = Spec.LetDo.letseq P n ρ xs vs b
  | n, ρ, [], [], b, _ => by simp [LetDo.letseq, Spec.LetDo.letseq]
  | n + 1, ρ, x :: xs, w :: vs, b, h => by
    have ih := fun ρ' => C88_letseq P n ρ' xs vs b (by simpa using h)
    simp only [LetDo.letseq, Spec.LetDo.letseq, Spec.LetDo.eval, Spec.LetDo.evals, Spec.LetDo.run, sapply_succ, ← ih]
    funext s
    simp only [PyExpr.bind, ret, params, extend]
    cases Spec.LetDo.eval P (Spec.LetDo.apply P (n + 1)) ρ w s with
    | none => rfl
    | some r => obtain ⟨_ | _, _⟩ := r <;> rfl
  | 0, ρ, x :: xs, w :: vs, b, h => by
    simp only [LetDo.letseq, Spec.LetDo.letseq, Spec.LetDo.eval, Spec.LetDo.evals, Spec.LetDo.run, sapply_zero]
    funext s
    simp only [PyExpr.bind, ret]
    cases Spec.LetDo.eval P (Spec.LetDo.apply P 0) ρ w s with
    | none => rfl
    | some r => obtain ⟨_ | _, _⟩ := r <;> rfl

example : program world 9 globals (LetDo.letseq ["x", "x"] [.cst 1, .call (v "add") [v "x", .cst 2]] (v "x")) [] =
    some (.ok (some (.base 3)), []) := rfl

/-- C88, `aif`: the test is evaluated once, and `it` is its value in the part chosen (and not in the test). -/
theorem C88_aif (P : World β ω ε) (n : Nat) (ρ : Name → Option (Spec.LetDo.Ref β)) (test yes no : Ex β) :
    Spec.LetDo.eval P (Spec.LetDo.apply P (n + 1)) ρ (LetDo.aif test yes no) = Spec.LetDo.aif P n ρ test yes no := by
  simp only [LetDo.aif, Spec.LetDo.aif, Spec.LetDo.eval, Spec.LetDo.evals, Spec.LetDo.run, sapply_succ]
  funext s
  simp only [PyExpr.bind, ret, params, extend]
  cases Spec.LetDo.eval P (Spec.LetDo.apply P (n + 1)) ρ test s with
  | none => rfl
  | some r =>
    obtain ⟨_ | w, s'⟩ := r
    · rfl
    · simp [Spec.LetDo.new, Spec.LetDo.scope, Spec.LetDo.read, Spec.LetDo.getFrame, PyExpr.bind, ret, Spec.LetDo.eval]

example : program world 9 globals (LetDo.aif (.call (v "add") [.cst 1, .cst 2]) (.tup [v "it", v "it"]) (.cst 0)) [] =
    some (.ok (some (.tup [.base 3, .base 3])), []) := rfl

/-- C88, `do0`: if it returns a value, that is the value of the first item (whatever the other items do, and whatever
functions they call), provided that the program does not use the name `_do0_result` itself.  `Scoped` holds whenever a program
gets there (`C88_scoped`, `C88_scoped_start`). -/
theorem C88_do0 (P : World β ω ε) (n : Nat) (ρ : Name → Option (Spec.LetDo.Ref β)) (tags : List Tag) (ts : List (Ex β))
    (xs : List String) (t t' : Ex β) (hd : LetDo.do0 (.loc xs :: tags) (t :: ts) = .ok t') (hl : ts.length = tags.length)
    (hu : Spec.LetDo.Untouched "_do0_result" (.loc xs :: tags) (t :: ts)) (s s' : Spec.LetDo.St β ω) (w : Spec.LetDo.Val β)
    (hs : Spec.LetDo.Scoped ρ s) (h : Spec.LetDo.eval P (Spec.LetDo.apply P n) ρ t' s = some (.ok w, s')) :
    ∃ s1, Spec.LetDo.run (Spec.LetDo.apply P n) ρ t { s with frames := s.frames ++ [⟨true, fun _ => none⟩] } =
      some (.ok w, s1) := by
  obtain ⟨h1, h2⟩ := hu
  simp only [Spec.LetDo.assignsAny, Bool.or_eq_false_iff] at h2
  exact do0_value hd hl rfl (h1 (.loc xs) (by simp)) (fun t ht => h1 t (by simp [ht])) h2.2 h2.1 hs h

/-- Evaluation keeps the environment and the state scoped. -/
theorem C88_scoped (P : World β ω ε) (n : Nat) (ρ : Name → Option (Spec.LetDo.Ref β)) (t : Ex β) (s s' : Spec.LetDo.St β ω)
    (o : Except (Err ε) (Spec.LetDo.Val β)) (hs : Spec.LetDo.Scoped ρ s)
    (h : Spec.LetDo.eval P (Spec.LetDo.apply P n) ρ t s = some (o, s')) :
    Spec.LetDo.Scoped ρ s' ∧ ∀ v, o = .ok v → Spec.LetDo.Within s'.frames.length v :=
  scoped_eval hs h

/-- A program starts in a scoped state. -/
theorem C88_scoped_start (globals : String → Option (Glob β)) (w : ω) :
    Spec.LetDo.Scoped (fun x => match x with
      | .user y => (globals y).map (fun g => match g with | .base b => .val (.base b) | .ext k => .val (.ext k))
      | .gen _ => none) (⟨[], w⟩ : Spec.LetDo.St β ω) := by
  refine ⟨fun x i h => ?_, fun x v h => ?_, fun f hf => by simp at hf⟩
  · cases x with
    | gen n => cases h
    | user y => cases hg : globals y with
      | none => simp [hg] at h
      | some g => cases g <;> simp [hg] at h
  · cases x with
    | gen n => cases h
    | user y => cases hg : globals y with
      | none => simp [hg] at h
      | some g => cases g <;> simp [hg] at h <;> subst h <;> constructor

example : ∃ t, LetDo.do0 [.loc ["x"], .loc [], .loc []]
      [.cst 5, .assign (.user "x") (.cst 6), .call (v "print") [v "x"]] = .ok t ∧
    Spec.LetDo.Untouched "_do0_result" [.loc ["x"], .loc [], .loc []]
      [.cst 5, .assign (.user "x") (.cst 6), .call (v "print") [v "x"]] ∧
    program world 9 globals t [] = some (.ok (some (.base 5)), [6]) :=
  ⟨_, rfl, by simp [Spec.LetDo.Untouched, Spec.LetDo.assignsAny, Spec.LetDo.assigns, v], rfl⟩

/-- The condition is needed: `do0[1, _do0_result := 2]` is 2. -/
example : ∃ t, LetDo.do0 [.loc [], .loc []] [.cst 1, .assign (.user "_do0_result") (.cst 2)] = .ok t ∧
    program world 9 globals t [] = some (.ok (some (.base 2)), []) := ⟨_, rfl, rfl⟩

end Unpy.Props
