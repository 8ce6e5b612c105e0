import Verif.Proof.Multilambda
import Verif.Props.LetDo
/-!
# C149: `with multilambda`
-/
namespace Unpy.Props
open Unpy Unpy.PyExpr Unpy.Multilambda
open Unpy.Spec.LetDo (Glob python)

variable {β ω ε : Type}

/-- C149: running the block after the expansion of all macros has the outcome that the program has if a lambda with a body in
brackets runs the items in order, in the scope of its parameters, with local variables, and returns the value of the last; all
other brackets are lists.  (Missing: programs that do not keep to the conditions `Wf`, see C87; programs in which an item has a
`let`, `do` or lambda that declares a name of the lambda around it again, see `C149_shadow_refuted`.) -/
theorem C149_meaning_partial (P : World β ω ε) (t : Src β) (hw : Spec.Multilambda.Wf P t) (t' : Ex β) (m c : Nat)
    (h : LetDo.expand m (multi t) 0 = .ok (t', c)) (n : Nat) (globals : String → Option (Glob β)) (w : ω) :
    python P n globals t' w = Spec.Multilambda.program P n globals t w := by
  rw [C87_scoping_partial P (multi t) t' (wf_multi P t hw) m c h n globals w]
  exact program_tr P n globals t w

namespace MultiDemo
open LetDoDemo

def v (x : String) : Src Nat := .name x
def print (t : Src Nat) : Src Nat := .call (v "print") [t]

/-- `(lambda x, y=[1, 2]: [local[z := add(x, 1)], print(z), z := 7, (z, y, (lambda: [[x]])())])(3)` -/
def script : Src Nat := .call (.lam ["x", "y"] [.lst [.loc [], .loc []] [.cst 1, .cst 2]]
  (.lst [.loc ["z"], .loc [], .loc [], .loc []]
    [.call (v "add") [v "x", .cst 1], print (v "z"), .assign "z" (.cst 7),
     .tup [v "z", v "y", .call (.lam [] [] (.lst [.loc []] [.lst [.loc []] [v "x"]])) []]])) [.cst 3]

/-- `let[x := 0][let[count := lambda: [x := add(x, 1), x]][(count(), count())]]`, an example of the documentation
(syntax/lambdatools.py:54-59) -/
def counter : Src Nat := .letx false ["x"] [.cst 0]
  (.letx false ["count"] [.lam [] [] (.lst [.loc [], .loc []] [.assign "x" (.call (v "add") [v "x", .cst 1]), v "x"])]
    (.tup [.call (v "count") [], .call (v "count") []]))

/-- `(lambda: [local[x := 1], (lambda: [local[x := 2], print(x)])(), x])()` -/
def shadow : Src Nat := .call (.lam [] [] (.lst [.loc ["x"], .loc [], .loc []]
  [.cst 1, .call (.lam [] [] (.lst [.loc ["x"], .loc []] [.cst 2, print (v "x")])) [], v "x"])) []

end MultiDemo

open MultiDemo

example : Spec.Multilambda.Wf LetDoDemo.world MultiDemo.script ∧ Spec.Multilambda.Wf LetDoDemo.world MultiDemo.counter := by
  simp [MultiDemo.script, MultiDemo.counter, MultiDemo.v, MultiDemo.print, Spec.Multilambda.Wf, Spec.Multilambda.Wfs,
    Spec.Multilambda.WfItems, Spec.LetDo.Usable, LetDoDemo.world, Spec.Multilambda.mentionsAny, Spec.Multilambda.mentions,
    Spec.Multilambda.assigns, Spec.Multilambda.assignsAny]
example : ∃ t' c, LetDo.expand 30 (multi MultiDemo.script) 0 = .ok (t', c) ∧
    python LetDoDemo.world 9 LetDoDemo.globals t' [] =
      some (.ok (some (.tup [.base 7, .lst [.base 1, .base 2], .lst [.base 3]])), [4]) := ⟨_, _, rfl, rfl⟩
example : Spec.Multilambda.program LetDoDemo.world 9 LetDoDemo.globals MultiDemo.script [] =
    some (.ok (some (.tup [.base 7, .lst [.base 1, .base 2], .lst [.base 3]])), [4]) := rfl
example : Spec.Multilambda.program LetDoDemo.world 9 LetDoDemo.globals MultiDemo.counter [] =
    some (.ok (some (.tup [.base 1, .base 2])), []) := rfl

/-- C149 refuted: a lambda in brackets inside another cannot have a local variable of the same name: instead of being
shadowed, the name makes the expansion fail. -/
theorem C149_shadow_refuted : Spec.Multilambda.Wf LetDoDemo.world MultiDemo.shadow ∧
    Spec.Multilambda.program LetDoDemo.world 9 LetDoDemo.globals MultiDemo.shadow [] = some (.ok (some (.base 1)), [2]) ∧
    ∃ k, ∀ n c, k ≤ n → LetDo.expand n (multi MultiDemo.shadow) c = .error .syntaxError := by
  have hw : Spec.Multilambda.Wf LetDoDemo.world MultiDemo.shadow := by
    simp [MultiDemo.shadow, MultiDemo.v, MultiDemo.print, Spec.Multilambda.Wf, Spec.Multilambda.Wfs,
      Spec.Multilambda.WfItems, Spec.LetDo.Usable, LetDoDemo.world, Spec.Multilambda.mentionsAny, Spec.Multilambda.assigns]
  refine ⟨hw, rfl, C87_syntax_error LetDoDemo.world _ (wf_multi _ _ hw) ?_⟩
  simp [MultiDemo.shadow, MultiDemo.v, MultiDemo.print, multi, multis, Spec.LetDo.NoClash, Spec.LetDo.NoClashes,
    Spec.LetDo.NoClashItems, Spec.LetDo.rebinds, Spec.LetDo.rebindsAny]

end Unpy.Props
