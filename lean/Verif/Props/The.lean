import Verif.Proof.The
import Verif.Model.Py
/-!
# C107: tests note the values of marked subexpressions
-/
namespace Unpy.Props
open Unpy Unpy.The Unpy.Eff Unpy.Spec.The Unpy.Proof.The

variable {V σ X τ : Type}

/-! ## An example -/

/-- Numbers; functions `f`, which adds ten, `fail` and `exit`, which raise, and `zero`; `==`, `<`, and `in`, which is false; the world counts calls. -/
def c107World {τ : Type} (unparse : E Nat → τ) (unparseBlock : Ss Nat → τ) : World Nat (List String) String τ where
  truthy v := v != 0
  none := 0
  true := 1
  false := 0
  tuple vs := vs.length
  call f vs := fun s => (if f = "fail" then .error "ValueError" else if f = "exit" then .error "KeyboardInterrupt" else .ok (if f = "zero" then 0 else vs.sum + 10), s ++ [f])
  cmp op v w := ret (if (op = "==" && v == w) || (op = "<" && decide (v < w)) then 1 else 0)
  items v := ret (List.range v)
  outer x := raise ("NameError: " ++ x)
  unbound x := "UnboundLocalError: " ++ x
  unexpanded := "SyntaxError"
  isException x := x != "KeyboardInterrupt"
  isInstance x t := if t = 0 then raise "TypeError" else ret (x == "ValueError" && t == 1)
  unparse := unparse
  unparseBlock := unparseBlock

/-- How the examples show an expression. -/
def c107Text : E Nat → String
  | .lit v => toString v
  | .name x => x
  | .call f (.cons (.name x) .nil) => f ++ "(" ++ x ++ ")"
  | .call f (.cons (.the (.lit v)) .nil) => f ++ "(the[" ++ toString v ++ "])"
  | .call f (.cons (.record ..) .nil) => f ++ "(_record_value(...))"
  | _ => "..."

private def start : St Nat (List String) String τ := ⟨[], fun _ => [], 0, []⟩
private def outer : Vars Nat := fun _ => .outer
private def fx : E Nat := .call "f" (.cons (.name "x") .nil)

/-- ```
x = 1
test[the[f(x)] < the[x] < f(x), 7]
with test:
    y = f(x)
    return y == f(y)
test[all(the[z] < x for z in range(3))]
test[test[the[x] == 2]]
test[fail(the[x])]
test_raises[1, fail()]
test_raises[2, fail(), 9]
with test_raises[x]:
    y = f(x)
    test[the[y] == 3]
    fail()
test[test_raises[0, fail()]]
``` -/
def c107Module : Ss Nat :=
  .cons (.assign "x" (.lit 1)) <|
  .cons (.expr (.test (.tuple (.cons (.cmp (.the fx) (.cons "<" (.the (.name "x")) (.cons "<" fx .nil))) (.cons (.lit 7) .nil))))) <|
  .cons (.test .none (.cons (.assign "y" fx) (.cons (.ret (.cmp (.name "y") (.cons "==" (.call "f" (.cons (.name "y") .nil)) .nil))) .nil))) <|
  .cons (.expr (.test (.all (.cmp (.the (.name "z")) (.cons "<" (.name "x") .nil)) "z" (.lit 3)))) <|
  .cons (.expr (.test (.test (.cmp (.the (.name "x")) (.cons "==" (.lit 2) .nil))))) <|
  .cons (.expr (.test (.call "fail" (.cons (.the (.name "x")) .nil)))) <|
  .cons (.expr (.raises (.lit 1) (.call "fail" .nil) .none)) <|
  .cons (.expr (.raises (.lit 2) (.call "fail" .nil) (.lit 9))) <|
  .cons (.raises (.name "x") .none (.cons (.assign "y" fx) (.cons (.expr (.test (.cmp (.the (.name "y")) (.cons "==" (.lit 3) .nil))))
    (.cons (.expr (.call "fail" .nil)) .nil)))) <|
  .cons (.expr (.test (.raises (.lit 0) (.call "fail" .nil) .none))) .nil

private def captured (r : Except String (Vars Nat × Option Nat) × St Nat (List String) String τ) : List (List (τ × Nat)) := r.2.log.map (·.captured)

/-- Running the expansion of a module with tests does what the module says: all code runs as written, once, in order, with the same results; exceptions in tests, and results
that are not true, are on the log, with the source, the message, and each value of a marked subexpression, in the order of evaluation, with the source of the subexpression; or, if
there are no marks, with the value on the left of the comparison.  A `test_raises`, which has no marks, is on the log if its code does not raise, or not an exception of that type.  The
module has no marks in marks, and no marks in `with test` blocks in such blocks.  What the functions of the program do is arbitrary.
(Missing: these, see `C107_source_refuted` and `C107_block_refuted`; exceptions that are no `Exception`, see `C107_exit_refuted`.) -/
theorem C107_tests_partial (W : World V σ X τ) (module_ : Ss V) (h : FineModule true module_) (n : Nat) (hn : sizeSs module_ ≤ n) (vars : Vars V) :
    The.exec W vars (expandSs n 0 module_) = Spec.The.exec W 0 false vars module_ :=
  (exec_expand W (.inl rfl) n).2 false 0 module_ (mixSs_of_fine module_ h.1) h.2 hn vars

example : FineModule true c107Module := by
  simp [FineModule, c107Module, FineSs, FineS, Fine, FineEs, FineCs, fx, hasMarkSs, hasMarkS, hasMark, hasMarks, hasMarkCs]
example : let r := The.exec (c107World c107Text fun _ => "block") outer (expandSs 200 0 c107Module) start
    captured r = [[("f(x)", 11), ("x", 1)], [("y", 11)], [("z", 0), ("z", 1)], [("x", 1)], [], [("x", 1)], [], [("y", 11)], []] ∧ r.2.run = 12 := by decide +kernel

/-- If marks are in other marks of the same test, everything is still as written, but for the sources that are shown.
(Missing: the sources, see `C107_source_refuted`; marks in blocks in blocks, see `C107_block_refuted`.) -/
theorem C107_values_partial (W : World V σ X τ) (hW : ∀ e e', W.unparse e = W.unparse e') (module_ : Ss V) (h : FineModule false module_) (n : Nat)
    (hn : sizeSs module_ ≤ n) (vars : Vars V) : The.exec W vars (expandSs n 0 module_) = Spec.The.exec W 0 false vars module_ :=
  (exec_expand W (.inr hW) n).2 false 0 module_ (mixSs_of_fine module_ h.1) h.2 hn vars

/-- `test[zero(the[f(the[5])])]` -/
def c107Marks : Ss Nat := .cons (.expr (.test (.call "zero" (.cons (.the (.call "f" (.cons (.the (.lit 5)) .nil))) .nil)))) .nil

example : FineModule false c107Marks := by
  simp [FineModule, c107Marks, FineSs, FineS, Fine, FineEs, hasMarkSs, hasMarkS, hasMark]
example : captured (The.exec (c107World (fun _ => ()) fun _ => ()) outer (expandSs 200 0 c107Marks) start) = [[((), 5), ((), 15)]] := by decide +kernel
example : (The.exec (c107World (fun _ => ()) fun _ => ()) outer (expandSs 200 0 c107Marks) start).2.user = ["f", "zero"] := by decide +kernel

/-- The values of subexpressions are shown in the message, in order, if no source is a literal.
(Missing: literals, see `C107_literal_refuted`.) -/
theorem C107_shown_partial (literal : E V → Option String) (repr : V → String) (noted : List (E V × V)) (h : ∀ p ∈ noted, ∀ v, p.1 ≠ .lit v)
    (hl : ∀ e, literal e ≠ .none → ∃ v, e = .lit v) : The.shown literal repr noted = Spec.The.shown repr noted := by
  unfold The.shown Spec.The.shown
  rw [List.filter_eq_self.2, List.filter_eq_self.2]
  · intro p hp
    have := h p hp
    split
    · exact absurd ‹_› (this _)
    · rfl
  · intro q hq
    obtain ⟨p, hp, rfl⟩ := List.mem_map.1 hq
    have : literal p.1 = .none := by
      cases hx : literal p.1 with
      | none => rfl
      | some s => obtain ⟨v, hv⟩ := hl p.1 (by rw [hx]; simp); exact absurd hv (h p hp v)
    simp only [this]
    rfl

example : (The.shown (fun _ => .none) (fun v => toString v) [(fx, 11), (.name "x", 1)]).map Prod.snd = ["11", "1"] := by decide +kernel

/-! ## Refutations -/

/-- ```
with test:
    with test:
        return zero(the[f(1)])
    return zero(2)
``` -/
def c107Blocks : Ss Nat :=
  .cons (.test .none
    (.cons (.test .none (.cons (.ret (.call "zero" (.cons (.the (.call "f" (.cons (.lit 1) .nil))) .nil))) .nil))
    (.cons (.ret (.call "zero" (.cons (.lit 2) .nil))) .nil))) .nil

/-- A mark in a `with test` block in another one is not noted for the innermost test, but for the outer one. -/
theorem C107_block_refuted : ∃ (W : World Nat (List String) String Unit) (module_ : Ss Nat),
    captured (Spec.The.exec W 0 false outer module_ start) = [[((), 11)], []] ∧
    captured (The.exec W outer (expandSs 200 0 module_) start) = [[], [((), 11)]] :=
  ⟨c107World (fun _ => ()) fun _ => (), c107Blocks, by decide +kernel⟩

/-- `test_raises[KeyboardInterrupt, exit()]` is not passed, nor is it on the log, and the program does not go on, for any function `exit` that raises KeyboardInterrupt, and whatever the types are: only
instances of `Exception` are expected. -/
theorem C107_exit_refuted (W : World V σ X τ) (x : X) (hx : W.isException x = false) (s : St V σ X τ) (f : String) (u : σ) (t v : V) (_ : ∀ u, W.isInstance x t u = (.ok true, u))
    (hf : W.call f [v] s.user = (.error x, u)) (vars : Vars V) (after : Ss V) :
    The.exec W vars (expandSs 10 0 (.cons (.expr (.raises (.lit t) (.call f (.cons (.lit v) .nil)) .none)) after)) s = (.error x, { s with user := u }) := by
  simp [expandSs, expandS, expand, expandEs, The.exec, The.execS, The.evalE, The.evalEs, Eff.bind, Eff.ret, assertRaisesFunc, lift, hf, hx]

example : (The.exec (c107World (fun _ => ()) fun _ => ()) outer (expandSs 10 0 (.cons (.expr (.raises (.lit 1) (.call "exit" (.cons (.lit 1) .nil)) .none))
    (.cons (.expr (.call "f" .nil)) .nil))) start).2.user = ["exit"] := by decide +kernel

/-- If a mark is in a mark, the source shown for the outer one is not what was written, but the code inserted by the macro. -/
theorem C107_source_refuted : ∃ module_ : Ss Nat, FineModule false module_ ∧
    captured (Spec.The.exec (c107World c107Text fun _ => "") 0 false outer module_ start) = [[("5", 5), ("f(the[5])", 15)]] ∧
    captured (The.exec (c107World c107Text fun _ => "") outer (expandSs 200 0 module_) start) = [[("5", 5), ("f(_record_value(...))", 15)]] :=
  ⟨c107Marks, by simp [FineModule, c107Marks, FineSs, FineS, Fine, FineEs, hasMarkSs, hasMarkS, hasMark], by decide +kernel, by decide +kernel⟩

/-- `test[4 in 3]`: the message of the failed test says `4 = 4`; literals should be left out. -/
theorem C107_literal_refuted (literal : E Nat → Option String) (hl : ∀ v, literal (.lit v) = .none) :
    let module_ : Ss Nat := .cons (.expr (.test (.cmp (.lit 4) (.cons "in" (.lit 3) .nil)))) .nil
    let noted := (The.exec (c107World id fun _ => .none) outer (expandSs 200 0 module_) start).2.log.flatMap (·.captured)
    FineModule true module_ ∧ Spec.The.shown toString noted = [] ∧ The.shown literal toString noted = [(.lit 4, "4")] := by
  intro module_ noted
  refine ⟨by simp [module_, FineModule, FineSs, FineS, Fine, FineCs, hasMarkSs, hasMarkS, hasMark], rfl, ?_⟩
  have : noted = [(.lit 4, 4)] := rfl
  simp only [this, The.shown, List.map, List.filter, hl]
  rfl

end Unpy.Props
