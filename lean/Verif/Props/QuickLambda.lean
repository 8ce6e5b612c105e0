import Verif.Proof.QuickLambda
/-!
# C103: `fn[]` makes functions of the underscores in it
-/
namespace Unpy.Props
open Unpy.QuickLambda Unpy.QuickLambda.Lemmas

/-- What the expanded program does: the value or the exception, and the output, the last first. -/
def c103Code (n : Nat) (e : E) : Except Err Spec.Seen × List Int :=
  let r := evalT n [] (expand none e) []
  (r.1.map Spec.seenV, r.2)

/-- What it should do; with `asTree`, if underscores are counted in the order of the syntax tree. -/
def c103Spec (asTree : Bool) (n : Nat) (e : E) : Except Err Spec.Seen × List Int :=
  let r := Spec.eval asTree n [] none 0 e []
  (r.1.map Spec.seenRV, r.2)

private theorem c103_sim (asTree : Bool) (n : Nat) (e : E) (h : asTree = false → Spec.Inorder e) : c103Code n e = c103Spec asTree n e := by
  have h1 := sim_E (asTree := asTree) n .nil (.none (env := [])) 0 e nofun h []
  unfold c103Code c103Spec
  simp only [place, Option.map] at h1
  revert h1
  match evalT n [] (expand none e) [], Spec.eval asTree n [] none 0 e [] with
  | (.ok v, s), (.ok w, t) => rintro ⟨h1, rfl⟩; simp only [Except.map, seen_rel h1]
  | (.error e, s), (.error e', t) => rintro ⟨rfl, rfl⟩; rfl
  | (.ok v, s), (.error e', t) => exact fun h => h.elim
  | (.error e, s), (.ok v, t) => exact fun h => h.elim

/-- C103.  In any program, a `fn[...]` is a function with as many parameters as there are underscores in it, not counting those in
another `fn[...]` inside; the underscores are the arguments, one each, counted in the order of the syntax tree; all else in it is as it
would be outside. -/
theorem C103_fn (n : Nat) (e : E) : c103Code n e = c103Spec true n e := c103_sim true n e nofun

/-- C103, partial.  Underscores are counted from left to right.

What is missing: underscores in the condition of a conditional expression and before it, and in a key of a dictionary and in a value before
it; see `C103_conditional_refuted` and `C103_dict_refuted`. -/
theorem C103_order_partial (n : Nat) (e : E) (h : Spec.Inorder e) : c103Code n e = c103Spec false n e := c103_sim false n e (fun _ => h)

/-- C103, parameters.  They are as many as the underscores, they are different, and none of them is a name of the user. -/
theorem C103_parameters (c : Option (Nat × Nat)) (i : Nat) (e : E) : ∃ ps t, expand c (.fn i e) = .lam ps t ∧ ps.length = Spec.count e ∧
    ps.Nodup ∧ ∀ x, .user x ∉ ps := by
  refine ⟨_, _, by simp only [expand]; rfl, by simp [collected_eq], ?_, by simp⟩
  rw [List.nodup_iff_pairwise_ne, List.pairwise_map]
  exact List.nodup_range.imp fun h h' => h (by simpa using h')

/-! ## Cases -/

private def args : List E → Es
  | [] => .nil
  | e :: es => .cons e (args es)

private def u : E := .name "_"

/-- `(lambda x: fn[(lambda y: (x - _) - y)(fn[_ - 1](_))])(100)(30, 7)` -/
def c103Program : E :=
  .call (.call (.lam ["x"] (.fn 0 (.call (.lam ["y"] (.sub (.sub (.name "x") u) (.name "y"))) (args [.call (.fn 1 (.sub u (.int 1))) (args [u])]))))
    (args [.int 100])) (args [.int 30, .int 7])

example : Spec.Inorder c103Program := by simp [c103Program, Spec.Inorder, Spec.InorderAll, u, args]

example : (evalT 20 [] (expand none c103Program) []).1.map V.shown = .ok (some 64) := rfl

/-- `(lambda _: fn[_ - _](_, 1))(5)`: outside of `fn[]`, `_` is a variable. -/
def c103Variable : E := .call (.lam ["_"] (.call (.fn 0 (.sub u u)) (args [u, .int 1]))) (args [.int 5])

example : (evalT 20 [] (expand none c103Variable) []).1.map V.shown = .ok (some 4) := rfl

example : (evalT 20 [] (expand none (.call (.fn 0 (.sub u u)) (args [u]))) []).1.map V.shown = .error .name := rfl

example : (evalT 20 [] (expand none (.call (.fn 0 (.sub u u)) (args [.int 1]))) []).1.map V.shown = .error .type := rfl

/-- `fn[emit(_) - emit(_)](5, 3)` shows 5, and then 3. -/
example : c103Code 20 (.call (.fn 0 (.sub (.emit u) (.emit u))) (args [.int 5, .int 3])) = (.ok (.int 2), [3, 5]) := rfl

/-- C103, refuted for conditional expressions: `fn[_ if _ else _](1, 0, 3)` is 0, though it reads `1 if 0 else 3`: the first argument is the condition. -/
theorem C103_conditional_refuted : ∃ e, e = .call (.fn 0 (.ite u u u)) (args [.int 1, .int 0, .int 3]) ∧
    c103Spec false 9 e = (.ok (.int 3), []) ∧ c103Code 9 e = (.ok (.int 0), []) :=
  ⟨_, rfl, rfl, rfl⟩

/-- C103, refuted for dictionaries: `fn[{_: _, _: _}](1, 2, 3, 4)` is `{1: 3, 2: 4}`, not `{1: 2, 3: 4}`. -/
theorem C103_dict_refuted : ∃ e, e = .call (.fn 0 (.dict (.cons u u (.cons u u .nil)))) (args [.int 1, .int 2, .int 3, .int 4]) ∧
    c103Spec false 9 e = (.ok (.dict [.int 1, .int 2, .int 3, .int 4]), []) ∧ c103Code 9 e = (.ok (.dict [.int 1, .int 3, .int 2, .int 4]), []) :=
  ⟨_, rfl, rfl, rfl⟩

end Unpy.Props
