import Verif.Spec.DetectLambda
/-!
# Property C168: the lambdas that the user has written are told from those made by macros
-/
namespace Unpy.Props
open Unpy.DetectLambda Unpy.DetectLambda.Spec

private theorem isx_tree (s : S) (x : String) : isx (tree s) x = true ↔ s = .ref x := by
  cases s with
  | ref y => simp [tree, isx]
  | do_ c => cases c <;> simp [tree, isx]
  | _ => simp [tree, isx]

private theorem isdo_own {func : S} {args : List S}
    (h : ∀ x, func = .ref x → x ≠ "dof" ∧ (x = "currycall" → ∃ a as, args = a :: as ∧ a ≠ .ref "dof")) : isdo (tree func) (trees args) = some none := by
  have hd : isx (tree func) "dof" = false := by
    cases hx : isx (tree func) "dof" with
    | false => rfl
    | true => exact absurd rfl (h _ ((isx_tree _ _).mp hx)).1
  unfold isdo
  cases hc : isx (tree func) "currycall" with
  | false => simp [hd]
  | true =>
    obtain ⟨a, as, rfl, ha⟩ := (h _ ((isx_tree _ _).mp hc)).2 rfl
    have : isx (tree a) "dof" = false := by
      cases hx : isx (tree a) "dof" with
      | false => rfl
      | true => exact absurd ((isx_tree _ _).mp hx) ha
    simp [trees, this, hd]

mutual
private theorem detect_tree : (s : S) → Own s → detect (tree s) = some (mine s)
  | .ref _, _ => by simp [tree, detect, mine]
  | .lam id params body, h => by
    simp only [Own] at h
    simp [tree, detect, mine, detect_tree body h]
  | .call func args, h => by
    simp only [Own] at h
    simp [tree, detect, mine, isdo_own h.2.2, detect_tree func h.1, detect_trees args h.2.1]
  | .node parts, h => by
    simp only [Own] at h
    simp [tree, detect, mine, detect_trees parts h]
  | .do_ true imp lines, h => by
    simp only [Own] at h
    have hn : noParam .skip (.ref "dof" :: treeLines true imp lines) = false := by
      cases lines <;> simp [treeLines, line, noParam]
    simp [tree, detect, isdo, isx, hn, mine, detectItems, detect_curried lines imp h]
  | .do_ false imp lines, h => by
    simp only [Own] at h
    have hn : noParam .plain (treeLines false imp lines) = false := by
      cases lines <;> simp [treeLines, line, noParam]
    simp [tree, detect, isdo, isx, hn, mine, detect_plain lines imp h]
private theorem detect_trees : (ss : List S) → OwnAll ss → detectAll (trees ss) = some (mineAll ss)
  | [], _ => by simp [trees, detectAll, mineAll]
  | s :: ss, h => by
    simp only [OwnAll] at h
    simp [trees, detectAll, mineAll, detect_tree s h.1, detect_trees ss h.2]
private theorem detect_curried : (ss : List S) → (imp : Nat) → OwnAll ss → detectItems .curried (treeLines true imp ss) = some (mineAll ss)
  | [], _, _ => by simp [treeLines, detectItems, mineAll]
  | s :: ss, imp, h => by
    simp only [OwnAll] at h
    simp [treeLines, line, detectItems, mineAll, detect_tree s h.1, detect_curried ss (imp + 1) h.2]
private theorem detect_plain : (ss : List S) → (imp : Nat) → OwnAll ss → detectItems .plain (treeLines false imp ss) = some (mineAll ss)
  | [], _, _ => by simp [treeLines, detectItems, mineAll]
  | s :: ss, imp, h => by
    simp only [OwnAll] at h
    simp [treeLines, line, detectItems, mineAll, detect_tree s h.1, detect_plain ss (imp + 1) h.2]
end

/-- C168: of a block in which some `do` expressions have been expanded already, curried or not, and nested in whatever way, exactly the lambdas are found that the user has written, each once, from left to right, and the outer ones first;
none that was made for a line of a `do`.
(Missing: functions and methods of the user's own that are called `dof` or `currycall`, see `C168_own_function_refuted` and `C168_missed_refuted`.) -/
theorem C168_detect_partial (s : S) (h : Own s) : detect (tree s) = some (mine s) := detect_tree s h

-- `f(lambda: do[g, lambda x: do[lambda: 0, x]])`, where the inner one is curried
example : detect (tree (.call (.ref "f") [.lam 1 0 (.do_ false 10 [.ref "g", .lam 2 1 (.do_ true 20 [.lam 3 0 (.node []), .ref "x"])])])) = some [1, 2, 3] := by
  refine C168_detect_partial _ ?_
  simp [Own, OwnAll]

/-- C168, refuted: a call of a function of the user's own that is called `dof`, also as a method (`lens.dof(x)`), makes the search fail, and with it the macro, if an argument is just a name, or the first one is a call with a lambda
that has no parameters (`dof(f(lambda: y))`); and so does a call of one that is called `currycall`, without arguments. -/
theorem C168_own_function_refuted (x : String) (f : T) (id : Nat) (y : T) (args others : List T) :
    detect (.call (.ref "dof") (.ref x :: args)) = none ∧ detect (.call (.ref "dof") (.call f (.lam id 0 y :: others) :: args)) = none ∧
    detect (.call (.ref "currycall") []) = none := by
  refine ⟨?_, ?_, ?_⟩
  · cases args <;> simp [detect, isdo, isx, noParam, detectItems]
  · simp [detect, isdo, isx, noParam]
  · simp [detect, isdo, isx]

/-- C168, refuted: and if the argument is a call with a lambda (`lens.dof(f(lambda x: y))`), it does not fail, but the lambda is not found; nor is anything found in the other arguments of that call. -/
theorem C168_missed_refuted (f : T) (id params : Nat) (y : String) (others : List T) :
    detect (.call (.ref "dof") [.call f (.lam id (params + 1) (.ref y) :: others)]) = some [] := by
  simp [detect, isdo, isx, noParam, detectItems]

end Unpy.Props
