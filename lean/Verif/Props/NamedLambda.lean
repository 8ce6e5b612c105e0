import Verif.Proof.NamedLambda
/-!
# C102: the `namedlambda` macro names lambdas
-/
namespace Unpy.Props
open Unpy.NamedLambda Unpy.NamedLambda.Spec Unpy.NamedLambda.Lemmas

/-- C102.  All that the macro does to a program, whatever it is, is to name functions: without the names that it gives, the program is what
it was. -/
theorem C102_only_names (e : E) : erase (namedlambda e) = erase e := by
  simp only [namedlambda, erase_fin, erase_visit]

/-- C102, partial.  Each lambda of the program is named once: with the name it is bound to, in an assignment, a binding of a `let`, a named
argument or an item of a dictionary with a string for a key, with decorators around it or not; with the name the user gave it, if they
did; or else with its location.

What is missing: programs that are not `Fine`: with lambdas in the defaults of lambdas, in the decorators of a lambda that is bound or named, bound
in the function of a call with named arguments, or in items of dictionaries with keys that are literals but no strings; see the refutations.
Also those with `namelambda` or `currycall` written by hand other than directly at a lambda. -/
theorem C102_names_partial (e : E) (h : Fine false e) : labels [] (namedlambda e) = (expected true none e).map fun (l, n) => (l, [n]) := by
  simp only [namedlambda, visit_visit e h]
  exact labels_names false e h

/-- `f = deco(lambda: lambda: 0)`, `g(lambda: 0, k=memoize(lambda: 0))`, `{"a": lambda: 0, **{}}`, `let[x := lambda: 0][lambda: x]`, `h = curry(map, lambda: 0)`, and
`p = namelambda("q")(lambda: 0)` -/
def c102Block : E :=
  .op "block" [
    .assign "f" (.call (.name "deco") [.lam 1 [] (.lam 2 [] (.const (.num 0)))] []),
    .call (.name "g") [.lam 3 [] (.const (.num 0))] [.lit (.str "k") (.call (.name "memoize") [.lam 4 [] (.const (.num 0))] [])],
    .dict [.lit (.str "a") (.lam 5 [] (.const (.num 0))), .star (.dict [])],
    .letx [.lit (.str "x") (.lam 6 [] (.const (.num 0)))] (.lam 7 [] (.name "x")),
    .assign "h" (.call (.name "curry") [.name "map", .lam 8 [] (.const (.num 0))] []),
    .assign "p" (.named (.str "q") (.lam 9 [] (.const (.num 0))))]

example : Fine false c102Block := by
  simp [c102Block, Fine, FineAll, FineItems, FineItem, NoLams, NoLamsAll, NoLamsItems, labels, labelsAll, labelsItems, saysNamelambda, says,
    expected, inDecoratorsArgs, inDecorators, namedByHandArgs, namedByHand, isLambda, curriedLast]

example : expected true none c102Block = [(1, .str "f"), (2, place 2), (3, place 3), (4, .str "k"), (5, .str "a"), (6, .str "x"),
    (7, place 7), (8, place 8), (9, .str "q")] := rfl

example : labels [] (namedlambda c102Block) = [(1, [.str "f"]), (2, [place 2]), (3, [place 3]), (4, [.str "k"]), (5, [.str "a"]),
    (6, [.str "x"]), (7, [place 7]), (8, [place 8]), (9, [.str "q"])] := rfl

private theorem last_append (m : Mode) : (fs : List E) → (e : E) → visitLast m (fs ++ [e]) = fs ++ [visit m e]
  | [], e => by simp only [List.nil_append, visitLast]
  | [f], e => by simp only [List.cons_append, List.nil_append, visitLast]
  | f :: f' :: fs, e => by
    have := last_append m (f' :: fs) e
    simp only [List.cons_append] at this ⊢
    simp only [visitLast, this]

private theorem visits_append : (fs gs : List E) → visits (fs ++ gs) = visits fs ++ visits gs
  | [], gs => by simp only [List.nil_append, visits]
  | f :: fs, gs => by simp only [List.cons_append, visits, visits_append fs gs]

private theorem fins_append : (fs gs : List E) → fins (fs ++ gs) = fins fs ++ fins gs
  | [], gs => by simp only [List.nil_append, fins]
  | f :: fs, gs => by simp only [List.cons_append, fins, fins_append fs gs]

private theorem labels_append (ctx : List Const) : (fs gs : List E) → labelsAll ctx (fs ++ gs) = labelsAll ctx fs ++ labelsAll ctx gs
  | [], gs => by simp only [List.nil_append, labelsAll]
  | f :: fs, gs => by simp only [List.cons_append, labelsAll, labels_append ctx fs gs, List.append_assoc]

private theorem two_decorated (f : E) (fs : List E) (e : E) : decoratedArgs (f :: fs ++ [e]) = false := by
  cases fs <;> simp [decoratedArgs]

/-- C102: in code that the `autocurry` macro has been at before, a lambda at the end of the arguments of a call that is bound, as in `x = currycall(f, ..., curryf(lambda ...: ...))`,
gets the name, if it is an argument of `curryf` or `curry`; as an argument of another function it gets its location for a name. -/
theorem C102_autocurry (x g : String) (f : E) (fs gs : List E) (hf : NoLams f) (hfs : NoLamsAll fs) (hgs : NoLamsAll gs) (hne : gs ≠ []) (l : Nat) (b : E) (hb : NoLams b) :
    labels [] (namedlambda (.assign x (.call (.name "currycall") (f :: fs ++ [.call (.name g) (gs ++ [.lam l [] b]) []]) []))) =
      [(l, [if g = "curryf" ∨ g = "curry" then .str x else place l])] := by
  obtain ⟨g0, gs, rfl⟩ : ∃ a as, gs = a :: as := by
    cases gs with
    | nil => exact absurd rfl hne
    | cons a as => exact ⟨a, as, rfl⟩
  have hF : labelsAll [] (f :: fs) = [] := by
    show labels [] f ++ labelsAll [] fs = []
    rw [show labels [] f = [] from hf, show labelsAll [] fs = [] from hfs]; rfl
  have hG : labelsAll [] (g0 :: gs) = [] := hgs
  have hb' : visit .plain b = b := visit_noLams _ _ hb
  have hbf : fin false b = b := fin_noLams _ _ hb
  have hvo : ∀ z, visits (f :: fs ++ [z]) = f :: fs ++ [visit .plain z] := by
    intro z
    have h := visits_append (f :: fs) [z]
    rw [visits_noLams _ hF] at h
    simpa only [visits] using h
  have hfg : ∀ z, fins (g0 :: gs ++ [z]) = g0 :: gs ++ [fin false z] := by
    intro z
    have h := fins_append (g0 :: gs) [z]
    rw [fins_noLams _ hG] at h
    simpa only [fins] using h
  have hvg : ∀ z, visits (g0 :: gs ++ [z]) = g0 :: gs ++ [visit .plain z] := by
    intro z
    have h := visits_append (g0 :: gs) [z]
    rw [visits_noLams _ hG] at h
    simpa only [visits] using h
  have hfo : ∀ z, fins (f :: fs ++ [z]) = f :: fs ++ [fin false z] := by
    intro z
    have h := fins_append (f :: fs) [z]
    rw [fins_noLams _ hF] at h
    simpa only [fins] using h
  have hlab : ∀ y, labels [] (.assign x (.call (.name "currycall") (f :: fs ++ [.call (.name g) (g0 :: gs ++ [y]) []]) [])) = labels [] y := by
    intro y
    have h1 := labels_append [] (f :: fs) [.call (.name g) (g0 :: gs ++ [y]) []]
    have h2 := labels_append [] (g0 :: gs) [y]
    rw [hF] at h1; rw [hG] at h2
    simp only [labelsAll, List.nil_append, List.append_nil] at h1 h2
    simp only [labels, labelsItems, List.nil_append, List.append_nil, ite_self, h1, h2]
  have hfin : ∀ y, fin false (.assign x (.call (.name "currycall") (f :: fs ++ [.call (.name g) (g0 :: gs ++ [y]) []]) [])) =
      .assign x (.call (.name "currycall") (f :: fs ++ [.call (.name g) (g0 :: gs ++ [fin false y]) []]) []) := by
    intro y
    simp only [fin, two_decorated, Bool.false_and, Bool.false_eq_true, if_false, hfo, hfg, finItems]
  have hvis : ∀ y, (curryf (.call (.name g) (g0 :: gs ++ [y]) []) = false) → visit .plain (.assign x (.call (.name "currycall") (f :: fs ++ [.call (.name g) (g0 :: gs ++ [y]) []]) [])) =
      .assign x (.call (.name "currycall") (f :: fs ++ [.call (.name g) (g0 :: gs ++ [visit .plain y]) []]) []) := by
    intro y hy
    have h1 : autocurryFinal (.call (.name "currycall") (f :: fs ++ [.call (.name g) (g0 :: gs ++ [y]) []]) []) = false := by
      simp only [autocurryFinal, List.getLast?_append, List.getLast?_singleton, Option.some_or, hy, Bool.and_false]
    have h2 : curryFinal (.call (.name "currycall") (f :: fs ++ [.call (.name g) (g0 :: gs ++ [y]) []]) []) = false := by
      simp only [curryFinal, isx]; rfl
    simp only [visit, h1, h2, two_decorated, Bool.false_and, Bool.or_self, Bool.false_eq_true, if_false, List.isEmpty_nil, if_true, hvo, hvg]
  have hlast : ∀ y, curryf (.call (.name g) (g0 :: gs ++ [y]) []) = ((g == "curryf" || g == "curry") && isLam y) := by
    intro y
    simp only [curryf, isx, lastLam, List.getLast?_append, List.getLast?_singleton, Option.some_or]
  by_cases hc : g = "curryf" ∨ g = "curry"
  · have hcb : (g == "curryf" || g == "curry") = true := by simpa using hc
    have h1 : visit .plain (.assign x (.call (.name "currycall") (f :: fs ++ [.call (.name g) (g0 :: gs ++ [.lam l [] b]) []]) [])) =
        .assign x (.call (.name "currycall") (f :: fs ++ [.call (.name g) (g0 :: gs ++ [.named (.str x) (.lam l [] b)]) []]) []) := by
      have ha : autocurryFinal (.call (.name "currycall") (f :: fs ++ [.call (.name g) (g0 :: gs ++ [.lam l [] b]) []]) []) = true := by
        simp only [autocurryFinal, List.getLast?_append, List.getLast?_singleton, Option.some_or, hlast, hcb, isx, isLam]; rfl
      simp only [visit, ha, if_true, last_append, hb']
    rw [namedlambda, h1, hvis _ (by rw [hlast]; simp [isLam]), hfin, hlab, if_pos hc]
    simp only [visit, visits, hb', fin, isLam, Bool.true_or, if_true, hbf, labels, labelsAll, List.nil_append, List.append_nil, show labels [] b = [] from hb]
  · have hcb : (g == "curryf" || g == "curry") = false := by simpa using hc
    rw [namedlambda, hvis _ (by rw [hlast, hcb]; rfl), hvis _ (by rw [hlast, hcb]; rfl), hfin, hlab, if_neg hc]
    simp only [visit, visits, hb', fin, hbf, labels, labelsAll, List.nil_append, List.append_nil, show labels [] b = [] from hb]
    rfl

/-- `x = currycall(map, curryf(f, lambda: 0))` and `x = currycall(map, partial(f, lambda: 0))` -/
example (g : String) : labels [] (namedlambda (.assign "x" (.call (.name "currycall") [.name "map", .call (.name g) [.name "f", .lam 7 [] (.const (.num 0))] []] []))) =
    [(7, [if g = "curryf" ∨ g = "curry" then .str "x" else place 7])] :=
  C102_autocurry "x" g (.name "map") [] [.name "f"] (by simp [NoLams, labels]) (by simp [NoLamsAll, labelsAll]) (by simp [NoLamsAll, labelsAll, labels]) (by simp) 7 _ (by simp [NoLams, labels])

/-- C102, refuted for defaults: a lambda that is the default of a parameter of a lambda gets no name, as in
`f = lambda g=lambda: 0: g()`. -/
theorem C102_default_refuted : ∃ e, e = .assign "f" (.lam 1 [.lam 2 [] (.const (.num 0))] (.call (.name "g") [] [])) ∧
    expected true none e = [(1, .str "f"), (2, place 2)] ∧ labels [] (namedlambda e) = [(1, [.str "f"]), (2, [])] :=
  ⟨_, rfl, rfl, rfl⟩

/-- In the defaults of a lambda that is not bound itself, what is bound is named, as in `(lambda g=(h := lambda: 0): h)`. -/
example : labels [] (namedlambda (.lam 1 [.walrus "h" (.lam 2 [] (.const (.num 0)))] (.name "h"))) = [(1, [place 1]), (2, [.str "h"])] := rfl

/-- C102, refuted for decorators: a lambda in a decorator of a lambda that is bound gets no name, as in
`f = trace(lambda: 0)(lambda: 1)`. -/
theorem C102_decorator_refuted : ∃ e,
    e = .assign "f" (.call (.call (.name "trace") [.lam 1 [] (.const (.num 0))] []) [.lam 2 [] (.const (.num 1))] []) ∧
    expected true none e = [(1, place 1), (2, .str "f")] ∧ labels [] (namedlambda e) = [(1, []), (2, [.str "f"])] :=
  ⟨_, rfl, rfl, rfl⟩

/-- C102, refuted for the function of a call with named arguments: what is bound there is named by its location instead, as in
`make(h=lambda: 1)(k=2)`. -/
theorem C102_function_refuted : ∃ e,
    e = .call (.call (.name "make") [] [.lit (.str "h") (.lam 1 [] (.const (.num 1)))]) [] [.lit (.str "k") (.const (.num 2))] ∧
    expected true none e = [(1, .str "h")] ∧ labels [] (namedlambda e) = [(1, [place 1])] :=
  ⟨_, rfl, rfl, rfl⟩

/-- C102, refuted for keys that are no strings: in `{1: lambda: 0}` the lambda is to be named 1, which is no string; by `C101_errors`,
this is a TypeError when the program runs. -/
theorem C102_key_refuted : ∃ e, e = .dict [.lit (.num 1) (.lam 1 [] (.const (.num 0)))] ∧
    expected true none e = [(1, place 1)] ∧ labels [] (namedlambda e) = [(1, [.num 1])] :=
  ⟨_, rfl, rfl, rfl⟩

end Unpy.Props
