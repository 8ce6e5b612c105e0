import Verif.Model.LazyFun
import Verif.Spec.LazyFun
import Verif.Proof.LazyFun
/-!
# C158: functions, `let` and `letrec` in lazy code
-/
namespace Unpy.Props
open Unpy.LazyFun Unpy.LazyFun.Spec
variable {β ω ε : Type}

private theorem inv_initF (W : World β ω ε) : Lemmas.Inv W [] [] ⟨[], [], []⟩ :=
  ⟨⟨rfl, fun p pr h => by simp at h⟩, rfl, fun k env h => by simp at h⟩

private theorem same_of {Ψ : Lemmas.Psi β ω} {v : Except ε (Spec.Val β ω)} {r : Except ε (Obj β ω)} (h : Lemmas.ResRel Ψ v r) : Same v r := by
  cases v with
  | error e => cases r with
    | error e' => exact h
    | ok o => exact h.elim
  | ok v => cases r with
    | error e' => exact h.elim
    | ok o => cases v with
      | con b => cases o with
        | con b' => exact h
        | clo _ _ _ => exact h.elim
        | promise _ => exact h.elim
      | fn Γ xs body => cases o with
        | con b' => exact h.elim
        | clo _ _ _ => exact h.1
        | promise _ => exact h.elim

private theorem run_ofF (W : World β ω ε) {e : Ex β ω} (hf : Fine e []) {k : Nat} {v : Except ε (Spec.Val β ω)} (h : evalN W (k + 1) [] e = some v) :
    ∃ r s', run W (k + 1) e = some (r, s') ∧ Same v r ∧ s'.runs.Nodup := by
  obtain ⟨r, s', _, _, h1, h2, _, _, _, h3⟩ := Lemmas.forward W k k (Nat.le_refl _) e [] [] [] [] ⟨[], [], []⟩ v (inv_initF W) ⟨List.nodup_nil, fun q hq => nomatch hq⟩
    ⟨rfl, fun i k hk => by simp at hk⟩ hf h
  exact ⟨r, s', h1, same_of h2, h3.1⟩

/-- C158: what an expression with functions, calls, `let` and `letrec`, to any depth, comes to in a `with lazify` block is what it comes to by name: each parameter stands for the argument of the call, and each
other name for the expression it is bound to, evaluated where it is used.  The same exceptions are raised, those of arguments that are not used are not raised, and the one comes to an end exactly if the other
does.  Functions may be arguments and results, and may be called from anywhere.
(Missing: right-hand sides in a `letrec` that are just the name of a later binding, or of the same one, see `C158_refuted`.) -/
theorem C158_value_partial (W : World β ω ε) (e : Ex β ω) (hf : Fine e []) :
    (∀ n r s', run W n e = some (r, s') → ∃ v, Comes W e v ∧ Same v r) ∧ (∀ v, Comes W e v → ∃ n r s', run W n e = some (r, s') ∧ Same v r) := by
  constructor
  · intro n r s' h
    obtain ⟨m, v, _, _, h1, h2, _⟩ := Lemmas.back W n e [] [] [] [] ⟨[], [], []⟩ r s' (inv_initF W) ⟨rfl, fun i k hk => by simp at hk⟩ hf h
    exact ⟨v, ⟨m, h1⟩, same_of h2⟩
  · rintro v ⟨m, h⟩
    obtain ⟨r, s', h', h2, _⟩ := run_ofF W hf (Lemmas.evalN_succ W m _ _ _ h)
    exact ⟨m + 1, r, s', h', h2⟩

/-- C158: there is only one result, and it does not change when promises may be forced and functions called deeper inside of each other. -/
theorem C158_depth (W : World β ω ε) (e : Ex β ω) (n m : Nat) (r : Except ε (Obj β ω) × St β ω ε) (h : run W n e = some r) (hm : n ≤ m) : run W m e = some r :=
  Lemmas.eval_mono W hm h

/-- C158: each argument is evaluated at most once for each call, and each right-hand side at most once for each time its `let` is, however often the name is used and to however many functions it is passed on;
also if evaluating it raises.  (Missing: see `C158_refuted`.) -/
theorem C158_once_partial (W : World β ω ε) (e : Ex β ω) (hf : Fine e []) (n : Nat) (r : Except ε (Obj β ω)) (s' : St β ω ε) (h : run W n e = some (r, s')) : s'.runs.Nodup := by
  obtain ⟨m, v, _, _, h1, h2, _⟩ := Lemmas.back W n e [] [] [] [] ⟨[], [], []⟩ r s' (inv_initF W) ⟨rfl, fun i k hk => by simp at hk⟩ hf h
  obtain ⟨r1, s1, h3, _, h4⟩ := run_ofF W hf (Lemmas.evalN_succ W m _ _ _ h1)
  have a := Lemmas.eval_mono W (Nat.le_max_left n (m + 1)) h
  have b := Lemmas.eval_mono W (Nat.le_max_right n (m + 1)) h3
  rw [a] at b
  have := (Prod.mk.inj (Option.some.inj b)).2
  rw [this]; exact h4

/-- C158: if the expression has a value outside of a `with lazify` block, where arguments and right-hand sides are evaluated at once, it has the same value in one. (Missing: see `C158_refuted`.) -/
theorem C158_strict_partial (W : World β ω ε) (e : Ex β ω) (hf : Fine e []) (n : Nat) (v : SVal β ω) (h' : Heap β ω) (h : strictN W n [] e [] = some (.ok (v, h'))) :
    ∃ m o s', run W m e = some (.ok o, s') ∧ SameS v o := by
  obtain ⟨_, m, w, _, _, _, h1, h2⟩ := Lemmas.strictN_ok W n e [] [] [] [] v h' ⟨rfl, fun k env hk => by simp at hk⟩ ⟨rfl, fun i k hk => by simp at hk⟩ h
  obtain ⟨k, r, s', h3, h4⟩ := (C158_value_partial W e hf).2 (.ok w) ⟨m, h1⟩
  cases r with
  | error e => cases w <;> exact h4.elim
  | ok o =>
    refine ⟨k, o, s', h3, ?_⟩
    cases v with
    | con b => cases w with
      | con b' => cases o with
        | con c => cases h2; exact h4
        | clo _ _ _ => exact h4.elim
        | promise _ => exact h4.elim
      | fn _ _ _ => exact h2.elim
    | fn ρ xs body => cases w with
      | con b' => exact h2.elim
      | fn Γ xs' body' => cases o with
        | con c => exact h4.elim
        | clo _ _ _ => exact h2.1.trans h4
        | promise _ => exact h4.elim

/-- `letrec[f << g, g << (lambda: v)][f()]` -/
private def laterF (v : β) : Ex β ω := .letter true (.cons "f" (.ref 0 "g") (.cons "g" (.lam [] (.cst v)) .nil)) (.app (.ref 0 "f") .nil)

/-- C158 is violated in a `letrec` when a right-hand side is just the name of a later binding: `letrec[f << g, g << (lambda: v)][f()]` raises an AttributeError, although `f` stands for `g`.  In
`letrec[f << (lambda: g()), g << (lambda: v)][f()]` it works. -/
theorem C158_refuted (W : World β ω ε) (v : β) (n : Nat) :
    Comes W (laterF v) (.ok (.con v)) ∧ (∃ s', run W (n + 1) (laterF v) = some (.error W.attributeError, s')) ∧
    ∃ s', run W (n + 3) (.letter true (.cons "f" (.lam [] (.app (.ref 1 "g") .nil)) (.cons "g" (.lam [] (.cst v)) .nil)) (.app (.ref 0 "f") .nil)) = some (.ok (.con v), s') := by
  refine ⟨⟨3, ?_⟩, ⟨_, rfl⟩, ?_⟩
  · simp [evalN, laterF, evalS, find, bound, count]
  · exact ⟨_, by simp [run, eval, evalC, evalAs, invoke, tr, trBs, trAs, fill, getattr, forceObj, forceP, List.lookup]; rfl⟩

/-! ## examples: the hypotheses can be met -/

private inductive OF | add | div
/-- numbers -/
private def numF : World Nat OF String where
  op o x y := match o with
    | .add => .ok (x + y)
    | .div => if y = 0 then .error "ZeroDivisionError" else .ok (x / y)
  truth x := x != 0
  attributeError := "AttributeError"
  typeError := "TypeError"

/-- `letrec[loop << (lambda: loop()), const << (lambda x, y: x), twice << (lambda f, x: f(f(x)))][twice(lambda x: const(x + x, loop() + 1 / 0), 1 + 2)]` -/
private def progF : Ex Nat OF := .letter true
  (.cons "loop" (.lam [] (.app (.ref 1 "loop") .nil)) (.cons "const" (.lam ["x", "y"] (.ref 0 "x"))
    (.cons "twice" (.lam ["f", "x"] (.app (.ref 0 "f") (.cons (.app (.ref 0 "f") (.cons (.ref 0 "x") .nil)) .nil))) .nil)))
  (.app (.ref 0 "twice") (.cons (.lam ["x"] (.app (.ref 1 "const") (.cons (.op .add (.ref 0 "x") (.ref 0 "x"))
    (.cons (.op .add (.app (.ref 1 "loop") .nil) (.op .div (.cst 1) (.cst 0))) .nil)))) (.cons (.op .add (.cst 1) (.cst 2)) .nil)))

example : Fine progF [] := by
  simp [progF, Fine, FineBs, FineAs, names]
example : (evalN numF 11 [] progF).map (fun q => match q with | .ok (.con b) => some b | _ => none) = some (some 12) := by decide +kernel
example : (run numF 11 progF).map (fun q => (match q.1 with | .ok (.con b) => some b | _ => none, q.2.runs)) = some (some 12, [2, 3, 1, 6, 5, 8, 4]) := by decide +kernel
/-- `letrec[even << (lambda n: odd(n / 2) if n else 1), odd << (lambda n: even(n / 2) if n else 0)][even(5)]` -/
private def progS : Ex Nat OF := .letter true
  (.cons "even" (.lam ["n"] (.ife (.ref 0 "n") (.app (.ref 1 "odd") (.cons (.op .div (.ref 0 "n") (.cst 2)) .nil)) (.cst 1)))
    (.cons "odd" (.lam ["n"] (.ife (.ref 0 "n") (.app (.ref 1 "even") (.cons (.op .div (.ref 0 "n") (.cst 2)) .nil)) (.cst 0))) .nil))
  (.app (.ref 0 "even") (.cons (.cst 5) .nil))
example : Fine progS [] := by
  simp [progS, Fine, FineBs, FineAs, names]
example : (strictN numF 6 [] progS []).map (fun q => match q with | .ok (.con b, _) => some b | _ => none) = some (some 0) := by decide +kernel

end Unpy.Props
