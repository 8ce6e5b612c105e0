import Verif.Model.LazyLet
import Verif.Spec.LazyLet
import Verif.Proof.LazyLet
/-!
# C157: `let` and `letrec` in lazy code
-/
namespace Unpy.Props
open Unpy.LazyLet Unpy.LazyLet.Spec
variable {β ω ε : Type}

private theorem inv_init (W : World β ω ε) : Lemmas.Inv W [] [] ⟨[], [], []⟩ :=
  ⟨⟨rfl, fun p pr h => by simp at h⟩, rfl, fun k env h => by simp at h⟩

private theorem run_of (W : World β ω ε) {e : Ex β ω} (hf : Fine e []) {k : Nat} {r : Except ε β} (h : evalN W (k + 1) [] e = some r) :
    ∃ s', run W (k + 1) e = some (asObj r, s') ∧ s'.runs.Nodup := by
  obtain ⟨s', _, _, h1, _, _, _, h2⟩ := Lemmas.forward W k k (Nat.le_refl _) e [] [] [] [] ⟨[], [], []⟩ r (inv_init W) ⟨List.nodup_nil, fun q hq => nomatch hq⟩
    (fun q hq => nomatch hq) ⟨rfl, fun i k hk => by simp at hk⟩ hf h
  exact ⟨s', h1, h2.1⟩

/-- C157: the value of an expression with `let` and `letrec`, to any depth, in a `with lazify` block is the one it has by name: each name stands for the expression it is bound to,
evaluated where it is used.  The same exceptions are raised, those of right-hand sides that are not used are not raised, and the one comes to an end exactly if the other does.
(Missing: right-hand sides in a `letrec` that are just the name of a later binding, or of the same one, see `C157_refuted`.) -/
theorem C157_value_partial (W : World β ω ε) (e : Ex β ω) (hf : Fine e []) (r : Except ε (Obj β)) :
    (∃ n s', run W n e = some (r, s')) ↔ ∃ v, Comes W e v ∧ r = asObj v := by
  constructor
  · rintro ⟨n, s', h⟩
    obtain ⟨m, v, _, _, h1, h2, _⟩ := Lemmas.back W n e [] [] [] [] ⟨[], [], []⟩ r s' (inv_init W) ⟨rfl, fun i k hk => by simp at hk⟩ hf h
    exact ⟨v, ⟨m, h1⟩, h2⟩
  · rintro ⟨v, ⟨m, h⟩, rfl⟩
    obtain ⟨s', h', _⟩ := run_of W hf (Lemmas.evalN_succ W m _ _ _ h)
    exact ⟨m + 1, s', h'⟩

/-- C157: there is only one result, and it does not change when promises may be forced deeper inside of promises. -/
theorem C157_depth (W : World β ω ε) (e : Ex β ω) (n m : Nat) (r : Except ε (Obj β) × St β ω ε) (h : run W n e = some r) (hm : n ≤ m) : run W m e = some r :=
  Lemmas.eval_mono W hm h

/-- C157: each right-hand side is evaluated at most once for each time its `let` is, however often the name is used; also if evaluating it raises, or if other names are bound to the name.
(Missing: see `C157_refuted`.) -/
theorem C157_once_partial (W : World β ω ε) (e : Ex β ω) (hf : Fine e []) (n : Nat) (r : Except ε (Obj β)) (s' : St β ω ε) (h : run W n e = some (r, s')) : s'.runs.Nodup := by
  obtain ⟨m, v, _, _, h1, h2, _⟩ := Lemmas.back W n e [] [] [] [] ⟨[], [], []⟩ r s' (inv_init W) ⟨rfl, fun i k hk => by simp at hk⟩ hf h
  obtain ⟨s1, h3, h4⟩ := run_of W hf (Lemmas.evalN_succ W m _ _ _ h1)
  have a := Lemmas.eval_mono W (Nat.le_max_left n (m + 1)) h
  have b := Lemmas.eval_mono W (Nat.le_max_right n (m + 1)) h3
  rw [a] at b
  have := (Prod.mk.inj (Option.some.inj b)).2
  rw [this]; exact h4

/-- C157: if the expression has a value outside of a `with lazify` block, it has the same value in one. (Missing: see `C157_refuted`.) -/
theorem C157_strict_partial (W : World β ω ε) (e : Ex β ω) (hf : Fine e []) (b : β) (h : strict W e [] = .ok b) : ∃ n s', run W n e = some (.ok (.con b), s') := by
  obtain ⟨n, hn⟩ := Lemmas.strict_ok W e [] [] b ⟨rfl, fun i fr env hi => by simp at hi⟩ h
  exact (C157_value_partial W e hf _).mpr ⟨.ok b, ⟨n, hn⟩, rfl⟩

/-- C157: binding a name twice in the same `let` or `letrec` is an AttributeError, and nothing is evaluated. -/
theorem C157_rebind (W : World β ω ε) (n : Nat) (r : Bool) (bs : Bs β ω) (body : Ex β ω) (hn : ¬ (names bs).Nodup) (hr : NoRefs bs) (ρ : List Nat) (s : St β ω ε) :
    ∃ s', eval W (n + 1) ρ (tr (.letter r bs body)) s = some (.error W.attributeError, s') ∧ s'.runs = s.runs := by
  obtain ⟨s', h1, h2⟩ := Lemmas.fill_twice W (eval W n) r s.envs.length ρ bs [] { s with envs := s.envs ++ [[]] } [] (by simp) (by simp) (fun h => hn h.1) hr
  refine ⟨s', ?_, h2⟩
  simp only [eval, tr, evalC, h1]

/-- `letrec[a << b, b << v][a]` -/
private def later (v : β) : Ex β ω := .letter true (.cons "a" (.ref 0 "b") (.cons "b" (.cst v) .nil)) (.ref 0 "a")

/-- C157 is violated in a `letrec` when a right-hand side is just the name of a later binding: `letrec[a << b, b << v][a]` raises an AttributeError, although `a` stands for `b`, and that for `v`.  (The name is
looked up when the environment is filled, because a reference is passed on as it is and not made a promise.)  In `letrec[a << (b if v else b), b << v][a]` it works. -/
theorem C157_refuted (W : World β ω ε) (v : β) (n : Nat) :
    Comes W (later v) (.ok v) ∧ (∃ s', run W (n + 1) (later v) = some (.error W.attributeError, s')) ∧
    ∃ s', run W (n + 3) (.letter true (.cons "a" (.ife (.cst v) (.ref 0 "b") (.ref 0 "b")) (.cons "b" (.cst v) .nil)) (.ref 0 "a")) = some (.ok (.con v), s') := by
  refine ⟨⟨3, ?_⟩, ⟨_, rfl⟩, ?_⟩
  · simp [evalN, later, evalS, find]
  · by_cases h : W.truth v = true <;>
      exact ⟨_, by simp [run, eval, evalC, tr, trBs, fill, getattr, forceObj, forceP, h, List.lookup]; rfl⟩

/-! ## examples: the hypotheses can be met -/

private inductive O | add | div
/-- numbers -/
private def numW : World Nat O String where
  op o x y := match o with
    | .add => .ok (x + y)
    | .div => if y = 0 then .error "ZeroDivisionError" else .ok (x / y)
  truth x := x != 0
  attributeError := "AttributeError"
  typeError := "TypeError"

/-- `letrec[a << (b if b else c), b << 2 + 1, c << 1 / 0, d << b][let[a << a][a + d]]` -/
private def progL : Ex Nat O := .letter true
  (.cons "a" (.ife (.ref 0 "b") (.ref 0 "b") (.ref 0 "c")) (.cons "b" (.op .add (.cst 2) (.cst 1)) (.cons "c" (.op .div (.cst 1) (.cst 0)) (.cons "d" (.ref 0 "b") .nil))))
  (.letter false (.cons "a" (.ref 0 "a") .nil) (.op .add (.ref 0 "a") (.ref 1 "d")))

example : Fine progL [] := by
  simp [progL, Fine, FineBs, names]
example : Comes numW progL (.ok 6) := ⟨5, rfl⟩
example : (run numW 5 progL).map (fun q => (match q.1 with | .ok (.con b) => some b | _ => none, q.2.runs)) = some (some 6, [0, 1]) := by decide +kernel
example : (match strict numW progL [] with | .error e => some e | .ok _ => none) = some "AttributeError" := rfl
example : strict numW (.letter false (.cons "x" (.cst 2) .nil) (.op .add (.ref 0 "x") (.ref 0 "x"))) [] = .ok 4 := rfl
example : ¬ (names (β := Nat) (ω := O) (.cons "a" (.cst 1) (.cons "a" (.cst 2) .nil))).Nodup ∧ NoRefs (β := Nat) (ω := O) (.cons "a" (.cst 1) (.cons "a" (.cst 2) .nil)) := by
  simp [names, NoRefs]

end Unpy.Props
