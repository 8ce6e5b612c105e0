import Verif.Proof.LazyOrder
/-!
# C159: when the leaves of `lazyrec[...]` are evaluated
-/
namespace Unpy.Props
open Unpy.LazyOrder Unpy.Spec.LazyOrder
variable {σ X V : Type}

/-! ## An example: leaf `i` writes `i` into a log; 0 raises 100, 99 raises SystemExit (1000); the value is `i`, but 7 and 17 are equal -/

private def orderWorld : World (List Nat) Nat Nat where
  leaf i u := if i = 0 then (.error 100, u ++ [i]) else if i = 99 then (.error 1000, u ++ [i]) else (.ok i, u ++ [i])
  eqv a b := a % 10 = b % 10
  isException x := x ≠ 1000
  escape x := x

/-- the same, but leaves from 50 on are constants -/
private def orderWorld' : World (List Nat) Nat Nat := { orderWorld with leaf := fun i u => if 50 ≤ i then (.ok i, u) else orderWorld.leaf i u }

/-- `(1, [2, {51: 3, 52: [0, 4]}], 5)` -/
private def orderEx : Ex := .seq .tuple (.cons (.leaf 1) (.cons (.seq .list (.cons (.leaf 2) (.cons (.dict (.cons 51 (.leaf 3) (.cons 52
  (.seq .list (.cons (.leaf 0) (.cons (.leaf 4) .nil))) .nil))) .nil))) (.cons (.leaf 5) .nil)))

private theorem orderEx_plain : PlainKeys orderWorld' orderEx := by
  refine ⟨trivial, ⟨trivial, ⟨⟨[51, 52], ⟨fun u => rfl, fun u => rfl, trivial⟩, by decide⟩, trivial, ⟨trivial, trivial, trivial⟩, trivial⟩, trivial⟩, trivial, trivial⟩

/-- **C159, what is evaluated at once.**  Evaluating `lazyrec[e]` runs the keys of the dictionaries in `e`, in the order in which they are written, until one
raises, and nothing else: it raises what that key raises, and if none does, it returns. -/
theorem C159_now (W : World σ X V) (e : Ex) (s : St σ X V) :
    (eval W (lazyrec e) s).2.user = (run W (keys e) s.user).2 ∧
    ((∃ o, (eval W (lazyrec e) s).1 = .ok o) ∧ (run W (keys e) s.user).1 = none ∨
      ∃ x, (eval W (lazyrec e) s).1 = .error x ∧ (run W (keys e) s.user).1 = some x) := by
  have h := now_ex (W := W) e s
  simp only [NowGood] at h
  rcases hr : run W (keys e) s.user with ⟨(_ | x), u⟩ <;> simp only [hr] at h
  · exact ⟨by rw [h.2], .inl ⟨h.1, rfl⟩⟩
  · exact ⟨h.2.1, .inr ⟨x, h.1, rfl⟩⟩

-- with keys that do something: `[1, {2: 3, 4: [{5: 6}]}]`
example : let e : Ex := .seq .list (.cons (.leaf 1) (.cons (.dict (.cons 2 (.leaf 3) (.cons 4 (.seq .list (.cons (.dict (.cons 5 (.leaf 6) .nil)) .nil)) .nil))) .nil))
    keys e = [2, 4, 5] ∧ (eval orderWorld (lazyrec e) ⟨[], []⟩).2.user = [2, 4, 5] := ⟨rfl, by decide +kernel⟩

/-- **C159, what holds.**  If the keys of the dictionaries in `e` are constants, different from each other, then evaluating `lazyrec[e]` does nothing; and
`force`, on what it gives, does what evaluating `e` would do at that time: the same leaves are evaluated, in the same order, each once, until one raises; and
the outcome is the same value, or the same exception (if there are no tuples in `e`, or it is not a StopIteration; see `C159_stopiteration_refuted`).
(Missing: keys that do something, see `C159_keys_refuted`; equal keys, see `C159_equal_refuted`.) -/
theorem C159_same_partial (W : World σ X V) (e : Ex) (hl : noLazy e = true) (hk : PlainKeys W e) (s : St σ X V) :
    ∃ o s1, eval W (lazyrec e) s = (.ok o, s1) ∧ s1.user = s.user ∧
      ∀ u, (force W o { s1 with user := u }).2.2.user = (eval W e { s with user := u }).2.user ∧
        Same W (hasTuple e) (eval W e { s with user := u }).1 (force W o { s1 with user := u }).1 := by
  obtain ⟨o, h1, h2⟩ := delays_ex e hl hk s.promises.length
  refine ⟨o, ⟨s.user, s.promises ++ (leaves e).map .pending⟩, h1 s.user s.promises rfl, rfl, fun u => ?_⟩
  obtain ⟨r, u', h3, h4⟩ := h2 u
  obtain ⟨r', o', ds, h5, _, h6⟩ := h4 s.promises [] rfl
  simp only [List.append_nil] at h5
  simp only [h3, h5]
  exact ⟨trivial, h6⟩

example : noLazy orderEx = true ∧ PlainKeys orderWorld' orderEx ∧
    (eval orderWorld' orderEx ⟨[], []⟩).1 = .error 100 ∧ (eval orderWorld' orderEx ⟨[], []⟩).2.user = [1, 2, 3, 0] :=
  ⟨by decide +kernel, orderEx_plain, rfl, rfl⟩
example : let s := eval orderWorld' (lazyrec orderEx) ⟨[], []⟩
    s.2.user = [] ∧ ∃ o, s.1 = .ok o ∧ (force orderWorld' o s.2).1 = .error 100 ∧ (force orderWorld' o s.2).2.2.user = [1, 2, 3, 0] :=
  ⟨rfl, _, rfl, rfl, rfl⟩

/-- **C159, forcing again, if it raised.**  When `force` has raised an exception, and mutable containers in the structure may have been updated, forcing the same
object again, at once or later (`s2`, in which what has been evaluated is as it was), raises the same exception; no leaf is evaluated again, and nothing changes any more.  `hE`: leaves
raise instances of `Exception`.
(Missing: other exceptions, see `C159_exit_refuted`.) -/
theorem C159_again_raises_partial (W : World σ X V) (hE : ∀ i u x u', W.leaf i u = (.error x, u') → W.isException x = true) (o o' : Obj V)
    (s s' : St σ X V) (x : X) (h : force W o s = (.error x, o', s')) :
    force W o' s' = (.error x, o', s') ∧ ∀ u, force W o' { s' with user := u } = (.error x, o', { s' with user := u }) :=
  ⟨again_error hE o h (later_refl s'), fun _ => again_error hE o h ⟨rfl, fun _ => ⟨fun _ h => h, fun _ h => h⟩⟩⟩

-- the inner list keeps its promises, the other one is not reached
example : let o : Obj Nat := .seq .list (.cons (.seq .list (.cons (.promise 0) (.cons (.promise 1) .nil))) (.cons (.promise 2) .nil))
    let s : St (List Nat) Nat Nat := ⟨[], [.pending 5, .pending 0, .pending 6]⟩
    (force orderWorld' o s).1 = .error 100 ∧ (force orderWorld' o s).2.2.user = [5, 0] ∧
    (force orderWorld' (force orderWorld' o s).2.1 (force orderWorld' o s).2.2).2.2.user = [5, 0] := ⟨rfl, rfl, rfl⟩

/-- **C159, forcing again, if it returned.**  Forcing the same object again, or what `force` has returned, gives the same, and evaluates nothing. -/
theorem C159_again_returns (W : World σ X V) (o o' r : Obj V) (s s' : St σ X V) (h : force W o s = (.ok r, o', s')) (u : σ) :
    force W o' { s' with user := u } = (.ok r, o', { s' with user := u }) ∧ force W r { s' with user := u } = (.ok r, r, { s' with user := u }) :=
  again_ok o h ⟨rfl, fun _ => ⟨fun _ h => h, fun _ h => h⟩⟩

example : let o : Obj Nat := .seq .tuple (.cons (.seq .list (.cons (.promise 0) .nil)) (.cons (.promise 1) .nil))
    let s : St (List Nat) Nat Nat := ⟨[], [.pending 5, .pending 6]⟩
    force orderWorld o s = (.ok (.seq .tuple (.cons (.seq .list (.cons (.val 5) .nil)) (.cons (.val 6) .nil))),
      .seq .tuple (.cons (.seq .list (.cons (.val 5) .nil)) (.cons (.promise 1) .nil)), ⟨[5, 6], [.done 5, .done 6]⟩) := rfl

/-- **C159, in place.**  If `force` returns, and the object is a list, a box or a dictionary, then afterwards the object itself is what was returned. -/
theorem C159_in_place (W : World σ X V) (o o' r : Obj V) (s s' : St σ X V) (h : force W o s = (.ok r, o', s'))
    (ho : (∃ os, o = .seq .list os ∨ o = .seq .box os) ∨ ∃ os, o = .dict os) : o' = r := by
  rcases ho with ⟨os, rfl | rfl⟩ | ⟨os, rfl⟩
  · simp only [force] at h
    rcases hf : forces W os s with ⟨_ | rs, os', t⟩ <;> simp only [hf] at h <;> cases h
    rfl
  · simp only [force] at h
    rcases hf : forces W os s with ⟨_ | rs, os', t⟩ <;> simp only [hf] at h <;> cases h
    rfl
  · simp only [force] at h
    rcases hf : forceD W os s with ⟨_ | rs, os', t⟩ <;> simp only [hf] at h <;> cases h
    rfl

example : let o : Obj Nat := .seq .box (.cons (.seq .tuple (.cons (.promise 0) .nil)) .nil)
    force orderWorld o ⟨[], [.pending 5]⟩ = (.ok (.seq .box (.cons (.seq .tuple (.cons (.val 5) .nil)) .nil)),
      .seq .box (.cons (.seq .tuple (.cons (.val 5) .nil)) .nil), ⟨[5], [.done 5]⟩) := rfl

/-- **C159, refuted for keys that do something.**  In `{k: a, l: b}` Python evaluates `k`, `a`, `l`, `b` in this order; with `lazyrec[...]` and `force` the
order is `k`, `l`, `a`, `b`. -/
theorem C159_keys_refuted : ∃ (W : World (List Nat) Nat Nat) (e : Ex) (o : Obj Nat) (s : St (List Nat) Nat Nat), noLazy e = true ∧
    (eval W e ⟨[], []⟩).2.user = [1, 2, 3, 4] ∧ eval W (lazyrec e) ⟨[], []⟩ = (.ok o, s) ∧ (force W o s).2.2.user = [1, 3, 2, 4] :=
  ⟨orderWorld, .dict (.cons 1 (.leaf 2) (.cons 3 (.leaf 4) .nil)), _, _, by decide +kernel, rfl, rfl, rfl⟩

/-- **C159, refuted for equal keys.**  In `{k: a, k: b}` Python evaluates both `a` and `b`; with `lazyrec[...]` and `force`, `a` is never evaluated, so that an
exception it raises is lost, too. -/
theorem C159_equal_refuted : ∃ (W : World (List Nat) Nat Nat) (e : Ex) (o : Obj Nat) (s : St (List Nat) Nat Nat), noLazy e = true ∧
    (eval W e ⟨[], []⟩).1 = .error 100 ∧ eval W (lazyrec e) ⟨[], []⟩ = (.ok o, s) ∧ ∃ r, (force W o s).1 = .ok r ∧ (force W o s).2.2.user = [7, 17, 2] :=
  ⟨orderWorld, .dict (.cons 7 (.leaf 0) (.cons 17 (.leaf 2) .nil)), _, _, by decide +kernel, rfl, rfl, _, rfl, rfl⟩

/-- **C159, refuted for StopIteration.**  If a leaf in a tuple raises an exception that comes out of a generator as another one, then `force` raises that other
one. -/
theorem C159_stopiteration_refuted (W : World σ X V) (i : Nat) (u u' : σ) (x : X) (h : W.leaf i u = (.error x, u')) :
    let e : Ex := .seq .tuple (.cons (.leaf i) .nil)
    (eval W e ⟨u, []⟩).1 = .error x ∧ eval W (lazyrec e) ⟨u, []⟩ = (.ok (.seq .tuple (.cons (.promise 0) .nil)), ⟨u, [.pending i]⟩) ∧
    (force W (.seq .tuple (.cons (.promise 0) .nil)) ⟨u, [.pending i]⟩).1 = .error (W.escape x) := by
  refine ⟨by simp [eval, evals, h], rfl, by simp [force, forces, force1, h, fromItem]⟩

/-- **C159, refuted for SystemExit and the like.**  A leaf that raises an exception which is no `Exception` is evaluated again when the promise is forced
again. -/
theorem C159_exit_refuted : ∃ (W : World (List Nat) Nat Nat) (o o' : Obj Nat) (s s' : St (List Nat) Nat Nat), force W o s = (.error 1000, o', s') ∧
    s'.user = [99] ∧ (force W o' s').2.2.user = [99, 99] :=
  ⟨orderWorld, .promise 0, _, ⟨[], [.pending 99]⟩, _, rfl, rfl, rfl⟩

end Unpy.Props
