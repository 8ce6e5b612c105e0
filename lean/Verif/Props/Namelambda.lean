import Verif.Proof.Namelambda
/-!
# C101: `namelambda` renames functions
-/
namespace Unpy.Props
open Unpy.Namelambda Unpy.Namelambda.Spec Unpy.Namelambda.Lemmas

/-- C101.  The result is a function with the new name, both for `__name__` and in stack traces, and the same code, whatever it was called
before; functions other than the one given are as they were. -/
theorem C101_name (t : Text) (i : Nat) (f : Fn) (h : List Fn) (hi : h[i]? = some f) : ∃ j g h',
    rename (.str t) (.fn i) h = (.ok (.fn j), h') ∧ h'[j]? = some g ∧ g.name = t ∧ g.coName = t ∧ g.code = f.code ∧
      ∀ k, k ≠ i → k < h.length → h'[k]? = h[k]? := by
  refine ⟨i, { f with name := t, qual := requal f.qual t, coName := t }, _, rename_fn t i h, ?_, rfl, rfl, rfl, ?_⟩
  · rw [List.getElem?_modify, hi]; simp
  · intro k hk _; rw [List.getElem?_modify]; simp [hk.symm]

/-- C101, partial.  After any number of renamings in a row, a function defined in some scope has the last name, its qualified name is that
of its scope followed by the last name, and its code is what it was.

What is missing: names with dots before the last one; see `C101_qualname_refuted`. -/
theorem C101_qualname_partial (scope n : Text) (c i : Nat) (ts : List Text) (h : List Fn) (hs : Scope scope)
    (hi : h[i]? = some (function scope n c)) (hd : ∀ t ∈ (n :: ts).dropLast, '.' ∉ t) :
    ∃ j h', renames ts (.fn i) h = (.ok (.fn j), h') ∧ h'[j]? = some (function scope ((n :: ts).getLast (by simp)) c) := by
  obtain ⟨h', h1, h2, -⟩ := renames_eq hs i c ts n h hi hd
  exact ⟨i, h', h1, h2⟩

/-- C101, errors.  It is a TypeError exactly if a function is given a name that is no string; then, and if the value is no function,
nothing is changed; and a value that is no function is returned as it is. -/
theorem C101_errors (name : NameArg) (v : V) (h : List Fn) :
    ((rename name v h).1 = .error .type ↔ (∃ i, v = .fn i) ∧ ∃ n, name = .other n) ∧
    ((rename name v h).1 = .error .type → (rename name v h).2 = h) ∧
    ((¬ ∃ i, v = .fn i) → rename name v h = (.ok v, h)) := by
  cases v with
  | other n => exact ⟨⟨nofun, fun ⟨⟨_, h⟩, _⟩ => nomatch h⟩, nofun, fun _ => rfl⟩
  | fn i => cases name with
    | str t => exact ⟨⟨nofun, fun ⟨_, _, h⟩ => nomatch h⟩, nofun, fun h => (h ⟨i, rfl⟩).elim⟩
    | other n => exact ⟨⟨fun _ => ⟨⟨i, rfl⟩, n, rfl⟩, fun _ => rfl⟩, fun _ => rfl, fun h => (h ⟨i, rfl⟩).elim⟩

/-- `runtests.<locals>.<lambda>` -/
def c101Scope : Text := "runtests.<locals>.".toList

example : Scope c101Scope := .inr ⟨"runtests.<locals>".toList, by decide +kernel⟩

example : renames ["square".toList, "f".toList] (.fn 0) [function c101Scope "<lambda>".toList 7] =
    (.ok (.fn 0), [function c101Scope "f".toList 7]) := by rfl

/-- C101, refuted for the original.  The documentation says that the result is a modified copy and the original is not mutated.  But
`copy.copy` does not copy functions, so it is the original that is renamed. -/
theorem C101_copy_refuted : ∃ h h' f, h = [function c101Scope "f".toList 7] ∧
    rename (.str "g".toList) (.fn 0) h = (.ok (.fn 0), h') ∧ h'[0]? = some f ∧ f.name = "g".toList :=
  ⟨_, _, _, rfl, rfl, rfl, rfl⟩

/-- C101, refuted for names with dots.  A function whose name has a dot in it, such as those that `namedlambda` makes from the name of the
file and the line, keeps a part of that name in its qualified name when it is renamed. -/
theorem C101_qualname_refuted : ∃ h', renames ["<lambda at mymod.py:201>".toList, "f".toList] (.fn 0)
      [function c101Scope "<lambda>".toList 7] = (.ok (.fn 0), h') ∧
    h'.map (·.name) = ["f".toList] ∧ h'.map (·.qual) = ["runtests.<locals>.<lambda at mymod.f".toList] :=
  ⟨_, rfl, by decide +kernel, by decide +kernel⟩

end Unpy.Props
