import Verif.Spec.Describe
/-! # C122: the description of an exception -/
namespace Unpy.Props
open Unpy.Describe Unpy.Spec.Describe

private theorem join_append (a b : List String) : String.join (a ++ b) = String.join a ++ String.join b := by
  induction a with
  | nil => simp
  | cons x a ih => simp [String.join_cons, ih, String.append_assoc]

private theorem join_instance (x : Exc) : String.join (describeInstance x) = heading x ++ line x := by
  unfold describeInstance heading line
  cases x.traceback <;> simp

private theorem recursive_linked {heap : Nat → Exc} {c : Nat} {l : Link} {e : Nat} (h : Linked heap c l e) (n : Nat) :
    describeRecursive heap (n + 1) e = (describeRecursive heap n c).map (· ++ [between l] ++ describeInstance (heap e)) := by
  cases h with
  | cause h => simp [describeRecursive, h, between]
  | context h1 h2 h3 => simp [describeRecursive, h1, h2, h3, between]

private theorem recursive_first {heap : Nat → Exc} {e : Nat} (h : ∀ l c, ¬ Linked heap c l e) (n : Nat) :
    describeRecursive heap (n + 1) e = some (describeInstance (heap e)) := by
  have h1 : (heap e).cause = none := by
    cases hc : (heap e).cause with
    | none => rfl
    | some c => exact absurd (.cause hc) (h .cause c)
  cases hs : (heap e).suppress with
  | true => simp [describeRecursive, h1, hs]
  | false =>
    cases hx : (heap e).context with
    | none => simp [describeRecursive, h1, hs, hx]
    | some c => exact absurd (.context h1 hs hx) (h .context c)

/-- C122: the description of an exception is that of all exceptions that led to it, the first one first, with the text for a cause or for a context between two of them, each with its traceback, type and message; if the recursion limit allows for that many.
(Missing: exceptions whose causes form a circle, see `C122_circle_refuted`.) -/
theorem C122_story_partial (heap : Nat → Exc) (first : Nat) (rest : List (Link × Nat)) (e : Nat) (h : Story heap first rest e) (limit : Nat) (hl : rest.length < limit) :
    describeException heap limit (.instance_ e) = some (told heap first rest) := by
  simp only [describeException]
  induction h generalizing limit with
  | single h =>
    obtain ⟨n, rfl⟩ : ∃ n, limit = n + 1 := ⟨limit - 1, by omega⟩
    rw [recursive_first h]
    simp [join_instance, told]
  | @snoc rest e l e' _ hl' ih =>
    simp only [List.length_append, List.length_cons, List.length_nil] at hl
    obtain ⟨n, rfl⟩ : ∃ n, limit = n + 1 := ⟨limit - 1, by omega⟩
    rw [recursive_linked hl']
    have hi := ih n (by omega)
    cases hr : describeRecursive heap n e with
    | none => rw [hr] at hi; simp at hi
    | some r =>
      rw [hr] at hi
      simp only [Option.map_some, Option.some.injEq] at hi ⊢
      simp [told, join_append, join_instance, hi, String.join_cons, String.append_assoc]

/-- C122: every exception has such a story, unless the links go in a circle (or back without end): from any exception, either there is a story, or one can go back any number of times. -/
theorem C122_stories (heap : Nat → Exc) (e : Nat) :
    (∃ first rest, Story heap first rest e) ∨ ∀ limit, describeException heap limit (.instance_ e) = none := by
  by_cases h : ∀ limit, describeException heap limit (.instance_ e) = none
  · exact .inr h
  · left
    simp only [describeException, Option.map_eq_none_iff, Classical.not_forall] at h
    obtain ⟨n, hn⟩ := h
    induction n generalizing e with
    | zero => exact absurd rfl hn
    | succ n ih =>
      by_cases hl : ∀ l c, ¬ Linked heap c l e
      · exact ⟨e, [], .single hl⟩
      · simp only [Classical.not_forall, Classical.not_not] at hl
        obtain ⟨l, c, hl⟩ := hl
        rw [recursive_linked hl] at hn
        obtain ⟨first, rest, hs⟩ := ih c (by simpa using hn)
        exact ⟨first, _, .snoc hs hl⟩

/-- C122 is violated: after `raise e from e` (which Python itself reports as one exception), there is no description: the recursion does not end. -/
theorem C122_circle_refuted (heap : Nat → Exc) (e : Nat) (h : (heap e).cause = some e) (limit : Nat) : describeException heap limit (.instance_ e) = none := by
  suffices describeRecursive heap limit e = none by simp [describeException, this]
  induction limit with
  | zero => rfl
  | succ n ih => rw [recursive_linked (.cause h), ih]; rfl

/-- C122: of anything but an instance, the description is its `str`. -/
theorem C122_class (heap : Nat → Exc) (limit : Nat) (s : String) : describeException heap limit (.other s) = some s := by
  simp [describeException, String.join_cons]

private def demoHeap : Nat → Exc
  | 0 => ⟨none, none, false, some "t0", "ValueError", "bad"⟩
  | 1 => ⟨none, some 0, false, none, "KeyError", ""⟩
  | 2 => ⟨some 1, some 0, true, none, "RuntimeError", "oops"⟩
  | _ => ⟨some 3, none, true, none, "E", ""⟩

example : Story demoHeap 0 [(.context, 1), (.cause, 2)] 2 :=
  .snoc (rest := [(.context, 1)]) (.snoc (rest := []) (.single (by intro l c h; cases h <;> simp_all [demoHeap])) (.context rfl rfl rfl)) (.cause rfl)
set_option maxRecDepth 4000 in
example : describeException demoHeap 3 (.instance_ 2) = some ("\nTraceback (most recent call last):\nt0ValueError: bad" ++ "\n\nDuring handling of the above exception, another exception occurred:\nKeyError" ++
    "\n\nThe above exception was the direct cause of the following exception:\nRuntimeError: oops") := by rfl
example : (demoHeap 3).cause = some 3 := rfl

end Unpy.Props
