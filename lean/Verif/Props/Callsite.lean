import Verif.Spec.Callsite
/-!
# C165: `callsite_filename`
-/
namespace Unpy.Props
open Unpy Unpy.Callsite Unpy.Callsite.Spec

private theorem ignored_iff (r : Frame) : r.function ∈ ignored ↔ NamedLikeHelper r := by
  simp [ignored, NamedLikeHelper]

private theorem loop_skip : ∀ (l rest : List Frame), (∀ r ∈ l, NamedLikeHelper r) → loop (l ++ rest) = loop rest
  | [], _, _ => rfl
  | r :: l, rest, h => by
    rw [List.cons_append, loop, if_pos ((ignored_iff r).mpr (h r (by simp)))]
    exact loop_skip l rest fun q hq => h q (List.mem_cons_of_mem _ hq)

private theorem frames_helper {v : Via} (h : v ≠ .callwith) : ∀ r ∈ frames v, NamedLikeHelper r := by
  intro r hr
  cases v <;> simp only [frames, forceArgs, List.mem_cons, List.not_mem_nil, or_false] at hr
  case callwith => exact absurd rfl h
  all_goals (rcases hr with rfl | rfl | rfl | rfl | rfl <;> simp [NamedLikeHelper])

private theorem vias_helper {vias : List Via} (h : .callwith ∉ vias) : ∀ r ∈ vias.flatMap frames, NamedLikeHelper r := by
  intro r hr
  obtain ⟨v, hv, hr⟩ := List.mem_flatMap.mp hr
  exact frames_helper (fun he => h (he ▸ hv)) r hr

/-- C165: called directly, or through any of the helpers for lazy and curried code and `call`, nested in any way, `callsite_filename` returns the file of the function that makes the call.
(Missing: `callwith`, see `C165_callwith_refuted`; functions named like one of these helpers, see `C165_name_refuted`; tail calls, see `C165_tail_refuted`.) -/
theorem C165_site_partial (vias : List Via) (hv : .callwith ∉ vias) (r : Frame) (hr : ¬ NamedLikeHelper r) (rest : List Frame) :
    callsite (stackOf vias (r :: rest)) = .ok r.filename := by
  rw [callsite, stackOf, List.drop_one, List.tail_cons, loop_skip _ _ (vias_helper hv), loop, if_neg fun h => hr ((ignored_iff r).mp h)]

-- in `with autocurry` in `with lazify`, by `call`
example : callsite (stackOf [.call, .autocurry, .lazify] [⟨"f", "a.py"⟩, ⟨"<module>", "b.py"⟩]) = .ok "a.py" := by decide
example : ¬ NamedLikeHelper ⟨"f", "a.py"⟩ := by simp [NamedLikeHelper]

/-- C165, refuted for `callwith`: in `callwith()(callsite_filename)`, whatever helpers are within and around it, the file of the library that defines `callwith` is returned, for every caller.
The frame left is that of the function `callwith` returns, which has another name. -/
theorem C165_callwith_refuted (vias vias' : List Via) (hv : .callwith ∉ vias) (stack : List Frame) :
    callsite (stackOf (vias ++ .callwith :: vias') stack) = .ok "unpythonic/funutil.py" := by
  rw [callsite, stackOf, List.drop_one, List.tail_cons, List.flatMap_append, List.append_assoc, loop_skip _ _ (vias_helper hv)]
  rfl

example : callsite (stackOf [.callwith] [⟨"f", "a.py"⟩]) = .ok "unpythonic/funutil.py" := by decide

/-- C165, refuted for functions, or methods, of the user that are named like one of the helpers: the file of their caller is returned instead, or of one further out; if there is
no other function, IndexError is raised. -/
theorem C165_name_refuted (vias : List Via) (hv : .callwith ∉ vias) (r : Frame) (hr : NamedLikeHelper r) (stack : List Frame) :
    callsite (stackOf vias (r :: stack)) = callsite (stackOf vias stack) ∧ callsite (stackOf vias [r]) = .error .IndexError := by
  constructor
  · rw [callsite, callsite, stackOf, stackOf, List.drop_one, List.drop_one, List.tail_cons, List.tail_cons, loop_skip _ _ (vias_helper hv), loop_skip _ _ (vias_helper hv), loop,
      if_pos ((ignored_iff r).mpr hr)]
  · rw [callsite, stackOf, List.drop_one, List.tail_cons, loop_skip _ _ (vias_helper hv), loop, if_pos ((ignored_iff r).mpr hr)]
    rfl

-- a method `call` in `a.py`, called from `b.py`
example : fileOf [⟨"call", "a.py"⟩, ⟨"<module>", "b.py"⟩] = some "a.py" ∧ callsite (stackOf [] [⟨"call", "a.py"⟩, ⟨"<module>", "b.py"⟩]) = .ok "b.py" := by decide

/-- C165, refuted for tail calls in `with tco`: `return callsite_filename()` returns the file of the library with the trampoline, for every caller. -/
theorem C165_tail_refuted (stack : List Frame) : callsite (tailCalled stack) = .ok "unpythonic/tco.py" := rfl

/-- C165: whatever the stack, the file returned is that of some function on it, which is not named like a helper, and all functions within it, but its own, are; IndexError is raised exactly if there
is none. -/
theorem C165_first (stack : List Frame) :
    (∃ helpers r rest, stack = helpers ++ r :: rest ∧ (∀ h ∈ helpers, NamedLikeHelper h) ∧ ¬ NamedLikeHelper r ∧ callsite (self :: stack) = .ok r.filename) ∨
    ((∀ h ∈ stack, NamedLikeHelper h) ∧ callsite (self :: stack) = .error .IndexError) := by
  simp only [callsite, List.drop_one, List.tail_cons]
  induction stack with
  | nil => exact .inr ⟨by simp, rfl⟩
  | cons r stack ih =>
    by_cases hr : NamedLikeHelper r
    · rw [loop, if_pos ((ignored_iff r).mpr hr)]
      rcases ih with ⟨hs, q, rest, rfl, h1, h2, h3⟩ | ⟨h1, h2⟩
      · exact .inl ⟨r :: hs, q, rest, rfl, by simpa [hr] using h1, h2, h3⟩
      · exact .inr ⟨by simpa [hr] using h1, h2⟩
    · exact .inl ⟨[], r, stack, rfl, by simp, hr, by rw [loop, if_neg fun h => hr ((ignored_iff r).mp h)]⟩

example : callsite [self, ⟨"curry", "c.py"⟩, ⟨"f", "a.py"⟩, ⟨"g", "b.py"⟩] = .ok "a.py" := by decide

end Unpy.Props
