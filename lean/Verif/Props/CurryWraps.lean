import Verif.Spec.CurryWraps
/-! # C33: currying functions that are made from curried functions by other decorators -/
namespace Unpy.Props
open Unpy Unpy.CurryWraps Unpy.Spec.CurryWraps
variable {V : Type}

private theorem call_whole : ∀ (f : Fn V), Made f → ∀ args, args.length = f.arity → call f args = .val (whole f args)
  | .base n body, _, args, h => by simp [call, whole, Fn.arity] at h ⊢; exact h
  | .curried f given, hm, args, h => by
    simp only [Made] at hm
    simp only [Fn.arity] at h
    have e : (given ++ args).length = f.arity := by rw [List.length_append]; omega
    simp only [call, e, Nat.lt_irrefl, if_false, if_true, whole]
    exact call_whole f hm.1 _ e
  | .flipped f, hm, args, h => by
    simp only [call, whole]
    exact call_whole f hm _ (by simpa [Fn.arity] using h)

/-- C33.  Calling a curried function with all its arguments at once is the direct call, whatever decorators are inside or around it: a function curried,
flipped, curried again and so on. -/
theorem C33_decorated_whole (f : Fn V) (hf : Made f) (args : List V) (h : args.length = f.arity) :
    call (curry f) args = .val (whole f args) := by
  unfold curry
  split
  · exact call_whole f hf args h
  · have := call_whole (.curried f []) ⟨hf, Nat.zero_le _⟩ args (by simpa [Fn.arity] using h)
    simpa [whole] using this

private theorem calls_curried (f : Fn V) (hf : Made f) : ∀ (steps : List (List V)) (given : List V), given.length ≤ f.arity →
    Split (f.arity - given.length) steps → calls (.fn (.curried f given)) steps = .val (whole f (given ++ steps.flatten))
  | [], _, _, h => absurd rfl h.1
  | [a], given, hg, h => by
    have ha : a.length = (Fn.curried f given).arity := by simpa [Fn.arity] using h.2.1
    simp only [calls, call_whole (.curried f given) ⟨hf, hg⟩ a ha, whole, List.flatten_cons, List.flatten_nil, List.append_nil]
  | a :: b :: rest, given, hg, h => by
    obtain ⟨_, hl, hk⟩ := h
    have h1 : a.length < f.arity - given.length := by simpa using hk 1 (by omega) (by simp)
    have h2 : (given ++ a).length < f.arity := by rw [List.length_append]; omega
    rw [calls]
    simp only [call, h2, if_true]
    rw [calls_curried f hf (b :: rest) (given ++ a) (Nat.le_of_lt h2) ⟨by simp, ?_, ?_⟩]
    · simp only [List.flatten_cons, List.append_assoc]
    · simp only [List.flatten_cons, List.length_append] at hl ⊢; omega
    · intro k h0 hk'
      have := hk (k + 1) (by omega) (by simpa using hk')
      simp only [List.take_succ_cons, List.flatten_cons, List.length_append] at this ⊢
      omega

/-- C33.  However the arguments are split over calls, a curried function does what the direct call does; also if it is made from a decorated function, or
from one that is curried already.  Partial: not for a function that another decorator has made from a curried one.  (Missing: these, see
`C33_decorated_refuted`.) -/
theorem C33_decorated_partial (f : Fn V) (hf : Made f) (hc : f.iscurried = false ∨ ∃ g given, f = .curried g given)
    (steps : List (List V)) (h : Split f.arity steps) :
    calls (.fn (curry f)) steps = .val (whole f steps.flatten) := by
  rcases hc with hc | ⟨g, given, rfl⟩
  · simp only [curry, hc, Bool.false_eq_true, if_false]
    simpa using calls_curried f hf steps [] (Nat.zero_le _) (by simpa using h)
  · simp only [curry, Fn.iscurried, if_true]
    exact calls_curried g hf.1 steps given hf.2 h

private theorem calls_append : ∀ (s t : List (List V)) (r : Res V), calls r (s ++ t) = calls (calls r s) t
  | [], _, _ => by simp [calls]
  | _ :: s, t, .fn f => by simp only [List.cons_append, calls]; exact calls_append s t _
  | _ :: _, [], .val _ => by simp [calls]
  | _ :: _, [], .typeError => by simp [calls]
  | _ :: _, _ :: _, .val _ => by simp [calls]
  | _ :: _, _ :: _, .typeError => by simp [calls]

/-- C33.  One call too many is a TypeError, as for the direct call, where the value is not callable.  Partial, and (Missing:) as in `C33_decorated_partial`. -/
theorem C33_decorated_more_partial (f : Fn V) (hf : Made f) (hc : f.iscurried = false ∨ ∃ g given, f = .curried g given)
    (steps : List (List V)) (h : Split f.arity steps) (args : List V) (more : List (List V)) :
    calls (.fn (curry f)) (steps ++ args :: more) = .typeError := by
  rw [calls_append, C33_decorated_partial f hf hc steps h]; simp [calls]

/-- C33 refuted for other functions: if `f` is a curried function of two parameters, then for `g = curry(flip(f))`, `g(x, y)` is `f(y, x)`, but `g(x)(y)` is
`f(x, y)`.  (`flip` is made with `functools.wraps`, which also copies the mark of curried functions, so that `curry` leaves `flip(f)` as it is.) -/
theorem C33_decorated_refuted (body : List V → V) (x y : V) :
    let g := curry (.flipped (curry (.base 2 body)))
    Made g ∧ Split g.arity [[x], [y]] ∧ calls (.fn g) [[x, y]] = .val (body [y, x]) ∧ calls (.fn g) [[x], [y]] = .val (body [x, y]) := by
  refine ⟨by simp [curry, Fn.iscurried, Made], ⟨by simp, by simp [curry, Fn.iscurried, Fn.arity], ?_⟩, ?_, ?_⟩
  · intro k h0 h
    obtain rfl : k = 1 := by simp at h; omega
    simp [curry, Fn.iscurried, Fn.arity]
  · simp [curry, Fn.iscurried, calls, call, Fn.arity]
  · simp [curry, Fn.iscurried, calls, call, Fn.arity]

/-- subtraction, flipped and then curried: `(1)(10)` is 9 -/
example : calls (.fn (curry (.flipped (.base 2 fun | [x, y] => x - y | _ => (0 : Int))))) [[1], [10]] = .val 9 := by
  simp [curry, Fn.iscurried, calls, call, Fn.arity]
example : Split (Fn.arity (.flipped (.base 3 fun (_ : List Nat) => 0))) [[1], [], [10, 2]] := by
  refine ⟨by simp, by simp [Fn.arity], ?_⟩
  intro k h0 h
  have : k = 1 ∨ k = 2 := by simp at h; omega
  rcases this with rfl | rfl <;> simp [Fn.arity]

end Unpy.Props
