import Verif.Spec.Fploop
/-! # C39: functional loops -/
namespace Unpy.Props
open Unpy Unpy.Eff Unpy.Fploop Unpy.Spec.Fploop
open Unpy.Fold (Err Vals)
variable {σ ε V : Type}

private theorem loopFn_rest (a : V) (as : List V) (kw : Kw V) (st : LoopSt V) :
    loopFn (a :: as) kw st = match st.it with
      | [] => (.val a, ⟨[], a⟩)
      | x :: it => (.jump x a as kw, ⟨it, a⟩) := by
  unfold loopFn
  cases st.it with
  | nil => rfl
  | cons x it => cases as <;> simp

private theorem run_tail (dec : Decide σ ε V) (it : List V) (n : Nat) (x acc : V) (rest : List V) (kw : Kw V)
    (s : σ) :
    run (tailBody dec) (it.length + 1 + n) x acc rest kw ⟨it, acc⟩ s =
      some (foldLoop dec (x :: it) acc rest kw s) := by
  induction it generalizing x acc rest kw s with
  | nil =>
    rw [show ([] : List V).length + 1 + n = n + 1 by simp; omega, run]
    unfold foldLoop Eff.bind
    simp only [tailBody, exec]
    rcases dec x acc rest kw s with ⟨(e | (⟨a, k⟩ | ⟨a, k⟩ | v | v)), s'⟩
    · simp [exec]
    · cases a with
      | nil => simp [exec, loopFn, foldLoop, ret]
      | cons a as => simp [exec, loopFn_rest, foldLoop, ret]
    · simp [exec, loopFn_rest, foldLoop, ret]
    · simp [exec, ret]
    · simp [exec, ret]
  | cons y it ih =>
    rw [show (y :: it).length + 1 + n = (it.length + 1 + n) + 1 by simp; omega, run]
    rw [foldLoop]
    unfold Eff.bind
    simp only [tailBody, exec]
    rcases dec x acc rest kw s with ⟨(e | (⟨a, k⟩ | ⟨a, k⟩ | v | v)), s'⟩
    · simp [exec]
    · cases a with
      | nil => simp only [exec, loopFn, List.length_nil]; exact ih y acc [] k s'
      | cons a as => simp only [exec, loopFn_rest]; exact ih y a as k s'
    · simp only [exec, loopFn_rest]; exact ih y acc a k s'
    · simp [exec, ret]
    · simp [exec, ret]

/-- C39.  A loop over an iterable, whose body ends in `return loop(...)`, `return cnt(...)`, `return v` or
`brk(v)`, is a left fold over the iterable that `return v` and `brk(v)` end early: the items come in order, each
once; the accumulator is the first argument of the last `loop`; with no argument, or by `cnt`, it is kept; further
arguments go to the next round only; the effects of the bodies happen in this order; it finishes, with at most one
round per item. -/
theorem C39_looped_over (dec : Decide σ ε V) (iterable : List V) (acc : V) (n : Nat) (hn : iterable.length ≤ n)
    (s : σ) :
    loopedOver n iterable acc (tailBody dec) s = some (foldLoop dec iterable acc [] [] s) := by
  cases iterable with
  | nil => rfl
  | cons x it =>
    obtain ⟨m, rfl⟩ : ∃ m, n = it.length + 1 + m := ⟨n - (it.length + 1), by simp at hn; omega⟩
    exact run_tail dec it m x acc [] [] s

/-- C39.  In particular `return loop(f(acc, x))` computes `functools.reduce(f, iterable, acc)`. -/
theorem C39_reduce (f : V → V → V) (iterable : List V) (acc : V) (n : Nat) (hn : iterable.length ≤ n) (s : σ) :
    loopedOver n iterable acc
      (fun x a _ _ => (.loop [f a x] [] .ret : Body σ ε V)) s = some (.ok (iterable.foldl f acc), s) := by
  have key : ∀ (xs : List V) (acc : V) (rest : List V) (kw : Kw V),
      foldLoop (ε := ε) (σ := σ) (fun x a _ _ s => (.ok (.loop [f a x] []), s)) xs acc rest kw s =
        (.ok (xs.foldl f acc), s) := by
    intro xs
    induction xs with
    | nil => intros; rfl
    | cons x xs ih => intro acc rest kw; exact ih _ _ _
  have h := C39_looped_over (ε := ε) (σ := σ) (fun x a _ _ s => (.ok (.loop [f a x] []), s)) iterable acc n hn s
  rw [key] at h
  rw [← h]
  cases iterable with
  | nil => rfl
  | cons x it =>
    have : ∀ (m : Nat) (x acc : V) rest kw st,
        run (fun x a _ _ => (.loop [f a x] [] .ret : Body σ ε V)) m x acc rest kw st s =
        run (tailBody (fun x a _ _ s => (.ok (.loop [f a x] []), s))) m x acc rest kw st s := by
      intro m
      induction m with
      | zero => intros; rfl
      | succ m ih =>
        intro x acc rest kw st
        rw [run, run]
        simp only [tailBody, exec]
        cases hst : st.it with
        | nil => simp [loopFn, hst]
        | cons y ys => simp only [loopFn, hst]; exact ih _ _ _ _ _
    exact this _ _ _ _ _ _

/-- C39.  The whole outcome for any body, tail or not: the number of rounds given does not matter once the loop
has finished. -/
theorem C39_outcome_unique (body : BodyFn σ ε V) (iterable : List V) (acc : V) (s : σ) (n : Nat)
    (r : Except (Err ε) V × σ) (h : loopedOver n iterable acc body s = some r) (m : Nat) :
    loopedOver (n + m) iterable acc body s = some r := by
  cases iterable with
  | nil => exact h
  | cons x it =>
    simp only [loopedOver] at h ⊢
    generalize ([] : List V) = rest at h ⊢
    generalize ([] : Kw V) = kw at h ⊢
    generalize hst : (⟨it, acc⟩ : LoopSt V) = st at h ⊢
    clear hst
    induction n generalizing x acc rest kw st s with
    | zero => simp [run] at h
    | succ n ih =>
      rw [show n + 1 + m = (n + m) + 1 by omega, run]
      rw [run] at h
      rcases he : exec acc (body x acc rest kw) st s with ⟨(⟨(v | ⟨x', a', r', k'⟩)⟩ | e | v), st', s'⟩ <;>
        simp only [he] at h ⊢
      · exact h
      · exact ih _ _ _ _ _ _ h
      · exact h
      · exact h

private theorem loopFn_it (args : List V) (kw : Kw V) (st : LoopSt V) :
    (loopFn args kw st).2.it = st.it.drop 1 := by
  unfold loopFn; cases st.it <;> rfl

/-- C39.  For any body whatsoever, each call of `loop` or `cnt` takes exactly one item from the iterable (if
there is one left): after a round in which the body called them `k` times, `k` items are gone. -/
theorem C39_one_item_per_call (b : Body σ ε V) (cur : V) (st : LoopSt V) (s : σ) :
    (exec cur b st s).2.1.it = st.it.drop (calls cur b st s) := by
  induction b generalizing st s with
  | ret | raise | brk => simp [exec, calls]
  | look k ih => exact ih _ _ _
  | put s' k ih => exact ih _ _
  | loop args kw k ih => simp only [exec, calls]; rw [ih, loopFn_it, List.drop_drop]
  | cnt args kw k ih => simp only [exec, calls]; rw [ih, loopFn_it, List.drop_drop]

/-- C39 refuted in one point: the documentation says that the value of the loop is always the final accumulator,
but a body that returns without calling `loop` ends the loop with what it returned. -/
theorem C39_final_acc_refuted (n : Nat) :
    loopedOver (n + 2) [1, 2] 10
      (fun x acc _ _ => if x = 2 then .ret (.val 0) else (.loop [acc + x] [] .ret : Body Unit Unit Nat)) () =
        some (.ok 0, ()) := rfl

/-- the example of the docstring of `breakably_looped_over`: skip below 5, stop at 10 -/
private def docBody : Decide Unit Unit Nat := fun x acc _ _ s =>
  (.ok (if x < 5 then .cnt [] [] else if x ≥ 10 then .brk acc else .loop [acc + x] []), s)
example : loopedOver 100 (List.range 12) 0 (tailBody docBody) () = some (.ok 35, ()) := rfl
example : foldLoop docBody (List.range 12) 0 [] [] () = (.ok 35, ()) := rfl
example : loopedOver 4 [1, 2, 3] 10 (fun x a _ _ => (.loop [a + x] [] .ret : Body Unit Unit Nat)) () =
    some (.ok 16, ()) := rfl
/-- a body that calls `loop` twice and returns the second jump skips an item -/
example : loopedOver 4 [1, 2, 3] 10
    (fun x a _ _ => (.loop [a + x] [] fun _ => .loop [] [] .ret : Body Unit Unit Nat)) () =
    some (.ok 14, ()) := rfl

/-- C39.  `looped` ends exactly as the iteration of the body does: first with no arguments, then with those of
each `return loop(...)`, until the body returns something else, raises, or calls `brk`. -/
theorem C39_looped (body : Args V → Eff σ (Err ε) (Step ε V)) (s : σ) (r : Except (Err ε) V) (s' : σ) :
    (∃ n, looped body n ⟨[], []⟩ s = some (r, s')) ↔ Iter body ⟨[], []⟩ s r s' := by
  generalize (⟨[], []⟩ : Args V) = a
  constructor
  · rintro ⟨n, h⟩
    induction n generalizing a s with
    | zero => simp [looped] at h
    | succ n ih =>
      rw [looped] at h
      rcases hb : body a s with ⟨(e | (v | a' | v)), s1⟩ <;> simp only [hb] at h
      · simp at h; obtain ⟨rfl, rfl⟩ := h; exact .raises hb
      · simp at h; obtain ⟨rfl, rfl⟩ := h; exact .value hb
      · exact .again hb (ih _ _ h)
      · simp at h; obtain ⟨rfl, rfl⟩ := h; exact .brk hb
  · intro h
    induction h with
    | raises hb => exact ⟨1, by simp [looped, hb]⟩
    | value hb => exact ⟨1, by simp [looped, hb]⟩
    | brk hb => exact ⟨1, by simp [looped, hb]⟩
    | again hb _ ih => obtain ⟨n, h⟩ := ih; exact ⟨n + 1, by simp [looped, hb, h]⟩

/-- sum of 0..9 -/
example : looped (σ := Unit) (ε := Unit) (fun a s =>
      match a.rets with
      | [acc, i] => (.ok (if i = 10 then .val acc else .loop ⟨[acc + i, i + 1], []⟩), s)
      | _ => (.ok (.loop ⟨[0, 0], []⟩), s)) 12 ⟨[], []⟩ () = some (.ok 45, ()) := rfl

end Unpy.Props
