import Verif.Spec.LazyCompose
/-!
# C145: composing functions in lazy code
-/
namespace Unpy.Props
open Unpy Unpy.Eff Unpy.LazyCompose Unpy.LazyCompose.Spec
variable {σ ε V P : Type}

private theorem forceAll_values (forceP : P → Eff σ ε V) : (args : List (Arg V P)) → forceAll forceP args = bind (values forceP args) fun vs => ret (vs.map .val)
  | [] => rfl
  | .val v :: as => by
    simp only [forceAll, values, forceAll_values forceP as, eff_assoc]
    rfl
  | .promise p :: as => by
    simp only [forceAll, values, forceAll_values forceP as, eff_assoc]
    rfl

private theorem values_map (forceP : P → Eff σ ε V) : (vs : List V) → values forceP (vs.map (Arg.val (P := P))) = ret vs
  | [] => rfl
  | v :: vs => by
    simp only [List.map_cons, values, values_map forceP vs]
    rfl

private theorem maybe_callWith (forceP : P → Eff σ ε V) (marks : Marks) (f : Fn σ ε V P) (args : List (Arg V P)) :
    maybeForce forceP marks f args = callWith forceP (islazy marks f) (f.call marks) args := by
  unfold maybeForce callWith
  split
  · rfl
  · rw [forceAll_values, eff_assoc]; rfl

private theorem maybe_vals (forceP : P → Eff σ ε V) (marks : Marks) (f : Fn σ ε V P) (vs : List V) : maybeForce forceP marks f (vs.map .val) = f.call marks (vs.map .val) := by
  rw [maybe_callWith, callWith, values_map]
  split <;> rfl

private theorem composed_eq (forceP : P → Eff σ ε V) (pack : List V → V) (unpack : Bool) (f g : Fn σ ε V P) (marks : Marks) (args : List (Arg V P)) :
    composedCall forceP pack unpack f g marks args = bind (maybeForce forceP marks g args) fun a => f.call marks ((passed pack unpack a).map .val) := by
  unfold composedCall
  refine bind_congr' _ fun a => ?_
  cases a with
  | one v => exact maybe_vals forceP marks f [v]
  | many vs =>
    simp only [passed]
    split
    · exact maybe_vals forceP marks f vs
    · exact maybe_vals forceP marks f [pack vs]

private theorem onward_append (pack : List V → V) (unpack : Bool) : (fs gs : List (List (Arg V P) → Eff σ ε (Out V))) → (o : Out V) →
    onward pack unpack (fs ++ gs) o = bind (onward pack unpack fs o) (onward pack unpack gs)
  | [], gs, o => rfl
  | f :: fs, gs, o => by
    simp only [List.cons_append, onward, eff_assoc]
    exact bind_congr' _ fun a => onward_append pack unpack fs gs a

private theorem loop_id (forceP : P → Eff σ ε V) (pack : List V → V) (unpack right : Bool) : (fs : List (Fn σ ε V P)) → (acc : Fn σ ε V P) → (next : Nat) →
    (loop forceP pack unpack right acc next fs).2 = next + fs.length ∧ (fs ≠ [] → (loop forceP pack unpack right acc next fs).1.id + 1 = next + fs.length)
  | [], acc, next => ⟨rfl, fun h => absurd rfl h⟩
  | f :: fs, acc, next => by
    obtain ⟨h1, h2⟩ := loop_id forceP pack unpack right fs { id := next, call := if right then composedCall forceP pack unpack acc f else composedCall forceP pack unpack f acc } (next + 1)
    simp only [loop]
    refine ⟨by rw [h1, List.length_cons]; omega, fun _ => ?_⟩
    cases fs with
    | nil => rfl
    | cons g gs => rw [h2 (by simp), List.length_cons]; simp only [List.length_cons]; omega

/-- From right to left: the last function is called with the arguments. -/
private theorem loop_right (forceP : P → Eff σ ε V) (pack : List V → V) (unpack : Bool) (marks : Marks) : (fs : List (Fn σ ε V P)) → (acc f : Fn σ ε V P) → (next : Nat) → (args : List (Arg V P)) →
    (loop forceP pack unpack true acc next (fs ++ [f])).1.call marks args =
      bind (maybeForce forceP marks f args) (onward pack unpack ((fs.reverse ++ [acc]).map fun g => g.call marks))
  | [], acc, f, next, args => by
    simp only [List.nil_append, loop, if_true, composed_eq, List.reverse_nil, List.map_cons, List.map_nil]
    refine bind_congr' _ fun a => ?_
    simp only [onward]
    exact (eff_bind_ret _).symm
  | g :: fs, acc, f, next, args => by
    simp only [List.cons_append, loop, if_true]
    rw [loop_right forceP pack unpack marks fs]
    refine bind_congr' _ fun a => ?_
    simp only [List.map_append, List.map_cons, List.map_nil, List.reverse_cons, List.append_assoc]
    rw [onward_append, onward_append]
    refine bind_congr' _ fun b => ?_
    simp only [List.cons_append, List.nil_append, onward]
    rw [eff_bind_ret]
    show composedCall _ _ _ _ _ _ _ = _
    rw [composed_eq, maybe_vals]
    exact bind_congr' _ fun c => (eff_bind_ret _).symm

private theorem force_twice (forceP : P → Eff σ ε V) (p : Prop) [Decidable p] (args : List (Arg V P)) :
    bind (if p then ret args else forceAll forceP args) (forceAll forceP) = forceAll forceP args := by
  split
  · rfl
  · rw [forceAll_values, eff_assoc]
    refine bind_congr' _ fun vs => ?_
    rw [eff_ret_bind, forceAll_values, values_map]
    rfl

/-- From left to right: all but the last step are inside of one function. -/
private theorem loop_left (forceP : P → Eff σ ε V) (pack : List V → V) (unpack : Bool) (marks : Marks) : (fs : List (Fn σ ε V P)) → (acc f : Fn σ ε V P) → (next : Nat) →
    (hm : ∀ i, next ≤ i → i ∉ marks ∨ i + 1 = next + fs.length + 1) → (args : List (Arg V P)) →
    (loop forceP pack unpack false acc next (f :: fs)).1.call marks args =
      bind (if fs = [] then ret args else forceAll forceP args) fun args' => bind (maybeForce forceP marks acc args') (onward pack unpack ((f :: fs).map fun g => g.call marks))
  | [], acc, f, next, hm, args => by
    simp only [loop, if_true, Bool.false_eq_true, if_false, List.map_cons, List.map_nil]
    rw [composed_eq, eff_ret_bind]
    exact bind_congr' _ fun a => (eff_bind_ret _).symm
  | g :: fs, acc, f, next, hm, args => by
    rw [loop]
    rw [loop_left forceP pack unpack marks fs _ g (next + 1) (fun i hi => by
      rcases hm i (by omega) with h | h
      · exact .inl h
      · right; rw [h, List.length_cons]; omega)]
    have hn : ∀ c, islazy marks ({ id := next, call := c } : Fn σ ε V P) = false := fun c => by
      have : next ∉ marks := by
        rcases hm next (Nat.le_refl _) with h | h
        · exact h
        · simp only [List.length_cons] at h; omega
      simp [islazy, this]
    simp only [Bool.false_eq_true, if_false, reduceCtorEq]
    have step : ∀ args', maybeForce forceP marks { id := next, call := composedCall forceP pack unpack f acc } args' =
        bind (forceAll forceP args') fun a => bind (maybeForce forceP marks acc a) fun o => f.call marks ((passed pack unpack o).map .val) := fun args' => by
      rw [maybeForce, hn, if_neg (by simp)]
      exact bind_congr' _ fun a => composed_eq forceP pack unpack f acc marks a
    simp only [step, eff_assoc]
    rw [← eff_assoc, force_twice]
    refine bind_congr' _ fun a => bind_congr' _ fun o => ?_
    rfl

private theorem islazy_not (marks : Marks) (f : Fn σ ε V P) (h : f.isLet = false) : islazy marks f = marks.contains f.id := by simp [islazy, h]

/-- C145, from right to left, of two or more functions.  Calling the composition with any arguments (values and promises) is calling the last function with them (as they are if it has been marked, else their values), and then the others in
turn.  In lazy code the composition itself is given the promises as they are, and all functions there were before are marked as before.  (Missing: functions called `_let`, see `C145_let_refuted`; one function, see `C145_one_refuted`.) -/
theorem C145_right_partial (forceP : P → Eff σ ε V) (pack : List V → V) (unpack : Bool) (marks : Marks) (next : Nat) (f0 : Fn σ ε V P) (fs : List (Fn σ ε V P)) (f : Fn σ ε V P) (hl : f.isLet = false) :
    ∃ c marks' next', compose forceP pack unpack true marks next (f0 :: (fs ++ [f])) = .ok (c, marks', next') ∧
      (∀ args, maybeForce forceP marks' c args = bind (callWith forceP (marks'.contains f.id) (f.call marks') args) (onward pack unpack ((fs.reverse ++ [f0]).map fun g => g.call marks'))) ∧
      ∀ i, i < next → marks'.contains i = marks.contains i := by
  obtain ⟨_, h2⟩ := loop_id forceP pack unpack true (fs ++ [f]) f0 next
  have h2 := h2 (by simp)
  refine ⟨_, _, _, rfl, fun args => ?_, fun i hi => ?_⟩
  · rw [maybeForce, if_pos (by simp [islazy]), loop_right, maybe_callWith, islazy_not _ _ hl]
  · simp only [List.length_append, List.length_singleton] at h2
    have : ¬ i = (loop forceP pack unpack true f0 next (fs ++ [f])).1.id := by omega
    rw [List.contains_cons]
    simp [this]

/-- C145, from left to right, of two functions, or where the first function has not been marked.  (Missing: three or more functions of which the first has been marked, see `C145_left_refuted`; functions called `_let`; one function.) -/
theorem C145_left_partial (forceP : P → Eff σ ε V) (pack : List V → V) (unpack : Bool) (marks : Marks) (next : Nat) (hm : ∀ i ∈ marks, i < next) (f g : Fn σ ε V P) (fs : List (Fn σ ε V P)) (hf : f.id < next) (hl : f.isLet = false)
    (h : fs = [] ∨ f.id ∉ marks) :
    ∃ c marks' next', compose forceP pack unpack false marks next (f :: g :: fs) = .ok (c, marks', next') ∧
      (∀ args, maybeForce forceP marks' c args = bind (callWith forceP (marks'.contains f.id) (f.call marks') args) (onward pack unpack ((g :: fs).map fun g => g.call marks'))) ∧
      ∀ i, i < next → marks'.contains i = marks.contains i := by
  obtain ⟨_, h2⟩ := loop_id forceP pack unpack false (g :: fs) f next
  have h2 := h2 (by simp)
  have hold : ∀ i, i < next → ((loop forceP pack unpack false f next (g :: fs)).1.id :: marks).contains i = marks.contains i := fun i hi => by
    simp only [List.length_cons] at h2
    have : ¬ i = (loop forceP pack unpack false f next (g :: fs)).1.id := by omega
    rw [List.contains_cons]
    simp [this]
  refine ⟨_, _, _, rfl, fun args => ?_, hold⟩
  rw [maybeForce, if_pos (by simp [islazy]), loop_left]
  · rcases h with rfl | h
    · rw [if_pos rfl, eff_ret_bind, maybe_callWith, islazy_not _ _ hl]
    · have hs : islazy ((loop forceP pack unpack false f next (g :: fs)).1.id :: marks) f = false := by
        rw [islazy_not _ _ hl, hold _ hf]
        simpa using h
      have key : bind (if fs = [] then ret args else forceAll forceP args) (fun a => maybeForce forceP ((loop forceP pack unpack false f next (g :: fs)).1.id :: marks) f a) =
          callWith forceP (((loop forceP pack unpack false f next (g :: fs)).1.id :: marks).contains f.id) (f.call ((loop forceP pack unpack false f next (g :: fs)).1.id :: marks)) args := by
        simp only [maybeForce, hs, Bool.false_eq_true, if_false]
        rw [← eff_assoc, force_twice, callWith, hold _ hf, if_neg (by simpa using h), forceAll_values, eff_assoc]
        rfl
      rw [← key, eff_assoc]
  · intro i hi
    by_cases hc : i = (loop forceP pack unpack false f next (g :: fs)).1.id
    · right
      simp only [List.length_cons] at h2
      omega
    · left
      intro hmem
      rcases List.mem_cons.mp hmem with h | h
      · exact hc h
      · exact absurd (hm i h) (by omega)

/-- C145: what three or more functions, composed from left to right, do instead: all promises are forced first, also if the first function has been marked and does not use them. -/
theorem C145_left_forces (forceP : P → Eff σ ε V) (pack : List V → V) (unpack : Bool) (marks : Marks) (next : Nat) (hm : ∀ i ∈ marks, i < next) (f g h : Fn σ ε V P) (fs : List (Fn σ ε V P)) :
    ∃ c marks' next', compose forceP pack unpack false marks next (f :: g :: h :: fs) = .ok (c, marks', next') ∧
      ∀ args, maybeForce forceP marks' c args = bind (values forceP args) fun vs => bind (f.call marks' (vs.map .val)) (onward pack unpack ((g :: h :: fs).map fun g => g.call marks')) := by
  obtain ⟨_, h2⟩ := loop_id forceP pack unpack false (g :: h :: fs) f next
  have h2 := h2 (by simp)
  refine ⟨_, _, _, rfl, fun args => ?_⟩
  rw [maybeForce, if_pos (by simp [islazy]), loop_left]
  · rw [if_neg (by simp), forceAll_values, eff_assoc]
    refine bind_congr' _ fun vs => ?_
    rw [eff_ret_bind, maybe_vals]
  · intro i hi
    by_cases hc : i = (loop forceP pack unpack false f next (g :: h :: fs)).1.id
    · right
      simp only [List.length_cons] at h2 ⊢
      omega
    · left
      intro hmem
      rcases List.mem_cons.mp hmem with h | h
      · exact hc h
      · exact absurd (hm i h) (by omega)

/-- C145 is false of three functions that are composed from left to right, with a first one that has been marked and does not use its argument: called with a promise that cannot be kept, the functions in turn return a value, and the
composition raises the exception of the promise. -/
theorem C145_left_refuted (e : ε) (p : P) (v : V) (s : σ) (pack : List V → V) (unpack : Bool) :
    let forceP : P → Eff σ ε V := fun _ => raise e
    let first : Fn σ ε V P := { id := 0, call := fun _ _ => ret (.one v) }
    let other : Nat → Fn σ ε V P := fun i => { id := i, call := fun _ args => bind (values forceP args) fun vs => ret (.many vs) }
    ∃ c marks' next', compose forceP pack unpack false [0] 3 [first, other 1, other 2] = .ok (c, marks', next') ∧
      (maybeForce forceP marks' c [.promise p] s).1 = .error e ∧
      (bind (callWith forceP ([0].contains first.id) (first.call [0]) [.promise p]) (onward pack unpack [(other 1).call [0]]) s).1 = .ok (.many [v]) := by
  intro forceP first other
  obtain ⟨c, marks', next', h1, h2⟩ := C145_left_forces forceP pack unpack [0] 3 (by simp) first (other 1) (other 2) []
  refine ⟨c, marks', next', h1, ?_, rfl⟩
  rw [h2]
  rfl

/-- C145 is false of one function: it is returned itself, and marked.  Then it is given promises, in the composition and wherever else it is called in lazy code. -/
theorem C145_one_refuted (forceP : P → Eff σ ε V) (pack : List V → V) (unpack right : Bool) (marks : Marks) (next : Nat) (f : Fn σ ε V P) (hl : f.isLet = false) (hs : f.id ∉ marks) :
    (∀ args, maybeForce forceP marks f args = bind (values forceP args) fun vs => f.call marks (vs.map .val)) ∧
    ∃ marks', compose forceP pack unpack right marks next [f] = .ok (f, marks', next) ∧ ∀ args, maybeForce forceP marks' f args = f.call marks' args := by
  refine ⟨fun args => ?_, _, rfl, fun args => ?_⟩
  · rw [maybe_callWith, islazy_not _ _ hl, callWith, if_neg (by simpa using hs)]
  · rw [maybeForce, if_pos (by simp [islazy, loop])]

/-- C145 is false of functions called `_let`: they are given promises, though they have not been marked. -/
theorem C145_let_refuted (forceP : P → Eff σ ε V) (marks : Marks) (f : Fn σ ε V P) (hl : f.isLet = true) (args : List (Arg V P)) : maybeForce forceP marks f args = f.call marks args := by
  rw [maybeForce, if_pos (by simp [islazy, hl])]

/-- C145, `flip`: a function that has been marked is given the arguments as they are, in reverse; others are given their values, which are computed in the order of the call.  The flipped function is a new one, and is not any
of those that are made later.  (Missing: functions called `_let`.) -/
theorem C145_flip_partial (forceP : P → Eff σ ε V) (marks : Marks) (next : Nat) (hm : ∀ i ∈ marks, i < next) (f : Fn σ ε V P) (hf : f.id < next) (hl : f.isLet = false) (args : List (Arg V P)) :
    let r := LazyCompose.flip forceP marks next f
    maybeForce forceP r.2.1 r.1 args =
      (if marks.contains f.id then f.call r.2.1 args.reverse else bind (values forceP args) fun vs => f.call r.2.1 (vs.reverse.map .val)) ∧
    (∀ i, i < next → r.2.1.contains i = marks.contains i) ∧ (next ≤ r.1.id ∧ r.1.id < r.2.2 ∧ ∀ i ∈ r.2.1, i < r.2.2) := by
  have hn : next ∉ marks := fun h => absurd (hm next h) (Nat.lt_irrefl _)
  have hne : ¬ f.id = next := by omega
  simp only [LazyCompose.flip, islazy_not _ _ hl]
  by_cases hc : marks.contains f.id = true
  · rw [if_pos hc, if_pos hc]
    refine ⟨?_, fun i hi => ?_, Nat.le_refl _, Nat.lt_succ_self _, fun i hi => ?_⟩
    · rw [maybeForce, if_pos (by simp [islazy])]
      simp only
      rw [maybeForce, if_pos (by simp [islazy]; exact .inl (.inr (by simpa using hc)))]
    · rw [List.contains_cons]
      have : ¬ i = next := by omega
      simp [this]
    · rcases List.mem_cons.mp hi with rfl | h
      · exact Nat.lt_succ_self _
      · exact Nat.lt_succ_of_lt (hm i h)
  · rw [if_neg hc, if_neg hc]
    refine ⟨?_, fun i hi => rfl, Nat.le_refl _, Nat.lt_succ_self _, fun i hi => Nat.lt_succ_of_lt (hm i hi)⟩
    rw [maybe_callWith, callWith, if_neg (by simp [islazy, hl, hn])]
    refine bind_congr' _ fun vs => ?_
    simp only [← List.map_reverse]
    exact maybe_vals forceP marks f vs.reverse

/-! ## examples: the hypotheses can be met -/

/-- Functions that write down that they are called (state: a list of numbers), and add one to each argument; promises write themselves down, and have their number as value. -/
private def noting : Nat → Eff (List Nat) String Nat := fun p s => (.ok p, s ++ [p])
private def adder (i : Nat) : Fn (List Nat) String Nat Nat := { id := i, call := fun _ args => bind (values noting args) fun vs s => (.ok (.many (vs.map (· + 1))), s ++ [100 + i]) }
/-- marked, and does not use its arguments -/
private def nine : Fn (List Nat) String Nat Nat := { id := 7, call := fun _ _ s => (.ok (.one 9), s ++ [107]) }

example : ∃ c m n, compose noting (·.sum) true true [7] 10 [adder 1, adder 2, nine] = .ok (c, m, n) ∧ (∀ args s, maybeForce noting m c args s = (.ok (.many [11]), s ++ [107, 102, 101])) := by
  obtain ⟨c, m, n, h1, h2, h3⟩ := C145_right_partial noting (·.sum) true [7] 10 (adder 1) [adder 2] nine rfl
  refine ⟨c, m, n, h1, fun args s => ?_⟩
  rw [h2, show m.contains nine.id = true from h3 7 (by omega)]
  simp [callWith, nine, onward, Eff.bind, passed, adder, values, ret]
example : ∀ i ∈ [7], i < 10 := by decide
example : (adder 1).id < 10 ∧ (adder 1).isLet = false ∧ (adder 1).id ∉ [7] := by decide
example : ∃ c m n, compose noting (·.sum) true false [7] 10 [adder 1, adder 2, nine] = .ok (c, m, n) ∧ (maybeForce noting m c [.promise 3, .val 4] []) = (.ok (.one 9), [3, 101, 102, 107]) := ⟨_, _, _, rfl, rfl⟩

end Unpy.Props
