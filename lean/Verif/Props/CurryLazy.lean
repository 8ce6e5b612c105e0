import Verif.Model.CurryLazy
import Verif.Spec.LazyCompose
/-!
# C153: curried functions in lazy code
-/
namespace Unpy.Props
open Unpy.Eff Unpy.CurryLazy
open Unpy.LazyCompose (Arg forceAll)
open Unpy.LazyCompose.Spec (values)
variable {σ ε V P : Type}

private theorem force_values (forceP : P → Eff σ ε V) (args : List (Arg V P)) :
    forceAll forceP args = bind (values forceP args) fun vs => ret (vs.map .val) := by
  induction args with
  | nil => rfl
  | cons a args ih =>
    cases a with
    | val v => simp only [forceAll, values, ih, eff_assoc, eff_ret_bind, List.map_cons]
    | promise p =>
      simp only [forceAll, values, eff_assoc]
      refine bind_congr' _ fun v => ?_
      rw [ih]
      simp only [eff_assoc, eff_ret_bind, List.map_cons]

private theorem values_append (forceP : P → Eff σ ε V) (as bs : List (Arg V P)) :
    values forceP (as ++ bs) = bind (values forceP as) fun vs => bind (values forceP bs) fun ws => ret (vs ++ ws) := by
  induction as with
  | nil => simp only [List.nil_append, values, eff_ret_bind]; exact (eff_bind_ret _).symm
  | cons a as ih =>
    cases a with
    | val v => simp only [List.cons_append, values, ih, eff_assoc, eff_ret_bind]
    | promise p =>
      simp only [List.cons_append, values, eff_assoc]
      refine bind_congr' _ fun v => ?_
      rw [ih]
      simp only [eff_assoc, eff_ret_bind, List.cons_append]

private theorem length_values (forceP : P → Eff σ ε V) {α : Type} (as : List (Arg V P)) (k l : List V → Eff σ ε α) (h : ∀ vs, vs.length = as.length → k vs = l vs) :
    bind (values forceP as) k = bind (values forceP as) l := by
  induction as generalizing k l with
  | nil => simp only [values, eff_ret_bind]; exact h [] rfl
  | cons a as ih =>
    cases a with
    | val v =>
      simp only [values, eff_assoc, eff_ret_bind]
      exact ih _ _ fun vs hvs => h (v :: vs) (by simp [hvs])
    | promise p =>
      simp only [values, eff_assoc, eff_ret_bind]
      refine bind_congr' _ fun v => ?_
      exact ih _ _ fun vs hvs => h (v :: vs) (by simp [hvs])

private theorem call_marked (W : World σ ε V P) (d : Nat) {f : V} {F : Fn σ ε V P} (hf : W.fns f = some F) (hl : F.lazy = true) (before args : List (Arg V P)) :
    call W (d + 1) (.curried f before) args =
      if (before ++ args).length < F.arity then
        if check F before args then ret (.curried f (before ++ args)) else raise W.typeError
      else bind (F.body ((before ++ args).take F.arity)) fun r =>
        if (before ++ args).length = F.arity then ret (.val r)
        else match W.fns r with
          | some _ => callCurried W d r [] ((before ++ args).drop F.arity)
          | none => raise W.typeError := by
  simp only [call, callCurried, hf, pass, hl, if_true, eff_ret_bind]
  rfl

private theorem chain_marked (W : World σ ε V P) (d : Nat) {f : V} {F : Fn σ ε V P} (hf : W.fns f = some F) (hl : F.lazy = true) (ha : F.annotated = false)
    (init : List (List (Arg V P))) (before : List (Arg V P)) (h : (before ++ init.flatten).length < F.arity) (rest : List (List (Arg V P))) :
    chain W (d + 1) (.curried f before) (init ++ rest) = chain W (d + 1) (.curried f (before ++ init.flatten)) rest := by
  induction init generalizing before with
  | nil => simp
  | cons args init ih =>
    have h' : (before ++ args).length < F.arity := by
      simp only [List.flatten_cons, List.length_append] at h ⊢; omega
    rw [List.cons_append, chain, call_marked W d hf hl, if_pos h', if_pos (by simp [check, ha]), eff_ret_bind,
      ih (before ++ args) (by simpa [List.append_assoc] using h)]
    simp [List.append_assoc]

/-- C153: a curried function that is defined in a `with lazify` block (so it is marked) and has no annotations may be given its arguments in any number of calls.
It is called with the arguments as they were given: currying does not evaluate any of them.  If it is given all the arguments in one call, it may have
annotations.  (Missing: functions with annotations, see `C153_annotated_refuted`.) -/
theorem C153_marked_partial (W : World σ ε V P) (d : Nat) (f : V) (F : Fn σ ε V P) (hf : W.fns f = some F) (hl : F.lazy = true)
    (init : List (List (Arg V P))) (last : List (Arg V P)) (hi : init = [] ∨ (F.annotated = false ∧ init.flatten.length < F.arity))
    (hn : (init.flatten ++ last).length = F.arity) :
    chain W (d + 1) (.curried f []) (init ++ [last]) = bind (F.body (init.flatten ++ last)) fun r => ret (.val r) := by
  have key : chain W (d + 1) (.curried f []) (init ++ [last]) = chain W (d + 1) (.curried f init.flatten) [last] := by
    rcases hi with rfl | ⟨ha, hi⟩
    · rfl
    · exact chain_marked W d hf hl ha init [] (by simpa using hi) [last]
  rw [key]
  simp only [chain]
  rw [call_marked W d hf hl, if_neg (by omega), List.take_of_length_le (by omega), eff_assoc]
  refine bind_congr' _ fun r => ?_
  rw [if_pos hn, eff_ret_bind]

/-- C153: if such a function gets more arguments than it has parameters, and returns a function, then that one is curried and gets the arguments that are left, as they were given;
if it returns anything else, there is a TypeError.  (Missing: functions defined elsewhere, see `C153_rest_refuted`.) -/
theorem C153_rest_partial (W : World σ ε V P) (d : Nat) (f : V) (F : Fn σ ε V P) (hf : W.fns f = some F) (hl : F.lazy = true)
    (init : List (List (Arg V P))) (last : List (Arg V P)) (hi : init = [] ∨ (F.annotated = false ∧ init.flatten.length < F.arity))
    (hn : F.arity < (init.flatten ++ last).length) :
    chain W (d + 2) (.curried f []) (init ++ [last]) =
      bind (F.body ((init.flatten ++ last).take F.arity)) fun r => match W.fns r with
        | some _ => chain W (d + 1) (.curried r []) [(init.flatten ++ last).drop F.arity]
        | none => raise W.typeError := by
  have key : chain W (d + 2) (.curried f []) (init ++ [last]) = chain W (d + 2) (.curried f init.flatten) [last] := by
    rcases hi with rfl | ⟨ha, hi⟩
    · rfl
    · exact chain_marked W (d + 1) hf hl ha init [] (by simpa using hi) [last]
  rw [key]
  simp only [chain]
  rw [call_marked W (d + 1) hf hl, if_neg (by omega), eff_assoc]
  refine bind_congr' _ fun r => ?_
  rw [if_neg (by omega)]
  cases hr : W.fns r with
  | none => rfl
  | some G => rfl

private theorem chain_strict (W : World σ ε V P) (d : Nat) {f : V} {F : Fn σ ε V P} (hf : W.fns f = some F) (hl : F.lazy = false) (ha : F.annotated = false)
    (init : List (List (Arg V P))) (before : List (Arg V P)) (h : (before ++ init.flatten).length < F.arity) (rest : List (List (Arg V P))) :
    chain W (d + 1) (.curried f before) (init ++ rest) =
      bind (values W.forceP init.flatten) fun vs => chain W (d + 1) (.curried f (before ++ vs.map .val)) rest := by
  induction init generalizing before with
  | nil => simp [values, eff_ret_bind]
  | cons args init ih =>
    have e : call W (d + 1) (.curried f before) args = bind (values W.forceP args) fun vs => ret (.curried f (before ++ vs.map .val)) := by
      simp only [call, callCurried, hf, pass, hl, force_values, eff_assoc, eff_ret_bind, Bool.false_eq_true, if_false]
      refine length_values _ _ _ _ fun vs hvs => ?_
      simp only [List.flatten_cons, List.length_append] at h
      rw [if_pos (by simp [hvs]; omega), if_pos (by simp [check, ha])]
    rw [List.cons_append, chain, e, List.flatten_cons, values_append]
    simp only [eff_assoc, eff_ret_bind]
    refine length_values _ _ _ _ fun vs hvs => ?_
    rw [ih _ (by simp [hvs] at h ⊢; omega)]
    refine bind_congr' _ fun ws => ?_
    simp [List.append_assoc]

/-- C153: any other curried function without annotations is called with the values of its arguments, which are evaluated in their order, those of each call when it is made.
(Missing: functions with annotations, see C131, and arguments that are left over, see `C153_rest_refuted`.) -/
theorem C153_strict_partial (W : World σ ε V P) (d : Nat) (f : V) (F : Fn σ ε V P) (hf : W.fns f = some F) (hl : F.lazy = false)
    (init : List (List (Arg V P))) (last : List (Arg V P)) (hi : init = [] ∨ (F.annotated = false ∧ init.flatten.length < F.arity))
    (hn : (init.flatten ++ last).length = F.arity) :
    chain W (d + 1) (.curried f []) (init ++ [last]) =
      bind (values W.forceP (init.flatten ++ last)) fun vs => bind (F.body (vs.map .val)) fun r => ret (.val r) := by
  have key : chain W (d + 1) (.curried f []) (init ++ [last]) =
      bind (values W.forceP init.flatten) fun vs => chain W (d + 1) (.curried f (vs.map .val)) [last] := by
    rcases hi with rfl | ⟨ha, hi⟩
    · simp [values, eff_ret_bind]
    · exact chain_strict W d hf hl ha init [] (by simpa using hi) [last]
  rw [key, values_append, eff_assoc]
  refine length_values _ _ _ _ fun vs hvs => ?_
  simp only [chain, call, callCurried, hf, pass, hl, force_values, eff_assoc, eff_ret_bind, Bool.false_eq_true, if_false]
  refine length_values _ _ _ _ fun ws hws => ?_
  simp only [List.length_append] at hn
  have hlen : (vs.map (Arg.val (P := P)) ++ ws.map (Arg.val (P := P))).length = F.arity := by
    rw [List.length_append, List.length_map, List.length_map, hvs, hws]; exact hn
  rw [if_neg (by omega), List.take_of_length_le (by omega), eff_assoc, ← List.map_append]
  refine bind_congr' _ fun r => ?_
  rw [List.map_append, if_pos hlen, eff_ret_bind]

private theorem types_promise (ann : Nat → Option (V → Bool)) (args : List (Arg V P)) (j i : Nat) (t : V → Bool) (p : P) (h : args[i]? = some (.promise p)) (ha : ann (j + i) = some t) :
    typesOk ann j args = false := by
  induction args generalizing i j with
  | nil => simp at h
  | cons a args ih =>
    cases i with
    | zero =>
      simp at h; subst h
      rw [Nat.add_zero] at ha
      simp [typesOk, ha, isoftype]
    | succ i =>
      simp at h
      rw [typesOk, ih (j + 1) i h (by rw [← ha]; congr 1; omega), Bool.and_false]

/-- C153 is violated by functions with annotations: if a curried function that is defined in a `with lazify` block gets a promise for a parameter that has an annotation, and not all of its arguments
in the same call, there is a TypeError, whatever the value of the promise is.  With all the arguments in one call, the function is called. -/
theorem C153_annotated_refuted (W : World σ ε V P) (d : Nat) (f : V) (F : Fn σ ε V P) (hf : W.fns f = some F) (hl : F.lazy = true) (ha : F.annotated = true)
    (args more : List (Arg V P)) (hn : (args ++ more).length = F.arity) (hm : more ≠ []) (i : Nat) (p : P) (hp : args[i]? = some (.promise p)) (t : V → Bool) (ht : F.ann i = some t) :
    chain W (d + 1) (.curried f []) [args, more] = raise W.typeError ∧
    chain W (d + 1) (.curried f []) [args ++ more] = bind (F.body (args ++ more)) fun r => ret (.val r) := by
  refine ⟨?_, C153_marked_partial W d f F hf hl [] (args ++ more) (.inl rfl) hn⟩
  have hlt : args.length < F.arity := by
    have := List.length_pos_iff.mpr hm
    simp only [List.length_append] at hn; omega
  rw [chain, call_marked W d hf hl, List.nil_append, if_pos hlt, if_neg ?_]
  · rfl
  · simp [check, ha, types_promise F.ann args 0 i t p hp (by simpa using ht)]

/-- C153 is violated by functions defined elsewhere that return functions: when they get more arguments than they have parameters, those left over are evaluated at once.  Here `f(1)` returns a function
defined in the block that does not use its argument.  `f(1)(p)` returns 9, but `f(1, p)` raises the exception of the promise `p`. -/
theorem C153_rest_refuted (e : ε) (W : World σ ε Nat P) (hp : ∀ p, W.forceP p = raise e)
    (hf : W.fns 0 = some ⟨1, false, false, fun _ => none, fun _ => ret 1⟩) (hg : W.fns 1 = some ⟨1, true, false, fun _ => none, fun _ => ret 9⟩) (p : P) (d : Nat) :
    chain W (d + 2) (.curried 0 []) [[.val 1], [.promise p]] = ret (.val 9) ∧
    chain W (d + 2) (.curried 0 []) [[.val 1, .promise p]] = raise e := by
  constructor
  · simp [chain, call, callCurried, hf, hg, pass, forceAll, eff_ret_bind]
  · simp [chain, call, callCurried, hf, pass, forceAll, hp, eff_ret_bind]
    rfl

private theorem types_iff (ann : Nat → Option (V → Bool)) (args : List (Arg V P)) (j : Nat) :
    typesOk ann j args = true ↔ ∀ i a t, args[i]? = some a → ann (j + i) = some t → ∃ v, a = .val v ∧ t v = true := by
  induction args generalizing j with
  | nil => simp [typesOk]
  | cons b args ih =>
    rw [typesOk, Bool.and_eq_true, ih (j + 1)]
    constructor
    · rintro ⟨h0, h⟩ i a t hi ht
      cases i with
      | zero =>
        simp at hi; subst hi
        rw [Nat.add_zero] at ht
        cases b with
        | val v => exact ⟨v, rfl, by simpa [ht, isoftype] using h0⟩
        | promise p => simp [ht, isoftype] at h0
      | succ i => exact h i a t (by simpa using hi) (by rw [← ht]; congr 1; omega)
    · intro h
      refine ⟨?_, fun i a t hi ht => h (i + 1) a t (by simpa using hi) (by rw [← ht]; congr 1; omega)⟩
      cases ht : ann j with
      | none => rfl
      | some t =>
        obtain ⟨v, rfl, hv⟩ := h 0 b t rfl (by simpa using ht)
        simpa [isoftype] using hv

/-- C153: a curried function that is defined in a `with lazify` block and has annotations can get its arguments in two calls if those of the first call that are for parameters with
an annotation are values (not promises) of its type.  (Missing: the others, see `C153_annotated_refuted` and `C153_annotated_again`.) -/
theorem C153_annotated_partial (W : World σ ε V P) (d : Nat) (f : V) (F : Fn σ ε V P) (hf : W.fns f = some F) (hl : F.lazy = true)
    (args more : List (Arg V P)) (hn : (args ++ more).length = F.arity) (hm : more ≠ [])
    (ht : ∀ i a t, args[i]? = some a → F.ann i = some t → ∃ v, a = .val v ∧ t v = true) :
    chain W (d + 1) (.curried f []) [args, more] = bind (F.body (args ++ more)) fun r => ret (.val r) := by
  have hlt : args.length < F.arity := by
    have := List.length_pos_iff.mpr hm
    simp only [List.length_append] at hn; omega
  have hc : check F [] args = true := by
    have := (types_iff F.ann args 0).mpr (by simpa using ht)
    simp [check, this]; omega
  rw [chain, call_marked W d hf hl, List.nil_append, if_pos hlt, if_pos hc, eff_ret_bind, chain, call_marked W d hf hl,
    if_neg (by omega), List.take_of_length_le (by omega), eff_assoc]
  refine bind_congr' _ fun r => ?_
  rw [if_pos hn, eff_ret_bind]
  rfl

/-- C153: what is checked when a function with annotations that has got some of its arguments gets further ones, but not all: all the arguments collected are taken for arguments of the parameters that are
left.  The call is a TypeError if they are too many for those, or if one of them is not a value of the type of the parameter it is taken for. -/
theorem C153_annotated_again (W : World σ ε V P) (d : Nat) (f : V) (F : Fn σ ε V P) (hf : W.fns f = some F) (hl : F.lazy = true) (ha : F.annotated = true)
    (before args : List (Arg V P)) (hn : (before ++ args).length < F.arity) :
    ((before.length + (before.length + args.length) ≤ F.arity ∧
        ∀ i a t, (before ++ args)[i]? = some a → F.ann (before.length + i) = some t → ∃ v, a = .val v ∧ t v = true) →
      call W (d + 1) (.curried f before) args = ret (.curried f (before ++ args))) ∧
    (¬ (before.length + (before.length + args.length) ≤ F.arity ∧
        ∀ i a t, (before ++ args)[i]? = some a → F.ann (before.length + i) = some t → ∃ v, a = .val v ∧ t v = true) →
      call W (d + 1) (.curried f before) args = raise W.typeError) := by
  have hc : check F before args = true ↔ (before.length + (before.length + args.length) ≤ F.arity ∧
        ∀ i a t, (before ++ args)[i]? = some a → F.ann (before.length + i) = some t → ∃ v, a = .val v ∧ t v = true) := by
    rw [← types_iff]
    simp only [check, ha, Bool.not_true, Bool.false_or, Bool.and_eq_true, decide_eq_true_eq]
    rw [List.length_append] at hn ⊢
    constructor
    · rintro ⟨h, h'⟩; exact ⟨by omega, h'⟩
    · rintro ⟨h, h'⟩; exact ⟨by omega, h'⟩
  rw [call_marked W d hf hl, if_pos hn]
  exact ⟨fun h => if_pos (hc.mpr h), fun h => if_neg (fun h' => h (hc.mp h'))⟩

/-! ## examples: the hypotheses can be met -/

/-- 0: outside of the block, adds two numbers; 1: in the block, first of two (`def first(x: int, y)`); 2: in the block, returns the function 3; 3: in the block, adds; promises write themselves down -/
private def curryWorld : World (List Nat) String Nat Nat where
  fns v := match v with
    | 0 => some ⟨2, false, false, fun _ => none, fun as => bind (values noteC as) fun vs => ret vs.sum⟩
    | 1 => some ⟨2, true, true, fun i => if i = 0 then some (fun _ => true) else none, fun as => bind (values noteC (as.take 1)) fun vs => ret vs.sum⟩
    | 2 => some ⟨2, true, false, fun _ => none, fun _ => ret 3⟩
    | 3 => some ⟨1, true, false, fun _ => none, fun as => bind (values noteC as) fun vs => ret vs.sum⟩
    | _ => none
  forceP := noteC
  typeError := "TypeError"
  recursion := "RecursionError"
where noteC (p : Nat) : Eff (List Nat) String Nat := fun s => (.ok (p + 100), s ++ [p])

example : chain curryWorld 5 (.curried 0 []) [[.promise 7], [], [.promise 8]] [] = (.ok (.val 215), [7, 8]) := rfl
example : chain curryWorld 5 (.curried 1 []) [[.promise 7, .promise 8]] [] = (.ok (.val 107), [7]) := rfl
example : chain curryWorld 5 (.curried 1 []) [[.promise 7], [.promise 8]] [] = (.error "TypeError", []) := rfl
example : chain curryWorld 5 (.curried 2 []) [[.promise 7], [.promise 8, .promise 9]] [] = (.ok (.val 109), [9]) := rfl
example : chain curryWorld 5 (.curried 1 []) [[.val 7], [], [.promise 8]] [] = (.ok (.val 7), []) := rfl
example : chain curryWorld 5 (.curried 1 []) [[.val 7], [.promise 8]] [] = (.ok (.val 7), []) := rfl
example : ∃ F, curryWorld.fns 2 = some F ∧ F.lazy = true ∧ F.annotated = false ∧ F.arity = 2 := ⟨_, rfl, rfl, rfl, rfl⟩
example : ∃ F, curryWorld.fns 0 = some F ∧ F.lazy = false ∧ F.annotated = false ∧ F.arity = 2 := ⟨_, rfl, rfl, rfl, rfl⟩
example : ∃ F t, curryWorld.fns 1 = some F ∧ F.lazy = true ∧ F.annotated = true ∧ F.ann 0 = some t := ⟨_, _, rfl, rfl, rfl, rfl⟩
example : ∃ W : World Unit String Nat Nat, (∀ p, W.forceP p = raise "x") ∧ W.fns 0 = some ⟨1, false, false, fun _ => none, fun _ => ret 1⟩ ∧
    W.fns 1 = some ⟨1, true, false, fun _ => none, fun _ => ret 9⟩ :=
  ⟨⟨fun v => if v = 0 then some ⟨1, false, false, fun _ => none, fun _ => ret 1⟩ else some ⟨1, true, false, fun _ => none, fun _ => ret 9⟩, fun _ => raise "x", "t", "r"⟩,
    fun _ => rfl, rfl, rfl⟩

end Unpy.Props
