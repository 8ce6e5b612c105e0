import Verif.Spec.LazyCalls
/-!
# C155: functions of the library that call other functions, in lazy code
-/
namespace Unpy.Props
open Unpy.Eff Unpy.LazyCalls Unpy.LazyCalls.Spec
open Unpy.LazyCompose (Arg forceAll)
open Unpy.LazyCompose.Spec (values)
variable {σ ε V P : Type}

private theorem lc_force (forceP : P → Eff σ ε V) (args : List (Arg V P)) :
    forceAll forceP args = bind (values forceP args) fun vs => ret (vs.map .val) := by
  induction args with
  | nil => rfl
  | cons a args ih =>
    cases a with
    | val v => simp only [forceAll, values, ih, eff_assoc, eff_ret_bind, List.map_cons]
    | promise p =>
      simp only [forceAll, values, eff_assoc]
      refine bind_congr' _ fun v => ?_
      rw [ih]
      simp only [eff_assoc, eff_ret_bind, List.map_cons]

private theorem lc_values (forceP : P → Eff σ ε V) (vs : List V) : values forceP (vs.map (Arg.val (P := P))) = ret vs := by
  induction vs with
  | nil => rfl
  | cons v vs ih => simp only [List.map_cons, values, ih, eff_ret_bind]

private theorem lc_length (forceP : P → Eff σ ε V) {α : Type} (as : List (Arg V P)) (k l : List V → Eff σ ε α) (h : ∀ vs, vs.length = as.length → k vs = l vs) :
    bind (values forceP as) k = bind (values forceP as) l := by
  induction as generalizing k l with
  | nil => simp only [values, eff_ret_bind]; exact h [] rfl
  | cons a as ih =>
    cases a with
    | val v =>
      simp only [values, eff_assoc, eff_ret_bind]
      exact ih _ _ fun vs hvs => h (v :: vs) (by simp [hvs])
    | promise p =>
      simp only [values, eff_assoc, eff_ret_bind]
      refine bind_congr' _ fun v => ?_
      exact ih _ _ fun vs hvs => h (v :: vs) (by simp [hvs])

private theorem lc_call (W : World σ ε V P) (f : Fn σ ε V P) (args : List (Arg V P)) : callFn W f args = callWith W f args := by
  simp only [callFn, callWith, lc_force, eff_assoc, eff_ret_bind]

private theorem lc_vals (W : World σ ε V P) (f : Fn σ ε V P) (vs : List V) : callFn W f (vs.map .val) = f.call (vs.map .val) := by
  rw [lc_call, callWith, lc_values, eff_ret_bind]
  split <;> rfl

private theorem lc_wrapped (W : World σ ε V P) (f : Fn σ ε V P) (body : List (Arg V P) → Eff σ ε V) (args : List (Arg V P)) :
    callFn W { lazy := f.lazy, call := body } args = if f.lazy then body args else bind (values W.forceP args) fun vs => body (vs.map .val) := by
  rw [lc_call]; rfl

private theorem lc_maybe (W : World σ ε V P) (f : V) (args : List (Arg V P)) : maybeForce W f args = callValue W f args := by
  cases h : W.fns f with
  | none => simp only [maybeForce, callValue, h, lc_force, eff_assoc, eff_ret_bind]
  | some F => simp only [maybeForce, callValue, h]; exact lc_call _ _ _

private theorem lc_force1 (W : World σ ε V P) (a : Arg V P) : force1 W a = valueOf W a := by cases a <;> rfl

/-- C155: `call(f, *args)` and `callwith(*args)(f)` call the function (any expression may be given for it, it is evaluated), which gets the arguments as they are if it is marked, and otherwise their values. -/
theorem C155_call (W : World σ ε V P) (f : Arg V P) (args : List (Arg V P)) :
    call W f args = (bind (valueOf W f) fun v => callValue W v args) ∧ callwith W args f = (bind (valueOf W f) fun v => callValue W v args) := by
  refine ⟨?_, ?_⟩
  · simp only [call, lc_force1, lc_maybe]
  · cases f with
    | val v => simp only [callwith, forceAll, eff_ret_bind, lc_force1, lc_maybe]
    | promise p => simp only [callwith, forceAll, eff_assoc, eff_ret_bind, lc_force1, lc_maybe, valueOf]

/-- C155: `apply(f, *args, lst)`, where the list is written in the call, or is a value: the function gets the arguments and the items of the list, as they are if it is marked, and otherwise their values.
(Missing: lists that are promises, see `C155_apply_refuted`.) -/
theorem C155_apply_partial (W : World σ ε V P) (f : Arg V P) (args : List (Arg V P)) (lst : Last V P) (hl : ∀ p, lst ≠ .other (.promise p)) :
    apply W f args lst = bind (valueOf W f) fun v => bind (itemsOf W lst) fun items => callValue W v (args ++ items) := by
  have ht : tupleOf W lst = itemsOf W lst := by
    cases lst with
    | literal items => rfl
    | other a => cases a with
      | val v =>
        simp only [tupleOf, itemsOf, valueOf, eff_ret_bind]
        rfl
      | promise p => exact absurd rfl (hl p)
  simp only [apply, ht, lc_force1, lc_maybe]

/-- C155 is false of `apply` with a list that is a promise, such as the result of a call, or a parameter of the function where `apply` is called: there is a TypeError, whatever the list is. -/
theorem C155_apply_refuted (W : World σ ε V P) (f : V) (args : List (Arg V P)) (p : P) (v : V) (vs : List V) (hp : W.forceP p = ret v) (hv : W.items v = some vs) :
    apply W (.val f) args (.other (.promise p)) = raise W.typeError ∧
    (bind (itemsOf W (.other (.promise p))) fun items => callValue W f (args ++ items)) = callValue W f (args ++ vs.map .val) := by
  refine ⟨rfl, ?_⟩
  simp only [itemsOf, valueOf, hp, eff_ret_bind, hv]

/-- C155: `notf(f)` is marked if `f` is; it calls `f`, and returns the opposite truth value. -/
theorem C155_notf (W : World σ ε V P) (f : Fn σ ε V P) (args : List (Arg V P)) :
    callFn W (notf W f) args = bind (callWith W f args) fun v => ret (W.ofBool !W.truthy v) := by
  rw [notf, lc_wrapped, callWith]
  split
  · rename_i hl; rw [lc_call, callWith, if_pos hl]
  · rw [eff_assoc]; exact bind_congr' _ fun vs => by rw [lc_vals]

/-- C155: `andf(*fs)` evaluates none of its arguments itself.  It calls the functions in their order until one returns something falsey: each gets the arguments as they are if it is marked, and otherwise their values. -/
theorem C155_andf (W : World σ ε V P) (hb : ∀ b, W.truthy (W.ofBool b) = b) (fs : List (Fn σ ε V P)) (args : List (Arg V P)) :
    callFn W (andf W fs) args = conj W args fs := by
  have key : ∀ fs b, fs ≠ [] → W.truthy b = true → conjLoop W args b fs = conj W args fs := by
    intro fs
    induction fs with
    | nil => intro b h; exact absurd rfl h
    | cons f fs ih =>
      intro b _ h
      rw [conjLoop, if_pos h, lc_call]
      cases fs with
      | nil =>
        simp only [conj]
        refine bind_congr' _ fun v => ?_
        split <;> rfl
      | cons g gs =>
        simp only [conj]
        refine bind_congr' _ fun v => ?_
        split
        · rename_i hv; exact ih v (by simp) hv
        · rfl
  cases fs with
  | nil => rfl
  | cons f fs =>
    show conjLoop W args (W.ofBool true) (f :: fs) = _
    exact key _ _ (by simp) (hb true)

/-- C155: `orf(*fs)` evaluates none of its arguments itself.  It calls the functions in their order until one returns something truthy: each gets the arguments as they are if it is marked, and otherwise their values. -/
theorem C155_orf (W : World σ ε V P) (hb : ∀ b, W.truthy (W.ofBool b) = b) (fs : List (Fn σ ε V P)) (args : List (Arg V P)) :
    callFn W (orf W fs) args = disj W args fs := by
  have key : ∀ fs b, W.truthy b = false → disjLoop W args b fs = disj W args fs := by
    intro fs
    induction fs with
    | nil => intro b _; rfl
    | cons f fs ih =>
      intro b h
      rw [disjLoop, if_neg (by simp [h]), lc_call, disj]
      refine bind_congr' _ fun v => ?_
      split
      · rfl
      · rename_i hv; exact ih v (by simpa using hv)
  show disjLoop W args (W.ofBool false) fs = _
  exact key _ _ (hb false)

private theorem lc_rot {α : Type} (k : Int) (xs : List α) (hk : -(xs.length : Int) < k ∧ k < xs.length) :
    Rotated k xs (xs.drop (xs.length - (-k % xs.length).toNat) ++ xs.take (xs.length - (-k % xs.length).toNat)) := by
  have hjk : (-k) % (xs.length : Int) = if k ≤ 0 then -k else xs.length - k := by
    split
    · exact Int.emod_eq_of_lt (by omega) (by omega)
    · rw [← Int.add_emod_right, Int.emod_eq_of_lt (by omega) (by omega)]; omega
  have hik : ∀ i : Nat, i < xs.length → (((i : Int) + k) % xs.length).toNat =
      if (i : Int) + k < 0 then ((i : Int) + k + xs.length).toNat
      else if (i : Int) + k < xs.length then ((i : Int) + k).toNat else ((i : Int) + k - xs.length).toNat := by
    intro i hi
    split
    · rw [← Int.add_emod_right, Int.emod_eq_of_lt (by omega) (by omega)]
    · split
      · rw [Int.emod_eq_of_lt (by omega) (by omega)]
      · rw [← Int.sub_emod_right, Int.emod_eq_of_lt (by omega) (by omega)]
  refine ⟨by simp only [List.length_append, List.length_drop, List.length_take]; omega, fun i hi => ?_⟩
  rw [hik i hi, hjk, List.getElem?_append, List.length_drop]
  by_cases hk0 : k ≤ 0
  · rw [if_pos hk0]
    by_cases h1 : i < xs.length - (xs.length - (-k).toNat)
    · rw [if_pos h1, List.getElem?_drop, if_pos (by omega)]
      congr 1
      omega
    · rw [if_neg h1, List.getElem?_take, if_pos (by omega), if_neg (by omega), if_pos (by omega)]
      congr 1
      omega
  · rw [if_neg hk0]
    by_cases h1 : i < xs.length - (xs.length - ((xs.length : Int) - k).toNat)
    · rw [if_pos h1, List.getElem?_drop, if_neg (by omega), if_pos (by omega)]
      congr 1
      omega
    · rw [if_neg h1, List.getElem?_take, if_pos (by omega), if_neg (by omega), if_neg (by omega)]
      congr 1
      omega

/-- C155: `rotate(k)(f)` is marked if `f` is.  Then it gives `f` the arguments as they are, rotated; otherwise their values, which are evaluated in the order in which the arguments are given. -/
theorem C155_rotate (W : World σ ε V P) (k : Int) (f : Fn σ ε V P) (args : List (Arg V P)) (hk : -(args.length : Int) < k ∧ k < args.length) :
    (f.lazy = true → ∃ as, Rotated k args as ∧ callFn W (rotate W k f) args = f.call as) ∧
    (f.lazy = false → ∃ rot : List V → List V, (∀ vs, vs.length = args.length → Rotated k vs (rot vs)) ∧
      callFn W (rotate W k f) args = bind (values W.forceP args) fun vs => f.call ((rot vs).map .val)) := by
  have hn : ¬ args.length = 0 := by omega
  refine ⟨fun hl => ⟨_, lc_rot k args hk, ?_⟩, fun hl => ⟨fun vs => vs.drop (vs.length - (-k % vs.length).toNat) ++ vs.take (vs.length - (-k % vs.length).toNat), fun vs hvs => lc_rot k vs (by rw [hvs]; exact hk), ?_⟩⟩
  · rw [callFn, if_pos (by exact hl)]
    simp only [rotate]
    rw [if_neg hn, if_neg (by simpa using hk), callFn, if_pos hl]
  · rw [lc_call, callWith, if_neg (by simp [rotate, hl])]
    refine lc_length _ _ _ _ fun vs hvs => ?_
    simp only [rotate, List.length_map, hvs]
    rw [if_neg hn, if_neg (by simpa using hk), ← List.map_drop, ← List.map_take, ← List.map_append, lc_vals]

/-- C155: `rotate(k)(f)` of no arguments is a TypeError, and of too few an IndexError. -/
theorem C155_rotate_errors (W : World σ ε V P) (k : Int) (f : Fn σ ε V P) :
    callFn W (rotate W k f) [] = raise W.typeError ∧
    ∀ vs : List V, vs ≠ [] → ¬ (-(vs.length : Int) < k ∧ k < vs.length) → callFn W (rotate W k f) (vs.map .val) = raise W.indexError := by
  refine ⟨?_, fun vs hne hk => ?_⟩
  · rw [show ([] : List (Arg V P)) = ([] : List V).map .val from rfl, lc_vals]; rfl
  · rw [lc_vals]
    have : ¬ vs.length = 0 := by simpa using hne
    simp only [rotate, List.length_map]
    rw [if_neg this, if_pos hk]

/-- C155: `tokth(k, f)` of a function that is not marked evaluates its arguments, in order, and returns them, with the result of the function in the place of one of them.  (Missing: marked functions, see `C155_tokth_refuted`.) -/
theorem C155_tokth_partial (W : World σ ε V P) (k : Int) (f : Fn σ ε V P) (hl : f.lazy = false) (args : List (Arg V P)) (hk : -(args.length : Int) < k ∧ k < args.length) :
    ∃ j : Nat, j < args.length ∧ (j : Int) = (if 0 ≤ k then k else k + args.length) ∧
      tokth W k f args = bind (values W.forceP args) fun vs => match vs[j]? with
        | some v => bind (f.call [.val v]) fun w => ret ((vs.set j w).map .val)
        | none => raise W.indexError := by
  have hj : (k % args.length) = if 0 ≤ k then k else k + args.length := by
    split
    · exact Int.emod_eq_of_lt (by omega) (by omega)
    · rw [← Int.add_emod_right, Int.emod_eq_of_lt (by omega) (by omega)]
  refine ⟨(k % args.length).toNat, by rw [hj]; split <;> omega, by rw [hj]; split <;> omega, ?_⟩
  rw [tokth, if_neg (by simp [hl]), lc_force, eff_assoc]
  refine lc_length _ _ _ _ fun vs hvs => ?_
  simp only [eff_ret_bind, tokthBody, List.length_map, hvs]
  rw [if_neg (by omega), if_neg (by simpa using hk)]
  generalize hjj : (k % (args.length : Int)).toNat = j
  rw [List.getElem?_map]
  cases hv : vs[j]? with
  | none => rfl
  | some v =>
    simp only [Option.map_some]
    rw [show [Arg.val (P := P) v] = [v].map Arg.val from rfl, lc_vals]
    refine bind_congr' _ fun w => ?_
    have hlt : j < vs.length := (List.getElem?_eq_some_iff.mp hv).1
    rw [← List.map_take, ← List.map_drop, List.set_eq_take_append_cons_drop, if_pos hlt]
    simp

/-- C155 is false of `tokth` with a marked function: the arguments that it does not change are returned as they are, so the `Values` it returns contains promises that have not been evaluated (in the code: "return values are never implicitly lazy"). -/
theorem C155_tokth_refuted (W : World σ ε V P) (f : Fn σ ε V P) (hl : f.lazy = true) (a : Arg V P) (p : P) (v : V) (hf : f.call [a] = ret v) :
    tokth W 0 f [a, .promise p] = ret [.val v, .promise p] := by
  rw [tokth, if_pos hl]
  show bind (callFn W f [a]) _ = _
  rw [callFn, if_pos hl, hf]
  rfl

/-- C155: a function made by `withself` is marked if `f` is.  `f` gets it as first argument, and then the arguments, as they are if it is marked, and otherwise their values. -/
theorem C155_withself (W : World σ ε V P) (self : V) (f : Fn σ ε V P) (args : List (Arg V P)) :
    callFn W (withself W self f) args = callWith W f (.val self :: args) := by
  rw [withself, lc_wrapped, callWith]
  split
  · rename_i hl; rw [callFn, if_pos hl]
  · simp only [values, eff_assoc, eff_ret_bind]
    refine bind_congr' _ fun vs => ?_
    rw [show Arg.val self :: vs.map (Arg.val (P := P)) = (self :: vs).map Arg.val from rfl, lc_vals]

/-- A world: promises are numbers, forcing one writes it down and gives it; 7 cannot be kept.  Each value is a function, marked if it is odd, that returns how many arguments it gets; every value can be iterated over. -/
private def demo : World (List Nat) String Nat Nat where
  fns v := some { lazy := v % 2 == 1, call := fun args => ret args.length }
  items v := some (List.replicate v v)
  truthy v := v != 0
  ofBool b := if b then 1 else 0
  forceP p s := if p = 7 then (.error "7", s) else (.ok p, s ++ [p])
  typeError := "TypeError"
  indexError := "IndexError"

example : call demo (.val 1) [.promise 7] [] = (.ok 1, []) := rfl
example : call demo (.promise 2) [.promise 5, .promise 6] [] = (.ok 2, [2, 5, 6]) := rfl
example : apply demo (.val 1) [.promise 7] (.other (.val 3)) [] = (.ok 4, []) := rfl
example : apply demo (.val 1) [] (.other (.promise 3)) [] = (.error "TypeError", []) := rfl
example : ∀ b, demo.truthy (demo.ofBool b) = b := by intro b; cases b <;> rfl
example : callFn demo (andf demo [{ lazy := true, call := fun _ => ret 0 }, { lazy := false, call := fun _ => ret 1 }]) [.promise 7] [] = (.ok 0, []) := rfl
example : callFn demo (orf demo [{ lazy := true, call := fun _ => ret 0 }, { lazy := false, call := fun _ => ret 1 }]) [.promise 7] [] = (.error "7", []) := rfl
example : callFn demo (rotate demo 1 { lazy := true, call := fun args => match args with | .val v :: _ => ret v | _ => ret 0 }) [.promise 7, .val 2] [] = (.ok 2, []) := rfl

end Unpy.Props
