import Verif.Spec.LazyPipe
/-!
# C156: pipes in lazy code
-/
namespace Unpy.Props
open Unpy.Eff Unpy.LazyCalls Unpy.LazyPipe Unpy.LazyCalls.Spec Unpy.LazyPipe.Spec
open Unpy.LazyCompose (Arg forceAll)
open Unpy.LazyCompose.Spec (values)
variable {σ ε V P : Type}

private theorem lp_force (forceP : P → Eff σ ε V) (args : List (Arg V P)) :
    forceAll forceP args = bind (values forceP args) fun vs => ret (vs.map .val) := by
  induction args with
  | nil => rfl
  | cons a args ih =>
    cases a with
    | val v => simp only [forceAll, values, ih, eff_assoc, eff_ret_bind, List.map_cons]
    | promise p =>
      simp only [forceAll, values, eff_assoc]
      refine bind_congr' _ fun v => ?_
      rw [ih]
      simp only [eff_assoc, eff_ret_bind, List.map_cons]

private theorem lp_values (forceP : P → Eff σ ε V) (vs : List V) : values forceP (vs.map (Arg.val (P := P))) = ret vs := by
  induction vs with
  | nil => rfl
  | cons v vs ih => simp only [List.map_cons, values, ih, eff_ret_bind]

private theorem lp_maybe (W : World σ ε V P) (f : V) (args : List (Arg V P)) : maybeForce W f args = callValue W f args := by
  cases h : W.fns f with
  | none => simp only [maybeForce, callValue, h, lp_force, eff_assoc, eff_ret_bind]
  | some F => simp only [maybeForce, callValue, h, callFn, callWith, lp_force, eff_assoc, eff_ret_bind]

private theorem lp_force1 (W : World σ ε V P) (a : Arg V P) : force1 W a = valueOf W a := by cases a <;> rfl

private theorem lp_spread (W : Pipes σ ε V P) (multi : Bool) (x : V) : spread W multi x = (contents W multi x).map .val := by
  unfold spread contents
  cases multi with
  | false => rfl
  | true => cases h : W.rets x <;> simp [h]

private theorem lp_outcome (W : Pipes σ ε V P) (multi : Bool) (x : V) : unwrap W (spread W multi x) = outcome W multi x := by
  rw [lp_spread, outcome]
  rcases contents W multi x with _ | ⟨v, _ | ⟨w, vs⟩⟩ <;> rfl

private theorem lp_loop (W : Pipes σ ε V P) (multi : Bool) (fs : List (Arg V P)) (x : V) : pipeLoop W multi x fs = bind (onward W multi x fs) (outcome W multi) := by
  induction fs generalizing x with
  | nil =>
    rw [pipeLoop, onward, eff_ret_bind, ← lp_outcome]
    unfold spread
    cases multi with
    | false => rfl
    | true => cases W.rets x <;> rfl
  | cons f fs ih =>
    simp only [pipeLoop, onward, lp_force1, lp_maybe, lp_spread, eff_assoc]
    exact bind_congr' _ fun g => bind_congr' _ fun y => ih y

private theorem lp_piped (W : Pipes σ ε V P) (multi : Bool) (fs : List (Arg V P)) (x : V) : piped W multi (spread W multi x) fs = bind (onward W multi x fs) (outcome W multi) := by
  induction fs generalizing x with
  | nil => rw [piped, onward, eff_ret_bind, lp_outcome]
  | cons f fs ih =>
    simp only [piped, onward, lp_force1, lp_maybe, eff_assoc]
    rw [← lp_spread]
    exact bind_congr' _ fun g => bind_congr' _ fun y => ih y

/-- C156: `piped(*xs) | f1 | ... | exitpipe`, of one or more functions (and the same with `piped1`), is calling the functions in turn.  The first one gets the initial values as they are (none of them evaluated) if it is marked, and
otherwise their values.  (Missing: no functions, see `C156_piped_refuted`.) -/
theorem C156_piped_partial (W : Pipes σ ε V P) (multi : Bool) (xs : List (Arg V P)) (f : Arg V P) (fs : List (Arg V P)) :
    piped W multi xs (f :: fs) = bind (chain W multi xs f fs) (outcome W multi) := by
  simp only [piped, chain, lp_force1, lp_maybe, eff_assoc]
  exact bind_congr' _ fun g => bind_congr' _ fun y => lp_piped W multi fs y

private theorem lp_plan (W : Pipes σ ε V P) (fs : List (Arg V P)) (funcs : List V) : plan W funcs fs = bind (values W.forceP fs) fun vs => ret (funcs ++ vs) := by
  induction fs generalizing funcs with
  | nil => simp [plan, values, eff_ret_bind]
  | cons f fs ih =>
    cases f with
    | val v => simp only [plan, force1, values, ih, eff_assoc, eff_ret_bind, List.append_assoc, List.singleton_append]
    | promise p =>
      simp only [plan, force1, values, ih, eff_assoc, eff_ret_bind, List.append_assoc, List.singleton_append]

private theorem lp_lazy (W : Pipes σ ε V P) (multi : Bool) (gs : List V) (x : V) :
    lazyLoop W multi (spread W multi x) gs = bind (onward W multi x (gs.map .val)) fun y => ret (spread W multi y) := by
  induction gs generalizing x with
  | nil => rfl
  | cons g gs ih =>
    simp only [lazyLoop, List.map_cons, onward, valueOf, eff_ret_bind, lp_maybe, eff_assoc]
    rw [← lp_spread]
    exact bind_congr' _ fun y => ih y

private theorem lp_forced (W : Pipes σ ε V P) (multi : Bool) (x : V) : bind (outcome W multi x) (forceResult W) = outcome W multi x := by
  unfold outcome
  rcases contents W multi x with _ | ⟨v, _ | ⟨w, vs⟩⟩
  · rfl
  · rfl
  · simp only [eff_ret_bind, forceResult]
    rw [lp_force, lp_values, eff_ret_bind, eff_ret_bind]

/-- C156: `lazy_piped(*xs) | f1 | ... | exitpipe`, of one or more functions (and the same with `lazy_piped1`), evaluates the functions, and then at the exit calls them in turn.  The first one gets the initial values as they are (none of
them evaluated) if it is marked, and otherwise their values. -/
theorem C156_lazy_piped (W : Pipes σ ε V P) (multi : Bool) (xs : List (Arg V P)) (f : Arg V P) (fs : List (Arg V P)) :
    lazyPiped W multi xs (f :: fs) = bind (values W.forceP (f :: fs)) fun gs => match gs with
      | g :: gs => bind (chain W multi xs (.val g) (gs.map .val)) (outcome W multi)
      | [] => raise W.indexError := by
  have key : ∀ g gs, exitLazy W multi xs (g :: gs) = bind (chain W multi xs (.val g) (gs.map .val)) (outcome W multi) := by
    intro g gs
    simp only [exitLazy, lazyLoop, chain, valueOf, eff_ret_bind, eff_assoc, lp_maybe]
    refine bind_congr' _ fun y => ?_
    rw [lp_lazy]
    simp only [eff_assoc, eff_ret_bind, lp_outcome, lp_forced]
  rw [lazyPiped, lp_plan]
  cases f with
  | val v =>
    simp only [values, eff_assoc, eff_ret_bind, List.nil_append]
    exact bind_congr' _ fun gs => key v gs
  | promise p =>
    simp only [values, eff_assoc, eff_ret_bind, List.nil_append]
    exact bind_congr' _ fun v => bind_congr' _ fun gs => key v gs

/-- C156: a lazy pipe with no functions evaluates the initial values, and gives them (one by itself; of none, there is an error). -/
theorem C156_lazy_piped_none (W : Pipes σ ε V P) (multi : Bool) (xs : List (Arg V P)) :
    lazyPiped W multi xs [] = bind (values W.forceP xs) fun vs => match vs with
      | [] => raise W.indexError
      | [v] => ret (.item (.val v))
      | vs => ret (.values (vs.map .val)) := by
  rw [lazyPiped, plan, eff_ret_bind, exitLazy, lazyLoop, eff_ret_bind]
  rcases xs with _ | ⟨a, _ | ⟨b, as⟩⟩
  · rfl
  · cases a with
    | val v => rfl
    | promise p =>
      simp only [unwrap, eff_ret_bind, forceResult, force1, values, eff_assoc]
  · simp only [unwrap, eff_ret_bind, forceResult, lp_force, eff_assoc]
    cases a <;> cases b <;> simp only [values, eff_assoc, eff_ret_bind]

/-- C156: `pipe(values0, f1, ...)`, and the same with `pipe1`, is calling the functions in turn on the initial values, if these are not promises, or if the first function is a value and is not marked.  With a promise, this is evaluated first
of all.  (Missing: promises with a first function that is marked, see `C156_pipe_refuted`.) -/
theorem C156_pipe_partial (W : Pipes σ ε V P) (multi : Bool) (f : Arg V P) (fs : List (Arg V P)) :
    (∀ x, pipe W multi (.val x) (f :: fs) = bind (chain W multi ((contents W multi x).map .val) f fs) (outcome W multi)) ∧
    (∀ p, pipe W multi (.promise p) (f :: fs) = bind (W.forceP p) fun x => bind (chain W multi ((contents W multi x).map .val) f fs) (outcome W multi)) ∧
    (∀ p g, f = .val g → (∀ F, W.fns g = some F → F.lazy = false) → pipe W false (.promise p) (f :: fs) = bind (chain W false [.promise p] f fs) (outcome W false)) := by
  have key : ∀ m x, pipeLoop W m x (f :: fs) = bind (chain W m ((contents W m x).map .val) f fs) (outcome W m) := fun m x => by
    rw [lp_loop]; rfl
  refine ⟨fun x => ?_, fun p => ?_, fun p g hg hs => ?_⟩
  · rw [pipe, force1, eff_ret_bind, key]
  · rw [pipe, force1]
    exact bind_congr' _ fun x => key multi x
  · subst hg
    have e : callValue W.toWorld g [.promise p] = bind (W.forceP p) fun v => callValue W.toWorld g [.val v] := by
      cases h : W.fns g with
      | none => simp only [callValue, h, values, eff_assoc, eff_ret_bind]
      | some F => simp only [callValue, h, callWith, hs F h, Bool.false_eq_true, if_false, values, eff_assoc, eff_ret_bind]
    rw [pipe, force1]
    simp only [chain, valueOf, eff_ret_bind, e, eff_assoc]
    refine bind_congr' _ fun x => ?_
    rw [key]
    simp only [chain, valueOf, eff_ret_bind, contents, Bool.false_eq_true, if_false, List.map_cons, List.map_nil, eff_assoc]

/-- C156 is false of `pipe` and `pipe1`: the initial value is evaluated, also if the first function is marked and does not use it.  With a promise that cannot be kept, there is its exception, where the other pipes give a value. -/
theorem C156_pipe_refuted (W : Pipes σ ε V P) (multi : Bool) (p : P) (e : ε) (hp : W.forceP p = raise e) (f v : V) (F : Fn σ ε V P) (hF : W.fns f = some F) (hl : F.lazy = true) (hc : ∀ args, F.call args = ret v)
    (hv : W.rets v = none) :
    pipe W multi (.promise p) [.val f] = raise e ∧ piped W multi [.promise p] [.val f] = ret (.item (.val v)) ∧ lazyPiped W multi [.promise p] [.val f] = ret (.item (.val v)) := by
  have ho : outcome W multi v = ret (.item (.val v)) := by
    unfold outcome contents
    cases multi <;> simp [hv]
  have hch : chain W multi [.promise p] (.val f) [] = ret v := by
    simp only [chain, valueOf, eff_ret_bind, callValue, hF, callWith, hl, if_true, hc, onward]
  refine ⟨?_, ?_, ?_⟩
  · rw [pipe, force1, hp]; rfl
  · rw [C156_piped_partial, hch, eff_ret_bind, ho]
  · rw [C156_lazy_piped]
    simp only [values, eff_ret_bind, List.map_nil]
    rw [hch, eff_ret_bind, ho]

/-- C156 is false of `piped` and `piped1` with no functions: a promise that is put in comes out as it is, and is not evaluated. -/
theorem C156_piped_refuted (W : Pipes σ ε V P) (multi : Bool) (p : P) :
    piped W multi [.promise p] [] = ret (.item (.promise p)) ∧ ¬ NoPromise (V := V) (.item (.promise p)) := by
  refine ⟨rfl, ?_⟩
  rintro ⟨v, h⟩
  cases h

/-- C156: with one or more functions, what comes out are values. -/
theorem C156_outcome (W : Pipes σ ε V P) (multi : Bool) (x : V) (s s' : σ) (r : Result V P) (h : outcome W multi x s = (.ok r, s')) : NoPromise r := by
  unfold outcome at h
  generalize contents W multi x = c at h
  rcases c with _ | ⟨v, _ | ⟨w, vs⟩⟩
  · cases h
  · cases h; exact ⟨v, rfl⟩
  · cases h; exact ⟨v :: w :: vs, rfl⟩

/-- Promises are numbers, forcing one writes it down and gives it; 7 cannot be kept.  Each value is a function, marked if it is odd, that returns 10 times how many arguments it gets; 20 is a `Values` of 2 and 2. -/
private def demoPipes : Pipes (List Nat) String Nat Nat where
  fns v := some { lazy := v % 2 == 1, call := fun args => ret (10 * args.length) }
  items _ := none
  truthy v := v != 0
  ofBool b := if b then 1 else 0
  forceP p s := if p = 7 then (.error "7", s) else (.ok p, s ++ [p])
  typeError := "TypeError"
  indexError := "IndexError"
  rets v := if v = 20 then some [2, 2] else none

example : piped demoPipes true [.promise 7, .promise 3] [.val 1, .promise 4, .val 1] [] = (.ok (.values [.val 2, .val 2]), [4]) := rfl
example : lazyPiped demoPipes true [.promise 7, .promise 3] [.val 1, .promise 4] [] = (.ok (.values [.val 2, .val 2]), [4]) := rfl
example : lazyPiped demoPipes true [.promise 5, .promise 3] [] [] = (.ok (.values [.val 5, .val 3]), [5, 3]) := rfl
example : pipe demoPipes false (.promise 7) [.val 1] [] = (.error "7", []) := rfl
example : pipe demoPipes true (.val 20) [.promise 3] [] = (.ok (.values [.val 2, .val 2]), [3]) := rfl

end Unpy.Props
