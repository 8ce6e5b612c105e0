import Verif.Spec.TcoLazy
/-!
# C154: tail calls in lazy code
-/
namespace Unpy.Props
open Unpy.Eff Unpy.TcoLazy Unpy.TcoLazy.Spec
open Unpy.LazyCompose (Arg forceAll)
open Unpy.LazyCompose.Spec (values)
variable {σ ε V P : Type}

private theorem tl_force (forceP : P → Eff σ ε V) (args : List (Arg V P)) :
    forceAll forceP args = bind (values forceP args) fun vs => ret (vs.map .val) := by
  induction args with
  | nil => rfl
  | cons a args ih =>
    cases a with
    | val v => simp only [forceAll, values, ih, eff_assoc, eff_ret_bind, List.map_cons]
    | promise p =>
      simp only [forceAll, values, eff_assoc]
      refine bind_congr' _ fun v => ?_
      rw [ih]
      simp only [eff_assoc, eff_ret_bind, List.map_cons]

private theorem tl_values (forceP : P → Eff σ ε V) (vs : List V) : values forceP (vs.map (Arg.val (P := P))) = ret vs := by
  induction vs with
  | nil => rfl
  | cons v vs ih => simp only [List.map_cons, values, ih, eff_ret_bind]

/-- running a body, and then what it returns -/
private theorem tl_body {cT cD : Nat → List (Arg V P) → Eff σ ε V} (hc : ∀ f args, cT f args = cD f args) (k : Tail V P → Eff σ ε V) (hv : ∀ v, k (.value v) = ret v)
    (good : Nat → List (Arg V P) → Prop) (hj : ∀ g as, good g as → k (.jump g as) = cD g as) (c : Code σ ε V P) (h : Tails good c) :
    bind (runBody cT c) k = exec cD c := by
  induction c with
  | done v => simp only [runBody, exec, eff_ret_bind, hv]
  | eff m k' ih =>
    simp only [runBody, exec, eff_assoc]
    exact bind_congr' _ fun v => ih v (h v)
  | call f args k' ih =>
    simp only [runBody, exec, eff_assoc, hc]
    exact bind_congr' _ fun v => ih v (h v)
  | tail f args => simp only [runBody, exec, eff_ret_bind]; exact hj f args h

private theorem tails_any (good : Nat → List (Arg V P) → Prop) (hg : ∀ g as, good g as) (c : Code σ ε V P) : Tails good c := by
  induction c with
  | done v => trivial
  | eff m k ih => exact fun v => ih v
  | call f args k ih => exact fun v => ih v
  | tail f args => exact hg f args

private theorem tl_run (W : World σ ε V P) (hc : Claimed W) (S : Nat → Prop) (hs : Safe W S) (n : Nat) :
    (∀ f args, run W n .call f args = direct W n f args) ∧ (∀ f args, run W n (.jump true) f args = direct W n f args) ∧
    ∀ f args, S f ∧ ((W.fns f).mark = true ∨ Values args) → run W n (.jump false) f args = direct W n f args := by
  induction n with
  | zero => exact ⟨fun _ _ => rfl, fun _ _ => rfl, fun _ _ _ => rfl⟩
  | succ n ih =>
    obtain ⟨ih1, ih2, ih3⟩ := ih
    have body : ∀ (lz : Option Bool) (f : Nat) (args : List (Arg V P)), (lz = none → (W.fns f).tramp = none) → (lz = some false → S f ∧ ((W.fns f).mark = true ∨ Values args)) →
        (bind (runBody (run W n .call) ((W.fns f).body args)) fun r => match r with
          | .value v => ret v
          | .jump g as => match lz with
            | some lz => run W n (.jump lz) g as
            | none => raise W.unclaimed) = exec (direct W n) ((W.fns f).body args) := by
      intro lz f args h0 h1
      cases lz with
      | none => exact tl_body ih1 _ (fun v => rfl) _ (fun g as h => h.elim) _ (hc f (h0 rfl) args)
      | some b => cases b with
        | true => exact tl_body ih1 _ (fun v => rfl) (fun _ _ => True) (fun g as _ => ih2 g as) _ (tails_any _ (fun _ _ => trivial) _)
        | false => exact tl_body ih1 _ (fun v => rfl) _ (fun g as h => ih3 g as h) _ (hs.tails f (h1 rfl).1 args (h1 rfl).2)
    refine ⟨fun f args => ?_, fun f args => ?_, fun f args h => ?_⟩
    · simp only [run, direct, trampOf]
      cases hm : (W.fns f).mark with
      | true =>
        have e : enter W (W.fns f) .call args = ret args := by
          simp only [enter, pass, hm, if_true, eff_ret_bind]
          split <;> rfl
        rw [e, eff_ret_bind, if_pos rfl]
        exact body _ f args id fun h => ⟨hs.entry f h, .inl hm⟩
      | false =>
        have e : enter W (W.fns f) .call args = bind (values W.forceP args) fun vs => ret (vs.map .val) := by
          simp only [enter, pass, hm, Bool.false_eq_true, if_false, tl_force, eff_assoc, eff_ret_bind]
          refine bind_congr' _ fun vs => ?_
          split
          · rw [tl_values]; rfl
          · rfl
        rw [e, eff_assoc, if_neg (by simp)]
        refine bind_congr' _ fun vs => ?_
        rw [eff_ret_bind]
        exact body _ f _ id fun h => ⟨hs.entry f h, .inr ⟨vs, rfl⟩⟩
    · simp only [run, direct, trampOf, enter, pass]
      cases hm : (W.fns f).mark with
      | true =>
        rw [if_pos rfl, if_pos rfl, eff_ret_bind]
        exact body (some true) f args (fun h => by cases h) (fun h => by cases h)
      | false =>
        rw [if_neg (by simp), if_neg (by simp), tl_force, eff_assoc]
        refine bind_congr' _ fun vs => ?_
        rw [eff_ret_bind]
        exact body (some true) f _ (fun h => by cases h) (fun h => by cases h)
    · simp only [run, direct, trampOf, enter, eff_ret_bind]
      refine (body (some false) f args (fun h => by cases h) (fun _ => h)).trans ?_
      cases hm : (W.fns f).mark with
      | true => rw [if_pos rfl]
      | false =>
        rcases h.2 with h | ⟨vs, rfl⟩
        · rw [hm] at h; cases h
        · rw [if_neg (by simp), tl_values, eff_ret_bind]

/-- C154, if all the trampolines have been made while a `with lazify` block was running: the program has the same outcome and effects as if the tail calls were other calls.  Its functions may be marked or not, and call each other in
any order.  (Missing: trampolines made elsewhere, see `C154_strict_partial`.) -/
theorem C154_lazy_partial (W : World σ ε V P) (hc : Claimed W) (hl : ∀ f, (W.fns f).tramp = none ∨ ∃ F, W.fns f = trampolined true F) (n f : Nat) (args : List (Arg V P)) :
    run W n .call f args = direct W n f args :=
  (tl_run W hc (fun _ => False) ⟨fun f h => by
    rcases hl f with h' | ⟨F, h'⟩
    · rw [h] at h'; cases h'
    · rw [h'] at h
      exact (nomatch h), fun _ h => h.elim⟩ n).1 f args

/-- C154: also with trampolines made elsewhere, if the functions that can run in them make no tail calls that give promises to functions that have not been marked.  (Missing: other programs, see `C154_strict_refuted`.) -/
theorem C154_strict_partial (W : World σ ε V P) (hc : Claimed W) (S : Nat → Prop) (hs : Safe W S) (n f : Nat) (args : List (Arg V P)) :
    run W n .call f args = direct W n f args :=
  (tl_run W hc S hs n).1 f args

/-- C154 is false of a function that is defined in a `with lazify` block inside of another one, which is called after the block (so the function has got the trampoline that is not aware of lazy code): if it makes a tail call of a
function that is defined elsewhere, then this one gets a promise instead of a value.  Here, it returns its argument, and raises an exception if that is not a value. -/
theorem C154_strict_refuted (e : ε) (r u : ε) (v : V) (p : P) (s : σ) :
    let inner : Fn σ ε V P := trampolined false { mark := true, tramp := none, body := fun _ => .tail 1 [.promise p] }
    let elsewhere : Fn σ ε V P := { mark := false, tramp := none, body := fun args => match args with | [.val v] => .done v | _ => .eff (raise e) .done }
    let W : World σ ε V P := { fns := fun f => if f = 0 then inner else elsewhere, forceP := fun _ => ret v, recursion := r, unclaimed := u }
    Claimed W ∧ run W 2 .call 0 [] s = (.error e, s) ∧ direct W 2 0 [] s = (.ok v, s) := by
  intro inner elsewhere W
  refine ⟨fun f hf args => ?_, rfl, rfl⟩
  by_cases h : f = 0
  · subst h; cases hf
  · simp only [W, if_neg h, elsewhere]
    split <;> simp [Tails]

/-- The same program is right if the function has been made while the block was running. -/
example (e : ε) (r u : ε) (v : V) (p : P) (s : σ) :
    let inner : Fn σ ε V P := trampolined true { mark := true, tramp := none, body := fun _ => .tail 1 [.promise p] }
    let elsewhere : Fn σ ε V P := { mark := false, tramp := none, body := fun args => match args with | [.val v] => .done v | _ => .eff (raise e) .done }
    let W : World σ ε V P := { fns := fun f => if f = 0 then inner else elsewhere, forceP := fun _ => ret v, recursion := r, unclaimed := u }
    run W 2 .call 0 [] s = (.ok v, s) := rfl

/-- A marked function in a trampoline that is not aware of lazy code: it gives a promise to another marked one, which does not use it and gives a value to one defined elsewhere.  The hypotheses of `C154_strict_partial` are met. -/
example (e : ε) (r u : ε) (v : V) (p : P) :
    let f0 : Fn σ ε V P := trampolined false { mark := true, tramp := none, body := fun _ => .tail 1 [.promise p] }
    let f1 : Fn σ ε V P := trampolined true { mark := true, tramp := none, body := fun _ => .tail 2 [.val v] }
    let f2 : Fn σ ε V P := { mark := false, tramp := none, body := fun args => match args with | [.val v] => .done v | _ => .eff (raise e) .done }
    let W : World σ ε V P := { fns := fun f => if f = 0 then f0 else if f = 1 then f1 else f2, forceP := fun _ => raise e, recursion := r, unclaimed := u }
    Claimed W ∧ Safe W (fun _ => True) := by
  intro f0 f1 f2 W
  have t2 : ∀ good args, Tails good (f2.body args) := fun good args => by
    simp only [f2]
    split <;> simp [Tails]
  refine ⟨fun f hf args => ?_, fun _ _ => trivial, fun f _ args _ => ?_⟩
  · by_cases h : f = 0
    · subst h; cases hf
    · by_cases h1 : f = 1
      · subst h1; cases hf
      · simp only [W, if_neg h, if_neg h1]; exact t2 _ _
  · by_cases h : f = 0
    · subst h; exact ⟨trivial, .inl rfl⟩
    · by_cases h1 : f = 1
      · subst h1; exact ⟨trivial, .inr ⟨[v], rfl⟩⟩
      · simp only [W, if_neg h, if_neg h1]; exact t2 _ _

end Unpy.Props
