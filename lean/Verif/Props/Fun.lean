import Verif.Model.Seq
import Verif.Spec.Fun
import Verif.Props.Fold
import Verif.Proof.PySlice
import Verif.Proof.PyDict
/-!
# Properties of the function combinators and pipes (C32, C35, C36, C37, C65, C73, C74)
-/
namespace Unpy.Props
open Unpy.Eff Unpy.Fun Unpy.Seq Unpy.Spec.Fun
open Unpy.Fold (Err Vals)
universe u v w
variable {σ : Type u} {ε : Type v} {V : Type w}

/-! ## Named arguments that are called like a parameter of an internal function -/

private theorem free_has {names : List String} {args : Args V} (h : Free names args) {n : String}
    (hn : n ∈ names) : PyDict.has args.kwrets n = false := by
  cases hh : PyDict.has args.kwrets n with
  | false => rfl
  | true =>
    obtain ⟨p, hp, rfl⟩ := List.mem_map.mp ((PyDict.mem_keys _ _).mpr hh)
    exact absurd hn (h p hp)

private theorem has_free {names : List String} {args : Args V}
    (h : ∀ n ∈ names, PyDict.has args.kwrets n = false) : Free names args := by
  intro p hp hn
  have := (PyDict.mem_keys args.kwrets p.1).mp (List.mem_map.mpr ⟨p, hp, rfl⟩)
  rw [h _ hn] at this; cases this

private theorem free_one (x : V) (names : List String) : Free names ⟨[x], []⟩ := by intro p hp; cases hp

private theorem pass {R : Type w} (f : Args V → Eff σ (Err ε) R) {args : Args V} (h : Free ["f"] args) :
    maybeForceArgs f args = f args := by
  rw [maybeForceArgs, free_has h (by simp)]; rfl

private theorem pass_pass {R : Type w} (f : Args V → Eff σ (Err ε) R) :
    maybeForceArgs (maybeForceArgs f) = maybeForceArgs f := by
  funext args; unfold maybeForceArgs; split <;> rfl

private theorem made {vs : Vals V} (h : Free ["self"] vs) : mkValues vs = .ok vs := by
  rw [mkValues, free_has h (by simp)]; rfl

/-- What `thread` does if no name `f` ever occurs. -/
private theorem thread_pass (fs : List (Fn σ ε V)) (h : ∀ f ∈ fs, Keeps ["f"] f) (r : Ret V)
    (hr : Free ["f"] (asArgs r)) : thread (fs.map maybeForceArgs) r = thread fs r := by
  induction fs generalizing r with
  | nil => rfl
  | cons f fs ih =>
    simp only [List.map_cons, thread]
    rw [pass f hr]
    funext s
    unfold Eff.bind
    rcases hf : f (asArgs r) s with ⟨e | r', s'⟩
    · rfl
    · simp only
      rw [ih (fun g hg => h g (by simp [hg]))]
      cases r' with
      | one v => exact free_one v _
      | many vs => exact h f (by simp) _ _ _ _ hr hf

/-! ## C32 compose -/

private theorem reducel_asProc {F : Type u} (two : F → F → F) (right : Bool) (x : F) (xs : List F) :
    Fold.reducel (asProc two right) (x :: xs) none =
      .ok (some (xs.foldl (fun acc y => if right then two acc y else two y acc) x)) := by
  rw [reducel_cons]
  have : ∀ (xs : List F) x, xs.foldlM (fun acc y => asProc two right [y, acc]) x =
      .ok (xs.foldl (fun acc y => if right then two acc y else two y acc) x) := by
    intro xs
    induction xs with
    | nil => intro x; rfl
    | cons y ys ih => intro x; rw [List.foldlM_cons]; exact ih _
  rw [this]; rfl

private theorem thread_append (fs gs : List (Fn σ ε V)) (r : Ret V) :
    thread (fs ++ gs) r = bind (thread fs r) (thread gs) := by
  induction fs generalizing r with
  | nil => rfl
  | cons f fs ih =>
    simp only [List.cons_append, thread, eff_assoc]
    refine bind_congr' _ fun r => ?_; exact ih r

private theorem thread1_append (fs gs : List (Fn1 σ ε V)) (x : V) :
    thread1 (fs ++ gs) x = bind (thread1 fs x) (thread1 gs) := by
  induction fs generalizing x with
  | nil => rfl
  | cons f fs ih =>
    simp only [List.cons_append, thread1, eff_assoc]
    refine bind_congr' _ fun r => ?_; exact ih r

private theorem composeTwo_call (f g : Callable (Fn σ ε V)) (args : Args V) :
    (composeTwo f g).call args =
      bind (maybeForceArgs g.call args) (fun r => maybeForceArgs f.call (asArgs r)) := by
  unfold composeTwo
  simp only
  refine bind_congr' _ fun a => ?_; cases a <;> rfl

private theorem composeTwo_pass (f g : Callable (Fn σ ε V)) :
    maybeForceArgs (composeTwo f g).call = (composeTwo f g).call := by
  funext args
  unfold maybeForceArgs
  split
  · rename_i h
    rw [composeTwo_call, maybeForceArgs, if_pos h]; rfl
  · rfl

private theorem foldl_left (f : Callable (Fn σ ε V)) (fs : List (Callable (Fn σ ε V))) (args : Args V) :
    maybeForceArgs (fs.foldl (fun acc y => composeTwo y acc) f).call args =
      bind (maybeForceArgs f.call args) (thread ((fs.map (·.call)).map maybeForceArgs)) := by
  induction fs generalizing f with
  | nil => exact (eff_bind_ret _).symm
  | cons g fs ih =>
    rw [List.foldl_cons, ih, composeTwo_pass, composeTwo_call, eff_assoc]
    rfl

private theorem foldl_right (f : Callable (Fn σ ε V)) (fs : List (Callable (Fn σ ε V))) (args : Args V) :
    maybeForceArgs (fs.foldl (fun acc y => composeTwo acc y) f).call args =
      match (f :: fs).reverse with
      | g :: gs => bind (maybeForceArgs g.call args) (thread ((gs.map (·.call)).map maybeForceArgs))
      | [] => f.call args := by
  induction fs generalizing f with
  | nil => exact (eff_bind_ret _).symm
  | cons g fs ih =>
    rw [List.foldl_cons, ih]
    simp only [List.reverse_cons, List.append_assoc, List.cons_append, List.nil_append]
    cases hr : fs.reverse with
    | nil =>
      simp only [List.nil_append, List.map_cons, List.map_nil, composeTwo_pass, composeTwo_call, thread,
        eff_bind_ret]
    | cons h hs =>
      simp only [List.cons_append, List.map_append, List.map_cons, List.map_nil]
      refine bind_congr' _ fun r => ?_
      rw [thread_append, thread_append]
      refine bind_congr' _ fun r => ?_
      simp only [thread, composeTwo_pass, composeTwo_call, eff_assoc, eff_bind_ret]

private theorem maybeForceArgs_foldl_left (f g : Callable (Fn σ ε V)) (fs : List (Callable (Fn σ ε V))) :
    maybeForceArgs (fs.foldl (fun acc y => composeTwo y acc) (composeTwo g f)).call =
      (fs.foldl (fun acc y => composeTwo y acc) (composeTwo g f)).call := by
  induction fs generalizing f g with
  | nil => exact composeTwo_pass g f
  | cons h fs ih => rw [List.foldl_cons]; exact ih ..

private theorem maybeForceArgs_foldl_right (f g : Callable (Fn σ ε V)) (fs : List (Callable (Fn σ ε V))) :
    maybeForceArgs (fs.foldl (fun acc y => composeTwo acc y) (composeTwo f g)).call =
      (fs.foldl (fun acc y => composeTwo acc y) (composeTwo f g)).call := by
  induction fs generalizing f g with
  | nil => exact composeTwo_pass f g
  | cons h fs ih => rw [List.foldl_cons]; exact ih ..

private theorem settable_foldl {F : Type u} (two : Callable F → Callable F → Callable F)
    (h : ∀ f g, (two f g).settable = true) (f g : Callable F) (fs : List (Callable F)) (right : Bool) :
    ((g :: fs).foldl (fun acc y => if right then two acc y else two y acc) f).settable = true := by
  induction fs generalizing f g with
  | nil => cases right <;> exact h _ _
  | cons a fs ih => rw [List.foldl_cons]; exact ih ..

private theorem compose_eq (right : Bool) (f : Callable (Fn σ ε V)) (fs : List (Callable (Fn σ ε V)))
    (h : fs = [] → f.settable = true) :
    compose right (f :: fs) =
      .ok (fs.foldl (fun acc y => if right then composeTwo acc y else composeTwo y acc) f) := by
  rw [compose, reducel_asProc]
  simp only [passthroughLazyArgs]
  rw [if_pos]
  cases fs with
  | nil => exact h rfl
  | cons g fs => exact settable_foldl composeTwo (fun _ _ => rfl) ..

private theorem compose1_eq (right : Bool) (f : Callable (Fn1 σ ε V)) (fs : List (Callable (Fn1 σ ε V)))
    (h : fs = [] → f.settable = true) :
    compose1 right (f :: fs) =
      .ok (fs.foldl (fun acc y => if right then compose1Two acc y else compose1Two y acc) f) := by
  rw [compose1, reducel_asProc]
  simp only [passthroughLazyArgs]
  rw [if_pos]
  cases fs with
  | nil => exact h rfl
  | cons g fs => exact settable_foldl compose1Two (fun _ _ => rfl) ..

private theorem thread_rest (f : Callable (Fn σ ε V)) (fs : List (Callable (Fn σ ε V)))
    (hr : ∀ g ∈ f :: fs, Keeps ["f"] g.call) (args : Args V) (ha : Free ["f"] args) :
    bind (maybeForceArgs f.call args) (thread ((fs.map (·.call)).map maybeForceArgs)) =
      bind (f.call args) (thread (fs.map (·.call))) := by
  rw [pass _ ha]
  funext s
  unfold Eff.bind
  rcases hf : f.call args s with ⟨e | r, s'⟩
  · rfl
  · simp only
    rw [thread_pass]
    · intro g hg
      obtain ⟨c, hc, rfl⟩ := List.mem_map.mp hg
      exact hr c (by simp [hc])
    · cases r with
      | one v => exact free_one v _
      | many vs => exact hr f (by simp) _ _ _ _ ha hf

/-- C32: `composel(f, ...)(*args)` calls `f` with the arguments and threads its result through the rest
of the functions from left to right.
(Missing: no functions, or a single one that is builtin, see `C32_edges_refuted`; and a named argument or named
return value called `f`, see `C32_named_f_refuted`.) -/
theorem C32_composel_partial (f : Callable (Fn σ ε V)) (fs : List (Callable (Fn σ ε V)))
    (h : fs = [] → f.settable = true) (hr : ∀ g ∈ f :: fs, Keeps ["f"] g.call) :
    ∃ c, composel (f :: fs) = .ok c ∧
      ∀ args, Free ["f"] args → c.call args = bind (f.call args) (thread (fs.map (·.call))) := by
  refine ⟨_, compose_eq false f fs h, ?_⟩
  intro args ha
  simp only [Bool.false_eq_true, if_false]
  rw [← pass (List.foldl (fun acc y => composeTwo y acc) f fs).call ha, foldl_left f fs args]
  exact thread_rest f fs hr args ha

/-- C32: `composer(..., f)(*args)` calls the last function with the arguments and threads its result
through the rest of the functions from right to left.
(Missing: no functions, or a single one that is builtin, see `C32_edges_refuted`; and a named argument or named
return value called `f`, see `C32_named_f_refuted`.) -/
theorem C32_composer_partial (f : Callable (Fn σ ε V)) (fs : List (Callable (Fn σ ε V)))
    (h : fs = [] → f.settable = true) (hr : ∀ g ∈ f :: fs, Keeps ["f"] g.call) :
    ∃ c, composer (fs ++ [f]) = .ok c ∧
      ∀ args, Free ["f"] args → c.call args = bind (f.call args) (thread (fs.reverse.map (·.call))) := by
  cases fs with
  | nil =>
    refine ⟨_, compose_eq true f [] h, ?_⟩
    intro args _; exact (eff_bind_ret _).symm
  | cons g fs =>
    refine ⟨_, compose_eq true g (fs ++ [f]) (by simp), ?_⟩
    intro args ha
    simp only [if_true]
    rw [← pass (List.foldl (fun acc y => composeTwo acc y) g (fs ++ [f])).call ha,
      foldl_right g (fs ++ [f]) args]
    have := thread_rest f (g :: fs).reverse (fun c hc => hr c (by simpa [or_comm, or_left_comm] using hc)) args ha
    simpa using this

private theorem foldl1_left (f : Callable (Fn1 σ ε V)) (fs : List (Callable (Fn1 σ ε V))) (x : V) :
    (fs.foldl (fun acc y => compose1Two y acc) f).call x =
      bind (f.call x) (thread1 (fs.map (·.call))) := by
  induction fs generalizing f with
  | nil => exact (eff_bind_ret _).symm
  | cons g fs ih =>
    rw [List.foldl_cons, ih]
    simp only [compose1Two, eff_assoc]
    rfl

private theorem foldl1_right (f : Callable (Fn1 σ ε V)) (fs : List (Callable (Fn1 σ ε V))) (x : V) :
    (fs.foldl (fun acc y => compose1Two acc y) f).call x =
      thread1 ((f :: fs).reverse.map (·.call)) x := by
  induction fs generalizing f with
  | nil => exact (eff_bind_ret _).symm
  | cons g fs ih =>
    rw [List.foldl_cons, ih]
    simp only [List.reverse_cons, List.append_assoc, List.map_append, thread1_append]
    refine bind_congr' _ fun r => ?_
    simp only [List.map_cons, List.map_nil, thread1, compose1Two, eff_assoc, List.cons_append,
      List.nil_append, eff_bind_ret]

/-- C32: the one-argument variants.
(Missing: no functions, or a single one that is builtin, see `C32_edges_refuted`.) -/
theorem C32_compose1_partial (fs : List (Callable (Fn1 σ ε V))) (hne : fs ≠ [])
    (h : ∀ f, fs = [f] → f.settable = true) :
    (∃ c, composel1 fs = .ok c ∧ ∀ x, c.call x = thread1 (fs.map (·.call)) x) ∧
    (∃ c, composer1 fs = .ok c ∧ ∀ x, c.call x = thread1 (fs.reverse.map (·.call)) x) := by
  match fs, hne with
  | f :: fs, _ =>
    have h' : fs = [] → f.settable = true := by rintro rfl; exact h f rfl
    constructor
    · refine ⟨_, compose1_eq false f fs h', ?_⟩
      intro x
      simp only [Bool.false_eq_true, if_false]
      rw [foldl1_left]; rfl
    · refine ⟨_, compose1_eq true f fs h', ?_⟩
      intro x
      simp only [if_true]
      rw [foldl1_right]

private theorem settable_of_ok {F : Type u} (f c : Callable F) (h : passthroughLazyArgs (some f) = .ok c) :
    f.settable = true := by
  cases hs : f.settable with
  | true => rfl
  | false => simp [passthroughLazyArgs, hs] at h

/-- C32: composing compositions is composing the concatenation, in both directions. -/
theorem C32_assoc (fs gs : List (Callable (Fn σ ε V))) (hf : fs ≠ []) (hg : gs ≠ [])
    (cf cg : Callable (Fn σ ε V)) (right : Bool)
    (h1 : compose right fs = .ok cf) (h2 : compose right gs = .ok cg) :
    ∃ c d, compose right [cf, cg] = .ok c ∧ compose right (fs ++ gs) = .ok d ∧ c.call = d.call := by
  match fs, gs, hf, hg with
  | f :: fs, g :: gs, _, _ =>
    have s1 : fs = [] → f.settable = true := by
      rintro rfl
      rw [compose, reducel_asProc] at h1
      exact settable_of_ok f _ h1
    have s2 : gs = [] → g.settable = true := by
      rintro rfl
      rw [compose, reducel_asProc] at h2
      exact settable_of_ok g _ h2
    rw [compose_eq right f fs s1] at h1
    rw [compose_eq right g gs s2] at h2
    simp only [Except.ok.injEq] at h1 h2
    refine ⟨_, _, compose_eq right cf [cg] (by simp), compose_eq right f (fs ++ g :: gs) (by simp), ?_⟩
    subst h1 h2
    funext args
    cases right with
    | false =>
      simp only [Bool.false_eq_true, if_false]
      have hl : ∀ a b : Callable (Fn σ ε V), List.foldl (fun acc y => composeTwo y acc) a [b] = composeTwo b a :=
        fun _ _ => rfl
      rw [hl, composeTwo_call, foldl_left]
      have hd : (List.foldl (fun acc y => composeTwo y acc) f (fs ++ g :: gs)).call args =
          maybeForceArgs (List.foldl (fun acc y => composeTwo y acc) f (fs ++ g :: gs)).call args := by
        rw [List.foldl_append, List.foldl_cons, maybeForceArgs_foldl_left]
      rw [hd, foldl_left, eff_assoc]
      refine bind_congr' _ fun r => ?_
      rw [List.map_append, List.map_append, thread_append]
      refine bind_congr' _ fun r => ?_
      rw [foldl_left]
      rfl
    | true =>
      simp only [if_true]
      have hl : ∀ a b : Callable (Fn σ ε V), List.foldl (fun acc y => composeTwo acc y) a [b] = composeTwo a b :=
        fun _ _ => rfl
      rw [hl, List.foldl_append, List.foldl_cons]
      generalize List.foldl (fun acc y => composeTwo acc y) f fs = a
      -- both sides apply `g :: gs` from the right, then `a`
      rw [composeTwo_call, ← maybeForceArgs_foldl_right, foldl_right g gs args,
        foldl_right (composeTwo a g) gs args]
      simp only [List.reverse_cons]
      cases hr : gs.reverse with
      | nil => simp [composeTwo_pass, composeTwo_call, thread, eff_bind_ret]
      | cons h hs =>
        simp only [List.cons_append, List.map_append, List.map_cons, List.map_nil]
        rw [eff_assoc]
        refine bind_congr' _ fun r => ?_
        rw [thread_append, thread_append, eff_assoc]
        refine bind_congr' _ fun r => ?_
        simp only [thread, composeTwo_pass, composeTwo_call, eff_assoc]
        refine bind_congr' _ fun r => ?_
        rw [eff_ret_bind, eff_bind_ret]

/-- C32 refuted at the edges: composing no functions raises AttributeError (the comment in the code says
the result is `None`), and so does composing a single builtin function. -/
theorem C32_edges_refuted (right : Bool) (f : Fn σ ε V) (f1 : Fn1 σ ε V) :
    compose right ([] : List (Callable (Fn σ ε V))) = .error .AttributeError ∧
    compose right [⟨f, false⟩] = .error .AttributeError ∧
    compose1 right ([] : List (Callable (Fn1 σ ε V))) = .error .AttributeError ∧
    compose1 right [⟨f1, false⟩] = .error .AttributeError := by
  refine ⟨rfl, ?_, rfl, ?_⟩
  · rw [compose, reducel_asProc]; rfl
  · rw [compose1, reducel_asProc]; rfl

private def addLog (n : Nat) (name : String) : Fn (List String) Empty Nat := fun args log =>
  (.ok (.many ⟨args.rets.map (· + n), args.kwrets⟩), log ++ [name])
private def total : Fn (List String) Empty Nat := fun args log => (.ok (.one args.rets.sum), log ++ ["total"])

/-- C32 refuted for the name `f`: a composition of two or more functions cannot be called with a named argument
called `f`, whatever the functions do; and if a function returns a named value called `f`, the next function is
not called.  Both raise TypeError. -/
theorem C32_named_f_refuted (f g : Callable (Fn σ ε V)) (xs : List V) (x : V) (s : σ) :
    ∃ c, composel [g, f] = .ok c ∧ composer [f, g] = .ok c ∧
      c.call ⟨xs, [("f", x)]⟩ s = (.error (.py .TypeError), s) ∧
      (∀ args s', Free ["f"] args → g.call args s = (.ok (.many ⟨xs, [("f", x)]⟩), s') →
        c.call args s = (.error (.py .TypeError), s')) := by
  refine ⟨composeTwo f g, compose_eq false g [f] (by simp), compose_eq true f [g] (by simp), ?_, ?_⟩
  · rw [composeTwo_call]; rfl
  · intro args s' ha hg
    rw [composeTwo_call, pass _ ha]
    simp only [Eff.bind, hg]
    rfl

private theorem keeps_addLog (n : Nat) (name : String) : Keeps ["f"] (addLog n name) := by
  intro args s vs s' ha h
  simp only [addLog, Prod.mk.injEq, Except.ok.injEq, Ret.many.injEq] at h
  rw [← h.1]; exact ha

private theorem keeps_total : Keeps ["f"] total := by
  intro args s vs s' ha h
  simp [total] at h

example : ∃ c, composel [⟨addLog 1 "a", true⟩, ⟨total, true⟩] = .ok c ∧
    c.call ⟨[1, 2], [("x", 3)]⟩ [] = (.ok (.one 5), ["a", "total"]) :=
  have ⟨c, h, hc⟩ := C32_composel_partial ⟨addLog 1 "a", true⟩ [⟨total, true⟩] (by simp)
    (by
      intro g hg
      simp only [List.mem_cons, List.not_mem_nil, or_false] at hg
      rcases hg with rfl | rfl
      · exact keeps_addLog 1 "a"
      · exact keeps_total)
  ⟨c, h, by rw [hc _ (by simp [Free])]; rfl⟩

/-! ## C35 flip, rotate, tokth -/

/-- C35: `flip(f)` calls `f` with the positional arguments in reverse order; flipping twice is no
change.  (Missing: a named argument called `f`, see `C35_named_f_refuted`.) -/
theorem C35_flip_partial (f : Fn σ ε V) (xs : List V) (kw : List (String × V)) (h : Free ["f"] ⟨xs, kw⟩) :
    pyflip f ⟨xs, kw⟩ = f ⟨xs.reverse, kw⟩ ∧ pyflip (pyflip f) ⟨xs, kw⟩ = f ⟨xs, kw⟩ := by
  have h' : ∀ ys, Free ["f"] (⟨ys, kw⟩ : Args V) := fun _ => h
  simp [pyflip, pass _ (h' _)]

private theorem rot_lists (xs : List V) (j : Int) (hj : 0 ≤ j) (hn : j < xs.length) :
    pySlice xs ⟨some (-j), none, none⟩ ++ pySlice xs ⟨none, some (-j), none⟩ =
      if j = 0 then xs else xs.drop (xs.length - j.toNat) ++ xs.take (xs.length - j.toNat) := by
  rw [pySlice_unit _ _ rfl, pySlice_unit _ _ rfl]
  have b : ∀ a b, (⟨a, b, none⟩ : Slice).by = 1 := fun _ _ => rfl
  by_cases h0 : j = 0
  · subst h0
    rw [if_pos rfl]
    have e1 : (⟨some (-0), none, none⟩ : Slice).startIn xs.length = 0 := by
      unfold Slice.startIn; simp only [b]; simp
    have e2 : (⟨some (-0), none, none⟩ : Slice).stopIn xs.length = xs.length := by
      unfold Slice.stopIn; simp only [b]; simp
    have e3 : (⟨none, some (-0), none⟩ : Slice).startIn xs.length = 0 := by
      unfold Slice.startIn; simp only [b]; simp
    have e4 : (⟨none, some (-0), none⟩ : Slice).stopIn xs.length = 0 := by
      unfold Slice.stopIn; simp only [b]; simp
    rw [e1, e2, e3, e4]; simp
  · rw [if_neg h0]
    have e1 : (⟨some (-j), none, none⟩ : Slice).startIn xs.length = xs.length - j := by
      unfold Slice.startIn; simp only [b]
      rw [if_neg (show ¬ (1 : Int) < 0 by omega)]; (repeat' split) <;> omega
    have e2 : (⟨some (-j), none, none⟩ : Slice).stopIn xs.length = xs.length := by
      unfold Slice.stopIn; simp only [b]; simp
    have e3 : (⟨none, some (-j), none⟩ : Slice).startIn xs.length = 0 := by
      unfold Slice.startIn; simp only [b]; simp
    have e4 : (⟨none, some (-j), none⟩ : Slice).stopIn xs.length = xs.length - j := by
      unfold Slice.stopIn; simp only [b]
      rw [if_neg (show ¬ (1 : Int) < 0 by omega)]; (repeat' split) <;> omega
    rw [e1, e2, e3, e4]
    have : ((xs.length : Int) - j).toNat = xs.length - j.toNat := by omega
    rw [this]
    congr 1
    · apply List.take_of_length_le; simp

/-- C35: `rotate(k)(f)` calls `f` with the positional arguments cyclically shifted: slot `i` receives
argument `(i + k) mod n`; no arguments is a TypeError and `|k| ≥ n` an IndexError.
(Missing: a named argument called `f`, see `C35_named_f_refuted`.) -/
theorem C35_rotate_partial (k : Int) (f : Fn σ ε V) (xs : List V) (kw : List (String × V))
    (hf : Free ["f"] ⟨xs, kw⟩) :
    (xs = [] → rotate k f ⟨xs, kw⟩ = raise (.py .TypeError)) ∧
    (xs ≠ [] → ¬ (-xs.length < k ∧ k < xs.length) → rotate k f ⟨xs, kw⟩ = raise (.py .IndexError)) ∧
    (-xs.length < k ∧ k < xs.length → ∃ ys : List V, rotate k f ⟨xs, kw⟩ = f ⟨ys, kw⟩ ∧
      ys.length = xs.length ∧
      ∀ i : Nat, i < xs.length → ys[i]? = xs[((i + k) % xs.length).toNat]?) := by
  refine ⟨?_, ?_, ?_⟩
  · rintro rfl; simp [rotate]
  · intro hne hk
    have : ¬ (xs.length : Int) = 0 := by
      have := List.length_pos_iff.mpr hne; omega
    simp only [rotate]
    rw [if_neg this, if_pos hk]
  · intro hk
    have hpos : ¬ (xs.length : Int) = 0 := by omega
    have hj0 : 0 ≤ (-k) % (xs.length : Int) := Int.emod_nonneg _ hpos
    have hj1 : (-k) % (xs.length : Int) < xs.length := Int.emod_lt_of_pos _ (by omega)
    have hjk : (-k) % (xs.length : Int) = if k ≤ 0 then -k else xs.length - k := by
      split
      · exact Int.emod_eq_of_lt (by omega) (by omega)
      · rw [← Int.add_emod_right, Int.emod_eq_of_lt (by omega) (by omega)]; omega
    have h' : ∀ ys, Free ["f"] (⟨ys, kw⟩ : Args V) := fun _ => hf
    refine ⟨_, by simp only [rotate]; rw [if_neg hpos, if_neg (by simpa using hk), pass _ (h' _)], ?_⟩
    rw [rot_lists xs _ hj0 hj1, hjk]
    have hik : ∀ i : Nat, i < xs.length → (((i : Int) + k) % xs.length).toNat =
        if (i : Int) + k < 0 then ((i : Int) + k + xs.length).toNat
        else if (i : Int) + k < xs.length then ((i : Int) + k).toNat else ((i : Int) + k - xs.length).toNat := by
      intro i hi
      split
      · rw [← Int.add_emod_right, Int.emod_eq_of_lt (by omega) (by omega)]
      · split
        · rw [Int.emod_eq_of_lt (by omega) (by omega)]
        · rw [← Int.sub_emod_right, Int.emod_eq_of_lt (by omega) (by omega)]
    by_cases h0 : (if k ≤ 0 then -k else (xs.length : Int) - k) = 0
    · rw [if_pos h0]
      refine ⟨rfl, ?_⟩
      intro i hi
      have : k = 0 := by split at h0 <;> omega
      rw [hik i hi]; subst this
      rw [if_neg (by omega), if_pos (by omega)]; congr 1
    · rw [if_neg h0]
      generalize hj : (if k ≤ 0 then -k else (xs.length : Int) - k) = j at *
      have hjn : j.toNat < xs.length := by omega
      constructor
      · simp only [List.length_append, List.length_drop, List.length_take]; omega
      · intro i hi
        rw [hik i hi, List.getElem?_append]
        simp only [List.length_drop, List.getElem?_drop, List.getElem?_take]
        by_cases hij : i < xs.length - (xs.length - j.toNat)
        · rw [if_pos hij]
          congr 1
          split at hj <;> (repeat' split) <;> omega
        · rw [if_neg hij, if_pos (by omega)]
          congr 1
          split at hj <;> (repeat' split) <;> omega

/-- C35: `rotate(-k)` undoes `rotate(k)`.  (Missing: a named argument called `f`, see
`C35_named_f_refuted`.) -/
theorem C35_rotate_inverse_partial (k : Int) (f : Fn σ ε V) (xs : List V) (kw : List (String × V))
    (hf : Free ["f"] ⟨xs, kw⟩) (hk : -xs.length < k ∧ k < xs.length) : rotate k (rotate (-k) f) ⟨xs, kw⟩ = f ⟨xs, kw⟩ := by
  obtain ⟨ys, h1, h2, h3⟩ := (C35_rotate_partial k (rotate (-k) f) xs kw hf).2.2 hk
  obtain ⟨zs, h4, h5, h6⟩ := (C35_rotate_partial (-k) f ys kw hf).2.2 (by omega)
  rw [h1, h4]
  congr 2
  apply List.ext_getElem?
  intro i
  by_cases hi : i < xs.length
  · have hpos : (0 : Int) < xs.length := by omega
    have hlt : (((i : Int) + -k) % xs.length).toNat < xs.length := by
      have := Int.emod_lt_of_pos ((i : Int) + -k) hpos
      have := Int.emod_nonneg ((i : Int) + -k) (show (xs.length : Int) ≠ 0 by omega)
      omega
    rw [h6 i (by omega), h2, h3 _ hlt]
    congr 1
    have := Int.emod_nonneg ((i : Int) + -k) (show (xs.length : Int) ≠ 0 by omega)
    rw [Int.toNat_of_nonneg this, Int.emod_add_emod]
    rw [show (i : Int) + -k + k = i by omega, Int.emod_eq_of_lt (by omega) (by omega)]; omega
  · rw [List.getElem?_eq_none (by omega), List.getElem?_eq_none (by omega)]

/-- C35 (partial): `tokth(k, f)` calls `f` once with the `k`-th positional argument (negative `k` counts
from the end), replaces that argument by the result and passes everything else through; no arguments is a
TypeError, and an index out of range an IndexError.  (Missing: `k = -n`, see `C35_tokth_refuted`, and a named
argument called `self`, see `C35_named_self_refuted`.) -/
theorem C35_tokth_partial (k : Int) (f : Fn1 σ ε V) (xs : List V) (kw : List (String × V))
    (hs : Free ["self"] ⟨xs, kw⟩) :
    (xs = [] → tokth k f ⟨xs, kw⟩ = raise (.py .TypeError)) ∧
    (xs ≠ [] → ¬ (-xs.length < k ∧ k < xs.length) → tokth k f ⟨xs, kw⟩ = raise (.py .IndexError)) ∧
    (∀ pre x post, xs = pre ++ x :: post →
      (k = pre.length ∨ (k = -(post.length : Int) - 1 ∧ pre ≠ [])) →
      tokth k f ⟨xs, kw⟩ = bind (f x) (fun y => ret (.many ⟨pre ++ y :: post, kw⟩))) := by
  refine ⟨?_, ?_, ?_⟩
  · rintro rfl; simp [tokth]
  · intro hne hk
    have : ¬ (xs.length : Int) = 0 := by
      have := List.length_pos_iff.mpr hne; omega
    simp only [tokth]
    rw [if_neg this, if_pos hk]
  · intro pre x post e hk
    have hl : xs.length = pre.length + post.length + 1 := by rw [e]; simp; omega
    have hr : -(xs.length : Int) < k ∧ k < xs.length := by
      rcases hk with h | ⟨h, hp⟩
      · omega
      · have := List.length_pos_iff.mpr hp; omega
    have hj : (k % (xs.length : Int)).toNat = pre.length := by
      rcases hk with h | ⟨h, hp⟩
      · rw [Int.emod_eq_of_lt (by omega) (by omega)]; omega
      · rw [← Int.add_emod_right, Int.emod_eq_of_lt (by omega) (by omega)]; omega
    simp only [tokth]
    rw [if_neg (by omega), if_neg (by simpa using hr), hj]
    have hx : xs[pre.length]? = some x := by rw [e]; simp
    rw [hx]
    refine bind_congr' _ fun y => ?_
    have ht : xs.take pre.length = pre := by rw [e]; simp
    have hd : xs.drop (pre.length + 1) = post := by
      rw [e, List.drop_append]; simp
    have hm : ∀ ys : List V, mkValues ⟨ys, kw⟩ = .ok ⟨ys, kw⟩ := fun ys => made (vs := ⟨ys, kw⟩) hs
    rw [ht, hd, hm]
    split
    · simp [lift, eff_ret_bind]
    · rename_i hn
      have : post = [] := by
        apply List.eq_nil_of_length_eq_zero; omega
      subst this; rfl

/-- C35 refuted for `k = -n`: `tolast(f)` of a single argument raises IndexError, although that argument
is the last one. -/
theorem C35_tokth_refuted (f : Fn1 σ ε V) (x : V) (kw : List (String × V)) :
    tolast f ⟨[x], kw⟩ = raise (.py .IndexError) := by
  simp [tolast, tokth]

/-- C35: `to1st`, `to2nd` and `tolast` address the first, second and last of at least two arguments.
(Missing: `tolast` of one argument, see `C35_tokth_refuted`, and a named argument called `self`, see
`C35_named_self_refuted`.) -/
theorem C35_named_partial (f : Fn1 σ ε V) (x y : V) (zs : List V) (kw : List (String × V))
    (hs : Free ["self"] ⟨[], kw⟩) :
    to1st f ⟨x :: zs, kw⟩ = bind (f x) (fun r => ret (.many ⟨r :: zs, kw⟩)) ∧
    to2nd f ⟨x :: y :: zs, kw⟩ = bind (f y) (fun r => ret (.many ⟨x :: r :: zs, kw⟩)) ∧
    tolast f ⟨x :: (zs ++ [y]), kw⟩ = bind (f y) (fun r => ret (.many ⟨x :: (zs ++ [r]), kw⟩)) := by
  refine ⟨?_, ?_, ?_⟩
  · exact (C35_tokth_partial 0 f (x :: zs) kw hs).2.2 [] x zs rfl (.inl rfl)
  · exact (C35_tokth_partial 1 f (x :: y :: zs) kw hs).2.2 [x] y zs rfl (.inl rfl)
  · exact (C35_tokth_partial (-1) f (x :: (zs ++ [y])) kw hs).2.2 (x :: zs) y [] rfl (.inr ⟨by simp, by simp⟩)

private theorem keeps_tokth (k : Int) (f : Fn1 σ ε V) (names : List String) : Keeps names (tokth k f) := by
  intro args s vs s' ha h
  unfold tokth at h
  by_cases h0 : (args.rets.length : Int) = 0
  · simp [h0, raise] at h
  by_cases h1 : ¬ (-(args.rets.length : Int) < k ∧ k < args.rets.length)
  · rw [if_neg h0, if_pos h1] at h; simp [raise] at h
  rw [if_neg h0, if_neg h1] at h
  simp only at h
  cases hx : args.rets[(k % (args.rets.length : Int)).toNat]? with
  | none => simp [hx, raise] at h
  | some x =>
    simp only [hx] at h
    unfold Eff.bind at h
    rcases hf : f x s with ⟨e | y, s1⟩
    · simp [hf] at h
    · simp only [hf, mkValues] at h
      cases hh : PyDict.has args.kwrets "self" with
      | true => simp [hh, lift, raise] at h
      | false =>
        simp only [hh, lift, ret, Prod.mk.injEq, Except.ok.injEq, Ret.many.injEq, Bool.false_eq_true,
          if_false] at h
        rw [← h.1]; exact ha

/-- C35: `to((k1, f1), ...)` applies the specifications one after the other.
(Missing: a named argument called `f`, see `C35_named_f_refuted`.) -/
theorem C35_to_partial (p : Int × Fn1 σ ε V) (specs : List (Int × Fn1 σ ε V)) :
    ∃ c, to (p :: specs) = .ok c ∧
      ∀ args, Free ["f"] args →
        c.call args = bind (tokth p.1 p.2 args) (thread (specs.map (fun q => tokth q.1 q.2))) := by
  obtain ⟨c, h1, h2⟩ := C32_composel_partial (⟨tokth p.1 p.2, true⟩ : Callable (Fn σ ε V))
    (specs.map (fun p => ⟨tokth p.1 p.2, true⟩)) (by simp) (by
      intro g hg
      rcases List.mem_cons.mp hg with rfl | hg
      · exact keeps_tokth _ _ _
      · obtain ⟨q, _, rfl⟩ := List.mem_map.mp hg
        exact keeps_tokth _ _ _)
  refine ⟨c, h1, ?_⟩
  intro args ha
  rw [h2 args ha]
  simp [List.map_map, Function.comp_def]

/-- C35 refuted for the name `f`: `flip(g)`, `rotate(k)(g)` and `to(spec1, spec2)` raise TypeError when called with
a named argument called `f`, and call nothing. -/
theorem C35_named_f_refuted (k : Int) (g : Fn σ ε V) (p q : Int × Fn1 σ ε V) (xs : List V) (x : V)
    (hk : -xs.length < k ∧ k < xs.length) :
    pyflip g ⟨xs, [("f", x)]⟩ = raise (.py .TypeError) ∧
    rotate k g ⟨xs, [("f", x)]⟩ = raise (.py .TypeError) ∧
    ∃ c, to [p, q] = .ok c ∧ c.call ⟨xs, [("f", x)]⟩ = raise (.py .TypeError) := by
  refine ⟨rfl, ?_, composeTwo ⟨tokth q.1 q.2, true⟩ ⟨tokth p.1 p.2, true⟩, compose_eq false _ [_] (by simp), rfl⟩
  simp only [rotate]
  rw [if_neg (by omega), if_neg (by simpa using hk)]
  rfl

/-- C35 refuted for the name `self`: `tokth(k, f)` called with a named argument called `self` calls `f`, and then
raises TypeError, because no `Values` can have a named value of this name. -/
theorem C35_named_self_refuted (f : Fn1 σ ε V) (x y z : V) (zs : List V) (s s' : σ) (h : f x s = (.ok y, s')) :
    to1st f ⟨x :: zs, [("self", z)]⟩ s = (.error (.py .TypeError), s') := by
  simp only [to1st, tokth]
  rw [if_neg (by simp; omega), if_neg (by simp)]
  simp [Eff.bind, h, mkValues, PyDict.has, PyDict.get?, lift, raise]

private def collect : Fn Unit Empty Nat := fun args _ => (.ok (.many args), ())
example : rotate (-1) collect ⟨[1, 2, 3], []⟩ () = (.ok (.many ⟨[3, 1, 2], []⟩), ()) := by rfl
example : rotate 1 collect ⟨[1, 2, 3], []⟩ () = (.ok (.many ⟨[2, 3, 1], []⟩), ()) := by rfl
example : tokth (-2) (fun x _ => (.ok (10 * x), ()) : Fn1 Unit Empty Nat) ⟨[1, 2, 3], []⟩ () =
    (.ok (.many ⟨[1, 20, 3], []⟩), ()) := by rfl

/-! ## C36 andf, orf, notf -/

/-- C36: `andf` when all functions return something truthy: each is called once, in order, and the last
value is returned (`True` if there are no functions).
(Missing: a named argument called `f`, see `C36_named_f_refuted`.) -/
theorem C36_andf_true_partial (truthy : V → Bool) (tt ff : V) (htt : truthy tt = true)
    (fs : List (Pred σ ε V)) (args : Args V) (hfree : Free ["f"] args) (s s' : σ) (vs : List V)
    (h : Calls fs args s vs s') (hv : ∀ v ∈ vs, truthy v = true) :
    andf truthy tt ff fs args s = (.ok (vs.getLast?.getD tt), s') := by
  have hp : ∀ g : Pred σ ε V, maybeForceArgs g args = g args := fun g => pass g hfree
  have key : ∀ (fs : List (Pred σ ε V)) s vs b, Calls fs args s vs s' → truthy b = true →
      (∀ v ∈ vs, truthy v = true) → andf.loop truthy ff args b fs s = (.ok (vs.getLast?.getD b), s') := by
    intro fs
    induction fs with
    | nil => intro s vs b h hb hv; cases h; rfl
    | cons f fs ih =>
      intro s vs b h hb hv
      cases h with
      | cons hf h =>
        rename_i v s1 vs
        simp only [andf.loop, Eff.bind, hp, hb, if_true, hf]
        rw [hv v (by simp)]
        simp only [Bool.not_true, Bool.false_eq_true, if_false]
        rw [ih s1 vs v h (hv v (by simp)) (fun x hx => hv x (by simp [hx]))]
        cases hg : vs.getLast? <;> simp [List.getLast?_cons, hg]
  exact key fs s vs tt h htt hv

/-- C36: `andf` stops at the first function that returns something falsy, and returns `False`; no later
function is called.  If a function raises, that exception propagates and no later function is called.
(Missing: a named argument called `f`, see `C36_named_f_refuted`.) -/
theorem C36_andf_stop_partial (truthy : V → Bool) (tt ff : V) (htt : truthy tt = true)
    (pre post : List (Pred σ ε V)) (f : Pred σ ε V) (args : Args V) (hfree : Free ["f"] args) (s s1 s2 : σ) (vs : List V)
    (h : Calls pre args s vs s1) (hv : ∀ v ∈ vs, truthy v = true) :
    (∀ v, f args s1 = (.ok v, s2) → truthy v = false →
      andf truthy tt ff (pre ++ f :: post) args s = (.ok ff, s2)) ∧
    (∀ e, f args s1 = (.error e, s2) →
      andf truthy tt ff (pre ++ f :: post) args s = (.error e, s2)) := by
  have hp : ∀ g : Pred σ ε V, maybeForceArgs g args = g args := fun g => pass g hfree
  have key : ∀ (pre : List (Pred σ ε V)) s vs b, Calls pre args s vs s1 → truthy b = true →
      (∀ v ∈ vs, truthy v = true) →
      (∀ v, f args s1 = (.ok v, s2) → truthy v = false →
        andf.loop truthy ff args b (pre ++ f :: post) s = (.ok ff, s2)) ∧
      (∀ e, f args s1 = (.error e, s2) →
        andf.loop truthy ff args b (pre ++ f :: post) s = (.error e, s2)) := by
    intro pre
    induction pre with
    | nil =>
      intro s vs b h hb hv
      cases h
      constructor
      · intro v hf hfv; simp [andf.loop, Eff.bind, hp, hb, hf, hfv, ret]
      · intro e hf; simp [andf.loop, Eff.bind, hp, hb, hf]
    | cons g pre ih =>
      intro s vs b h hb hv
      cases h with
      | cons hg h =>
        rename_i v s' vs
        have := ih s' vs v h (hv v (by simp)) (fun x hx => hv x (by simp [hx]))
        simp only [List.cons_append, andf.loop, Eff.bind, hp, hb, if_true, hg, hv v (by simp),
          Bool.not_true, Bool.false_eq_true, if_false]
        exact this
  exact key pre s vs tt h htt hv

/-- C36: `orf` when all functions return something falsy: each is called once, in order, and the result is
`False`.
(Missing: a named argument called `f`, see `C36_named_f_refuted`.) -/
theorem C36_orf_false_partial (truthy : V → Bool) (ff : V) (hff : truthy ff = false)
    (fs : List (Pred σ ε V)) (args : Args V) (hfree : Free ["f"] args) (s s' : σ) (vs : List V)
    (h : Calls fs args s vs s') (hv : ∀ v ∈ vs, truthy v = false) :
    orf truthy ff fs args s = (.ok ff, s') := by
  have hp : ∀ g : Pred σ ε V, maybeForceArgs g args = g args := fun g => pass g hfree
  have key : ∀ (fs : List (Pred σ ε V)) s vs b, Calls fs args s vs s' → truthy b = false →
      (∀ v ∈ vs, truthy v = false) → orf.loop truthy ff args b fs s = (.ok ff, s') := by
    intro fs
    induction fs with
    | nil => intro s vs b h hb hv; cases h; rfl
    | cons f fs ih =>
      intro s vs b h hb hv
      cases h with
      | cons hf h =>
        rename_i v s1 vs
        simp only [orf.loop, Eff.bind, hp, hb, Bool.false_eq_true, if_false, hf, hv v (by simp)]
        exact ih s1 vs v h (hv v (by simp)) (fun x hx => hv x (by simp [hx]))
  exact key fs s vs ff h hff hv

/-- C36: `orf` stops at the first function that returns something truthy, and returns that; no later
function is called.  If a function raises, that exception propagates and no later function is called.
(Missing: a named argument called `f`, see `C36_named_f_refuted`.) -/
theorem C36_orf_stop_partial (truthy : V → Bool) (ff : V) (hff : truthy ff = false)
    (pre post : List (Pred σ ε V)) (f : Pred σ ε V) (args : Args V) (hfree : Free ["f"] args) (s s1 s2 : σ) (vs : List V)
    (h : Calls pre args s vs s1) (hv : ∀ v ∈ vs, truthy v = false) :
    (∀ v, f args s1 = (.ok v, s2) → truthy v = true →
      orf truthy ff (pre ++ f :: post) args s = (.ok v, s2)) ∧
    (∀ e, f args s1 = (.error e, s2) →
      orf truthy ff (pre ++ f :: post) args s = (.error e, s2)) := by
  have hp : ∀ g : Pred σ ε V, maybeForceArgs g args = g args := fun g => pass g hfree
  have key : ∀ (pre : List (Pred σ ε V)) s vs b, Calls pre args s vs s1 → truthy b = false →
      (∀ v ∈ vs, truthy v = false) →
      (∀ v, f args s1 = (.ok v, s2) → truthy v = true →
        orf.loop truthy ff args b (pre ++ f :: post) s = (.ok v, s2)) ∧
      (∀ e, f args s1 = (.error e, s2) →
        orf.loop truthy ff args b (pre ++ f :: post) s = (.error e, s2)) := by
    intro pre
    induction pre with
    | nil =>
      intro s vs b h hb hv
      cases h
      constructor
      · intro v hf hfv; simp [orf.loop, Eff.bind, hp, hb, hf, hfv, ret]
      · intro e hf; simp [orf.loop, Eff.bind, hp, hb, hf]
    | cons g pre ih =>
      intro s vs b h hb hv
      cases h with
      | cons hg h =>
        rename_i v s' vs
        have := ih s' vs v h (hv v (by simp)) (fun x hx => hv x (by simp [hx]))
        simp only [List.cons_append, orf.loop, Eff.bind, hp, hb, hg, hv v (by simp),
          Bool.false_eq_true, if_false]
        exact this
  exact key pre s vs ff h hff hv

/-- C36: the cases above are all there are: either every function returns a value of the wanted truth
value, or there is a first one that returns something else or raises. -/
theorem C36_exhaustive (good : V → Bool) (fs : List (Pred σ ε V)) (args : Args V) (s : σ) :
    (∃ vs s', Calls fs args s vs s' ∧ ∀ v ∈ vs, good v = true) ∨
    (∃ pre f post vs s1 r s2, fs = pre ++ f :: post ∧ Calls pre args s vs s1 ∧
      (∀ v ∈ vs, good v = true) ∧ f args s1 = (r, s2) ∧
      ((∃ e, r = .error e) ∨ ∃ v, r = .ok v ∧ good v = false)) := by
  induction fs generalizing s with
  | nil => exact .inl ⟨[], s, .nil, by simp⟩
  | cons f fs ih =>
    rcases hf : f args s with ⟨(e | v), s1⟩
    · exact .inr ⟨[], f, fs, [], s, _, s1, rfl, .nil, by simp, hf, .inl ⟨e, rfl⟩⟩
    · cases hg : good v with
      | false => exact .inr ⟨[], f, fs, [], s, _, s1, rfl, .nil, by simp, hf, .inr ⟨v, rfl, hg⟩⟩
      | true =>
        rcases ih s1 with ⟨vs, s', h1, h2⟩ | ⟨pre, g, post, vs, s2, r, s3, h1, h2, h3, h4, h5⟩
        · refine .inl ⟨v :: vs, s', .cons hf h1, ?_⟩
          intro x hx
          simp only [List.mem_cons] at hx
          rcases hx with rfl | hx
          · exact hg
          · exact h2 x hx
        · refine .inr ⟨f :: pre, g, post, v :: vs, s2, r, s3, by rw [h1]; rfl, .cons hf h2, ?_, h4, h5⟩
          intro x hx
          simp only [List.mem_cons] at hx
          rcases hx with rfl | hx
          · exact hg
          · exact h3 x hx

/-- C36: `notf(f)` calls `f` once and returns the opposite truth value as `True`/`False`.
(Missing: a named argument called `f`, see `C36_named_f_refuted`.) -/
theorem C36_notf_partial (truthy : V → Bool) (tt ff : V) (f : Pred σ ε V) (args : Args V) (hfree : Free ["f"] args)
    (s s' : σ) :
    (∀ v, f args s = (.ok v, s') →
      notf truthy tt ff f args s = (.ok (if truthy v then ff else tt), s')) ∧
    (∀ e, f args s = (.error e, s') → notf truthy tt ff f args s = (.error e, s')) := by
  constructor
  · intro v h; simp [notf, Eff.bind, pass _ hfree, h, ret]
  · intro e h; simp [notf, Eff.bind, pass _ hfree, h]

/-- C36 refuted for the name `f`: `andf`, `orf` (of at least one function) and `notf` raise TypeError when called with
a named argument called `f`, and call nothing. -/
theorem C36_named_f_refuted (truthy : V → Bool) (tt ff : V) (htt : truthy tt = true) (hff : truthy ff = false)
    (f : Pred σ ε V) (fs : List (Pred σ ε V)) (xs : List V) (x : V) (s : σ) :
    andf truthy tt ff (f :: fs) ⟨xs, [("f", x)]⟩ s = (.error (.py .TypeError), s) ∧
    orf truthy ff (f :: fs) ⟨xs, [("f", x)]⟩ s = (.error (.py .TypeError), s) ∧
    notf truthy tt ff f ⟨xs, [("f", x)]⟩ s = (.error (.py .TypeError), s) := by
  refine ⟨?_, ?_, rfl⟩
  · simp only [andf, andf.loop, htt, if_true]; rfl
  · simp only [orf, orf.loop, hff]; rfl

private def yes (n : Nat) : Pred (List Nat) Empty Nat := fun _ log => (.ok n, log ++ [n])
example : andf (fun v : Nat => v != 0) 1 0 [yes 3, yes 0, yes 5] ⟨[], []⟩ [] = (.ok 0, [3, 0]) := rfl
example : orf (fun v : Nat => v != 0) 0 [yes 0, yes 7, yes 5] ⟨[], []⟩ [] = (.ok 7, [0, 7]) := rfl
example : Calls [yes 3, yes 4] ⟨[], []⟩ [] [3, 4] [3, 4] := .cons rfl (.cons rfl .nil)

/-! ## C37 pipes -/

private theorem unwrap_finish (r : Ret V) : (unwrap r : Eff σ (Err ε) (Ret V)) = finish r := by
  cases r with
  | one v => rfl
  | many vs =>
    obtain ⟨rets, kw⟩ := vs
    match rets, kw with
    | [], [] => rfl
    | [x], [] => rfl
    | [], p :: kw => rfl
    | [x], p :: kw => rfl
    | x :: y :: zs, [] => simp [unwrap, finish]
    | x :: y :: zs, p :: kw => simp [unwrap, finish]

private theorem pipe_loop (r : Ret V) (fs : List (Fn σ ε V)) : 
    pipe.loop r fs = thread (fs.map maybeForceArgs) r := by
  induction fs generalizing r with
  | nil => rfl
  | cons f fs ih =>
    rw [pipe.loop.eq_def, List.map_cons, thread]
    dsimp only
    have : (fun xs => pipe.loop xs fs) = thread (fs.map maybeForceArgs) := funext ih
    rw [this]
    cases r <;> rfl

private theorem lazy_loop (r : Ret V) (fs : List (Fn σ ε V)) : 
    lazyPipedOr.run r fs = thread (fs.map maybeForceArgs) r := by
  induction fs generalizing r with
  | nil => rfl
  | cons f fs ih =>
    rw [lazyPipedOr.run.eq_def, List.map_cons, thread]
    dsimp only
    have : (fun xs => lazyPipedOr.run xs fs) = thread (fs.map maybeForceArgs) := funext ih
    rw [this]
    cases r <;> rfl

private theorem pipe_eq (r : Ret V) (fs : List (Fn σ ε V)) :
    pipe r fs = bind (thread (fs.map maybeForceArgs) r) finish := by
  rw [pipe, pipe_loop]
  exact bind_congr' _ unwrap_finish

/-- C37: `pipe(values0, *fs)` threads the initial value(s) through the functions in order.
(Missing: a named value called `f`, see `C37_named_f_refuted`.) -/
theorem C37_pipe_partial (r : Ret V) (fs : List (Fn σ ε V)) (hr : Free ["f"] (asArgs r))
    (hk : ∀ g ∈ fs, Keeps ["f"] g) : pipe r fs = bind (thread fs r) finish := by
  rw [pipe_eq, thread_pass fs hk r hr]

/-- C37: a named value called `f`, given or returned, cannot be piped into any function: the pipes raise TypeError,
without calling it.  (All kinds of pipes do this, so that they still compute the same thing.) -/
theorem C37_named_f_refuted (g : Fn σ ε V) (fs : List (Fn σ ε V)) (xs : List V) (x : V) (s : σ) :
    pipe (.many ⟨xs, [("f", x)]⟩) (g :: fs) s = (.error (.py .TypeError), s) ∧
    chain pipedOr ⟨xs, [("f", x)]⟩ (g :: fs) s = (.error (.py .TypeError), s) ∧
    (∀ r s', Free ["f"] (asArgs r) → g (asArgs r) s = (.ok (.many ⟨xs, [("f", x)]⟩), s') →
      ∀ h, pipe r (g :: h :: fs) s = (.error (.py .TypeError), s')) := by
  refine ⟨rfl, rfl, ?_⟩
  intro r s' hr hg h
  rw [pipe_eq]
  simp only [List.map_cons, thread, pass _ hr, Eff.bind, hg]
  rfl

private theorem finish_many (r : Ret V) :
    (finish (.many (asArgs r)) : Eff σ (Err ε) (Ret V)) = finish r := by
  cases r with
  | one v => rfl
  | many vs => rfl

/-- C37: `piped(*xs, **kws) | f1 | ... | fn | exitpipe` is `pipe(Values(*xs, **kws), f1, ..., fn)`. -/
theorem C37_piped (xs : Vals V) (fs : List (Fn σ ε V)) :
    chain pipedOr xs fs = bind (pipe (.many xs) fs) (fun r => ret (some r)) := by
  rw [pipe_eq, eff_assoc]
  induction fs generalizing xs with
  | nil =>
    simp only [chain, pipedOr, thread, eff_assoc, eff_ret_bind]
    rw [unwrap_finish]
    rfl
  | cons f fs ih =>
    simp only [chain, pipedOr, List.map_cons, thread, eff_assoc, asArgs]
    refine bind_congr' _ fun r => ?_
    cases r with
    | one v =>
      simp only [eff_ret_bind]
      rw [ih]
      cases fs with
      | nil => rfl
      | cons g fs => rfl
    | many vs => simp only [eff_ret_bind]; exact ih vs

/-- C37: `lazy_piped` gives the same when exited. -/
theorem C37_lazy_piped (xs : Vals V) (fs : List (Fn σ ε V)) :
    chain lazyPipedOr (lazy_piped xs) fs = bind (pipe (.many xs) fs) (fun r => ret (some r)) := by
  have key : ∀ gs fs : List (Fn σ ε V), chain lazyPipedOr ⟨xs, gs⟩ fs =
      bind (pipe (.many xs) (gs ++ fs)) (fun r => ret (some r)) := by
    intro gs fs
    induction fs generalizing gs with
    | nil =>
      simp only [chain, lazyPipedOr, List.append_nil]
      rw [pipe_eq, lazy_loop, eff_assoc, eff_assoc, eff_assoc]
      refine bind_congr' _ fun r => ?_
      rw [unwrap_finish]
      exact bind_congr' _ fun r => rfl
    | cons f fs ih =>
      simp only [chain, lazyPipedOr, eff_ret_bind]
      rw [ih]; simp
  exact key [] fs

/-- C37: adding functions to a lazy pipe calls nothing and changes nothing. -/
theorem C37_lazy_build (p : LazyPiped σ ε V) (q : LazyPiped1 σ ε V) (f : Fn σ ε V) (g : Fn1 σ ε V) (s : σ) :
    (∃ p', lazyPipedOr p (.fn f) s = (.ok (.pipe p'), s)) ∧
    (∃ q', lazyPiped1Or q (.fn g) s = (.ok (.pipe q'), s)) :=
  ⟨⟨_, rfl⟩, ⟨_, rfl⟩⟩

/-- C37: the one-value pipes. -/
theorem C37_pipe1 (x : V) (fs : List (Fn1 σ ε V)) :
    pipe1 x fs = thread1 fs x ∧
    chain piped1Or x fs = bind (thread1 fs x) (fun r => ret (some r)) ∧
    chain lazyPiped1Or (lazy_piped1 x) fs = bind (thread1 fs x) (fun r => ret (some r)) := by
  refine ⟨?_, ?_, ?_⟩
  · induction fs generalizing x with
    | nil => rfl
    | cons f fs ih => exact bind_congr' _ ih
  · induction fs generalizing x with
    | nil => rfl
    | cons f fs ih =>
      simp only [chain, piped1Or, thread1, eff_assoc, eff_ret_bind]
      exact bind_congr' _ ih
  · have run : ∀ (fs : List (Fn1 σ ε V)) x, lazyPiped1Or.run x fs = thread1 fs x := by
      intro fs
      induction fs with
      | nil => intro x; rfl
      | cons f fs ih => intro x; exact bind_congr' _ ih
    have key : ∀ gs fs : List (Fn1 σ ε V), chain lazyPiped1Or ⟨x, gs⟩ fs =
        bind (thread1 (gs ++ fs) x) (fun r => ret (some r)) := by
      intro gs fs
      induction fs generalizing gs with
      | nil =>
        simp only [chain, lazyPiped1Or, List.append_nil]
        rw [run, eff_assoc]
        exact bind_congr' _ fun r => rfl
      | cons f fs ih =>
        simp only [chain, lazyPiped1Or, eff_ret_bind]
        rw [ih]; simp
    exact key [] fs

private def split2 : Fn Unit Empty Nat := fun a s =>
  (.ok (.many ⟨[a.rets.headD 0, 10], [("z", 7)]⟩), s)
private def sum : Fn Unit Empty Nat := fun a s =>
  (.ok (.one (a.rets.foldl (· + ·) 0 + (a.kwrets.map (·.2)).foldl (· + ·) 0)), s)
example : pipe (.one 5) [split2, sum] () = (.ok (.one 22), ()) := rfl
example : chain lazyPipedOr (lazy_piped ⟨[5], []⟩) [split2, sum] () = (.ok (some (.one 22)), ()) := rfl

/-! ## C65 Values -/

/-- C65: positional indexing follows tuple indexing. -/
theorem C65_index (v : Vals V) :
    (∀ i : Nat, i < v.rets.length → ∃ x, v.rets[i]? = some x ∧
      Values.getitem v (.int i) = .ok (.item x) ∧
      Values.getitem v (.int ((i : Int) - v.rets.length)) = .ok (.item x)) ∧
    (∀ i : Int, i ≥ v.rets.length ∨ i < -(v.rets.length : Int) →
      Values.getitem v (.int i) = .error .IndexError) := by
  constructor
  · intro i hi
    have hx : v.rets[i]? = some v.rets[i] := List.getElem?_eq_getElem hi
    refine ⟨_, hx, ?_, ?_⟩
    · have : normIdx i v.rets.length = i := by unfold normIdx; split <;> omega
      simp only [Values.getitem, this]
      rw [if_neg (by omega)]
      simp [hx]
    · have : normIdx ((i : Int) - v.rets.length) v.rets.length = i := by unfold normIdx; split <;> omega
      simp only [Values.getitem, this]
      rw [if_neg (by omega)]
      simp [hx]
  · intro i hi
    have hn : normIdx i v.rets.length < 0 ∨ normIdx i v.rets.length ≥ v.rets.length := by
      unfold normIdx; split <;> omega
    simp only [Values.getitem]
    rcases hn with h | h
    · rw [if_pos h]
    · rw [if_neg (by omega), List.getElem?_eq_none (by omega)]

/-- C65: slicing gives the positions the slice selects; string subscripts, `in` and `get` look at the named
part only; any other subscript is a TypeError. -/
theorem C65_access (v : Vals V) (k : String) (d : V) (s : Slice) :
    (s.by ≠ 0 → Values.getitem v (.slice s) = .ok (.tuple (pySlice v.rets s))) ∧
    (∀ x, PyDict.get? v.kwrets k = some x → Values.contains v k = true ∧
      Values.getitem v (.str k) = .ok (.item x) ∧ Values.get v k d = .ok (.item x)) ∧
    (PyDict.get? v.kwrets k = none → Values.contains v k = false ∧
      Values.getitem v (.str k) = .error .KeyError ∧ Values.get v k d = .ok (.item d)) ∧
    Values.getitem v .other = .error .TypeError := by
  refine ⟨?_, ?_, ?_, rfl⟩
  · intro h; simp [Values.getitem, h]
  · intro x h
    have hc : Values.contains v k = true := by
      simp [Values.contains, PyDict.has, h]
    refine ⟨hc, ?_, ?_⟩ <;> simp [Values.get, hc, Values.getitem, h]
  · intro h
    have hc : Values.contains v k = false := by
      simp [Values.contains, PyDict.has, h]
    refine ⟨hc, ?_, ?_⟩ <;> simp [Values.get, hc, Values.getitem, h]

/-- C65: iterating gives the positional part if there are no named values and is a ValueError otherwise;
`ret` is the first positional value, an IndexError if there is none. -/
theorem C65_iter (v : Vals V) :
    (v.kwrets = [] → Values.iter v = .ok v.rets) ∧ (v.kwrets ≠ [] → Values.iter v = .error .ValueError) ∧
    (∀ x xs, v.rets = x :: xs → Values.ret v = .ok x) ∧ (v.rets = [] → Values.ret v = .error .IndexError) := by
  refine ⟨?_, ?_, ?_, ?_⟩
  · intro h; simp [Values.iter, h]
  · intro h; simp [Values.iter, h]
  · intro x xs h; simp [Values.ret, h]
  · intro h; simp [Values.ret, h]

/-- C65: two `Values` are equal exactly if their positional parts are equal and each name has the same value
in both, whatever the order of the names. -/
theorem C65_eq [DecidableEq V] (a b : Vals V) (ha : (PyDict.keys a.kwrets).Nodup)
    (hb : (PyDict.keys b.kwrets).Nodup) :
    Values.eq a b = true ↔
      a.rets = b.rets ∧ ∀ k, PyDict.get? a.kwrets k = PyDict.get? b.kwrets k := by
  have dict : ∀ x y : PyDict String V, (PyDict.keys x).Nodup → (PyDict.keys y).Nodup →
      (Values.dictEq x y = true ↔ ∀ k, PyDict.get? x k = PyDict.get? y k) := by
    intro x y hx hy
    simp only [Values.dictEq, Bool.and_eq_true, beq_iff_eq, List.all_eq_true]
    have mem_get : ∀ (x : PyDict String V), (PyDict.keys x).Nodup → ∀ k v, (k, v) ∈ x ↔ PyDict.get? x k = some v := by
      intro x hx k v
      induction x with
      | nil => simp [PyDict.get?]
      | cons p x ih =>
        simp only [PyDict.keys, List.map_cons, List.nodup_cons] at hx
        have ih := ih hx.2
        obtain ⟨q, w⟩ := p
        by_cases hq : k = q
        · subst hq
          have hn : (k, v) ∉ x := fun hm => hx.1 (List.mem_map.mpr ⟨_, hm, rfl⟩)
          simp [PyDict.get?, hn, eq_comm]
        · simp only [List.mem_cons, Prod.mk.injEq, hq, false_and, false_or]
          rw [ih]
          simp [PyDict.get?, show ¬ q = k from fun h => hq h.symm]
    constructor
    · rintro ⟨hl, hall⟩ k
      cases hk : PyDict.get? x k with
      | some v => exact (hall (k, v) ((mem_get x hx k v).mpr hk)).symm
      | none =>
        cases hyk : PyDict.get? y k with
        | none => rfl
        | some w =>
          exfalso
          have hsub : PyDict.keys x ⊆ (PyDict.keys y).erase k := by
            intro j hj
            obtain ⟨⟨j', v⟩, hm, rfl⟩ := List.mem_map.mp hj
            have hne : j' ≠ k := by
              rintro rfl
              rw [(mem_get x hx _ v).mp hm] at hk; cases hk
            have := hall (j', v) hm
            have hm' := (mem_get y hy j' v).mpr this
            exact (List.mem_erase_of_ne hne).mpr (List.mem_map.mpr ⟨_, hm', rfl⟩)
          have hle := hx.length_le_of_subset hsub
          have hky : k ∈ PyDict.keys y := List.mem_map.mpr ⟨_, (mem_get y hy k w).mpr hyk, rfl⟩
          have hpos := List.length_pos_of_mem hky
          rw [List.length_erase_of_mem hky] at hle
          simp only [PyDict.keys, List.length_map] at hle hpos
          omega
    · intro h
      constructor
      · have h1 : PyDict.keys x ⊆ PyDict.keys y := by
          intro j hj
          obtain ⟨⟨j', v⟩, hm, rfl⟩ := List.mem_map.mp hj
          exact List.mem_map.mpr ⟨_, (mem_get y hy j' v).mpr (by rw [← h]; exact (mem_get x hx j' v).mp hm), rfl⟩
        have h2 : PyDict.keys y ⊆ PyDict.keys x := by
          intro j hj
          obtain ⟨⟨j', v⟩, hm, rfl⟩ := List.mem_map.mp hj
          exact List.mem_map.mpr ⟨_, (mem_get x hx j' v).mpr (by rw [h]; exact (mem_get y hy j' v).mp hm), rfl⟩
        have a1 := hx.length_le_of_subset h1
        have a2 := hy.length_le_of_subset h2
        simp only [PyDict.keys, List.length_map] at a1 a2
        omega
      · rintro ⟨k, v⟩ hm
        rw [← h]; exact (mem_get x hx k v).mp hm
  simp only [Values.eq, Bool.and_eq_true, decide_eq_true_eq]
  rw [dict _ _ hb ha]
  constructor
  · rintro ⟨h1, h2⟩; exact ⟨h1.symm, fun k => (h2 k).symm⟩
  · rintro ⟨h1, h2⟩; exact ⟨h1.symm, fun k => (h2 k).symm⟩

/-- C65: `valuify` turns a returned tuple into a `Values` of its items and passes everything else through. -/
theorem C65_valuify (xs : List V) (r : Ret V) :
    valuify (.tuple xs) = .many ⟨xs, []⟩ ∧ valuify (.other r) = r := ⟨rfl, rfl⟩

example : Values.eq (⟨[1], [("x", 2), ("y", 3)]⟩ : Vals Nat) ⟨[1], [("y", 3), ("x", 2)]⟩ = true := by decide
example : Values.getitem (⟨[1, 2, 3], [("x", 9)]⟩ : Vals Nat) (.int (-1)) = .ok (.item 3) := by rfl
example : (PyDict.keys [("x", 2), ("y", 3)]).Nodup := by decide

/-! ## C73 apply, identity, const -/

/-- C73: `apply(f, a1, ..., ak, lst)` calls `f(a1, ..., ak, *lst)`; a last argument that is not iterable is
a TypeError and `f` is not called.
(Missing: named arguments called `f` or `arg0`, see `C73_names_refuted`.) -/
theorem C73_apply_partial (asValue : List V → V) (f : Fn σ ε V) (xs : List V) (lst : List V)
    (kw : List (String × V)) (hf : Free ["f", "arg0"] ⟨[], kw⟩) :
    (apply asValue f (.list lst) [] kw = f ⟨lst, kw⟩) ∧
    (∀ x, apply asValue f (.plain x) (xs.map .plain ++ [.list lst]) kw = f ⟨x :: xs ++ lst, kw⟩) ∧
    (∀ x, apply asValue f (.plain x) [] kw = raise (.py .TypeError)) ∧
    (∀ x y, apply asValue f (.plain x) (xs.map .plain ++ [.plain y]) kw = raise (.py .TypeError)) := by
  have h1 : PyDict.has kw "f" = false := free_has hf (by simp)
  have h2 : PyDict.has kw "arg0" = false := free_has hf (by simp)
  refine ⟨?_, ?_, ?_, ?_⟩
  · simp [apply, maybeForceArgs, h1, h2]
  · intro x
    simp [apply, maybeForceArgs, h1, h2, List.map_map, Function.comp_def]
  · intro x; simp [apply, h1, h2]
  · intro x y; simp [apply, h1, h2]

/-- C73: `identity` returns its argument; several, or named ones, as a `Values`; none as `None`.
(Missing: a named argument called `self`, see `C73_names_refuted`.) -/
theorem C73_identity_partial (pyNone x y : V) (xs : List V) (kw : List (String × V))
    (hs : Free ["self"] ⟨[], kw⟩) :
    identity pyNone ⟨[], []⟩ = .ok (.one pyNone) ∧ identity pyNone ⟨[x], []⟩ = .ok (.one x) ∧
    identity pyNone ⟨x :: y :: xs, kw⟩ = .ok (.many ⟨x :: y :: xs, kw⟩) ∧
    (kw ≠ [] → identity pyNone ⟨xs, kw⟩ = .ok (.many ⟨xs, kw⟩)) := by
  have hm : ∀ ys : List V, mkValues ⟨ys, kw⟩ = .ok ⟨ys, kw⟩ := fun ys => made (vs := ⟨ys, kw⟩) hs
  refine ⟨rfl, rfl, ?_, ?_⟩
  · simp [identity, hm, Except.map]
  · intro h
    match kw, h with
    | p :: kw, _ => simp [identity, hm, Except.map]

/-- C73: `const(...)` ignores its arguments, has no effects and returns what `identity` returns for the
arguments `const` was given, and raises if that raises; and piping into `identity` changes nothing.
(Missing: a named argument called `self`, see `C73_names_refuted`.) -/
theorem C73_const_partial (pyNone : V) (args more : Args V) (s : σ) (r : Ret V) (hs : Free ["self"] (asArgs r)) :
    (∀ v, identity pyNone args = .ok v →
      ∃ f : Fn σ ε V, const pyNone args = .ok f ∧ f more s = (.ok v, s)) ∧
    (∀ e, identity pyNone args = .error e → (const pyNone args : Res (Fn σ ε V)) = .error e) ∧
    (asArgs r ≠ ⟨[], []⟩ → ∃ r', identity pyNone (asArgs r) = .ok r' ∧ asArgs r' = asArgs r) := by
  have hc : (const pyNone args : Res (Fn σ ε V)) = (identity pyNone args).map (fun r => fun _ => ret r) := rfl
  refine ⟨?_, ?_, ?_⟩
  · intro v h
    exact ⟨fun _ => ret v, by rw [hc, h]; rfl, rfl⟩
  · intro e h
    rw [hc, h]; rfl
  · intro h
    generalize asArgs r = a at *
    obtain ⟨xs, kw⟩ := a
    have hm : ∀ ys : List V, mkValues ⟨ys, kw⟩ = .ok ⟨ys, kw⟩ := fun ys => made (vs := ⟨ys, kw⟩) hs
    match xs, kw, hm with
    | [], [], _ => exact absurd rfl h
    | [x], [], _ => exact ⟨.one x, rfl, rfl⟩
    | [], p :: kw, hm => exact ⟨.many ⟨[], p :: kw⟩, by simp [identity, hm, Except.map], rfl⟩
    | [x], p :: kw, hm => exact ⟨.many ⟨[x], p :: kw⟩, by simp [identity, hm, Except.map], rfl⟩
    | x :: y :: xs, [], hm => exact ⟨.many ⟨x :: y :: xs, []⟩, by simp [identity, hm, Except.map], rfl⟩
    | x :: y :: xs, p :: kw, hm => exact ⟨.many ⟨x :: y :: xs, p :: kw⟩, by simp [identity, hm, Except.map], rfl⟩

/-- C73 refuted for some names: `apply(g, lst, f=...)` and `apply(g, lst, arg0=...)` raise TypeError without calling
`g`; `identity(self=...)` and `const(self=...)` raise TypeError. -/
theorem C73_names_refuted (asValue : List V → V) (g : Fn σ ε V) (lst : List V) (x pyNone : V) :
    apply asValue g (.list lst) [] [("f", x)] = raise (.py .TypeError) ∧
    apply asValue g (.list lst) [] [("arg0", x)] = raise (.py .TypeError) ∧
    identity pyNone ⟨lst, [("self", x)]⟩ = .error .TypeError ∧
    (const pyNone ⟨lst, [("self", x)]⟩ : Res (Fn σ ε V)) = .error .TypeError := by
  refine ⟨rfl, rfl, ?_, ?_⟩ <;>
    simp [identity, const, mkValues, PyDict.has, PyDict.get?, Except.map]

example : apply (fun _ => 0) collect (.plain 1) [.plain 2, .list [3, 4]] [] () =
    (.ok (.many ⟨[1, 2, 3, 4], []⟩), ()) := rfl

/-! ## C74 begin -/

/-- C74: the eager forms return the last and the first value, `None` if there are none. -/
theorem C74_begin (pyNone x : V) (xs : List V) :
    begin pyNone (xs ++ [x]) = x ∧ begin0 pyNone (x :: xs) = x ∧
    begin pyNone [] = pyNone ∧ begin0 pyNone [] = pyNone := by
  simp [begin, begin0]

private theorem runAll_calls (bs : List (Eff σ (Err ε) V)) (s s' : σ) (vs : List V)
    (h : Calls (bs.map (fun b (_ : PUnit) => b)) ⟨⟩ s vs s') : runAll bs s = (.ok (), s') := by
  induction bs generalizing s vs with
  | nil => cases h; rfl
  | cons b bs ih =>
    simp only [List.map_cons] at h
    cases h with
    | cons hb h => simp only [runAll, Eff.bind, hb]; exact ih _ _ h

/-- C74: the lazy forms call the thunks in order, each once, and return the last resp. the first value. -/
theorem C74_lazy (pyNone : V) (bs : List (Eff σ (Err ε) V)) (s s' : σ) (v : V) (vs : List V)
    (h : Calls (bs.map (fun b (_ : PUnit) => b)) ⟨⟩ s (v :: vs) s') :
    lazy_begin pyNone bs s = (.ok ((v :: vs).getLast (by simp)), s') ∧
    lazy_begin0 pyNone bs s = (.ok v, s') := by
  constructor
  · have key : ∀ (bs : List (Eff σ (Err ε) V)) s (v : V) vs,
        Calls (bs.map (fun b (_ : PUnit) => b)) ⟨⟩ s (v :: vs) s' →
        ∃ last, bs.getLast? = some last ∧
          bind (runAll bs.dropLast) (fun _ => last) s = (.ok ((v :: vs).getLast (by simp)), s') := by
      intro bs
      induction bs with
      | nil => intro s v vs h; cases h
      | cons b bs ih =>
        intro s v vs h
        simp only [List.map_cons] at h
        cases h with
        | cons hb h =>
          cases bs with
          | nil =>
            cases h
            exact ⟨b, rfl, by simpa [runAll, Eff.bind, ret] using hb⟩
          | cons c bs =>
            cases vs with
            | nil => simp only [List.map_cons] at h; cases h
            | cons w ws =>
              obtain ⟨last, h1, h2⟩ := ih _ w ws h
              refine ⟨last, by rw [List.getLast?_cons_cons]; exact h1, ?_⟩
              simp only [List.dropLast_cons_cons, runAll, eff_assoc]
              rw [List.getLast_cons (by simp)]
              have hb' : b s = _ := hb
              simp only [Eff.bind] at h2 ⊢
              simp only [hb']; exact h2
    obtain ⟨last, h1, h2⟩ := key bs s v vs h
    match bs, h1, h2 with
    | [b], h1, h2 =>
      simp at h1; subst h1
      simpa [lazy_begin, runAll, Eff.bind, ret] using h2
    | b :: c :: bs, h1, h2 =>
      simp only [lazy_begin, h1]; exact h2
  · match bs, h with
    | [b], h =>
      simp only [List.map_cons] at h
      cases h with
      | cons hb h => cases h; exact hb
    | b :: c :: bs, h =>
      simp only [List.map_cons] at h
      cases h with
      | cons hb h =>
        rename_i s1
        have := runAll_calls (c :: bs) s1 s' vs h
        simp only [lazy_begin0, Eff.bind, hb, this]; rfl

private theorem snocCases {α : Type u} (l : List α) : l = [] ∨ ∃ q z, l = q ++ [z] := by
  by_cases h : l = []
  · exact .inl h
  · exact .inr ⟨_, _, (List.dropLast_concat_getLast h).symm⟩

/-- C74: with no thunks the lazy forms return `None`; an exception in a thunk propagates at once, and the
later thunks are not called. -/
theorem C74_lazy_raise (pyNone : V) (pre post : List (Eff σ (Err ε) V)) (b : Eff σ (Err ε) V)
    (s s1 s2 : σ) (vs : List V) (e : Err ε)
    (h : Calls (pre.map (fun b (_ : PUnit) => b)) ⟨⟩ s vs s1) (hb : b s1 = (.error e, s2)) :
    lazy_begin pyNone (pre ++ b :: post) s = (.error e, s2) ∧
    lazy_begin0 pyNone (pre ++ b :: post) s = (.error e, s2) ∧
    (lazy_begin pyNone ([] : List (Eff σ (Err ε) V)) s = (.ok pyNone, s)) ∧
    (lazy_begin0 pyNone ([] : List (Eff σ (Err ε) V)) s = (.ok pyNone, s)) := by
  have run : ∀ (pre post : List (Eff σ (Err ε) V)) s vs,
      Calls (pre.map (fun b (_ : PUnit) => b)) ⟨⟩ s vs s1 →
      runAll (pre ++ b :: post) s = (.error e, s2) := by
    intro pre post
    induction pre with
    | nil => intro s vs h; cases h; simp [runAll, Eff.bind, hb]
    | cons c pre ih =>
      intro s vs h
      simp only [List.map_cons] at h
      cases h with
      | cons hc h => simp only [List.cons_append, runAll, Eff.bind, hc]; exact ih _ _ h
  have runNil := fun s vs (h : Calls (pre.map (fun b (_ : PUnit) => b)) ⟨⟩ s vs s1) =>
    runAll_calls pre s s1 vs h
  refine ⟨?_, ?_, rfl, rfl⟩
  · have big : ∀ bs : List (Eff σ (Err ε) V), bs ≠ [] →
        ∃ last, bs.getLast? = some last ∧ lazy_begin pyNone bs = bind (runAll bs.dropLast) (fun _ => last) := by
      intro bs hne
      match bs, hne with
      | [c], _ => exact ⟨c, rfl, rfl⟩
      | c :: d :: bs, _ =>
        obtain ⟨l, hl⟩ : ∃ l, (c :: d :: bs).getLast? = some l := by
          rw [List.getLast?_eq_some_getLast (by simp)]; exact ⟨_, rfl⟩
        exact ⟨l, hl, by simp only [lazy_begin, hl]⟩
    obtain ⟨last, h1, h2⟩ := big (pre ++ b :: post) (by simp)
    rw [h2]
    rcases snocCases post with rfl | ⟨q, z, rfl⟩
    · simp at h1; subst h1
      simp only [List.dropLast_concat, Eff.bind, runNil s vs h, hb]
    · have : (pre ++ b :: (q ++ [z])).dropLast = pre ++ b :: q := by
        rw [show pre ++ b :: (q ++ [z]) = (pre ++ b :: q) ++ [z] by simp, List.dropLast_concat]
      rw [this]
      simp only [Eff.bind, run pre q s vs h]
  · match pre, h with
    | [], h =>
      cases h
      cases post with
      | nil => exact hb
      | cons c post => simp only [List.nil_append, lazy_begin0, Eff.bind, hb]
    | c :: pre, h =>
      simp only [List.map_cons] at h
      cases h with
      | cons hc h =>
        rename_i s' v vs
        have := run pre post _ _ h
        obtain ⟨d, ds, hd⟩ : ∃ d ds, pre ++ b :: post = d :: ds := by
          cases pre with
          | nil => exact ⟨_, _, rfl⟩
          | cons x y => exact ⟨_, _, rfl⟩
        rw [hd] at this
        rw [List.cons_append, hd]
        simp only [lazy_begin0, Eff.bind, hc, this]

private def say (n : Nat) : Eff (List Nat) (Err Empty) Nat := fun log => (.ok n, log ++ [n])
example : lazy_begin 0 [say 1, say 2, say 3] [] = (.ok 3, [1, 2, 3]) := rfl
example : lazy_begin0 0 [say 1, say 2, say 3] [] = (.ok 1, [1, 2, 3]) := rfl

end Unpy.Props
