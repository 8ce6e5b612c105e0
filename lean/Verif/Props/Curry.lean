import Verif.Proof.Curry
/-! # C33: currying -/
namespace Unpy.Props
open Unpy Unpy.Arity Unpy.Curry Unpy.Eff Unpy.Spec.Arity Unpy.Spec.Curry
open Unpy.Fold (Err Vals)
variable {σ ε A : Type}

private theorem has_nil (n : String) : PyDict.has ([] : PyDict String (Obj A)) n = false := rfl

private theorem bind_congr_on {R S : Type} (m : Eff σ (Err ε) R) {k k' : R → Eff σ (Err ε) S}
    (h : ∀ s r s', m s = (.ok r, s') → k r = k' r) : Eff.bind m k = Eff.bind m k' := by
  funext s
  unfold Eff.bind
  rcases hm : m s with ⟨r | r, s'⟩
  · rfl
  · simp only; rw [h s r s' hm]

private theorem split_from (fs : Funcs σ ε A) (depth : Nat) (ctx : Bool) (f : A) (F : Func σ ε A)
    (hf : fs f = some F) (wf : WF F.sig) (last : List (Obj A) × PyDict String (Obj A))
    (rest done : List (List (Obj A) × PyDict String (Obj A)))
    (hfun : ∀ c ∈ rest, PyDict.has c.2 "func" = false) (hlf : PyDict.has last.2 "f" = false)
    (hpo : ∀ p ∈ F.sig, p.kind = .posOnly → PyDict.has (allKwargs (done ++ rest ++ [last])) p.name = false)
    (hinc : ∀ pre, pre ≠ [] → pre <+: rest → missing F.sig (allArgs (done ++ pre)) (allKwargs (done ++ pre)) ≠ [])
    (hacc : Accepts F.sig (allArgs (done ++ rest ++ [last])) (allKwargs (done ++ rest ++ [last]))) :
    callChain fs (depth + 1) ctx (.one (.curried f (allArgs done) (allKwargs done))) (rest ++ [last]) =
      F.body true (allArgs (done ++ rest ++ [last])) (allKwargs (done ++ rest ++ [last])) := by
  induction rest generalizing done with
  | nil =>
    have e1 : allArgs done ++ last.1 = allArgs (done ++ [] ++ [last]) := by simp [allArgs]
    have e2 : PyDict.update (allKwargs done) last.2 = allKwargs (done ++ [] ++ [last]) := by
      simp [allKwargs, update_append]
    have hp : ¬ PosOnlyClash F.sig (allArgs (done ++ [] ++ [last])) (allKwargs (done ++ [] ++ [last])) := by
      rintro ⟨p, h1, h2, _, h3⟩
      rw [hpo p h1 h2] at h3; simp at h3
    simp only [List.nil_append, callChain]
    rw [show (fun r : Ret (Obj A) => (ret r : Eff σ (Err ε) _)) = ret from rfl, eff_bind_ret]
    simp only [callObj, callCurried, hf, e1, e2, decide_call wf hp hacc, pyCall, if_pos hacc, hlf, Bool.false_eq_true, if_false]
  | cons c rest ih =>
    have e1 : allArgs done ++ c.1 = allArgs (done ++ [c]) := by simp [allArgs]
    have e2 : PyDict.update (allKwargs done) c.2 = allKwargs (done ++ [c]) := by
      simp [allKwargs, update_append]
    have eA : allArgs (done ++ c :: rest ++ [last]) = allArgs (done ++ [c]) ++ allArgs (rest ++ [last]) := by
      simp [allArgs]
    have hmono : ∀ n, PyDict.has (allKwargs (done ++ [c])) n = true →
        PyDict.has (allKwargs (done ++ c :: rest ++ [last])) n = true := by
      intro n hn
      have : done ++ c :: rest ++ [last] = (done ++ [c]) ++ (rest ++ [last]) := by simp
      rw [this, allKwargs_append]
      exact has_update_mono _ _ hn
    have hp : ¬ PosOnlyClash F.sig (allArgs (done ++ [c])) (allKwargs (done ++ [c])) := by
      rintro ⟨p, h1, h2, _, h3⟩
      have := hmono _ h3
      rw [hpo p h1 h2] at this; simp at this
    have hc : ¬ Conflict F.sig (allArgs (done ++ [c])) (allKwargs (done ++ [c])) := by
      intro h
      have := conflict_mono wf (b := allArgs (rest ++ [last])) hmono h
      rw [← eA] at this
      exact hacc.1 this
    have hx : extraArgs F.sig (allArgs (done ++ [c])) = [] := by
      have := hacc.2.2.1
      rw [eA] at this
      exact extraArgs_mono this
    have hxk : extraKwargs F.sig (allKwargs (done ++ [c])) = [] := extraKwargs_mono hmono hacc.2.2.2
    have hm := hinc [c] (by simp) (by simp)
    simp only [List.cons_append, callChain, callObj, callCurried, hf, e1, e2, decide_keep wf hx hc hp hm,
      partialOk_of wf hx hxk hc hp, if_true, eff_ret_bind, hfun c (by simp), Bool.false_eq_true, if_false]
    have eq : done ++ c :: rest ++ [last] = done ++ [c] ++ rest ++ [last] := by simp
    rw [eq] at hpo hacc ⊢
    refine ih (done ++ [c]) (fun c' hc' => hfun c' (by simp [hc'])) hpo ?_ hacc
    intro pre hne hpre
    have := hinc (c :: pre) (by simp) (by simpa using hpre)
    simpa using this

/-- C33: however the arguments of a call that Python accepts are split over calls of the curried function
(positional and named ones, also empty calls), as long as no earlier call completes the parameters, the
function is called exactly once, when the last part arrives, with all the arguments.
(Missing: a positional-only parameter's name used for a `**kwargs` item, see `C34_posonly_refuted`, and named
arguments `f` and `func`, see `C33_names_refuted`.) -/
theorem C33_split_partial (fs : Funcs σ ε A) (depth : Nat) (ctx : Bool) (f : A) (F : Func σ ε A)
    (hf : fs f = some F) (wf : WF F.sig) (init : List (List (Obj A) × PyDict String (Obj A)))
    (last : List (Obj A) × PyDict String (Obj A))
    (hfun : ∀ c ∈ init, PyDict.has c.2 "func" = false) (hlf : PyDict.has last.2 "f" = false)
    (hpo : ∀ p ∈ F.sig, p.kind = .posOnly → PyDict.has (allKwargs (init ++ [last])) p.name = false)
    (hinc : ∀ pre, pre ≠ [] → pre <+: init → missing F.sig (allArgs pre) (allKwargs pre) ≠ [])
    (hacc : Accepts F.sig (allArgs (init ++ [last])) (allKwargs (init ++ [last]))) :
    callChain fs (depth + 1) ctx (.one (.curried f [] [])) (init ++ [last]) =
      F.body true (allArgs (init ++ [last])) (allKwargs (init ++ [last])) :=
  split_from fs depth ctx f F hf wf last init [] hfun hlf hpo hinc hacc

/-- C33: arguments that do not fit are passed on: the function is called without them, and what follows is
as the documentation says (`Spec.Curry.passOn`).
(Missing: positional overflow in functions with keyword-only parameters or `**kwargs`, and rejected arguments
that came in an earlier step; named arguments and results called `f`, and ones to be passed on called `self`; see the
`_refuted` theorems.) -/
theorem C33_passthrough_partial (fs : Funcs σ ε A) (depth : Nat) (ctx : Bool) (f : A) (F : Func σ ε A)
    (hf : fs f = some F) (wf : WF F.sig) (pargs : List (Obj A)) (pkwargs : PyDict String (Obj A))
    (args : List (Obj A)) (kwargs : PyDict String (Obj A)) (all : List (Obj A)) (named : PyDict String (Obj A))
    (hall : all = pargs ++ args) (hnamed : named = PyDict.update pkwargs kwargs)
    (hov : extraArgs F.sig all = [] ∨ (¬ hasKind .kwOnly F.sig ∧ ¬ hasKind .varKw F.sig))
    (hc : ¬ Conflict F.sig all named) (hp : ¬ PosOnlyClash F.sig all named) (hm : missing F.sig all named = [])
    (hx : extraArgs F.sig all ≠ [] ∨ extraKwargs F.sig named ≠ [])
    (hl : (extraArgs F.sig all).length ≤ args.length)
    (hk : ∀ k, PyDict.has (extraKwargs F.sig named) k = true → PyDict.has pkwargs k = false)
    (hfree : PyDict.has kwargs "f" = false) (hself : PyDict.has (extraKwargs F.sig named) "self" = false)
    (hret : ∀ s r s', F.body true (all.take (all.length - (extraArgs F.sig all).length))
      (named.filter (fun kv => !PyDict.has (extraKwargs F.sig named) kv.1)) s = (.ok r, s') →
      PyDict.has (values r).kwrets "f" = false ∧ PyDict.has (values r).kwrets "self" = false) :
    callCurried fs (depth + 1) ctx f pargs pkwargs args kwargs =
      bind (F.body true (all.take (all.length - (extraArgs F.sig all).length))
        (named.filter (fun kv => !PyDict.has (extraKwargs F.sig named) kv.1)))
      (fun r => passOn fs depth ctx r (extraArgs F.sig all) (extraKwargs F.sig named)) := by
  obtain ⟨r, e0, e1, e2, e3, e4⟩ := bind_main wf all named hov hc hp
  have hd : decideAction F.sig all named =
      .ok (.callWithPassthrough (extraArgs F.sig all) (extraKwargs F.sig named)) := by
    simp only [decideAction, e0, e1, e2, e3, hm, List.isEmpty_nil, Bool.true_and, Bool.and_eq_true,
      List.isEmpty_iff, if_true]
    rw [if_neg]
    rintro ⟨h1, h2⟩
    rcases hx with h | h
    · exact h h1
    · exact h h2
  have hacc := accepts_trim hc hm
  have ea : pargs ++ (if (extraArgs F.sig all).isEmpty then args
      else args.take (args.length - (extraArgs F.sig all).length)) =
      all.take (all.length - (extraArgs F.sig all).length) := by
    have : all.take (all.length - (extraArgs F.sig all).length) =
        pargs ++ args.take (args.length - (extraArgs F.sig all).length) := by
      rw [hall, List.take_append, List.length_append, ← hall, List.take_of_length_le (by omega)]
      congr 2
      omega
    rw [this]
    split
    · next h => rw [List.isEmpty_iff] at h; simp [h]
    · rfl
  have ek : PyDict.update pkwargs (kwargs.filter (fun kv => !PyDict.has (extraKwargs F.sig named) kv.1)) =
      named.filter (fun kv => !PyDict.has (extraKwargs F.sig named) kv.1) := by
    rw [hnamed, filter_update (fun k => !PyDict.has (extraKwargs F.sig (PyDict.update pkwargs kwargs)) k)]
    rw [← hnamed]
    congr 1
    symm
    rw [List.filter_eq_self]
    intro kv hkv
    cases hh : PyDict.has (extraKwargs F.sig named) kv.1 with
    | false => rfl
    | true =>
      have h1 := hk _ hh
      have : PyDict.has pkwargs kv.1 = true := by
        rw [← PyDict.mem_keys]; exact List.mem_map.mpr ⟨kv, hkv, rfl⟩
      rw [this] at h1; simp at h1
  have hfil : ∀ (p : String × Obj A → Bool) (k : PyDict String (Obj A)) n, PyDict.has (k.filter p) n = true → PyDict.has k n = true := by
    intro p k n hn
    rw [← PyDict.mem_keys] at hn ⊢
    obtain ⟨kv, hkv, rfl⟩ := List.mem_map.mp hn
    exact List.mem_map_of_mem (List.mem_filter.mp hkv).1
  have hnow : PyDict.has (kwargs.filter (fun kv => !PyDict.has (extraKwargs F.sig named) kv.1)) "f" = false := by
    rw [← Bool.not_eq_true]; intro h; rw [hfil _ _ _ h] at hfree; cases hfree
  have hlater : PyDict.has (extraKwargs F.sig named) "f" = false := by
    rw [← Bool.not_eq_true]; intro h
    have h1 := hk _ h
    have h2 : PyDict.has named "f" = true := by
      unfold extraKwargs at h
      split at h
      · simp [PyDict.has, PyDict.get?] at h
      · exact hfil _ _ _ h
    rw [hnamed, PyDict.has_update, h1] at h2
    simp only [Bool.false_or] at h2
    rw [← Bool.not_eq_true] at hfree
    apply hfree
    rw [← PyDict.mem_keys]
    simpa [PyDict.keys] using h2
  simp only [callCurried, hf, ← hall, ← hnamed, hd, ea, ek, pyCall, if_pos hacc, hnow, Bool.false_eq_true, if_false]
  refine bind_congr_on _ fun s r s' hs => ?_
  obtain ⟨hr1, hr2⟩ := hret s r s' hs
  have hu : ∀ n, PyDict.has (extraKwargs F.sig named) n = false → PyDict.has (values r).kwrets n = false →
      PyDict.has (PyDict.update (extraKwargs F.sig named) (values r).kwrets) n = false := by
    intro n h1 h2
    rw [PyDict.has_update, h1, Bool.false_or, ← Bool.not_eq_true]
    intro h3
    rw [← Bool.not_eq_true] at h2
    apply h2
    rw [← PyDict.mem_keys]
    simpa [PyDict.keys] using h3
  have hu1 := hu "f" hlater hr1
  have hu2 := hu "self" hself hr2
  have hcur : ∀ g, callable fs g = true → ∀ a k,
      (bind (curry fs depth true g [] []) fun c => callObj fs depth true c a k) =
      (match g with
        | .curried g ga gk => callCurried fs depth true g ga gk a k
        | .atom g => callCurried fs depth true g [] [] a k : Eff σ (Err ε) (Ret (Obj A))) := by
    intro g hg a k
    cases g with
    | atom a => simp only [callable] at hg; simp [curry, has_nil, hg, eff_ret_bind, callObj]
    | curried g ga gk => simp [curry, has_nil, eff_ret_bind, callObj]
  cases r with
  | one g =>
    simp only [values] at hu1 hu2
    cases hg : callable fs g with
    | true =>
      simp only [inject, hg, if_true, passOn, values, hcur g hg, List.nil_append]
      cases g with
      | atom a => simp only [callable] at hg; simp [hg, PyDict.update, hlater]
      | curried g ga gk => simp [PyDict.update, hlater]
    | false =>
      simp only [inject, hg, passOn, values]
      cases g with
      | atom a => simp only [callable] at hg; simp [hg, PyDict.update, hself]
      | curried g ga gk => simp [callable] at hg
  | many vs =>
    obtain ⟨rets, kw⟩ := vs
    simp only [values] at hu1 hu2
    cases rets with
    | nil => simp [inject, passOn, values, hu2]
    | cons g others =>
      cases hg : callable fs g with
      | true =>
        simp only [inject, hg, if_true, passOn, values, hcur g hg]
        cases g with
        | atom a => simp only [callable] at hg; simp [hg, hu1]
        | curried g ga gk => simp [hu1]
      | false =>
        simp only [inject, hg, passOn, values]
        cases g with
        | atom a => simp only [callable] at hg; simp [hg, hu2]
        | curried g ga gk => simp [callable] at hg

/-- C33: currying again changes nothing, an object that is not callable is returned as it is, and giving
arguments to `curry` itself is the same as giving them to the curried function.
(Missing: a named argument `f`, see `C33_names_refuted`.) -/
theorem C33_curry_partial (fs : Funcs σ ε A) (depth : Nat) (ctx : Bool) (f : Obj A) (args : List (Obj A))
    (kwargs : PyDict String (Obj A)) (hkf : PyDict.has kwargs "f" = false) :
    (bind (curry fs depth ctx f [] []) fun c => match c with
      | .one c => curry fs depth ctx c [] []
      | .many _ => raise (.py .TypeError)) = curry fs depth ctx f [] [] ∧
    (callable fs f = false → curry fs depth ctx f args kwargs = ret (.one f)) ∧
    (callable fs f = true → args ≠ [] ∨ kwargs ≠ [] →
      curry fs depth ctx f args kwargs =
        bind (curry fs depth ctx f [] []) fun c => callObj fs depth ctx c args kwargs) := by
  cases f with
  | atom a =>
    by_cases ha : (fs a).isSome
    · refine ⟨by simp [curry, hkf, has_nil, ha, eff_ret_bind], by simp [callable, ha], ?_⟩
      intro _ h
      have : (args.isEmpty && kwargs.isEmpty) = false := by
        cases args <;> cases kwargs <;> simp_all
      simp [curry, hkf, has_nil, ha, this, eff_ret_bind, callObj]
    · exact ⟨by simp [curry, hkf, has_nil, ha, eff_ret_bind], by simp [callable, curry, ha, hkf], by simp [callable, ha]⟩
  | curried g ga gk =>
    refine ⟨by simp [curry, hkf, has_nil, eff_ret_bind], by simp [callable], ?_⟩
    intro _ h
    have : (args.isEmpty && kwargs.isEmpty) = false := by
      cases args <;> cases kwargs <;> simp_all
    simp [curry, hkf, has_nil, this, eff_ret_bind, callObj]

/-! Concrete functions: 1 is `lambda x: lambda y: 0`, 2 its result, 3 is `def f(a, b): return 0`,
4 is `def f(a, *, k): return 0`, 5 is `def f(a, b=7, *, k): return (a, b, k)`, 6 is `def g(x, f): return 0`,
7 is `def g(x, func): return 0`, 8 is `def g(): return Values()`, in some world that counts calls.
-/
private def fsEx : Funcs Nat Unit Nat
  | 1 => some ⟨[⟨"x", .posOrKw, none⟩], fun _ _ _ s => (.ok (.one (.atom 2)), s + 1)⟩
  | 2 => some ⟨[⟨"y", .posOrKw, none⟩], fun _ _ _ s => (.ok (.one (.atom 0)), s + 1)⟩
  | 3 => some ⟨[⟨"a", .posOrKw, none⟩, ⟨"b", .posOrKw, none⟩], fun _ _ _ s => (.ok (.one (.atom 0)), s + 1)⟩
  | 4 => some ⟨[⟨"a", .posOrKw, none⟩, ⟨"k", .kwOnly, none⟩], fun _ _ _ s => (.ok (.one (.atom 0)), s + 1)⟩
  | 5 => some ⟨[⟨"a", .posOrKw, none⟩, ⟨"b", .posOrKw, some (.atom 7)⟩, ⟨"k", .kwOnly, none⟩],
      fun _ args kwargs s => (.ok (.many ⟨args, kwargs⟩), s + 1)⟩
  | 6 => some ⟨[⟨"x", .posOrKw, none⟩, ⟨"f", .posOrKw, none⟩], fun _ _ _ s => (.ok (.one (.atom 0)), s + 1)⟩
  | 7 => some ⟨[⟨"x", .posOrKw, none⟩, ⟨"func", .posOrKw, none⟩], fun _ _ _ s => (.ok (.one (.atom 0)), s + 1)⟩
  | 8 => some ⟨[], fun _ _ _ s => (.ok (.many ⟨[], []⟩), s + 1)⟩
  | _ => none

/-- C33 refuted for parameters called `f` and `func`: Python accepts `g(1, f=2)`, but for `def g(x, f)`, `curry(g)(1, f=2)`
and `curry(g)(1)(f=2)` are TypeErrors, though `curry(g)(f=2)(1)` is not; and for `def g(x, func)`, `curry(g)(func=2)` is
TypeError, though `curry(g)(1, func=2)` is not.  `curry(g, f=2)` is always TypeError.  In a curry context, a named argument left
over is returned with the result, but one called `self` is TypeError. -/
theorem C33_names_refuted : ∀ s,
    (Accepts [⟨"x", .posOrKw, none⟩, ⟨"f", .posOrKw, none⟩] [1] [("f", 2)]) ∧
    callChain fsEx 5 false (.one (.curried 6 [] [])) [([.atom 1], [("f", .atom 2)])] s = (.error (.py .TypeError), s) ∧
    callChain fsEx 5 false (.one (.curried 6 [] [])) [([.atom 1], []), ([], [("f", .atom 2)])] s =
      (.error (.py .TypeError), s) ∧
    callChain fsEx 5 false (.one (.curried 6 [] [])) [([], [("f", .atom 2)]), ([.atom 1], [])] s =
      (.ok (.one (.atom 0)), s + 1) ∧
    callChain fsEx 5 false (.one (.curried 7 [] [])) [([], [("func", .atom 2)]), ([.atom 1], [])] s =
      (.error (.py .TypeError), s) ∧
    callChain fsEx 5 false (.one (.curried 7 [] [])) [([.atom 1], [("func", .atom 2)])] s =
      (.ok (.one (.atom 0)), s + 1) ∧
    (∀ f, curry fsEx 5 false (.atom f) [] [("f", .atom 2)] s = (.error (.py .TypeError), s)) ∧
    callCurried fsEx 5 true 2 [] [] [.atom 1] [("it", .atom 2)] s = (.ok (.many ⟨[.atom 0], [("it", .atom 2)]⟩), s + 1) ∧
    callCurried fsEx 5 true 2 [] [] [.atom 1] [("self", .atom 2)] s = (.error (.py .TypeError), s + 1) ∧
    callCurried fsEx 5 true 8 [] [] [] [("it", .atom 2)] s = (.ok (.many ⟨[], [("it", .atom 2)]⟩), s + 1) ∧
    callCurried fsEx 5 true 8 [] [] [] [("self", .atom 2)] s = (.error (.py .TypeError), s + 1) := by
  intro s; exact ⟨by decide, rfl, rfl, rfl, rfl, rfl, fun _ => rfl, rfl, rfl, rfl, rfl⟩

/-- C33 refuted for arguments left over at the top level: `curry(lambda x: lambda y: 0)(10, 20, 30)` does not
raise TypeError but returns `Values(0, 30)`, because the second function is called inside the curry context
of the first. -/
theorem C33_toplevel_refuted : ∀ s,
    callChain fsEx 5 false (.one (.curried 1 [] [])) [([.atom 10, .atom 20, .atom 30], [])] s =
      (.ok (.many ⟨[.atom 0, .atom 30], []⟩), s + 2) := by
  intro s; rfl

/-- C33 refuted for a named argument that does not fit and comes before the last step: passed together with
the rest it is passed on, passed earlier it is a ValueError (`partial object ... has incorrect arguments`). -/
theorem C33_early_kwarg_refuted : ∀ s,
    callChain fsEx 5 true (.one (.curried 3 [] [])) [([.atom 10, .atom 20], [("z", .atom 9)])] s =
      (.ok (.many ⟨[.atom 0], [("z", .atom 9)]⟩), s + 1) ∧
    callChain fsEx 5 true (.one (.curried 3 [] [])) [([.atom 10], [("z", .atom 9)])] s =
      (.error (.py .ValueError), s) := by
  intro s; exact ⟨rfl, rfl⟩

/-- C33 refuted for a positional argument too many when a keyword-only one is still missing: the curried
function does not wait for `k`, but calls `f(10)`, a TypeError. -/
theorem C33_kwonly_refuted : ∀ s,
    callChain fsEx 5 true (.one (.curried 4 [] [])) [([.atom 10, .atom 20], []), ([], [("k", .atom 3)])] s =
      (.error (.py .TypeError), s) := by
  intro s; rfl

/-- the hypotheses of `C33_split_partial` hold for `f()(k=3)(10)` with `f` number 5 -/
example : ∃ F, fsEx 5 = some F ∧ WF F.sig ∧
    (∀ pre, pre ≠ [] → pre <+: ([([], []), ([], [("k", .atom 3)])] : List (List (Obj Nat) × PyDict String (Obj Nat))) →
      missing F.sig (allArgs pre) (allKwargs pre) ≠ []) ∧
    Accepts F.sig (allArgs [([], []), ([], [("k", .atom 3)]), ([.atom 10], [])])
      (allKwargs [([], []), ([], [("k", .atom 3)]), ([.atom 10], [])]) := by
  refine ⟨_, rfl, ⟨⟨[], [⟨"a", .posOrKw, none⟩, ⟨"b", .posOrKw, some (.atom 7)⟩], [], [⟨"k", .kwOnly, none⟩], [],
    rfl, by simp, by simp, by simp, by simp, by simp, by simp, by simp⟩, by decide, by simp⟩, ?_, by decide⟩
  intro pre hne hpre
  have : pre = [([], [])] ∨ pre = [([], []), ([], [("k", .atom 3)])] := by
    rcases hpre with ⟨t, ht⟩
    match pre, hne with
    | [x], _ => left; simp at ht; simp [ht.1]
    | [x, y], _ => right; simp at ht; simp [ht.1, ht.2.1]
    | x :: y :: z :: l, _ => simp at ht
  rcases this with rfl | rfl
  · simp [missing, allArgs, allKwargs, Ordinary, given, posArg, PyDict.update, ByName, PyDict.get?]
  · simp [missing, allArgs, allKwargs, Ordinary, given, posArg, positional, PyDict.update, ByName, PyDict.get?,
      PyDict.set]

/-- and the call does happen once, with everything -/
example (s : Nat) : callChain fsEx 5 false (.one (.curried 5 [] [])) [([], []), ([], [("k", .atom 3)]), ([.atom 10], [])] s =
    (.ok (.many ⟨[.atom 10], [("k", .atom 3)]⟩), s + 1) := rfl

/-- passing on: `curry(lambda x: lambda y: 0)(10, 20)` -/
example (s : Nat) : callChain fsEx 5 false (.one (.curried 1 [] [])) [([.atom 10, .atom 20], [])] s =
    (.ok (.one (.atom 0)), s + 2) := rfl

end Unpy.Props
