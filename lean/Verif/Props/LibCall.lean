import Verif.Spec.LibCall
import Verif.Proof.PyDict
/-! # C146: named arguments may have any names -/
namespace Unpy.Props
open Unpy Unpy.Arity Unpy.LibCall Unpy.Spec.LibCall
variable {V R : Type}

private theorem lib_eq (first more kws : String) (h1 : first ≠ more) (h2 : first ≠ kws) (h3 : more ≠ kws) (body : V → List V → PyDict String V → Res R) (v : V) (args : List V)
    (kwargs : PyDict String V) :
    lib first more kws body (v :: args) kwargs = if PyDict.has kwargs first then .error .TypeError else body v args kwargs := by
  by_cases hf : PyDict.has kwargs first = true
  · simp [lib, bindStrict, Arity.bind, phase1, hf]
  · cases args <;> cases kwargs <;>
    simp_all [lib, bindStrict, Arity.bind, phase1, phase2, PyDict.set, PyDict.get?, rest, named, h1.symm, h2.symm, h3.symm]

private theorem filter_absent (d : PyDict String V) (k : String) (h : PyDict.has d k = false) : d.filter (fun p => decide (p.1 ≠ k)) = d := by
  rw [List.filter_eq_self]
  intro p hp
  simp only [decide_eq_true_eq]
  intro hc
  have : k ∈ PyDict.keys d := hc ▸ List.mem_map.mpr ⟨p, hp, rfl⟩
  rw [PyDict.mem_keys, h] at this
  cases this

private theorem maybeForceArgs_eq (call : Call V) (f : V) (args : List V) (kwargs : PyDict String V) :
    maybeForceArgs call (f :: args) kwargs = if PyDict.has kwargs "f" then .error .TypeError else call f args kwargs :=
  lib_eq _ _ _ (by decide) (by decide) (by decide) _ _ _ _

private theorem curry_eq (no yes : V) (call : Call V) (f : V) (args : List V) (kwargs : PyDict String V) (h1 : PyDict.has kwargs "_curry_force_call" = false)
    (h2 : PyDict.has kwargs "_curry_allow_uninspectable" = false) :
    curry no call (f :: args) (("_curry_force_call", yes) :: ("_curry_allow_uninspectable", yes) :: kwargs) =
      if PyDict.has kwargs "f" then .error .TypeError else call f args kwargs := by
  have e1 := filter_absent kwargs _ h1
  have e2 := filter_absent kwargs _ h2
  have hk : ∀ d : PyDict String V, PyDict.has (("_curry_force_call", yes) :: ("_curry_allow_uninspectable", yes) :: d) "f" = PyDict.has d "f" := by
    intro d; simp [PyDict.has, PyDict.get?]
  have hf : PyDict.has kwargs "f" = true ∨ PyDict.has kwargs "f" = false := by cases PyDict.has kwargs "f" <;> simp
  have h0 : curry no call (f :: args) (("_curry_force_call", yes) :: ("_curry_allow_uninspectable", yes) :: kwargs) =
      if PyDict.has kwargs "f" then .error .TypeError
      else maybeForceArgs (fun f args kwargs => maybeForceArgs call (f :: args) kwargs) (f :: args) kwargs := by
    rcases hf with hf | hf
    · simp [curry, bindStrict, Arity.bind, phase1, hk, hf]
    · cases args <;> cases kwargs <;>
      simp_all [curry, bindStrict, Arity.bind, phase1, phase2, PyDict.set, PyDict.get?, PyDict.erase, rest, named]
      all_goals
        rw [List.filter_eq_self.mpr]
        intro p hp
        simp only [Bool.and_eq_true, Bool.not_eq_true', decide_eq_false_iff_not]
        exact ⟨e2.2 p.1 p.2 hp, e1.2 p.1 p.2 hp⟩
  rw [h0]
  rcases hf with hf | hf <;> simp [hf, maybeForceArgs_eq]

private theorem values_eq (self : V) (args : List V) (kwargs : PyDict String V) :
    values self args kwargs = if PyDict.has kwargs "self" then .error .TypeError else .ok (args, kwargs) :=
  lib_eq _ _ _ (by decide) (by decide) (by decide) _ _ _ _

private theorem resolve_eq (sigOf : V → Sig V) (f : V) (args : List V) (kwargs : PyDict String V) :
    resolveBindings sigOf (f :: args) kwargs = if PyDict.has kwargs "f" then .error .TypeError else bindStrict (sigOf f) args kwargs :=
  lib_eq _ _ _ (by decide) (by decide) (by decide) _ _ _ _

private theorem jump_eq (f : V) (args : List V) (kwargs : PyDict String V) :
    jump (f :: args) kwargs = if PyDict.has kwargs "target" then .error .TypeError else .ok ⟨f, args, kwargs⟩ :=
  lib_eq _ _ _ (by decide) (by decide) (by decide) _ _ _ _

/-- The binder raises nothing but TypeError. -/
private theorem bind_typeError (sig : Sig V) (args : List V) (kwargs : PyDict String V) (e : PyErr) (h : bindStrict sig args kwargs = .error e) : e = .TypeError := by
  have p1 : ∀ (args : List V) ps A U E e, phase1 false kwargs args ps A U E = .error e → e = .TypeError := by
    intro args ps
    induction ps generalizing args with
    | nil => intro A U E e h; simp [phase1] at h
    | cons p ps ih =>
      intro A U E e h
      cases args with
      | nil =>
        simp only [phase1] at h
        (repeat' split at h) <;> first | (cases h; done) | (cases h; rfl) | exact ih _ _ _ _ _ h
      | cons a as =>
        simp only [phase1] at h
        (repeat' split at h) <;> first | (cases h; done) | (cases h; rfl) | exact ih _ _ _ _ _ h
  have p2 : ∀ (ps : List (Param V)) K A U kp e, phase2 false ps K A U kp = .error e → e = .TypeError := by
    intro ps
    induction ps with
    | nil => intro K A U kp e h; cases h
    | cons p ps ih =>
      intro K A U kp e h
      simp only [phase2] at h
      (repeat' split at h) <;> first | (cases h; done) | (cases h; rfl) | exact ih _ _ _ _ _ h
  simp only [bindStrict, Arity.bind] at h
  split at h
  · rename_i h'
    cases h
    split at h'
    · rename_i h''; cases h'; exact p1 _ _ _ _ _ _ h''
    · split at h'
      · rename_i h''; cases h'; exact p2 _ _ _ _ _ _ h''
      · (repeat' split at h') <;> cases h'
  · split at h <;> cases h
    rfl

/-- C146: by each of the ways through the library the function is called with just the given arguments, positional and named, and what it returns or raises is the result.
(Missing: the names of parameters of the library's own functions on the way, see `C146_taken_refuted`.) -/
theorem C146_names_partial (things : Things V) (sigOf : V → Sig V) (call : Call V) (f : V) (args : List V) (kwargs : PyDict String V) (hr : Refuses sigOf call f args kwargs) (via : Via)
    (hn : ∀ n ∈ taken via, PyDict.has kwargs n = false) :
    run things sigOf call f args kwargs via = direct things call f args kwargs via := by
  cases via with
  | call => simp [taken] at hn; simp [run, direct, callFn, lib_eq, maybeForceArgs_eq, hn]
  | callwith => simp [taken] at hn; simp [run, direct, callWith, maybeForceArgs_eq, hn]
  | inTco => simp [taken] at hn; simp [run, direct, jump_eq, bounce, hn]
  | inLazify => simp [taken] at hn; simp [run, direct, maybeForceArgs_eq, hn]
  | inLazifyTco => simp [taken] at hn; simp [run, direct, lazyJump, lib_eq, jump_eq, lazyBounce, maybeForceArgs_eq, hn]
  | inAutocurry => simp [taken] at hn; simp [run, direct, currycall, lib_eq, curry_eq, hn]
  | memoize =>
    simp [taken] at hn
    simp only [run, direct, memoized, maybeForceArgs_eq, hn]
    cases hb : bindStrict (sigOf f) args kwargs with
    | error e => simp [hr e hb]
    | ok m => simp
  | gmemoize =>
    simp [taken] at hn
    simp only [run, direct, gmemoized, resolve_eq, hn]
    cases hb : bindStrict (sigOf f) args kwargs with
    | error e => simp [hr e hb]
    | ok m => simp
  | fix memo =>
    simp [taken] at hn
    simp only [run, direct, fixed, memoized, resolve_eq, maybeForceArgs_eq, hn]
    cases hb : bindStrict (sigOf f) args kwargs with
    | error e => simp [hr e hb]
    | ok m => simp
  | iterate => simp [taken] at hn; simp [run, direct, LibCall.iterate, lib_eq, values_eq, hn]
  | unfold => simp [taken] at hn; simp [run, direct, LibCall.unfold, lib_eq, values_eq, hn]
  | singleton => simp [taken] at hn; simp [run, direct, LibCall.singleton, singletonNew, lib_eq, hn]

/-- C146 refuted: an argument named `f` given to `call`, to a function made by `callwith`, `memoize`, `gmemoize` or `fix`, to `iterate`, or to any function in a `with lazify` or `with autocurry` block raises
TypeError, whatever the function; so does `target` in a tail call in `with tco`, `proc` given to `unfold`, `self` given to `iterate` and `unfold`, and `cls` for the `__init__` of a singleton. -/
theorem C146_taken_refuted (things : Things V) (sigOf : V → Sig V) (call : Call V) (f : V) (args : List V) (kwargs : PyDict String V) (via : Via) (n : String) (hn : n ∈ taken via)
    (hk : PyDict.has kwargs n = true) : run things sigOf call f args kwargs via = .error .TypeError := by
  cases via with
  | call => simp [taken] at hn; subst hn; simp [run, callFn, lib_eq, hk]
  | callwith => simp [taken] at hn; subst hn; simp [run, callWith, maybeForceArgs_eq, hk]
  | inTco => simp [taken] at hn; subst hn; simp [run, jump_eq, hk]
  | inLazify => simp [taken] at hn; subst hn; simp [run, maybeForceArgs_eq, hk]
  | inLazifyTco =>
    simp [taken] at hn
    rcases hn with rfl | rfl
    · simp [run, lazyJump, lib_eq, hk]
    · by_cases hf : PyDict.has kwargs "f" = true <;> simp [run, lazyJump, lib_eq, jump_eq, hk, hf]
  | inAutocurry =>
    simp [taken] at hn
    by_cases hf : PyDict.has kwargs "f" = true
    · simp [run, currycall, lib_eq, hf]
    · rcases hn with rfl | rfl | rfl
      · exact absurd hk hf
      · simp [run, currycall, lib_eq, hk]
      · simp [run, currycall, lib_eq, hk]
  | memoize =>
    simp [taken] at hn; subst hn
    simp only [run, memoized, maybeForceArgs_eq, hk]
    cases hb : bindStrict (sigOf f) args kwargs with
    | error e => simp [bind_typeError _ _ _ _ hb]
    | ok m => simp
  | gmemoize => simp [taken] at hn; subst hn; simp [run, gmemoized, resolve_eq, hk]
  | fix memo => simp [taken] at hn; subst hn; simp [run, fixed, resolve_eq, hk]
  | iterate =>
    simp [taken] at hn
    rcases hn with rfl | rfl
    · simp [run, LibCall.iterate, lib_eq, hk]
    · by_cases hf : PyDict.has kwargs "f" = true <;> simp [run, LibCall.iterate, lib_eq, values_eq, hk, hf]
  | unfold =>
    simp [taken] at hn
    rcases hn with rfl | rfl
    · simp [run, LibCall.unfold, lib_eq, hk]
    · by_cases hf : PyDict.has kwargs "proc" = true <;> simp [run, LibCall.unfold, lib_eq, values_eq, hk, hf]
  | singleton => simp [taken] at hn; subst hn; simp [run, LibCall.singleton, lib_eq, hk]

/-- `def g(x, *, f=0, target=0): return 100 * x + 10 * f + target`, on numbers; the function itself is `7`. -/
private def demoSig : Sig Nat := [⟨"x", .posOrKw, none⟩, ⟨"f", .kwOnly, some 0⟩, ⟨"target", .kwOnly, some 0⟩]
private def demoCall : Call Nat := fun _ args kwargs =>
  match bindStrict demoSig args kwargs with
  | .error e => .error e
  | .ok m =>
    let get := fun n => match PyDict.get? m n with | some (.val v) => v | _ => 0
    .ok (100 * get "x" + 10 * get "f" + get "target")

/-- The hypotheses are met: with `f=3`, a tail call works, and a call in lazy code does not; with `target=3` it is the other way round. -/
example : run ⟨0, 0, 1, 0⟩ (fun _ => demoSig) demoCall 7 [2] [("f", 3)] .inTco = .ok 230 ∧
    run ⟨0, 0, 1, 0⟩ (fun _ => demoSig) demoCall 7 [2] [("f", 3)] .inLazify = .error .TypeError ∧
    run ⟨0, 0, 1, 0⟩ (fun _ => demoSig) demoCall 7 [2] [("target", 3)] .inTco = .error .TypeError ∧
    run ⟨0, 0, 1, 0⟩ (fun _ => demoSig) demoCall 7 [2] [("target", 3)] .inLazify = .ok 203 := by
  refine ⟨?_, ?_, ?_, ?_⟩
  · rw [C146_names_partial _ _ _ _ _ _ (by intro e he; simp [demoCall, he]) _ (by decide)]; rfl
  · exact C146_taken_refuted _ _ _ _ _ _ _ "f" (by decide) rfl
  · exact C146_taken_refuted _ _ _ _ _ _ _ "target" (by decide) rfl
  · rw [C146_names_partial _ _ _ _ _ _ (by intro e he; simp [demoCall, he]) _ (by decide)]; rfl

end Unpy.Props
