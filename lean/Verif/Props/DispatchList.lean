import Verif.Props.Dispatch
import Verif.Spec.DispatchList
/-! # C120: what a generic function tells about itself -/
namespace Unpy.Props
open Unpy Unpy.Arity Unpy.Spec.Arity Unpy.Dispatch Unpy.Spec.Dispatch Unpy.Spec.DispatchList
variable {C V T : Type}

private def mm (anyT : T) (f : Fn V T) : MM V T := ⟨f.sig, typeSignature anyT f, f.body⟩

private def joined (old ours : String) (no : List (MM V T)) : String :=
  if no = [] ∨ old = "" then ours else old ++ "\n\n" ++ "".pushn '-' 80 ++ "\n" ++ ours

private theorem methods_has {st : Reg V T} {n : String} (h : methodsOf st n ≠ []) : PyDict.has st n = true := by
  unfold methodsOf at h
  cases hg : PyDict.get? st n with
  | none => simp [hg] at h
  | some d => simp [PyDict.has, hg]

private theorem setupDoc_cases (desc docOf : Fn V T → Option String) (anyT : T) (st : Docs V T) (n : String) (f : Fn V T) :
    (∀ k, k ≠ n → PyDict.get? (setupDoc desc docOf anyT st n f).2.reg k = PyDict.get? st.reg k ∧ (setupDoc desc docOf anyT st n f).2.doc k = st.doc k) ∧
    ((Closed st.reg n ∧ (setupDoc desc docOf anyT st n f) = (.error (.py .TypeError), st)) ∨
     (¬ Closed st.reg n ∧ ∃ d, PyDict.get? (setupDoc desc docOf anyT st n f).2.reg n = some d ∧ d.typed = false ∧
      (((setupDoc desc docOf anyT st n f).1 = .error (.py .TypeError) ∧ d.registry = methodsOf st.reg n ∧
          (methodsOf st.reg n ≠ [] → (setupDoc desc docOf anyT st n f).2.doc n = st.doc n)) ∨
       (desc f = none ∧ (setupDoc desc docOf anyT st n f).1 = .error .osError ∧ d.registry = methodsOf st.reg n ++ [mm anyT f]) ∨
       (∃ s, desc f = some s ∧ (setupDoc desc docOf anyT st n f).1 = .ok () ∧ d.registry = methodsOf st.reg n ++ [mm anyT f] ∧
          (setupDoc desc docOf anyT st n f).2.doc n = some (joined ((st.doc n).getD "") (section_ s (docOf f)) (methodsOf st.reg n)))))) := by
  obtain ⟨s1, s2, s3⟩ := dispatch_setup_spec anyT st.reg n f
  by_cases hc : Closed st.reg n
  · have hs := s2 hc
    have hh : PyDict.has st.reg n = true := by obtain ⟨d, hd, _⟩ := hc; simp [PyDict.has, hd]
    have he : setupDoc desc docOf anyT st n f = (.error (.py .TypeError), st) := by simp only [setupDoc, hs, hh, if_true]
    rw [he]
    exact ⟨fun _ _ => ⟨rfl, rfl⟩, .inl ⟨hc, rfl⟩⟩
  · obtain ⟨d, hd, ht, hr, h1, h2⟩ := s3 hc
    cases ha : f.sig.all (fun p => PyDict.has (typeSignature anyT f) p.name) with
    | false =>
      obtain ⟨ha1, ha2⟩ := h1 ha
      rcases hsu : setup anyT st.reg n f with ⟨res, reg⟩
      rw [hsu] at ha1 ha2 s1
      simp only at ha1 ha2 s1
      subst ha1
      simp only [setupDoc, hsu]
      refine ⟨fun k hk => ⟨s1 k hk, ?_⟩, .inr ⟨hc, d, ha2, ht, .inl ⟨by trivial, hr, fun hm => ?_⟩⟩⟩
      · split <;> simp [hk]
      · simp [methods_has hm]
    | true =>
      obtain ⟨ha1, ha2⟩ := h2 ha
      rcases hsu : setup anyT st.reg n f with ⟨res, reg⟩
      rw [hsu] at ha1 ha2 s1
      simp only at ha1 ha2 s1
      subst ha1
      cases hde : desc f with
      | none =>
        simp only [setupDoc, hsu, hde]
        refine ⟨fun k hk => ⟨s1 k hk, ?_⟩, .inr ⟨hc, _, ha2, ht, .inr (.inl ⟨by trivial, by trivial, by simp [hr, mm]⟩)⟩⟩
        split <;> simp [hk]
      | some s =>
        simp only [setupDoc, hsu, hde, ha2]
        refine ⟨fun k hk => ⟨s1 k hk, ?_⟩, .inr ⟨hc, _, rfl, ht, .inr (.inr ⟨s, rfl, by trivial, by simp [hr, mm], ?_⟩)⟩⟩
        · simp only [hk, if_false]
          split <;> simp [hk]
        · simp only [if_true, hr, joined]
          by_cases hm : methodsOf st.reg n = []
          · simp [hm]
          · simp [hm, methods_has hm]

/-- The same for a decorator: `typed` tells whether the function is closed afterwards. -/
private theorem stepDoc_cases (desc docOf : Fn V T → Option String) (anyT : T) (st : Docs V T) (op : Op V T) :
    (∀ k, k ≠ op.target → PyDict.get? (stepDoc desc docOf anyT st op).2.reg k = PyDict.get? st.reg k ∧ (stepDoc desc docOf anyT st op).2.doc k = st.doc k) ∧
    ((Closed st.reg op.target ∧ (stepDoc desc docOf anyT st op) = (.error (.py .TypeError), st)) ∨
     (¬ Closed st.reg op.target ∧ PyDict.has st.reg op.target = false ∧ (∃ f, op = .augment op.target f) ∧ (stepDoc desc docOf anyT st op) = (.error (.py .TypeError), st)) ∨
     (¬ Closed st.reg op.target ∧ (PyDict.has st.reg op.target = false → ¬ ∃ f, op = .augment op.target f) ∧ ∃ d, PyDict.get? (stepDoc desc docOf anyT st op).2.reg op.target = some d ∧
      (d.typed = true ↔ (∃ f, op = .typed op.target f) ∧ (stepDoc desc docOf anyT st op).1 = .ok ()) ∧
      (((stepDoc desc docOf anyT st op).1 = .error (.py .TypeError) ∧ d.registry = methodsOf st.reg op.target ∧
          (methodsOf st.reg op.target ≠ [] → (stepDoc desc docOf anyT st op).2.doc op.target = st.doc op.target)) ∨
       (desc op.fn = none ∧ (stepDoc desc docOf anyT st op).1 = .error .osError ∧ d.registry = methodsOf st.reg op.target ++ [mm anyT op.fn]) ∨
       (∃ s, desc op.fn = some s ∧ (stepDoc desc docOf anyT st op).1 = .ok () ∧ d.registry = methodsOf st.reg op.target ++ [mm anyT op.fn] ∧
          (stepDoc desc docOf anyT st op).2.doc op.target = some (joined ((st.doc op.target).getD "") (section_ s (docOf op.fn)) (methodsOf st.reg op.target)))))) := by
  cases op with
  | generic n f =>
    obtain ⟨h1, h2⟩ := setupDoc_cases desc docOf anyT st n f
    refine ⟨h1, ?_⟩
    rcases h2 with h2 | ⟨hc, d, hd, ht, h2⟩
    · exact .inl h2
    · exact .inr (.inr ⟨hc, by simp, d, hd, by simp [ht], h2⟩)
  | augment n f =>
    cases hh : PyDict.has st.reg n with
    | false =>
      have he : stepDoc desc docOf anyT st (.augment n f) = (.error (.py .TypeError), st) := by simp [stepDoc, hh]
      rw [he]
      refine ⟨fun _ _ => ⟨rfl, rfl⟩, .inr (.inl ⟨?_, hh, ⟨f, rfl⟩, rfl⟩)⟩
      rintro ⟨d, hd, _⟩
      simp only [Op.target] at hd
      simp [PyDict.has, hd] at hh
    | true =>
      have he : stepDoc desc docOf anyT st (.augment n f) = setupDoc desc docOf anyT st n f := by simp [stepDoc, hh]
      rw [he]
      obtain ⟨h1, h2⟩ := setupDoc_cases desc docOf anyT st n f
      refine ⟨h1, ?_⟩
      rcases h2 with h2 | ⟨hc, d, hd, ht, h2⟩
      · exact .inl h2
      · exact .inr (.inr ⟨hc, by simp [Op.target, hh], d, hd, by simp [ht], h2⟩)
  | typed n f =>
    obtain ⟨h1, h2⟩ := setupDoc_cases desc docOf anyT st n f
    rcases hs : setupDoc desc docOf anyT st n f with ⟨r, st'⟩
    rw [hs] at h1 h2
    simp only at h1 h2
    rcases h2 with ⟨hc, h2⟩ | ⟨hc, d, hd, ht, h2⟩
    · cases h2
      have he : stepDoc desc docOf anyT st (.typed n f) = (.error (.py .TypeError), st) := by simp [stepDoc, hs]
      rw [he]
      exact ⟨fun _ _ => ⟨rfl, rfl⟩, .inl ⟨hc, rfl⟩⟩
    · cases r with
      | error e =>
        have he : stepDoc desc docOf anyT st (.typed n f) = (.error e, st') := by simp [stepDoc, hs]
        rw [he]
        refine ⟨h1, .inr (.inr ⟨hc, by simp, d, hd, by simp [ht], ?_⟩)⟩
        simpa [Op.fn, Op.target] using h2
      | ok u =>
        have he : stepDoc desc docOf anyT st (.typed n f) = (.ok (), { st' with reg := PyDict.set st'.reg n { d with typed := true } }) := by simp [stepDoc, hs, hd]
        rw [he]
        refine ⟨fun k hk => ?_, .inr (.inr ⟨hc, by simp, { d with typed := true }, by simp [PyDict.get?_set, Op.target], by simp [Op.target], ?_⟩)⟩
        · have hk' : ¬ n = k := fun e => hk e.symm
          simp only [PyDict.get?_set, hk', if_false]
          exact h1 k hk
        · simpa [Op.fn, Op.target] using h2

private theorem closed_has {st : Reg V T} {n : String} (h : Closed st n) : PyDict.has st n = true := by
  obtain ⟨d, hd, _⟩ := h; simp [PyDict.has, hd]

private theorem closed_of {st : Reg V T} {n : String} {d : Disp V T} (h : PyDict.get? st n = some d) : Closed st n ↔ d.typed = true := by
  constructor
  · rintro ⟨d', h', ht⟩; rw [h] at h'; cases h'; exact ht
  · intro ht; exact ⟨d, h, ht⟩

private theorem isgeneric_run (desc docOf : Fn V T → Option String) (anyT : T) (st : Docs V T) (ops : List (Op V T)) (n : String) :
    (PyDict.has (runDoc desc docOf anyT st ops).2.reg n = true ↔ PyDict.has st.reg n = true ∨ Declared n (runDoc desc docOf anyT st ops).1) ∧
    (Closed (runDoc desc docOf anyT st ops).2.reg n ↔ Closed st.reg n ∨ DeclaredTyped n (runDoc desc docOf anyT st ops).1) := by
  induction ops generalizing st with
  | nil => simp [runDoc, Declared, DeclaredTyped]
  | cons op ops ih =>
    obtain ⟨i1, i2⟩ := ih (stepDoc desc docOf anyT st op).2
    have d1 : Declared n (runDoc desc docOf anyT st (op :: ops)).1 ↔
        ((∃ f, op = .generic n f) ∨ (∃ f, op = .typed n f)) ∨ Declared n (runDoc desc docOf anyT (stepDoc desc docOf anyT st op).2 ops).1 := by
      simp [runDoc, Declared]
    have d2 : DeclaredTyped n (runDoc desc docOf anyT st (op :: ops)).1 ↔
        ((∃ f, op = .typed n f) ∧ (stepDoc desc docOf anyT st op).1 = .ok ()) ∨ DeclaredTyped n (runDoc desc docOf anyT (stepDoc desc docOf anyT st op).2 ops).1 := by
      simp [runDoc, DeclaredTyped]
    have hrun : (runDoc desc docOf anyT st (op :: ops)).2 = (runDoc desc docOf anyT (stepDoc desc docOf anyT st op).2 ops).2 := rfl
    suffices hs : (PyDict.has (stepDoc desc docOf anyT st op).2.reg n = true ↔ PyDict.has st.reg n = true ∨ ((∃ f, op = .generic n f) ∨ (∃ f, op = .typed n f))) ∧
        (Closed (stepDoc desc docOf anyT st op).2.reg n ↔ Closed st.reg n ∨ ((∃ f, op = .typed n f) ∧ (stepDoc desc docOf anyT st op).1 = .ok ())) by
      rw [d1, d2, hrun, i1, i2, hs.1, hs.2]
      exact ⟨or_assoc, or_assoc⟩
    obtain ⟨h1, h2⟩ := stepDoc_cases desc docOf anyT st op
    by_cases hn : n = op.target
    · subst hn
      rcases h2 with ⟨hc, he⟩ | ⟨hc, hh, ⟨f, hf⟩, he⟩ | ⟨hc, hh, d, hd, ht, _⟩
      · rw [he]; simp [hc, closed_has hc]
      · rw [he]; rw [hf]; simp [Op.target]
      · have hd' : PyDict.has (stepDoc desc docOf anyT st op).2.reg op.target = true := by simp [PyDict.has, hd]
        rw [closed_of hd, ht]
        refine ⟨?_, by simp [hc]⟩
        simp only [hd', true_iff]
        cases hhas : PyDict.has st.reg op.target with
        | true => exact .inl rfl
        | false =>
          right
          cases op with
          | generic n f => exact .inl ⟨f, rfl⟩
          | typed n f => exact .inr ⟨f, rfl⟩
          | augment n f => exact absurd ⟨f, rfl⟩ (hh hhas)
    · have hk := (h1 n hn).1
      have hg : ¬ ((∃ f, op = .generic n f) ∨ ∃ f, op = .typed n f) := by
        rintro (⟨f, rfl⟩ | ⟨f, rfl⟩) <;> exact hn rfl
      have hg' : ¬ ∃ f, op = .typed n f := fun h => hg (.inr h)
      simp only [PyDict.has, Closed, hk]
      exact ⟨⟨.inl, fun h => h.resolve_right hg⟩, ⟨.inl, fun h => h.resolve_right (fun h => hg' h.1)⟩⟩

private theorem isgeneric_none {st : Reg V T} {f : Callable V} {n : String} (hf : f.fullname = some n) (hg : PyDict.get? st n = none) : isgeneric st f = none := by
  simp [isgeneric, hf, hg]

private theorem isgeneric_some {st : Reg V T} {f : Callable V} {n : String} {d : Disp V T} (hf : f.fullname = some n) (hg : PyDict.get? st n = some d) :
    isgeneric st f = if d.typed then some "typed" else some "generic" := by
  simp [isgeneric, hf, hg]

/-- C120: `isgeneric` gives "typed" for a function (or a bound method) that `@typed` has made, "generic" for one that only `@generic` and `@augment` were used on, and False for all other callables; after any history of decorations. -/
theorem C120_isgeneric (desc docOf : Fn V T → Option String) (anyT : T) (ops : List (Op V T)) (f : Callable V) :
    let h := (runDoc desc docOf anyT noDocs ops).1
    let st := (runDoc desc docOf anyT noDocs ops).2.reg
    (isgeneric st f = some "typed" ↔ ∃ n, f.fullname = some n ∧ DeclaredTyped n h) ∧
    (isgeneric st f = some "generic" ↔ ∃ n, f.fullname = some n ∧ Declared n h ∧ ¬ DeclaredTyped n h) ∧
    (isgeneric st f = none ↔ ∀ n, f.fullname = some n → ¬ Declared n h) := by
  intro h st
  cases hf : f.fullname with
  | none => simp [isgeneric, hf]
  | some n =>
    obtain ⟨i1, i2⟩ := isgeneric_run desc docOf anyT noDocs ops n
    have e1 : PyDict.has st n = true ↔ Declared n h := by
      rw [i1]; simp [noDocs, PyDict.has, PyDict.get?, h]
    have e2 : Closed st n ↔ DeclaredTyped n h := by
      rw [i2]; simp [noDocs, Closed, PyDict.get?, h]
    clear_value h st
    cases hg : PyDict.get? st n with
    | none =>
      have hnd : ¬ Declared n h := by rw [← e1]; simp [PyDict.has, hg]
      have hnt : ¬ DeclaredTyped n h := by rw [← e2]; rintro ⟨d, hd, _⟩; rw [hg] at hd; cases hd
      simp [isgeneric_none hf hg, hnd, hnt]
    | some d =>
      have hd : Declared n h := by rw [← e1]; simp [PyDict.has, hg]
      have ht := e2.symm.trans (closed_of hg)
      rw [isgeneric_some hf hg]
      cases hdt : d.typed <;> simp [hdt, hd, ht]

private theorem methodsOf_get {st : Reg V T} {n : String} {d : Disp V T} (h : PyDict.get? st n = some d) : methodsOf st n = d.registry := by
  simp [methodsOf, h]

private theorem registry_run (desc docOf : Fn V T → Option String) (anyT : T) (st : Docs V T) (ops : List (Op V T)) (hsrc : ∀ op ∈ ops, desc op.fn ≠ none) (n : String) :
    methodsOf (runDoc desc docOf anyT st ops).2.reg n = methodsOf st.reg n ++ (registered n (runDoc desc docOf anyT st ops).1).map (mm anyT) := by
  induction ops generalizing st with
  | nil => simp [runDoc, registered]
  | cons op ops ih =>
    have hrun : (runDoc desc docOf anyT st (op :: ops)).2 = (runDoc desc docOf anyT (stepDoc desc docOf anyT st op).2 ops).2 := rfl
    have hreg : registered n (runDoc desc docOf anyT st (op :: ops)).1 =
        (if op.target = n ∧ (stepDoc desc docOf anyT st op).1 = .ok () then [op.fn] else []) ++ registered n (runDoc desc docOf anyT (stepDoc desc docOf anyT st op).2 ops).1 := by
      simp only [runDoc, registered, List.filter_cons]
      split <;> simp_all
    rw [hrun, hreg, ih _ (fun o ho => hsrc o (by simp [ho]))]
    simp only [List.map_append, ← List.append_assoc]
    congr 1
    obtain ⟨h1, h2⟩ := stepDoc_cases desc docOf anyT st op
    by_cases hn : n = op.target
    · subst hn
      rcases h2 with ⟨hc, he⟩ | ⟨hc, hh, ⟨f, hf⟩, he⟩ | ⟨hc, hh, d, hd, ht, h2⟩
      · rw [he]; simp
      · rw [he]; simp
      · rw [methodsOf_get hd]
        rcases h2 with ⟨e, h2, _⟩ | ⟨hn, _⟩ | ⟨s, _, e, h2, _⟩
        · rw [e, h2]; simp
        · exact absurd hn (hsrc op (by simp))
        · rw [e, h2]; simp
    · rw [methodsOf, (h1 n hn).1, if_neg (fun h => hn h.1.symm)]
      simp [methodsOf]

/-- C120: `list_methods` of a generic function gives all multimethods that were registered, the latest first; after any history of decorations of functions whose source code is available.  Missing: functions without, `C120_no_source_refuted`. -/
theorem C120_list_partial (desc docOf : Fn V T → Option String) (anyT : T) (w : World C V) (ops : List (Op V T)) (hsrc : ∀ op ∈ ops, desc op.fn ≠ none) (n : String)
    (hd : Declared n (runDoc desc docOf anyT noDocs ops).1) :
    ∃ l, listMethods w (runDoc desc docOf anyT noDocs ops).2.reg (.raw n) = .ok l ∧
      l.map (fun m => (m.sig, m.body)) = (registered n (runDoc desc docOf anyT noDocs ops).1).reverse.map (fun f => (f.sig, f.body)) := by
  have hh := (isgeneric_run desc docOf anyT noDocs ops n).1.2 (.inr hd)
  have hm := registry_run desc docOf anyT noDocs ops hsrc n
  generalize (runDoc desc docOf anyT noDocs ops).2.reg = st at hh hm
  cases hg : PyDict.get? st n with
  | none => simp [PyDict.has, hg] at hh
  | some d =>
    refine ⟨d.registry.reverse, by simp [listMethods, Callable.fullname, hg, listMultimethods], ?_⟩
    rw [methodsOf_get hg] at hm
    rw [hm]
    simp [methodsOf, noDocs, PyDict.get?, mm, Function.comp_def]

private theorem setupDoc_reg (desc docOf : Fn V T → Option String) (anyT : T) (st : Docs V T) (n : String) (f : Fn V T) :
    (setupDoc desc docOf anyT st n f).2.reg = (setup anyT st.reg n f).2 := by
  rcases hs : setup anyT st.reg n f with ⟨r, reg⟩
  cases r with
  | error e => simp only [setupDoc, hs]
  | ok u => cases hd : desc f <;> simp only [setupDoc, hs, hd]

private theorem setupDoc_ok {desc docOf : Fn V T → Option String} {anyT : T} {st : Docs V T} {n : String} {f : Fn V T} (h : (setupDoc desc docOf anyT st n f).1 = .ok ()) :
    (setup anyT st.reg n f).1 = .ok () := by
  rcases hs : setup anyT st.reg n f with ⟨r, reg⟩
  cases r with
  | error e => simp [setupDoc, hs] at h
  | ok u => rfl

private theorem stepDoc_reg (desc docOf : Fn V T → Option String) (anyT : T) (st : Docs V T) (op : Op V T) :
    ∃ op' : Op V T, op'.fn = op.fn ∧ (stepDoc desc docOf anyT st op).2.reg = (step anyT st.reg op').2 := by
  cases op with
  | generic n f => exact ⟨.generic n f, rfl, setupDoc_reg desc docOf anyT st n f⟩
  | augment n f =>
    refine ⟨.augment n f, rfl, ?_⟩
    simp only [stepDoc, step]
    split
    · exact setupDoc_reg desc docOf anyT st n f
    · rfl
  | typed n f =>
    have hr := setupDoc_reg desc docOf anyT st n f
    have hok := @setupDoc_ok _ _ desc docOf anyT st n f
    rcases hs : setupDoc desc docOf anyT st n f with ⟨r, st'⟩
    rw [hs] at hr hok
    simp only at hr hok
    cases r with
    | error e => exact ⟨.generic n f, rfl, by simp [stepDoc, hs, step, hr]⟩
    | ok u =>
      refine ⟨.typed n f, rfl, ?_⟩
      have h1 := hok rfl
      rcases hse : setup anyT st.reg n f with ⟨r', reg⟩
      rw [hse] at h1 hr
      simp only at h1 hr
      subst h1
      simp only [stepDoc, hs, step, hse, hr]
      cases hgg : PyDict.get? reg n <;> simp [hr]

private theorem runDoc_reg (desc docOf : Fn V T → Option String) (anyT : T) (st : Docs V T) (ops : List (Op V T)) :
    ∃ ops' : List (Op V T), (∀ o ∈ ops', ∃ op ∈ ops, o.fn = op.fn) ∧ (runDoc desc docOf anyT st ops).2.reg = run anyT st.reg ops' := by
  induction ops generalizing st with
  | nil => exact ⟨[], by simp, rfl⟩
  | cons op ops ih =>
    obtain ⟨op', h1, h2⟩ := stepDoc_reg desc docOf anyT st op
    obtain ⟨ops', h3, h4⟩ := ih (stepDoc desc docOf anyT st op).2
    refine ⟨op' :: ops', ?_, ?_⟩
    · intro o ho
      rcases List.mem_cons.1 ho with rfl | ho
      · exact ⟨op, by simp, h1⟩
      · obtain ⟨op2, hm, he⟩ := h3 o ho
        exact ⟨op2, by simp [hm], he⟩
    · show (runDoc desc docOf anyT (stepDoc desc docOf anyT st op).2 ops).2.reg = _
      rw [h4, h2]
      rfl

/-- C120: a call runs the first multimethod that accepts the arguments, in the order of `list_methods`; if none of these does, it raises TypeError.  This holds for functions and bound methods, after any history of decorations,
if the first parameter of methods (only) is named self, this, cls or klass, and the type checker raises at most TypeError.  Missing: methods with another name for it, `C120_name_refuted`. -/
theorem C120_order_partial (desc docOf : Fn V T → Option String) (anyT : T) (isof : T → BVal V → Res Bool) (hq : ∀ t b e, isof t b = .error e → e = .TypeError) (w : World C V)
    (ops : List (Op V T)) (hw : ∀ op ∈ ops, WF op.fn.sig) (f : Callable V) (n : String) (hf : f.fullname = some n) (hn : Declared n (runDoc desc docOf anyT noDocs ops).1)
    (hc : Conventional (runDoc desc docOf anyT noDocs ops).2.reg f) (args : List V) (kwargs : PyDict String V) :
    ∃ l r, listMethods w (runDoc desc docOf anyT noDocs ops).2.reg f = .ok l ∧ callIt isof w (runDoc desc docOf anyT noDocs ops).2.reg f args kwargs = some r ∧
      ((∃ m, r = .ok m ∧ First (Matches isof (passed f args) kwargs) l m) ∨ (r = .error .TypeError ∧ ∀ m ∈ l, ¬ Matches isof (passed f args) kwargs m)) := by
  have hh := (isgeneric_run desc docOf anyT noDocs ops n).1.2 (.inr hn)
  obtain ⟨ops', h1, h2⟩ := runDoc_reg desc docOf anyT noDocs ops
  rw [h2] at hh hc ⊢
  have hw' : ∀ op ∈ ops', WF op.fn.sig := by
    intro o ho
    obtain ⟨op, hop, e⟩ := h1 o ho
    rw [e]; exact hw op hop
  have hgood := dispatch_run_good anyT ops' hw'
  change PyDict.has (run anyT [] ops') n = true at hh
  change Conventional (run anyT [] ops') f at hc
  change ∃ l r, listMethods w (run anyT [] ops') f = .ok l ∧ callIt isof w (run anyT [] ops') f args kwargs = some r ∧ _
  generalize run anyT [] ops' = st at hh hgood hc
  cases hg : PyDict.get? st n with
  | none => simp [PyDict.has, hg] at hh
  | some d =>
    have hcd := hc n d hf hg
    have hgent : ∀ a, ∀ m ∈ entries st a, Good m := by
      intro a m hm
      cases a with
      | none => simp [entries] at hm
      | some a =>
        cases a with
        | plain => simp [entries] at hm
        | generic k =>
          cases hk : PyDict.get? st k with
          | none => simp [entries, hk] at hm
          | some d' =>
            simp only [entries, hk, List.mem_reverse] at hm
            exact hgood k m (by simp [methodsOf, hk, hm])
    have hall : ∀ self, ∀ m ∈ listMultimethods w st d self, Good m := by
      intro self x hx
      unfold listMultimethods at hx
      rcases List.mem_append.mp hx with hx | hx
      · exact hgood n x (by simpa [methodsOf, hg] using hx)
      · cases self with
        | none => simp at hx
        | some s =>
          simp only at hx
          split at hx
          · obtain ⟨c, _, hx⟩ := List.mem_flatMap.mp hx
            exact hgent _ x hx
          · simp at hx
    cases f with
    | other => cases hf
    | raw k =>
      cases hf
      refine ⟨listMultimethods w st d none, _, by simp only [listMethods, Callable.fullname, hg], by simp only [callIt, Callable.fullname, hg]; rfl, ?_⟩
      refine dispatch_call_of_scan isof w st d args kwargs hq none ?_ _ (hall none) rfl
      unfold extractSelf
      cases hfp : firstPositional d.sig with
      | none => rfl
      | some k => simp [hcd k hfp]
    | bound k s =>
      cases hf
      refine ⟨listMultimethods w st d (some s), _, by simp only [listMethods, Callable.fullname, hg], by simp only [callIt, Callable.fullname, hg]; rfl, ?_⟩
      refine dispatch_call_of_scan isof w st d (s :: args) kwargs hq (some s) ?_ _ (hall (some s)) rfl
      obtain ⟨k, hk, hk'⟩ := hcd
      simp [extractSelf, hk, hk']

/-- C120: what is not a generic function has no multimethods: `list_methods` and `format_methods` raise TypeError. -/
theorem C120_other (line : MM V T → String) (w : World C V) (st : Reg V T) (f : Callable V) (h : isgeneric st f = none) :
    listMethods w st f = .error .TypeError ∧ formatMethods line w st f = .error .TypeError := by
  have hl : listMethods w st f = .error .TypeError := by
    unfold listMethods
    cases hf : f.fullname with
    | none => rfl
    | some n =>
      cases hg : PyDict.get? st n with
      | none => simp [hg]
      | some d => rw [isgeneric_some hf hg] at h; split at h <;> cases h
  exact ⟨hl, by simp [formatMethods, hl]⟩

private theorem intercalate_snoc (s a x : String) (l : List String) : s.intercalate (a :: (l ++ [x])) = s.intercalate (a :: l) ++ s ++ x := by
  induction l generalizing a with
  | nil => rfl
  | cons b l ih =>
    have e : ∀ t, s.intercalate (a :: b :: t) = s.intercalate ((a ++ s ++ b) :: t) := fun t => rfl
    rw [List.cons_append, e, e, ih]

private theorem intercalate_snoc' (s x : String) (l : List String) (h : l ≠ []) : s.intercalate (l ++ [x]) = s.intercalate l ++ s ++ x := by
  cases l with
  | nil => exact absurd rfl h
  | cons a l => exact intercalate_snoc s a x l

private theorem section_part (desc docOf : Fn V T → Option String) (f : Fn V T) {s : String} (h : desc f = some s) : section_ s (docOf f) = part desc docOf f := by
  unfold part section_
  cases hd : docOf f with
  | none => simp [h, hd]
  | some t => by_cases ht : t = "" <;> simp [h, hd, ht, String.append_assoc]

private theorem append_ne {s t : String} (h : s ≠ "") : s ++ t ≠ "" := by
  intro e
  exact h (by simpa using (String.append_eq_empty_iff.1 e).1)

private theorem doc_run (desc docOf : Fn V T → Option String) (anyT : T) (st : Docs V T) (ops : List (Op V T)) (hsrc : ∀ op ∈ ops, ∃ s, desc op.fn = some s ∧ s ≠ "") (n : String)
    (fs : List (Fn V T)) (h1 : methodsOf st.reg n = fs.map (mm anyT)) (h2 : fs ≠ [] → st.doc n = some (rule.intercalate (fs.map (part desc docOf))) ∧ rule.intercalate (fs.map (part desc docOf)) ≠ "") :
    let gs := fs ++ registered n (runDoc desc docOf anyT st ops).1
    gs ≠ [] → (runDoc desc docOf anyT st ops).2.doc n = some (rule.intercalate (gs.map (part desc docOf))) := by
  induction ops generalizing st fs with
  | nil => intro gs hg; simpa [gs, runDoc, registered] using (h2 (by simpa [gs, runDoc, registered] using hg)).1
  | cons op ops ih =>
    have hrun : (runDoc desc docOf anyT st (op :: ops)).2 = (runDoc desc docOf anyT (stepDoc desc docOf anyT st op).2 ops).2 := rfl
    have hreg : registered n (runDoc desc docOf anyT st (op :: ops)).1 =
        (if op.target = n ∧ (stepDoc desc docOf anyT st op).1 = .ok () then [op.fn] else []) ++ registered n (runDoc desc docOf anyT (stepDoc desc docOf anyT st op).2 ops).1 := by
      simp only [runDoc, registered, List.filter_cons]
      split <;> simp_all
    rw [hrun, hreg, ← List.append_assoc]
    apply ih _ (fun o ho => hsrc o (by simp [ho]))
    all_goals
      obtain ⟨k1, k2⟩ := stepDoc_cases desc docOf anyT st op
      by_cases hn : n = op.target
    · subst hn
      rcases k2 with ⟨hc, he⟩ | ⟨hc, hh, ⟨f, hf⟩, he⟩ | ⟨hc, hh, d, hd, ht, k2⟩
      · rw [he]; simpa using h1
      · rw [he]; simpa using h1
      · rw [methodsOf_get hd]
        rcases k2 with ⟨e, k2, _⟩ | ⟨hn, _⟩ | ⟨s, _, e, k2, _⟩
        · rw [e, k2, h1]; simp
        · obtain ⟨s, hs, _⟩ := hsrc op (by simp); rw [hs] at hn; cases hn
        · rw [e, k2, h1]; simp
    · rw [methodsOf, (k1 n hn).1, if_neg (fun h => hn h.1.symm)]
      simpa [methodsOf] using h1
    · subst hn
      rcases k2 with ⟨hc, he⟩ | ⟨hc, hh, ⟨f, hf⟩, he⟩ | ⟨hc, hh, d, hd, ht, k2⟩
      · rw [he]; simpa using h2
      · rw [he]; simpa using h2
      · rcases k2 with ⟨e, k2, hdoc⟩ | ⟨hn, _⟩ | ⟨s, hs, e, k2, hdoc⟩
        · rw [e]
          simp only [reduceCtorEq, and_false, if_false, List.append_nil]
          intro hf
          rw [hdoc (by rw [h1]; simpa using hf)]
          exact h2 hf
        · obtain ⟨s, hs, _⟩ := hsrc op (by simp); rw [hs] at hn; cases hn
        · rw [e, hdoc]
          simp only [and_self, if_true]
          intro _
          obtain ⟨s', hs', hne⟩ := hsrc op (by simp)
          rw [hs] at hs'; cases hs'
          have hp : part desc docOf op.fn ≠ "" := by
            unfold part; rw [hs]; exact append_ne hne
          rw [section_part desc docOf op.fn hs]
          by_cases hf : fs = []
          · subst hf
            simp only [List.map_nil] at h1
            simp only [joined, h1, true_or, if_true]
            exact ⟨rfl, hp⟩
          · obtain ⟨hd1, hd2⟩ := h2 hf
            have hm : methodsOf st.reg op.target ≠ [] := by rw [h1]; simpa using hf
            rw [hd1]
            simp only [joined, hm, Option.getD_some, hd2, or_self, if_false, List.map_append, List.map_cons, List.map_nil]
            rw [intercalate_snoc' _ _ _ (by simpa using hf)]
            refine ⟨by simp [rule, String.append_assoc], ?_⟩
            rw [String.append_assoc]
            exact append_ne hd2
    · rw [(k1 n hn).2, if_neg (fun h => hn h.1.symm)]
      simpa using h2

/-- C120: the docstring of a generic function has the descriptions of all its multimethods, each with its own docstring, in the order of registration, with a line between; after any history of decorations of functions whose source code is available.
(Missing: functions without source code, see `C120_no_source_refuted`.) -/
theorem C120_doc_partial (desc docOf : Fn V T → Option String) (anyT : T) (ops : List (Op V T)) (hsrc : ∀ op ∈ ops, ∃ s, desc op.fn = some s ∧ s ≠ "") (n : String)
    (h : registered n (runDoc desc docOf anyT noDocs ops).1 ≠ []) :
    (runDoc desc docOf anyT noDocs ops).2.doc n = some (rule.intercalate ((registered n (runDoc desc docOf anyT noDocs ops).1).map (part desc docOf))) := by
  have := doc_run desc docOf anyT noDocs ops hsrc n [] rfl (by simp)
  simpa using this (by simpa using h)

/-- C120: `format_methods` gives a heading with the kind and the name of the generic function, and the descriptions of the listed multimethods, one per line. -/
theorem C120_format (line : MM V T → String) (w : World C V) (st : Reg V T) (f : Callable V) (n kind : String) (m : MM V T) (l : List (MM V T)) (hf : f.fullname = some n)
    (hk : isgeneric st f = some kind) (hl : listMethods w st f = .ok (m :: l)) :
    formatMethods line w st f = .ok ("Multimethods for @" ++ kind ++ " " ++ n ++ ":\n" ++ "\n".intercalate ((m :: l).map (fun m => "  " ++ line m))) := by
  simp [formatMethods, hl, hk, hf]

/-- C120 is violated for functions whose source code is not available (typed into Python's own prompt, or made by `exec`): `@generic` raises OSError, but the multimethod is registered: it is listed, and it is called.
`@typed` raises, too, and leaves a generic function behind that is open for more. -/
theorem C120_no_source_refuted :
    let f : Fn Nat Nat := ⟨"g", [⟨"x", .posOrKw, none⟩], [("x", 5)], 1⟩
    let r := runDoc (fun _ => none) (fun _ => none) 0 noDocs [.generic "g" f]
    let q := runDoc (fun _ => none) (fun _ => none) 0 noDocs [.typed "h" f]
    let m : MM Nat Nat := ⟨[⟨"x", .posOrKw, none⟩], [("x", 5)], 1⟩
    r.1.map (·.2) = [.error .osError] ∧ registered "g" r.1 = [] ∧ listMethods diamond r.2.reg (.raw "g") = .ok [m] ∧ callIt demoIsof diamond r.2.reg (.raw "g") [5] [] = some (.ok m) ∧
    q.1.map (·.2) = [.error .osError] ∧ isgeneric q.2.reg (.raw "h") = some "generic" := by
  refine ⟨rfl, rfl, rfl, rfl, rfl, rfl⟩

private def meFn (t body : Nat) : Fn Nat Nat := ⟨"f", [⟨"me", .posOrKw, none⟩, ⟨"x", .posOrKw, none⟩], [("me", 0), ("x", t)], body⟩

/-- C120 is violated: if the first parameter of a method has another name (`def f(me: Any, x: int)`), then `list_methods` of the bound method lists the multimethods of the base classes, too, but a call does not find them. -/
theorem C120_name_refuted :
    let st := (runDoc (fun _ => some "f") (fun _ => none) 0 noDocs [.generic "A.f" (meFn 5 1), .generic "B.f" (meFn 7 2)]).2.reg
    let m : MM Nat Nat := ⟨(meFn 5 1).sig, (meFn 5 1).hints, 1⟩
    (∃ before, listMethods chainWorld st (.bound "B.f" 2) = .ok (before ++ [m])) ∧ Matches demoIsof [2, 5] [] m ∧ callIt demoIsof chainWorld st (.bound "B.f" 2) [5] [] = some (.error .TypeError) := by
  refine ⟨⟨[⟨(meFn 7 2).sig, (meFn 7 2).hints, 2⟩], rfl⟩, ?_, rfl⟩
  refine (Proof.Dispatch.test_iff ⟨⟨[], (meFn 5 1).sig, [], [], [], rfl, by simp [meFn]⟩, by simp [meFn], by simp [meFn]⟩).mp (by decide)

-- a function with two multimethods, one with a docstring
example : let r := runDoc (fun f => some ("f" ++ toString f.body)) (fun f => if f.body = 2 then some "Two." else none) 0 noDocs [.generic "A.f" (demoFn 5 1), .typed "A.f" (demoFn 7 2)]
    registered "A.f" r.1 ≠ [] ∧ isgeneric r.2.reg (.bound "A.f" 1) = some "typed" ∧ r.2.doc "A.f" = some ("f1" ++ rule ++ "f2\nTwo.") ∧
    formatMethods (fun m => "f" ++ toString m.body) chainWorld r.2.reg (.bound "A.f" 1) = .ok "Multimethods for @typed A.f:\n  f2\n  f1" := by
  refine ⟨by simp [runDoc, registered, stepDoc, setupDoc, setup, registerTo, demoFn, typeSignature, demoSig, selfNames, PyDict.has, PyDict.get?, PyDict.set, noDocs, Op.target, PyDict.erase], by decide, by decide, by decide⟩

-- bound methods of the three classes are conventional
example : Conventional (runDoc (fun _ => some "f") (fun _ => none) 0 noDocs chainOps).2.reg (.bound "C.f" 3) := by
  intro n d hn hd
  cases hn
  cases hd
  exact ⟨"self", by decide, by decide⟩

end Unpy.Props
