import Verif.Proof.Dispatch
import Verif.Props.Typecheck
/-!
# C45: multiple dispatch
-/
namespace Unpy.Props
open Unpy Unpy.Arity Unpy.Spec.Arity Unpy.Dispatch Unpy.Spec.Dispatch Unpy.Proof.Dispatch
variable {C V T : Type}

/-! ## Registering -/

private theorem typeSignature_get (anyT : T) {f : Fn V T} (h : WF f.sig) {i : Nat} {p : Param V}
    (hi : f.sig[i]? = some p) :
    PyDict.get? (typeSignature anyT f) p.name =
      if i = 0 ∧ p.name ∈ selfNames then some ((PyDict.get? f.hints p.name).getD anyT)
      else PyDict.get? f.hints p.name := by
  have hnd := h.names
  unfold typeSignature
  cases hs : f.sig with
  | nil => rw [hs] at hi; simp at hi
  | cons q qs =>
    rw [hs] at hnd hi
    simp only [List.map_cons, List.nodup_cons] at hnd
    cases i with
    | zero =>
      simp only [List.getElem?_cons_zero, Option.some.injEq] at hi
      subst hi
      by_cases hself : q.name ∈ selfNames
      · simp [hself, PyDict.get?]
      · simp [hself]
    | succ i =>
      simp only [List.getElem?_cons_succ] at hi
      have hp : p ∈ qs := List.mem_of_getElem? hi
      have hq : q.name ≠ p.name := fun e => hnd.1 (List.mem_map.mpr ⟨p, hp, e.symm⟩)
      simp only [Nat.add_eq_zero_iff, Nat.succ_ne_zero, and_false, false_and, if_false]
      split
      · simp [PyDict.get?, PyDict.get?_erase, hq, Ne.symm hq]
      · rfl

private theorem annotated_iff (anyT : T) {f : Fn V T} (h : WF f.sig) :
    (f.sig.all (fun p => PyDict.has (typeSignature anyT f) p.name) = true) ↔ Annotated f := by
  unfold Annotated
  rw [List.all_eq_true]
  constructor
  · intro hall i p hi
    have := hall p (List.mem_of_getElem? hi)
    rw [PyDict.has, typeSignature_get anyT h hi] at this
    by_cases hc : i = 0 ∧ p.name ∈ selfNames
    · exact .inr hc
    · rw [if_neg hc] at this
      exact .inl (Option.isSome_iff_exists.mp this)
  · intro hann p hp
    obtain ⟨i, hi⟩ := List.mem_iff_getElem?.mp hp
    rw [PyDict.has, typeSignature_get anyT h hi]
    split
    · rfl
    · rename_i hc
      rcases hann i p hi with hh | hh
      · exact Option.isSome_iff_exists.mpr hh
      · exact absurd hh hc

private theorem typeSignature_all (anyT : T) {f : Fn V T} (h : WF f.sig) (ha : Annotated f) :
    ∀ p ∈ f.sig, PyDict.get? (typeSignature anyT f) p.name = some ((PyDict.get? f.hints p.name).getD anyT) := by
  intro p hp
  obtain ⟨i, hi⟩ := List.mem_iff_getElem?.mp hp
  rw [typeSignature_get anyT h hi]
  split
  · rfl
  · rename_i hc
    rcases ha i p hi with ⟨t, ht⟩ | hh
    · rw [ht]; rfl
    · exact absurd hh hc

theorem dispatch_setup_spec (anyT : T) (st : Reg V T) (n : String) (f : Fn V T) :
    (∀ n', n' ≠ n → PyDict.get? (setup anyT st n f).2 n' = PyDict.get? st n') ∧
    ((∃ d, PyDict.get? st n = some d ∧ d.typed = true) → setup anyT st n f = (.error .TypeError, st)) ∧
    (¬ (∃ d, PyDict.get? st n = some d ∧ d.typed = true) →
      ∃ d, (PyDict.get? st n = some d ∨ (PyDict.get? st n = none ∧ d = ⟨f.name, f.sig, [], false⟩)) ∧
        d.typed = false ∧ d.registry = methodsOf st n ∧
        (f.sig.all (fun p => PyDict.has (typeSignature anyT f) p.name) = false →
          (setup anyT st n f).1 = .error .TypeError ∧ PyDict.get? (setup anyT st n f).2 n = some d) ∧
        (f.sig.all (fun p => PyDict.has (typeSignature anyT f) p.name) = true →
          (setup anyT st n f).1 = .ok () ∧ PyDict.get? (setup anyT st n f).2 n =
            some { d with registry := d.registry ++ [⟨f.sig, typeSignature anyT f, f.body⟩] })) := by
  unfold setup
  cases hg : PyDict.get? st n with
  | none =>
    have hh : PyDict.has st n = false := by simp [PyDict.has, hg]
    simp only [hh, Bool.false_eq_true, if_false, PyDict.get?_set, if_true]
    refine ⟨?_, by simp, ?_⟩
    · intro n' hn
      simp only [registerTo]
      repeat' split
      all_goals simp [PyDict.get?_set, Ne.symm hn]
    · intro _
      refine ⟨_, .inr ⟨trivial, rfl⟩, rfl, by simp [methodsOf, hg], ?_, ?_⟩
      · intro ha; simp [registerTo, ha, PyDict.get?_set]
      · intro ha; simp only [registerTo, ha, if_true, PyDict.get?_set]; exact ⟨trivial, trivial⟩
  | some d =>
    have hh : PyDict.has st n = true := by simp [PyDict.has, hg]
    simp only [hh, if_true, hg]
    refine ⟨?_, ?_, ?_⟩
    · intro n' hn
      simp only [registerTo]
      repeat' split
      all_goals simp [PyDict.get?_set, Ne.symm hn]
    · rintro ⟨d', e, ht⟩
      cases e
      simp [ht]
    · intro hc
      have ht : d.typed = false := by
        cases h : d.typed
        · rfl
        · exact absurd ⟨d, rfl, h⟩ hc
      refine ⟨d, .inl rfl, ht, by simp [methodsOf, hg], ?_, ?_⟩
      · intro ha; simp [registerTo, ha, ht, hg]
      · intro ha; simp only [registerTo, ha, ht, if_true, PyDict.get?_set]; simp [PyDict.get?_set]

/-- A decoration succeeds exactly when every parameter (but a self-like first one) has a type annotation, the
generic function has not been closed by `@typed` and, for `@augment`, the target is a generic function;
otherwise it raises TypeError.  On success the new multimethod goes after all others of that generic
function; on failure no multimethod is added; other generic functions are untouched.  The source code of the
function is available (see `C120_no_source_refuted`). -/
theorem C45_register (anyT : T) (st : Reg V T) (op : Op V T) (hw : WF op.fn.sig) :
    ((step anyT st op).1 = .ok () ↔
      Annotated op.fn ∧ ¬ Closed st op.target ∧ TargetExists st op) ∧
    ((step anyT st op).1 = .ok () →
      ∃ hints, methodsOf (step anyT st op).2 op.target =
        methodsOf st op.target ++ [⟨op.fn.sig, hints, op.fn.body⟩] ∧
        ∀ p ∈ op.fn.sig, PyDict.get? hints p.name =
          some ((PyDict.get? op.fn.hints p.name).getD anyT)) ∧
    ((step anyT st op).1 ≠ .ok () →
      (step anyT st op).1 = .error .TypeError ∧ ∀ n, methodsOf (step anyT st op).2 n = methodsOf st n) ∧
    (∀ n, n ≠ op.target → PyDict.get? (step anyT st op).2 n = PyDict.get? st n) := by
  have key : ∀ (n : String) (f : Fn V T), WF f.sig →
      ((setup anyT st n f).1 = .ok () ↔ Annotated f ∧ ¬ Closed st n) ∧
      ((setup anyT st n f).1 = .ok () →
        ∃ d, PyDict.get? (setup anyT st n f).2 n = some d ∧
          d.registry = methodsOf st n ++ [⟨f.sig, typeSignature anyT f, f.body⟩]) ∧
      ((setup anyT st n f).1 ≠ .ok () →
        (setup anyT st n f).1 = .error .TypeError ∧ ∀ n', methodsOf (setup anyT st n f).2 n' = methodsOf st n') ∧
      (∀ n', n' ≠ n → PyDict.get? (setup anyT st n f).2 n' = PyDict.get? st n') := by
    intro n f hf
    obtain ⟨s1, s2, s3⟩ := dispatch_setup_spec anyT st n f
    by_cases hc : Closed st n
    · rw [s2 hc]
      exact ⟨by simp [hc], by simp, fun _ => ⟨rfl, fun _ => rfl⟩, fun _ _ => rfl⟩
    · obtain ⟨d, hd, ht, hr, h1, h2⟩ := s3 hc
      refine ⟨?_, ?_, ?_, s1⟩
      · rw [← annotated_iff anyT hf]
        cases ha : f.sig.all (fun p => PyDict.has (typeSignature anyT f) p.name)
        · simp [(h1 ha).1]
        · simp [(h2 ha).1, hc]
      · intro hok
        cases ha : f.sig.all (fun p => PyDict.has (typeSignature anyT f) p.name)
        · rw [(h1 ha).1] at hok; cases hok
        · exact ⟨_, (h2 ha).2, by rw [hr]⟩
      · intro hne
        cases ha : f.sig.all (fun p => PyDict.has (typeSignature anyT f) p.name)
        · refine ⟨(h1 ha).1, fun n' => ?_⟩
          by_cases e : n' = n
          · subst e
            rw [methodsOf, (h1 ha).2]
            exact hr
          · rw [methodsOf, s1 n' e]; rfl
        · exact absurd (h2 ha).1 hne
  cases op with
  | generic n f =>
    obtain ⟨k1, k2, k3, k4⟩ := key n f hw
    simp only [step, Op.fn, Op.target, TargetExists, and_true]
    refine ⟨k1, ?_, k3, k4⟩
    intro hok
    obtain ⟨d, hd, hr⟩ := k2 hok
    refine ⟨typeSignature anyT f, by rw [methodsOf, hd]; exact hr, ?_⟩
    exact typeSignature_all anyT hw (k1.mp hok).1
  | augment n f =>
    obtain ⟨k1, k2, k3, k4⟩ := key n f hw
    simp only [step, Op.fn, Op.target, TargetExists]
    by_cases hh : PyDict.has st n = true
    · have he : ∃ d, PyDict.get? st n = some d := Option.isSome_iff_exists.mp hh
      simp only [hh, if_true]
      refine ⟨by rw [k1]; simp [he], ?_, k3, k4⟩
      intro hok
      obtain ⟨d, hd, hr⟩ := k2 hok
      refine ⟨typeSignature anyT f, by rw [methodsOf, hd]; exact hr, ?_⟩
      exact typeSignature_all anyT hw (k1.mp hok).1
    · have he : ¬ ∃ d, PyDict.get? st n = some d := fun h => hh (Option.isSome_iff_exists.mpr h)
      simp only [if_neg hh, he]
      simp
  | typed n f =>
    obtain ⟨k1, k2, k3, k4⟩ := key n f hw
    simp only [step, Op.fn, Op.target, TargetExists, and_true]
    rcases hs : setup anyT st n f with ⟨r, st'⟩
    rw [hs] at k1 k2 k3 k4
    simp only at k1 k2 k3 k4
    cases r with
    | error e =>
      simp only
      refine ⟨k1, by simp, fun _ => k3 (by simp), k4⟩
    | ok u =>
      obtain ⟨d, hd, hr⟩ := k2 rfl
      simp only [hd]
      refine ⟨⟨fun _ => k1.mp rfl, fun _ => by simp⟩, ?_, by simp, ?_⟩
      · intro _
        refine ⟨typeSignature anyT f, ?_, typeSignature_all anyT hw (k1.mp rfl).1⟩
        simp only [methodsOf, PyDict.get?_set, if_true, Option.map_some, Option.getD_some]
        exact hr
      · intro n' hn
        simp only [PyDict.get?_set, if_neg (Ne.symm hn)]
        exact k4 n' hn

/-- `def f(x: int)` is registered; then `def f(y)` is refused. -/
example : let f : Fn Nat Nat := ⟨"f", [⟨"x", .posOrKw, none⟩], [("x", 1)], 0⟩
    let g : Fn Nat Nat := ⟨"f", [⟨"y", .posOrKw, none⟩], [], 1⟩
    Annotated f ∧ ¬ Annotated g ∧
    (step 0 [] (.generic "f" f)).1 = .ok () ∧
    (step 0 (step 0 [] (.generic "f" f)).2 (.generic "f" g)).1 = .error .TypeError := by
  refine ⟨?_, ?_, by decide, by decide⟩
  · intro i p hi
    cases i with
    | zero => simp at hi; subst hi; exact .inl ⟨1, rfl⟩
    | succ i => simp at hi
  · intro h
    rcases h 0 ⟨"y", .posOrKw, none⟩ rfl with ⟨t, ht⟩ | ⟨_, hh⟩
    · cases ht
    · revert hh; decide

/-- A multimethod that has been registered stays: whatever decorations follow, the multimethods of a generic
function are the ones before, in the same order, followed by new ones. -/
theorem C45_append_only (anyT : T) (st : Reg V T) (ops : List (Op V T)) (hw : ∀ op ∈ ops, WF op.fn.sig)
    (n : String) : ∃ new, methodsOf (run anyT st ops) n = methodsOf st n ++ new := by
  induction ops generalizing st with
  | nil => exact ⟨[], by simp [run]⟩
  | cons op ops ih =>
    obtain ⟨new, hnew⟩ := ih (step anyT st op).2 (fun o ho => hw o (by simp [ho]))
    have hrun : run anyT st (op :: ops) = run anyT (step anyT st op).2 ops := rfl
    rw [hrun, hnew]
    obtain ⟨_, r2, r3, r4⟩ := C45_register anyT st op (hw op (by simp))
    by_cases hok : (step anyT st op).1 = .ok ()
    · by_cases hn : n = op.target
      · obtain ⟨h, e, _⟩ := r2 hok
        rw [hn, e]
        exact ⟨_, by rw [List.append_assoc]⟩
      · rw [methodsOf, r4 n hn]
        exact ⟨new, rfl⟩
    · rw [(r3 hok).2 n]
      exact ⟨new, rfl⟩

example : WF ([⟨"x", .posOrKw, none⟩] : Sig Nat) :=
  ⟨⟨[], [⟨"x", .posOrKw, none⟩], [], [], [], rfl, by simp⟩, by simp, by simp⟩

/-- After `@typed`, nothing more can be registered: whatever decorations follow, the multimethods of the
function stay as they are. -/
theorem C45_typed_closed (anyT : T) (st : Reg V T) (ops : List (Op V T)) (hw : ∀ op ∈ ops, WF op.fn.sig)
    (n : String) (hc : Closed st n) :
    Closed (run anyT st ops) n ∧ methodsOf (run anyT st ops) n = methodsOf st n := by
  induction ops generalizing st with
  | nil => exact ⟨hc, rfl⟩
  | cons op ops ih =>
    obtain ⟨r1, _, r3, r4⟩ := C45_register anyT st op (hw op (by simp))
    have hrun : run anyT st (op :: ops) = run anyT (step anyT st op).2 ops := rfl
    rw [hrun]
    by_cases hn : n = op.target
    · have hne : (step anyT st op).1 ≠ .ok () := fun h => (r1.mp h).2.1 (hn ▸ hc)
      have hst : (step anyT st op).2 = st := by
        have hs := (dispatch_setup_spec anyT st op.target op.fn).2.1 (hn ▸ hc)
        cases op with
        | generic n f => simp only [step]; simp only [Op.target, Op.fn] at hs; rw [hs]
        | augment n f =>
          simp only [step]; simp only [Op.target, Op.fn] at hs
          split
          · rw [hs]
          · rfl
        | typed n f => simp only [step]; simp only [Op.target, Op.fn] at hs; rw [hs]
      rw [hst]
      exact ih st (fun o ho => hw o (by simp [ho])) hc
    · have hg := r4 n hn
      obtain ⟨h1, h2⟩ := ih (step anyT st op).2 (fun o ho => hw o (by simp [ho]))
        (by obtain ⟨d, hd, ht⟩ := hc; exact ⟨d, by rw [hg, hd], ht⟩)
      refine ⟨h1, ?_⟩
      rw [h2, methodsOf, hg]
      rfl

/-- `@typed` closes the function it is applied to, when it succeeds. -/
theorem C45_typed_closes (anyT : T) (st : Reg V T) (n : String) (f : Fn V T)
    (h : (step anyT st (.typed n f)).1 = .ok ()) : Closed (step anyT st (.typed n f)).2 n := by
  simp only [step] at h ⊢
  rcases hs : setup anyT st n f with ⟨r, st'⟩
  rw [hs] at h
  cases r with
  | error e => simp at h
  | ok u =>
    simp only at h ⊢
    cases hg : PyDict.get? st' n with
    | none => rw [hg] at h; simp at h
    | some d => exact ⟨{ d with typed := true }, by simp [PyDict.get?_set], rfl⟩

example : (step 0 ([] : Reg Nat Nat) (.typed "f" ⟨"f", [⟨"x", .posOrKw, none⟩], [("x", 1)], 0⟩)).1 = .ok () := by
  decide

/-- But if the name was already generic, `@typed` keeps the earlier multimethods, so the function accepts
more than one combination of argument types. -/
theorem C45_typed_refuted : ∃ (f g : Fn Nat Nat),
    (step 0 (step 0 [] (.generic "f" f)).2 (.typed "f" g)).1 = .ok () ∧
    (methodsOf (step 0 (step 0 [] (.generic "f" f)).2 (.typed "f" g)).2 "f").length = 2 :=
  ⟨⟨"f", [⟨"x", .posOrKw, none⟩], [("x", 1)], 0⟩, ⟨"f", [⟨"x", .posOrKw, none⟩], [("x", 2)], 1⟩,
    by decide, by decide⟩

/-! ## Calling -/

/-- Registries made by decorators have a type for every parameter. -/
theorem dispatch_run_good (anyT : T) (ops : List (Op V T)) (hw : ∀ op ∈ ops, WF op.fn.sig) (n : String) :
    ∀ m ∈ methodsOf (run anyT [] ops) n, Good m := by
  have : ∀ st : Reg V T, (∀ n, ∀ m ∈ methodsOf st n, Good m) → ∀ n, ∀ m ∈ methodsOf (run anyT st ops) n, Good m := by
    induction ops with
    | nil => intro st h; exact h
    | cons op ops ih =>
      intro st h
      refine ih (fun o ho => hw o (by simp [ho])) (step anyT st op).2 ?_
      intro n m hm
      obtain ⟨_, r2, r3, r4⟩ := C45_register anyT st op (hw op (by simp))
      by_cases hok : (step anyT st op).1 = .ok ()
      · by_cases hn : n = op.target
        · obtain ⟨hints, e, hh⟩ := r2 hok
          subst hn
          rw [e] at hm
          rcases List.mem_append.mp hm with hm | hm
          · exact h _ m hm
          · simp only [List.mem_singleton] at hm
            subst hm
            exact ⟨hw op (by simp), fun p hp => by simp [PyDict.has, hh p hp]⟩
        · rw [methodsOf, r4 n hn] at hm
          exact h n m hm
      · rw [(r3 hok).2 n] at hm
        exact h n m hm
  exact this [] (by simp [methodsOf, PyDict.get?]) n

theorem dispatch_call_of_scan (isof : T → BVal V → Res Bool) (w : World C V) (st : Reg V T) (d : Disp V T)
    (args : List V) (kwargs : PyDict String V) (hq : ∀ t b e, isof t b = .error e → e = .TypeError)
    (self : Option V) (hself : extractSelf d args = .ok self) (l : List (MM V T)) (hl : ∀ m ∈ l, Good m)
    (hscan : scan isof args kwargs (listMultimethods w st d self) = scan isof args kwargs l) :
    (∃ m, call isof w st d args kwargs = .ok m ∧ First (Matches isof args kwargs) l m) ∨
    (call isof w st d args kwargs = .error .TypeError ∧ ∀ m ∈ l, ¬ Matches isof args kwargs m) := by
  obtain ⟨r, hr⟩ := scan_ok (isof := isof) (args := args) (kwargs := kwargs) hq hl
  simp only [call, hself, hscan, hr]
  cases r with
  | none => exact .inr ⟨rfl, scan_none (fun m hm => (hl m hm).1) hr⟩
  | some m => exact .inl ⟨m, rfl, scan_some (fun m hm => (hl m hm).1) hr⟩

/-- A call of a generic function runs the most recently registered multimethod that accepts the arguments; if
there is none, it raises TypeError and nothing runs.  This holds after every history of decorations, for all
arguments, if the type checker raises at most TypeError (see `C46_answers` for when it raises nothing). -/
theorem C45_function (anyT : T) (isof : T → BVal V → Res Bool)
    (hq : ∀ t b e, isof t b = .error e → e = .TypeError) (w : World C V)
    (ops : List (Op V T)) (hw : ∀ op ∈ ops, WF op.fn.sig) (n : String) (d : Disp V T)
    (hd : PyDict.get? (run anyT [] ops) n = some d) (hm : NotMethod d) (args : List V)
    (kwargs : PyDict String V) :
    (∃ m, call isof w (run anyT [] ops) d args kwargs = .ok m ∧
      Last (Matches isof args kwargs) (methodsOf (run anyT [] ops) n) m) ∨
    (call isof w (run anyT [] ops) d args kwargs = .error .TypeError ∧
      ∀ m ∈ methodsOf (run anyT [] ops) n, ¬ Matches isof args kwargs m) := by
  have hg := dispatch_run_good anyT ops hw n
  have hreg : methodsOf (run anyT [] ops) n = d.registry := by simp [methodsOf, hd]
  have hself : extractSelf d args = .ok none := by
    unfold extractSelf
    cases hf : firstPositional d.sig with
    | none => rfl
    | some k => simp [hm k hf]
  rw [hreg] at hg ⊢
  rcases dispatch_call_of_scan isof w (run anyT [] ops) d args kwargs hq none hself d.registry.reverse
      (by simpa using hg) (by simp [listMultimethods]) with ⟨m, h1, h2⟩ | ⟨h1, h2⟩
  · exact .inl ⟨m, h1, First.reverse h2⟩
  · exact .inr ⟨h1, by simpa using h2⟩

/-- What runs accepts the arguments, whatever the type checker raises. -/
theorem C45_runs_match (anyT : T) (isof : T → BVal V → Res Bool) (w : World C V)
    (ops : List (Op V T)) (hw : ∀ op ∈ ops, WF op.fn.sig) (n : String) (d : Disp V T)
    (hd : PyDict.get? (run anyT [] ops) n = some d) (args : List V) (kwargs : PyDict String V) (m : MM V T)
    (h : call isof w (run anyT [] ops) d args kwargs = .ok m) : Matches isof args kwargs m := by
  have hreg : ∀ n, ∀ m ∈ methodsOf (run anyT [] ops) n, Good m := dispatch_run_good anyT ops hw
  have hent : ∀ a, ∀ m ∈ entries (run anyT [] ops) a, WF m.sig := by
    intro a m hm
    cases a with
    | none => simp [entries] at hm
    | some a =>
      cases a with
      | plain => simp [entries] at hm
      | generic k =>
        cases hk : PyDict.get? (run anyT [] ops) k with
        | none => simp [entries, hk] at hm
        | some d' =>
          simp only [entries, hk, List.mem_reverse] at hm
          exact (hreg k m (by simp [methodsOf, hk, hm])).1
  unfold call at h
  cases hs : extractSelf d args with
  | error e => rw [hs] at h; cases h
  | ok self =>
    rw [hs] at h
    simp only at h
    rcases hc : scan isof args kwargs (listMultimethods w (run anyT [] ops) d self) with e | (_ | m')
    · rw [hc] at h; cases h
    · rw [hc] at h; cases h
    · rw [hc] at h
      cases h
      have hall : ∀ x ∈ listMultimethods w (run anyT [] ops) d self, WF x.sig := by
        intro x hx
        unfold listMultimethods at hx
        rcases List.mem_append.mp hx with hx | hx
        · exact (hreg n x (by simpa [methodsOf, hd] using hx)).1
        · cases self with
          | none => simp at hx
          | some s =>
            simp only at hx
            split at hx
            · obtain ⟨c, _, hx⟩ := List.mem_flatMap.mp hx
              exact hent _ x hx
            · simp at hx
      obtain ⟨_, _, _, hmm, _⟩ := scan_some hall hc
      exact hmm

/-- A call of a method runs the first multimethod that accepts the arguments, in the documented order: class by
class along the MRO of the object's class, most recent first within a class; if there is none, it raises
TypeError.  `hcons` holds for single inheritance.  Missing for the full C45: multiple inheritance where a class
of the MRO inherits the method from a class that comes later than another one that defines it
(`C45_diamond_refuted`), objects that are false (`C45_falsy_refuted`), and calls through `super()`
(`C45_super_refuted`). -/
theorem C45_method_partial (anyT : T) (isof : T → BVal V → Res Bool)
    (hq : ∀ t b e, isof t b = .error e → e = .TypeError) (w : World C V)
    (ops : List (Op V T)) (hw : ∀ op ∈ ops, WF op.fn.sig)
    (obj : V) (cls : C) (hcls : w.asType obj = some cls ∨ (w.asType obj = none ∧ w.clsOf obj = cls))
    (htrue : w.truthy obj = true) (hmro : (w.mro cls).head? = some cls)
    (name : String) (hcons : Consistent w cls name) (n : String)
    (hattr : (w.mro cls).findSome? (fun c => w.own c name) = some (.generic n)) (d : Disp V T)
    (hd : PyDict.get? (run anyT [] ops) n = some d) (hname : d.name = name) (hm : IsMethod d)
    (args : List V) (kwargs : PyDict String V) :
    (∃ m, call isof w (run anyT [] ops) d (obj :: args) kwargs = .ok m ∧
      First (Matches isof (obj :: args) kwargs) (mroOrder w (run anyT [] ops) cls name) m) ∨
    (call isof w (run anyT [] ops) d (obj :: args) kwargs = .error .TypeError ∧
      ∀ m ∈ mroOrder w (run anyT [] ops) cls name, ¬ Matches isof (obj :: args) kwargs m) := by
  have hself : extractSelf d (obj :: args) = .ok (some obj) := by
    obtain ⟨k, hk, hk'⟩ := hm
    simp [extractSelf, hk, hk']
  have hgood : ∀ m ∈ mroOrder w (run anyT [] ops) cls name, Good m := by
    intro m hm
    obtain ⟨c, _, hm⟩ := List.mem_flatMap.mp hm
    unfold ownMethods at hm
    split at hm
    · rename_i k _
      exact dispatch_run_good anyT ops hw k m (by simpa [methodsOf] using hm)
    · simp at hm
  refine dispatch_call_of_scan isof w (run anyT [] ops) d (obj :: args) kwargs hq (some obj) hself _ hgood ?_
  obtain ⟨bases, hb⟩ : ∃ bases, w.mro cls = cls :: bases := by
    cases h : w.mro cls with
    | nil => rw [h] at hmro; simp at hmro
    | cons c bs => rw [h] at hmro; simp at hmro; exact ⟨bs, by rw [hmro]⟩
  have hs := (scan_suffix isof (obj :: args) kwargs w (run anyT [] ops) name (w.mro cls) hcons).1
  have hg : getattr w cls name = some (.generic n) := by rw [getattr, hattr]
  have hreg : entries (run anyT [] ops) (some (.generic n)) = d.registry.reverse := by simp [entries, hd]
  rw [hb] at hs
  simp only [List.flatMap_cons, hg, hreg] at hs
  have ho : mroOrder w (run anyT [] ops) cls name =
      (w.mro cls).flatMap (fun c => entries (run anyT [] ops) (w.own c name)) := by
    unfold mroOrder
    congr 1
    funext c
    exact ownMethods_eq w _ c name
  rw [ho, hb]
  simp only [listMultimethods, htrue, if_true, hname]
  rcases hcls with h | ⟨h, h'⟩
  · simpa only [h, hb, List.tail_cons, List.flatMap_cons] using hs
  · simpa only [h, h', hb, List.tail_cons, List.flatMap_cons] using hs

/-! ### A small program for the examples

Values, types and classes are numbers; type 0 is `Any`, and the only value of type `t` is `t`; the class of
the value `v` is `v`.  Every method is `def f(self, x: t)`. -/

def demoIsof (t : Nat) (b : BVal Nat) : Res Bool := .ok (t == 0 || b == .val t)

def demoSig : Sig Nat := [⟨"self", .posOrKw, none⟩, ⟨"x", .posOrKw, none⟩]

theorem demoSig_wf : WF demoSig :=
  ⟨⟨[], demoSig, [], [], [], rfl, by simp [demoSig]⟩, by simp [demoSig], by simp [demoSig]⟩

def demoFn (t body : Nat) : Fn Nat Nat := ⟨"f", demoSig, [("x", t)], body⟩

/-- The entry that `demoFn t body` becomes. -/
def demoMM (t body : Nat) : MM Nat Nat := ⟨demoSig, [("self", 0), ("x", t)], body⟩

/-- A(object), B(A) without its own `f`, C(A), D(B, C); each `f` is a generic method. -/
def diamond : World Nat Nat where
  mro c := match c with
    | 4 => [4, 2, 3, 1, 0]
    | 3 => [3, 1, 0]
    | 2 => [2, 1, 0]
    | 1 => [1, 0]
    | c => [c]
  own c name := if name = "f" then
      match c with
      | 1 => some (.generic "A.f")
      | 3 => some (.generic "C.f")
      | 4 => some (.generic "D.f")
      | _ => none
    else none
  clsOf v := v
  asType _ := none
  truthy _ := true

def diamondOps : List (Op Nat Nat) :=
  [.generic "A.f" (demoFn 5 1), .generic "C.f" (demoFn 5 3), .generic "D.f" (demoFn 7 4)]

/-- With an object of class 3 (`C(A)`) the theorem applies: the method of `C` runs. -/
example : (diamond.mro 3).findSome? (fun c => diamond.own c "f") = some (.generic "C.f") ∧
    ∃ d, PyDict.get? (run 0 [] diamondOps) "C.f" = some d ∧ d.name = "f" ∧ IsMethod d ∧
      call demoIsof diamond (run 0 [] diamondOps) d [3, 5] [] = .ok (demoMM 5 3) :=
  ⟨by decide, _, rfl, rfl, ⟨"self", by decide, by decide⟩, by decide⟩

example : Consistent diamond 3 "f" := by
  intro b d a h
  have h' : [3, 1, 0] = b ++ d :: a := h
  match b, h' with
  | [], h' => simp at h'; obtain ⟨rfl, rfl⟩ := h'; rfl
  | [_], h' => simp at h'; obtain ⟨_, rfl, rfl⟩ := h'; rfl
  | [_, _], h' => simp at h'; obtain ⟨_, _, rfl, rfl⟩ := h'; rfl
  | _ :: _ :: _ :: b, h' => simp at h'

/-- In a diamond the documented order is violated: for `D(B, C)` with `B(A)` and `C(A)`, where `B` does not
define the method, the multimethod of `A` runs although one of `C`, which comes first in the MRO
`D, B, C, A`, accepts the arguments. -/
theorem C45_diamond_refuted : ∃ d, PyDict.get? (run 0 [] diamondOps) "D.f" = some d ∧
    First (Matches demoIsof [4, 5] []) (mroOrder diamond (run 0 [] diamondOps) 4 "f") (demoMM 5 3) ∧
    call demoIsof diamond (run 0 [] diamondOps) d [4, 5] [] = .ok (demoMM 5 1) := by
  refine ⟨_, rfl, ?_, by decide⟩
  refine ⟨[demoMM 7 4], [demoMM 5 1], by decide, (test_iff demoSig_wf).mp (by decide), ?_⟩
  intro x hx
  simp only [List.mem_singleton] at hx
  subst hx
  rw [← test_iff demoSig_wf]
  decide

/-- A(object), B(A), C(B), each with its own generic `f`; the object 9 of class C is false. -/
def chainWorld : World Nat Nat where
  mro c := match c with
    | 3 => [3, 2, 1, 0]
    | 2 => [2, 1, 0]
    | 1 => [1, 0]
    | c => [c]
  own c name := if name = "f" then
      match c with
      | 1 => some (.generic "A.f")
      | 2 => some (.generic "B.f")
      | 3 => some (.generic "C.f")
      | _ => none
    else none
  clsOf v := if v = 9 then 3 else v
  asType _ := none
  truthy v := v != 9

def chainOps : List (Op Nat Nat) :=
  [.generic "A.f" (demoFn 6 1), .generic "B.f" (demoFn 5 2), .generic "C.f" (demoFn 7 3)]

/-- The method of a base class is not found for an object whose truth value is False (an empty container,
say), although it is found for any other object of the same class. -/
theorem C45_falsy_refuted : ∃ d, PyDict.get? (run 0 [] chainOps) "C.f" = some d ∧
    chainWorld.clsOf 9 = chainWorld.clsOf 3 ∧
    First (Matches demoIsof [9, 5] []) (mroOrder chainWorld (run 0 [] chainOps) 3 "f") (demoMM 5 2) ∧
    call demoIsof chainWorld (run 0 [] chainOps) d [3, 5] [] = .ok (demoMM 5 2) ∧
    call demoIsof chainWorld (run 0 [] chainOps) d [9, 5] [] = .error .TypeError := by
  refine ⟨_, rfl, rfl, ?_, by decide, by decide⟩
  refine ⟨[demoMM 7 3], [demoMM 6 1], by decide, (test_iff demoSig_wf).mp (by decide), ?_⟩
  intro x hx
  simp only [List.mem_singleton] at hx
  subst hx
  rw [← test_iff demoSig_wf]
  decide

/-- `super(B, obj).f(5)` from within `B.f` calls the `f` of `A`.  It has no matching multimethod, and neither
has anything after it in the MRO; but instead of raising TypeError, it runs the multimethod of `B` again,
because the search starts over at the class of the object. -/
theorem C45_super_refuted : ∃ d, PyDict.get? (run 0 [] chainOps) "A.f" = some d ∧
    (∀ m ∈ mroOrder chainWorld (run 0 [] chainOps) 1 "f", ¬ Matches demoIsof [3, 5] [] m) ∧
    call demoIsof chainWorld (run 0 [] chainOps) d [3, 5] [] = .ok (demoMM 5 2) := by
  refine ⟨_, rfl, ?_, by decide⟩
  intro m hm
  have : mroOrder chainWorld (run 0 [] chainOps) 1 "f" = [demoMM 6 1] := by decide
  rw [this] at hm
  simp only [List.mem_singleton] at hm
  subst hm
  rw [← test_iff demoSig_wf]
  decide

/-- `C45_function` and `C45_runs_match` on a function with three multimethods, two of which accept 5. -/
example :
    let f (t body : Nat) : Fn Nat Nat := ⟨"g", [⟨"x", .posOrKw, none⟩], [("x", t)], body⟩
    let ops : List (Op Nat Nat) := [.generic "g" (f 5 1), .generic "g" (f 0 2), .generic "g" (f 7 3)]
    ∃ d, PyDict.get? (run 0 [] ops) "g" = some d ∧ NotMethod d ∧
      call demoIsof diamond (run 0 [] ops) d [5] [] = .ok ⟨[⟨"x", .posOrKw, none⟩], [("x", 0)], 2⟩ ∧
      call demoIsof diamond (run 0 [] ops) d [5, 6] [] = .error .TypeError := by
  refine ⟨_, rfl, ?_, by decide, by decide⟩
  intro k hk
  have hk : some "x" = some k := hk
  cases hk
  decide

/-! ### Together with the type checker -/

/-- The type checker of the small world of C46, on what a parameter can be bound to. -/
def demoCheck (t : Typecheck.Ty DemoClass) : BVal DemoVal → Res Bool
  | .val v => Typecheck.isoftype demoTypes t v
  | .tuple vs => Typecheck.isoftype demoTypes t (.tup vs)
  | .dict kws => Typecheck.isoftype demoTypes t (.dict (kws.map (fun kv => (.str, kv.2))))

def noClasses : World Nat DemoVal := ⟨fun c => [c], fun _ _ => none, fun _ => 0, fun _ => none, fun _ => true⟩

/-- `def f(*args: typing.Tuple[int, ...])` is documented to accept "any number of ints", but does not accept
none at all; and `def f(**kwargs: typing.Dict[str, int])` cannot be called without named arguments. -/
theorem C45_varargs_refuted :
    let f : Fn DemoVal (Typecheck.Ty DemoClass) :=
      ⟨"f", [⟨"args", .varPos, none⟩], [("args", .tupleAll (.cls (.std .int)))], 1⟩
    let g : Fn DemoVal (Typecheck.Ty DemoClass) :=
      ⟨"g", [⟨"kwargs", .varKw, none⟩], [("kwargs", .map .dict (.cls (.std .str)) (.cls (.std .int)))], 2⟩
    ∃ df dg, PyDict.get? (run .any [] [.generic "f" f, .generic "g" g]) "f" = some df ∧
      PyDict.get? (run .any [] [.generic "f" f, .generic "g" g]) "g" = some dg ∧
      ((call demoCheck noClasses [] df [.int] []).map (·.body) = .ok 1 ∧
       (call demoCheck noClasses [] df [.int, .int] []).map (·.body) = .ok 1 ∧
       (call demoCheck noClasses [] df [] []).map (·.body) = .error .TypeError) ∧
      ((call demoCheck noClasses [] dg [] [("x", .int)]).map (·.body) = .ok 2 ∧
       (call demoCheck noClasses [] dg [] []).map (·.body) = .error .TypeError) := by
  refine ⟨_, _, rfl, rfl, ⟨?_, ?_, ?_⟩, ?_, ?_⟩ <;> decide +kernel

/-- A default that is not of the annotated type, as in `def f(x: int = None)`, makes the multimethod refuse
every call that relies on the default. -/
theorem C45_default_refuted :
    let f : Fn DemoVal (Typecheck.Ty DemoClass) :=
      ⟨"f", [⟨"x", .posOrKw, some .fn⟩], [("x", .cls (.std .int))], 1⟩
    ∃ df, PyDict.get? (run .any [] [.generic "f" f]) "f" = some df ∧ Accepts f.sig [] [] ∧
      (call demoCheck noClasses [] df [.int] []).map (·.body) = .ok 1 ∧
      (call demoCheck noClasses [] df [] []).map (·.body) = .error .TypeError := by
  refine ⟨_, rfl, ?_, ?_, ?_⟩ <;> decide +kernel

end Unpy.Props
