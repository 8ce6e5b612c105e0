import Verif.Proof.CurryGeneric
import Verif.Props.Dispatch
/-! # C130: partial application and currying of generic functions -/
namespace Unpy.Props
open Unpy Unpy.Arity Unpy.Dispatch Unpy.CurryGeneric Unpy.Spec.Arity Unpy.Spec.Dispatch Unpy.Spec.CurryGeneric Unpy.Proof.Dispatch
open Unpy.Curry (Action partialOk)
variable {C V T : Type}

private theorem no_error {isof : T → BVal V → Res Bool} (hI : ∀ t b, ∃ r, isof t b = .ok r) : ∀ t b e, isof t b = .error e → e = .TypeError := by
  intro t b e h
  obtain ⟨r, hr⟩ := hI t b
  rw [hr] at h; cases h

private theorem no_self {d : Disp V T} (hm : NotMethod d) (args : List V) : extractSelf d args = .ok none := by
  unfold extractSelf
  cases hf : firstPositional d.sig with
  | none => rfl
  | some k => simp [hm k hf]

private theorem registered {st : Reg V T} {n : String} {d : Disp V T} (hd : PyDict.get? st n = some d) : methodsOf st n = d.registry := by simp [methodsOf, hd]

private theorem sig_wf (anyT : T) (ops : List (Op V T)) (hw : ∀ op ∈ ops, WF op.fn.sig) {n : String} {d : Disp V T} (hd : PyDict.get? (run anyT [] ops) n = some d) : WF d.sig := by
  have hreg : ∀ {d d' : Disp V T} {f : Fn V T}, registerTo anyT d f = .ok d' → d'.sig = d.sig := by
    intro d d' f h
    simp only [registerTo] at h
    split at h
    · cases h; rfl
    · cases h
  have hsetup : ∀ (st : Reg V T) (n : String) (f : Fn V T), WF f.sig → (∀ n d, PyDict.get? st n = some d → WF d.sig) → ∀ k d, PyDict.get? (setup anyT st n f).2 k = some d → WF d.sig := by
    intro st n f hf h
    have h1 : ∀ k d, PyDict.get? (if PyDict.has st n then st else PyDict.set st n ⟨f.name, f.sig, [], false⟩) k = some d → WF d.sig := by
      intro k d hk
      split at hk
      · exact h k d hk
      · rw [PyDict.get?_set] at hk
        split at hk
        · cases hk; exact hf
        · exact h k d hk
    intro k d hk
    simp only [setup] at hk
    split at hk
    · exact h1 k d hk
    · rename_i d0 hd0
      split at hk
      · exact h1 k d hk
      · split at hk
        · exact h1 k d hk
        · rename_i d' hr
          rw [PyDict.get?_set] at hk
          split at hk
          · cases hk; rw [hreg hr]; exact h1 _ _ hd0
          · exact h1 k d hk
  have : ∀ st : Reg V T, (∀ n d, PyDict.get? st n = some d → WF d.sig) → ∀ n d, PyDict.get? (run anyT st ops) n = some d → WF d.sig := by
    clear hd
    induction ops with
    | nil => intro st h; exact h
    | cons op ops ih =>
      intro st h
      refine ih (fun o ho => hw o (by simp [ho])) (step anyT st op).2 ?_
      · have hop : WF op.fn.sig := hw op (by simp)
        cases op with
        | generic k f => exact hsetup st k f hop h
        | augment k f =>
          simp only [step]
          split
          · exact hsetup st k f hop h
          · exact h
        | typed k f =>
          have hs := hsetup st k f hop h
          simp only [step]
          intro j d hj
          split at hj
          · rename_i e st' he; rw [he] at hs; exact hs j d hj
          · rename_i st' he
            rw [he] at hs
            split at hj
            · exact hs j d hj
            · rename_i d' hd'
              simp only at hj
              rw [PyDict.get?_set] at hj
              split at hj
              · have := hs k d' hd'; cases hj; exact this
              · exact hs j d hj
  exact this [] (by simp [PyDict.get?]) n d hd

/-- C130: `partial(f, *args, **kwargs)` of a generic function returns exactly if the arguments are all right for one of its multimethods: each has a parameter, and the types are right.
Otherwise there is a TypeError at once. -/
theorem C130_apply (anyT : T) (isof : T → BVal V → Res Bool) (hq : ∀ t b e, isof t b = .error e → e = .TypeError) (w : World C V) (ops : List (Op V T)) (hw : ∀ op ∈ ops, WF op.fn.sig)
    (n : String) (d : Disp V T) (hd : PyDict.get? (run anyT [] ops) n = some d) (hm : NotMethod d) (args : List V) (kwargs : PyDict String V) :
    (partialG isof w (run anyT [] ops) d args kwargs = .ok () ∧ ∃ m ∈ methodsOf (run anyT [] ops) n, SoFar isof args kwargs m) ∨
    (partialG isof w (run anyT [] ops) d args kwargs = .error .TypeError ∧ ∀ m ∈ methodsOf (run anyT [] ops) n, ¬ SoFar isof args kwargs m) := by
  have hg := dispatch_run_good anyT ops hw n
  rw [registered hd] at hg ⊢
  simp only [partialG, no_self hm, listMultimethods, List.append_nil]
  rcases scanPartial_spec hq (args := args) (kwargs := kwargs) (ms := d.registry.reverse) (by simpa using hg) with ⟨h1, h2⟩ | ⟨h1, h2⟩
  · simp only [h1]; exact .inl ⟨trivial, by simpa using h2⟩
  · simp only [h1]; exact .inr ⟨trivial, by simpa using h2⟩


private theorem call_raw (isof : T → BVal V → Res Bool) (w : World C V) (st : Reg V T) {n : String} {d : Disp V T} (hd : PyDict.get? st n = some d) (args : List V) (kwargs : PyDict String V) :
    callIt isof w st (.raw n) args kwargs = some (call isof w st d args kwargs) := by
  simp [callIt, Callable.fullname, hd]

private theorem matches_exact {isof : T → BVal V → Res Bool} {args : List V} {kwargs : PyDict String V} {m : MM V T} (h : Matches isof args kwargs m) : Exact isof args kwargs m :=
  ⟨h.1.1, soFar_typesFit (matches_soFar h)⟩

private theorem ran_matches {anyT : T} {isof : T → BVal V → Res Bool} (hI : ∀ t b, ∃ r, isof t b = .ok r) {w : World C V} {ops : List (Op V T)} (hw : ∀ op ∈ ops, WF op.fn.sig)
    {n : String} {d : Disp V T} (hd : PyDict.get? (run anyT [] ops) n = some d) (hm : NotMethod d) {args : List V} {kwargs : PyDict String V} {m : MM V T}
    (hr : callIt isof w (run anyT [] ops) (.raw n) args kwargs = some (.ok m)) : m ∈ methodsOf (run anyT [] ops) n ∧ Matches isof args kwargs m := by
  rw [call_raw isof w _ hd] at hr
  rcases C45_function anyT isof (no_error hI) w ops hw n d hd hm args kwargs with ⟨m', h1, b, a, h2, h3, _⟩ | ⟨h1, _⟩
  · rw [h1] at hr; cases hr; exact ⟨by rw [h2]; simp, h3⟩
  · rw [h1] at hr; cases hr

/-- C130: once the arguments so far are all that a multimethod needs, the curried function runs the multimethod that the generic function itself would run with all of them.
(Missing: calls in which a multimethod would get an argument twice, see `C130_conflict_refuted`; bound methods, see `C130_method_refuted`; superfluous positional arguments
and multimethods with keyword-only parameters, see `C34_overflow_refuted`.) -/
theorem C130_call_partial (anyT : T) (isof : T → BVal V → Res Bool) (hI : ∀ t b, ∃ r, isof t b = .ok r) (w : World C V) (ops : List (Op V T)) (hw : ∀ op ∈ ops, WF op.fn.sig)
    (n : String) (d : Disp V T) (hd : PyDict.get? (run anyT [] ops) n = some d) (hm : NotMethod d) (pargs args : List V) (pkwargs kwargs : PyDict String V) (all : List V) (named : PyDict String V)
    (hall : all = pargs ++ args) (hnamed : named = PyDict.update pkwargs kwargs) (hc : ∀ m ∈ methodsOf (run anyT [] ops) n, Clear all named m)
    (m : MM V T) (hr : callIt isof w (run anyT [] ops) (.raw n) all named = some (.ok m)) :
    callCurriedG isof w (run anyT [] ops) (.raw n) pargs pkwargs args kwargs = .ok (.ran m all named) := by
  subst hall hnamed
  obtain ⟨hmem, hmat⟩ := ran_matches hI hw hd hm hr
  have hg := dispatch_run_good anyT ops hw n
  rw [registered hd] at hg hc hmem
  have hdec : decideGeneric isof w (run anyT [] ops) d (pargs ++ args) (PyDict.update pkwargs kwargs) = .ok .call := by
    simp only [decideGeneric, no_self hm, listMultimethods, List.append_nil]
    rcases exact_spec hI (args := pargs ++ args) (kwargs := PyDict.update pkwargs kwargs) (ms := d.registry.reverse) (by simpa using hg) (by simpa using hc) with ⟨h1, _⟩ | ⟨_, h2⟩
    · simp only [h1]
    · exact absurd (matches_exact hmat) (h2 m (by simpa using hmem))
  simp only [callCurriedG, Callable.fullname, Option.bind_some, hd, hdec, runs, hr]

private theorem wait_core (anyT : T) (isof : T → BVal V → Res Bool) (hI : ∀ t b, ∃ r, isof t b = .ok r) (w : World C V) (ops : List (Op V T)) (hw : ∀ op ∈ ops, WF op.fn.sig)
    (n : String) (d : Disp V T) (hd : PyDict.get? (run anyT [] ops) n = some d) (hm : NotMethod d) (pargs args : List V) (pkwargs kwargs : PyDict String V) (all : List V) (named : PyDict String V)
    (hall : all = pargs ++ args) (hnamed : named = PyDict.update pkwargs kwargs) (hc : ∀ m ∈ methodsOf (run anyT [] ops) n, Clear all named m)
    (hno : ∀ m ∈ methodsOf (run anyT [] ops) n, ¬ Exact isof all named m ∧ ¬ TooMany isof all named m) (hsome : ∃ m ∈ methodsOf (run anyT [] ops) n, SoFar isof all named m) :
    callCurriedG isof w (run anyT [] ops) (.raw n) pargs pkwargs args kwargs = if partialOk d.sig all named then .ok (.waits all named) else .error .ValueError := by
  subst hall hnamed
  have hp := C130_apply anyT isof (no_error hI) w ops hw n d hd hm (pargs ++ args) (PyDict.update pkwargs kwargs)
  have hg := dispatch_run_good anyT ops hw n
  have hpart : partialG isof w (run anyT [] ops) d (pargs ++ args) (PyDict.update pkwargs kwargs) = .ok () := by
    rcases hp with ⟨h, _⟩ | ⟨_, h⟩
    · exact h
    · obtain ⟨m, h1, h2⟩ := hsome; exact absurd h2 (h m h1)
  rw [registered hd] at hg hc hno hsome
  have hdec : decideGeneric isof w (run anyT [] ops) d (pargs ++ args) (PyDict.update pkwargs kwargs) = .ok .keepCurrying := by
    simp only [decideGeneric, no_self hm, listMultimethods, List.append_nil]
    rcases exact_spec hI (args := pargs ++ args) (kwargs := PyDict.update pkwargs kwargs) (ms := d.registry.reverse) (by simpa using hg) (by simpa using hc) with ⟨_, m, h1, h2⟩ | ⟨h1, _⟩
    · exact absurd h2 (hno m (by simpa using h1)).1
    · simp only [h1]
      rcases complete_spec hI (args := pargs ++ args) (kwargs := PyDict.update pkwargs kwargs) (ms := d.registry.reverse) (by simpa using hg) (by simpa using hc) with ⟨_, m, _, _, _, b, a, h2, h3, _⟩ | ⟨h2, _⟩
      · exact absurd h3 (hno m (by rw [← List.mem_reverse, h2]; simp)).2
      · simp only [h2]
        rcases incomplete_spec hI (args := pargs ++ args) (kwargs := PyDict.update pkwargs kwargs) (ms := d.registry.reverse) (by simpa using hg) (by simpa using hc) with ⟨h3, _⟩ | ⟨_, h3⟩
        · simp only [h3]
        · obtain ⟨m, h4, h5⟩ := hsome
          refine absurd ⟨?_, soFar_typesFit h5⟩ (h3 m (by simpa using h4))
          intro hmiss
          exact (hno m h4).1 ⟨⟨h5.1.1, hmiss, h5.1.2.2.1, h5.1.2.2.2⟩, soFar_typesFit h5⟩
  simp only [callCurriedG, Callable.fullname, Option.bind_some, hd, hdec, hpart, curryPartial, signatureOf]

/-- C130: if the arguments so far complete no multimethod, but they are all right for one, then the curried function waits, and nothing runs.
(Missing: see `C130_call_partial`; and arguments for which the multimethod that was defined first has no parameter, see `C130_longer_refuted`.) -/
theorem C130_wait_partial (anyT : T) (isof : T → BVal V → Res Bool) (hI : ∀ t b, ∃ r, isof t b = .ok r) (w : World C V) (ops : List (Op V T)) (hw : ∀ op ∈ ops, WF op.fn.sig)
    (n : String) (d : Disp V T) (hd : PyDict.get? (run anyT [] ops) n = some d) (hm : NotMethod d) (pargs args : List V) (pkwargs kwargs : PyDict String V) (all : List V) (named : PyDict String V)
    (hall : all = pargs ++ args) (hnamed : named = PyDict.update pkwargs kwargs) (hc : ∀ m ∈ methodsOf (run anyT [] ops) n, Clear all named m)
    (hno : ∀ m ∈ methodsOf (run anyT [] ops) n, ¬ Exact isof all named m ∧ ¬ TooMany isof all named m) (hsome : ∃ m ∈ methodsOf (run anyT [] ops) n, SoFar isof all named m)
    (hfirst : Takes d.sig all named) :
    callCurriedG isof w (run anyT [] ops) (.raw n) pargs pkwargs args kwargs = .ok (.waits all named) := by
  rw [wait_core anyT isof hI w ops hw n d hd hm pargs args pkwargs kwargs all named hall hnamed hc hno hsome, Curry.partialOk_of (sig_wf anyT ops hw hd) hfirst.2.2.1 hfirst.2.2.2 hfirst.1 hfirst.2.1, if_pos rfl]

/-- C130 refuted, in general: if the arguments so far complete no multimethod, but they are all right for one, then the curried function should wait; but if the multimethod that was defined first
has no parameter for one of the arguments, there is a ValueError. -/
theorem C130_first_refuted (anyT : T) (isof : T → BVal V → Res Bool) (hI : ∀ t b, ∃ r, isof t b = .ok r) (w : World C V) (ops : List (Op V T)) (hw : ∀ op ∈ ops, WF op.fn.sig)
    (n : String) (d : Disp V T) (hd : PyDict.get? (run anyT [] ops) n = some d) (hm : NotMethod d) (pargs args : List V) (pkwargs kwargs : PyDict String V) (all : List V) (named : PyDict String V)
    (hall : all = pargs ++ args) (hnamed : named = PyDict.update pkwargs kwargs) (hc : ∀ m ∈ methodsOf (run anyT [] ops) n, Clear all named m)
    (hno : ∀ m ∈ methodsOf (run anyT [] ops) n, ¬ Exact isof all named m ∧ ¬ TooMany isof all named m) (hsome : ∃ m ∈ methodsOf (run anyT [] ops) n, SoFar isof all named m)
    (hfirst : ¬ Takes d.sig all named) :
    callCurriedG isof w (run anyT [] ops) (.raw n) pargs pkwargs args kwargs = .error .ValueError := by
  rw [wait_core anyT isof hI w ops hw n d hd hm pargs args pkwargs kwargs all named hall hnamed hc hno hsome]
  have hno : partialOk d.sig all named = false := by
    rcases keyPartial_spec (sig_wf anyT ops hw hd) all named with ⟨h, _⟩ | ⟨_, h⟩
    · exact absurd h hfirst
    · unfold keyPartial at h
      unfold Unpy.Curry.partialOk
      cases hb : Arity.bind true d.sig all named with
      | error e => rfl
      | ok r =>
        rw [hb] at h
        cases hx : r.extraArgs.isEmpty && r.extraKwargs.isEmpty with
        | false => exact hx
        | true => simp [hx] at h
  rw [hno]; rfl

/-- C130: if the arguments so far are not all right for any multimethod, there is a TypeError at once, and nothing runs.
(Missing: as in `C130_call_partial`.) -/
theorem C130_refuse_partial (anyT : T) (isof : T → BVal V → Res Bool) (hI : ∀ t b, ∃ r, isof t b = .ok r) (w : World C V) (ops : List (Op V T)) (hw : ∀ op ∈ ops, WF op.fn.sig)
    (n : String) (d : Disp V T) (hd : PyDict.get? (run anyT [] ops) n = some d) (hm : NotMethod d) (pargs args : List V) (pkwargs kwargs : PyDict String V) (all : List V) (named : PyDict String V)
    (hall : all = pargs ++ args) (hnamed : named = PyDict.update pkwargs kwargs) (hc : ∀ m ∈ methodsOf (run anyT [] ops) n, Clear all named m)
    (hno : ∀ m ∈ methodsOf (run anyT [] ops) n, ¬ TypesFit isof all named m) :
    callCurriedG isof w (run anyT [] ops) (.raw n) pargs pkwargs args kwargs = .error .TypeError := by
  subst hall hnamed
  have hg := dispatch_run_good anyT ops hw n
  rw [registered hd] at hg hc hno
  have hdec : decideGeneric isof w (run anyT [] ops) d (pargs ++ args) (PyDict.update pkwargs kwargs) = .error .TypeError := by
    simp only [decideGeneric, no_self hm, listMultimethods, List.append_nil]
    rcases exact_spec hI (args := pargs ++ args) (kwargs := PyDict.update pkwargs kwargs) (ms := d.registry.reverse) (by simpa using hg) (by simpa using hc) with ⟨_, m, h1, h2⟩ | ⟨h1, _⟩
    · exact absurd h2.2 (hno m (by simpa using h1))
    · simp only [h1]
      rcases complete_spec hI (args := pargs ++ args) (kwargs := PyDict.update pkwargs kwargs) (ms := d.registry.reverse) (by simpa using hg) (by simpa using hc) with ⟨_, m, _, _, _, b, a, h2, h3, _⟩ | ⟨h2, _⟩
      · exact absurd h3.2.2 (hno m (by rw [← List.mem_reverse, h2]; simp))
      · simp only [h2]
        rcases incomplete_spec hI (args := pargs ++ args) (kwargs := PyDict.update pkwargs kwargs) (ms := d.registry.reverse) (by simpa using hg) (by simpa using hc) with ⟨_, m, h3, h4⟩ | ⟨h3, _⟩
        · exact absurd h4.2 (hno m (by simpa using h3))
        · simp only [h3]
  simp only [callCurriedG, Callable.fullname, Option.bind_some, hd, hdec]

/-- C130: if no multimethod takes all the arguments, but one is complete with some of them, the generic function is called without those that are left over for the
most recent such multimethod, and these are passed on.  (Missing: as in `C130_call_partial`; and arguments left over of which some came with an earlier call.) -/
theorem C130_pass_partial (anyT : T) (isof : T → BVal V → Res Bool) (hI : ∀ t b, ∃ r, isof t b = .ok r) (w : World C V) (ops : List (Op V T)) (hw : ∀ op ∈ ops, WF op.fn.sig)
    (n : String) (d : Disp V T) (hd : PyDict.get? (run anyT [] ops) n = some d) (hm : NotMethod d) (pargs args : List V) (pkwargs kwargs : PyDict String V) (all : List V) (named : PyDict String V)
    (hall : all = pargs ++ args) (hnamed : named = PyDict.update pkwargs kwargs) (hc : ∀ m ∈ methodsOf (run anyT [] ops) n, Clear all named m)
    (hno : ∀ m ∈ methodsOf (run anyT [] ops) n, ¬ Exact isof all named m) (m : MM V T) (hlast : Last (TooMany isof all named) (methodsOf (run anyT [] ops) n) m)
    (hl : (extraArgs m.sig all).length ≤ args.length) (hk : ∀ k, PyDict.has (extraKwargs m.sig named) k = true → PyDict.has pkwargs k = false)
    (m' : MM V T) (hr : callIt isof w (run anyT [] ops) (.raw n) (all.take (all.length - (extraArgs m.sig all).length)) (named.filter (fun kv => !PyDict.has (extraKwargs m.sig named) kv.1)) = some (.ok m')) :
    callCurriedG isof w (run anyT [] ops) (.raw n) pargs pkwargs args kwargs =
      .ok (.ranPassing m' (all.take (all.length - (extraArgs m.sig all).length)) (named.filter (fun kv => !PyDict.has (extraKwargs m.sig named) kv.1)) (extraArgs m.sig all) (extraKwargs m.sig named)) := by
  have hg := dispatch_run_good anyT ops hw n
  rw [registered hd] at hg hc hno hlast
  have hdec : decideGeneric isof w (run anyT [] ops) d all named = .ok (.callWithPassthrough (extraArgs m.sig all) (extraKwargs m.sig named)) := by
    simp only [decideGeneric, no_self hm, listMultimethods, List.append_nil]
    rcases exact_spec hI (args := all) (kwargs := named) (ms := d.registry.reverse) (by simpa using hg) (by simpa using hc) with ⟨_, x, h1, h2⟩ | ⟨h1, _⟩
    · exact absurd h2 (hno x (by simpa using h1))
    · simp only [h1]
      rcases complete_spec hI (args := all) (kwargs := named) (ms := d.registry.reverse) (by simpa using hg) (by simpa using hc) with ⟨r, x, h2, h3, h4, h5⟩ | ⟨_, h2⟩
      · have hx : x = m := by
          obtain ⟨b, a, e1, e2, e3⟩ := First.reverse h5
          obtain ⟨b', a', e1', e2', e3'⟩ := hlast
          rw [e1] at e1'
          rcases List.append_eq_append_iff.mp e1' with ⟨l, h6, h7⟩ | ⟨l, h6, h7⟩
          · match l, h7 with
            | [], h7 => simp at h7; exact h7.1
            | y :: l, h7 =>
              simp only [List.cons_append, List.cons.injEq] at h7
              exact absurd e2' (e3 m (by rw [h7.2]; simp))
          · match l, h7 with
            | [], h7 => simp at h7; exact h7.1.symm
            | y :: l, h7 =>
              simp only [List.cons_append, List.cons.injEq] at h7
              exact absurd e2 (e3' x (by rw [h7.2]; simp))
        subst hx
        simp only [h2, h3, h4]
      · obtain ⟨b, a, e1, e2, e3⟩ := hlast
        exact absurd e2 (h2 m (by rw [e1]; simp))
  have ea : pargs ++ (if (extraArgs m.sig all).isEmpty then args else args.take (args.length - (extraArgs m.sig all).length)) = all.take (all.length - (extraArgs m.sig all).length) := by
    have : all.take (all.length - (extraArgs m.sig all).length) = pargs ++ args.take (args.length - (extraArgs m.sig all).length) := by
      rw [hall, List.take_append, List.length_append, ← hall, List.take_of_length_le (by omega)]
      congr 2
      omega
    rw [this]
    split
    · next h => rw [List.isEmpty_iff] at h; simp [h]
    · rfl
  have ek : PyDict.update pkwargs (kwargs.filter (fun kv => !PyDict.has (extraKwargs m.sig named) kv.1)) = named.filter (fun kv => !PyDict.has (extraKwargs m.sig named) kv.1) := by
    rw [hnamed, Curry.filter_update (fun k => !PyDict.has (extraKwargs m.sig (PyDict.update pkwargs kwargs)) k)]
    rw [← hnamed]
    congr 1
    symm
    rw [List.filter_eq_self]
    intro kv hkv
    cases hh : PyDict.has (extraKwargs m.sig named) kv.1 with
    | false => rfl
    | true =>
      have h1 := hk _ hh
      have : PyDict.has pkwargs kv.1 = true := by
        rw [← PyDict.mem_keys]; exact List.mem_map.mpr ⟨kv, hkv, rfl⟩
      rw [this] at h1; cases h1
  simp only [callCurriedG, Callable.fullname, Option.bind_some, hd, ← hall, ← hnamed, hdec, ea, ek, runs, hr]

private theorem allArgs_snoc (done : List (List V × PyDict String V)) (c : List V × PyDict String V) : allArgs (done ++ [c]) = allArgs done ++ c.1 := by simp [allArgs]

private theorem allKwargs_snoc (done : List (List V × PyDict String V)) (c : List V × PyDict String V) : allKwargs (done ++ [c]) = PyDict.update (allKwargs done) c.2 := by
  simp [allKwargs, Curry.update_append]

private theorem chain_waits (isof : T → BVal V → Res Bool) (w : World C V) (st : Reg V T) (f : Callable V) (init done : List (List V × PyDict String V)) (last : List V × PyDict String V)
    (hwait : ∀ pre c post, init = pre ++ c :: post →
      callCurriedG isof w st f (allArgs (done ++ pre)) (allKwargs (done ++ pre)) c.1 c.2 = .ok (.waits (allArgs (done ++ pre ++ [c])) (allKwargs (done ++ pre ++ [c])))) (m : MM V T)
    (hlast : callCurriedG isof w st f (allArgs (done ++ init)) (allKwargs (done ++ init)) last.1 last.2 = .ok (.ran m (allArgs (done ++ init ++ [last])) (allKwargs (done ++ init ++ [last])))) :
    chainG isof w st f (allArgs done) (allKwargs done) (init ++ [last]) = .ok (.ran m (allArgs (done ++ init ++ [last])) (allKwargs (done ++ init ++ [last])), []) := by
  induction init generalizing done with
  | nil =>
    simp only [List.append_nil] at hlast
    simp only [List.nil_append, chainG, hlast, List.append_nil]
  | cons c init ih =>
    have h := hwait [] c init rfl
    simp only [List.append_nil] at h
    simp only [List.cons_append, chainG, h]
    have e : done ++ c :: init = done ++ [c] ++ init := by simp
    rw [e] at hlast ⊢
    refine ih (done ++ [c]) ?_ hlast
    intro pre c' post he
    have := hwait (c :: pre) c' post (by rw [he]; rfl)
    simpa using this

/-- C130: however the arguments are split over calls, if the parts before the last one are all right for some multimethod but do not complete any, the curried function
runs, when the last part arrives, the multimethod that the generic function itself would run with all the arguments.  (Missing: as in the theorems before.) -/
theorem C130_split_partial (anyT : T) (isof : T → BVal V → Res Bool) (hI : ∀ t b, ∃ r, isof t b = .ok r) (w : World C V) (ops : List (Op V T)) (hw : ∀ op ∈ ops, WF op.fn.sig)
    (n : String) (d : Disp V T) (hd : PyDict.get? (run anyT [] ops) n = some d) (hm : NotMethod d) (init : List (List V × PyDict String V)) (last : List V × PyDict String V)
    (hc : ∀ pre, pre <+: init ++ [last] → ∀ m ∈ methodsOf (run anyT [] ops) n, Clear (allArgs pre) (allKwargs pre) m)
    (hwait : ∀ pre, pre ≠ [] → pre <+: init → (∀ m ∈ methodsOf (run anyT [] ops) n, ¬ Exact isof (allArgs pre) (allKwargs pre) m ∧ ¬ TooMany isof (allArgs pre) (allKwargs pre) m) ∧
      (∃ m ∈ methodsOf (run anyT [] ops) n, SoFar isof (allArgs pre) (allKwargs pre) m) ∧ Takes d.sig (allArgs pre) (allKwargs pre))
    (m : MM V T) (hr : callIt isof w (run anyT [] ops) (.raw n) (allArgs (init ++ [last])) (allKwargs (init ++ [last])) = some (.ok m)) :
    chainG isof w (run anyT [] ops) (.raw n) [] [] (init ++ [last]) = .ok (.ran m (allArgs (init ++ [last])) (allKwargs (init ++ [last])), []) := by
  have h := chain_waits isof w (run anyT [] ops) (.raw n) init [] last ?_ m ?_
  · simpa [allArgs, allKwargs, PyDict.update] using h
  · intro pre c post he
    simp only [List.nil_append]
    have hpre : pre ++ [c] <+: init := ⟨post, by rw [he]; simp⟩
    obtain ⟨h1, h2, h3⟩ := hwait (pre ++ [c]) (by simp) hpre
    refine C130_wait_partial anyT isof hI w ops hw n d hd hm _ _ _ _ _ _ (allArgs_snoc _ _) (allKwargs_snoc _ _) (hc _ ?_) h1 h2 h3
    exact List.IsPrefix.trans hpre (List.prefix_append _ _)
  · simp only [List.nil_append]
    exact C130_call_partial anyT isof hI w ops hw n d hd hm _ _ _ _ _ _ (allArgs_snoc _ _) (allKwargs_snoc _ _) (hc _ (List.prefix_refl _)) m hr


private theorem plain_clear {k : Nat} {m : MM V T} (h : Plain k m.sig) (args : List V) : Clear args [] m :=
  ⟨no_conflict _ _, no_clash _ _, .inr ⟨plain_nokind h (by simp), plain_nokind h (by simp)⟩⟩

private theorem lookup_append_some {l l' : List (String × V)} {k : String} {v : V} (h : l.lookup k = some v) : (l ++ l').lookup k = some v := by
  rw [List.lookup_append, h]; rfl

private theorem zip_append_prefix (l : List String) (a b : List V) : ∃ t, l.zip (a ++ b) = l.zip a ++ t := by
  induction l generalizing a with
  | nil => exact ⟨[], by simp⟩
  | cons x l ih =>
    cases a with
    | nil => exact ⟨(x :: l).zip b, by simp⟩
    | cons y a => obtain ⟨t, ht⟩ := ih a; exact ⟨t, by simp [ht]⟩

private theorem plain_soFar {k : Nat} {m : MM V T} (h : Plain k m.sig) {isof : T → BVal V → Res Bool} {a b : List V} (hl : a.length ≤ k) (hm : Matches isof (a ++ b) [] m) : SoFar isof a [] m := by
  refine ⟨plain_takes h hl, ?_⟩
  intro p hp bv hs
  refine hm.2 p hp bv ?_
  have h1 := h.2 p hp
  have hv : p.kind ≠ .varPos ∧ p.kind ≠ .varKw := by rcases h1.1 with e | e <;> simp [e]
  simp only [seen, hv.1, hv.2, h1.2, if_false] at hs ⊢
  rw [← hs]
  cases hg : posArg m.sig a p.name with
  | none => simp [given, hg, PyDict.get?] at hs
  | some v =>
    have : posArg m.sig (a ++ b) p.name = some v := by
      unfold posArg at hg ⊢
      obtain ⟨t, ht⟩ := zip_append_prefix ((positional m.sig).map (·.name)) a b
      rw [ht]; exact lookup_append_some hg
    simp [given, hg, this]

private theorem split_args (parts : List (List V)) : allArgs (parts.map (fun a => (a, ([] : PyDict String V)))) = parts.flatten ∧ allKwargs (parts.map (fun a => (a, ([] : PyDict String V)))) = [] := by
  constructor
  · simp [allArgs, Function.comp_def]
  · have : (List.map (fun x : List V × PyDict String V => x.2) (parts.map (fun a => (a, ([] : PyDict String V))))).flatten = [] := by
      induction parts with
      | nil => rfl
      | cons p ps ih => simpa using ih
    rw [allKwargs, this]; rfl

/-- C130: for a generic function whose multimethods all have the same number of ordinary parameters, and positional arguments, there are no further conditions: however the arguments
are split over calls, the multimethod that runs is that of the direct call.  (Missing: other signatures and named arguments, see `C130_split_partial`.) -/
theorem C130_positional_partial (anyT : T) (isof : T → BVal V → Res Bool) (hI : ∀ t b, ∃ r, isof t b = .ok r) (w : World C V) (ops : List (Op V T)) (hw : ∀ op ∈ ops, WF op.fn.sig)
    (n : String) (d : Disp V T) (hd : PyDict.get? (run anyT [] ops) n = some d) (hm : NotMethod d) (k : Nat) (hpd : Plain k d.sig) (hp : ∀ m ∈ methodsOf (run anyT [] ops) n, Plain k m.sig)
    (init : List (List V)) (last : List V) (hlast : last ≠ []) (m : MM V T) (hr : callIt isof w (run anyT [] ops) (.raw n) (init ++ [last]).flatten [] = some (.ok m)) :
    chainG isof w (run anyT [] ops) (.raw n) [] [] ((init ++ [last]).map (fun a => (a, []))) = .ok (.ran m (init ++ [last]).flatten [], []) := by
  obtain ⟨hmem, hmat⟩ := ran_matches hI hw hd hm hr
  have hg := dispatch_run_good anyT ops hw n
  have e := split_args (init ++ [last])
  -- all the arguments fit
  have hlen : (init ++ [last]).flatten.length ≤ k := by
    have h := hmat.1.1.2.2.1
    rw [extraArgs, if_neg (plain_nokind (hp m hmem) (by simp)), overflow, plain_positional (hp m hmem), List.drop_eq_nil_iff, (hp m hmem).1] at h
    exact h
  have hpos : 0 < last.length := List.length_pos_iff.mpr hlast
  have hpre : ∀ pre, pre <+: init.map (fun a => (a, ([] : PyDict String V))) → ∃ ps rest, init = ps ++ rest ∧ pre = ps.map (fun a => (a, [])) := by
    rintro pre ⟨t, ht⟩
    obtain ⟨l1, l2, h1, h2, h3⟩ := List.map_eq_append_iff.mp ht.symm
    exact ⟨l1, l2, h1, h2.symm⟩
  have h := C130_split_partial anyT isof hI w ops hw n d hd hm (init.map (fun a => (a, []))) (last, []) ?_ ?_ m ?_
  · rw [List.map_append, List.map_cons, List.map_nil, h]
    rw [List.map_append, List.map_cons, List.map_nil] at e
    rw [e.1, e.2]
  · rintro pre ⟨t, ht⟩ x hx
    rw [show init.map (fun a => (a, ([] : PyDict String V))) ++ [(last, [])] = (init ++ [last]).map (fun a => (a, [])) by simp] at ht
    obtain ⟨l1, l2, h1, h2, h3⟩ := List.map_eq_append_iff.mp ht.symm
    rw [← h2, (split_args l1).2]
    exact plain_clear (hp x hx) _
  · intro pre _ hpr
    obtain ⟨ps, rest, h1, rfl⟩ := hpre pre hpr
    rw [(split_args ps).1, (split_args ps).2]
    have hall : (init ++ [last]).flatten = ps.flatten ++ (rest.flatten ++ last) := by rw [h1]; simp
    have hlt : ps.flatten.length < k := by
      rw [hall] at hlen
      simp only [List.length_append] at hlen
      omega
    refine ⟨?_, ⟨m, hmem, plain_soFar (hp m hmem) (by omega) (hall ▸ hmat)⟩, plain_takes hpd (by omega)⟩
    intro x hx
    have hmiss := plain_missing (hp x hx) (hg x hx).1 hlt
    exact ⟨fun h => hmiss h.1.2.1, fun h => hmiss h.1⟩
  · rw [List.map_append, List.map_cons, List.map_nil] at e
    rw [e.1, e.2]
    exact hr

/-! ## Refutations and examples

Values are numbers; the type `t` is that of the numbers `10 * t` to `10 * t + 9`, and type 0 is `typing.Any`. -/

private def tens : Nat → BVal Nat → Res Bool
  | 0, _ => .ok true
  | t, .val v => .ok (v / 10 == t)
  | _, _ => .ok true

private def oneClass : World Nat Nat := ⟨fun c => [c], fun _ _ => none, fun _ => 0, fun _ => none, fun _ => true⟩

private def prm (name : String) : Param Nat := ⟨name, .posOrKw, none⟩

/-- `def f(a: A, x: B)`, then `def f(x: A, y: A)` -/
private def clashOps : List (Op Nat Nat) :=
  [.generic "f" ⟨"f", [prm "a", prm "x"], [("a", 1), ("x", 2)], 1⟩, .generic "f" ⟨"f", [prm "x", prm "y"], [("x", 1), ("y", 1)], 2⟩]

/-- C130 refuted for a call in which a multimethod that does not match would get an argument twice: with `def f(a: A, x: B)` and later `def f(x: A, y: A)`, `f(a, x=b)` runs the first one,
but `curry(f)(a, x=b)` is a TypeError (multiple values for argument `x`), because the analysis does not skip the second one. -/
theorem C130_conflict_refuted :
    (callIt tens oneClass (run 0 [] clashOps) (.raw "f") [10] [("x", 20)]).map (fun r => r.map (·.body)) = some (.ok 1) ∧
    (callCurriedG tens oneClass (run 0 [] clashOps) (.raw "f") [] [] [10] [("x", 20)]).map (fun _ => ()) = .error .TypeError := by
  decide

/-- `def f(x: A)`, then `def f(x: B, y: B, z: B)` -/
private def longerOps : List (Op Nat Nat) :=
  [.generic "f" ⟨"f", [prm "x"], [("x", 1)], 1⟩, .generic "f" ⟨"f", [prm "x", prm "y", prm "z"], [("x", 2), ("y", 2), ("z", 2)], 2⟩]

/-- C130 refuted for multimethods with more parameters than the one that was defined first: with `def f(x: A)` and later `def f(x: B, y: B, z: B)`, `f(b, b, b)` runs the second one, and
`curry(f)(b)` waits, but `curry(f)(b)(b)` is a ValueError (`partial object ... has incorrect arguments`), because the signature of the partially applied function is taken to be that of the
multimethod that was defined first. -/
theorem C130_longer_refuted :
    (callIt tens oneClass (run 0 [] longerOps) (.raw "f") [20, 21, 22] []).map (fun r => r.map (·.body)) = some (.ok 2) ∧
    callCurriedG tens oneClass (run 0 [] longerOps) (.raw "f") [] [] [20] [] = .ok (.waits [20] []) ∧
    partialG tens oneClass (run 0 [] longerOps) ⟨"f", [prm "x"], methodsOf (run 0 [] longerOps) "f", false⟩ [20, 21] [] = .ok () ∧
    callCurriedG tens oneClass (run 0 [] longerOps) (.raw "f") [20] [] [21] [] = .error .ValueError := by
  refine ⟨by decide, rfl, rfl, rfl⟩

/-- C130 refuted for arguments left over while others are missing: the comment in the code says that they do not matter, but with `def f(x: A, y: A)`, `curry(f)(a, z=...)` is a TypeError. -/
theorem C130_extra_refuted :
    let ops : List (Op Nat Nat) := [.generic "f" ⟨"f", [prm "x", prm "y"], [("x", 1), ("y", 1)], 1⟩]
    callCurriedG tens oneClass (run 0 [] ops) (.raw "f") [] [] [10, 11] [("z", 20)] = .ok (.ranPassing ⟨[prm "x", prm "y"], [("x", 1), ("y", 1)], 1⟩ [10, 11] [] [] [("z", 20)]) ∧
    callCurriedG tens oneClass (run 0 [] ops) (.raw "f") [] [] [10] [("z", 20)] = .error .TypeError := by
  exact ⟨rfl, rfl⟩

/-- C130 refuted for bound methods: with `def meth(self, x: A)`, `obj.meth(a)` runs it, but `curry(obj.meth)(v)` waits for another argument, whatever `v` is, and then there is a TypeError:
the first argument is taken to be `self`, although the method has one already. -/
theorem C130_method_refuted (obj v u : Nat) :
    let ops : List (Op Nat Nat) := [.generic "K.meth" ⟨"meth", [prm "self", prm "x"], [("x", 1)], 1⟩]
    let meth : MM Nat Nat := ⟨[prm "self", prm "x"], [("self", 0), ("x", 1)], 1⟩
    callIt tens oneClass (run 0 [] ops) (.bound "K.meth" obj) [10] [] = some (.ok meth) ∧
    callCurriedG tens oneClass (run 0 [] ops) (.bound "K.meth" obj) [] [] [v] [] = .ok (.waits [v] []) ∧
    callCurriedG tens oneClass (run 0 [] ops) (.bound "K.meth" obj) [v] [] [u] [] = .error .TypeError ∧
    callCurriedG tens oneClass (run 0 [] ops) (.bound "K.meth" obj) [] [] [] [] = .error .TypeError := by
  refine ⟨rfl, rfl, ?_, rfl⟩
  let D : Disp Nat Nat := ⟨"meth", [prm "self", prm "x"], [⟨[prm "self", prm "x"], [("self", 0), ("x", 1)], 1⟩], false⟩
  have h : exact tens [v, u] [] D.registry = (match (Except.ok (!(!(u / 10 == 1) || false)) : Res Bool) with
    | .error e => .error e
    | .ok true => .ok true
    | .ok false => .ok false) := rfl
  have hdec : decideGeneric tens oneClass [("K.meth", D)] D [v, u] [] = (match exact tens [v, u] [] D.registry with
    | .error e => .error e
    | .ok true => .ok .call
    | .ok false => .error .TypeError) := rfl
  have hrun : runs tens oneClass [("K.meth", D)] (.bound "K.meth" obj) [v, u] [] (fun m => .ran m [v, u] []) = .error .TypeError := rfl
  show callCurriedG tens oneClass [("K.meth", D)] (.bound "K.meth" obj) [v] [] [u] [] = .error .TypeError
  have hget : (Callable.bound "K.meth" obj).fullname.bind (PyDict.get? [("K.meth", D)]) = some D := rfl
  simp only [callCurriedG, hget, PyDict.update, List.foldl_nil, List.cons_append, List.nil_append, hrun]
  rw [hdec, h]
  cases (u / 10 == 1) <;> rfl

/-- The hypotheses of the theorems are met: `def f(x: A, y: A)` and `def f(x: B, y: A)`; `curry(f)(b)(a)` runs the second one, `curry(f)(c)` is a TypeError. -/
private def pairOps : List (Op Nat Nat) :=
  [.generic "f" ⟨"f", [prm "x", prm "y"], [("x", 1), ("y", 1)], 1⟩, .generic "f" ⟨"f", [prm "x", prm "y"], [("x", 2), ("y", 1)], 2⟩]

example : chainG tens oneClass (run 0 [] pairOps) (.raw "f") [] [] ([[20], [], [10]].map (fun a => (a, []))) = .ok (.ran ⟨[prm "x", prm "y"], [("x", 2), ("y", 1)], 2⟩ [20, 10] [], []) := by
  have hwf : WF [prm "x", prm "y"] := ⟨⟨[], [prm "x", prm "y"], [], [], [], rfl, by simp, by simp [prm], by simp, by simp, by simp, by simp, by simp⟩, by decide, by simp [prm]⟩
  have hpl : Plain 2 [prm "x", prm "y"] := ⟨rfl, by simp [prm]⟩
  refine C130_positional_partial 0 tens ?_ oneClass pairOps (by simpa [pairOps, Op.fn] using hwf) "f" _ rfl ?_ 2 hpl (by intro m hm; change m ∈ [_, _] at hm; simp at hm; rcases hm with rfl | rfl <;> exact hpl)
    [[20], []] [10] (by simp) _ rfl
  · intro t b
    cases t <;> cases b <;> exact ⟨_, rfl⟩
  · intro k hk
    have hk : some "x" = some k := hk
    cases hk
    decide

example : callCurriedG tens oneClass (run 0 [] pairOps) (.raw "f") [] [] [30] [] = .error .TypeError := rfl
example : partialG tens oneClass (run 0 [] pairOps) ⟨"f", [prm "x", prm "y"], methodsOf (run 0 [] pairOps) "f", false⟩ [] [("y", 11)] = .ok () := rfl
example : callCurriedG tens oneClass (run 0 [] pairOps) (.raw "f") [] [("y", 11)] [] [("x", 20)] = .ok (.ran ⟨[prm "x", prm "y"], [("x", 2), ("y", 1)], 2⟩ [] [("y", 11), ("x", 20)]) := rfl
example : callCurriedG tens oneClass (run 0 [] pairOps) (.raw "f") [20] [] [10, 40] [] = .ok (.ranPassing ⟨[prm "x", prm "y"], [("x", 2), ("y", 1)], 2⟩ [20, 10] [] [40] []) := rfl

/-- `C130_first_refuted` applies to the function of `C130_longer_refuted`. -/
example : callCurriedG tens oneClass (run 0 [] longerOps) (.raw "f") [20] [] [21] [] = .error .ValueError := by
  have h1 : Plain 1 [prm "x"] := ⟨rfl, by simp [prm]⟩
  have h3 : Plain 3 [prm "x", prm "y", prm "z"] := ⟨rfl, by simp [prm]⟩
  have w1 : WF [prm "x"] := ⟨⟨[], [prm "x"], [], [], [], rfl, by simp, by simp [prm], by simp, by simp, by simp, by simp, by simp⟩, by decide, by simp [prm]⟩
  have w3 : WF [prm "x", prm "y", prm "z"] := ⟨⟨[], [prm "x", prm "y", prm "z"], [], [], [], rfl, by simp, by simp [prm], by simp, by simp, by simp, by simp, by simp⟩, by decide, by simp [prm]⟩
  refine C130_first_refuted 0 tens ?_ oneClass longerOps ?_ "f" _ rfl ?_ [20] [21] [] [] _ _ rfl rfl ?_ ?_ ?_ ?_
  · intro t b
    cases t <;> cases b <;> exact ⟨_, rfl⟩
  · simp only [longerOps, Op.fn, List.mem_cons, List.not_mem_nil, or_false, forall_eq_or_imp, forall_eq]
    exact ⟨w1, w3⟩
  · intro k hk
    have hk : some "x" = some k := hk
    cases hk
    decide
  · intro m hm
    change m ∈ [_, _] at hm
    simp at hm
    rcases hm with rfl | rfl
    · exact plain_clear h1 _
    · exact plain_clear h3 _
  · intro m hm
    change m ∈ [_, _] at hm
    simp at hm
    rcases hm with rfl | rfl
    · refine ⟨fun h => ?_, fun h => ?_⟩
      · obtain ⟨t, ht, hf⟩ := h.2 (prm "x") (by simp) (.val 20) rfl
        cases ht; cases hf
      · obtain ⟨t, ht, hf⟩ := h.2.2 (prm "x") (by simp) (.val 20) rfl
        cases ht; cases hf
    · exact ⟨fun h => plain_missing h3 w3 (by decide) h.1.2.1, fun h => plain_missing h3 w3 (by decide) h.1⟩
  · refine ⟨⟨[prm "x", prm "y", prm "z"], [("x", 2), ("y", 2), ("z", 2)], 2⟩, by show _ ∈ [_, _]; simp; rfl, plain_takes h3 (by decide), ?_⟩
    intro p hp b hb
    simp at hp
    rcases hp with rfl | rfl | rfl
    · cases hb; exact ⟨2, rfl, rfl⟩
    · cases hb; exact ⟨2, rfl, rfl⟩
    · cases hb
  · intro h
    have : [21] = ([] : List Nat) := h.2.2.1
    cases this

end Unpy.Props
