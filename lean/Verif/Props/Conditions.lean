import Verif.Proof.Conditions
/-!
# Conditions and restarts (C43, C44)
-/
namespace Unpy.Props
open Unpy Unpy.Cond Unpy.Spec.Cond
open Unpy.Fold (Err)
variable {σ ε Ty C V : Type} {E : Env σ ε Ty C V}

/-! ## examples: conditions are numbers, types are sets of numbers; the world is a log -/

private def E0 : Env (List Nat) Empty Nat Nat Nat where
  isa := fun c t => c == t || t == 0
  ctrl := fun _ => 99
  none := 0
  warn := fun c s => (.ok (), s ++ [c])

private abbrev P0 := Prog (List Nat) Empty Nat Nat Nat

private def st0 (hs : List (List (Nat × (Nat → P0)))) : St (List Nat) Empty Nat Nat Nat := ⟨[], hs, 0, [], 0⟩

/-- write a line and return -/
private def log (n : Nat) : P0 := .look fun s => .put (s ++ [n]) (.ret 0)

private def hs0 : List (List (Nat × (Nat → P0))) :=
  [[(1, fun _ => log 10), (2, fun _ => log 11), (0, fun _ => log 12)], [(1, fun _ => log 13)]]

private theorem runs_log {n : Nat} {hs : List P0} {st r st'}
    (h : RunsAll E0 hs { st with world := st.world ++ [n] } r st') : RunsAll E0 (log n :: hs) st r st' :=
  .next ⟨3, rfl⟩ h

/-! ## C43 -/

/-- C43: the outcomes of `signal(c)` (and what follows it): either the matching handlers, innermost block first and
in order within a block, all return, and what follows runs; or one of them, after those before it have returned,
transfers control or raises, and that is the outcome.  Partial: handlers that decline are supposed not to have
entered `with handlers` blocks (see `C43_nested_handlers_refuted`). -/
theorem C43_signal_partial {c : C} {k : Prog σ ε Ty C V} {st : St σ ε Ty C V} (hq : Quiet E c st) {r st'} :
    Ends E (.signal c k) st r st' ↔
      (∃ st1, RunsAll E (matching E c st.hstack) st (.ok ()) st1 ∧ Ends E k st1 r st') ∨
      (∃ e, r = .error e ∧ RunsAll E (matching E c st.hstack) st (.error e) st') := by
  constructor
  · intro h
    rcases ends_signal_inv h with ⟨s1, h1, _, h2⟩ | h1 | ⟨i, o, h1, h2, h3, _⟩
    · exact .inl ⟨s1, h1, h2⟩
    · exact .inr h1
    · exact absurd (hq i o _ h1 h2) h3
  · rintro (⟨s1, h1, h2⟩ | ⟨e, rfl, h1⟩)
    · exact ends_signal_ok h1 (hq st.hstack [] s1 (by simp) h1) h2
    · exact ends_signal_stop h1 hq

private theorem quiet_logs : Quiet E0 1 (st0 hs0) := by
  intro inner outer st1 h hr
  match inner, h with
  | [], _ => simp [matching] at hr; cases hr; rfl
  | [a], h =>
    simp [st0, hs0] at h
    obtain ⟨rfl, _⟩ := h
    have : RunsAll E0 (matching E0 1 [[(1, fun _ => log 10), (2, fun _ => log 11), (0, fun _ => log 12)]]) (st0 hs0)
        (.ok ()) { st0 hs0 with world := [10, 12] } := runs_log (runs_log .nil)
    exact (runsAll_unique hr this).2 ▸ rfl
  | [a, b], h =>
    simp [st0, hs0] at h
    obtain ⟨rfl, rfl, _⟩ := h
    have : RunsAll E0 (matching E0 1 [[(1, fun _ => log 10), (2, fun _ => log 11), (0, fun _ => log 12)],
        [(1, fun _ => log 13)]]) (st0 hs0) (.ok ()) { st0 hs0 with world := [10, 12, 13] } :=
      runs_log (runs_log (runs_log .nil))
    exact (runsAll_unique hr this).2 ▸ rfl
  | a :: b :: c :: i, h => simp [st0, hs0] at h

example : Ends E0 (.signal 1 (log 5)) (st0 hs0) (.ok 0) { st0 hs0 with world := [10, 12, 13, 5] } :=
  (C43_signal_partial quiet_logs).mpr (.inl ⟨{ st0 hs0 with world := [10, 12, 13] },
    runs_log (runs_log (runs_log .nil)), 3, rfl⟩)

/-- Without that assumption the claim is false: a handler that declines, but has used `with handlers` inside, makes
`signal` raise RuntimeError instead of going on to the outer handlers. -/
theorem C43_nested_handlers_refuted : ∃ (E : Env (List Nat) Empty Nat Nat Nat) (c : Nat)
    (st st1 st2 : St (List Nat) Empty Nat Nat Nat),
    RunsAll E (matching E c st.hstack) st (.ok ()) st1 ∧ st1.world = [10, 11] ∧
    Ends E (.signal c (.ret 0)) st (.error (.err (.py .RuntimeError))) st2 ∧ st2.world = [10] := by
  refine ⟨E0, 1, st0 [[(1, fun _ => .handlers [] (log 10))], [(1, fun _ => log 11)]], _, _,
    .next ⟨4, rfl⟩ (.next ⟨3, rfl⟩ .nil), rfl, ⟨9, rfl⟩, rfl⟩

/-- C43: in every case, `signal(c)` runs a sequence of matching handlers, in order, without skipping any. -/
theorem C43_signal_order {c : C} {k : Prog σ ε Ty C V} {st r st'} (h : Ends E (.signal c k) st r st') :
    ∃ done rest st1 r1, matching E c st.hstack = done ++ rest ∧ RunsAll E done st r1 st1 ∧
      ((r1 = .ok () ∧ rest = [] ∧ Ends E k st1 r st') ∨ (∃ e, r1 = .error e ∧ r = .error e ∧ st' = st1) ∨
        (r1 = .ok () ∧ r = .error (.err (.py .RuntimeError)) ∧ st' = st1)) := by
  rcases ends_signal_inv h with ⟨s1, h1, _, h2⟩ | ⟨e, rfl, h1⟩ | ⟨i, o, h1, h2, h3, h4⟩
  · exact ⟨_, [], s1, _, (List.append_nil _).symm, h1, .inl ⟨rfl, rfl, h2⟩⟩
  · exact ⟨_, [], st', _, (List.append_nil _).symm, h1, .inr (.inl ⟨e, rfl, rfl, rfl⟩)⟩
  · exact ⟨_, matching E c o, st', _, by rw [h1, matching_append], h2, .inr (.inr ⟨rfl, h4, rfl⟩)⟩

example : Ends E0 (.signal 1 (.ret 7)) (st0 hs0) (.ok 7) { st0 hs0 with world := [10, 12, 13] } := ⟨9, rfl⟩

/-- C43: `error(c)` does not return; if all handlers decline, it raises ControlError. -/
theorem C43_error {c : C} {st : St σ ε Ty C V} :
    (∀ v st', ¬ Ends E (error c) st (.ok v) st') ∧
    ∀ st1, Quiet E c st → RunsAll E (matching E c st.hstack) st (.ok ()) st1 →
      Ends E (error c) st (.error (.err (.py .ControlError))) st1 := by
  constructor
  · intro v st' h
    rcases ends_signal_inv h with ⟨s1, _, _, n, h2⟩ | ⟨e, he, _⟩ | ⟨_, _, _, _, _, he⟩
    · cases n <;> simp [eval] at h2
    · cases he
    · cases he
  · intro st1 hq h
    exact ends_signal_ok h (hq st.hstack [] st1 (by simp) h) ⟨1, rfl⟩

example : Ends E0 (error 1) (st0 hs0) (.error (.err (.py .ControlError))) { st0 hs0 with world := [10, 12, 13] } :=
  C43_error.2 _ quiet_logs (runs_log (runs_log (runs_log .nil)))

/-- C43: `cerror(c)` returns only if a handler invokes the `proceed` restart of this very `cerror`, without
arguments; and then it returns `None`, at that point of the handlers. -/
theorem C43_cerror {c : C} {st : St σ ε Ty C V} {v st'} (h : Ends E (cerror E c) st (.ok v) st') :
    v = E.none ∧ ∃ st1, RunsAll E (matching E c st.hstack) (pushR [("proceed", noneFn E)] st)
      (.error (.invoke ⟨"proceed", st.next⟩ ⟨[], []⟩)) st1 ∧ st' = popR st1 := by
  obtain ⟨n, h⟩ := ends_inv h
  rw [cerror, eval] at h
  cases he : eval E n (error c) (pushR [("proceed", noneFn E)] st) with
  | none => simp [he] at h
  | some o =>
    rcases o with ⟨(e | w), s1⟩
    · have hs : RunsAll E (matching E c st.hstack) (pushR [("proceed", noneFn E)] st) (.error e) s1 ∨
          ∃ e', e = .err e' := by
        rcases ends_signal_inv (show Ends E (.signal c _) _ _ _ from ⟨n, he⟩) with ⟨s2, _, _, m, h2⟩ | ⟨e', he', h2⟩ | ⟨_, _, _, _, _, he'⟩
        · cases m with
          | zero => simp [eval] at h2
          | succ m => simp [eval] at h2; exact .inr ⟨_, h2.1.symm⟩
        · cases he'; exact .inl h2
        · cases he'; exact .inr ⟨_, rfl⟩
      cases e with
      | err e => simp [he] at h
      | invoke b args =>
        simp only [he] at h
        split at h
        · rename_i hb
          cases hl : [("proceed", noneFn E)].lookup b.name with
          | none => simp [hl] at h
          | some f =>
            simp only [hl] at h
            have hn : b.name = "proceed" ∧ f = noneFn E := by
              simp only [List.lookup] at hl
              split at hl
              · rename_i h'; simp at h'; simp at hl; exact ⟨h', hl.symm⟩
              · simp at hl
            obtain ⟨hn, rfl⟩ := hn
            cases hf : eval E n (noneFn E args) s1 with
            | none => simp [hf] at h
            | some o =>
              obtain ⟨r, s2⟩ := o
              simp [hf] at h
              obtain ⟨rfl, rfl⟩ := h
              cases n with
              | zero => simp [eval] at hf
              | succ n =>
                unfold noneFn at hf
                split at hf
                · rename_i ha
                  simp [eval] at hf
                  obtain ⟨rfl, rfl⟩ := hf
                  refine ⟨rfl, s1, ?_, rfl⟩
                  rcases hs with hs | ⟨_, hs⟩
                  · obtain ⟨bn, bc⟩ := b
                    simp only at hb hn
                    subst hb hn
                    obtain ⟨ap, an⟩ := args
                    rw [Bool.and_eq_true] at ha
                    have e1 := List.isEmpty_iff.mp ha.1
                    have e2 := List.isEmpty_iff.mp ha.2
                    simp only at e1 e2
                    subst e1 e2
                    exact hs
                  · cases hs
                · simp [eval] at hf
        · simp at h
    · exact absurd ⟨n, he⟩ (C43_error.1 w s1)

example : Ends E0 (cerror E0 1) (st0 [[(1, fun _ => .invoke "proceed" ⟨[], []⟩)]]) (.ok 0)
    { st0 [[(1, fun _ => .invoke "proceed" ⟨[], []⟩)]] with next := 1 } := ⟨9, rfl⟩

/-- C43: and conversely. -/
theorem C43_cerror_proceed {c : C} {st : St σ ε Ty C V} {st1}
    (hq : Quiet E c (pushR [("proceed", noneFn E)] st))
    (h : RunsAll E (matching E c st.hstack) (pushR [("proceed", noneFn E)] st)
      (.error (.invoke ⟨"proceed", st.next⟩ ⟨[], []⟩)) st1) : Ends E (cerror E c) st (.ok E.none) (popR st1) :=
  ends_restarts_own (f := noneFn E) (st2 := st1) (ends_signal_stop h hq) rfl (by simp [List.lookup]) ⟨1, rfl⟩

example : Quiet E0 1 (pushR [("proceed", noneFn E0)] (st0 [[(1, fun _ => .invoke "proceed" ⟨[], []⟩)]])) ∧
    RunsAll E0 (matching E0 1 (st0 [[(1, fun _ => .invoke "proceed" ⟨[], []⟩)]]).hstack)
      (pushR [("proceed", noneFn E0)] (st0 [[(1, fun _ => .invoke "proceed" ⟨[], []⟩)]]))
      (.error (.invoke ⟨"proceed", 0⟩ ⟨[], []⟩)) (pushR [("proceed", noneFn E0)] (st0 [[(1, fun _ => .invoke "proceed" ⟨[], []⟩)]])) := by
  have h1 : RunsAll E0 (matching E0 1 (st0 [[(1, fun _ => .invoke "proceed" ⟨[], []⟩)]]).hstack)
      (pushR [("proceed", noneFn E0)] (st0 [[(1, fun _ => .invoke "proceed" ⟨[], []⟩)]]))
      (.error (.invoke ⟨"proceed", 0⟩ ⟨[], []⟩)) (pushR [("proceed", noneFn E0)] (st0 [[(1, fun _ => .invoke "proceed" ⟨[], []⟩)]])) :=
    .stop ⟨1, rfl⟩
  refine ⟨?_, h1⟩
  intro inner outer st1 h hr
  match inner, h with
  | [], _ => simp [matching] at hr; cases hr; rfl
  | [a], h =>
    simp [st0, pushR] at h
    obtain ⟨rfl, _⟩ := h
    have := (runsAll_unique hr h1).1
    cases this
  | a :: b :: i, h => simp [st0, pushR] at h

/-- C43: `warn(c)` when all handlers decline: the warning is emitted, once, and `warn` returns `None` (or raises
what the emission raised, which happens when warnings are turned into errors). -/
theorem C43_warn {c : C} {st : St σ ε Ty C V} {st1}
    (hq : Quiet E c (pushR [("_proceed", noneFn E)] (pushR [("muffle", noneFn E)] st)))
    (h : RunsAll E (matching E c st.hstack) (pushR [("_proceed", noneFn E)] (pushR [("muffle", noneFn E)] st))
      (.ok ()) st1) :
    Ends E (warn E c) st
      (match (E.warn c st1.world).1 with | .ok _ => .ok E.none | .error e => .error (.err e))
      (popR (popR { st1 with world := (E.warn c st1.world).2 })) := by
  have h1 : Ends E (.signal c (.ret E.none)) (pushR [("_proceed", noneFn E)] (pushR [("muffle", noneFn E)] st))
      (.ok E.none) st1 := ends_signal_ok h (hq _ [] _ (List.append_nil _).symm h) ⟨1, rfl⟩
  have h2 := ends_restarts_val h1
  cases hw : E.warn c st1.world with
  | mk r s' =>
    have hw' : E.warn c (popR st1).world = (r, s') := hw
    cases r with
    | ok u => exact ends_restarts_val (ends_seq_ok h2 ⟨3, by simp [eval, hw']; rfl⟩)
    | error e => exact ends_restarts_err (ends_seq_ok h2 ⟨3, by simp [eval, hw']; rfl⟩)

/-- C43: `warn(c)` when a handler invokes `muffle`: no warning is emitted, and `warn` returns `None`. -/
theorem C43_warn_muffle {c : C} {st : St σ ε Ty C V} {st1}
    (hq : Quiet E c (pushR [("_proceed", noneFn E)] (pushR [("muffle", noneFn E)] st)))
    (h : RunsAll E (matching E c st.hstack) (pushR [("_proceed", noneFn E)] (pushR [("muffle", noneFn E)] st))
      (.error (.invoke ⟨"muffle", st.next⟩ ⟨[], []⟩)) st1) :
    Ends E (warn E c) st (.ok E.none) (popR (popR st1)) := by
  have h1 : Ends E (.signal c (.ret E.none)) (pushR [("_proceed", noneFn E)] (pushR [("muffle", noneFn E)] st))
      (.error (.invoke ⟨"muffle", st.next⟩ ⟨[], []⟩)) st1 := ends_signal_stop h hq
  refine ends_restarts_own (f := noneFn E) (st2 := popR st1)
    (ends_seq_err (ends_restarts_other h1 (by simp [pushR]))) rfl (by simp [List.lookup]) ⟨1, rfl⟩

example : Ends E0 (warn E0 1) (st0 [[(1, fun _ => .invoke "muffle" ⟨[], []⟩)]]) (.ok 0)
    { st0 [[(1, fun _ => .invoke "muffle" ⟨[], []⟩)]] with next := 2 } := ⟨9, rfl⟩
example : Ends E0 (warn E0 1) (st0 hs0) (.ok 0) { st0 hs0 with next := 2, world := [10, 12, 13, 1] } := ⟨12, rfl⟩

/-! ## C44 -/

/-- C44: the blocks unwind.  The run of the body of a `with restarts` block has got to `invoke(name, *args, **named)`; the
block binds `name` to `f`, and no `with restarts` entered since does.  Then the block's outcome is that of
`f(*args, **named)`, called after the blocks in between have been left (their `finally` parts run, innermost first); at
that moment the stack of handlers is as it was when the block was entered, and so is that of restarts but for the
block itself.  (Missing: named arguments called `name_or_restart`, `restart` or `self`, see `C44_names_refuted`.) -/
theorem C44_invoke_partial {bs} {p : Prog σ ε Ty C V} {st st' st'' : St σ ε Ty C V} {name args f inner}
    (hact : Active E p (pushR bs st) (.invoke name args) st' inner) (hfree : Free args) (hf : bs.lookup name = some f)
    (hno : ∀ b ∈ rOf inner, b.2.lookup name = none) (hleave : LeaveAll E inner st' st'') {r s} :
    (Ends E (.restarts bs p) st r s ↔ ∃ s1, Ends E (f args) st'' r s1 ∧ s = popR s1) ∧
    st''.hstack = st.hstack ∧ st''.rstack = (st.next, bs) :: st.rstack := by
  obtain ⟨i1, i2, i3, i4⟩ := active_inv hact
  have hfind : findR name st'.rstack = some ⟨name, st.next⟩ := by
    rw [i2, findR_append hno]; simp [pushR, findR, hf]
  have hp : Ends E p (pushR bs st) (.error (.invoke ⟨name, st.next⟩ args)) st'' :=
    active_invoke hact ⟨1, by simp [eval, hfind, free_clash hfree, raiseInvoke]⟩
      (fun r hr => by have := i4 r hr; simp [pushR] at this ⊢; omega) hleave
  refine ⟨⟨fun h => ends_restarts_own_inv hp rfl hf h, ?_⟩, leaveAll_stacks hleave i1 i2⟩
  rintro ⟨s1, h1, rfl⟩
  exact ends_restarts_own hp rfl hf h1

/-- the body of the block signals; the handler, further in, invokes; in between another block with another name,
and a `finally` -/
private def body0 : P0 :=
  .tryFinally (.restarts [("b", fun _ => .ret 8)] (.handlers [(1, fun _ => .invoke "a" ⟨[5], []⟩)] (.signal 1 (.ret 2)))) (log 30)

private def mid0 : St (List Nat) Empty Nat Nat Nat :=
  ⟨[], [[(1, fun _ => .invoke "a" ⟨[5], []⟩)]], 1, [(1, [("b", fun _ => .ret 8)]), (0, [("a", fun as => .ret (as.pos.headD 0))])], 2⟩

private def fs0 : List (Frame (List Nat) Empty Nat Nat Nat) :=
  [.plain, .handlers [(1, fun _ => .invoke "a" ⟨[5], []⟩)], .restarts 1 [("b", fun _ => .ret 8)], .tryFinally (log 30)]

example : Active E0 body0 (pushR [("a", fun as => .ret (as.pos.headD 0))] (st0 [])) (.invoke "a" ⟨[5], []⟩) mid0 fs0 ∧
    LeaveAll E0 fs0 mid0 ⟨[30], [], 2, [(0, [("a", fun as => .ret (as.pos.headD 0))])], 2⟩ ∧
    Ends E0 (.restarts [("a", fun as => .ret (as.pos.headD 0))] body0) (st0 []) (.ok 5) ⟨[30], [], 2, [], 2⟩ := by
  refine ⟨?_, ?_, 12, rfl⟩
  · refine Active.inTryFinally (fs := [.plain, .handlers _, .restarts _ _]) ?_
    refine Active.inRestarts (fs := [.plain, .handlers _]) ?_
    refine Active.inHandlers (fs := [.plain]) ?_
    refine Active.inHandler (fs := []) (inner := []) (b1 := []) (b2 := []) (outer := []) (t := 1)
      (h := fun _ => .invoke "a" ⟨[5], []⟩) (st1 := mid0) rfl rfl ?_ rfl ?_ ?_
    · exact .nil
    · exact .nil
    · exact .here
  · exact .plain (.handlers (.restarts (.tryFinally (v := 0) ⟨3, rfl⟩ .nil)))

/-- C44: invoking the restart object found by `find_restart` goes to the block it was found in, even if blocks
further in bind the same name.  (Missing: as before, the names in `C44_names_refuted`.) -/
theorem C44_invoke_bound_partial {bs} {p : Prog σ ε Ty C V} {st st' st'' : St σ ε Ty C V} {name args f inner}
    (hact : Active E p (pushR bs st) (.invokeBound ⟨name, st.next⟩ args) st' inner) (hfree : Free args) (hf : bs.lookup name = some f)
    (hleave : LeaveAll E inner st' st'') {r s} :
    (Ends E (.restarts bs p) st r s ↔ ∃ s1, Ends E (f args) st'' r s1 ∧ s = popR s1) ∧
    st''.hstack = st.hstack ∧ st''.rstack = (st.next, bs) :: st.rstack := by
  obtain ⟨i1, i2, i3, i4⟩ := active_inv hact
  have hp : Ends E p (pushR bs st) (.error (.invoke ⟨name, st.next⟩ args)) st'' :=
    active_invoke hact ⟨1, by simp [eval, free_clash hfree, raiseInvoke]⟩
      (fun r hr => by have := i4 r hr; simp [pushR] at this ⊢; omega) hleave
  refine ⟨⟨fun h => ends_restarts_own_inv hp rfl hf h, ?_⟩, leaveAll_stacks hleave i1 i2⟩
  rintro ⟨s1, h1, rfl⟩
  exact ends_restarts_own hp rfl hf h1

example : Active E0 (.findRestart "a" fun b => .restarts [("a", fun _ => .ret 8)] (.invokeBound (b.getD ⟨"", 9⟩) ⟨[5], []⟩))
    (pushR [("a", fun as => .ret (as.pos.headD 0))] (st0 [])) (.invokeBound ⟨"a", 0⟩ ⟨[5], []⟩)
    ⟨[], [], 0, [(1, [("a", fun _ => .ret 8)]), (0, [("a", fun as => .ret (as.pos.headD 0))])], 2⟩
    [.restarts 1 [("a", fun _ => .ret 8)]] :=
  .findRestart (Active.inRestarts (fs := []) .here)

/-- C44: `find_restart(name)` is the restart of the innermost block that binds the name. -/
theorem C44_find_restart {name : String} {k : Option BR → Prog σ ε Ty C V} {st : St σ ε Ty C V} {r st'} :
    (∀ inner id bs outer, st.rstack = inner ++ (id, bs) :: outer → (bs.lookup name).isSome →
      (∀ b ∈ inner, b.2.lookup name = none) →
      (Ends E (.findRestart name k) st r st' ↔ Ends E (k (some ⟨name, id⟩)) st r st')) ∧
    ((∀ b ∈ st.rstack, b.2.lookup name = none) →
      (Ends E (.findRestart name k) st r st' ↔ Ends E (k none) st r st')) := by
  have key : ∀ o, findR name st.rstack = o → (Ends E (.findRestart name k) st r st' ↔ Ends E (k o) st r st') := by
    rintro o rfl
    constructor
    · intro h; obtain ⟨n, h⟩ := ends_inv h; exact ⟨n, h⟩
    · rintro ⟨n, h⟩; exact ⟨n + 1, h⟩
  refine ⟨fun inner id bs outer hr hb hno => key _ ?_, fun h => key _ ?_⟩
  · exact findR_eq_some.mpr ⟨rfl, inner, bs, outer, hr, hb, hno⟩
  · have := findR_append (outer := []) h
    rw [List.append_nil] at this
    rw [this]; rfl

example : Ends E0 (.restarts [("a", fun _ => .ret 1)] (.restarts [("b", fun _ => .ret 2)]
    (.findRestart "a" fun b => .ret ((b.map BR.ctx).getD 9)))) (st0 []) (.ok 0) { st0 [] with next := 2 } := ⟨9, rfl⟩

/-- C44: if no block in scope binds the name, `invoke(name)` is `error(ControlError(...))`.
(Missing: a named argument called `name_or_restart`, see `C44_names_refuted`.) -/
theorem C44_unknown_partial {name : String} {args : Args V} (hc : ∀ p ∈ args.named, p.1 ≠ "name_or_restart") {st : St σ ε Ty C V}
    (h : ∀ b ∈ st.rstack, b.2.lookup name = none) {r st'} :
    Ends E (.invoke name args) st r st' ↔ Ends E (error (E.ctrl name)) st r st' := by
  have : findR name st.rstack = none := by
    have := findR_append (outer := []) h
    rw [List.append_nil] at this
    rw [this]; rfl
  constructor
  · intro h; obtain ⟨n, h⟩ := ends_inv h; simp only [eval, this, clashInvoke_false hc] at h; exact ⟨n, h⟩
  · rintro ⟨n, h⟩; exact ⟨n + 1, by simp only [eval, this, clashInvoke_false hc]; exact h⟩

example : Ends E0 (.invoke "a" ⟨[], []⟩) (st0 [[(99, fun _ => log 3)]]) (.error (.err (.py .ControlError)))
    { st0 [[(99, fun _ => log 3)]] with world := [3] } := ⟨9, rfl⟩

/-- C44: `invoke` never returns normally. -/
theorem C44_invoke_no_return {name : String} {args : Args V} {st : St σ ε Ty C V} {v st'} :
    ¬ Ends E (.invoke name args) st (.ok v) st' := by
  intro h
  obtain ⟨n, h⟩ := ends_inv h
  rw [eval] at h
  by_cases hc : clashInvoke args = true
  · simp [hc] at h
  simp only [hc] at h
  cases hf : findR name st.rstack with
  | none => rw [hf] at h; exact C43_error.1 _ _ ⟨n, h⟩
  | some b => simp [hf] at h

example : Ends E0 (.invoke "a" ⟨[], []⟩) (st0 []) (.error (.err (.py .ControlError))) (st0 []) := ⟨9, rfl⟩

/-- C44 is violated for some names of arguments: "any args and kwargs are passed through to the restart", but with a named argument
`name_or_restart`, `restart` or `self`, `invoke` of a restart in scope raises TypeError where it is called, and the restart is not
invoked; so a restart with such a parameter, like `b` below, cannot be given it by name. -/
theorem C44_names_refuted {name x : String} (hx : x ∈ ["name_or_restart", "restart", "self"]) {args : Args V} (ha : x ∈ args.named.map Prod.fst)
    {st : St σ ε Ty C V} {b : BR} (hb : findR name st.rstack = some b) :
    Ends E (.invoke name args) st (.error (.err (.py .TypeError))) st ∧
    Ends E (.invokeBound b args) st (.error (.err (.py .TypeError))) st := by
  obtain ⟨p, hp, rfl⟩ := List.mem_map.mp ha
  by_cases hc : clashInvoke args = true
  · exact ⟨⟨1, by simp [eval, hc]⟩, ⟨1, by simp [eval, hc]⟩⟩
  · have hi : clashInit args = true := by
      rw [clashInit, List.any_eq_true]
      refine ⟨p, hp, ?_⟩
      simp only [clashInvoke, List.any_eq_true, decide_eq_true_eq, not_exists, not_and] at hc
      have := hc p hp
      simp only [List.mem_cons, List.not_mem_nil, or_false] at hx
      rcases hx with e | e | e
      · exact absurd e this
      · simp [e]
      · simp [e]
    exact ⟨⟨1, by simp [eval, hc, hb, raiseInvoke, hi]⟩, ⟨1, by simp [eval, hc, raiseInvoke, hi]⟩⟩

example : Ends E0 (.restarts [("a", fun as => .ret (as.named.length))] (.invoke "a" ⟨[], [("x", 1)]⟩)) (st0 []) (.ok 1) { st0 [] with next := 1 } ∧
    Ends E0 (.restarts [("a", fun as => .ret (as.named.length))] (.invoke "a" ⟨[], [("restart", 1)]⟩)) (st0 [])
      (.error (.err (.py .TypeError))) { st0 [] with next := 1 } :=
  ⟨⟨5, by simp [eval, findR, pushR, popR, st0, clashInvoke, clashInit, raiseInvoke, List.lookup]⟩,
    ⟨5, by simp [eval, findR, pushR, popR, st0, clashInvoke, clashInit, raiseInvoke, List.lookup]⟩⟩

/-- C44: whatever a program does, and however it ends, it leaves both stacks as it found them. -/
theorem C44_restored {p : Prog σ ε Ty C V} {st r st'} (h : Ends E p st r st') :
    st'.hstack = st.hstack ∧ st'.rstack = st.rstack :=
  ⟨(ends_inv' h).1, (ends_inv' h).2.1⟩

example : Ends E0 (.restarts [("a", fun as => .ret (as.pos.headD 0))] body0) (st0 []) (.ok 5) ⟨[30], [], 2, [], 2⟩ :=
  ⟨12, rfl⟩

/-- What C44 might suggest, but is false: while a restart function runs, its own block's restarts are still in
scope; a restart function that invokes its own name does not reach the next block out that binds it, nor its own
block, but leaves the program with an uncaught `InvokeRestart`. -/
theorem C44_own_restart_refuted : ∃ (E : Env Unit Empty Nat Nat Nat) (st' : St Unit Empty Nat Nat Nat),
    Ends E (.restarts [("a", fun _ => .ret 1)] (.restarts [("a", fun _ => .invoke "a" ⟨[], []⟩)] (.invoke "a" ⟨[], []⟩)))
      ⟨(), [], 0, [], 0⟩ (.error (.invoke ⟨"a", 1⟩ ⟨[], []⟩)) st' :=
  ⟨⟨fun _ _ => true, fun _ => 99, 0, fun _ s => (.ok (), s)⟩, _, 9, rfl⟩

/-- Likewise a restart object invoked after its block has ended: no ControlError, an uncaught `InvokeRestart`. -/
theorem C44_stale_refuted : ∃ (E : Env (Option BR) Empty Nat Nat Nat) (st' : St (Option BR) Empty Nat Nat Nat),
    Ends E (.seq (.restarts [("a", fun _ => .ret 1)] (.findRestart "a" fun b => .put b (.ret 0))) fun _ =>
        .look fun b => .invokeBound (b.getD ⟨"", 9⟩) ⟨[], []⟩)
      ⟨none, [], 0, [], 0⟩ (.error (.invoke ⟨"a", 0⟩ ⟨[], []⟩)) st' :=
  ⟨⟨fun _ _ => true, fun _ => 99, 0, fun _ s => (.ok (), s)⟩, _, 9, rfl⟩

end Unpy.Props
