import Verif.Proof.Fixtures
/-!
# C98: the test framework counts every test once, and goes on after tests that do not pass
-/
namespace Unpy.Props
open Unpy.Fixtures

/-- The outcome of a program, in the terms of the specification. -/
def fixturesSame : Unpy.Fixtures.Out → Unpy.Fixtures.Spec.Out → Prop
  | .ok, .ok => True
  | .exc e, .exc e' => e = e'
  | _, _ => False

/-- C98 (partial): for all test programs — tests, testsets and sessions nested in any way, that signal, raise, and catch exceptions,
with any callbacks — what is printed (reports, the tally of every testset, in order), the side effects of the user's code, the
counters and the outcome are those of the specification, in which every test has one verdict and tests that do not pass do not prevent
what comes after them.  Missing: programs at which the careful interpreter stops: `terminate` in a testset or in a test; plain
`signal`s and `error`s outside tests in nested testsets; values whose `bool` or `str` raises (see the refutations). -/
theorem C98_verdicts_partial (W : World) (c : Cmd) :
    (Unpy.Fixtures.Spec.run true W c).1 = .stopped ∨
    (fixturesSame (run W c).1 (Unpy.Fixtures.Spec.run false W c).1 ∧
      (run W c).2.log = (Unpy.Fixtures.Spec.run false W c).2.log ∧
      (run W c).2.run = Unpy.Fixtures.Spec.runs (Unpy.Fixtures.Spec.run false W c).2.verdicts ∧
      (run W c).2.failed = Unpy.Fixtures.Spec.fails (Unpy.Fixtures.Spec.run false W c).2.verdicts ∧
      (run W c).2.errored = Unpy.Fixtures.Spec.errors (Unpy.Fixtures.Spec.run false W c).2.verdicts ∧
      (run W c).2.warned = Unpy.Fixtures.Spec.warns (Unpy.Fixtures.Spec.run false W c).2.verdicts) := by
  rcases Proof.run_sim W c with h | h
  · exact .inl h
  · rcases (Proof.exec_sub W c _ _ : Proof.Sub (Unpy.Fixtures.Spec.run true W c) (Unpy.Fixtures.Spec.run false W c)) with k | k
    · exact .inl k
    · right
      have k' : Unpy.Fixtures.Spec.run true W c = Unpy.Fixtures.Spec.run false W c := k
      rw [← k']
      refine ⟨?_, h.cnt.log, h.cnt.run, h.cnt.failed, h.cnt.errored, h.cnt.warned⟩
      have ho := h.out
      revert ho
      cases (run W c).1 <;> cases (Unpy.Fixtures.Spec.run true W c).1 <;> simp [Proof.OutRel, fixturesSame]

/-- A world of classes by equality, without a global callback. -/
def fixturesWorld : World := ⟨fun a b => a == b, fun e n => e == .user n, none⟩

/-- A session with two testsets; in the first one: a test that fails, one that raises, one that signals, one that passes, a warning,
and a stray exception, after which the rest of that testset is not run; in the second one, a stray `cerror` and two expected failures. -/
def fixturesSession : Cmd :=
  .session (.seq
    (.testset none (.seq (.test .skip (.val false)) (.seq (.test (.raise (.user 1)) (.val true)) (.seq
      (.test (.seq (.signal .error 2) (.user 0)) (.val true)) (.seq (.test (.user 3) (.val true)) (.seq (.test .skip (.marker .warn))
      (.seq (.raise (.user 4)) (.test .skip (.val true)))))))))
    (.testset none (.seq (.signal .cerror 5) (.seq (.testRaises 6 (.raise (.user 6))) (.testSignals 7 (.signal .signal 8))))))

-- none of the exceptions stops it, and the counts are right
example : (run fixturesWorld fixturesSession).2.log =
    [.sessionBegin, .begin 0, .begin 1, .report 2 .fail, .report 2 .error, .report 2 .error, .user 3, .report 2 .warn, .strayException 2,
      .fin 1 5 1 3 1, .begin 1, .straySignal 2, .report 2 .error, .fin 1 3 0 2 0, .fin 0 8 1 5 1, .sessionEnd] := by decide +kernel
example : (Unpy.Fixtures.Spec.run true fixturesWorld fixturesSession).1 matches .ok := by decide +kernel
-- `terminate` directly in the session ends it
example : (run fixturesWorld (.session (.seq (.test .skip (.val true)) (.seq .terminate (.user 1))))).2.log =
    [.sessionBegin, .begin 0, .terminating, .fin 0 1 0 0 0, .sessionEnd] := by decide +kernel

/-- What a single test does: the value it has; an exception; a signal. -/
inductive FixturesCase where
  | value (truth : Bool)
  | marker (k : Kind)
  | raises (n : Nat)
  | signals (p : Protocol) (n : Nat)

/-- The test. -/
def FixturesCase.cmd : FixturesCase → Cmd
  | .value b => .test .skip (.val b)
  | .marker k => .test .skip (.marker k)
  | .raises n => .test (.raise (.user n)) (.val true)
  | .signals p n => .test (.signal p n) (.val true)

/-- What is reported, if not that it passes. -/
def FixturesCase.report : FixturesCase → Option Kind
  | .value true => none
  | .value false => some .fail
  | .marker k => some k
  | .raises _ => some .error
  | .signals .. => some .error

private theorem fixturesCase_step (W : World) (hW : W.postproc = none) (c : FixturesCase) (s : State) (l : Nat)
    (hc : s.catching.head? = some true) (hp : s.postprocs = []) :
    exec W [.testset l] c.cmd s = (.ok, { s with
      run := s.run + (if c.report = some .warn then 0 else 1)
      failed := s.failed + (if c.report = some .fail then 1 else 0)
      errored := s.errored + (if c.report = some .error then 1 else 0)
      warned := s.warned + (if c.report = some .warn then 1 else 0)
      log := s.log ++ (match c.report with
        | none => []
        | some k => [.report (l + 1) k]) }) := by
  match c with
  | .value true => simp [FixturesCase.cmd, FixturesCase.report, exec, observed, assertValue]
  | .value false =>
    simp [FixturesCase.cmd, FixturesCase.report, exec, observed, assertValue, conclude, signal, handlers, printAndProceed,
      postprocAndProceed, callPostproc, State.print, hW, hp]
  | .marker k =>
    cases k <;> simp [FixturesCase.cmd, FixturesCase.report, exec, observed, assertValue, conclude, signal, handlers,
      printAndProceed, postprocAndProceed, callPostproc, State.print, hW, hp]
  | .raises n =>
    simp [FixturesCase.cmd, FixturesCase.report, exec, observed, assertValue, conclude, signal, handlers, printAndProceed,
      postprocAndProceed, callPostproc, State.print, hW, hp, Exc.isException]
  | .signals p n =>
    have e : exec W [.observe, .testset l] (.signal p n) s = (.jump 1 n, s) := by
      match hs : s.catching with
      | [] => rw [hs] at hc; cases hc
      | b :: bs =>
        rw [hs] at hc; cases hc
        simp [exec, signal, handlers, intercept, hs, innermost]
    rw [FixturesCase.cmd, exec, e]
    simp [FixturesCase.report, observed, assertValue, conclude, signal, handlers, printAndProceed,
      postprocAndProceed, callPostproc, State.print, hW, hp]

/-- The tests one after the other. -/
def fixturesAll : List FixturesCase → Cmd
  | [] => .skip
  | c :: cs => .seq c.cmd (fixturesAll cs)

private theorem fixturesCase_run (W : World) (hW : W.postproc = none) (l : Nat) : ∀ (cs : List FixturesCase) (s : State),
    s.catching.head? = some true → s.postprocs = [] →
    exec W [.testset l] (fixturesAll cs) s = (.ok, { s with
      run := s.run + cs.countP (fun c => decide (c.report ≠ some .warn))
      failed := s.failed + cs.countP (fun c => decide (c.report = some .fail))
      errored := s.errored + cs.countP (fun c => decide (c.report = some .error))
      warned := s.warned + cs.countP (fun c => decide (c.report = some .warn))
      log := s.log ++ (cs.filterMap FixturesCase.report).map (.report (l + 1)) })
  | [], s, _, _ => by simp [fixturesAll, exec]
  | c :: cs, s, hc, hp => by
    rw [fixturesAll, exec, fixturesCase_step W hW c s l hc hp]
    simp only
    refine (fixturesCase_run W hW l cs _ (by exact hc) (by exact hp)).trans ?_
    simp only [List.countP_cons, List.filterMap_cons]
    match c with
    | .value true => simp [FixturesCase.report]; omega
    | .value false => simp [FixturesCase.report]; omega
    | .marker .fail => simp [FixturesCase.report]; omega
    | .marker .error => simp [FixturesCase.report]; omega
    | .marker .warn => simp [FixturesCase.report]; omega
    | .raises n => simp [FixturesCase.report]; omega
    | .signals p n => simp [FixturesCase.report]; omega

/-- C98: in a testset with any tests one after the other — that pass, fail, raise, or signal with any protocol — every test is run and
counted once, those that do not pass are reported in order, and the summary has their numbers. -/
theorem C98_every_test (W : World) (hW : W.postproc = none) (cs : List FixturesCase) :
    (run W (.testset none (fixturesAll cs))).1 = .ok ∧
    (run W (.testset none (fixturesAll cs))).2.log =
      [.begin 0] ++ (cs.filterMap FixturesCase.report).map (.report 1) ++
      [.fin 0 (cs.countP (fun c => decide (c.report ≠ some .warn))) (cs.countP (fun c => decide (c.report = some .fail)))
        (cs.countP (fun c => decide (c.report = some .error))) (cs.countP (fun c => decide (c.report = some .warn)))] := by
  have h := fixturesCase_run W hW 0 cs { start with level := 1, log := [.begin 0] } rfl rfl
  have e : run W (.testset none (fixturesAll cs)) =
      testset none (fun level => exec W (.testset level :: []) (fixturesAll cs)) start := rfl
  rw [e]
  simp only [testset, State.print]
  have e₂ : ({ start with level := start.level + 1, log := start.log ++ [.begin start.level] } : State) =
      { start with level := 1, log := [.begin 0] } := rfl
  simp only [start] at h e₂ ⊢
  simp [h]

example : (run fixturesWorld (.testset none (fixturesAll [.value false, .raises 1, .signals .error 2, .value true, .marker .warn]))).2.log =
    [.begin 0, .report 1 .fail, .report 1 .error, .report 1 .error, .report 1 .warn, .fin 0 4 1 2 1] := by decide +kernel

/-! ## Summaries -/

/-- In the summary `m`, failed and errored tests are tests. -/
def fixturesSane : Msg → Prop
  | .fin _ runs fails errors _ => fails + errors ≤ runs
  | _ => True

private structure Step (s s' : State) : Prop where
  f : s.failed ≤ s'.failed
  e : s.errored ≤ s'.errored
  w : s.warned ≤ s'.warned
  r : s.run + (s'.failed - s.failed) + (s'.errored - s.errored) ≤ s'.run
  log : (∀ m ∈ s.log, fixturesSane m) → ∀ m ∈ s'.log, fixturesSane m

private theorem Step.refl (s : State) : Step s s := ⟨Nat.le_refl _, Nat.le_refl _, Nat.le_refl _, by omega, id⟩

private theorem Step.trans {a b c : State} (h : Step a b) (k : Step b c) : Step a c := by
  obtain ⟨h1, h2, h3, h4, h5⟩ := h
  obtain ⟨k1, k2, k3, k4, k5⟩ := k
  exact ⟨by omega, by omega, by omega, by omega, fun l => k5 (h5 l)⟩

private theorem Step.print (s : State) (m : Msg) (hm : fixturesSane m) : Step s (s.print m) :=
  ⟨Nat.le_refl _, Nat.le_refl _, Nat.le_refl _, by simp only [State.print]; omega, by
    intro h x hx
    simp only [State.print, List.mem_append, List.mem_singleton] at hx
    rcases hx with hx | rfl
    · exact h x hx
    · exact hm⟩

private theorem callPostproc_step (W : World) (s : State) : Step s (callPostproc W s).2 := by
  unfold callPostproc terminate
  split <;> first | exact .refl _ | exact .print _ _ trivial

private theorem postproc_step (W : World) (p : Protocol) (s : State) : Step s (postprocAndProceed W p s).2 := by
  have h := callPostproc_step W s
  unfold postprocAndProceed
  split
  · rename_i hh; rw [hh] at h; exact h
  · rename_i hh; rw [hh] at h; split <;> exact h

private theorem proceed_step (W : World) (l : Nat) (p : Protocol) (c : Cond) (s : State) :
    Step s (printAndProceed W l p c s).2 := by
  unfold printAndProceed
  split
  · exact (Step.print s (.report (l + 1) _) trivial).trans (postproc_step W p _)
  · split
    · refine Step.trans (b := { s with run := s.run + 1, errored := s.errored + 1 }) ?_
        ((Step.print _ (.straySignal (l + 1)) trivial).trans (postproc_step W p _))
      refine ⟨?_, ?_, ?_, ?_, ?_⟩ <;> simp only <;> first | omega | exact id
    · exact .refl _

private theorem intercept_state (H : List Frame) (c : Cond) (s : State) : (intercept H c s).2 = s := by
  unfold intercept
  (repeat' split) <;> rfl

private theorem handlers_step (W : World) (H : List Frame) (p : Protocol) (c : Cond) : ∀ (fs : List Frame) (s : State),
    Step s (handlers W H p c fs s).2
  | [], s => .refl _
  | .observe :: fs, s => by
    have h : Step s (intercept H c s).2 := by rw [intercept_state]; exact .refl _
    simp only [handlers]
    split
    · rename_i hh; rw [hh] at h; exact h.trans (handlers_step W H p c fs _)
    · exact h
  | .testset l :: fs, s => by
    have h := proceed_step W l p c s
    simp only [handlers]
    split
    · rename_i hh; rw [hh] at h; exact h.trans (handlers_step W H p c fs _)
    · exact h

private theorem signal_step (W : World) (H : List Frame) (p : Protocol) (c : Cond) (s : State) : Step s (signal W H p c s).2 := by
  have h := handlers_step W H p c H s
  unfold signal
  revert h
  generalize handlers W H p c H s = r
  obtain ⟨o, s'⟩ := r
  intro h
  cases o <;> cases p <;> cases c <;> first | exact h | exact h.trans (.print _ (.warning _) trivial)

private theorem pass_step (s : State) : Step s { s with run := s.run + 1 } :=
  ⟨Nat.le_refl _, Nat.le_refl _, Nat.le_refl _, by simp only; omega, id⟩

private theorem conclude_step (W : World) (H : List Frame) (k : Kind) (s : State) :
    Step s (conclude W H k { s with run := s.run + 1 }).2 := by
  unfold conclude
  cases k <;> refine Step.trans ?_ (signal_step _ _ _ _ _) <;> refine ⟨?_, ?_, ?_, ?_, ?_⟩ <;> simp only <;>
    first | omega | exact id

private theorem assertValue_step (W : World) (H : List Frame) (m : Mode) (v : Value) (s : State) :
    Step s (assertValue W H m v s).2 := by
  unfold assertValue
  split
  · exact .refl _
  · simp only
    split
    · exact conclude_step _ _ _ _
    · exact pass_step _
    · exact conclude_step _ _ _ _
    · exact pass_step _
    · exact pass_step _
  · exact conclude_step _ _ _ _

private theorem assertSignals_step (W : World) (H : List Frame) (m : Mode) (t : Nat) (s : State) :
    Step s (assertSignals W H m t s).2 := by
  unfold assertSignals
  simp only
  split
  · exact conclude_step _ _ _ _
  · split
    · exact pass_step _
    · exact conclude_step _ _ _ _
  · exact conclude_step _ _ _ _

private theorem assertRaises_step (W : World) (H : List Frame) (m : Mode) (t : Nat) (s : State) :
    Step s (assertRaises W H m t s).2 := by
  unfold assertRaises
  simp only
  split
  · exact conclude_step _ _ _ _
  · exact conclude_step _ _ _ _
  · split
    · exact pass_step _
    · exact conclude_step _ _ _ _

private theorem testset_step (pp : Option Postproc) (body : Nat → State → Out × State) (h : ∀ l s, Step s (body l s).2) (s : State) :
    Step s (testset pp body s).2 := by
  have key : ∀ s₁ : State, Step s s₁ → ∀ l,
      Step s (s₁.print (.fin l (s₁.run - s.run) (s₁.failed - s.failed) (s₁.errored - s.errored) (s₁.warned - s.warned))) := by
    intro s₁ k l
    refine k.trans (.print _ _ ?_)
    have := k.f; have := k.e; have := k.r
    simp only [fixturesSane]; omega
  have anyStacks : ∀ a b : State, Step s a → b.run = a.run → b.failed = a.failed → b.errored = a.errored → b.warned = a.warned →
      b.log = a.log → Step s b := by
    intro a b k e1 e2 e3 e4 e5
    obtain ⟨k1, k2, k3, k4, k5⟩ := k
    exact ⟨by omega, by omega, by omega, by rw [e1, e2, e3]; exact k4, by rw [e5]; exact k5⟩
  have hin : ∃ s₁ : State, Step s s₁ ∧ s₁ = (match pp with
      | some p => { ({ s with level := s.level + 1 }.print (.begin s.level)) with postprocs := p :: s.postprocs }
      | none => { s with level := s.level + 1 }.print (.begin s.level)) := by
    refine ⟨_, ?_, rfl⟩
    cases pp <;> exact anyStacks (s.print (.begin s.level)) _ (.print _ _ trivial) rfl rfl rfl rfl rfl
  obtain ⟨s₁, hs₁, e₁⟩ := hin
  have hb := hs₁.trans (h s.level s₁)
  have e : testset pp body s = (let (o, s₂) := body s.level s₁
      let (o, s₂) : Out × State := match o with
        | .exc .exit => (.ok, s₂)
        | .exc e =>
          if e.isException then
            (.ok, { s₂ with run := s₂.run + 1, errored := s₂.errored + 1 }.print (.strayException (s.level + 1)))
          else (.exc e, s₂)
        | o => (o, s₂)
      let s₂ := match pp with
        | some _ => { s₂ with postprocs := s₂.postprocs.drop 1 }
        | none => s₂
      let s₂ := { s₂ with level := s₂.level - 1 }
      (o, s₂.print (.fin s.level (s₂.run - s.run) (s₂.failed - s.failed) (s₂.errored - s.errored) (s₂.warned - s.warned)))) := by
    rw [e₁]; cases pp <;> rfl
  rw [e]
  generalize body s.level s₁ = r at hb
  obtain ⟨o, s₂⟩ := r
  have stray : Step s ({ s₂ with run := s₂.run + 1, errored := s₂.errored + 1 }.print (.strayException (s.level + 1))) := by
    refine Step.trans hb (Step.trans (b := { s₂ with run := s₂.run + 1, errored := s₂.errored + 1 }) ?_
      (.print _ (.strayException (s.level + 1)) trivial))
    refine ⟨?_, ?_, ?_, ?_, ?_⟩ <;> simp only <;> first | omega | exact id
  cases o with
  | exc e =>
    cases e <;> cases pp <;> refine key _ ?_ _ <;>
      first | exact anyStacks _ _ hb rfl rfl rfl rfl rfl | exact anyStacks _ _ stray rfl rfl rfl rfl rfl
  | _ => cases pp <;> refine key _ ?_ _ <;> exact anyStacks _ _ hb rfl rfl rfl rfl rfl

private theorem exec_step (W : World) (c : Cmd) : ∀ (H : List Frame) (s : State), Step s (exec W H c s).2 := by
  induction c with
  | skip => intro H s; exact .refl _
  | user n => intro H s; exact .print _ _ trivial
  | raise e => intro H s; exact .refl _
  | terminate => intro H s; exact .print _ _ trivial
  | signal p n => intro H s; exact signal_step _ _ _ _ _
  | seq a b iha ihb =>
    intro H s
    have h := iha H s
    simp only [exec]
    split
    · rename_i hh; rw [hh] at h; exact h.trans (ihb H _)
    · exact h
  | tryExcept a b iha ihb =>
    intro H s
    have h := iha H s
    simp only [exec]
    split
    · rename_i hh
      rw [hh] at h
      split
      · exact h.trans (ihb H _)
      · exact h
    · exact h
  | catchSignals b body ih =>
    intro H s
    have h := ih H { s with catching := b :: s.catching }
    simp only [exec]
    exact ⟨h.1, h.2, h.3, h.4, h.5⟩
  | test body v ih =>
    intro H s
    have h := ih (.observe :: H) s
    simp only [exec]
    split
    · exact h.trans (assertValue_step _ _ _ _ _)
    · exact h
  | testSignals t body ih =>
    intro H s
    have h := ih (.observe :: H) s
    simp only [exec]
    split
    · exact h.trans (assertSignals_step _ _ _ _ _)
    · exact h
  | testRaises t body ih =>
    intro H s
    have h := ih (.observe :: H) s
    simp only [exec]
    split
    · exact h.trans (assertRaises_step _ _ _ _ _)
    · exact h
  | testset pp body ih => intro H s; exact testset_step pp _ (fun l s => ih _ s) s
  | session body ih =>
    intro H s
    simp only [exec]
    split
    · exact .refl _
    · have h := (Step.print s .sessionBegin trivial).trans
        (testset_step none (fun level => exec W (.testset level :: H) body) (fun l s => ih _ s) (s.print .sessionBegin))
      split
      · rename_i hh; rw [hh] at h; exact h.trans (.print _ _ trivial)
      · rename_i hh; rw [hh] at h; exact h.trans (.print _ _ trivial)
      · exact h

/-- C98: in every summary that is ever printed, by any program, there are no more failed and errored tests than tests: the number of
passes is never negative. -/
theorem C98_summaries (W : World) (c : Cmd) : ∀ m ∈ (run W c).2.log, fixturesSane m :=
  (exec_step W c [] start).log (by simp [start])

-- also for those where the numbers are not the right ones (see the refutations)
example : Msg.fin 0 2 0 1 0 ∈ (run fixturesWorld (.testset none (.test .skip (.badBool (.user 1))))).2.log := by decide +kernel

/-! ## Where the framework does otherwise -/

/-- `terminate`, also as the callback of a testset, should end the session.  `testset` is a context manager made of a generator, in
which `except TestSessionExit: pass` does not pass the exception on but swallows it: only the innermost testset ends, and the
following tests are run. -/
theorem C98_terminate_refuted :
    (run fixturesWorld (.session (.seq (.testset none .terminate) (.user 1)))).2.log =
      [.sessionBegin, .begin 0, .begin 1, .terminating, .fin 1 0 0 0 0, .user 1, .fin 0 0 0 0 0, .sessionEnd] ∧
    (run fixturesWorld (.session (.seq (.testset (some .terminate) (.test .skip (.val false))) (.user 1)))).2.log =
      [.sessionBegin, .begin 0, .begin 1, .report 2 .fail, .terminating, .fin 1 1 1 0 0, .user 1, .fin 0 1 1 0 0, .sessionEnd] ∧
    -- as it should be
    (Unpy.Fixtures.Spec.run false fixturesWorld (.session (.seq (.testset none .terminate) (.user 1)))).2.log =
      [.sessionBegin, .begin 0, .begin 1, .terminating, .fin 1 0 0 0 0, .fin 0 0 0 0 0, .sessionEnd] :=
  ⟨by decide +kernel, by decide +kernel, by decide +kernel⟩

/-- `terminate` called in a test does not end the session either: the test is one that errored, and the following tests are run. -/
theorem C98_terminate_in_test_refuted :
    (run fixturesWorld (.session (.seq (.test .terminate (.val true)) (.user 1)))).2.log =
      [.sessionBegin, .begin 0, .terminating, .report 1 .error, .user 1, .fin 0 1 0 1 0, .sessionEnd] := by decide +kernel

/-- A plain `signal` outside tests should be counted once, as a `cerror` is.  There is no restart to stop it with, so that every
testset around it counts it: in a testset in a session, twice.  Also the `ControlError` of an `error` is counted, thus three times. -/
theorem C98_stray_signal_refuted :
    (run fixturesWorld (.session (.testset none (.signal .signal 1)))).2.run = 2 ∧
    (run fixturesWorld (.session (.testset none (.signal .error 1)))).2.run = 3 ∧
    (run fixturesWorld (.session (.testset none (.signal .cerror 1)))).2.run = 1 ∧
    (Unpy.Fixtures.Spec.run false fixturesWorld (.session (.testset none (.signal .signal 1)))).2.verdicts = [.error] :=
  ⟨by decide +kernel, by decide +kernel, by decide +kernel, by decide +kernel⟩

/-- A plain `signal` in a testset that is in a test, is counted by that testset and, again, as an error of the test; and the rest of
the testset is not run. -/
theorem C98_testset_in_test_refuted :
    (run fixturesWorld (.testset none (.test (.testset none (.seq (.signal .signal 1) (.user 2))) (.val true)))).2.log =
      [.begin 0, .begin 1, .straySignal 2, .fin 1 1 0 1 0, .report 1 .error, .fin 0 2 0 2 0] ∧
    (Unpy.Fixtures.Spec.run false fixturesWorld
      (.testset none (.test (.testset none (.seq (.signal .signal 1) (.user 2))) (.val true)))).2.log =
      [.begin 0, .begin 1, .straySignal 2, .user 2, .fin 1 1 0 1 0, .fin 0 2 0 1 0] :=
  ⟨by decide +kernel, by decide +kernel⟩

/-- A test should not prevent what comes after it, and be counted once.  A test with a value whose truth value raises (an array of
more than one number) ends the testset, and is counted twice: as one that passed, and as an error. -/
theorem C98_bool_refuted :
    (run fixturesWorld (.testset none (.seq (.test .skip (.badBool (.user 1))) (.user 2)))).2.log =
      [.begin 0, .strayException 1, .fin 0 2 0 1 0] := by decide +kernel

/-- A test that passes with a value whose `str` (or, for a captured one, `repr`) raises is counted as an error, and ends the testset:
the text of the message is made although it is not needed. -/
theorem C98_str_refuted :
    (run fixturesWorld (.testset none (.seq (.test .skip (.badStr true (.user 1))) (.user 2)))).2.log =
      [.begin 0, .strayException 1, .fin 0 1 0 1 0] := by decide +kernel

end Unpy.Props
