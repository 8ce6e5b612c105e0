import Verif.Spec.Fixtures
/-! # Proofs about the test framework -/
namespace Unpy.Fixtures.Proof
open Unpy.Fixtures

/-! ## The careful interpreter -/

def Sub (a b : Spec.Out × Spec.State) : Prop := a.1 = .stopped ∨ a = b

theorem Sub.rfl' (a) : Sub a a := .inr rfl

theorem endTest_sub (x v f g a b) (h : Sub a b) : Sub (Spec.endTest true x v f g a) (Spec.endTest false x v f g b) := by
  obtain ⟨o, s⟩ := a
  rcases h with h | rfl
  · cases h; exact .inl rfl
  · cases o with
    | exc e => cases e <;> first | exact .inl rfl | exact .inr rfl
    | _ => exact .inr rfl

theorem endTestset_sub (c l n a b) (h : Sub a b) : Sub (Spec.endTestset c l n a) (Spec.endTestset false l n b) := by
  obtain ⟨o, s⟩ := a
  rcases h with h | rfl
  · cases h; exact .inl rfl
  · cases o with
    | exc e => cases c <;> cases e <;> first | exact .inl rfl | exact .inr rfl
    | _ => exact .inr rfl

theorem signal_sub (x p n s) : Sub (Spec.signal true x p n s) (Spec.signal false x p n s) := by
  unfold Spec.signal
  match hc : x.catching, ha : x.around with
  | true, .test :: _ => exact .inr rfl
  | true, .testset l :: rest =>
    simp only [Bool.true_and, Bool.false_and, Bool.false_eq_true, if_false]
    split
    · cases p with
      | signal => cases rest.isEmpty <;> first | exact .inl rfl | exact .inr rfl
      | error => cases rest.isEmpty <;> first | exact .inl rfl | exact .inr rfl
      | _ => exact .inr rfl
    · exact .inr rfl
  | true, [] => exact .inr rfl
  | false, _ => exact .inr rfl

theorem exec_sub (W : World) (c : Cmd) : ∀ x s, Sub (Spec.exec true W x c s) (Spec.exec false W x c s) := by
  induction c with
  | skip => intro x s; exact .inr rfl
  | user n => intro x s; exact .inr rfl
  | raise e => intro x s; exact .inr rfl
  | terminate => intro x s; exact .inr rfl
  | signal p n => intro x s; exact signal_sub x p n s
  | catchSignals b body ih => intro x s; exact ih _ s
  | seq a b iha ihb =>
    intro x s
    have h := iha x s
    simp only [Spec.exec]
    revert h; generalize Spec.exec true W x a s = r; generalize Spec.exec false W x a s = r'
    intro h
    obtain ⟨o, s'⟩ := r
    rcases h with h | rfl
    · cases h; exact .inl rfl
    · cases o <;> first | exact ihb x s' | exact .inr rfl
  | tryExcept a b iha ihb =>
    intro x s
    have h := iha x s
    simp only [Spec.exec]
    revert h; generalize Spec.exec true W x a s = r; generalize Spec.exec false W x a s = r'
    intro h
    obtain ⟨o, s'⟩ := r
    rcases h with h | rfl
    · cases h; exact .inl rfl
    · cases o with
      | exc e => cases e <;> first | exact ihb x s' | exact .inr rfl
      | _ => exact .inr rfl
  | test body v ih =>
    intro x s
    have h := ih (Spec.inTest x) s
    simp only [Spec.exec]
    revert h; generalize Spec.exec true W _ body s = r; generalize Spec.exec false W _ body s = r'
    intro h
    obtain ⟨o, s'⟩ := r
    rcases h with h | rfl
    · cases h; exact .inl rfl
    · cases o with
      | ok =>
        simp only [Bool.true_and, Bool.false_and, Bool.false_eq_true, if_false]
        cases Spec.isBad v <;> first | exact .inl rfl | exact .inr rfl
      | exc e => exact endTest_sub _ _ _ _ _ _ (.inr rfl)
      | signaled n => exact .inr rfl
      | stopped => exact .inr rfl
  | testSignals t body ih => intro x s; exact endTest_sub _ _ _ _ _ _ (ih _ s)
  | testRaises t body ih => intro x s; exact endTest_sub _ _ _ _ _ _ (ih _ s)
  | testset pp body ih => intro x s; exact endTestset_sub _ _ _ _ _ (ih _ _)
  | session body ih =>
    intro x s
    simp only [Spec.exec]
    split
    · exact .inr rfl
    · have h := endTestset_sub false x.level s.verdicts.length _ _
        (ih (Spec.inTestset x none) ((s.print .sessionBegin).print (.begin x.level)))
      revert h; generalize Spec.endTestset _ _ _ (Spec.exec true W _ body _) = r
      generalize Spec.endTestset _ _ _ (Spec.exec false W _ body _) = r'
      intro h
      obtain ⟨o, s'⟩ := r
      rcases h with h | rfl
      · cases h; exact .inl rfl
      · exact .inr rfl

/-! ## The simulation -/

def conv : Frame → Spec.Around
  | .observe => .test
  | .testset l => .testset l

/-- The counters are the numbers of verdicts. -/
structure Cnt (s : State) (t : Spec.State) : Prop where
  log : s.log = t.log
  run : s.run = Spec.runs t.verdicts
  failed : s.failed = Spec.fails t.verdicts
  errored : s.errored = Spec.errors t.verdicts
  warned : s.warned = Spec.warns t.verdicts

structure Rel (W : World) (x : Spec.Ctx) (H : List Frame) (s : State) : Prop where
  around : x.around = H.map conv
  catching : s.catching.head? = some x.catching
  postproc : x.postproc = (match s.postprocs with
    | p :: _ => some p
    | [] => W.postproc)
  level : s.level = x.level

/-- The stacks are as before. -/
structure Stk (s s' : State) : Prop where
  catching : s'.catching = s.catching
  postprocs : s'.postprocs = s.postprocs
  level : s'.level = s.level

theorem Stk.rfl' (s) : Stk s s := ⟨rfl, rfl, rfl⟩
theorem Stk.trans {a b c} (h : Stk a b) (h' : Stk b c) : Stk a c :=
  ⟨h'.1.trans h.1, h'.2.trans h.2, h'.3.trans h.3⟩

theorem Rel.stk {W x H s s'} (h : Rel W x H s) (k : Stk s s') : Rel W x H s' :=
  ⟨h.1, by rw [k.1]; exact h.2, by rw [k.2]; exact h.3, by rw [k.3]; exact h.4⟩

def OutRel (H : List Frame) : Out → Spec.Out → Prop
  | .ok, .ok => True
  | .exc e, .exc e' => e = e'
  | .jump i n, .signaled m => n = m ∧ ∃ H', H = .observe :: H' ∧ i = H'.length
  | _, _ => False

structure Good (H : List Frame) (s : State) (t : Spec.State) (r : Out × State) (r' : Spec.Out × Spec.State) : Prop where
  out : OutRel H r.1 r'.1
  cnt : Cnt r.2 r'.2
  stk : Stk s r.2
  pre : t.verdicts <+: r'.2.verdicts

def Sim (H : List Frame) (s : State) (t : Spec.State) (r : Out × State) (r' : Spec.Out × Spec.State) : Prop :=
  r'.1 = .stopped ∨ Good H s t r r'

theorem Cnt.print {s t} (h : Cnt s t) (m) : Cnt (s.print m) (t.print m) :=
  ⟨by simp [State.print, Spec.State.print, h.log], h.2, h.3, h.4, h.5⟩

/-- An errored stray event. -/
theorem Cnt.stray {s t} (h : Cnt s t) :
    Cnt { s with run := s.run + 1, errored := s.errored + 1 } (t.verdict .error) := by
  refine ⟨h.log, ?_, ?_, ?_, ?_⟩ <;>
    simp [Spec.State.verdict, Spec.runs, Spec.fails, Spec.errors, Spec.warns, h.run, h.failed, h.errored, h.warned]

theorem pre_verdict (t : Spec.State) (v) : t.verdicts <+: (t.verdict v).verdicts := List.prefix_append _ _

theorem callPostproc_good {W x H s t} (hr : Rel W x H s) (hc : Cnt s t) :
    Good H s t (callPostproc W s) (Spec.callback x t) := by
  have hp := hr.postproc
  have e : callPostproc W s = (match x.postproc with
      | none => (.ok, s)
      | some .returns => (.ok, s)
      | some .terminate => terminate s
      | some (.raises e) => (.exc e, s)) := by
    unfold callPostproc
    rw [hp]
    cases s.postprocs <;> rfl
  rw [e]
  unfold Spec.callback
  match x.postproc with
  | none => exact ⟨trivial, hc, .rfl' _, List.prefix_refl _⟩
  | some .returns => exact ⟨trivial, hc, .rfl' _, List.prefix_refl _⟩
  | some .terminate => exact ⟨rfl, hc.print _, ⟨rfl, rfl, rfl⟩, List.prefix_refl _⟩
  | some (.raises e) => exact ⟨rfl, hc, .rfl' _, List.prefix_refl _⟩

theorem callback_shape (x t) : (∃ t', Spec.callback x t = (.ok, t')) ∨ ∃ e t', Spec.callback x t = (.exc e, t') := by
  unfold Spec.callback
  split <;> simp

/-- A testing condition: frames of tests let it pass, the innermost testset reports it. -/
theorem handlers_testing {W x H s t} (hr : Rel W x H s) (hc : Cnt s t) (k : Kind) (all : List Frame) : ∀ fs : List Frame,
    match Spec.innermostTestset (fs.map conv) with
    | none => handlers W all .cerror (.testing k) fs s = (.returns, s)
    | some l => ∃ s', (handlers W all .cerror (.testing k) fs s = (.proceed, s') ∧
          Good H s t (.ok, s') (Spec.callback x (t.print (.report (l + 1) k))) ∨
        ∃ e, handlers W all .cerror (.testing k) fs s = (.exc e, s') ∧
          Good H s t (.exc e, s') (Spec.callback x (t.print (.report (l + 1) k))))
  | [] => rfl
  | .observe :: fs => by
    have ih := handlers_testing hr hc k all fs
    have e : handlers W all .cerror (.testing k) (.observe :: fs) s = handlers W all .cerror (.testing k) fs s := by
      have : intercept all (.testing k) s = (.returns, s) := by
        unfold intercept
        split <;> rfl
      simp only [handlers, this]
    rw [e]
    exact ih
  | .testset l :: fs => by
    simp only [List.map_cons, conv, Spec.innermostTestset]
    have hr' : Rel W x H (s.print (.report (l + 1) k)) := hr.stk ⟨rfl, rfl, rfl⟩
    have g := callPostproc_good hr' (hc.print (.report (l + 1) k))
    simp only [handlers, printAndProceed, postprocAndProceed]
    revert g
    cases hq : callPostproc W (s.print (.report (l + 1) k)) with
    | mk o s' =>
      intro g
      refine ⟨s', ?_⟩
      cases o with
      | ok => exact .inl ⟨rfl, ⟨g.out, g.cnt, (show Stk s (s.print (.report (l + 1) k)) from ⟨rfl, rfl, rfl⟩).trans g.stk, g.pre⟩⟩
      | exc e => exact .inr ⟨e, rfl, ⟨g.out, g.cnt, (show Stk s (s.print (.report (l + 1) k)) from ⟨rfl, rfl, rfl⟩).trans g.stk, g.pre⟩⟩
      | jump i n =>
        exfalso
        rcases callback_shape x (t.print (.report (l + 1) k)) with ⟨t', h⟩ | ⟨e, t', h⟩ <;>
          · have := g.out; rw [h] at this; exact this

theorem signal_testing {W x H s t} (hr : Rel W x H s) (hc : Cnt s t) (k : Kind) :
    Good H s t (signal W H .cerror (.testing k) s) (Spec.report x k t) := by
  have h := handlers_testing hr hc k H H
  unfold signal Spec.report
  rw [hr.around]
  revert h
  cases Spec.innermostTestset (H.map conv) with
  | none =>
    intro h
    simp only at h
    rw [h]
    exact ⟨rfl, hc, .rfl' _, List.prefix_refl _⟩
  | some l =>
    intro h
    obtain ⟨s', ⟨h, g⟩ | ⟨e, h, g⟩⟩ := h
    · rw [h]; exact g
    · rw [h]; exact g

theorem Good.mono {H s t s₁ t₁ r r'} (g : Good H s₁ t₁ r r') (k : Stk s s₁) (p : t.verdicts <+: t₁.verdicts) : Good H s t r r' :=
  ⟨g.out, g.cnt, k.trans g.stk, p.trans g.pre⟩

theorem conclude_good {W x H s t} (hr : Rel W x H s) (hc : Cnt s t) (k : Kind) :
    Good H s t (conclude W H k { s with run := s.run + 1 })
      (Spec.conclude x (match k with
        | .fail => .fail
        | .error => .error
        | .warn => .warn) t) := by
  have key : ∀ (s' : State) (v : Spec.Verdict) (k : Kind), Stk s s' → Cnt s' (t.verdict v) →
      Good H s t (signal W H .cerror (.testing k) s') (Spec.report x k (t.verdict v)) :=
    fun s' v k a b => (signal_testing (hr.stk a) b k).mono a (pre_verdict _ _)
  cases k <;> unfold conclude Spec.conclude <;> simp only <;> refine key _ _ _ ⟨rfl, rfl, rfl⟩ ?_ <;>
    refine ⟨hc.log, ?_, ?_, ?_, ?_⟩ <;>
    simp [Spec.State.verdict, Spec.runs, Spec.fails, Spec.errors, Spec.warns, hc.run, hc.failed, hc.errored, hc.warned]

theorem pass_good {x H s t} (hc : Cnt s t) :
    Good H s t (.ok, { s with run := s.run + 1 }) (Spec.conclude x .pass t) := by
  refine ⟨trivial, ⟨hc.log, ?_, ?_, ?_, ?_⟩, ⟨rfl, rfl, rfl⟩, pre_verdict _ _⟩ <;>
    simp [Spec.conclude, Spec.State.verdict, Spec.runs, Spec.fails, Spec.errors, Spec.warns, hc.run, hc.failed, hc.errored, hc.warned]

theorem Rel.inTest {W x H s} (h : Rel W x H s) : Rel W (Spec.inTest x) (.observe :: H) s :=
  ⟨by simp [Spec.inTest, h.around, conv], h.2, h.3, h.4⟩

/-- The end of a test, from the end of its body. -/
theorem endTest_sim {W x H s t} (hr : Rel W x H s) (v : Spec.Verdict) (f : Nat → Spec.Verdict) (g : Exc → Spec.Verdict)
    (A : Mode → State → Out × State)
    (hA : ∀ s₁ t₁, Rel W x H s₁ → Cnt s₁ t₁ → Good H s₁ t₁ (A .completed s₁) (Spec.conclude x v t₁))
    (hB : ∀ n s₁ t₁, Rel W x H s₁ → Cnt s₁ t₁ → Good H s₁ t₁ (A (.signaled n) s₁) (Spec.conclude x (f n) t₁))
    (hC : ∀ e s₁ t₁, Rel W x H s₁ → Cnt s₁ t₁ → Good H s₁ t₁ (A (.raised e) s₁) (Spec.conclude x (g e) t₁))
    {r r'} (h : Sim (.observe :: H) s t r r') :
    Sim H s t (match r with
      | (o, s) => match observed H.length o with
        | some m => A m s
        | none => (o, s)) (Spec.endTest true x v f g r') := by
  obtain ⟨o, s₁⟩ := r
  obtain ⟨o', t₁⟩ := r'
  rcases h with h | h
  · cases h; exact .inl rfl
  · have hr₁ := hr.stk h.stk
    have ho := h.out
    cases o with
    | ok =>
      cases o' <;> simp only [OutRel] at ho
      exact .inr ((hA s₁ t₁ hr₁ h.cnt).mono h.stk h.pre)
    | jump i n =>
      cases o' <;> simp only [OutRel] at ho
      obtain ⟨rfl, H', e, rfl⟩ := ho
      cases e
      simp only [observed, if_true]
      exact .inr ((hB n s₁ t₁ hr₁ h.cnt).mono h.stk h.pre)
    | exc e =>
      cases o' <;> simp only [OutRel] at ho
      subst ho
      cases e with
      | exit => exact .inl rfl
      | base => exact .inr ⟨rfl, h.cnt, h.stk, h.pre⟩
      | user n => exact .inr ((hC (.user n) s₁ t₁ hr₁ h.cnt).mono h.stk h.pre)
      | control => exact .inr ((hC .control s₁ t₁ hr₁ h.cnt).mono h.stk h.pre)
      | runtime => exact .inr ((hC .runtime s₁ t₁ hr₁ h.cnt).mono h.stk h.pre)

theorem drop_counts (p q : List Spec.Verdict) (h : p <+: q) :
    Spec.runs (q.drop p.length) = Spec.runs q - Spec.runs p ∧ Spec.fails (q.drop p.length) = Spec.fails q - Spec.fails p ∧
    Spec.errors (q.drop p.length) = Spec.errors q - Spec.errors p ∧
    Spec.warns (q.drop p.length) = Spec.warns q - Spec.warns p := by
  obtain ⟨r, rfl⟩ := h
  simp [Spec.runs, Spec.fails, Spec.errors, Spec.warns]

/-- The end of a testset: `e` is whether a `terminate` is let through by the careful interpreter. -/
theorem testset_sim {W x H s t} (hr : Rel W x H s) (hc : Cnt s t) (pp : Option Postproc) (c : Bool)
    (body : Nat → State → Out × State) (body' : Spec.State → Spec.Out × Spec.State)
    (h : ∀ s₁ t₁, Rel W (Spec.inTestset x pp) (.testset x.level :: H) s₁ → Cnt s₁ t₁ →
      Sim (.testset x.level :: H) s₁ t₁ (body x.level s₁) (body' t₁)) :
    (Spec.endTestset c x.level t.verdicts.length (body' (t.print (.begin x.level)))).1 = .stopped ∨
    ∃ r₁ : Out × State, Good H s t r₁ (Spec.endTestset c x.level t.verdicts.length (body' (t.print (.begin x.level)))) ∧
      testset pp body s = (match r₁.1 with
        | .exc .exit => .ok
        | o => o, r₁.2) ∧ (c = true → r₁.1 ≠ .exc .exit) := by
  have hlev := hr.level
  -- the state in which the body begins
  obtain ⟨s₁, hs₁, hrel, hcnt⟩ : ∃ s₁, (match pp with
      | some p => { ({ s with level := s.level + 1 }.print (.begin s.level)) with postprocs := p :: s.postprocs }
      | none => { s with level := s.level + 1 }.print (.begin s.level)) = s₁ ∧
      Rel W (Spec.inTestset x pp) (.testset x.level :: H) s₁ ∧ Cnt s₁ (t.print (.begin x.level)) := by
    refine ⟨_, rfl, ?_, ?_⟩
    · cases pp with
      | none => exact ⟨by simp [Spec.inTestset, hr.around, conv], hr.catching, hr.postproc, by simp [State.print, Spec.inTestset, hlev]⟩
      | some p => exact ⟨by simp [Spec.inTestset, hr.around, conv], hr.catching, rfl, by simp [State.print, Spec.inTestset, hlev]⟩
    · rw [hlev]
      cases pp <;> exact ⟨by simp [State.print, Spec.State.print, hc.log], hc.2, hc.3, hc.4, hc.5⟩
  have hb := h s₁ _ hrel hcnt
  have hposts : s₁.postprocs = (match pp with
      | some p => p :: s.postprocs
      | none => s.postprocs) ∧ s₁.catching = s.catching ∧ s₁.level = s.level + 1 := by
    subst hs₁; cases pp <;> exact ⟨rfl, rfl, rfl⟩
  have key : testset pp body s = (let (o, s₂) := body x.level s₁
      let (o, s₂) : Out × State := match o with
        | .exc .exit => (.ok, s₂)
        | .exc e =>
          if e.isException then
            (.ok, { s₂ with run := s₂.run + 1, errored := s₂.errored + 1 }.print (.strayException (x.level + 1)))
          else (.exc e, s₂)
        | o => (o, s₂)
      let s₂ := match pp with
        | some _ => { s₂ with postprocs := s₂.postprocs.drop 1 }
        | none => s₂
      let s₂ := { s₂ with level := s₂.level - 1 }
      (o, s₂.print (.fin x.level (s₂.run - s.run) (s₂.failed - s.failed) (s₂.errored - s.errored) (s₂.warned - s.warned)))) := by
    simp only [← hs₁, ← hlev]; cases pp <;> rfl
  rw [key]
  clear key
  -- the tally
  have tally : ∀ (s₂ : State) (t₂ : Spec.State), Cnt s₂ t₂ → Stk s₁ s₂ → t.verdicts <+: t₂.verdicts →
      ∀ s₃, s₃ = (let s₂ := match pp with
        | some _ => { s₂ with postprocs := s₂.postprocs.drop 1 }
        | none => s₂
      let s₂ := { s₂ with level := s₂.level - 1 }
      s₂.print (.fin x.level (s₂.run - s.run) (s₂.failed - s.failed) (s₂.errored - s.errored) (s₂.warned - s.warned))) →
      Cnt s₃ (Spec.endTestset.tally x.level t.verdicts.length t₂) ∧ Stk s s₃ := by
    intro s₂ t₂ hc₂ hk hp s₃ e
    obtain ⟨d1, d2, d3, d4⟩ := drop_counts _ _ hp
    subst e
    have k1 := hk.catching; have k2 := hk.postprocs; have k3 := hk.level
    obtain ⟨p1, p2, p3⟩ := hposts
    constructor
    · cases pp <;> refine ⟨?_, ?_, ?_, ?_, ?_⟩ <;>
        simp [State.print, Spec.endTestset.tally, Spec.State.print, d1, d2, d3, d4, hc₂.log, hc₂.run, hc₂.failed, hc₂.errored,
          hc₂.warned, hc.run, hc.failed, hc.errored, hc.warned]
    · cases pp <;> refine ⟨?_, ?_, ?_⟩ <;> simp_all [State.print]
  revert hb
  cases body x.level s₁ with
  | mk o s₂ =>
  cases body' (t.print (.begin x.level)) with
  | mk o' t₂ =>
  intro hb
  rcases hb with hb | hb
  · cases hb; exact .inl rfl
  · have ho := hb.out
    have hp : t.verdicts <+: t₂.verdicts := hb.pre
    cases o with
    | ok =>
      cases o' <;> simp only [OutRel] at ho
      right
      obtain ⟨a, b⟩ := tally s₂ t₂ hb.cnt hb.stk hp _ rfl
      exact ⟨(.ok, _), ⟨trivial, a, b, hp⟩, rfl, by intros; simp⟩
    | jump i n =>
      cases o' <;> simp only [OutRel] at ho
      obtain ⟨_, H', e, _⟩ := ho
      cases e
    | exc e =>
      cases o' <;> simp only [OutRel] at ho
      subst ho
      have stray : ∀ e : Exc, e.isException = true → e ≠ .exit →
          Good H s t (.ok, let s₂ := match pp with
            | some _ => { ({ s₂ with run := s₂.run + 1, errored := s₂.errored + 1 }.print (.strayException (x.level + 1))) with
                postprocs := s₂.postprocs.drop 1 }
            | none => { s₂ with run := s₂.run + 1, errored := s₂.errored + 1 }.print (.strayException (x.level + 1))
            let s₂ := { s₂ with level := s₂.level - 1 }
            s₂.print (.fin x.level (s₂.run - s.run) (s₂.failed - s.failed) (s₂.errored - s.errored) (s₂.warned - s.warned)))
            (.ok, Spec.endTestset.tally x.level t.verdicts.length ((t₂.verdict .error).print (.strayException (x.level + 1)))) := by
        intro e _ _
        obtain ⟨a, b⟩ := tally _ _ (hb.cnt.stray.print (.strayException (x.level + 1)))
          (hb.stk.trans ⟨rfl, rfl, rfl⟩) (hp.trans (pre_verdict _ _)) _ rfl
        exact ⟨trivial, a, b, hp.trans (pre_verdict _ _)⟩
      cases e with
      | exit =>
        cases c with
        | true => exact .inl rfl
        | false =>
          right
          obtain ⟨a, b⟩ := tally s₂ t₂ hb.cnt hb.stk hp _ rfl
          exact ⟨(.exc .exit, _), ⟨rfl, a, b, hp⟩, rfl, by simp⟩
      | base =>
        right
        obtain ⟨a, b⟩ := tally s₂ t₂ hb.cnt hb.stk hp _ rfl
        exact ⟨(.exc .base, _), ⟨rfl, a, b, hp⟩, rfl, by simp⟩
      | user n => right; exact ⟨(.ok, _), stray (.user n) rfl (by simp), rfl, by simp⟩
      | control => right; exact ⟨(.ok, _), stray .control rfl (by simp), rfl, by simp⟩
      | runtime => right; exact ⟨(.ok, _), stray .runtime rfl (by simp), rfl, by simp⟩

/-! ## Signals of the user -/

theorem handlers_off {W : World} {all : List Frame} {p : Protocol} {n : Nat} {s : State} (h : s.catching.head? = some false) :
    ∀ fs, handlers W all p (.user n) fs s = (.returns, s)
  | [] => rfl
  | f :: fs => by
    have ih := handlers_off (W := W) (all := all) (p := p) (n := n) h fs
    match hc : s.catching with
    | [] => rw [hc] at h; cases h
    | b :: bs =>
      rw [hc] at h; cases h
      cases f <;> simp only [handlers, intercept, printAndProceed, hc] <;> exact ih

theorem signal_user_sim {W x H s t} (hr : Rel W x H s) (hc : Cnt s t) (p : Protocol) (n : Nat) :
    Sim H s t (signal W H p (.user n) s) (Spec.signal true x p n t) := by
  have unh : handlers W H p (.user n) H s = (.returns, s) →
      Sim H s t (signal W H p (.user n) s) (match p with
        | .signal => (.ok, t)
        | .warn => (.ok, t.print (.warning n))
        | .error | .cerror => (.exc .control, t)) := by
    intro e
    right
    unfold signal
    rw [e]
    cases p with
    | signal => exact ⟨trivial, hc, .rfl' _, List.prefix_refl _⟩
    | error => exact ⟨rfl, hc, .rfl' _, List.prefix_refl _⟩
    | cerror => exact ⟨rfl, hc, .rfl' _, List.prefix_refl _⟩
    | warn => exact ⟨trivial, hc.print _, ⟨rfl, rfl, rfl⟩, List.prefix_refl _⟩
  have ha := hr.around
  have hcat := hr.catching
  match hx : x.catching, H with
  | false, H =>
    rw [hx] at hcat
    unfold Spec.signal
    rw [hx]
    exact unh (handlers_off hcat _)
  | true, [] =>
    unfold Spec.signal
    rw [hx, ha]
    exact unh rfl
  | true, .observe :: H =>
    unfold Spec.signal
    rw [hx, ha]
    right
    match hs : s.catching with
    | [] => rw [hs] at hcat; cases hcat
    | b :: bs =>
      rw [hs, hx] at hcat; cases hcat
      have : signal W (.observe :: H) p (.user n) s = (.jump H.length n, s) := by
        simp [signal, handlers, intercept, hs, innermost]
      rw [this]
      exact ⟨⟨rfl, H, rfl, rfl⟩, hc, .rfl' _, List.prefix_refl _⟩
  | true, .testset l :: H =>
    unfold Spec.signal
    rw [hx, ha]
    simp only [List.map_cons, conv]
    match hs : s.catching with
    | [] => rw [hs] at hcat; cases hcat
    | b :: bs =>
      rw [hs, hx] at hcat; cases hcat
      have g := callPostproc_good (H := .testset l :: H)
        (hr.stk (⟨rfl, rfl, rfl⟩ : Stk s ({ s with run := s.run + 1, errored := s.errored + 1 }.print (.straySignal (l + 1)))))
        (hc.stray.print (.straySignal (l + 1)))
      have g' := g.mono (s := s) (t := t) ⟨rfl, rfl, rfl⟩ (pre_verdict _ _)
      clear g
      have hl : handlers W (.testset l :: H) p (.user n) (.testset l :: H) s =
          (match postprocAndProceed W p ({ s with run := s.run + 1, errored := s.errored + 1 }.print (.straySignal (l + 1))) with
            | (.returns, s) => handlers W (.testset l :: H) p (.user n) H s
            | r => r) := by
        simp only [handlers, printAndProceed, hs]
        rfl
      unfold signal
      rw [hl]
      unfold postprocAndProceed
      revert g'
      cases callPostproc W ({ s with run := s.run + 1, errored := s.errored + 1 }.print (.straySignal (l + 1))) with
      | mk o s' =>
      cases Spec.callback x ((t.verdict .error).print (.straySignal (l + 1))) with
      | mk o' t' =>
      intro g
      have ho := g.out
      cases o with
      | jump i m =>
        cases o' <;> simp only [OutRel] at ho
        obtain ⟨_, H', e, _⟩ := ho
        cases e
      | exc e =>
        cases o' <;> simp only [OutRel] at ho
        subst ho
        exact .inr ⟨rfl, g.cnt, g.stk, g.pre⟩
      | ok =>
        cases o' <;> simp only [OutRel] at ho
        cases p with
        | cerror => exact .inr ⟨trivial, g.cnt, g.stk, g.pre⟩
        | warn => exact .inr ⟨trivial, g.cnt.print _, g.stk.trans ⟨rfl, rfl, rfl⟩, g.pre⟩
        | signal =>
          cases H with
          | nil => exact .inr ⟨trivial, g.cnt, g.stk, g.pre⟩
          | cons => exact .inl rfl
        | error =>
          cases H with
          | nil => exact .inr ⟨rfl, g.cnt, g.stk, g.pre⟩
          | cons => exact .inl rfl

/-! ## Programs -/

theorem test_spec (W x body v t) (hv : Spec.isBad v = false) : Spec.exec true W x (.test body v) t =
    Spec.endTest true x (Spec.judge v) (fun _ => .error) (fun _ => .error) (Spec.exec true W (Spec.inTest x) body t) := by
  simp only [Spec.exec]
  cases Spec.exec true W (Spec.inTest x) body t with
  | mk o' t' =>
    cases o' with
    | ok => simp only [hv, Bool.and_false, Bool.false_eq_true, if_false]; rfl
    | exc e => cases e <;> rfl
    | _ => rfl

theorem exec_sim (W : World) (c : Cmd) : ∀ x H s t, Rel W x H s → Cnt s t →
    Sim H s t (exec W H c s) (Spec.exec true W x c t) := by
  induction c with
  | skip => intro x H s t hr hc; exact .inr ⟨trivial, hc, .rfl' _, List.prefix_refl _⟩
  | user n => intro x H s t hr hc; exact .inr ⟨trivial, hc.print _, ⟨rfl, rfl, rfl⟩, List.prefix_refl _⟩
  | raise e => intro x H s t hr hc; exact .inr ⟨rfl, hc, .rfl' _, List.prefix_refl _⟩
  | terminate => intro x H s t hr hc; exact .inr ⟨rfl, hc.print _, ⟨rfl, rfl, rfl⟩, List.prefix_refl _⟩
  | signal p n => intro x H s t hr hc; exact signal_user_sim hr hc p n
  | seq a b iha ihb =>
    intro x H s t hr hc
    have h := iha x H s t hr hc
    simp only [exec, Spec.exec]
    revert h
    cases exec W H a s with
    | mk o s' =>
    cases Spec.exec true W x a t with
    | mk o' t' =>
    intro h
    rcases h with h | h
    · cases h; exact .inl rfl
    · have ho := h.out
      cases o <;> cases o' <;> simp only [OutRel] at ho
      · rcases ihb x H s' t' (hr.stk h.stk) h.cnt with k | k
        · exact .inl k
        · exact .inr (k.mono h.stk h.pre)
      · exact .inr h
      · exact .inr h
  | tryExcept a b iha ihb =>
    intro x H s t hr hc
    have h := iha x H s t hr hc
    simp only [exec, Spec.exec]
    revert h
    cases exec W H a s with
    | mk o s' =>
    cases Spec.exec true W x a t with
    | mk o' t' =>
    intro h
    rcases h with h | h
    · cases h; exact .inl rfl
    · have ho := h.out
      cases o <;> cases o' <;> simp only [OutRel] at ho
      · exact .inr h
      · rename_i e e'
        cases ho
        simp only
        cases he : e.isException
        · simp only [Bool.false_eq_true, if_false]; exact .inr h
        · simp only [if_true]
          rcases ihb x H s' t' (hr.stk h.stk) h.cnt with k | k
          · exact .inl k
          · exact .inr (k.mono h.stk h.pre)
      · exact .inr h
  | catchSignals b body ih =>
    intro x H s t hr hc
    have h := ih { x with catching := b } H { s with catching := b :: s.catching } t
      ⟨hr.around, rfl, hr.postproc, hr.level⟩ ⟨hc.1, hc.2, hc.3, hc.4, hc.5⟩
    simp only [exec, Spec.exec]
    rcases h with h | h
    · exact .inl h
    · right
      have k := h.stk.catching
      exact ⟨h.out, ⟨h.cnt.1, h.cnt.2, h.cnt.3, h.cnt.4, h.cnt.5⟩, ⟨by simp [k], h.stk.postprocs, h.stk.level⟩, h.pre⟩
  | test body v ih =>
    intro x H s t hr hc
    have h := ih (Spec.inTest x) (.observe :: H) s t hr.inTest hc
    by_cases hv : Spec.isBad v = true
    · -- careful stops if the body ends normally; else the value is not looked at
      simp only [exec, Spec.exec]
      revert h
      cases exec W (.observe :: H) body s with
      | mk o s' =>
      cases Spec.exec true W (Spec.inTest x) body t with
      | mk o' t' =>
      intro h
      rcases h with h | h
      · cases h; exact .inl rfl
      · have ho := h.out
        cases o with
        | ok =>
          cases o' <;> simp only [OutRel] at ho
          simp only [hv, Bool.true_and, if_true]
          exact .inl rfl
        | jump i n =>
          cases o' <;> simp only [OutRel] at ho
          obtain ⟨rfl, H', e, rfl⟩ := ho
          cases e
          simp only [observed, if_true]
          exact .inr ((conclude_good (hr.stk h.stk) h.cnt .error).mono h.stk h.pre)
        | exc e =>
          cases o' <;> simp only [OutRel] at ho
          subst ho
          cases e with
          | exit => exact .inl rfl
          | base => exact .inr ⟨rfl, h.cnt, h.stk, h.pre⟩
          | user n => exact .inr ((conclude_good (hr.stk h.stk) h.cnt .error).mono h.stk h.pre)
          | control => exact .inr ((conclude_good (hr.stk h.stk) h.cnt .error).mono h.stk h.pre)
          | runtime => exact .inr ((conclude_good (hr.stk h.stk) h.cnt .error).mono h.stk h.pre)
    · rw [test_spec W x body v t (by simpa using hv)]
      simp only [exec]
      refine endTest_sim hr _ _ _ (fun m s => assertValue W H m v s) ?_ ?_ ?_ h
      · intro s₁ t₁ hr₁ hc₁
        cases v with
        | val b => cases b
                   · exact conclude_good hr₁ hc₁ .fail
                   · exact pass_good hc₁
        | marker k => cases k
                      · exact conclude_good hr₁ hc₁ .fail
                      · exact conclude_good hr₁ hc₁ .error
                      · exact conclude_good hr₁ hc₁ .warn
        | badBool e => exact absurd rfl hv
        | badStr b e => exact absurd rfl hv
      · intro n s₁ t₁ hr₁ hc₁; exact conclude_good hr₁ hc₁ .error
      · intro n s₁ t₁ hr₁ hc₁; exact conclude_good hr₁ hc₁ .error
  | testSignals ty body ih =>
    intro x H s t hr hc
    have h := ih (Spec.inTest x) (.observe :: H) s t hr.inTest hc
    simp only [exec, Spec.exec]
    refine endTest_sim hr _ _ _ (fun m s => assertSignals W H m ty s) ?_ ?_ ?_ h
    · intro s₁ t₁ hr₁ hc₁; exact conclude_good hr₁ hc₁ .fail
    · intro n s₁ t₁ hr₁ hc₁
      simp only [assertSignals]
      cases W.isCond n ty
      · exact conclude_good hr₁ hc₁ .error
      · exact pass_good hc₁
    · intro n s₁ t₁ hr₁ hc₁; exact conclude_good hr₁ hc₁ .error
  | testRaises ty body ih =>
    intro x H s t hr hc
    have h := ih (Spec.inTest x) (.observe :: H) s t hr.inTest hc
    simp only [exec, Spec.exec]
    refine endTest_sim hr _ _ _ (fun m s => assertRaises W H m ty s) ?_ ?_ ?_ h
    · intro s₁ t₁ hr₁ hc₁; exact conclude_good hr₁ hc₁ .fail
    · intro n s₁ t₁ hr₁ hc₁; exact conclude_good hr₁ hc₁ .error
    · intro n s₁ t₁ hr₁ hc₁
      simp only [assertRaises]
      cases W.isExc n ty
      · exact conclude_good hr₁ hc₁ .error
      · exact pass_good hc₁
  | testset pp body ih =>
    intro x H s t hr hc
    simp only [exec, Spec.exec]
    rcases testset_sim hr hc pp true (fun level => exec W (.testset level :: H) body) (Spec.exec true W (Spec.inTestset x pp) body)
      (fun s₁ t₁ h₁ h₂ => ih _ _ s₁ t₁ h₁ h₂) with h | ⟨⟨o, s₁⟩, g, he, hne⟩
    · exact .inl h
    · right
      rw [he]
      cases o with
      | exc e => cases e <;> first | exact g | exact absurd rfl (hne rfl)
      | _ => exact g
  | session body ih =>
    intro x H s t hr hc
    simp only [exec, Spec.exec]
    rw [hr.level]
    by_cases hl : x.level > 0
    · rw [if_pos hl, if_pos hl]; exact .inr ⟨rfl, hc, .rfl' _, List.prefix_refl _⟩
    · rw [if_neg hl, if_neg hl]
      rcases testset_sim (s := s.print .sessionBegin) (t := t.print .sessionBegin) (hr.stk ⟨rfl, rfl, rfl⟩) (hc.print _) none false
        (fun level => exec W (.testset level :: H) body) (Spec.exec true W (Spec.inTestset x none) body)
        (fun s₁ t₁ h₁ h₂ => ih _ _ s₁ t₁ h₁ h₂) with h | ⟨⟨o, s₁⟩, g, he, _⟩
      · left
        revert h
        simp only [Spec.State.print]
        cases Spec.endTestset _ _ _ _ with
        | mk o t₁ => intro h; cases h; rfl
      · right
        rw [he]
        revert g
        simp only [Spec.State.print]
        cases Spec.endTestset _ _ _ _ with
        | mk o' t₁ =>
          intro g
          have ho := g.out
          have g' := g.mono (s := s) (t := t) ⟨rfl, rfl, rfl⟩ (List.prefix_refl _)
          cases o with
          | ok =>
            cases o' <;> simp only [OutRel] at ho
            exact ⟨trivial, g'.cnt.print _, g'.stk.trans ⟨rfl, rfl, rfl⟩, g'.pre⟩
          | exc e =>
            cases o' <;> simp only [OutRel] at ho
            subst ho
            cases e <;> first
              | exact ⟨rfl, g'.cnt, g'.stk, g'.pre⟩
              | exact ⟨trivial, g'.cnt.print _, g'.stk.trans ⟨rfl, rfl, rfl⟩, g'.pre⟩
          | jump i n =>
            cases o' <;> simp only [OutRel] at ho
            exact ⟨ho, g'.cnt, g'.stk, g'.pre⟩

theorem run_sim (W : World) (c : Cmd) : Sim [] start ⟨[], []⟩ (run W c) (Spec.run true W c) :=
  exec_sim W c ⟨[], true, W.postproc, 0⟩ [] start ⟨[], []⟩ ⟨rfl, rfl, rfl, rfl⟩ ⟨rfl, rfl, rfl, rfl, rfl⟩

end Unpy.Fixtures.Proof
