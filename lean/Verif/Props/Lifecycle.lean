import Verif.Proof.Lifecycle
/-! # C116: starting and stopping the REPL server -/
namespace Unpy.Props
open Unpy.Lifecycle Unpy.Spec.Lifecycle

/-- A process without prompts, and with its usual streams -/
def plainSys : Sys := ⟨.file 0, .file 1, .file 2, none, none⟩

/-- **C116**: there is at most one server in a process.  After a `start` that has succeeded, and as long as there is no `stop`, each further `start` is a RuntimeError and changes nothing; the server listens on its two ports, which are different. -/
theorem C116_single (sys : Sys) (pre post : List Op) (ns r c : Nat) (busy : List Nat) (h : (step (run (init sys) pre) (.start ns r c busy)).2 = none) (hs : .stop ∉ post)
    (ns' r' c' : Nat) (busy' : List Nat) :
    step (run (init sys) (pre ++ .start ns r c busy :: post)) (.start ns' r' c' busy') = (run (init sys) (pre ++ .start ns r c busy :: post), some .runtime)
      ∧ r ∈ (run (init sys) (pre ++ .start ns r c busy :: post)).listening ∧ c ∈ (run (init sys) (pre ++ .start ns r c busy :: post)).listening ∧ r ≠ c := by
  obtain ⟨_, _, _, _, _, hne, hst⟩ := start_ok h
  have e1 : run (init sys) (pre ++ .start ns r c busy :: post) = run (start ns r c busy (run (init sys) pre)).1 post := by
    rw [run_append]; rfl
  have on : (start ns r c busy (run (init sys) pre)).1.instance?.isSome = true := by rw [hst]; rfl
  have h2 := run_on on hs
  rw [e1]
  refine ⟨start_on (by rw [h2.1]; exact on), ?_, ?_, hne⟩ <;> rw [h2.2, hst] <;> simp

example : (step (run (init plainSys) [.start 0 1337 8128 [], .stop]) (.start 1 1337 8128 [22])).2 = none := by decide

/-- **C116**: `start` succeeds exactly when no server runs and the two ports are different and free. -/
theorem C116_start (s : State) (ns r c : Nat) (busy : List Nat) :
    (step s (.start ns r c busy)).2 = none ↔ s.instance? = none ∧ r ≠ c ∧ r ∉ busy ∧ c ∉ busy ∧ r ∉ s.listening ∧ c ∉ s.listening := by
  constructor
  · intro h
    obtain ⟨h1, h2, h3, h4, h5, h6, _⟩ := start_ok h
    exact ⟨h1, h6, h2, h4, h3, h5⟩
  · rintro ⟨h1, h2, h3, h4, h5, h6⟩
    simp only [step, start, h1]
    rw [if_neg (by simp), if_neg (by simp [h3, h5]), if_neg (by simp [h4, h6, Ne.symm h2])]

/-- **C116**: a server that was started is stopped by `stop`: its ports are closed, nothing is left for the exit of the process, and a new server can be started, on the same ports or on others that are free. -/
theorem C116_stop (sys : Sys) (pre post : List Op) (ns r c : Nat) (busy : List Nat) (h : (step (run (init sys) pre) (.start ns r c busy)).2 = none) (hs : .stop ∉ post) :
    let s := run (init sys) (pre ++ .start ns r c busy :: post ++ [.stop])
    r ∉ s.listening ∧ c ∉ s.listening ∧ s.instance? = none ∧ s.locals? = none ∧ s.atexit = 0 ∧ (∀ p, p ∈ s.listening ↔ p ∈ (run (init sys) pre).listening)
      ∧ ∀ ns' busy', r ∉ busy' → c ∉ busy' → (step s (.start ns' r c busy')).2 = none := by
  obtain ⟨_, hr1, hr, hc1, hc, hne, hst⟩ := start_ok h
  have e1 : run (init sys) (pre ++ .start ns r c busy :: post ++ [.stop]) = (stop (run (start ns r c busy (run (init sys) pre)).1 post)).1 := by
    rw [run_snoc, run_append]; rfl
  have on : (start ns r c busy (run (init sys) pre)).1.instance? = some (r, c) := by rw [hst]
  have h2 := run_on (by rw [on]; rfl) hs
  have h3 := stop_fields _ r c (h2.1.trans on)
  rw [h2.2, hst] at h3
  have hl : (((run (init sys) pre).listening ++ [r] ++ [c]).erase r).erase c = (run (init sys) pre).listening := by
    rw [List.append_assoc, List.erase_append_right _ hr]
    simp only [List.cons_append, List.nil_append, List.erase_cons_head]
    rw [List.erase_append_right _ hc]; simp
  rw [hl] at h3
  intro s
  have hss : s = (stop (run (start ns r c busy (run (init sys) pre)).1 post)).1 := e1
  rw [hst] at hss
  rw [← hss] at h3
  refine ⟨by rw [h3.1]; exact hr, by rw [h3.1]; exact hc, h3.2.1, h3.2.2.1, h3.2.2.2, fun p => by rw [h3.1], ?_⟩
  intro ns' busy' hr' hc'
  rw [C116_start]
  exact ⟨h3.2.1, hne, hr', hc', by rw [h3.1]; exact hr, by rw [h3.1]; exact hc⟩

/-- **C116**: `stop` does nothing and gives no error when no server runs; in particular it may be called again. -/
theorem C116_stop_again (s : State) : (s.instance? = none → stop s = (s, none)) ∧ stop (stop s).1 = ((stop s).1, none) := by
  have h0 : ∀ s : State, s.instance? = none → stop s = (s, none) := by intro s h; simp [stop, h]
  refine ⟨h0 s, ?_⟩
  cases h : s.instance? with
  | none => rw [h0 s h]; exact h0 s h
  | some p => exact h0 _ (stop_fields s p.1 p.2 h).2.1

/-- **C116**: `stop` is registered for the exit of the process exactly while a server runs, once. -/
theorem C116_exit (sys : Sys) (ops : List Op) :
    (run (init sys) ops).atexit = (if (run (init sys) ops).instance?.isSome then 1 else 0) := by
  have h := inv_run (init sys) ops (inv_init sys)
  cases hi : (run (init sys) ops).instance? with
  | none => simp [h.off hi]
  | some p => simp [(h.on p.1 p.2 hi).1]

/-- **C116**: `stop` gives back the streams and the prompts: if there were two prompts that are not empty, or none, when the module was imported, and nothing was assigned to them while the server ran, then after `stop` they are as at the import.  Missing: streams and prompts assigned between the import and `start` (`C116_streams_refuted`), empty prompts and a single one (`C116_prompts_refuted`). -/
theorem C116_restores_partial (sys : Sys) (pre post : List Op) (ns r c : Nat) (busy : List Nat) (hp : Prompts sys) (h : (step (run (init sys) pre) (.start ns r c busy)).2 = none)
    (hs : .stop ∉ post) (ha : ∀ y, .assign y ∉ post) :
    (step (run (init sys) (pre ++ .start ns r c busy :: post)) .stop).2 = none ∧ (step (run (init sys) (pre ++ .start ns r c busy :: post)) .stop).1.sys = sys := by
  obtain ⟨_, _, _, _, _, _, hst⟩ := start_ok h
  have e1 : run (init sys) (pre ++ .start ns r c busy :: post) = run (start ns r c busy (run (init sys) pre)).1 post := by
    rw [run_append]; rfl
  have on : (start ns r c busy (run (init sys) pre)).1.instance? = some (r, c) := by rw [hst]
  have h2 := run_on (by rw [on]; rfl) hs
  have h3 := run_on_sys (by rw [on]; rfl) hs ha
  have hk : (run (init sys) (pre ++ .start ns r c busy :: post)).kept = (init sys).kept := kept_run _ _
  rw [← e1] at h2 h3
  rw [on] at h2
  generalize run (init sys) (pre ++ .start ns r c busy :: post) = s at *
  have hsys : s.sys = ⟨.shimIn, .shimOut, .shimErr, some ">>>> ", some ".... "⟩ := by rw [h3, hst]
  obtain ⟨i, o, e, p1, p2⟩ := sys
  rcases hp with ⟨h1, h4⟩ | ⟨p, q, h1, h4, h5, h6⟩
  · simp only at h1 h4
    subst h1 h4
    simp [step, stop, h2.1, hk, hsys, init, restore]
  · simp only at h1 h4
    subst h1 h4
    simp [step, stop, h2.1, hk, hsys, init, restore, h5, h6]

example : Prompts plainSys := .inl ⟨rfl, rfl⟩
example : Prompts ⟨.file 0, .file 1, .file 2, some ">>> ", some "... "⟩ := .inr ⟨_, _, rfl, rfl, by decide, by decide⟩

/-- **C116**, a counterexample: a program that has replaced `sys.stdout` since the module was imported, for example to redirect it, finds it undone after it has started and stopped a server. -/
theorem C116_streams_refuted :
    ∃ sys now, now.stdout ≠ sys.stdout ∧ (run (init sys) [.assign now, .start 0 1337 8128 [], .stop]).sys = sys :=
  ⟨plainSys, ⟨.file 0, .file 7, .file 2, none, none⟩, by decide, by decide⟩

/-- **C116**, counterexamples: an empty prompt is deleted, and so is `sys.ps1` when there is no `sys.ps2`; and if the prompts have been deleted while the server ran, then `stop` is an AttributeError, with the server stopped. -/
theorem C116_prompts_refuted :
    (run (init ⟨.file 0, .file 1, .file 2, some "", some "... "⟩) [.start 0 1337 8128 [], .stop]).sys.ps1 = none
      ∧ (run (init ⟨.file 0, .file 1, .file 2, some "> ", none⟩) [.start 0 1337 8128 [], .stop]).sys.ps1 = none
      ∧ (step (run (init plainSys) [.start 0 1337 8128 [], .assign plainSys]) .stop).2 = some .attribute := by decide

/-- **C116**, a counterexample: each `start` that fails because a port is taken has already replaced the streams and the prompts, whatever they were, and `stop` does not give them back: it does nothing. -/
theorem C116_failed_start_refuted (s : State) (ns r c : Nat) (busy : List Nat) (h : (step s (.start ns r c busy)).2 = some .os) :
    let t := (step s (.start ns r c busy)).1
    t.sys = ⟨.shimIn, .shimOut, .shimErr, some ">>>> ", some ".... "⟩ ∧ step t .stop = (t, none) := by
  intro t
  have ht : t = (step s (.start ns r c busy)).1 := rfl
  simp only [step, start] at h ht
  split at h
  · simp at h
  · rename_i hi
    have hn : s.instance? = none := by cases hs : s.instance? <;> simp_all
    rw [if_neg hi] at ht
    split at h
    · rename_i hr
      rw [if_pos hr] at ht
      rw [ht]
      exact ⟨rfl, (C116_stop_again _).1 hn⟩
    · rename_i hr
      rw [if_neg hr] at ht
      split at h
      · rename_i hc
        rw [if_pos hc] at ht
        rw [ht]
        exact ⟨rfl, (C116_stop_again _).1 hn⟩
      · simp at h

example : (step (init plainSys) (.start 0 1337 8128 [1337])).2 = some .os := by decide

/-- **C116**, a counterexample: if the port for the control channel is taken, then the server for the sessions stays, though `start` has failed: no `stop` and no further `start` closes its port, and a new `start` on it fails, even when the other port has become free. -/
theorem C116_leak_refuted (sys : Sys) (ops : List Op) (busy : List Nat) :
    1337 ∈ (run (init sys) (.start 0 1337 8128 [8128] :: ops)).listening
      ∧ (step (run (init sys) (.start 0 1337 8128 [8128] :: ops)) (.start 0 1337 8128 busy)).2 ≠ none := by
  have key : ∀ (ops : List Op) (s : State), 1337 ∈ s.listening → Inv s → (∀ r c, s.instance? = some (r, c) → r ≠ 1337 ∧ c ≠ 1337) →
      1337 ∈ (run s ops).listening := by
    intro ops
    induction ops with
    | nil => intro s h _ _; exact h
    | cons o ops ih =>
      intro s h hv hi
      refine ih _ ?_ (inv_step s o hv) ?_
      · cases o with
        | start ns r c b => simp only [step, start]; split <;> (try split) <;> (try split) <;> simp [h]
        | stop =>
          cases hs : s.instance? with
          | none => simp [step, stop, hs, h]
          | some p =>
            obtain ⟨h1, h2⟩ := hi p.1 p.2 hs
            simp only [step, (stop_fields s p.1 p.2 hs).1]
            rw [List.mem_erase_of_ne h2.symm, List.mem_erase_of_ne h1.symm]
            exact h
        | assign => exact h
        | ev => exact h
      · intro r c hrc
        cases o with
        | start ns r' c' b =>
          by_cases hok : (step s (.start ns r' c' b)).2 = none
          · obtain ⟨_, _, h1, _, h2, _, hst⟩ := start_ok hok
            have : (step s (.start ns r' c' b)).1.instance? = some (r', c') := congrArg State.instance? hst
            rw [this] at hrc
            simp only [Option.some.injEq, Prod.mk.injEq] at hrc
            obtain ⟨rfl, rfl⟩ := hrc
            exact ⟨fun h' => h1 (h' ▸ h), fun h' => h2 (h' ▸ h)⟩
          · have : (step s (.start ns r' c' b)).1.instance? = s.instance? := by
              simp only [step, start] at hok ⊢
              split
              · rfl
              · split
                · rfl
                · split
                  · rfl
                  · rename_i h1 h2 h3
                    exact absurd (by rw [if_neg h1, if_neg h2, if_neg h3]) hok
            exact hi r c (this ▸ hrc)
        | stop =>
          cases hs : s.instance? with
          | none => simp [step, stop, hs] at hrc
          | some p => simp [step, (stop_fields s p.1 p.2 hs).2.1] at hrc
        | assign => exact hi r c hrc
        | ev => exact hi r c hrc
  have h := key ops (step (init sys) (.start 0 1337 8128 [8128])).1 (by simp [step, start, init]) (inv_step _ _ (inv_init sys)) (by simp [step, start, init])
  refine ⟨h, fun hok => ?_⟩
  exact (start_ok hok).2.2.1 h

/-- **C116**: `main`, the server started from the command line, ends at the first Ctrl+C, or at the first look at the clock when the last `halt` asked for it, and was not cancelled, and every session that was opened has ended: neither earlier nor later. -/
theorem C116_main (es : List Ev) : match loop {} es with
    | none => ∀ pre e post, es = pre ++ e :: post → ¬ Over pre e
    | some rest => ∃ pre e, es = pre ++ e :: rest ∧ Over pre e ∧ ∀ pre' e' post', pre = pre' ++ e' :: post' → ¬ Over pre' e' := by
  have := loop_spec says_nil es (by simp)
  cases h : loop {} es <;> rw [h] at this <;> simpa using this

example : loop {} [.opens 1, .halt true, .tick, .opens 2, .ends 1, .tick, .ends 2, .tick, .opens 3] = some [.opens 3] := by decide
example : loop {} [.opens 1, .halt true, .ends 1, .halt false, .tick] = none := by decide

/-- **C116**, a counterexample: `halt` is there in all sessions, and says that the server will shut down after the last client has disconnected, but a server that was started by `start` never does: whatever happens in the sessions, it stays. -/
theorem C116_halt_refuted (sys : Sys) (es : List Ev) :
    run (init sys) (.start 0 1337 8128 [] :: es.map .ev) = { (run (init sys) [.start 0 1337 8128 []]) with main := (run (init sys) (.start 0 1337 8128 [] :: es.map .ev)).main }
      ∧ (run (init sys) (.start 0 1337 8128 [] :: es.map .ev)).listening = [1337, 8128] := by
  have key : ∀ (es : List Ev) (s : State), run s (es.map .ev) = { s with main := (run s (es.map .ev)).main } := by
    intro es
    induction es with
    | nil => intro s; rfl
    | cons e es ih => intro s; exact (ih (step s (.ev e)).1)
  have h := key es (step (init sys) (.start 0 1337 8128 [])).1
  refine ⟨h, ?_⟩
  have : (run (init sys) (.start 0 1337 8128 [] :: es.map .ev)).listening = (step (init sys) (.start 0 1337 8128 [])).1.listening := by
    show (run (step (init sys) (.start 0 1337 8128 [])).1 (es.map .ev)).listening = _
    rw [h]
  rw [this]; simp [step, start, init]

end Unpy.Props
