import Verif.Proof.Control
/-!
# C110: the control channel of the REPL server.  C111: background jobs
-/
namespace Unpy.Props
open Unpy.Control Unpy.Spec.Control Unpy.Proof.Control

/-- The outputs of a history (the newest event first) -/
def ctlOutputs (complete : Json → Json → Option Json) (h : List Ev) : List Out := (run complete h.reverse S.init).2

/-- a request -/
private def req (c : String) (more : List (String × Json)) : Json := .obj (("command", .str c) :: more)

private def noCompleter : Json → Json → Option Json := fun _ _ => none

/-- two sessions, and a channel that is paired with the second one -/
private def two : List Ev := [.recv 5 (some (req "PairWithSession" [("id", .num 2)])), .connect 5, .ready 2, .opens 11, .ready 1, .opens 10]

private theorem waits_two (cm) : Has cm two 5 .waits := by
  refine .recv .connect (.waits ?_ ?_)
  · simp [Answerable, request, req, field, IsKey]
  · intro n h; simp [request, req, field] at h

private theorem two_legal (cm) : Legal cm two := by
  refine .recv (.connect (.ready (.opens (.ready (.opens .nil ?_) ?_) ?_) ?_) ?_) .connect
  · intro n h; cases h
  · simp [Open, sessions]
  · intro n h; simp [Alive, ident, sessions] at h ⊢; simp [h]
  · simp [Open, sessions]
  · exact .ready (.opens (.ready (.opens .init)))

private theorem two_paired : Paired two 5 2 := by
  refine .inl ⟨rfl, .num 2, ?_, rfl, ?_⟩
  · simp [request, req, field]
  · simp [Open, sessions]

/-- Each request that can be answered gets the answer it should get, whatever has happened before in this channel, in others, and in the sessions. -/
theorem C110_answers {complete h c j r} (hl : Legal complete h) (hw : Has complete h c .waits) (hj : Answerable complete j) (hr : Answer complete h c j r) :
    ctlOutputs complete (.recv c (some j) :: h) = ctlOutputs complete h ++ [.reply c r] := by
  have hn : ∀ n, request j = .interrupt → Paired h c n → Open h n → ¬ Ready h n := by
    intro n hi hp ho hready
    cases hr with
    | notPaired _ hno => exact hno n hp
    | gone _ hp' hno => exact hno (paired_det hp hp' ▸ ho)
    | noThread _ hp' _ hno => exact hno (paired_det hp hp' ▸ hready)
    | _ => simp_all
  obtain ⟨r', hr', ho⟩ := out_recv hl hw hj hn
  rw [ctlOutputs, out_cons, ho, answer_det hr hr', ctlOutputs]

example : ctlOutputs noCompleter (.recv 5 (some (req "PairWithSession" [("id", .num 3)])) :: two) = ctlOutputs noCompleter two ++ [.reply 5 (.failed .noSession)] :=
  C110_answers (two_legal _) (waits_two _) (by simp [Answerable, request, req, field, IsKey])
    (.noSession (id := .num 3) (by simp [request, req, field]) fun n hn => by
      simp only [Names] at hn
      have : n = 3 := by omega
      subst this; simp [Open, two, sessions])

/-- There is an answer to every request that can be answered, except to one for an interrupt that is going to be delivered. -/
theorem C110_complete {complete h c j} (hl : Legal complete h) (hw : Has complete h c .waits) (hj : Answerable complete j) :
    (∃ r, Answer complete h c j r) ∨
    ((∃ n, request j = .interrupt ∧ Paired h c n ∧ Open h n ∧ Ready h n ∧ Has complete (.recv c (some j) :: h) c (.interrupts n)) ∧
      ctlOutputs complete (.recv c (some j) :: h) = ctlOutputs complete h) := by
  by_cases hn : ∀ n, request j = .interrupt → Paired h c n → Open h n → ¬ Ready h n
  · obtain ⟨r, hr, _⟩ := out_recv hl hw hj hn
    exact .inl ⟨r, hr⟩
  · simp only [Classical.not_forall, Classical.not_not] at hn
    obtain ⟨n, h1, h2, h3, h4⟩ := hn
    have ha : After complete h c (some j) (.interrupts n) := .interrupts h1 h2 h3 h4
    exact .inr ⟨⟨n, h1, h2, h3, h4, .recv hw ha⟩, by rw [ctlOutputs, out_cons, out_busy hl hw ha, List.append_nil, ctlOutputs]⟩

private def interrupting : List Ev := .recv 5 (some (req "KeyboardInterrupt" [])) :: two

private theorem has_interrupting (cm) : Has cm interrupting 5 (.interrupts 2) :=
  .recv (waits_two cm) (.interrupts (by simp [request, req, field]) two_paired (by simp [Open, two, sessions]) (by simp [Ready, two, sessions]))

private theorem legal_interrupting (cm) : Legal cm interrupting := .recv (two_legal cm) (waits_two cm)

example : ctlOutputs noCompleter interrupting = ctlOutputs noCompleter two := by
  rcases C110_complete (complete := noCompleter) (c := 5) (j := req "KeyboardInterrupt" []) (two_legal _) (waits_two _) (by simp [Answerable, request, req, field]) with ⟨r, hr⟩ | ⟨_, h⟩
  · cases hr with
    | notPaired _ h => exact absurd two_paired (h 2)
    | gone _ h h' => rw [paired_det h two_paired] at h'; exact absurd (by simp [Open, two, sessions]) h'
    | noThread _ h _ h' => rw [paired_det h two_paired] at h'; exact absurd (by simp [Ready, two, sessions]) h'
    | _ => simp_all [request, req, field]
  · exact h

/-- A session whose thread is running is interrupted, if its control channel asks for it, and no other session is. -/
theorem C110_interrupt {complete h c n} (hl : Legal complete h) (hw : Has complete h c (.interrupts n)) (ha : Alive h n) :
    ctlOutputs complete (.deliver c :: h) = ctlOutputs complete h ++ [.interrupt c n, .reply c .interrupted] := by
  have hg := agree complete h
  rw [ctlOutputs, out_cons, ctlOutputs]
  simp only [step, chan_busy hl hw]
  cases hv : victim (state complete h) n with
  | none => exact absurd rfl (victim_none hg (alive_range ha) hv n ha)
  | some v =>
    have ⟨h1, h2⟩ := victim_some hg hv
    rw [ident_inj hl v n h1 ha h2]

example : ctlOutputs noCompleter (.deliver 5 :: interrupting) = ctlOutputs noCompleter interrupting ++ [.interrupt 5 2, .reply 5 .interrupted] :=
  C110_interrupt (legal_interrupting _) (has_interrupting _) (by simp [Alive, interrupting, two, sessions])

/-- If the thread of the session has ended in the meantime, and no other one has its ident, then nobody is interrupted, and the client is told so.
The full property says: if the thread of the session has ended, nobody is interrupted.  It is refuted by `C110_wrong_session_refuted`. -/
theorem C110_too_late_partial {complete h c n} (hl : Legal complete h) (hw : Has complete h c (.interrupts n)) (ha : ∀ v, Alive h v → ident h v ≠ ident h n) :
    ctlOutputs complete (.deliver c :: h) = ctlOutputs complete h ++ [.reply c (.failed .interruptFailed)] := by
  have hg := agree complete h
  rw [ctlOutputs, out_cons, ctlOutputs]
  simp only [step, chan_busy hl hw]
  cases hv : victim (state complete h) n with
  | none => rfl
  | some v =>
    have ⟨h1, h2⟩ := victim_some hg hv
    exact absurd h2 (ha v h1)

private def tooLate : List Ev := .exits 2 :: .closes 2 :: interrupting

private theorem legal_tooLate (cm) : Legal cm tooLate := by
  refine .exits (.closes (legal_interrupting cm) ?_) ?_ ?_ <;> simp [Open, Alive, interrupting, two, sessions]

private theorem has_tooLate (cm) : Has cm tooLate 5 (.interrupts 2) := .exits (.closes (has_interrupting cm))

example : ctlOutputs noCompleter (.deliver 5 :: tooLate) = ctlOutputs noCompleter tooLate ++ [.reply 5 (.failed .interruptFailed)] := by
  refine C110_too_late_partial (n := 2) (legal_tooLate _) (has_tooLate _) ?_
  intro v hv
  simp [Alive, ident, tooLate, interrupting, two, sessions] at hv ⊢
  rcases hv with ⟨h2, rfl | rfl⟩
  · exact absurd rfl h2
  · simp

/-- Only what a channel asks for interrupts a session: an interrupt comes from a request for it in a channel that was paired with an open session then, and that has
done nothing else since; it hits this session, or one whose thread has the same ident, and then this session's thread has ended.
The full property says: it hits this session.  It is refuted by `C110_wrong_session_refuted`. -/
theorem C110_isolation_partial {complete e h c v} {new : List Out} (hl : Legal complete (e :: h)) (ho : ctlOutputs complete (e :: h) = ctlOutputs complete h ++ new)
    (hv : Out.interrupt c v ∈ new) :
    e = .deliver c ∧ Alive h v ∧ ∃ n h₁ h₂ j, h = h₁ ++ .recv c (some j) :: h₂ ∧ request j = .interrupt ∧ Paired h₂ c n ∧ Open h₂ n ∧ (∀ e' ∈ h₁, ¬ About c e') ∧
      ident h v = ident h n ∧ (Alive h n → v = n) := by
  rw [ctlOutputs, out_cons] at ho
  have ho := List.append_cancel_left ho
  subst ho
  cases hl with
  | opens | ready | closes | exits | connect => simp [step] at hv
  | recv hl hc =>
    simp only [step] at hv
    split at hv
    · split at hv <;> simp at hv
    · simp at hv
  | @deliver _ d n hl hc =>
    simp only [step, chan_busy hl hc] at hv
    split at hv
    · rename_i v' hv'
      simp only [List.mem_cons, Out.interrupt.injEq, reduceCtorEq, List.not_mem_nil, or_false] at hv
      obtain ⟨rfl, rfl⟩ := hv
      have ⟨h1, h2⟩ := victim_some (agree complete h) hv'
      obtain ⟨h₁, h₂, j, h3, h4, h5, h6, _, h8⟩ := requested hl hc
      exact ⟨rfl, h1, n, h₁, h₂, j, h3, h4, h5, h6, h8, h2, fun hn => ident_inj hl _ _ h1 hn h2⟩
    · simp at hv

example : Alive interrupting 2 :=
  (C110_isolation_partial (c := 5) (v := 2) (complete := noCompleter) (.deliver (legal_interrupting _) (has_interrupting _))
    (C110_interrupt (legal_interrupting _) (has_interrupting _) (by simp [Alive, interrupting, two, sessions])) (by simp)).2.1

/-- If the session ends after the request for an interrupt has been seen, and a new session begins in a thread that gets the ident of the old one, then the new session is interrupted,
with which the channel has never been paired.  Its client is told that the interrupt was delivered. -/
theorem C110_wrong_session_refuted :
    ¬ ∀ complete e h c v new, Legal complete (e :: h) → ctlOutputs complete (e :: h) = ctlOutputs complete h ++ new → Out.interrupt c v ∈ new →
      ∃ h₁ h₂, h = h₁ ++ h₂ ∧ Paired h₂ c v := by
  intro hall
  have hl : Legal noCompleter (.ready 3 :: .opens 11 :: tooLate) := by
    refine .ready (.opens (legal_tooLate _) ?_) ?_
    · intro n hn
      simp [Alive, ident, tooLate, interrupting, two, sessions] at hn ⊢
      rcases hn with ⟨h2, rfl | rfl⟩
      · exact absurd rfl h2
      · simp
    · simp [Open, tooLate, interrupting, two, sessions]
  have hb : Has noCompleter (.ready 3 :: .opens 11 :: tooLate) 5 (.interrupts 2) := .ready (.opens (has_tooLate _))
  obtain ⟨h₁, h₂, he, hp⟩ := hall noCompleter (.deliver 5) (.ready 3 :: .opens 11 :: tooLate) 5 3 [.interrupt 5 3, .reply 5 .interrupted] (.deliver hl hb) (by
    simp only [ctlOutputs]
    rw [out_cons]
    simp only [step, chan_busy hl hb]
    rfl) (by simp)
  have key : ∀ h₂, h₂ <:+ (Ev.ready 3 :: .opens 11 :: tooLate) → ¬ Paired h₂ 5 3 := by
    intro h₂ hs hp
    simp only [tooLate, interrupting, two, List.suffix_cons_iff, List.suffix_nil] at hs
    rcases hs with rfl | rfl | rfl | rfl | rfl | rfl | rfl | rfl | rfl | rfl | rfl | rfl <;>
      simp [Paired, request, req, field, Open, Names, sessions] at hp <;> omega
  exact key h₂ ⟨h₁, he.symm⟩ hp

/-- A session that has been closed cannot be interrupted by a new request, and no channel can be paired with it, whatever has been opened since: ids are not used again. -/
theorem C110_closed {complete h c j n} (hl : Legal complete h) (hw : Has complete h c .waits) (hc : Ev.closes n ∈ h) :
    (request j = .interrupt → Paired h c n → ctlOutputs complete (.recv c (some j) :: h) = ctlOutputs complete h ++ [.reply c (.failed .sessionGone)]) ∧
    (∀ id, request j = .pair (some id) → Names n id → ctlOutputs complete (.recv c (some j) :: h) = ctlOutputs complete h ++ [.reply c (.failed .noSession)]) := by
  have hno := (closes_range hl hc).2
  constructor
  · intro hj hp
    exact C110_answers hl hw (answerable_interrupt hj) (.gone hj hp hno)
  · intro id hj hn
    refine C110_answers hl hw ?_ (.noSession hj fun m hm => by rw [names_det hm hn]; exact hno)
    cases id <;> simp_all [Answerable, Names, IsKey]

example : ctlOutputs noCompleter (.recv 5 (some (req "KeyboardInterrupt" [])) :: .opens 12 :: .closes 2 :: two) =
    ctlOutputs noCompleter (.opens 12 :: .closes 2 :: two) ++ [.reply 5 (.failed .sessionGone)] := by
  refine (C110_closed (n := 2) ?_ (.opens (.closes (waits_two _))) (by simp)).1 (by simp [request, req, field]) ?_
  · refine .opens (.closes (two_legal _) ?_) ?_
    · simp [Open, two, sessions]
    · intro n h; simp [Alive, ident, two, sessions] at h ⊢; rcases h with rfl | rfl <;> simp
  · exact two_paired

/-- What happens in a channel does not depend on what the other channels do: the outputs of a channel are those it has if there are no events of other channels. -/
theorem C110_independent (complete : Json → Json → Option Json) (c : Nat) (es : List Ev) :
    (run complete es S.init).2.filter (channel · == c) = (run complete (es.filter (!Elsewhere c ·)) S.init).2 :=
  independent es S.init S.init rfl rfl

example : ((run noCompleter [.connect 1, .connect 2, .recv 2 (some (req "KeyboardInterrupt" [])), .recv 1 (some (req "DescribeServer" []))] S.init).2.filter (channel · == 1)) = [.reply 1 .describe] := by
  rw [C110_independent]; rfl

/-- Each message gets one answer, which is a reply or the end of the channel, except that there is none yet to a request for an interrupt that has not been delivered. -/
theorem C110_one_answer {complete h} (hl : Legal complete h) (c : Nat) :
    ((∃ n, Has complete h c (.interrupts n)) → ((ctlOutputs complete h).filter (IsAnswer c)).length + 1 = (h.filter (IsMessage c)).length) ∧
    ((¬ ∃ n, Has complete h c (.interrupts n)) → ((ctlOutputs complete h).filter (IsAnswer c)).length = (h.filter (IsMessage c)).length) := by
  have := count complete c h hl
  constructor
  · rintro ⟨n, hn⟩
    rw [chan_busy hl hn] at this; exact this
  · intro hno
    have hr := rel hl c
    cases hch : (state complete h).chan c with
    | closed => rw [hch] at this; exact this
    | idle p => rw [hch] at this; exact this
    | busy p t => rw [hch] at hr; exact absurd ⟨t, hr.2.1⟩ hno

example : ((ctlOutputs noCompleter interrupting).filter (IsAnswer 5)).length + 1 = 2 := (C110_one_answer (legal_interrupting _) 5).1 ⟨2, has_interrupting _⟩

/-- A message that cannot be answered ends the channel: there is no reply. -/
theorem C110_unanswerable {complete h c j} (hl : Legal complete h) (hw : Has complete h c .waits) (hj : ¬ Answerable complete j) :
    ctlOutputs complete (.recv c (some j) :: h) = ctlOutputs complete h ++ [.hangup c] := by
  rw [ctlOutputs, out_cons, out_hangup hl hw (.failed hj), ctlOutputs]

example : ctlOutputs noCompleter (.recv 5 (some (.num 1)) :: two) = ctlOutputs noCompleter two ++ [.hangup 5] :=
  C110_unanswerable (two_legal _) (waits_two _) (by simp [Answerable, request])

/-- "For each request received, the server sends a reply, which is also a dictionary with str keys.": there is none, and the channel is closed, if a request is a dictionary without any
keys, if the id of a session is a list, and if `complete` raises an exception (for `text` that is an expression whose attributes cannot be found). -/
theorem C110_no_reply_refuted :
    (¬ ∀ complete h c kvs, Legal complete h → Has complete h c .waits → ∃ r, ctlOutputs complete (.recv c (some (.obj kvs)) :: h) = ctlOutputs complete h ++ [.reply c r]) ∧
    (¬ ∀ complete h c id, Legal complete h → Has complete h c .waits →
      ∃ r, ctlOutputs complete (.recv c (some (.obj [("command", .str "PairWithSession"), ("id", id)])) :: h) = ctlOutputs complete h ++ [.reply c r]) ∧
    (¬ ∀ complete h c t s, Legal complete h → Has complete h c .waits →
      ∃ r, ctlOutputs complete (.recv c (some (.obj [("command", .str "TabComplete"), ("text", t), ("state", s)])) :: h) = ctlOutputs complete h ++ [.reply c r]) := by
  refine ⟨fun hall => ?_, fun hall => ?_, fun hall => ?_⟩
  · obtain ⟨r, hr⟩ := hall noCompleter two 5 [] (two_legal _) (waits_two _)
    rw [C110_unanswerable (two_legal _) (waits_two _) (by simp [Answerable, request])] at hr
    simp at hr
  · obtain ⟨r, hr⟩ := hall noCompleter two 5 (.arr [.num 2]) (two_legal _) (waits_two _)
    rw [C110_unanswerable (two_legal _) (waits_two _) (by simp [Answerable, request, field, IsKey])] at hr
    simp at hr
  · obtain ⟨r, hr⟩ := hall noCompleter two 5 (.str "x.") (.num 0) (two_legal _) (waits_two _)
    rw [C110_unanswerable (two_legal _) (waits_two _) (by simp [Answerable, request, field, noCompleter])] at hr
    simp at hr

/-! ## Background jobs -/

/-- an object that passes the check of the type that `fg` does -/
private def passes (i : Nat) : Arg := ⟨some true, some i⟩

/-- `fg` returns the value that the thunk has returned.
The full property says this of the thread objects that `bg` returns, for which `C111_thread_refuted` shows that there is no result at all; here, and in the next theorems, it is
proved of objects that pass the check of the type. -/
theorem C111_value_partial {x : Arg} {i : Nat} (hx : x.contains = some true) (hi : x.ident = some i) (r : Results) (js ks : List Job) (v : Nat) (hk : ∀ j ∈ ks, Untouched i j) :
    jobs r (js ++ .finishes i (.returns v) :: ks ++ [.fg x]) = jobs r (js ++ .finishes i (.returns v) :: ks) ++ [.value v] := by
  have h1 : results r (js ++ .finishes i (.returns v) :: ks) i = some (.success v) := by
    simp only [results_append, results]; rw [untouched hk]; simp [finishes, Results.put]
  rw [jobs_append]
  simp [jobs, fg, hx, hi, h1]

example : jobs (fun _ => none) [.starts 7, .begins 7, .starts 8, .finishes 7 (.returns 42), .begins 8, .fg (passes 8), .fg (passes 7)] = [.thread, .value 42] :=
  C111_value_partial (x := passes 7) rfl rfl (fun _ => none) [.starts 7, .begins 7, .starts 8] [.begins 8, .fg (passes 8)] 42 (by simp [Untouched, passes])

/-- `fg` raises the exception that the thunk has raised.
(Missing: the thread objects that `bg` returns, see `C111_thread_refuted`, and idents used again, see `C111_results_refuted`.) -/
theorem C111_exception_partial {x : Arg} {i : Nat} (hx : x.contains = some true) (hi : x.ident = some i) (r : Results) (js ks : List Job) (e : Nat) (hk : ∀ j ∈ ks, Untouched i j) :
    jobs r (js ++ .finishes i (.raises e) :: ks ++ [.fg x]) = jobs r (js ++ .finishes i (.raises e) :: ks) ++ [.raised e] := by
  have h1 : results r (js ++ .finishes i (.raises e) :: ks) i = some (.fail e) := by
    simp only [results_append, results]; rw [untouched hk]; simp [finishes, Results.put]
  rw [jobs_append]
  simp [jobs, fg, hx, hi, h1]

example : jobs (fun _ => none) [.starts 7, .begins 7, .finishes 7 (.raises 3), .fg (passes 7)] = [.raised 3] :=
  C111_exception_partial (x := passes 7) rfl rfl (fun _ => none) [.starts 7, .begins 7] [] 3 (by simp)

/-- While the worker runs, `fg` returns the thread.
(Missing: the thread objects that `bg` returns, see `C111_thread_refuted`, and a worker that has not begun, see `C111_results_refuted`.) -/
theorem C111_running_partial {x : Arg} {i : Nat} (hx : x.contains = some true) (hi : x.ident = some i) (r : Results) (js ks : List Job)
    (hk : ∀ j ∈ ks, (∀ o, j ≠ .finishes i o) ∧ j ≠ .begins i) :
    jobs r (js ++ .begins i :: ks ++ [.fg x]) = jobs r (js ++ .begins i :: ks) ++ [.thread] := by
  have key : ∀ (ks : List Job) (r : Results), r i = some .running → (∀ j ∈ ks, (∀ o, j ≠ .finishes i o) ∧ j ≠ .begins i) → results r ks i = some .running := by
    intro ks
    induction ks with
    | nil => intro r hr _; exact hr
    | cons j ks ih =>
      intro r hr hk
      have hj := hk j (by simp)
      have hk' := fun k hk' => hk k (List.mem_cons_of_mem _ hk')
      cases j with
      | starts k => exact ih r hr hk'
      | begins k =>
        refine ih _ ?_ hk'
        have : i ≠ k := fun e => hj.2 (by rw [e])
        simp [begins, Results.put, this, hr]
      | finishes k o =>
        refine ih _ ?_ hk'
        have : i ≠ k := fun e => hj.1 o (by rw [e])
        cases o <;> simp [finishes, Results.put, this, hr]
      | fg y =>
        refine ih _ ?_ hk'
        by_cases hy : y.ident = some i
        · simp only [fg, hy, hr]; split <;> simp [hr]
        · rw [fg_untouched hy, hr]
  have h1 : results r (js ++ .begins i :: ks) i = some .running := by
    simp only [results_append, results]
    exact key ks _ (by simp [begins, Results.put]) hk
  rw [jobs_append]
  simp [jobs, fg, hx, hi, h1]

example : jobs (fun _ => none) [.starts 7, .begins 7, .fg (passes 7), .fg (passes 7)] = [.thread, .thread] :=
  C111_running_partial (x := passes 7) rfl rfl (fun _ => none) [.starts 7] [.fg (passes 7)] (by simp)

/-- A result can be got once: it is popped.
(Missing: the thread objects that `bg` returns, see `C111_thread_refuted`, and idents used again, see `C111_results_refuted`.) -/
theorem C111_once_partial {x : Arg} {i : Nat} (hx : x.contains = some true) (hi : x.ident = some i) (r : Results) (js ks ls : List Job) (o : Outcome) (ho : o ≠ .escapes)
    (hk : ∀ j ∈ ks, Untouched i j) (hls : ∀ j ∈ ls, Untouched i j) :
    jobs r (js ++ .finishes i o :: ks ++ .fg x :: ls ++ [.fg x]) = jobs r (js ++ .finishes i o :: ks ++ .fg x :: ls) ++ [.valueError] := by
  have h1 : results r (js ++ .finishes i o :: ks ++ .fg x :: ls) i = none := by
    rw [results_append, results, untouched hls]
    have : ∃ s, results r (js ++ .finishes i o :: ks) i = some s ∧ s ≠ .running := by
      simp only [results_append, results]; rw [untouched hk]
      cases o <;> simp_all [finishes, Results.put]
    obtain ⟨s, hs, hne⟩ := this
    cases s <;> simp_all [fg, Results.put]
  rw [jobs_append]
  simp only [jobs, fg, hx, hi, h1]

example : jobs (fun _ => none) [.starts 7, .begins 7, .finishes 7 (.returns 42), .fg (passes 7), .fg (passes 7)] = [.value 42, .valueError] :=
  C111_once_partial (x := passes 7) rfl rfl (fun _ => none) [.starts 7, .begins 7] [] [] (.returns 42) (by simp) (by simp) (by simp)

/-- `fg` never delivers anything for the thread objects that `bg` returns: `"ident" not in thread` raises TypeError, because a thread is no container. -/
theorem C111_thread_refuted :
    (∀ r js i, jobs r (js ++ [.fg (thread i)]) = jobs r js ++ [.typeError]) ∧
    ¬ ∀ r js i v, jobs r (js ++ [.starts i, .begins i, .finishes i (.returns v), .fg (thread i)]) = jobs r js ++ [.value v] := by
  refine ⟨fun r js i => by rw [jobs_append]; rfl, fun h => ?_⟩
  exact absurd (h (fun _ => none) [] 7 42) (by decide)

/-- A wrong argument of `fg` gives an error and changes nothing for the calls after it: something that has no `"ident"` in it gives TypeError, and something that has, but has
no attribute of that name, AttributeError. -/
theorem C111_wrong_argument (x : Arg) (r : Results) (js ks : List Job) :
    (x.contains ≠ some true → ∃ after, jobs r (js ++ ks) = jobs r js ++ after ∧ jobs r (js ++ .fg x :: ks) = jobs r js ++ .typeError :: after) ∧
    (x.contains = some true → x.ident = none →
      ∃ after, jobs r (js ++ ks) = jobs r js ++ after ∧ jobs r (js ++ .fg x :: ks) = jobs r js ++ .attributeError :: after) := by
  refine ⟨fun h => ⟨_, jobs_append .., ?_⟩, fun h h' => ⟨_, jobs_append .., ?_⟩⟩
  · have : ∀ r, fg r x = (.typeError, r) := fun r => by
      unfold fg; cases hc : x.contains with
      | none => rfl
      | some b => cases b with | false => rfl | true => exact absurd hc h
    rw [jobs_append]; simp [jobs, this]
  · have : ∀ r, fg r x = (.attributeError, r) := fun r => by simp [fg, h, h']
    rw [jobs_append]; simp [jobs, this]

example : ∃ after, jobs (fun _ => none) [.begins 7, .finishes 7 (.returns 42), .fg (passes 7)] = after ∧
    jobs (fun _ => none) [.begins 7, .finishes 7 (.returns 42), .fg ⟨some false, some 7⟩, .fg (passes 7)] = .typeError :: after := by
  simpa [jobs] using (C111_wrong_argument ⟨some false, some 7⟩ (fun _ => none) [.begins 7, .finishes 7 (.returns 42)] [.fg (passes 7)]).1 (by decide)

/-- Even of an object that passes the check:
(1) if the thunk is ended by an exception that is no Exception, such as KeyboardInterrupt or SystemExit, then `fg` says, for ever, that it is running;
(2) after `bg`, and before the worker has begun, there is a ValueError instead of the thread;
(3) a new job whose thread gets the ident of the thread of a finished one overwrites its result. -/
theorem C111_results_refuted :
    (¬ ∀ js i, jobs (fun _ => none) (js ++ [.begins i, .finishes i .escapes, .fg ⟨some true, some i⟩]) ≠ jobs (fun _ => none) js ++ [.thread]) ∧
    (¬ ∀ i, jobs (fun _ => none) [.starts i, .fg ⟨some true, some i⟩] = [.thread]) ∧
    (¬ ∀ i v o, jobs (fun _ => none) [.starts i, .begins i, .finishes i (.returns v), .starts i, .begins i, .finishes i o, .fg ⟨some true, some i⟩] = [.value v]) := by
  refine ⟨fun h => h [] 7 (by decide), fun h => absurd (h 7) (by decide), fun h => absurd (h 7 1 (.returns 2)) (by decide)⟩

end Unpy.Props
