import Verif.Proof.Pty
/-! # C115: the proxy between a socket and a PTY -/
namespace Unpy.Props
open Unpy.Pty Unpy.Spec.Pty

private theorem pty_delivered_partial (c : Config) (rs : List Round) (y : Side) (h : Whole rs) : (forward c {} rs).delivered y = input y rs := by
  rw [forward_delivered, foldl_delivered]
  · cases y <;> rfl
  · intro e he
    refine ⟨?_, h e ((List.takeWhile_sublist goesOn).subset he)⟩
    have hs := List.all_takeWhile (p := goesOn) (l := seen rs)
    exact (List.all_eq_true.1 hs) e he

/-- **C115**: as long as each write takes all the bytes it is given, what is delivered at the slave side of the PTY is what was read from the socket, in order, and what is delivered to the socket is what was read from the PTY: nothing is lost, invented, repeated or reordered, however the two directions are interleaved, up to the stop, the disconnection or the error.  Missing: a write that takes only a part (`C115_short_write_refuted`). -/
theorem C115_forwards_partial (c : Config) (rs : List Round) (h : Whole rs) :
    (forward c {} rs).toSlave = input .sock rs ∧ (forward c {} rs).toSock = input .slave rs :=
  ⟨pty_delivered_partial c rs .sock h, pty_delivered_partial c rs .slave h⟩

/-- Two bytes from the socket, one from the PTY, then one from the socket, and the client goes away -/
def ptySession : List Round :=
  [⟨false, [⟨.sock, .data 1 [2], .takes 2⟩, ⟨.slave, .data 7 [], .takes 1⟩]⟩, ⟨false, []⟩, ⟨false, [⟨.sock, .data 3 [], .takes 1⟩]⟩, ⟨false, [⟨.sock, .eof, .takes 0⟩]⟩]

example : Whole ptySession ∧ input .sock ptySession = [1, 2, 3] ∧ input .slave ptySession = [7] := by
  refine ⟨?_, by decide, by decide⟩
  intro e he b bs n hg hp
  simp [ptySession, seen] at he
  rcases he with rfl | rfl | rfl | rfl <;> simp at hg hp <;> simp [← hp, ← hg.2]
example : forward ⟨.returns, .unset⟩ {} ptySession = ⟨[7], [1, 2, 3], [.sock], .returned⟩ := by decide

/-- **C115**: whatever the writes do, nothing is invented, repeated or reordered: what is delivered at one end are some of the bytes read from the other, in the same order. -/
theorem C115_order (c : Config) (rs : List Round) :
    (forward c {} rs).toSlave.Sublist (input .sock rs) ∧ (forward c {} rs).toSock.Sublist (input .slave rs) := by
  have key : ∀ y, ((forward c {} rs).delivered y).Sublist (input y rs) := by
    intro y
    obtain ⟨l, hl, hs⟩ := foldl_sublist {} ((seen rs).takeWhile goesOn) y
    rw [forward_delivered, hl]
    cases y <;> exact hs
  exact ⟨key .sock, key .slave⟩

example : (forward ⟨.unset, .unset⟩ {} [⟨false, [⟨.sock, .data 1 [2, 3], .takes 2⟩, ⟨.sock, .data 4 [], .takes 1⟩]⟩]).toSlave = [1, 2, 4] := by decide

/-- **C115**, a counterexample: `socket.send` and `os.write` may take only a part of the bytes, as they may with the buffer nearly full; the rest is thrown away, and the session goes on without it. -/
theorem C115_short_write_refuted :
    ¬ ∀ (c : Config) (rs : List Round), (forward c {} rs).toSock = input .slave rs := by
  intro h
  exact absurd (h ⟨.returns, .returns⟩ [⟨false, [⟨.slave, .data 1 [2, 3], .takes 2⟩]⟩]) (by decide)

private theorem forward_none {c : Config} {rs : List Round} (h : ending rs = none) :
    (forward c {} rs).calls = [] ∧ (forward c {} rs).status = if Stopped rs then .returned else .running := by
  have hd : (seen rs).dropWhile goesOn = [] := by simpa [ending] using h
  have he : events c {} (seen rs) = (seen rs).foldl deliver {} := by rw [events_eq, hd]
  have hf := foldl_fields {} (seen rs)
  rw [forward_eq c {} rs rfl, he]
  by_cases hs : Stopped rs <;> simp [hs, hf.1, hf.2]

private theorem finish_not_running (c : Config) (s : State) (e : Event) : (finish c s e).status ≠ .running := by
  unfold finish; split
  · exact caught_not_running _ _ _
  · simp

private theorem forward_some {c : Config} {rs : List Round} {e : Event} (h : ending rs = some e) :
    ∃ s : State, s.calls = [] ∧ s.status = .running ∧ goesOn e = false ∧ forward c {} rs = finish c s e := by
  obtain ⟨es, hd⟩ : ∃ es, (seen rs).dropWhile goesOn = e :: es := by
    unfold ending at h
    cases hd : (seen rs).dropWhile goesOn with
    | nil => simp [hd] at h
    | cons f fs => simp [hd] at h; exact ⟨fs, by rw [h]⟩
  have he : events c {} (seen rs) = finish c (((seen rs).takeWhile goesOn).foldl deliver {}) e := by rw [events_eq, hd]
  have hf := foldl_fields {} ((seen rs).takeWhile goesOn)
  refine ⟨_, hf.1, hf.2, ?_, ?_⟩
  · have := List.head?_dropWhile_not goesOn (seen rs)
    rw [hd] at this
    simpa using this
  · rw [forward_eq c {} rs rfl, he, if_neg (fun h => finish_not_running _ _ _ h.1)]

/-- **C115**: as long as both ends are there and nothing fails, no callback is called; the thread goes on until `stop` is called, and returns after it. -/
theorem C115_goes_on (c : Config) (rs : List Round) (h : ending rs = none) :
    (forward c {} rs).calls = [] ∧ ((forward c {} rs).status = .running ↔ ¬ Stopped rs) ∧ ((forward c {} rs).status = .returned ↔ Stopped rs) := by
  obtain ⟨h1, h2⟩ := forward_none (c := c) h
  refine ⟨h1, ?_, ?_⟩ <;> by_cases hs : Stopped rs <;> simp [h2, hs]

example : ending (ptySession.take 3) = none ∧ (forward ⟨.returns, .unset⟩ {} (ptySession.take 3)).status = .running := by decide
example : ending (ptySession.take 3 ++ [⟨true, []⟩] ++ ptySession.drop 3) = none := by decide

/-- **C115**: when the end of one side is seen, its callback is called, exactly once, the other one is not called, and the thread returns, if the callback is set and returns.  Missing: a callback that is not set (`C115_unset_refuted`) and ends that are reported as errors (`C115_hangup_refuted`). -/
theorem C115_disconnect_partial (c : Config) (rs : List Round) (e : Event) (h : ending rs = some e) (he : e.got = .eof) (hc : c.on e.from = .returns) :
    (forward c {} rs).calls = [e.from] ∧ (forward c {} rs).status = .returned := by
  obtain ⟨s, h1, h2, _, h4⟩ := forward_some (c := c) h
  rw [h4]
  rcases e with ⟨f, g, p⟩
  obtain rfl : g = .eof := he
  cases f <;> simp [finish, handle, callback, hc, h1] <;> simp_all

example : ending ptySession = some ⟨.sock, .eof, .takes 0⟩ := by decide

/-- **C115**: when the connection is reset, whether this is seen in reading or in writing, and at whichever end, the callback for the socket is called, exactly once, and the thread returns, if the callback is set and returns. -/
theorem C115_reset (c : Config) (rs : List Round) (e : Event) (h : ending rs = some e) (hc : c.on .sock = .returns)
    (he : e.got = .raises .reset ∨ (∃ b bs, e.got = .data b bs) ∧ e.put = .raises .reset) :
    (forward c {} rs).calls = [.sock] ∧ (forward c {} rs).status = .returned := by
  obtain ⟨s, h1, h2, _, h4⟩ := forward_some (c := c) h
  rw [h4]
  rcases e with ⟨f, g, p⟩
  rcases he with he | ⟨⟨b, bs, he⟩, hp⟩
  · obtain rfl : g = .raises .reset := he
    cases f <;> simp [finish, handle, caught, callback, hc, h1]
  · obtain rfl : g = .data b bs := he
    obtain rfl : p = .raises .reset := hp
    cases f <;> simp [finish, handle, caught, callback, hc, h1]

example : forward ⟨.returns, .unset⟩ {} [⟨false, [⟨.slave, .data 1 [], .raises .reset⟩, ⟨.slave, .data 2 [], .takes 1⟩]⟩] = ⟨[], [], [.sock], .returned⟩ := by decide

/-- **C115**: at most one call is made in a session, whatever happens in it, if the callbacks, when they are called, do not raise ConnectionResetError.  Missing: a callback that does (`C115_twice_refuted`). -/
theorem C115_once_partial (c : Config) (rs : List Round) (h : ∀ x, c.on x ≠ .raises .reset) : (forward c {} rs).calls.length ≤ 1 := by
  cases he : ending rs with
  | none => simp [(forward_none (c := c) he).1]
  | some e =>
    obtain ⟨s, h1, _, h3, h4⟩ := forward_some (c := c) he
    rw [h4]
    have hcb : ∀ (s : State) (x : Side), s.calls = [] → (callback c s x).1.calls.length ≤ 1 := by
      intro s x hs; unfold callback; split <;> simp [hs]
    have hx : ∀ (s : State) (x : Side), (callback c s x).2 ≠ some .reset := by
      intro s x; unfold callback
      have := h x
      split <;> simp_all
    have hcaught : ∀ (s : State) (x : Exc), s.calls = [] → (caught c s x).calls.length ≤ 1 := by
      intro s x hs; unfold caught; split
      · have := hcb s .sock hs
        split <;> rename_i hh <;> rw [hh] at this <;> exact this
      · simp [hs]
    have hcaught2 : ∀ (s : State) (x : Exc), s.calls.length ≤ 1 → x ≠ .reset → (caught c s x).calls.length ≤ 1 := by
      intro s x hs hx; unfold caught; split
      · exact absurd rfl hx
      · exact hs
    rcases e with ⟨f, g, p⟩
    have heof : ∀ f, (finish c s ⟨f, .eof, p⟩).calls.length ≤ 1 := by
      intro f
      have ha := hcb s f h1
      have hb := hx s f
      obtain ⟨q, hq⟩ : ∃ q, callback c s f = q := ⟨_, rfl⟩
      rw [hq] at ha hb
      rcases q with ⟨t, _ | x⟩
      · cases f <;> simp [finish, handle, hq] <;> exact ha
      · simp at hb
        cases f <;> simp [finish, handle, hq] <;> exact hcaught2 t x ha hb
    cases g with
    | eof => exact heof f
    | raises x => cases f <;> exact hcaught s x h1
    | data b bs => cases p with
      | takes n => simp [goesOn] at h3
      | raises x => cases f <;> exact hcaught s x h1

example : (forward ⟨.returns, .raises .os⟩ {} [⟨false, [⟨.slave, .eof, .takes 0⟩, ⟨.sock, .eof, .takes 0⟩]⟩]).calls = [.slave] := by decide

/-- **C115**: after its end the thread does nothing more: whatever would have come in later makes no difference. -/
theorem C115_over (c : Config) (rs rest : List Round) (h : (forward c {} rs).status ≠ .running) : forward c {} (rs ++ rest) = forward c {} rs := by
  suffices ∀ s, (forward c s rs).status ≠ .running → forward c s (rs ++ rest) = forward c s rs from this {} h
  clear h
  induction rs with
  | nil =>
    intro s h
    simp only [forward] at h
    cases rest <;> simp [forward, h]
  | cons r rs ih =>
    intro s h
    simp only [List.cons_append, forward] at h ⊢
    split
    · split
      · rfl
      · rename_i hs hr
        rw [if_pos hs, if_neg hr] at h
        exact ih _ h
    · rfl

example : (forward ⟨.returns, .unset⟩ {} (ptySession ++ ptySession)) = forward ⟨.returns, .unset⟩ {} ptySession := by decide

/-- **C115**, a counterexample: the callbacks are optional ("if set"), but the end of a side whose callback is not set ends the thread with a TypeError (`None` is called). -/
theorem C115_unset_refuted : ∃ rs e, ending rs = some e ∧ e.got = .eof ∧ (forward ⟨.unset, .unset⟩ {} rs).status = .died .type :=
  ⟨[⟨false, [⟨.sock, .eof, .takes 0⟩]⟩], _, rfl, rfl, by decide⟩

/-- **C115**, a counterexample: that the program at the slave side has gone is not always reported as an end: on Linux it is an OSError (EIO).  Likewise writing to a socket whose client has gone may be a BrokenPipeError.  Both end the thread with this exception, and no callback is called. -/
theorem C115_hangup_refuted :
    (forward ⟨.returns, .returns⟩ {} [⟨false, [⟨.slave, .raises .os, .takes 0⟩]⟩] = ⟨[], [], [], .died .os⟩)
      ∧ (forward ⟨.returns, .returns⟩ {} [⟨false, [⟨.slave, .data 1 [], .raises .os⟩]⟩] = ⟨[], [], [], .died .os⟩) := by decide

/-- **C115**, a counterexample: the callbacks run inside the `try` that is meant for the socket: one that raises ConnectionResetError makes the callback for the socket be called in addition, even a second time. -/
theorem C115_twice_refuted :
    ∃ rs, (forward ⟨.raises .reset, .returns⟩ {} rs).calls = [.sock, .sock] ∧ ∃ rs, (forward ⟨.returns, .raises .reset⟩ {} rs).calls = [.slave, .sock] :=
  ⟨[⟨false, [⟨.sock, .eof, .takes 0⟩]⟩], by decide, [⟨false, [⟨.slave, .eof, .takes 0⟩]⟩], by decide⟩

/-! ## Starting and stopping -/

/-- What a user can do: start, and stop, from outside or in a callback -/
inductive PtyOp where
  | start
  | stop (own : Bool)

private def ptyDo (p : Proxy) : PtyOp → Proxy × Option Exc
  | .start => start p
  | .stop own => stop own p

/-- The state after the operations, and the exceptions they raised, in order -/
def ptyRun : Proxy → List PtyOp → Proxy × List (Option Exc)
  | p, [] => (p, [])
  | p, o :: os => ((ptyRun (ptyDo p o).1 os).1, (ptyDo p o).2 :: (ptyRun (ptyDo p o).1 os).2)

private theorem ptyRun_inv (P : Proxy → Prop) (h : ∀ p o, P p → P (ptyDo p o).1) (p : Proxy) (os : List PtyOp) (hp : P p) : P (ptyRun p os).1 := by
  induction os generalizing p with
  | nil => exact hp
  | cons o os ih => exact ih _ (h p o hp)

private def PtyInv (p : Proxy) : Prop := (p.fds = true ∧ p.closed = 0 ∨ p.fds = false ∧ p.closed = 1) ∧ (p.thread = true → p.fds = true)

private theorem ptyDo_inv (p : Proxy) (o : PtyOp) (h : PtyInv p) : PtyInv (ptyDo p o).1 := by
  rcases p with ⟨t, m, f, n⟩
  unfold PtyInv at h ⊢
  cases o with
  | start => cases t <;> cases f <;> simp_all [ptyDo, start]
  | stop own => cases own <;> cases t <;> cases f <;> simp_all [ptyDo, stop]

/-- **C115**: the two ends of the PTY are closed at most once, whatever is called and in which order; as long as the proxy is running they are open; and a `stop` of a running proxy, other than one in a callback, closes them, and gives no error. -/
theorem C115_closed_once (os : List PtyOp) :
    (ptyRun {} os).1.closed ≤ 1 ∧ ((ptyRun {} os).1.closed = 0 ↔ (ptyRun {} os).1.fds = true)
      ∧ ((ptyRun {} os).1.thread = true → (ptyRun {} os).1.closed = 0 ∧ (stop false (ptyRun {} os).1).2 = none ∧ (stop false (ptyRun {} os).1).1.closed = 1 ∧ (stop false (ptyRun {} os).1).1.fds = false ∧ (stop false (ptyRun {} os).1).1.thread = false) := by
  have h := ptyRun_inv PtyInv ptyDo_inv {} os ⟨.inl ⟨rfl, rfl⟩, by simp⟩
  generalize (ptyRun {} os).1 = p at h
  rcases p with ⟨t, m, f, n⟩
  unfold PtyInv at h
  cases t <;> cases f <;> simp_all [stop]

example : (ptyRun {} [.start, .stop false, .stop false]) = (⟨false, true, false, 1⟩, [none, none, none]) := by decide

/-- **C115**: `stop` may be called again, and before `start`: it changes nothing and gives no error, until there is a thread to stop. -/
theorem C115_stop_twice (p : Proxy) (own : Bool) :
    (p.thread = false → stop own p = (p, none)) ∧ stop own (stop false p).1 = ((stop false p).1, none) := by
  rcases p with ⟨t, m, f, n⟩
  cases t <;> cases own <;> simp [stop]

/-- **C115**: a second `start` is a RuntimeError and changes nothing; this includes a `start` after the thread has ended by itself, as the proxy does not note that. -/
theorem C115_start_twice (p : Proxy) : (start p).2 = none → start (start p).1 = ((start p).1, some .runtime) := by
  rcases p with ⟨t, m, f, n⟩
  cases t <;> cases f <;> simp [start]

/-- **C115**: a `start` that gives no error sets the proxy going: the loop is not told to end; and it goes on until `stop` is called, whatever else is. -/
theorem C115_runs_until_stop (p : Proxy) (h : (start p).2 = none) (n : Nat) :
    (ptyRun (start p).1 (List.replicate n .start)).1.terminated = false ∧ (ptyRun (start p).1 (List.replicate n .start)).1.thread = true := by
  have h1 : (start p).1.terminated = false ∧ (start p).1.thread = true := by
    rcases p with ⟨t, m, f, n⟩
    cases t <;> cases f <;> simp_all [start]
  generalize (start p).1 = q at h1
  induction n with
  | zero => exact h1
  | succ n ih =>
    rw [List.replicate_succ, ptyRun]
    have : (ptyDo q .start).1 = q := by simp [ptyDo, start, h1.2]
    rw [this]; exact ih

example : (start {}).2 = none := rfl

/-- **C115**, counterexamples: `stop` "also closes the PTY", but a proxy that was never started keeps it open; in a callback, `stop` is a RuntimeError (a thread cannot join itself) and leaves it open; and a stopped proxy cannot be started again: that is a TypeError. -/
theorem C115_stop_refuted :
    (ptyRun {} [.stop false]).1.closed = 0 ∧ ptyRun {} [.start, .stop true] = (⟨true, true, true, 0⟩, [none, some .runtime])
      ∧ (ptyRun {} [.start, .stop false, .start]).2 = [none, none, some .type] := by decide

end Unpy.Props
