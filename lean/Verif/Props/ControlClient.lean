import Verif.Spec.ControlClient
/-! # C127: the client's side of the control channel -/
namespace Unpy.Props
open Unpy.Control Unpy.Spec.Control
variable {σ : Type}

private theorem judge_iff (j : Json) (kvs : List (String × Json)) : judge j = some kvs ↔ Success j kvs := by
  unfold judge Success
  cases j with
  | obj l =>
    cases l with
    | nil => simp only [truthy]; constructor
             · intro h; simp at h
             · rintro ⟨h, h'⟩; cases h; simp [lookup] at h'
    | cons kv l =>
      simp only [truthy, List.isEmpty_cons, Bool.not_false, Bool.not_true, Bool.false_eq_true, if_false]
      constructor
      · intro h
        split at h
        · rename_i s hs
          split at h
          · rename_i ho
            cases h
            refine ⟨rfl, ?_⟩
            rw [hs]
            cases s <;> simp [isStr] at ho
            rw [ho]
          · simp at h
        · simp at h
      · rintro ⟨h, h'⟩
        cases h
        rw [h']
        simp [isStr]
  | _ => simp

private theorem result_judge (j : Json) : Result (some j) (judge j) := by
  intro kvs
  rw [judge_iff]
  simp

private theorem result_none : Result none none := by intro kvs; simp

/-- Nothing is interrupted while the client waits. -/
def NotWhileWaiting : COp σ → Prop
  | .call (some .whileWaiting) _ => False
  | _ => True

/-- C127: as long as the client is not interrupted while it waits for a reply, the result of each call is the answer of the server to the request of this call, if it is a success; else it is None. Whatever the server does, and whatever happens between the calls.
(Missing: interruptions while waiting, see `C127_interrupted_refuted` and `C127_desync_refuted`.) -/
theorem C127_calls_partial (serve : σ → Json → σ × Option Json) (s : σ) (ops : List (COp σ)) (h : ∀ op ∈ ops, NotWhileWaiting op) :
    Each Result (answers serve (some s) ops) (calls serve ⟨s, true, []⟩ ops) := by
  suffices ∀ (ops : List (COp σ)), (∀ op ∈ ops, NotWhileWaiting op) → ∀ s up,
      Each Result (answers serve (if up then some s else none) ops) (calls serve ⟨s, up, []⟩ ops) from by
    simpa using this ops h s true
  intro ops
  induction ops with
  | nil => intro _ s up; exact .nil
  | cons op ops ih =>
    intro h s up
    have ih := ih (fun op hop => h op (by simp [hop]))
    have h1 := h op (by simp)
    cases op with
    | change f =>
      have := ih (f s) up
      cases up <;> simpa [answers, calls] using this
    | call fault req =>
      match fault, h1 with
      | some .beforeSend, _ =>
        simp only [calls, remoteExecute]
        cases up
        · exact .cons result_none (ih s false)
        · exact .cons result_none (ih s true)
      | none, _ =>
        cases up with
        | false => exact .cons result_none (ih s false)
        | true =>
          simp only [calls, remoteExecute, send, if_true]
          obtain ⟨⟨s', r⟩, hr⟩ : ∃ p, serve s req = p := ⟨_, rfl⟩
          cases r with
          | none =>
            simp only [hr, answers, recv]
            exact .cons result_none (ih s' false)
          | some j =>
            simp only [hr, answers, List.nil_append, recv]
            exact .cons (result_judge j) (ih s' true)

/-- C127 is violated if the client is interrupted (Ctrl+C) while it waits: then from there on each call gets the answer to the request before it, for good. Here, for any server that answers, `a` is the answer to the request that was interrupted, and there are any requests after it. -/
theorem C127_interrupted_refuted (serve : σ → Json → σ × Option Json) (up : ∀ s req, (serve s req).2 ≠ none) (s s' : σ) (req : Json) (a : Json) (h : serve s req = (s', some a))
    (reqs : List Json) :
    ∃ as, answers serve (some s') (reqs.map (.call none)) = as.map some ∧
      Each (fun a r => Result (some a) r) ((a :: as).take reqs.length) ((calls serve ⟨s, true, []⟩ (.call (some .whileWaiting) req :: reqs.map (.call none))).tail) := by
  simp only [calls, remoteExecute, send, if_true, h, List.nil_append, List.tail_cons]
  clear h
  induction reqs generalizing s' a with
  | nil => exact ⟨[], rfl, .nil⟩
  | cons r reqs ih =>
    obtain ⟨⟨s'', o⟩, hr⟩ : ∃ p, serve s' r = p := ⟨_, rfl⟩
    cases o with
    | none => exact absurd (by rw [hr]) (up s' r)
    | some j =>
      obtain ⟨as, h1, h2⟩ := ih s'' j
      refine ⟨j :: as, ?_, ?_⟩
      · simp only [List.map_cons, answers, hr, h1]
      · simp only [List.map_cons, calls, remoteExecute, send, if_true, hr, List.cons_append, List.nil_append, recv]
        exact .cons (result_judge a) h2

/-! ### With the server of this library -/

variable (compl : Json → Json → Option Json) (prompts : Json) (reason : Reason → Json)

/-- C127: `describe_server()` returns the description. -/
theorem C127_describe (w : S) (p : Option Nat) :
    ∃ kvs, remoteExecute (controlServe compl prompts reason) none ⟨(w, p), true, []⟩ reqDescribe = (some kvs, ⟨(w, p), true, []⟩) ∧ lookup "prompts" kvs = some prompts :=
  ⟨_, rfl, rfl⟩

private theorem active_iff (w : S) (id : Nat) : isActive w id = true ↔ Active w id := by
  unfold isActive Active getSess
  cases id with
  | zero => simp
  | succ n =>
    simp only [Nat.add_sub_cancel]
    cases h : w.sess[n]? <;> simp

/-- C127: `pair_with_session(id)` is successful exactly if there is such an active session; then the channel is paired with it, else with what it was. -/
theorem C127_pair (w : S) (p : Option Nat) (id : Nat) :
    ∃ r p', remoteExecute (controlServe compl prompts reason) none ⟨(w, p), true, []⟩ (reqPair id) = (r, ⟨(w, p'), true, []⟩) ∧
      (r ≠ none ↔ Active w id) ∧ (Active w id → p' = some id) ∧ (¬ Active w id → p' = p) := by
  rw [← active_iff]
  have e : handle compl w p (some (reqPair id)) = if isActive w id then .reply .paired (some id) else .reply (.failed .noSession) p := by
    have : asKey (.num (id : Int)) = some (some id) := by simp [asKey]
    simp [handle, reqPair, truthy, hasCommand, lookup, isStr, pair, this]
  simp only [remoteExecute, send, controlServe, e]
  cases ha : isActive w id
  · refine ⟨_, _, rfl, ?_, ?_, fun _ => rfl⟩
    · simp [judge, truthy, encodeReply, lookup, isStr]
    · simp
  · refine ⟨_, _, rfl, ?_, fun _ => rfl, ?_⟩
    · simp [judge, truthy, encodeReply, lookup, isStr]
    · simp

/-- C127: `complete(text, state)` returns what the completer on the server returns; None if that raises an exception, which ends the connection. -/
theorem C127_complete (w : S) (p : Option Nat) (text : String) (state : Nat) :
    complete (controlServe compl prompts reason) none ⟨(w, p), true, []⟩ text state =
      (.ok (compl (.str text) (.num state)), ⟨(w, p), (compl (.str text) (.num state)).isSome, []⟩) := by
  have e : handle compl w p (some (reqComplete text state)) = match compl (.str text) (.num state) with
      | some r => .reply (.completion r) p
      | none => .hangup := by
    simp [handle, reqComplete, truthy, hasCommand, lookup, isStr, tabComplete]
    cases compl (.str text) (.num state) <;> rfl
  simp only [complete, remoteExecute, send, controlServe, e]
  cases compl (.str text) (.num state) <;> rfl

/-- C127: `send_kbinterrupt()` is successful exactly if the channel is paired with a session that is active, whose thread is known and found by the interpreter. -/
theorem C127_interrupt (w : S) (p : Option Nat) :
    ∃ r, remoteExecute (controlServe compl prompts reason) none ⟨(w, p), true, []⟩ reqInterrupt = (r, ⟨(w, p), true, []⟩) ∧
      (r ≠ none ↔ ∃ id s, p = some id ∧ 0 < id ∧ w.sess[id - 1]? = some s ∧ s.active = true ∧ s.hasThread = true ∧ ∃ t ∈ w.sess, t.alive = true ∧ t.ident = s.ident) := by
  have e : handle compl w p (some reqInterrupt) = kbInterrupt w p := by
    simp [handle, reqInterrupt, truthy, hasCommand, lookup, isStr]
  simp only [remoteExecute, send, controlServe, e]
  cases p with
  | none =>
    refine ⟨_, rfl, ?_⟩
    simp [judge, truthy, encodeReply, lookup, isStr]
  | some id =>
    have hfail : ∀ r, judge (encodeReply prompts reason (.failed r)) = none := fun r => rfl
    cases id with
    | zero => exact ⟨_, rfl, by simp [hfail]⟩
    | succ n =>
      simp only [kbInterrupt, getSess]
      cases hs : w.sess[n]? with
      | none => exact ⟨_, rfl, by simp [hfail, hs]⟩
      | some s =>
        cases ha : s.active
        · exact ⟨none, by simp only [ha, Bool.not_false, if_true]; rfl, by simp [hs, ha]⟩
        · cases ht : s.hasThread
          · exact ⟨none, by simp only [ha, ht, Bool.not_false, Bool.not_true, Bool.false_eq_true, if_false, if_true]; rfl, by simp [hs, ha, ht]⟩
          · simp only [ha, ht, Bool.not_true, Bool.false_eq_true, if_false, victim, getSess, hs, if_true]
            cases hv : w.sess.findIdx? fun s' => s'.alive && s'.ident == s.ident with
            | none =>
              refine ⟨_, rfl, ?_⟩
              rw [List.findIdx?_eq_none_iff] at hv
              simp only [Option.map_none, hfail]
              constructor
              · intro h; exact absurd rfl h
              · rintro ⟨id, s1, h1, _, h2, _, _, t, htm, h3, h4⟩
                cases h1
                rw [Nat.add_sub_cancel, hs] at h2
                cases h2
                have := hv t htm
                simp [h3, h4] at this
            | some i =>
              refine ⟨_, rfl, ?_⟩
              obtain ⟨hi, ht2, _⟩ := List.findIdx?_eq_some_iff_getElem.1 hv
              have ht1 := List.getElem_mem hi
              generalize w.sess[i] = t at ht1 ht2
              simp only [Bool.and_eq_true, beq_iff_eq] at ht2
              constructor
              · intro _
                exact ⟨n + 1, s, rfl, by omega, by simpa using hs, ha, ht, t, ht1, ht2⟩
              · intro _
                simp [judge, truthy, encodeReply, lookup, isStr]

/-- C127 is violated: after Ctrl+C during a tab completion, `send_kbinterrupt()` reports success on a channel that is not paired, although the server refused; and the next tab completion (if the server has completions) gets None, the answer to the interrupt. And if pairing came next, the completion after it raises KeyError. -/
theorem C127_desync_refuted (w : S) (text : String) (state : Nat) (c : Json) (hc : ∀ t s, compl t s = some c) :
    let serve := controlServe compl prompts reason
    let l := (complete serve (some .whileWaiting) ⟨(w, none), true, []⟩ text state).2
    (remoteExecute serve none l reqInterrupt).1 ≠ none ∧
    (answers serve (some (w, none)) [.call none reqInterrupt]) = [some (encodeReply prompts reason (.failed .notPaired))] ∧
    (complete serve none (remoteExecute serve none l reqInterrupt).2 text state).1 = .ok none ∧
    ∀ id, Active w id → (complete serve none (remoteExecute serve none l (reqPair id)).2 text state).1 = .error () := by
  intro serve l
  have e : ∀ p, handle compl w p (some (reqComplete text state)) = .reply (.completion c) p := by
    intro p
    simp [handle, reqComplete, truthy, hasCommand, lookup, isStr, tabComplete, hc]
  have hl : l = ⟨(w, none), true, [encodeReply prompts reason (.completion c)]⟩ := by
    simp [l, serve, complete, remoteExecute, send, controlServe, e]
  have ei : handle compl w none (some reqInterrupt) = .reply (.failed .notPaired) none := by
    simp [handle, reqInterrupt, truthy, hasCommand, lookup, isStr, kbInterrupt]
  rw [hl]
  refine ⟨?_, ?_, ?_, ?_⟩
  · simp [serve, remoteExecute, send, controlServe, ei, recv, judge, encodeReply, truthy, lookup, isStr]
  · simp [serve, answers, controlServe, ei]
  · simp [serve, complete, remoteExecute, send, controlServe, ei, e, recv, judge, encodeReply, truthy, lookup, isStr]
  · intro id hid
    rw [← active_iff] at hid
    have ep : handle compl w none (some (reqPair id)) = .reply .paired (some id) := by
      have : asKey (.num (id : Int)) = some (some id) := by simp [asKey]
      simp [handle, reqPair, truthy, hasCommand, lookup, isStr, pair, this, hid]
    simp [serve, complete, remoteExecute, send, controlServe, ep, e, recv, judge, encodeReply, truthy, lookup, isStr]

/-- One active session with a running thread -/
private def demoS : S := ⟨[⟨true, true, 7, true⟩], fun _ => .closed⟩
private def demoServe := controlServe (fun t _ => some t) .null (fun _ => .null)

example : Active demoS 1 := ⟨⟨true, true, 7, true⟩, by decide, rfl, rfl⟩
example : ∀ op ∈ [.call none reqDescribe, .change (fun s => s), .call (some .beforeSend) (reqPair 2), .call none (reqPair 1), .call none (reqComplete "pri" 0), (.call none reqInterrupt : COp (S × Option Nat))], NotWhileWaiting op := by
  simp [NotWhileWaiting]
example : (calls demoServe ⟨(demoS, none), true, []⟩ [.call (some .beforeSend) (reqPair 2), .call none (reqPair 2), .call none (reqPair 1), .call none (reqComplete "pri" 0), .call none reqInterrupt]) =
    [none, none, some [("status", .str "ok")], some [("status", .str "ok"), ("result", .str "pri")], some [("status", .str "ok")]] := rfl
-- any server that answers, e.g. one that numbers its answers
example : ∀ (s : Nat) (req : Json), (((fun s _ => (s + 1, some (.num s))) : Nat → Json → Nat × Option Json) s req).2 ≠ none := by simp

end Unpy.Props
