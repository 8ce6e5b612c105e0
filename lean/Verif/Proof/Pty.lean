import Verif.Spec.Pty
/-! # Proofs about the proxy -/
namespace Unpy.Pty
open Unpy.Spec.Pty

theorem caught_not_running (c : Config) (s : State) (x : Exc) : (caught c s x).status ≠ .running := by
  unfold caught
  split
  · split <;> simp
  · simp

theorem events_append (c : Config) (s : State) (es fs : List Event) (hs : s.status = .running) :
    events c s (es ++ fs) = if (events c s es).status = .running then events c (events c s es) fs else events c s es := by
  induction es generalizing s with
  | nil => simp [events, hs]
  | cons e es ih =>
    simp only [List.cons_append, events]
    have hh : ∀ {s' : State}, handle c s e = (s', false, none) → s'.status = .running := by
      intro s' h
      unfold handle at h
      split at h <;> (split at h <;> try simp at h) <;> (try (split at h <;> simp at h)) <;> first
        | (obtain ⟨rfl⟩ := h; exact hs)
        | skip
      all_goals (simp [callback] at h; split at h <;> simp at h)
    obtain ⟨p, h⟩ : ∃ p, handle c s e = p := ⟨_, rfl⟩
    rcases p with ⟨s', b, _ | x⟩
    · cases b
      · simp only [h]; exact ih s' (hh h)
      · simp [h]
    · simp [h, caught_not_running c s' x]

/-- one event that goes on -/
def deliver (s : State) (e : Event) : State := match e.got, e.put with
  | .data b bs, .takes n => match e.from with
    | .slave => { s with toSock := s.toSock ++ (b :: bs).take n }
    | .sock => { s with toSlave := s.toSlave ++ (b :: bs).take n }
  | _, _ => s

theorem handle_goesOn {c : Config} {s : State} {e : Event} (h : goesOn e = true) : handle c s e = (deliver s e, false, none) := by
  rcases e with ⟨f, g, p⟩
  cases g <;> cases p <;> simp [goesOn] at h
  cases f <;> rfl

/-- what an event that ends the connection does -/
def finish (c : Config) (s : State) (e : Event) : State := match handle c s e with
  | (s, _, some x) => caught c s x
  | (s, _, none) => { s with status := .returned }

theorem handle_ends {c : Config} {s : State} {e : Event} (h : goesOn e = false) : (handle c s e).2.1 = true ∨ (handle c s e).2.2 ≠ none := by
  rcases e with ⟨f, g, p⟩
  cases f <;> cases g <;> cases p <;> simp [goesOn] at h <;> simp [handle] <;> (cases hc : (callback c s _).2 <;> simp [hc])

theorem events_eq (c : Config) (s : State) (es : List Event) :
    events c s es = match es.dropWhile goesOn with
      | [] => es.foldl deliver s
      | e :: _ => finish c ((es.takeWhile goesOn).foldl deliver s) e := by
  induction es generalizing s with
  | nil => rfl
  | cons e es ih =>
    cases h : goesOn e with
    | true => simp [events, handle_goesOn h, ih, h]
    | false =>
      simp only [events, List.dropWhile_cons, h, List.takeWhile_cons, Bool.false_eq_true, if_false, List.foldl_nil, finish]
      have := handle_ends (c := c) (s := s) h
      split <;> simp_all

instance (rs : List Round) : Decidable (Stopped rs) := inferInstanceAs (Decidable (∃ r ∈ rs, r.stop = true))

theorem forward_eq (c : Config) (s : State) (rs : List Round) (hs : s.status = .running) :
    forward c s rs = if (events c s (seen rs)).status = .running ∧ Stopped rs then { events c s (seen rs) with status := .returned } else events c s (seen rs) := by
  induction rs generalizing s with
  | nil => simp [forward, seen, events, Stopped]
  | cons r rs ih =>
    cases hr : r.stop with
    | true => simp [forward, seen, events, hs, hr, Stopped]
    | false =>
      simp only [forward, hs, if_true, hr, seen, Bool.false_eq_true, if_false, events_append c s _ _ hs]
      have hst : Stopped (r :: rs) ↔ Stopped rs := by simp [Stopped, hr]
      by_cases h : (events c s r.events).status = .running
      · rw [ih _ h]; simp [h, hst]
      · simp only [h, if_false, false_and]
        cases rs with
        | nil => rfl
        | cons q qs => simp [forward, h]

theorem deliver_fields (s : State) (e : Event) : (deliver s e).calls = s.calls ∧ (deliver s e).status = s.status := by
  unfold deliver; split
  · split <;> exact ⟨rfl, rfl⟩
  · exact ⟨rfl, rfl⟩

theorem foldl_fields (s : State) (es : List Event) : (es.foldl deliver s).calls = s.calls ∧ (es.foldl deliver s).status = s.status := by
  induction es generalizing s with
  | nil => exact ⟨rfl, rfl⟩
  | cons e es ih => rw [List.foldl_cons, (ih _).1, (ih _).2]; exact deliver_fields s e

def State.delivered (s : State) : Side → List Nat
  | .sock => s.toSlave
  | .slave => s.toSock

theorem callback_delivered (c : Config) (s : State) (x y : Side) : (callback c s x).1.delivered y = s.delivered y := by
  unfold callback; split <;> cases y <;> rfl

theorem caught_delivered (c : Config) (s : State) (e : Exc) (y : Side) : (caught c s e).delivered y = s.delivered y := by
  have := callback_delivered c s .sock y
  unfold caught; split
  · split <;> rename_i h <;> rw [h] at this <;> cases y <;> exact this
  · cases y <;> rfl

theorem finish_delivered {c : Config} {s : State} {e : Event} (h : goesOn e = false) (y : Side) : (finish c s e).delivered y = s.delivered y := by
  have hd : (handle c s e).1.delivered y = s.delivered y := by
    rcases e with ⟨f, g, p⟩
    cases f <;> cases g <;> cases p <;> simp [goesOn] at h <;> simp [handle, callback_delivered]
  unfold finish; split <;> rename_i hh <;> rw [hh] at hd
  · rw [caught_delivered]; exact hd
  · cases y <;> exact hd

theorem events_delivered (c : Config) (s : State) (es : List Event) (y : Side) : (events c s es).delivered y = ((es.takeWhile goesOn).foldl deliver s).delivered y := by
  rw [events_eq]
  split
  · rename_i h
    have hall := List.takeWhile_append_dropWhile (p := goesOn) (l := es)
    rw [h, List.append_nil] at hall
    rw [hall]
  · rename_i e _ h
    refine finish_delivered ?_ y
    have := List.head?_dropWhile_not goesOn es
    rw [h] at this
    simpa using this

theorem forward_delivered (c : Config) (rs : List Round) (y : Side) : (forward c {} rs).delivered y = (((seen rs).takeWhile goesOn).foldl deliver {}).delivered y := by
  rw [forward_eq c {} rs rfl]
  split
  · rw [← events_delivered c]; cases y <;> rfl
  · exact events_delivered ..

theorem deliver_delivered (s : State) (e : Event) (y : Side) (h : ∀ b bs n, e.got = .data b bs → e.put = .takes n → (b :: bs).length ≤ n) (hg : goesOn e = true) :
    (deliver s e).delivered y = s.delivered y ++ bytes y e := by
  rcases e with ⟨f, g, p⟩
  cases g <;> cases p <;> simp [goesOn] at hg
  rename_i b bs n
  have := h b bs n rfl rfl
  cases f <;> cases y <;> simp [deliver, State.delivered, bytes] <;> exact List.take_of_length_le this

theorem foldl_delivered (s : State) (es : List Event) (y : Side) (h : ∀ e ∈ es, goesOn e = true ∧ ∀ b bs n, e.got = .data b bs → e.put = .takes n → (b :: bs).length ≤ n) :
    (es.foldl deliver s).delivered y = s.delivered y ++ es.flatMap (bytes y) := by
  induction es generalizing s with
  | nil => simp
  | cons e es ih =>
    have he := h e (by simp)
    rw [List.foldl_cons, ih _ (fun f hf => h f (by simp [hf])), deliver_delivered s e y he.2 he.1]
    simp

theorem foldl_sublist (s : State) (es : List Event) (y : Side) : ∃ l, (es.foldl deliver s).delivered y = s.delivered y ++ l ∧ l.Sublist (es.flatMap (bytes y)) := by
  induction es generalizing s with
  | nil => exact ⟨[], by simp, by simp⟩
  | cons e es ih =>
    have h1 : ∃ l, (deliver s e).delivered y = s.delivered y ++ l ∧ l.Sublist (bytes y e) := by
      rcases e with ⟨f, g, p⟩
      by_cases hg : goesOn ⟨f, g, p⟩ = true
      case neg => exact ⟨[], by cases g <;> cases p <;> first | exact absurd rfl hg | simp [deliver], by simp⟩
      cases g <;> cases p <;> simp [goesOn] at hg
      rename_i b bs n
      cases f <;> cases y
      · exact ⟨_, rfl, by simpa [bytes] using List.take_sublist n (b :: bs)⟩
      · exact ⟨[], by simp [deliver, State.delivered], by simp⟩
      · exact ⟨[], by simp [deliver, State.delivered], by simp⟩
      · exact ⟨_, rfl, by simpa [bytes] using List.take_sublist n (b :: bs)⟩
    obtain ⟨l, hl, hs⟩ := h1
    obtain ⟨m, hm, ht⟩ := ih (deliver s e)
    refine ⟨l ++ m, by rw [List.foldl_cons, hm, hl, List.append_assoc], ?_⟩
    rw [List.flatMap_cons]; exact hs.append ht

end Unpy.Pty
