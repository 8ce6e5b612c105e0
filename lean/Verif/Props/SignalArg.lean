import Verif.Spec.SignalArg
import Verif.Props.Conditions
/-!
# C142: signalling classes
-/
namespace Unpy.Props
open Unpy Unpy.Cond Unpy.Spec.Cond
open Unpy.Fold (Err)
variable {σ ε Ty C K V W : Type} {E : Env σ ε Ty (Sent C) V} {L : Classes σ ε C K V W}

private theorem ends_look {k : σ → Prog σ ε Ty (Sent C) V} {st r st'} : Ends E (.look k) st r st' ↔ Ends E (k st.world) st r st' := by
  constructor
  · intro h
    obtain ⟨n, h⟩ := ends_inv h
    exact ⟨n, h⟩
  · rintro ⟨n, h⟩
    exact ⟨n + 1, h⟩

private theorem ends_put {s : σ} {k : Prog σ ε Ty (Sent C) V} {st r st'} : Ends E (.put s k) st r st' ↔ Ends E k { st with world := s } r st' := by
  constructor
  · intro h
    obtain ⟨n, h⟩ := ends_inv h
    exact ⟨n, h⟩
  · rintro ⟨n, h⟩
    exact ⟨n + 1, h⟩

private theorem ends_act_ok {α : Type} {f : σ → Except (Err ε) α × σ} {ok : α → Prog σ ε Ty (Sent C) V} {bad st r st' a s'} (h : f st.world = (.ok a, s')) :
    Ends E (act f ok bad) st r st' ↔ Ends E (ok a) { st with world := s' } r st' := by
  rw [act, ends_look, h]; exact ends_put

private theorem ends_act_bad {α : Type} {f : σ → Except (Err ε) α × σ} {ok : α → Prog σ ε Ty (Sent C) V} {bad st r st' e s'} (h : f st.world = (.error e, s')) :
    Ends E (act f ok bad) st r st' ↔ Ends E (bad e) { st with world := s' } r st' := by
  rw [act, ends_look, h]; exact ends_put

private theorem canonize_stands {b : Bool} {c0 a : Arg C K V} {k : Option C → Prog σ ε Ty (Sent C) V} {st o s' r st'} (h : Stands L a st.world o s') :
    Ends E (canonize L b c0 a k) st r st' ↔ Ends E (k o) { st with world := s' } r st' := by
  cases h with
  | nothing => exact Iff.rfl
  | inst => exact Iff.rfl
  | cls h => exact ends_act_ok h

private theorem prepare_stands {a cause : Arg C K V} {p : Protocol} {k : Sent C → Prog σ ε Ty (Sent C) V} {st c o s1 s2 r st'} (h : Stands L a st.world (some c) s1) (h2 : Stands L cause s1 o s2) :
    Ends E (prepare L a cause p k) st r st' ↔ Ends E (k ⟨c, p, o⟩) { st with world := s2 } r st' := by
  rw [prepare, canonize_stands h, canonize_stands (st := { st with world := s1 }) h2]

/-- The outcome of a `with restarts` block depends on the outcome of its body. -/
private theorem restarts_congr {bs} {p q : Prog σ ε Ty (Sent C) V} {st1 st2 : St σ ε Ty (Sent C) V} (hn : st1.next = st2.next)
    (h : ∀ r s, Ends E p (pushR bs st1) r s → Ends E q (pushR bs st2) r s) {r s} (hp : Ends E (.restarts bs p) st1 r s) : Ends E (.restarts bs q) st2 r s := by
  obtain ⟨n, hp⟩ := ends_inv hp
  rw [eval] at hp
  cases he : eval E n p (pushR bs st1) with
  | none => simp [he] at hp
  | some o =>
    obtain ⟨m, hq⟩ := h o.1 o.2 ⟨n, he⟩
    refine ⟨max n m + 1, ?_⟩
    rw [eval, eval_mono (Nat.le_max_right n m) hq]
    rw [he] at hp
    obtain ⟨o1, o2⟩ := o
    match o1, hp with
    | .ok v, hp => exact hp
    | .error (.err e), hp => exact hp
    | .error (.invoke b args), hp =>
      simp only [hn] at hp ⊢
      split at hp
      · rename_i hb
        rw [if_pos hb]
        cases hl : bs.lookup b.name with
        | none => rw [hl] at hp; exact hp
        | some f =>
          rw [hl] at hp
          simp only at hp ⊢
          cases hf : eval E n (f args) o2 with
          | none => rw [hf] at hp; simp at hp
          | some o' => rw [eval_mono (Nat.le_max_left n m) hf]; rw [hf] at hp; exact hp
      · rename_i hb
        rw [if_neg hb]; exact hp

/-- C142: `signal`, `error` and `cerror` of a class, with a class or an instance as the cause, or none: an instance is made of each class, first of that of the condition; then the instance is signalled, with
its cause, as if it had been given.  (Missing: `warn`, see `C142_warn_partial`; classes that cannot be called without arguments, see `C142_arguments_refuted`.) -/
theorem C142_signal_partial {p : Protocol} (hp : p ≠ .warn) {a cause : Arg C K V} {st r st' c k s1 s2} (h1 : Stands L a st.world (some c) s1) (h2 : Stands L cause s1 k s2) :
    Ends E (p.callArg L E a cause) st r st' ↔ Ends E (sends E p ⟨c, p, k⟩) { st with world := s2 } r st' := by
  cases p with
  | signal => exact prepare_stands (p := .signal) (k := fun c => .signal c (.ret E.none)) h1 h2
  | error => exact prepare_stands (p := .error) (k := fun c => Cond.error c) h1 h2
  | cerror =>
    constructor
    · exact restarts_congr (st1 := st) (st2 := { st with world := s2 }) rfl fun r s h =>
        (prepare_stands (p := .cerror) (k := fun c => Cond.error c) (st := pushR [("proceed", noneFn E)] st) h1 h2).mp h
    · exact restarts_congr (st1 := { st with world := s2 }) (st2 := st) rfl fun r s h =>
        (prepare_stands (p := .cerror) (k := fun c => Cond.error c) (st := pushR [("proceed", noneFn E)] st) h1 h2).mpr h
  | warn => exact absurd rfl hp

/-- C142: `warn` of a class signals the new instance; and if a handler does not decline, then the outcome is that of signalling it: if `muffle` is invoked, `warn` returns without a warning.
(Missing: a warning that is emitted, see `C142_warning_refuted`.) -/
theorem C142_warn_partial {a cause : Arg C K V} {st c k s1 s2} (h1 : Stands L a st.world (some c) s1) (h2 : Stands L cause s1 k s2) {st1 : St σ ε Ty (Sent C) V}
    (hq : Quiet E ⟨c, .warn, k⟩ { pushR [("_proceed", noneFn E)] (pushR [("muffle", noneFn E)] st) with world := s2 })
    (h : RunsAll E (matching E ⟨c, .warn, k⟩ st.hstack) { pushR [("_proceed", noneFn E)] (pushR [("muffle", noneFn E)] st) with world := s2 }
      (.error (.invoke ⟨"muffle", st.next⟩ ⟨[], []⟩)) st1) :
    Ends E (Protocol.warn.callArg L E a cause) st (.ok E.none) (popR (popR st1)) := by
  have h3 : Ends E (prepare L a cause .warn fun c => .signal c (.ret E.none)) (pushR [("_proceed", noneFn E)] (pushR [("muffle", noneFn E)] st))
      (.error (.invoke ⟨"muffle", st.next⟩ ⟨[], []⟩)) st1 :=
    (prepare_stands (st := pushR [("_proceed", noneFn E)] (pushR [("muffle", noneFn E)] st)) h1 h2).mpr (ends_signal_stop h hq)
  exact ends_restarts_own (f := noneFn E) (st2 := popR st1) (ends_seq_err (ends_restarts_other h3 (by simp [pushR]))) rfl (by simp [List.lookup]) ⟨1, rfl⟩

/-- When all handlers decline, the warning is emitted. -/
private theorem warn_emits {a cause : Arg C K V} {st c k s1 s2} (h1 : Stands L a st.world (some c) s1) (h2 : Stands L cause s1 k s2) {st1 : St σ ε Ty (Sent C) V}
    (hq : Quiet E ⟨c, .warn, k⟩ { pushR [("_proceed", noneFn E)] (pushR [("muffle", noneFn E)] st) with world := s2 })
    (h : RunsAll E (matching E ⟨c, .warn, k⟩ st.hstack) { pushR [("_proceed", noneFn E)] (pushR [("muffle", noneFn E)] st) with world := s2 } (.ok ()) st1) {r s'}
    (he : L.emit (emission L a).1 (emission L a).2 st1.world = (r, s')) :
    Ends E (Protocol.warn.callArg L E a cause) st (warned E r) (popR (popR { st1 with world := s' })) := by
  have h3 : Ends E (prepare L a cause .warn fun c => .signal c (.ret E.none)) (pushR [("_proceed", noneFn E)] (pushR [("muffle", noneFn E)] st)) (.ok E.none) st1 :=
    (prepare_stands (st := pushR [("_proceed", noneFn E)] (pushR [("muffle", noneFn E)] st)) h1 h2).mpr (ends_signal_ok h (hq _ [] _ (List.append_nil _).symm h) ⟨1, rfl⟩)
  have h4 := ends_restarts_val h3
  cases r with
  | ok u => exact ends_restarts_val (ends_seq_ok h4 ((ends_act_ok (st := popR st1) he).mpr ⟨1, rfl⟩))
  | error e => exact ends_restarts_err (ends_seq_ok h4 ((ends_act_bad (st := popR st1) he).mpr ⟨1, rfl⟩))

/-- C142: if an instance is given to `warn`, and all handlers decline, then the warning has the category of the instance, if it is a `Warning`, and its text.
(Missing: classes, see `C142_warning_refuted`.) -/
theorem C142_warning_partial {c : C} {cause : Arg C K V} {st k s2} (h2 : Stands L cause st.world k s2) {st1 : St σ ε Ty (Sent C) V}
    (hq : Quiet E ⟨c, .warn, k⟩ { pushR [("_proceed", noneFn E)] (pushR [("muffle", noneFn E)] st) with world := s2 })
    (h : RunsAll E (matching E ⟨c, .warn, k⟩ st.hstack) { pushR [("_proceed", noneFn E)] (pushR [("muffle", noneFn E)] st) with world := s2 } (.ok ()) st1) {r s'}
    (he : L.emit (warning L c).1 (warning L c).2 st1.world = (r, s')) :
    Ends E (Protocol.warn.callArg L E (.inst c) cause) st (warned E r) (popR (popR { st1 with world := s' })) := by
  refine warn_emits .inst h2 hq h ?_
  rw [← he]
  simp only [emission, warning]
  split <;> rfl

/-- C142 refuted for the warning of a class: its category is `Warning`, even if the class is another category of warnings, so that filters for this category do not see it; and its text is that of the class, not of
the instance.  So it is with `resignal({LibraryWarning: ApplicationWarning})` around `warn(LibraryWarning(...))`, which calls `warn` with the class. -/
theorem C142_warning_refuted {t : K} {cause : Arg C K V} {st c k s1 s2} (h1 : L.make t st.world = (.ok c, s1)) (h2 : Stands L cause s1 k s2) {st1 : St σ ε Ty (Sent C) V}
    (hq : Quiet E ⟨c, .warn, k⟩ { pushR [("_proceed", noneFn E)] (pushR [("muffle", noneFn E)] st) with world := s2 })
    (h : RunsAll E (matching E ⟨c, .warn, k⟩ st.hstack) { pushR [("_proceed", noneFn E)] (pushR [("muffle", noneFn E)] st) with world := s2 } (.ok ()) st1) {r s'}
    (he : L.emit L.generic (L.str (.cls t)) st1.world = (r, s')) :
    Ends E (Protocol.warn.callArg L E (.cls t) cause) st (warned E r) (popR (popR { st1 with world := s' })) :=
  warn_emits (.cls h1) h2 hq h he

private theorem refused_error {b : Bool} {c0 : Arg C K V} {st : St σ ε Ty (Sent C) V} {r st'} :
    Ends E (error ⟨L.control b c0, .error, none⟩) st r st' ↔ Ends E (sends E .error ⟨L.control b c0, .error, none⟩) st r st' := Iff.rfl

/-- C142 refuted for a class that cannot be called without arguments: there is no TypeError, as with `raise`, but a ControlError is signalled (by `error`), which says that it is not an exception class. -/
theorem C142_arguments_refuted {p : Protocol} (hp : p = .signal ∨ p = .error) {t : K} {cause : Arg C K V} {st r st' e s1} (h : L.make t st.world = (.error e, s1)) (he : L.isTypeError e = true) :
    Ends E (p.callArg L E (.cls t) cause) st r st' ↔ Ends E (sends E .error ⟨L.control false (.cls t), .error, none⟩) { st with world := s1 } r st' := by
  rw [← refused_error]
  rcases hp with rfl | rfl <;>
  · simp only [Protocol.callArg, prepare, canonize]
    rw [ends_act_bad h, if_pos he]

/-- C142: anything else that the class raises comes out of the call, and nothing is signalled. -/
theorem C142_raises {p : Protocol} (hp : p = .signal ∨ p = .error) {t : K} {cause : Arg C K V} {st : St σ ε Ty (Sent C) V} {e s1} (h : L.make t st.world = (.error e, s1)) (he : L.isTypeError e = false) :
    Ends E (p.callArg L E (.cls t) cause) st (.error (.err e)) { st with world := s1 } := by
  rcases hp with rfl | rfl <;>
  · simp only [Protocol.callArg, prepare, canonize]
    rw [ends_act_bad h, he]
    exact ⟨1, rfl⟩

/-- C142: something that is neither an exception nor an exception class is not signalled; instead, a ControlError is, by `error`. -/
theorem C142_other {p : Protocol} (hp : p = .signal ∨ p = .error) {v : V} {cause : Arg C K V} {st r st'} :
    Ends E (p.callArg L E (.other v) cause) st r st' ↔ Ends E (sends E .error ⟨L.control false (.other v), .error, none⟩) st r st' := by
  rw [← refused_error]
  rcases hp with rfl | rfl <;> exact Iff.rfl

/-- C142 refuted for `signal(None)`: this is an AttributeError. -/
theorem C142_none_refuted {p : Protocol} (hp : p = .signal ∨ p = .error) {st : St σ ε Ty (Sent C) V} : Ends E (p.callArg L E .nothing .nothing) st (.error (.err (.py .AttributeError))) st := by
  rcases hp with rfl | rfl <;> exact ⟨1, rfl⟩

/-- C142 refuted for the error message about something that cannot be a cause: it shows the condition instead. -/
theorem C142_cause_refuted {p : Protocol} (hp : p = .signal ∨ p = .error) {c : C} {v : V} {st r st'} :
    Ends E (p.callArg L E (.inst c) (.other v)) st r st' ↔ Ends E (sends E .error ⟨L.control true (.inst c), .error, none⟩) st r st' := by
  rw [← refused_error]
  rcases hp with rfl | rfl <;> exact Iff.rfl

/-! ## examples -/

/-- Conditions are pairs of their class and a number; class 9 needs an argument, class 8 is a warning. -/
private def LA : Classes (List String) Empty (Nat × Nat) Nat Nat Nat where
  make := fun t s => if t = 9 then (.error (.py .TypeError), s) else (.ok (t, s.length), s ++ ["made"])
  isTypeError := fun e => match e with | .py .TypeError => true | _ => false
  control := fun _ _ => (99, 0)
  isWarning := fun c => c.1 == 8
  category := fun c => c.1
  generic := 0
  str := fun a => match a with | .cls _ => "<class>" | .inst _ => "instance" | _ => "?"
  emit := fun w t s => (.ok (), s ++ [toString w ++ " " ++ t])
private def EA : Env (List String) Empty Nat (Sent (Nat × Nat)) Nat where
  isa := fun c t => c.inst.1 == t
  ctrl := fun _ => ⟨(99, 0), .error, none⟩
  none := 0
  warn := fun _ s => (.ok (), s)
private def stA (hs : List (List (Nat × (Sent (Nat × Nat) → Prog (List String) Empty Nat (Sent (Nat × Nat)) Nat)))) : St (List String) Empty Nat (Sent (Nat × Nat)) Nat := ⟨[], hs, 0, [], 0⟩

example : Stands LA (.cls 5) [] (some (5, 0)) ["made"] := .cls rfl
example : (eval EA 20 (Protocol.warn.callArg LA EA (.cls 8) .nothing) (stA [])).map (fun o => o.2.world) = some ["made", "0 <class>"] := by decide +kernel
example : (eval EA 20 (Protocol.warn.callArg LA EA (.inst (8, 0)) .nothing) (stA [])).map (fun o => o.2.world) = some ["8 instance"] := by decide +kernel
example : (eval EA 20 (Protocol.signal.callArg LA EA (.cls 5) (.cls 6)) (stA [[(5, fun c => .look fun s => .put (s ++ [toString c.inst.2 ++ (match c.cause with | some k => toString k.2 | none => "")]) (.ret 1))]])).map (fun o => o.2.world) =
    some ["made", "made", "01"] := by decide +kernel
example : Quiet EA ⟨(8, 0), .warn, none⟩ (stA []) := by
  intro inner outer st1 h hr
  have : inner = [] := by
    have h' : [] = inner ++ outer := h
    exact (List.append_eq_nil_iff.mp h'.symm).1
  subst this
  cases hr
  rfl

end Unpy.Props
