import Verif.Spec.Conditions
namespace Unpy.Cond
open Unpy.Spec.Cond
open Unpy.Fold (Err)
variable {σ ε Ty C V : Type} {E : Env σ ε Ty C V}

abbrev Ev (σ ε Ty C V : Type) := Prog σ ε Ty C V → St σ ε Ty C V → Option (Out σ ε Ty C V)

theorem sigFrame_mono {ev ev' : Ev σ ε Ty C V} (h : ∀ p st r, ev p st = some r → ev' p st = some r) (c : C)
    (bs st r) (hr : sigFrame E ev c bs st = some r) : sigFrame E ev' c bs st = some r := by
  induction bs generalizing st with
  | nil => exact hr
  | cons b bs ih =>
    obtain ⟨t, hh⟩ := b
    simp only [sigFrame] at hr ⊢
    split
    · rename_i ht
      rw [if_pos ht] at hr
      cases he : ev (hh c) st with
      | none => simp [he] at hr
      | some o =>
        rw [h _ _ _ he]
        simp only [he] at hr
        rcases o with ⟨(e | v), st'⟩
        · exact hr
        · exact ih _ hr
    · rename_i ht
      rw [if_neg ht] at hr
      exact ih _ hr

theorem sigFrames_mono {ev ev' : Ev σ ε Ty C V} (h : ∀ p st r, ev p st = some r → ev' p st = some r) (c : C)
    (ver hs st r) (hr : sigFrames E ev c ver hs st = some r) : sigFrames E ev' c ver hs st = some r := by
  induction hs generalizing st with
  | nil => exact hr
  | cons bs hs ih =>
    simp only [sigFrames] at hr ⊢
    split
    · rename_i ht; rw [if_pos ht] at hr; exact hr
    · rename_i ht
      rw [if_neg ht] at hr
      cases he : sigFrame E ev c bs st with
      | none => simp [he] at hr
      | some o =>
        rw [sigFrame_mono h c _ _ _ he]
        simp only [he] at hr
        rcases o with ⟨(e | v), st'⟩
        · exact hr
        · exact ih _ hr

theorem eval_mono1 (n : Nat) : ∀ (p : Prog σ ε Ty C V) st r, eval E n p st = some r →
    eval E (n + 1) p st = some r := by
  induction n with
  | zero => intro p st r h; simp [eval] at h
  | succ n ih =>
    intro p st r h
    cases p with
    | ret | raise | invokeBound => simpa [eval] using h
    | look k => rw [eval] at h ⊢; exact ih _ _ _ h
    | put s k => rw [eval] at h ⊢; exact ih _ _ _ h
    | findRestart name k => rw [eval] at h ⊢; exact ih _ _ _ h
    | seq p k =>
      rw [eval] at h ⊢
      cases he : eval E n p st with
      | none => simp [he] at h
      | some o =>
        rw [ih _ _ _ he]
        simp only [he] at h
        rcases o with ⟨(e | v), st'⟩
        · exact h
        · exact ih _ _ _ h
    | tryExcept p hh =>
      rw [eval] at h ⊢
      cases he : eval E n p st with
      | none => simp [he] at h
      | some o =>
        rw [ih _ _ _ he]
        simp only [he] at h
        rcases o with ⟨((e | ⟨b, a⟩) | v), st'⟩
        · exact ih _ _ _ h
        · exact h
        · exact h
    | tryFinally p q =>
      rw [eval] at h ⊢
      cases he : eval E n p st with
      | none => simp [he] at h
      | some o =>
        rw [ih _ _ _ he]
        simp only [he] at h
        obtain ⟨o, st'⟩ := o
        simp only at h ⊢
        cases he2 : eval E n q st' with
        | none => simp [he2] at h
        | some o2 => rw [ih _ _ _ he2]; simp only [he2] at h; exact h
    | handlers bs p =>
      rw [eval] at h ⊢
      cases he : eval E n p (pushH bs st) with
      | none => simp [he] at h
      | some o => rw [ih _ _ _ he]; simp only [he] at h; exact h
    | restarts bs p =>
      rw [eval] at h ⊢
      cases he : eval E n p (pushR bs st) with
      | none => simp [he] at h
      | some o =>
        rw [ih _ _ _ he]
        simp only [he] at h
        rcases o with ⟨((e | ⟨b, a⟩) | v), st'⟩
        · exact h
        · simp only at h ⊢
          split
          · rename_i hb
            rw [if_pos hb] at h
            cases hl : bs.lookup b.name with
            | none => simp only [hl] at h ⊢; exact h
            | some f =>
              simp only [hl] at h ⊢
              cases he2 : eval E n (f a) st' with
              | none => simp [he2] at h
              | some o2 => rw [ih _ _ _ he2]; simp only [he2] at h; exact h
          · rename_i hb; rw [if_neg hb] at h; exact h
        · exact h
    | signal c k =>
      rw [eval] at h ⊢
      cases he : sigFrames E (eval E n) c st.hver st.hstack st with
      | none => simp [he] at h
      | some o =>
        rw [sigFrames_mono ih c _ _ _ _ he]
        simp only [he] at h
        rcases o with ⟨(e | v), st'⟩
        · exact h
        · exact ih _ _ _ h
    | invoke name args =>
      rw [eval] at h ⊢
      by_cases hc : clashInvoke args = true
      · simp only [hc, if_true] at h ⊢; exact h
      simp only [hc] at h ⊢
      cases hf : findR name st.rstack with
      | some b => simp only [hf] at h ⊢; exact h
      | none => simp only [hf] at h ⊢; exact ih _ _ _ h

theorem eval_mono {n m : Nat} (hnm : n ≤ m) {p : Prog σ ε Ty C V} {st r} (h : eval E n p st = some r) :
    eval E m p st = some r := by
  obtain ⟨k, rfl⟩ := Nat.exists_eq_add_of_le hnm
  clear hnm
  induction k with
  | zero => exact h
  | succ k ih => exact eval_mono1 _ _ _ _ ih

theorem ends_unique {p : Prog σ ε Ty C V} {st r r' st1 st2} (h : Ends E p st r st1) (h' : Ends E p st r' st2) :
    r = r' ∧ st1 = st2 := by
  obtain ⟨n, h⟩ := h
  obtain ⟨m, h'⟩ := h'
  have a := eval_mono (Nat.le_max_left n m) h
  have b := eval_mono (Nat.le_max_right n m) h'
  rw [a] at b
  simpa using b

/-! equations for `Ends` -/

theorem ends_step {p : Prog σ ε Ty C V} {st r st'} (h : ∃ n, eval E (n + 1) p st = some (r, st')) :
    Ends E p st r st' := by obtain ⟨n, h⟩ := h; exact ⟨n + 1, h⟩

theorem ends_inv {p : Prog σ ε Ty C V} {st r st'} (h : Ends E p st r st') :
    ∃ n, eval E (n + 1) p st = some (r, st') := by
  obtain ⟨n, h⟩ := h
  exact ⟨n, eval_mono (Nat.le_succ n) h⟩

theorem ends_seq_ok {p : Prog σ ε Ty C V} {k st v st1 r st'} (h1 : Ends E p st (.ok v) st1)
    (h2 : Ends E (k v) st1 r st') : Ends E (.seq p k) st r st' := by
  obtain ⟨n, h1⟩ := h1
  obtain ⟨m, h2⟩ := h2
  refine ⟨max n m + 1, ?_⟩
  rw [eval, eval_mono (Nat.le_max_left n m) h1]
  exact eval_mono (Nat.le_max_right n m) h2

theorem ends_seq_err {p : Prog σ ε Ty C V} {k st e st1} (h1 : Ends E p st (.error e) st1) :
    Ends E (.seq p k) st (.error e) st1 := by
  obtain ⟨n, h1⟩ := h1
  exact ⟨n + 1, by rw [eval, h1]⟩

theorem ends_try_invoke {p : Prog σ ε Ty C V} {h st b a st1} (h1 : Ends E p st (.error (.invoke b a)) st1) :
    Ends E (.tryExcept p h) st (.error (.invoke b a)) st1 := by
  obtain ⟨n, h1⟩ := h1
  exact ⟨n + 1, by rw [eval, h1]⟩

theorem ends_try_err {p : Prog σ ε Ty C V} {h st e st1 r st'} (h1 : Ends E p st (.error (.err e)) st1)
    (h2 : Ends E (h e) st1 r st') : Ends E (.tryExcept p h) st r st' := by
  obtain ⟨n, h1⟩ := h1
  obtain ⟨m, h2⟩ := h2
  refine ⟨max n m + 1, ?_⟩
  rw [eval, eval_mono (Nat.le_max_left n m) h1]
  exact eval_mono (Nat.le_max_right n m) h2

theorem ends_finally_ok {p q : Prog σ ε Ty C V} {st r st1 v st2} (h1 : Ends E p st r st1)
    (h2 : Ends E q st1 (.ok v) st2) : Ends E (.tryFinally p q) st r st2 := by
  obtain ⟨n, h1⟩ := h1
  obtain ⟨m, h2⟩ := h2
  refine ⟨max n m + 1, ?_⟩
  rw [eval, eval_mono (Nat.le_max_left n m) h1]
  simp only
  rw [eval_mono (Nat.le_max_right n m) h2]

theorem ends_finally_err {p q : Prog σ ε Ty C V} {st r st1 e st2} (h1 : Ends E p st r st1)
    (h2 : Ends E q st1 (.error e) st2) : Ends E (.tryFinally p q) st (.error e) st2 := by
  obtain ⟨n, h1⟩ := h1
  obtain ⟨m, h2⟩ := h2
  refine ⟨max n m + 1, ?_⟩
  rw [eval, eval_mono (Nat.le_max_left n m) h1]
  simp only
  rw [eval_mono (Nat.le_max_right n m) h2]

theorem ends_handlers {bs} {p : Prog σ ε Ty C V} {st r st1} (h1 : Ends E p (pushH bs st) r st1) :
    Ends E (.handlers bs p) st r (popH st1) := by
  obtain ⟨n, h1⟩ := h1
  exact ⟨n + 1, by rw [eval, h1]⟩

theorem ends_restarts_other {bs} {p : Prog σ ε Ty C V} {st b a st1}
    (h1 : Ends E p (pushR bs st) (.error (.invoke b a)) st1) (hb : b.ctx ≠ st.next) :
    Ends E (.restarts bs p) st (.error (.invoke b a)) (popR st1) := by
  obtain ⟨n, h1⟩ := h1
  exact ⟨n + 1, by rw [eval, h1]; simp only; rw [if_neg hb]⟩

theorem ends_restarts_own {bs} {p : Prog σ ε Ty C V} {st b a st1 f r st2}
    (h1 : Ends E p (pushR bs st) (.error (.invoke b a)) st1) (hb : b.ctx = st.next)
    (hl : bs.lookup b.name = some f) (h2 : Ends E (f a) st1 r st2) :
    Ends E (.restarts bs p) st r (popR st2) := by
  obtain ⟨n, h1⟩ := h1
  obtain ⟨m, h2⟩ := h2
  refine ⟨max n m + 1, ?_⟩
  rw [eval, eval_mono (Nat.le_max_left n m) h1]
  simp only
  rw [if_pos hb, hl]
  simp only
  rw [eval_mono (Nat.le_max_right n m) h2]

theorem ends_restarts_own_inv {bs} {p : Prog σ ε Ty C V} {st b a st1 f r s}
    (h1 : Ends E p (pushR bs st) (.error (.invoke b a)) st1) (hb : b.ctx = st.next)
    (hl : bs.lookup b.name = some f) (h2 : Ends E (.restarts bs p) st r s) :
    ∃ s1, Ends E (f a) st1 r s1 ∧ s = popR s1 := by
  obtain ⟨n, h1⟩ := h1
  obtain ⟨m, h2⟩ := ends_inv h2
  have h2 := eval_mono (show m + 1 ≤ max n m + 1 by omega) h2
  rw [eval, eval_mono (Nat.le_max_left n m) h1] at h2
  simp only at h2
  rw [if_pos hb, hl] at h2
  simp only at h2
  cases he : eval E (max n m) (f a) st1 with
  | none => simp [he] at h2
  | some o =>
    obtain ⟨r', s1⟩ := o
    simp only [he, Option.some.injEq, Prod.mk.injEq] at h2
    exact ⟨s1, ⟨max n m, by rw [he, h2.1]⟩, h2.2.symm⟩

theorem ends_restarts_val {bs} {p : Prog σ ε Ty C V} {st v st1} (h1 : Ends E p (pushR bs st) (.ok v) st1) :
    Ends E (.restarts bs p) st (.ok v) (popR st1) := by
  obtain ⟨n, h1⟩ := h1
  exact ⟨n + 1, by rw [eval, h1]⟩

theorem ends_restarts_err {bs} {p : Prog σ ε Ty C V} {st e st1} (h1 : Ends E p (pushR bs st) (.error (.err e)) st1) :
    Ends E (.restarts bs p) st (.error (.err e)) (popR st1) := by
  obtain ⟨n, h1⟩ := h1
  exact ⟨n + 1, by rw [eval, h1]⟩

/-! invariants of runs -/

/-- both stacks are as before, and the counters have not gone back -/
def Inv (st st' : St σ ε Ty C V) : Prop :=
  st'.hstack = st.hstack ∧ st'.rstack = st.rstack ∧ st.next ≤ st'.next ∧ st.hver ≤ st'.hver

theorem Inv.refl (st : St σ ε Ty C V) : Inv st st := ⟨rfl, rfl, Nat.le_refl _, Nat.le_refl _⟩
theorem Inv.trans {a b c : St σ ε Ty C V} (h1 : Inv a b) (h2 : Inv b c) : Inv a c :=
  ⟨h2.1.trans h1.1, h2.2.1.trans h1.2.1, Nat.le_trans h1.2.2.1 h2.2.2.1, Nat.le_trans h1.2.2.2 h2.2.2.2⟩
theorem Inv.popH {bs} {a b : St σ ε Ty C V} (h : Inv (pushH bs a) b) : Inv a (popH b) := by
  obtain ⟨h1, h2, h3, h4⟩ := h
  refine ⟨by simp [Cond.popH, h1, pushH], by simpa [Cond.popH, pushH] using h2, by simpa [Cond.popH, pushH] using h3, ?_⟩
  simp [Cond.popH, pushH] at h4 ⊢; omega
theorem Inv.popR {bs} {a b : St σ ε Ty C V} (h : Inv (pushR bs a) b) : Inv a (popR b) := by
  obtain ⟨h1, h2, h3, h4⟩ := h
  refine ⟨by simpa [Cond.popR, pushR] using h1, by simp [Cond.popR, h2, pushR], ?_, by simpa [Cond.popR, pushR] using h4⟩
  simp [Cond.popR, pushR] at h3 ⊢; omega

theorem sigFrame_inv {ev : Ev σ ε Ty C V} (h : ∀ p st r st', ev p st = some (r, st') → Inv st st') (c : C)
    (bs st r st') (hr : sigFrame E ev c bs st = some (r, st')) : Inv st st' := by
  induction bs generalizing st with
  | nil => simp [sigFrame] at hr; rw [← hr.2]; exact .refl _
  | cons b bs ih =>
    obtain ⟨t, hh⟩ := b
    simp only [sigFrame] at hr
    split at hr
    · cases he : ev (hh c) st with
      | none => simp [he] at hr
      | some o =>
        simp only [he] at hr
        rcases o with ⟨(e | v), st1⟩
        · simp at hr; rw [← hr.2]; exact h _ _ _ _ he
        · exact (h _ _ _ _ he).trans (ih _ hr)
    · exact ih _ hr

theorem sigFrames_inv {ev : Ev σ ε Ty C V} (h : ∀ p st r st', ev p st = some (r, st') → Inv st st') (c : C)
    (ver hs st r st') (hr : sigFrames E ev c ver hs st = some (r, st')) : Inv st st' := by
  induction hs generalizing st with
  | nil =>
    simp only [sigFrames] at hr
    split at hr <;> (simp at hr; rw [← hr.2]; exact .refl _)
  | cons bs hs ih =>
    simp only [sigFrames] at hr
    split at hr
    · simp at hr; rw [← hr.2]; exact .refl _
    · cases he : sigFrame E ev c bs st with
      | none => simp [he] at hr
      | some o =>
        simp only [he] at hr
        rcases o with ⟨(e | v), st1⟩
        · simp at hr; rw [← hr.2]; exact sigFrame_inv h c _ _ _ _ he
        · exact (sigFrame_inv h c _ _ _ _ he).trans (ih _ hr)

theorem eval_inv (n : Nat) : ∀ (p : Prog σ ε Ty C V) st r st', eval E n p st = some (r, st') → Inv st st' := by
  induction n with
  | zero => intro p st r st' h; simp [eval] at h
  | succ n ih =>
    intro p st r st' h
    cases p with
    | ret | raise => simp [eval] at h; rw [← h.2]; exact .refl _
    | invokeBound b args =>
      rw [eval] at h
      by_cases hc : clashInvoke args = true
      · simp only [hc, if_true] at h; simp at h; rw [← h.2]; exact .refl _
      · simp [hc] at h; rw [← h.2]; exact .refl _
    | look k => rw [eval] at h; exact ih _ _ _ _ h
    | put s k => rw [eval] at h; exact ih _ { st with world := s } _ _ h
    | findRestart name k => rw [eval] at h; exact ih _ _ _ _ h
    | seq p k =>
      rw [eval] at h
      cases he : eval E n p st with
      | none => simp [he] at h
      | some o =>
        simp only [he] at h
        rcases o with ⟨(e | v), st1⟩
        · simp at h; rw [← h.2]; exact ih _ _ _ _ he
        · exact (ih _ _ _ _ he).trans (ih _ _ _ _ h)
    | tryExcept p hh =>
      rw [eval] at h
      cases he : eval E n p st with
      | none => simp [he] at h
      | some o =>
        simp only [he] at h
        rcases o with ⟨((e | ⟨b, a⟩) | v), st1⟩
        · exact (ih _ _ _ _ he).trans (ih _ _ _ _ h)
        · simp at h; rw [← h.2]; exact ih _ _ _ _ he
        · simp at h; rw [← h.2]; exact ih _ _ _ _ he
    | tryFinally p q =>
      rw [eval] at h
      cases he : eval E n p st with
      | none => simp [he] at h
      | some o =>
        obtain ⟨o, st1⟩ := o
        simp only [he] at h
        cases he2 : eval E n q st1 with
        | none => simp [he2] at h
        | some o2 =>
          simp only [he2] at h
          rcases o2 with ⟨(e | v), st2⟩ <;>
            (simp at h; rw [← h.2]; exact (ih _ _ _ _ he).trans (ih _ _ _ _ he2))
    | handlers bs p =>
      rw [eval] at h
      cases he : eval E n p (pushH bs st) with
      | none => simp [he] at h
      | some o =>
        simp only [he] at h
        simp at h; rw [← h.2]; exact (ih _ _ _ _ he).popH
    | restarts bs p =>
      rw [eval] at h
      cases he : eval E n p (pushR bs st) with
      | none => simp [he] at h
      | some o =>
        simp only [he] at h
        rcases o with ⟨((e | ⟨b, a⟩) | v), st1⟩
        · simp at h; rw [← h.2]; exact (ih _ _ _ _ he).popR
        · simp only at h
          split at h
          · cases hl : bs.lookup b.name with
            | none => simp [hl] at h; rw [← h.2]; exact (ih _ _ _ _ he).popR
            | some f =>
              simp only [hl] at h
              cases he2 : eval E n (f a) st1 with
              | none => simp [he2] at h
              | some o2 =>
                simp only [he2] at h
                simp at h; rw [← h.2]
                exact ((ih _ _ _ _ he).trans (ih _ _ _ _ he2)).popR
          · simp at h; rw [← h.2]; exact (ih _ _ _ _ he).popR
        · simp at h; rw [← h.2]; exact (ih _ _ _ _ he).popR
    | signal c k =>
      rw [eval] at h
      cases he : sigFrames E (eval E n) c st.hver st.hstack st with
      | none => simp [he] at h
      | some o =>
        simp only [he] at h
        rcases o with ⟨(e | v), st1⟩
        · simp at h; rw [← h.2]; exact sigFrames_inv ih c _ _ _ _ _ he
        · exact (sigFrames_inv ih c _ _ _ _ _ he).trans (ih _ _ _ _ h)
    | invoke name args =>
      rw [eval] at h
      by_cases hc : clashInvoke args = true
      · simp only [hc, if_true] at h; simp at h; rw [← h.2]; exact .refl _
      simp only [hc] at h
      cases hf : findR name st.rstack with
      | some b => simp [hf] at h; rw [← h.2]; exact .refl _
      | none => simp only [hf] at h; exact ih _ _ _ _ h

theorem ends_inv' {p : Prog σ ε Ty C V} {st r st'} (h : Ends E p st r st') : Inv st st' := by
  obtain ⟨n, h⟩ := h; exact eval_inv n _ _ _ _ h

theorem runsAll_inv {hs : List (Prog σ ε Ty C V)} {st r st'} (h : RunsAll E hs st r st') : Inv st st' := by
  induction h with
  | nil => exact .refl _
  | next h1 _ ih => exact (ends_inv' h1).trans ih
  | stop h1 => exact ends_inv' h1

/-! signalling -/

theorem matching_cons (c : C) (bs) (hs : List (List (Ty × (C → Prog σ ε Ty C V)))) :
    matching E c (bs :: hs) = matching E c [bs] ++ matching E c hs := by simp [matching]

theorem matching_one_cons (c : C) (t : Ty) (h : C → Prog σ ε Ty C V) (bs) :
    matching E c [(t, h) :: bs] = if E.isa c t then h c :: matching E c [bs] else matching E c [bs] := by
  simp only [matching, List.flatten_cons, List.flatten_nil, List.append_nil, List.filter_cons]
  split <;> simp

theorem matching_append (c : C) (hs hs' : List (List (Ty × (C → Prog σ ε Ty C V)))) :
    matching E c (hs ++ hs') = matching E c hs ++ matching E c hs' := by simp [matching]

theorem matching_one_append (c : C) (a b : List (Ty × (C → Prog σ ε Ty C V))) :
    matching E c [a ++ b] = matching E c [a] ++ matching E c [b] := by simp [matching]

theorem runsAll_append_ok {a b : List (Prog σ ε Ty C V)} {st st1 r st'} (h1 : RunsAll E a st (.ok ()) st1)
    (h2 : RunsAll E b st1 r st') : RunsAll E (a ++ b) st r st' := by
  induction a generalizing st with
  | nil => cases h1; exact h2
  | cons x a ih => cases h1 with | next h h' => exact .next h (ih h')

theorem runsAll_append_err {a b : List (Prog σ ε Ty C V)} {st e st'} (h1 : RunsAll E a st (.error e) st') :
    RunsAll E (a ++ b) st (.error e) st' := by
  induction a generalizing st with
  | nil => cases h1
  | cons x a ih =>
    cases h1 with
    | next h h' => exact .next h (ih h')
    | stop h => exact .stop h

theorem runsAll_append_inv {a b : List (Prog σ ε Ty C V)} {st r st'} (h : RunsAll E (a ++ b) st r st') :
    (∃ st1, RunsAll E a st (.ok ()) st1 ∧ RunsAll E b st1 r st') ∨
    (∃ e, r = .error e ∧ RunsAll E a st (.error e) st') := by
  induction a generalizing st with
  | nil => exact .inl ⟨st, .nil, h⟩
  | cons x a ih =>
    cases h with
    | next h h' =>
      rcases ih h' with ⟨s1, h1, h2⟩ | ⟨e, rfl, h1⟩
      · exact .inl ⟨s1, .next h h1, h2⟩
      · exact .inr ⟨e, rfl, .next h h1⟩
    | stop h => exact .inr ⟨_, rfl, .stop h⟩

theorem runsAll_unique {a : List (Prog σ ε Ty C V)} {st r r' st1 st2} (h : RunsAll E a st r st1)
    (h' : RunsAll E a st r' st2) : r = r' ∧ st1 = st2 := by
  induction h with
  | nil => cases h'; exact ⟨rfl, rfl⟩
  | next h _ ih =>
    cases h' with
    | next g g' => obtain ⟨_, rfl⟩ := ends_unique h g; exact ih g'
    | stop g => have := (ends_unique h g).1; cases this
  | stop h =>
    cases h' with
    | next g g' => have := (ends_unique h g).1; cases this
    | stop g => obtain ⟨a, rfl⟩ := ends_unique h g; cases a; exact ⟨rfl, rfl⟩

theorem sigFrame_sound {n : Nat} {c : C} {bs st r st'} (h : sigFrame E (eval E n) c bs st = some (r, st')) :
    RunsAll E (matching E c [bs]) st r st' := by
  induction bs generalizing st with
  | nil => simp [sigFrame] at h; obtain ⟨rfl, rfl⟩ := h; simpa [matching] using RunsAll.nil
  | cons b bs ih =>
    obtain ⟨t, hh⟩ := b
    rw [matching_one_cons]
    simp only [sigFrame] at h
    split at h
    · rename_i ht
      rw [if_pos ht]
      cases he : eval E n (hh c) st with
      | none => simp [he] at h
      | some o =>
        simp only [he] at h
        rcases o with ⟨(e | v), st1⟩
        · simp at h; obtain ⟨rfl, rfl⟩ := h; exact .stop ⟨n, he⟩
        · exact .next ⟨n, he⟩ (ih h)
    · rename_i ht
      rw [if_neg ht]; exact ih h

theorem sigFrame_complete {c : C} {bs : List (Ty × (C → Prog σ ε Ty C V))} {st r st'}
    (h : RunsAll E (matching E c [bs]) st r st') :
    ∃ n, ∀ m, n ≤ m → sigFrame E (eval E m) c bs st = some (r, st') := by
  induction bs generalizing st with
  | nil => simp [matching] at h; cases h; exact ⟨0, fun m _ => rfl⟩
  | cons b bs ih =>
    obtain ⟨t, hh⟩ := b
    rw [matching_one_cons] at h
    split at h
    · rename_i ht
      cases h with
      | next h1 h2 =>
        obtain ⟨n1, h1⟩ := h1
        obtain ⟨n2, h2⟩ := ih h2
        refine ⟨max n1 n2, fun m hm => ?_⟩
        simp only [sigFrame, if_pos ht]
        rw [eval_mono (show n1 ≤ m by omega) h1]
        exact h2 m (by omega)
      | stop h1 =>
        obtain ⟨n1, h1⟩ := h1
        refine ⟨n1, fun m hm => ?_⟩
        simp only [sigFrame, if_pos ht]
        rw [eval_mono hm h1]
    · rename_i ht
      obtain ⟨n, h⟩ := ih h
      exact ⟨n, fun m hm => by simp only [sigFrame, if_neg ht]; exact h m hm⟩

/-- the handlers of some inner blocks have declined, and the deque is as at the beginning: the loop goes on -/
theorem sigFrames_skip {c : C} {inner rest : List (List (Ty × (C → Prog σ ε Ty C V)))} {st st1 : St σ ε Ty C V}
    {ver : Nat} (h : RunsAll E (matching E c inner) st (.ok ()) st1) (h0 : st.hver = ver) (h1 : st1.hver = ver) :
    ∃ n, ∀ m, n ≤ m → sigFrames E (eval E m) c ver (inner ++ rest) st = sigFrames E (eval E m) c ver rest st1 := by
  induction inner generalizing st with
  | nil => simp [matching] at h; cases h; exact ⟨0, fun m _ => rfl⟩
  | cons bs inner ih =>
    rw [matching_cons] at h
    rcases runsAll_append_inv h with ⟨s1, ha, hb⟩ | ⟨e, he, _⟩
    · have hv : s1.hver = ver := by
        have a := (runsAll_inv ha).2.2.2
        have b := (runsAll_inv hb).2.2.2
        omega
      obtain ⟨n1, h1'⟩ := sigFrame_complete ha
      obtain ⟨n2, h2'⟩ := ih hb hv
      refine ⟨max n1 n2, fun m hm => ?_⟩
      simp only [List.cons_append, sigFrames, h0, ne_eq, not_true_eq_false, if_false]
      rw [h1' m (by omega)]
      exact h2' m (by omega)
    · cases he

theorem sigFrames_sound {n : Nat} {c : C} {hs : List (List (Ty × (C → Prog σ ε Ty C V)))} {ver st r st'}
    (h : sigFrames E (eval E n) c ver hs st = some (r, st')) :
    (r = .ok () ∧ RunsAll E (matching E c hs) st (.ok ()) st' ∧ st'.hver = ver) ∨
    (∃ e, r = .error e ∧ RunsAll E (matching E c hs) st (.error e) st') ∨
    (∃ inner outer, hs = inner ++ outer ∧ RunsAll E (matching E c inner) st (.ok ()) st' ∧ st'.hver ≠ ver ∧
      r = .error (.err (.py .RuntimeError))) := by
  induction hs generalizing st with
  | nil =>
    simp only [sigFrames] at h
    split at h
    · rename_i hv
      simp at h; obtain ⟨rfl, rfl⟩ := h
      exact .inr (.inr ⟨[], [], rfl, by simpa [matching] using RunsAll.nil, hv, rfl⟩)
    · rename_i hv
      simp at h; obtain ⟨rfl, rfl⟩ := h
      exact .inl ⟨rfl, by simpa [matching] using RunsAll.nil, by simpa using hv⟩
  | cons bs hs ih =>
    simp only [sigFrames] at h
    split at h
    · rename_i hv
      simp at h; obtain ⟨rfl, rfl⟩ := h
      exact .inr (.inr ⟨[], bs :: hs, rfl, by simpa [matching] using RunsAll.nil, hv, rfl⟩)
    · cases he : sigFrame E (eval E n) c bs st with
      | none => simp [he] at h
      | some o =>
        simp only [he] at h
        rw [matching_cons]
        rcases o with ⟨(e | v), st1⟩
        · simp at h; obtain ⟨rfl, rfl⟩ := h
          exact .inr (.inl ⟨e, rfl, runsAll_append_err (sigFrame_sound he)⟩)
        · rcases ih h with ⟨h1, h2, h3⟩ | ⟨e, h1, h2⟩ | ⟨inner, outer, h1, h2, h3, h4⟩
          · exact .inl ⟨h1, runsAll_append_ok (sigFrame_sound he) h2, h3⟩
          · exact .inr (.inl ⟨e, h1, runsAll_append_ok (sigFrame_sound he) h2⟩)
          · refine .inr (.inr ⟨bs :: inner, outer, by rw [h1]; rfl, ?_, h3, h4⟩)
            rw [matching_cons]; exact runsAll_append_ok (sigFrame_sound he) h2

theorem sigFrames_complete_ok {c : C} {hs : List (List (Ty × (C → Prog σ ε Ty C V)))} {ver} {st st' : St σ ε Ty C V}
    (h : RunsAll E (matching E c hs) st (.ok ()) st') (h0 : st.hver = ver) (h1 : st'.hver = ver) :
    ∃ n, ∀ m, n ≤ m → sigFrames E (eval E m) c ver hs st = some (.ok (), st') := by
  obtain ⟨n, h⟩ := sigFrames_skip (rest := []) h h0 h1
  refine ⟨n, fun m hm => ?_⟩
  have := h m hm
  rw [List.append_nil] at this
  rw [this]
  simp [sigFrames, h1]

theorem sigFrames_complete_err {c : C} {inner outer : List (List (Ty × (C → Prog σ ε Ty C V)))}
    {b1 b2 : List (Ty × (C → Prog σ ε Ty C V))} {t : Ty} {hh : C → Prog σ ε Ty C V} {ver} {st st0 st1 st2 : St σ ε Ty C V}
    {e} (ht : E.isa c t = true) (h0 : st.hver = ver) (h : RunsAll E (matching E c inner) st (.ok ()) st0)
    (h1 : st0.hver = ver) (hb : RunsAll E (matching E c [b1]) st0 (.ok ()) st1) (he : Ends E (hh c) st1 (.error e) st2) :
    ∃ n, ∀ m, n ≤ m → sigFrames E (eval E m) c ver (inner ++ (b1 ++ (t, hh) :: b2) :: outer) st =
      some (.error e, st2) := by
  obtain ⟨n, h⟩ := sigFrames_skip (rest := (b1 ++ (t, hh) :: b2) :: outer) h h0 h1
  have : RunsAll E (matching E c [b1 ++ (t, hh) :: b2]) st0 (.error e) st2 := by
    rw [matching_one_append]
    refine runsAll_append_ok hb ?_
    rw [matching_one_cons, if_pos ht]
    exact .stop he
  obtain ⟨n', h'⟩ := sigFrame_complete this
  refine ⟨max n n', fun m hm => ?_⟩
  rw [h m (by omega)]
  simp only [sigFrames, h1, ne_eq, not_true_eq_false, if_false]
  rw [h' m (by omega)]

theorem ends_signal_ok {c : C} {k : Prog σ ε Ty C V} {st st1 r st'}
    (h : RunsAll E (matching E c st.hstack) st (.ok ()) st1) (hv : st1.hver = st.hver) (hk : Ends E k st1 r st') :
    Ends E (.signal c k) st r st' := by
  obtain ⟨n, h⟩ := sigFrames_complete_ok h rfl hv
  obtain ⟨m, hk⟩ := hk
  refine ⟨max n m + 1, ?_⟩
  rw [eval, h _ (Nat.le_max_left n m)]
  exact eval_mono (Nat.le_max_right n m) hk

theorem ends_signal_err {c : C} {k : Prog σ ε Ty C V} {inner outer b1 t hh b2 st st0 st1 e st2}
    (hst : st.hstack = inner ++ (b1 ++ (t, hh) :: b2) :: outer) (ht : E.isa c t = true)
    (h : RunsAll E (matching E c inner) st (.ok ()) st0) (hv : st0.hver = st.hver)
    (hb : RunsAll E (matching E c [b1]) st0 (.ok ()) st1) (he : Ends E (hh c) st1 (.error e) st2) :
    Ends E (.signal c k) st (.error e) st2 := by
  obtain ⟨n, h⟩ := sigFrames_complete_err (b2 := b2) (outer := outer) ht rfl h hv hb he
  refine ⟨n + 1, ?_⟩
  rw [eval, hst, h _ (Nat.le_refl n)]

theorem ends_signal_inv {c : C} {k : Prog σ ε Ty C V} {st r st'} (h : Ends E (.signal c k) st r st') :
    (∃ st1, RunsAll E (matching E c st.hstack) st (.ok ()) st1 ∧ st1.hver = st.hver ∧ Ends E k st1 r st') ∨
    (∃ e, r = .error e ∧ RunsAll E (matching E c st.hstack) st (.error e) st') ∨
    (∃ inner outer, st.hstack = inner ++ outer ∧ RunsAll E (matching E c inner) st (.ok ()) st' ∧
      st'.hver ≠ st.hver ∧ r = .error (.err (.py .RuntimeError))) := by
  obtain ⟨n, h⟩ := ends_inv h
  rw [eval] at h
  cases he : sigFrames E (eval E n) c st.hver st.hstack st with
  | none => simp [he] at h
  | some o =>
    simp only [he] at h
    rcases o with ⟨(e | v), st1⟩
    · simp at h; obtain ⟨rfl, rfl⟩ := h
      rcases sigFrames_sound he with ⟨h1, _⟩ | ⟨e', h1, h2⟩ | ⟨i, o, h1, h2, h3, h4⟩
      · cases h1
      · cases h1; exact .inr (.inl ⟨_, rfl, h2⟩)
      · cases h4; exact .inr (.inr ⟨i, o, h1, h2, h3, rfl⟩)
    · rcases sigFrames_sound he with ⟨h1, h2, h3⟩ | ⟨e', h1, h2⟩ | ⟨i, o, h1, h2, h3, h4⟩
      · exact .inl ⟨st1, h2, h3, n, h⟩
      · cases h1
      · cases h4

theorem sigFrames_complete_stop {c : C} {hs : List (List (Ty × (C → Prog σ ε Ty C V)))} {ver e} {st st' : St σ ε Ty C V}
    (h : RunsAll E (matching E c hs) st (.error e) st') (h0 : st.hver = ver)
    (hq : ∀ inner outer st1, hs = inner ++ outer → RunsAll E (matching E c inner) st (.ok ()) st1 → st1.hver = ver) :
    ∃ n, ∀ m, n ≤ m → sigFrames E (eval E m) c ver hs st = some (.error e, st') := by
  induction hs generalizing st with
  | nil => simp [matching] at h; cases h
  | cons bs hs ih =>
    rw [matching_cons] at h
    rcases runsAll_append_inv h with ⟨s1, h1, h2⟩ | ⟨e', he, h1⟩
    · have hv := hq [bs] hs s1 rfl h1
      obtain ⟨n1, h1'⟩ := sigFrame_complete h1
      obtain ⟨n2, h2'⟩ := ih h2 hv (fun inner outer st1 hi hr => hq (bs :: inner) outer st1 (by rw [hi]; rfl)
        (by rw [matching_cons]; exact runsAll_append_ok h1 hr))
      refine ⟨max n1 n2, fun m hm => ?_⟩
      simp only [sigFrames, h0, ne_eq, not_true_eq_false, if_false]
      rw [h1' m (by omega)]
      exact h2' m (by omega)
    · cases he
      obtain ⟨n1, h1'⟩ := sigFrame_complete h1
      refine ⟨n1, fun m hm => ?_⟩
      simp only [sigFrames, h0, ne_eq, not_true_eq_false, if_false]
      rw [h1' m hm]

theorem ends_signal_stop {c : C} {k : Prog σ ε Ty C V} {st e st'} 
    (h : RunsAll E (matching E c st.hstack) st (.error e) st')
    (hq : ∀ inner outer st1, st.hstack = inner ++ outer → RunsAll E (matching E c inner) st (.ok ()) st1 →
      st1.hver = st.hver) :
    Ends E (.signal c k) st (.error e) st' := by
  obtain ⟨n, h⟩ := sigFrames_complete_stop h rfl hq
  exact ⟨n + 1, by rw [eval, h _ (Nat.le_refl n)]⟩

/-! restarts -/

theorem rOf_append (fs gs : List (Frame σ ε Ty C V)) : rOf (fs ++ gs) = rOf fs ++ rOf gs := by
  induction fs with
  | nil => rfl
  | cons f fs ih => cases f <;> simp [rOf, ih]
theorem hOf_append (fs gs : List (Frame σ ε Ty C V)) : hOf (fs ++ gs) = hOf fs ++ hOf gs := by
  induction fs with
  | nil => rfl
  | cons f fs ih => cases f <;> simp [hOf, ih]

theorem leaveAll_append {fs gs : List (Frame σ ε Ty C V)} {st st'} :
    LeaveAll E (fs ++ gs) st st' ↔ ∃ st1, LeaveAll E fs st st1 ∧ LeaveAll E gs st1 st' := by
  induction fs generalizing st with
  | nil => exact ⟨fun h => ⟨st, .nil, h⟩, fun ⟨s, h, h'⟩ => by cases h; exact h'⟩
  | cons f fs ih =>
    constructor
    · intro h
      cases h with
      | plain h => obtain ⟨s, a, b⟩ := ih.mp h; exact ⟨s, .plain a, b⟩
      | tryFinally h0 h => obtain ⟨s, a, b⟩ := ih.mp h; exact ⟨s, .tryFinally h0 a, b⟩
      | handlers h => obtain ⟨s, a, b⟩ := ih.mp h; exact ⟨s, .handlers a, b⟩
      | restarts h => obtain ⟨s, a, b⟩ := ih.mp h; exact ⟨s, .restarts a, b⟩
      | restartFn h => obtain ⟨s, a, b⟩ := ih.mp h; exact ⟨s, .restartFn a, b⟩
    · rintro ⟨s, h, h'⟩
      cases h with
      | plain h => exact .plain (ih.mpr ⟨s, h, h'⟩)
      | tryFinally h0 h => exact .tryFinally h0 (ih.mpr ⟨s, h, h'⟩)
      | handlers h => exact .handlers (ih.mpr ⟨s, h, h'⟩)
      | restarts h => exact .restarts (ih.mpr ⟨s, h, h'⟩)
      | restartFn h => exact .restartFn (ih.mpr ⟨s, h, h'⟩)

theorem leaveAll_plain {fs : List (Frame σ ε Ty C V)} {st st'} (h : LeaveAll E (.plain :: fs) st st') :
    LeaveAll E fs st st' := by cases h; assumption
theorem leaveAll_handlers {fs : List (Frame σ ε Ty C V)} {bs st st'} (h : LeaveAll E (.handlers bs :: fs) st st') :
    LeaveAll E fs (popH st) st' := by cases h; assumption
theorem leaveAll_restarts {fs : List (Frame σ ε Ty C V)} {i bs st st'} (h : LeaveAll E (.restarts i bs :: fs) st st') :
    LeaveAll E fs (popR st) st' := by cases h; assumption
theorem leaveAll_restartFn {fs : List (Frame σ ε Ty C V)} {i bs st st'} (h : LeaveAll E (.restartFn i bs :: fs) st st') :
    LeaveAll E fs (popR st) st' := by cases h; assumption

/-- the stacks at an active point are those at the start with the unfinished blocks on top -/
theorem active_inv {p q : Prog σ ε Ty C V} {st st' fs} (h : Active E p st q st' fs) :
    st'.hstack = hOf fs ++ st.hstack ∧ st'.rstack = rOf fs ++ st.rstack ∧ st.next ≤ st'.next ∧
      ∀ r ∈ rOf fs, st.next ≤ r.1 := by
  have after : ∀ {st st1 st' : St σ ε Ty C V} {fs : List (Frame σ ε Ty C V)}, Inv st st1 →
      (st'.hstack = hOf fs ++ st1.hstack ∧ st'.rstack = rOf fs ++ st1.rstack ∧ st1.next ≤ st'.next ∧
        ∀ r ∈ rOf fs, st1.next ≤ r.1) →
      (st'.hstack = hOf fs ++ st.hstack ∧ st'.rstack = rOf fs ++ st.rstack ∧ st.next ≤ st'.next ∧
        ∀ r ∈ rOf fs, st.next ≤ r.1) := by
    intro st st1 st' fs hi h
    exact ⟨by rw [h.1, hi.1], by rw [h.2.1, hi.2.1], Nat.le_trans hi.2.2.1 h.2.2.1,
      fun r hr => Nat.le_trans hi.2.2.1 (h.2.2.2 r hr)⟩
  induction h with
  | here => simp [hOf, rOf]
  | look _ ih => exact ih
  | put _ ih => exact ih
  | findRestart _ ih => exact ih
  | inSeq _ ih | inTry _ ih | inTryFinally _ ih => simpa [hOf_append, rOf_append, hOf, rOf] using ih
  | afterSeq h _ ih => exact after (ends_inv' h) ih
  | inExcept h _ ih => exact after (ends_inv' h) ih
  | inFinally h _ ih => simpa [hOf_append, rOf_append, hOf, rOf] using after (ends_inv' h) ih
  | @inHandlers bs p st q st' fs _ ih =>
    simp only [hOf_append, rOf_append, hOf, rOf, List.append_nil, List.append_assoc, List.cons_append, List.nil_append]
    exact ⟨ih.1, ih.2.1, ih.2.2.1, ih.2.2.2⟩
  | @inRestarts bs p st q st' fs _ ih =>
    simp only [hOf_append, rOf_append, hOf, rOf, List.append_nil, List.append_assoc, List.cons_append, List.nil_append]
    refine ⟨ih.1, ih.2.1, by have := ih.2.2.1; simp [pushR] at this; omega, ?_⟩
    intro r hr
    rw [List.mem_append] at hr
    rcases hr with hr | hr
    · have := ih.2.2.2 r hr; simp [pushR] at this; omega
    · simp at hr; rw [hr]; exact Nat.le_refl _
  | @inRestartFn bs p st b args f st1 q st' fs h hb hl _ ih =>
    have ih := after (ends_inv' h) ih
    simp only [hOf_append, rOf_append, hOf, rOf, List.append_nil, List.append_assoc, List.cons_append, List.nil_append]
    refine ⟨ih.1, ih.2.1, by have := ih.2.2.1; simp [pushR] at this; omega, ?_⟩
    intro r hr
    rw [List.mem_append] at hr
    rcases hr with hr | hr
    · have := ih.2.2.2 r hr; simp [pushR] at this; omega
    · simp at hr; rw [hr]; exact Nat.le_refl _
  | inHandler _ _ h1 _ h2 _ ih =>
    simpa [hOf_append, rOf_append, hOf, rOf] using after ((runsAll_inv h1).trans (runsAll_inv h2)) ih
  | afterSignal h1 _ _ ih => exact after (runsAll_inv h1) ih
  | unknown _ _ _ ih => exact ih

theorem clashInvoke_false {args : Args V} (h : ∀ p ∈ args.named, p.1 ≠ "name_or_restart") : clashInvoke args = false := by
  rw [clashInvoke, List.any_eq_false]; intro p hp; simpa using h p hp

theorem free_clash {args : Args V} (h : Spec.Cond.Free args) : clashInvoke args = false ∧ clashInit args = false := by
  constructor
  · refine clashInvoke_false fun p hp e => h p hp ?_
    simp [e]
  · rw [clashInit, List.any_eq_false]; intro p hp
    have := h p hp
    simp only [List.mem_cons, List.not_mem_nil, or_false, not_or] at this
    simp [this]

/-- an `InvokeRestart` that is for none of the blocks passes through them -/
theorem active_invoke {p q : Prog σ ε Ty C V} {st st' fs} (h : Active E p st q st' fs) {b args s'}
    (hq : Ends E q st' (.error (.invoke b args)) s') (hb : ∀ r ∈ rOf fs, r.1 ≠ b.ctx) {st''}
    (hl : LeaveAll E fs s' st'') : Ends E p st (.error (.invoke b args)) st'' := by
  induction h generalizing st'' with
  | here => cases hl; exact hq
  | look _ ih => obtain ⟨n, h⟩ := ih hq hb hl; exact ⟨n + 1, by rw [eval]; exact h⟩
  | put _ ih => obtain ⟨n, h⟩ := ih hq hb hl; exact ⟨n + 1, by rw [eval]; exact h⟩
  | findRestart _ ih => obtain ⟨n, h⟩ := ih hq hb hl; exact ⟨n + 1, by rw [eval]; exact h⟩
  | inSeq _ ih =>
    obtain ⟨s1, h1, h2⟩ := leaveAll_append.mp hl
    replace h2 := leaveAll_plain h2
    cases h2
    exact ends_seq_err (ih hq (fun r hr => hb r (by simp [rOf_append, hr])) h1)
  | afterSeq h _ ih => exact ends_seq_ok h (ih hq hb hl)
  | inTry _ ih =>
    obtain ⟨s1, h1, h2⟩ := leaveAll_append.mp hl
    replace h2 := leaveAll_plain h2
    cases h2
    exact ends_try_invoke (ih hq (fun r hr => hb r (by simp [rOf_append, hr])) h1)
  | inExcept h _ ih => exact ends_try_err h (ih hq hb hl)
  | inTryFinally _ ih =>
    obtain ⟨s1, h1, h2⟩ := leaveAll_append.mp hl
    cases h2 with | tryFinally h0 h2 => cases h2; exact ends_finally_ok (ih hq (fun r hr => hb r (by simp [rOf_append, hr])) h1) h0
  | inFinally h _ ih =>
    obtain ⟨s1, h1, h2⟩ := leaveAll_append.mp hl
    replace h2 := leaveAll_plain h2
    cases h2
    exact ends_finally_err h (ih hq (fun r hr => hb r (by simp [rOf_append, hr])) h1)
  | inHandlers _ ih =>
    obtain ⟨s1, h1, h2⟩ := leaveAll_append.mp hl
    replace h2 := leaveAll_handlers h2
    cases h2
    exact ends_handlers (ih hq (fun r hr => hb r (by simp [rOf_append, hr])) h1)
  | inRestarts _ ih =>
    obtain ⟨s1, h1, h2⟩ := leaveAll_append.mp hl
    replace h2 := leaveAll_restarts h2
    cases h2
    exact ends_restarts_other (ih hq (fun r hr => hb r (by simp [rOf_append, hr])) h1)
      (fun e => hb _ (by simp [rOf_append, rOf]; exact .inr rfl) e.symm)
  | inRestartFn h hc hf _ ih =>
    obtain ⟨s1, h1, h2⟩ := leaveAll_append.mp hl
    replace h2 := leaveAll_restartFn h2
    cases h2
    exact ends_restarts_own h hc hf (ih hq (fun r hr => hb r (by simp [rOf_append, hr])) h1)
  | inHandler hst ht h0 hv hb1 _ ih =>
    obtain ⟨s1, h1, h2⟩ := leaveAll_append.mp hl
    replace h2 := leaveAll_plain h2
    cases h2
    exact ends_signal_err hst ht h0 hv hb1 (ih hq (fun r hr => hb r (by simp [rOf_append, hr])) h1)
  | afterSignal h0 hv _ ih => exact ends_signal_ok h0 hv (ih hq hb hl)
  | unknown hc hf _ ih =>
    obtain ⟨n, h⟩ := ih hq hb hl
    exact ⟨n + 1, by simp only [eval, hf, clashInvoke_false hc, Bool.false_eq_true, if_false]; exact h⟩

theorem leaveAll_stacks {fs : List (Frame σ ε Ty C V)} {st st' hs rs} (hl : LeaveAll E fs st st')
    (h1 : st.hstack = hOf fs ++ hs) (h2 : st.rstack = rOf fs ++ rs) : st'.hstack = hs ∧ st'.rstack = rs := by
  induction hl with
  | nil => exact ⟨h1, h2⟩
  | plain _ ih => exact ih h1 h2
  | tryFinally h _ ih => exact ih (by rw [(ends_inv' h).1]; exact h1) (by rw [(ends_inv' h).2.1]; exact h2)
  | handlers _ ih => exact ih (by simp [popH, h1, hOf]) h2
  | restarts _ ih => exact ih h1 (by simp [popR, h2, rOf])
  | restartFn _ ih => exact ih h1 (by simp [popR, h2, rOf])

theorem findR_eq_some {name : String} {rs : List (Nat × List (String × (Args V → Prog σ ε Ty C V)))} {b : BR} :
    findR name rs = some b ↔ b.name = name ∧ ∃ inner bs outer, rs = inner ++ (b.ctx, bs) :: outer ∧
      (bs.lookup name).isSome ∧ ∀ r ∈ inner, r.2.lookup name = none := by
  induction rs with
  | nil => simp [findR]
  | cons r rs ih =>
    obtain ⟨id, bs⟩ := r
    simp only [findR]
    by_cases h : (bs.lookup name).isSome = true
    · rw [if_pos h]
      constructor
      · rintro h'; cases h'; exact ⟨rfl, [], bs, rs, rfl, h, by simp⟩
      · rintro ⟨rfl, inner, bs', outer, h1, h2, h3⟩
        cases inner with
        | nil => simp at h1; obtain ⟨⟨rfl, rfl⟩, rfl⟩ := h1; rfl
        | cons r inner =>
          simp at h1
          obtain ⟨rfl, _⟩ := h1
          have := h3 (id, bs) (by simp)
          simp only at this
          rw [this] at h; simp at h
    · rw [if_neg h, ih]
      constructor
      · rintro ⟨rfl, inner, bs', outer, h1, h2, h3⟩
        refine ⟨rfl, (id, bs) :: inner, bs', outer, by rw [h1]; rfl, h2, ?_⟩
        intro r hr
        rcases List.mem_cons.mp hr with rfl | hr
        · exact Option.not_isSome_iff_eq_none.mp h
        · exact h3 r hr
      · rintro ⟨rfl, inner, bs', outer, h1, h2, h3⟩
        cases inner with
        | nil => simp at h1; obtain ⟨⟨rfl, rfl⟩, rfl⟩ := h1; exact absurd h2 h
        | cons r inner =>
          simp at h1
          obtain ⟨_, h1⟩ := h1
          exact ⟨rfl, inner, bs', outer, h1, h2, fun r hr => h3 r (by simp [hr])⟩

theorem findR_append {name : String} {inner outer : List (Nat × List (String × (Args V → Prog σ ε Ty C V)))}
    (h : ∀ r ∈ inner, r.2.lookup name = none) : findR name (inner ++ outer) = findR name outer := by
  induction inner with
  | nil => rfl
  | cons r inner ih =>
    obtain ⟨id, bs⟩ := r
    have := h (id, bs) (by simp)
    simp only at this
    simp only [List.cons_append, findR, this, Option.isSome_none, Bool.false_eq_true, if_false]
    exact ih (fun r hr => h r (by simp [hr]))

end Unpy.Cond
