import Verif.Spec.Ec
namespace Unpy.Ec
open Unpy.Spec.Ec
open Unpy.Fold (Err)
variable {σ ε T V : Type} [DecidableEq T]

theorem shouldcatch_iff (tags : Option (List (Tag T))) (cu : Bool) (tag : Option (Tag T)) (a : Bool) :
    shouldcatch tags cu tag a = true ↔ Catches tags cu tag a := by
  cases tags <;> cases tag <;> cases cu <;> cases a <;> simp [shouldcatch, Catches, table]

theorem shouldcatch_false_iff (tags : Option (List (Tag T))) (cu : Bool) (tag : Option (Tag T)) (a : Bool) :
    shouldcatch tags cu tag a = false ↔ ¬ Catches tags cu tag a := by
  rw [← shouldcatch_iff]; simp

theorem shouldcatch_uid (n : Nat) (tag : Option (Tag T)) (a : Bool) :
    shouldcatch (some [.uid n]) false tag a = decide (tag = some (.uid n)) := by
  cases tag <;> simp [shouldcatch]

theorem resume_append (fs gs : List (Frame σ ε T V)) (out : Except (Exc ε T V) V) (st : St σ) :
    resume (fs ++ gs) out st = resume gs (resume fs out st).1 (resume fs out st).2 := by
  induction fs generalizing out st with
  | nil => rfl
  | cons f fs ih =>
    rcases out with ((e | ⟨v, tag, a⟩) | v) <;> cases f <;> simp only [List.cons_append, resume, ih]
    · split <;> rfl
    · split <;> rfl
    · split <;> rfl
    · split <;> rfl

theorem andThen_ret (out : Except (Exc ε T V) V × St σ) :
    andThen out (fun v st => eval (Prog.ret v : Prog σ ε T V) st) = out := by
  rcases out with ⟨(e | v), s⟩ <;> rfl

/-- a frame around a program -/
theorem eval_frame (f : Frame σ ε T V) (p : Prog σ ε T V) (st : St σ) :
    (match f with
      | .catch tags cu k => eval (.catch tags cu p k) st
      | .seq k => eval (.seq p k) st
      | .tryExcept h k => eval (.tryExcept p h k) st
      | .tryFinally q k => eval (.tryFinally p q k) st
      | .callEc n k => andThen (catchpoint (some [.uid n]) false (eval p st).1, expire n (eval p st).2)
          (fun v st => eval (k v) st)) = resume [f] (eval p st).1 (eval p st).2 := by
  rcases he : eval p st with ⟨((e | ⟨v, tag, a⟩) | v), st1⟩ <;> cases f with
    | «catch» tags cu k =>
      simp only [eval, he, andThen, catchpoint, resume]
      try
        by_cases h : Catches (tags.map (·.map Tag.user)) cu tag a
        · rw [if_pos h, if_pos ((shouldcatch_iff _ _ _ _).mpr h)]
        · rw [if_neg h, if_neg (fun h' => h ((shouldcatch_iff _ _ _ _).mp h'))]
    | seq k => simp only [eval, he, andThen, resume]
    | tryExcept h k => simp only [eval, he, andThen, resume]
    | tryFinally q k =>
      simp only [eval, he, resume]
      rcases eval q st1 with ⟨(e | w), st2⟩ <;> simp [andThen]
    | callEc n k =>
      simp only [andThen, catchpoint, resume, shouldcatch_uid]
      try by_cases h : tag = some (.uid n) <;> simp [h]

theorem active_resume {p q : Prog σ ε T V} {st st' : St σ} {fs : List (Frame σ ε T V)}
    (h : Active p st q st' fs) : eval p st = resume fs (eval q st').1 (eval q st').2 := by
  induction h with
  | here => rfl
  | look _ ih => simpa only [eval] using ih
  | put _ ih => simpa only [eval] using ih
  | @inCatch tags cu p k st q st' fs _ ih =>
    rw [resume_append, ← ih]; exact eval_frame (.catch tags cu k) p st
  | @inSeq p k st q st' fs _ ih => rw [resume_append, ← ih]; exact eval_frame (.seq k) p st
  | @inTry p h k st q st' fs _ ih => rw [resume_append, ← ih]; exact eval_frame (.tryExcept h k) p st
  | @inHandler p h k st e st1 q st' fs h1 _ ih =>
    rw [resume_append, ← ih, ← eval_frame (.seq k) (h e) st1]; simp only [eval, h1]
  | @inTryFinally p f k st q st' fs _ ih => rw [resume_append, ← ih]; exact eval_frame (.tryFinally f k) p st
  | @inCallEc f k st q st' fs _ ih => rw [resume_append, ← ih]; exact eval_frame (.callEc st.next k) (f st.next) _
  | afterSeq h _ ih => rw [← ih]; simp only [eval, h, andThen]
  | afterCatch h _ ih | afterTry h _ ih | afterTryFinally h _ ih | afterCallEc h _ ih =>
    rw [← ih]
    rw [eval] at h ⊢
    simp only [andThen_ret] at h
    simp only [h, andThen]

theorem resume_leave (inner : List (Frame σ ε T V)) (v : V) (tag : Option (Tag T)) (a : Bool) (st st' : St σ)
    (hno : ∀ f ∈ inner, ¬ f.Catches tag a) (hl : leave inner st = some st') :
    resume inner (.error (.escape v tag a)) st = (.error (.escape v tag a), st') := by
  induction inner generalizing st with
  | nil => simp [leave] at hl; simp [resume, hl]
  | cons f fs ih =>
    have hf := hno f (by simp)
    have hfs : ∀ g ∈ fs, ¬ g.Catches tag a := fun g hg => hno g (by simp [hg])
    cases f with
    | seq | tryExcept => simp only [resume, leave] at hl ⊢; exact ih _ hfs hl
    | tryFinally q k =>
      simp only [resume, leave] at hl ⊢
      rcases hq : eval q st with ⟨(e | w), st1⟩ <;> simp only [hq] at hl ⊢
      · simp at hl
      · exact ih _ hfs hl
    | «catch» tags cu k =>
      simp only [Frame.Catches] at hf
      simp only [resume, leave, if_neg hf] at hl ⊢; exact ih _ hfs hl
    | callEc n k =>
      simp only [Frame.Catches] at hf
      simp only [resume, leave, if_neg hf] at hl ⊢; exact ih _ hfs hl

/-- no `ec` of the future is valid -/
def WFst (st : St σ) : Prop := ∀ i, st.next ≤ i → st.valid i = false

theorem eval_inv (p : Prog σ ε T V) : ∀ st : St σ, WFst st →
    (eval p st).2.valid = st.valid ∧ st.next ≤ (eval p st).2.next := by
  have step : ∀ (out : Except (Exc ε T V) V × St σ) (k : V → Prog σ ε T V) (st : St σ),
      WFst st → out.2.valid = st.valid → st.next ≤ out.2.next →
      (∀ v st, WFst st → (eval (k v) st).2.valid = st.valid ∧ st.next ≤ (eval (k v) st).2.next) →
      (andThen out (fun v st => eval (k v) st)).2.valid = st.valid ∧
        st.next ≤ (andThen out (fun v st => eval (k v) st)).2.next := by
    intro out k st hw h1 h2 hk
    rcases out with ⟨(e | v), s⟩
    · exact ⟨h1, h2⟩
    · simp only at h1 h2
      have hw' : WFst s := by intro i hi; rw [h1]; exact hw i (by omega)
      have := hk v s hw'
      exact ⟨by simp only [andThen]; rw [this.1, h1], by simp only [andThen]; omega⟩
  have wf' : ∀ {st s : St σ}, WFst st → s.valid = st.valid → st.next ≤ s.next → WFst s := by
    intro st s hw h1 h2 i hi; rw [h1]; exact hw i (by omega)
  induction p with
  | ret | raise | throw => intro st _; simp [eval]
  | look k ih => intro st hw; exact ih _ st hw
  | put s k ih => intro st hw; exact ih { st with world := s } hw
  | «catch» tags cu p k ih1 ih2 =>
    intro st hw
    simp only [eval]
    exact step _ k st hw (ih1 st hw).1 (ih1 st hw).2 ih2
  | seq p k ih1 ih2 =>
    intro st hw
    simp only [eval]
    exact step _ k st hw (ih1 st hw).1 (ih1 st hw).2 ih2
  | tryExcept p h k ih1 ih2 ih3 =>
    intro st hw
    simp only [eval]
    have := ih1 st hw
    refine step _ k st hw ?_ ?_ ih3
    · rcases he : eval p st with ⟨((e | ⟨v, t, a⟩) | v), s⟩ <;> rw [he] at this
      · simp only; rw [(ih2 e s (wf' hw this.1 this.2)).1, this.1]
      · exact this.1
      · exact this.1
    · rcases he : eval p st with ⟨((e | ⟨v, t, a⟩) | v), s⟩ <;> rw [he] at this
      · simp only
        have h2 := (ih2 e s (wf' hw this.1 this.2)).2
        have h1 := this.2
        simp only at h1
        omega
      · exact this.2
      · exact this.2
  | tryFinally p q k ih1 ih2 ih3 =>
    intro st hw
    simp only [eval]
    have h1 := ih1 st hw
    have h2 := ih2 (eval p st).2 (wf' hw h1.1 h1.2)
    refine step _ k st hw ?_ ?_ ih3
    · rcases he : eval q (eval p st).2 with ⟨(e | v), s⟩ <;> rw [he] at h2 <;> simp only at h2 ⊢ <;>
        rw [h2.1, h1.1]
    · rcases he : eval q (eval p st).2 with ⟨(e | v), s⟩ <;> rw [he] at h2 <;> simp only at h2 ⊢ <;> omega
  | callEc f k ih1 ih2 =>
    intro st hw
    simp only [eval]
    have h1 := ih1 st.next { st with next := st.next + 1, valid := fun i => if i = st.next then true else st.valid i }
      (by
        intro i hi
        simp only at hi ⊢
        rw [if_neg (by omega)]; exact hw i (by omega))
    refine step _ k st hw ?_ ?_ ih2
    · funext i
      simp only [h1.1]
      split
      · subst_vars; exact (hw _ (Nat.le_refl _)).symm
      · rfl
    · have := h1.2; simp only at this ⊢; omega
  | ec n v => intro st _; simp only [eval]; split <;> simp

theorem ecs_append (fs gs : List (Frame σ ε T V)) : ecs (fs ++ gs) = ecs fs ++ ecs gs := by
  induction fs with
  | nil => rfl
  | cons f fs ih => cases f <;> simp [ecs, ih]

theorem active_inv {p q : Prog σ ε T V} {st st' : St σ} {fs : List (Frame σ ε T V)}
    (h : Active p st q st' fs) (hw : WFst st) :
    WFst st' ∧ st.next ≤ st'.next ∧ (ecs fs).Nodup ∧ (∀ i ∈ ecs fs, st.next ≤ i) ∧
      (∀ i, st'.valid i = true ↔ i ∈ ecs fs ∨ st.valid i = true) := by
  have wf' : ∀ {st s : St σ}, WFst st → s.valid = st.valid → st.next ≤ s.next → WFst s := by
    intro st s hw h1 h2 i hi; rw [h1]; exact hw i (by omega)
  have after : ∀ {p : Prog σ ε T V} {st st1 st' : St σ} {v : V} {fs : List (Frame σ ε T V)}, WFst st →
      eval p st = (.ok v, st1) →
      (WFst st1 → WFst st' ∧ st1.next ≤ st'.next ∧ (ecs fs).Nodup ∧ (∀ i ∈ ecs fs, st1.next ≤ i) ∧
        (∀ i, st'.valid i = true ↔ i ∈ ecs fs ∨ st1.valid i = true)) →
      WFst st' ∧ st.next ≤ st'.next ∧ (ecs fs).Nodup ∧ (∀ i ∈ ecs fs, st.next ≤ i) ∧
        (∀ i, st'.valid i = true ↔ i ∈ ecs fs ∨ st.valid i = true) := by
    intro p st st1 st' v fs hw he ih
    have h1 := eval_inv p st hw
    rw [he] at h1
    obtain ⟨a, b, c, d, e⟩ := ih (wf' hw h1.1 h1.2)
    have h2 := h1.2
    simp only at h2
    refine ⟨a, by omega, c, fun i hi => Nat.le_trans h2 (d i hi), fun i => ?_⟩
    rw [e i, h1.1]
  induction h with
  | here => exact ⟨hw, Nat.le_refl _, by simp [ecs], by simp [ecs], by simp [ecs]⟩
  | look _ ih => exact ih hw
  | put _ ih => exact ih hw
  | inCatch _ ih | inSeq _ ih | inTry _ ih | inTryFinally _ ih => simpa [ecs_append, ecs] using ih hw
  | @inHandler p h k st e st1 q st' fs h1 _ ih =>
    have h2 := eval_inv p st hw
    rw [h1] at h2
    obtain ⟨a, b, c, d, e⟩ := ih (wf' hw h2.1 h2.2)
    have h3 := h2.2
    simp only at h3
    simp only [ecs_append, ecs, List.append_nil]
    refine ⟨a, by omega, c, fun i hi => Nat.le_trans h3 (d i hi), fun i => ?_⟩
    rw [e i, h2.1]
  | @inCallEc f k st q st' fs _ ih =>
    obtain ⟨a, b, c, d, e⟩ := ih (by
      intro i hi
      simp only at hi ⊢
      rw [if_neg (by omega)]; exact hw i (by omega))
    simp only at b d e
    simp only [ecs_append, ecs]
    refine ⟨a, by omega, ?_, ?_, ?_⟩
    · rw [List.nodup_append]
      refine ⟨c, by simp, fun i hi j hj => ?_⟩
      have := d i hi
      simp at hj; omega
    · intro i hi
      rw [List.mem_append] at hi
      rcases hi with hi | hi
      · have := d i hi; omega
      · simp at hi; omega
    · intro i
      rw [e i]
      by_cases h : i = st.next <;> simp [h]
  | afterSeq h _ ih | afterCatch h _ ih | afterTry h _ ih | afterTryFinally h _ ih | afterCallEc h _ ih =>
    exact after hw h ih

end Unpy.Ec
