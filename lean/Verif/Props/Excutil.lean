import Verif.Spec.Excutil
/-!
# Properties C58, C59: `tryf` and `reraise`
-/
namespace Unpy.Props
open Unpy Unpy.Eff Unpy.Excutil Unpy.Excutil.Spec

variable {σ E C V : Type}

private theorem accepts_iff (cl : Classes E C) (e : E) (x : ExcSpec C) :
    x.accepts cl (cl.typ e) = true ↔ IsInstance cl e x := by
  unfold IsInstance
  cases x with
  | one c => cases c <;> simp [ExcSpec.accepts, types]
  | tuple cs =>
    simp only [ExcSpec.accepts, types, List.any_eq_true, List.mem_filterMap, id]
    constructor
    · rintro ⟨c, hc, h⟩
      cases c with
      | none => cases h
      | some t => exact ⟨t, ⟨some t, hc, rfl⟩, h⟩
    · rintro ⟨t, ⟨c, hc, rfl⟩, h⟩
      exact ⟨some t, hc, h⟩

private theorem valid_iff (x : ExcSpec C) : x.valid = true ↔ Valid x := by
  cases x with
  | one c => cases c <;> simp [ExcSpec.valid, Valid]
  | tuple cs =>
    simp only [ExcSpec.valid, Valid, List.all_eq_true]
    constructor
    · intro h hn; cases h none hn
    · intro h c hc
      cases c with
      | none => exact absurd hc h
      | some t => rfl

private theorem runHandlers_caught (cl : Classes E C) (n : V) (e : E) (hs : List (ExcSpec C × Handler σ E V)) (s : σ)
    (h : ∃ x ∈ hs, IsInstance cl e x.1) :
    ∃ before x after, hs = before ++ x :: after ∧ (∀ b ∈ before, ¬ IsInstance cl e b.1) ∧ IsInstance cl e x.1 ∧
      runHandlers cl n e hs s = (clause x).code e s := by
  induction hs with
  | nil => obtain ⟨x, hx, _⟩ := h; cases hx
  | cons y hs ih =>
    by_cases hy : IsInstance cl e y.1
    · refine ⟨[], y, hs, rfl, by simp, hy, ?_⟩
      obtain ⟨spec, hd⟩ := y
      rw [runHandlers, if_pos ((accepts_iff cl e _).mpr hy)]
      simp only [clause]
      cases hd.accepts <;> rfl
    · obtain ⟨x, hx, hi⟩ := h
      have : x ∈ hs := by
        rcases List.mem_cons.mp hx with rfl | h
        · exact absurd hi hy
        · exact h
      obtain ⟨b, x', a, h1, h2, h3, h4⟩ := ih ⟨x, this, hi⟩
      refine ⟨y :: b, x', a, by rw [h1]; rfl, ?_, h3, ?_⟩
      · intro z hz
        rcases List.mem_cons.mp hz with rfl | hz
        · exact hy
        · exact h2 z hz
      · obtain ⟨spec, hd⟩ := y
        rw [runHandlers, if_neg (fun h => hy ((accepts_iff cl e _).mp h))]
        exact h4

private theorem runHandlers_uncaught (cl : Classes E C) (n : V) (e : E) (hs : List (ExcSpec C × Handler σ E V)) (s : σ)
    (h : ∀ x ∈ hs, ¬ IsInstance cl e x.1) : runHandlers cl n e hs s = (.ok n, s) := by
  induction hs with
  | nil => rfl
  | cons y hs ih =>
    obtain ⟨spec, hd⟩ := y
    rw [runHandlers, if_neg (fun h' => h (spec, hd) (by simp) ((accepts_iff cl e _).mp h'))]
    exact ih (fun x hx => h x (by simp [hx]))

private theorem any_invalid (hs : List (ExcSpec C × Handler σ E V)) (hv : ∀ h ∈ hs, Valid h.1) :
    ¬ (hs.any (fun h => !h.1.valid) = true) := by
  intro h
  obtain ⟨x, hx, hn⟩ := List.any_eq_true.mp h
  rw [(valid_iff _).mpr (hv x hx)] at hn
  cases hn

/-! ## C58 -/

/-- C58: `tryf` does what the corresponding `try` statement does, unless the body raises an exception that no handler
matches.  (Missing: in that case it should propagate; see `C58_uncaught_refuted`.) -/
theorem C58_tryf_partial (cl : Classes E C) (pyNone : V) (body : Eff σ E V) (hs : List (ExcSpec C × Handler σ E V))
    (elsef finallyf : Option (Eff σ E V)) (s : σ) (hv : ∀ h ∈ hs, Valid h.1)
    (hc : ∀ e s1, body s = (.error e, s1) → ∃ h ∈ hs, IsInstance cl e h.1) :
    Try cl body (hs.map clause) elsef finallyf s (tryf cl pyNone body hs elsef finallyf s).1
      (tryf cl pyNone body hs elsef finallyf s).2 := by
  have key : ∃ r s1, TryElse cl body (hs.map clause) elsef s r s1 ∧
      tryf cl pyNone body hs elsef finallyf s = (match finallyf with
        | none => (r, s1)
        | some f => match f s1 with
          | (.ok _, s2) => (r, s2)
          | (.error e, s2) => (.error e, s2)) := by
    unfold tryf
    rw [if_neg (any_invalid hs hv)]
    rcases hb : body s with ⟨e | v, s1⟩
    · obtain ⟨b, x, a, h1, h2, h3, h4⟩ := runHandlers_caught cl pyNone e hs s1 (hc e s1 hb)
      refine ⟨((clause x).code e s1).1, ((clause x).code e s1).2, ?_, ?_⟩
      · exact .caught (before := b.map clause) (after := a.map clause) hb (by rw [h1]; simp)
          (by intro y hy; obtain ⟨z, hz, rfl⟩ := List.mem_map.mp hy; exact h2 z hz) h3
      · simp only [h4]
        cases finallyf <;> rfl
    · cases elsef with
      | none => exact ⟨_, _, .plain hb rfl, by cases finallyf <;> rfl⟩
      | some f => exact ⟨_, _, .els hb rfl, by cases finallyf <;> rfl⟩
  obtain ⟨r, s1, h1, h2⟩ := key
  rw [h2]
  cases finallyf with
  | none => exact .nofin h1 rfl
  | some f =>
    simp only
    rcases hf : f s1 with ⟨e | v, s2⟩
    · exact .finRaises h1 rfl hf
    · exact .fin h1 rfl hf

/-- A body that raises `"k"` (a `KeyError`, class 1, a subclass of class 0), a handler for class 0, and a `finally`. -/
example : let cl : Classes String Nat := ⟨fun _ => 1, fun c d => c == d || d == 0, "t"⟩
    tryf cl "None" (fun s : List String => (.error "k", "body" :: s))
      [(.one (some 2), ⟨true, fun _ s => (.ok "2", s)⟩), (.tuple [some 3, some 0], ⟨true, fun e s => (.ok (e.getD ""), "handler" :: s)⟩)]
      (some fun s => (.ok "else", "else" :: s)) (some fun s => (.ok "f", "finally" :: s)) [] =
    (.ok "k", ["finally", "handler", "body"]) := rfl

/-- The outcome that the `try` statement prescribes is unique, so `C58_tryf_partial` fixes it. -/
theorem C58_deterministic (cl : Classes E C) (body : Eff σ E V) (cs : List (Clause σ E C V)) (els fin : Option (Eff σ E V))
    (s : σ) (r r' : Except E V) (s1 s1' : σ) (h : Try cl body cs els fin s r s1) (h' : Try cl body cs els fin s r' s1') :
    r = r' ∧ s1 = s1' := by
  have first : ∀ (e : E) (b b' a a' : List (Clause σ E C V)) (c c' : Clause σ E C V), b ++ c :: a = b' ++ c' :: a' →
      (∀ x ∈ b, ¬ x.Matches cl e) → (∀ x ∈ b', ¬ x.Matches cl e) → c.Matches cl e → c'.Matches cl e → c = c' := by
    intro e b
    induction b with
    | nil =>
      intro b' a a' c c' h _ h2 h3 h4
      cases b' with
      | nil => simp at h; exact h.1
      | cons y b' => simp at h; exact absurd (h.1 ▸ h3) (h2 y (by simp))
    | cons x b ih =>
      intro b' a a' c c' h h1 h2 h3 h4
      cases b' with
      | nil => simp at h; exact absurd (h.1 ▸ h4) (h1 x (by simp))
      | cons y b' =>
        simp at h
        exact ih b' a a' c c' h.2 (fun z hz => h1 z (by simp [hz])) (fun z hz => h2 z (by simp [hz])) h3 h4
  have inner : ∀ r r' t t', TryElse cl body cs els s r t → TryElse cl body cs els s r' t' → r = r' ∧ t = t' := by
    intro r r' t t' h h'
    cases h with
    | plain hb he =>
      cases h' with
      | plain hb' _ => rw [hb] at hb'; cases hb'; exact ⟨rfl, rfl⟩
      | els _ he' => rw [he] at he'; cases he'
      | caught hb' => rw [hb] at hb'; cases hb'
      | uncaught hb' => rw [hb] at hb'; cases hb'
    | els hb he =>
      cases h' with
      | plain _ he' => rw [he] at he'; cases he'
      | els hb' he' => rw [hb] at hb'; cases hb'; rw [he] at he'; cases he'; exact ⟨rfl, rfl⟩
      | caught hb' => rw [hb] at hb'; cases hb'
      | uncaught hb' => rw [hb] at hb'; cases hb'
    | caught hb hc h1 h2 =>
      cases h' with
      | plain hb' => rw [hb] at hb'; cases hb'
      | els hb' => rw [hb] at hb'; cases hb'
      | caught hb' hc' h1' h2' =>
        rw [hb] at hb'; cases hb'
        have := first _ _ _ _ _ _ _ (hc ▸ hc') h1 h1' h2 h2'
        subst this
        exact ⟨rfl, rfl⟩
      | uncaught hb' hn => rw [hb] at hb'; cases hb'; exact absurd h2 (hn _ (by rw [hc]; simp))
    | uncaught hb hn =>
      cases h' with
      | plain hb' => rw [hb] at hb'; cases hb'
      | els hb' => rw [hb] at hb'; cases hb'
      | caught hb' hc' _ h2' => rw [hb] at hb'; cases hb'; exact absurd h2' (hn _ (by rw [hc']; simp))
      | uncaught hb' => rw [hb] at hb'; cases hb'; exact ⟨rfl, rfl⟩
  cases h with
  | nofin h hf =>
    cases h' with
    | nofin h' => exact inner _ _ _ _ h h'
    | fin _ hf' => rw [hf] at hf'; cases hf'
    | finRaises _ hf' => rw [hf] at hf'; cases hf'
  | fin h hf hx =>
    cases h' with
    | nofin _ hf' => rw [hf] at hf'; cases hf'
    | fin h' hf' hx' =>
      obtain ⟨rfl, rfl⟩ := inner _ _ _ _ h h'
      rw [hf] at hf'; cases hf'
      rw [hx] at hx'; cases hx'
      exact ⟨rfl, rfl⟩
    | finRaises h' hf' hx' =>
      obtain ⟨rfl, rfl⟩ := inner _ _ _ _ h h'
      rw [hf] at hf'; cases hf'
      rw [hx] at hx'; cases hx'
  | finRaises h hf hx =>
    cases h' with
    | nofin _ hf' => rw [hf] at hf'; cases hf'
    | fin h' hf' hx' =>
      obtain ⟨rfl, rfl⟩ := inner _ _ _ _ h h'
      rw [hf] at hf'; cases hf'
      rw [hx] at hx'; cases hx'
    | finRaises h' hf' hx' =>
      obtain ⟨rfl, rfl⟩ := inner _ _ _ _ h h'
      rw [hf] at hf'; cases hf'
      rw [hx] at hx'; cases hx'
      exact ⟨rfl, rfl⟩

/-- C58 fails: whenever the body raises an exception that no handler matches, and `finallyf` does not raise, the
exception is swallowed, and `tryf` returns `None`. -/
theorem C58_uncaught_refuted (cl : Classes E C) (pyNone : V) (body : Eff σ E V) (hs : List (ExcSpec C × Handler σ E V))
    (elsef : Option (Eff σ E V)) (s s1 : σ) (e : E) (hv : ∀ h ∈ hs, Valid h.1) (hb : body s = (.error e, s1))
    (hc : ∀ h ∈ hs, ¬ IsInstance cl e h.1) :
    tryf cl pyNone body hs elsef none s = (.ok pyNone, s1) ∧ Try cl body (hs.map clause) elsef none s (.error e) s1 := by
  constructor
  · unfold tryf
    rw [if_neg (any_invalid hs hv), hb]
    simp only [runHandlers_uncaught cl pyNone e hs s1 hc]
  · exact .nofin (.uncaught hb (by intro c h; obtain ⟨z, hz, rfl⟩ := List.mem_map.mp h; exact hc z hz)) rfl

/-- `tryf(lambda: raisef(KeyError()), (ValueError, lambda: 1))` is `None`. -/
example : let cl : Classes String Nat := ⟨fun _ => 1, fun c d => c == d || d == 0, "t"⟩
    tryf cl "None" (fun s : Nat => (.error "k", s + 1)) [(.one (some 2), ⟨true, fun _ s => (.ok "2", s)⟩)] none none 0 =
    (.ok "None", 1) := rfl

/-- C58: if some excspec is not an exception type (or a tuple of such), a `TypeError` is raised and nothing runs. -/
theorem C58_invalid (cl : Classes E C) (pyNone : V) (body : Eff σ E V) (hs : List (ExcSpec C × Handler σ E V))
    (elsef finallyf : Option (Eff σ E V)) (s : σ) (hv : ∃ h ∈ hs, ¬ Valid h.1) :
    tryf cl pyNone body hs elsef finallyf s = (.error cl.typeError, s) := by
  unfold tryf
  rw [if_pos]
  obtain ⟨h, hm, hn⟩ := hv
  rw [List.any_eq_true]
  refine ⟨h, hm, ?_⟩
  rw [← valid_iff] at hn
  simpa using hn

example : ¬ Valid (.tuple [some 1, none] : ExcSpec Nat) := by simp [Valid]

/-- C58: `finallyf` runs last, once, whatever happens before; if it raises, so does `tryf`. -/
theorem C58_finally (cl : Classes E C) (pyNone : V) (body : Eff σ E V) (hs : List (ExcSpec C × Handler σ E V))
    (elsef : Option (Eff σ E V)) (f : Eff σ E V) (s : σ) (hv : ∀ h ∈ hs, Valid h.1) :
    let r := tryf cl pyNone body hs elsef none s
    tryf cl pyNone body hs elsef (some f) s =
      match f r.2 with
      | (.ok _, s2) => (r.1, s2)
      | (.error e, s2) => (.error e, s2) := by
  unfold tryf
  simp only [if_neg (any_invalid hs hv)]
  rcases body s with ⟨e | v, s1⟩
  · rcases runHandlers cl pyNone e hs s1 with ⟨r, s2⟩; rfl
  · cases elsef with
    | none => rfl
    | some g => rcases g s1 with ⟨r, s2⟩; rfl

/-! ## C59 -/

/-- C59: `reraise_in` raises the output of the first entry that matches, with the original as the cause. -/
theorem C59_first_match (cl : Classes E C) (mk : C → Except E E) (body : Eff σ (Raised E) V)
    (before after : List (ExcSpec C × Raisable E C)) (x : ExcSpec C) (app : Raisable E C) (s s1 : σ) (r : Raised E)
    (hb : body s = (.error r, s1)) (hv : ∀ b ∈ before, Valid b.1) (hn : ∀ b ∈ before, ¬ IsInstance cl r.exc b.1)
    (hx : IsInstance cl r.exc x) :
    (∀ e, app = .inst e → reraiseIn cl mk body (before ++ (x, app) :: after) s = (.error ⟨e, some r.exc⟩, s1)) ∧
    (∀ c e, app = .cls c → mk c = .ok e →
      reraiseIn cl mk body (before ++ (x, app) :: after) s = (.error ⟨e, some r.exc⟩, s1)) := by
  have key : reraiseHandler cl mk r.exc r.cause (before ++ (x, app) :: after) = raiseFrom cl mk app (some r.exc) := by
    induction before with
    | nil =>
      rw [List.nil_append, reraiseHandler, if_neg (by rw [(accepts_iff cl r.exc x).mpr hx]; simp),
        if_pos ((accepts_iff cl r.exc x).mpr hx)]
    | cons b before ih =>
      obtain ⟨lib, a⟩ := b
      have h1 := (valid_iff lib).mpr (hv (lib, a) (by simp))
      have h2 : ¬ lib.accepts cl (cl.typ r.exc) = true := fun h => hn (lib, a) (by simp) ((accepts_iff cl r.exc lib).mp h)
      rw [List.cons_append, reraiseHandler, if_neg (by rw [h1]; simp), if_neg h2]
      exact ih (fun b hb => hv b (by simp [hb])) (fun b hb => hn b (by simp [hb]))
  unfold reraiseIn
  rw [hb]
  simp only [key]
  constructor
  · rintro e rfl; rfl
  · rintro c e rfl h
    simp [raiseFrom, h]

example : let cl : Classes Nat Nat := ⟨fun e => e / 10, fun c d => c == d, 99⟩
    reraiseIn cl (fun c => .ok (10 * c)) (fun s : Nat => (.error ⟨23, none⟩, s + 1))
      [(.one (some 1), .cls 7), (.tuple [some 3, some 2], .cls 8), (.one (some 2), .cls 9)] 0 =
    ((Except.error ⟨80, some 23⟩ : Except (Raised Nat) Nat), 1) := rfl

/-- C59: everything else goes through unchanged. -/
theorem C59_unmatched (cl : Classes E C) (mk : C → Except E E) (body : Eff σ (Raised E) V)
    (mapping : List (ExcSpec C × Raisable E C)) (s : σ) (hv : ∀ b ∈ mapping, Valid b.1)
    (hn : ∀ r s1, body s = (.error r, s1) → ∀ b ∈ mapping, ¬ IsInstance cl r.exc b.1) :
    reraiseIn cl mk body mapping s = body s := by
  unfold reraiseIn
  rcases hb : body s with ⟨r | v, s1⟩
  · simp only
    replace hn := hn r s1 hb
    have : reraiseHandler cl mk r.exc r.cause mapping = r := by
      induction mapping with
      | nil => rfl
      | cons b m ih =>
        obtain ⟨lib, a⟩ := b
        have h1 := (valid_iff lib).mpr (hv (lib, a) (by simp))
        have h2 : ¬ lib.accepts cl (cl.typ r.exc) = true := fun h => hn (lib, a) (by simp) ((accepts_iff cl r.exc lib).mp h)
        rw [reraiseHandler, if_neg (by rw [h1]; simp), if_neg h2]
        exact ih (fun b hb => hv b (by simp [hb])) (fun b hb => hn b (by simp [hb]))
    rw [this]
  · rfl

/-- C59: the block form `with reraise(mapping)` does the same as `reraise_in`, unless a `StopIteration` is involved:
raised by the body, or raised instead of what the body raised.  (Missing: see `C59_block_stopiteration_refuted`.) -/
theorem C59_block_partial [DecidableEq E] (cl : Classes E C) (g : Gens E C) (mk : C → Except E E)
    (body : Eff σ (Raised E) V) (mapping : List (ExcSpec C × Raisable E C)) (s : σ)
    (h1 : ∀ r s1, body s = (.error r, s1) → cl.sub (cl.typ r.exc) g.stopIteration = false)
    (h2 : ∀ r s1, (reraiseIn cl mk body mapping) s = (.error r, s1) → cl.sub (cl.typ r.exc) g.stopIteration = false) :
    withReraise cl g mk body mapping s = reraiseIn cl mk body mapping s := by
  unfold withReraise
  rcases hb : body s with ⟨r | v, s1⟩
  · have e : reraiseIn cl mk body mapping s = (.error (reraiseHandler cl mk r.exc r.cause mapping), s1) := by
      unfold reraiseIn; rw [hb]
    have h2 := h2 _ _ e
    have h1 := h1 r s1 hb
    simp only [h2, h1, Bool.false_eq_true, if_false]
    split
    · rw [e]
    · rw [if_neg (by simp), e]
  · unfold reraiseIn; rw [hb]

/-- A `KeyError` (class 1) converted to an application exception (class 7), by a `with` block. -/
example : let cl : Classes Nat Nat := ⟨fun e => e / 10, fun c d => c == d, 99⟩
    withReraise cl ⟨4, 5, fun _ => 59⟩ (fun c => .ok (10 * c)) (fun s : Nat => (.error ⟨13, none⟩, s + 1))
      [(.one (some 1), .cls 7)] 0 = ((Except.error ⟨70, some 13⟩ : Except (Raised Nat) Nat), 1) := rfl

/-- C59 fails for the block form: `with reraise({StopIteration: RuntimeError})` does not convert (class 4 is
`StopIteration`, class 5 is `RuntimeError`), and `with reraise({KeyError: StopIteration})` raises a `RuntimeError`. -/
theorem C59_block_stopiteration_refuted :
    let cl : Classes Nat Nat := ⟨fun e => e / 10, fun c d => c == d, 99⟩
    let g : Gens Nat Nat := ⟨4, 5, fun _ => 59⟩
    let mk : Nat → Except Nat Nat := fun c => .ok (10 * c)
    let stop : Eff Nat (Raised Nat) Nat := fun s => (.error ⟨43, none⟩, s)
    let key : Eff Nat (Raised Nat) Nat := fun s => (.error ⟨13, none⟩, s)
    reraiseIn cl mk stop [(.one (some 4), .cls 5)] 0 = (.error ⟨50, some 43⟩, 0) ∧
    withReraise cl g mk stop [(.one (some 4), .cls 5)] 0 = (.error ⟨43, none⟩, 0) ∧
    reraiseIn cl mk key [(.one (some 1), .cls 4)] 0 = (.error ⟨40, some 13⟩, 0) ∧
    withReraise cl g mk key [(.one (some 1), .cls 4)] 0 = (.error ⟨59, some 40⟩, 0) :=
  ⟨rfl, rfl, rfl, rfl⟩

/-- C59: whatever happens in the mapping, nothing returns normally instead of raising, and the world stays as the body
left it. -/
theorem C59_always_raises [DecidableEq E] (cl : Classes E C) (g : Gens E C) (mk : C → Except E E)
    (body : Eff σ (Raised E) V) (mapping : List (ExcSpec C × Raisable E C)) (s s1 : σ) (r : Raised E)
    (hb : body s = (.error r, s1)) :
    (∃ r', reraiseIn cl mk body mapping s = (.error r', s1)) ∧ (∃ r', withReraise cl g mk body mapping s = (.error r', s1)) := by
  constructor
  · unfold reraiseIn; rw [hb]; exact ⟨_, rfl⟩
  · unfold withReraise; rw [hb]
    simp only
    repeat' split
    all_goals exact ⟨_, rfl⟩

end Unpy.Props
