import Verif.Proof.TcoFull
import Verif.Proof.TcoOrder
/-!
# The expanded program does step by step what the program does with proper tail calls
-/
namespace Unpy.Tail.Sim
open Unpy.Tail Unpy.Tail.Spec Unpy.Tail.Full Unpy.Tail.Order
open Unpy.PyExpr (M ret raise bind Err)
variable {β ω ε α α' γ γ' : Type} {ecs : List String}

/-- Scopes that agree except for `it`; variables are cells. -/
def EnvRel (ρ ρ' : Env β) : Prop := (∀ y, y ≠ "it" → ρ y = ρ' y) ∧ ∀ y v, y ≠ "it" → ρ y ≠ some (.inr v)

mutual
inductive VRel (ecs : List String) : Val β → Val β → Prop
  | base (b) : VRel ecs (.base b) (.base b)
  | non : VRel ecs .non .non
  | ff : VRel ecs .ff .ff
  | ext (k) : VRel ecs (.ext k) (.ext k)
  | lst {vs vs'} : VsRel ecs vs vs' → VRel ecs (.lst vs) (.lst vs')
  | clo {ps ls : List String} {b : List (St β)} {ρ ρ' : Env β} : okSs ecs .function b = true → "it" ∉ ps ++ ls →
      EnvRel ρ ρ' → VRel ecs (.clo false ps ls (andSs b) ρ) (.clo true ps ls (fullSs b) ρ')

inductive VsRel (ecs : List String) : List (Val β) → List (Val β) → Prop
  | nil : VsRel ecs [] []
  | cons {v v' vs vs'} : VRel ecs v v' → VsRel ecs vs vs' → VsRel ecs (v :: vs) (v' :: vs')
end

inductive ORel (ecs : List String) : Option (Val β) → Option (Val β) → Prop
  | none : ORel ecs none none
  | some {v v'} : VRel ecs v v' → ORel ecs (some v) (some v')

inductive HRel (ecs : List String) : List (Option (Val β)) → List (Option (Val β)) → Prop
  | nil : HRel ecs [] []
  | cons {c c' h h'} : ORel ecs c c' → HRel ecs h h' → HRel ecs (c :: h) (c' :: h')

def SRel (ecs : List String) (s s' : State β ω) : Prop := HRel ecs s.heap s'.heap ∧ s.world = s'.world

/-- Outcomes that correspond. -/
def MRel (ecs : List String) (R : α → α' → Prop) (m : M (State β ω) ε α) (m' : M (State β ω) ε α') : Prop :=
  ∀ s s', SRel ecs s s' → match m s, m' s' with
    | none, none => True
    | some (.ok a, t), some (.ok a', t') => R a a' ∧ SRel ecs t t'
    | some (.error e, t), some (.error e', t') => sameErr e e' ∧ SRel ecs t t'
    | _, _ => False

theorem MRel.ret {R : α → α' → Prop} {a : α} {a' : α'} (h : R a a') :
    MRel (β := β) (ω := ω) (ε := ε) ecs R (PyExpr.ret a) (PyExpr.ret a') := fun _ _ hs => ⟨h, hs⟩

theorem MRel.raise {R : α → α' → Prop} {e e' : Err ε} (h : sameErr e e') :
    MRel (β := β) (ω := ω) ecs R (PyExpr.raise e) (PyExpr.raise e') := fun _ _ hs => ⟨h, hs⟩

theorem MRel.none {R : α → α' → Prop} : MRel (β := β) (ω := ω) (ε := ε) ecs R (fun _ => none) (fun _ => none) :=
  fun _ _ _ => trivial

theorem MRel.bind {R : α → α' → Prop} {Q : γ → γ' → Prop} {m : M (State β ω) ε α} {m' : M (State β ω) ε α'}
    {f : α → M (State β ω) ε γ} {f' : α' → M (State β ω) ε γ'} (h : MRel ecs R m m')
    (hf : ∀ a a', R a a' → MRel ecs Q (f a) (f' a')) : MRel ecs Q (bind m f) (bind m' f') := by
  intro s s' hs
  have := h s s' hs
  unfold PyExpr.bind
  rcases hm : m s with _ | ⟨_ | a, t⟩ <;> rcases hm' : m' s' with _ | ⟨_ | a', t'⟩ <;> simp only [hm, hm'] at this ⊢
  · exact this
  · exact hf a a' this.1 t t' this.2

theorem MRel.ite {R : α → α' → Prop} {p p' : Prop} [Decidable p] [Decidable p'] {a b : M (State β ω) ε α}
    {a' b' : M (State β ω) ε α'} (hp : p ↔ p') (h : MRel ecs R a a') (h' : MRel ecs R b b') :
    MRel ecs R (if p then a else b) (if p' then a' else b') := by
  by_cases hq : p
  · rw [if_pos hq, if_pos (hp.1 hq)]; exact h
  · rw [if_neg hq, if_neg (fun x => hq (hp.2 x))]; exact h'

theorem MRel.mono {R Q : α → α' → Prop} {m : M (State β ω) ε α} {m' : M (State β ω) ε α'} (h : MRel ecs R m m')
    (hq : ∀ a a', R a a' → Q a a') : MRel ecs Q m m' := by
  intro s s' hs
  have := h s s' hs
  rcases hm : m s with _ | ⟨_ | a, t⟩ <;> rcases hm' : m' s' with _ | ⟨_ | a', t'⟩ <;> simp only [hm, hm'] at this ⊢
  · exact this
  · exact ⟨hq _ _ this.1, this.2⟩

/-! ## The parts of the state -/

theorem HRel.length {h h' : List (Option (Val β))} (hr : HRel ecs h h') : h.length = h'.length := by
  induction hr with
  | nil => rfl
  | cons _ _ ih => simp [ih]

theorem HRel.append {a a' b b' : List (Option (Val β))} (h : HRel ecs a a') (h' : HRel ecs b b') :
    HRel ecs (a ++ b) (a' ++ b') := by
  induction h with
  | nil => exact h'
  | cons hc _ ih => exact .cons hc ih

theorem HRel.get {h h' : List (Option (Val β))} (hr : HRel ecs h h') : ∀ a : Nat,
    (h[a]? = none ∧ h'[a]? = none) ∨ ∃ c c', h[a]? = some c ∧ h'[a]? = some c' ∧ ORel ecs c c' := by
  induction hr with
  | nil => intro a; left; simp
  | cons hc _ ih =>
    intro a
    cases a with
    | zero => right; exact ⟨_, _, rfl, rfl, hc⟩
    | succ a => simpa using ih a

theorem HRel.set {h h' : List (Option (Val β))} (hr : HRel ecs h h') {c c' : Option (Val β)} (hc : ORel ecs c c') :
    ∀ a : Nat, HRel ecs (h.set a c) (h'.set a c') := by
  induction hr with
  | nil => intro a; exact .nil
  | cons hd htl ih =>
    intro a
    cases a with
    | zero => exact .cons hc htl
    | succ a => exact .cons hd (ih a)

theorem load_sim {ρ ρ' : Env β} (hρ : EnvRel ρ ρ') {x : String} (hx : x ≠ "it") :
    MRel (ω := ω) (ε := ε) ecs (VRel ecs) (load ρ x) (load ρ' x) := by
  intro s s' hs
  unfold load
  rw [← hρ.1 x hx]
  rcases h : ρ x with _ | (a | v)
  · exact ⟨.inl rfl, hs⟩
  · rcases hs.1.get a with ⟨h₁, h₂⟩ | ⟨c, c', h₁, h₂, hc⟩
    · simp only [h₁, h₂]; exact ⟨.inl rfl, hs⟩
    · simp only [h₁, h₂]
      cases hc with
      | none => exact ⟨.inl rfl, hs⟩
      | some hv => exact ⟨hv, hs⟩
  · exact absurd h (hρ.2 x v hx)

theorem store_sim {ρ ρ' : Env β} (hρ : EnvRel ρ ρ') {x : String} (hx : x ≠ "it") {v v' : Val β} (hv : VRel ecs v v') :
    MRel (ω := ω) (ε := ε) ecs (fun _ _ => True) (store ρ x v) (store ρ' x v') := by
  intro s s' hs
  unfold store
  rw [← hρ.1 x hx]
  rcases h : ρ x with _ | (a | v)
  · exact ⟨.inl rfl, hs⟩
  · exact ⟨trivial, hs.1.set (.some hv) a, hs.2⟩
  · exact ⟨.inl rfl, hs⟩

theorem alloc_sim {vs vs' : List (Option (Val β))} (h : HRel ecs vs vs') :
    MRel (ω := ω) (ε := ε) ecs (· = ·) (alloc vs) (alloc vs') := by
  intro s s' hs
  exact ⟨hs.1.length, hs.1.append h, hs.2⟩

theorem envRel_frame {ρ ρ' : Env β} (hρ : EnvRel ρ ρ') : ∀ (xs : List String) (a : Nat),
    EnvRel (frame ρ xs a) (frame ρ' xs a)
  | [], _ => hρ
  | x :: xs, a => by
    have ih := envRel_frame hρ xs (a + 1)
    constructor
    · intro y hy
      simp only [frame]
      split
      · rfl
      · exact ih.1 y hy
    · intro y v hy
      simp only [frame]
      split
      · simp
      · exact ih.2 y v hy

theorem envRel_it {ρ ρ' : Env β} (hρ : EnvRel ρ ρ') (v : Val β) :
    EnvRel ρ (fun y => if y = "it" then some (.inr v) else ρ' y) :=
  ⟨fun y hy => by simp only [if_neg hy]; exact hρ.1 y hy, hρ.2⟩

theorem bases_sim {vs vs' : List (Val β)} (h : VsRel ecs vs vs') : bases vs = bases vs' := by
  induction vs generalizing vs' with
  | nil => cases h; rfl
  | cons v vs ih =>
    cases h with
    | cons hv hvs => cases hv <;> simp [bases, ih hvs]

theorem callExt_sim {P : World β ω ε} {k : Nat} {vs vs' : List (Val β)} (h : VsRel ecs vs vs') :
    MRel ecs (VRel ecs) (callExt P k vs) (callExt P k vs') := by
  intro s s' hs
  unfold callExt
  rw [← bases_sim h, ← hs.2]
  cases bases vs with
  | none => exact ⟨.inl rfl, hs⟩
  | some bs =>
    simp only
    rcases h : P.call k bs s.world with ⟨_ | b, w⟩
    · exact ⟨.inl rfl, hs.1, rfl⟩
    · exact ⟨.base _, hs.1, rfl⟩

theorem truthy_sim {P : World β ω ε} {v v' : Val β} (h : VRel ecs v v') : truthy P v = truthy P v' := by
  cases h with
  | lst h => cases h <;> rfl
  | _ => rfl

/-! ## Expressions -/

/-- A tail call corresponds to a jump. -/
inductive RRel (ecs : List String) : TailRes β → Val β → Prop
  | val {v v'} : VRel ecs v v' → RRel ecs (.val v) v'
  | tail {f f' as as'} : VRel ecs f f' → VsRel ecs as as' → RRel ecs (.tail f as) (.jmp f' as')

def ApRel (ecs : List String) (ap ap' : Ap β ω ε) : Prop :=
  ∀ f f' as as', VRel ecs f f' → VsRel ecs as as' → MRel ecs (VRel ecs) (ap f as) (ap' f' as')

variable {P : World β ω ε} {ap ap' : Ap β ω ε}

theorem val_sim {m m' : M (State β ω) ε (Val β)} (h : MRel ecs (VRel ecs) m m') :
    MRel ecs (RRel ecs) (bind m fun v => ret (TailRes.val v)) m' := by
  have := MRel.bind h (Q := RRel ecs) (f := fun v => ret (TailRes.val v)) (f' := ret) fun a a' ha => MRel.ret (.val ha)
  rwa [bind_ret] at this

theorem lam_sim {ps : List String} {b : Ex β} (hb : okE ecs true b = true) (hps : "it" ∉ ps) {ρ ρ' : Env β}
    (hρ : EnvRel ρ ρ') :
    VRel ecs (.clo false ps [] [.ret (some (andE true b))] ρ) (.clo true ps [] [.ret (some (full true b))] ρ') :=
  VRel.clo (b := [.ret (some b)]) (by simp [okSs, okS, hb]) (by simpa using hps) hρ

mutual
/-- An expression that is not in tail position. -/
theorem eval_sim (h : ApRel ecs ap ap') : ∀ (e : Ex β) (ρ ρ' : Env β), EnvRel ρ ρ' → okE ecs false e = true →
    MRel ecs (VRel ecs) (eval P ap ρ (andE false e)) (eval P ap' ρ' (full false e))
  | .cst _, _, _, _, _ => MRel.ret (.base _)
  | .non, _, _, _, _ => MRel.ret .non
  | .ff, _, _, _, _ => MRel.ret .ff
  | .name x, _, _, hρ, ho => load_sim hρ (by simpa [okE] using ho)
  | .call f args, ρ, ρ', hρ, ho => by
    simp only [okE, Bool.and_eq_true] at ho
    simp only [andE, full, Bool.false_eq_true, if_false, eval]
    exact MRel.bind (eval_sim h f ρ ρ' hρ ho.1.2) fun v v' hv => MRel.bind (evals_sim h args ρ ρ' hρ ho.2)
      fun vs vs' hvs => h _ _ _ _ hv hvs
  | .lam tr ps b, ρ, ρ', hρ, ho => by
    simp only [okE, Bool.and_eq_true, Bool.not_eq_true'] at ho
    have : tr = false := ho.1.1
    subst this
    exact MRel.ret (lam_sim ho.2 (by simpa using ho.1.2) hρ)
  | .ife c t e, ρ, ρ', hρ, ho => by
    simp only [okE, Bool.and_eq_true] at ho
    simp only [andE, full, eval]
    exact MRel.bind (eval_sim h c ρ ρ' hρ ho.1.1) fun v v' hv => MRel.ite (by rw [truthy_sim hv])
      (eval_sim h t ρ ρ' hρ ho.1.2) (eval_sim h e ρ ρ' hρ ho.2)
  | .bool o a b, ρ, ρ', hρ, ho => by
    simp only [okE, Bool.and_eq_true] at ho
    simp only [andE, full, Bool.false_and, Bool.false_eq_true, if_false, eval]
    exact MRel.bind (eval_sim h a ρ ρ' hρ ho.1.1) fun v v' hv => MRel.ite (by rw [truthy_sim hv])
      (MRel.ret hv) (eval_sim h b ρ ρ' hρ ho.1.2)
  | .lst ts, ρ, ρ', hρ, ho => by
    simp only [okE] at ho
    simp only [andE, full, eval]
    exact MRel.bind (evals_sim h ts ρ ρ' hρ ho) fun vs vs' hvs => MRel.ret (.lst hvs)
  | .letx x v b, ρ, ρ', hρ, ho => by
    simp only [okE, Bool.and_eq_true] at ho
    simp only [andE, full, eval]
    refine MRel.bind (eval_sim h v ρ ρ' hρ ho.1.2) fun v v' hv => MRel.bind (alloc_sim (.cons (.some hv) .nil))
      fun a a' ha => ?_
    subst ha
    exact eval_sim h b _ _ (envRel_frame hρ _ _) ho.2
  | .doe a b, ρ, ρ', hρ, ho => by
    simp only [okE, Bool.and_eq_true] at ho
    simp only [andE, full, eval]
    exact MRel.bind (eval_sim h a ρ ρ' hρ ho.1) fun _ _ _ => eval_sim h b ρ ρ' hρ ho.2
  | .assign x v, ρ, ρ', hρ, ho => by
    simp only [okE, Bool.and_eq_true] at ho
    simp only [andE, full, eval]
    exact MRel.bind (eval_sim h v ρ ρ' hρ ho.2) fun v v' hv => MRel.bind (store_sim hρ (by simpa using ho.1) hv)
      fun _ _ _ => MRel.ret hv
  | .aif .., _, _, _, ho => by simp [okE] at ho
  | .jump .., _, _, _, ho => by simp [okE] at ho
  | .bad, _, _, _, ho => by simp [okE] at ho

theorem evals_sim (h : ApRel ecs ap ap') : ∀ (ts : List (Ex β)) (ρ ρ' : Env β), EnvRel ρ ρ' → okEs ecs ts = true →
    MRel ecs (VsRel ecs) (evals P ap ρ (andEs ts)) (evals P ap' ρ' (fulls ts))
  | [], _, _, _, _ => MRel.ret .nil
  | t :: ts, ρ, ρ', hρ, ho => by
    simp only [okEs, Bool.and_eq_true] at ho
    simp only [andEs, fulls, evals]
    exact MRel.bind (eval_sim h t ρ ρ' hρ ho.1) fun v v' hv => MRel.bind (evals_sim h ts ρ ρ' hρ ho.2)
      fun vs vs' hvs => MRel.ret (.cons hv hvs)
end

/-- An expression in tail position. -/
theorem tail_sim (h : ApRel ecs ap ap') : ∀ (e : Ex β) (ρ ρ' : Env β), EnvRel ρ ρ' → okE ecs true e = true →
    MRel ecs (RRel ecs) (tailEval P ap ρ (andE true e)) (eval P ap' ρ' (full true e)) := by
  intro e
  induction e using Ex.rec (motive_2 := fun _ => True) with
  | call f args _ _ =>
    intro ρ ρ' hρ ho
    simp only [okE, Bool.and_eq_true] at ho
    simp only [andE, full, if_true, eval, tailEval]
    exact MRel.bind (eval_sim h f ρ ρ' hρ ho.1.2) fun v v' hv => MRel.bind (evals_sim h args ρ ρ' hρ ho.2)
      fun vs vs' hvs => MRel.ret (.tail hv hvs)
  | ife c t e _ iht ihe =>
    intro ρ ρ' hρ ho
    simp only [okE, Bool.and_eq_true] at ho
    simp only [andE, full, eval, tailEval]
    exact MRel.bind (eval_sim h c ρ ρ' hρ ho.1.1) fun v v' hv => MRel.ite (by rw [truthy_sim hv])
      (iht ρ ρ' hρ ho.1.2) (ihe ρ ρ' hρ ho.2)
  | bool o a b _ ihb =>
    intro ρ ρ' hρ ho
    simp only [okE, Bool.and_eq_true] at ho
    have ha := eval_sim (P := P) h a ρ ρ' hρ ho.1.1
    simp only [andE, full, Bool.true_and, compound_eq]
    by_cases hcb : isCompound b = true
    · cases o
      · simp only [hcb, Bool.not_false, Bool.and_true, if_true, Bool.false_eq_true, if_false, eval, tailEval]
        exact MRel.bind ha fun v v' hv => MRel.ite (by rw [truthy_sim hv]) (ihb ρ ρ' hρ ho.1.2) (MRel.ret (.val .ff))
      · simp only [hcb, Bool.not_true, Bool.false_and, Bool.false_eq_true, if_false, if_true, eval, tailEval]
        exact MRel.bind ha fun v v' hv => MRel.ite (by rw [truthy_sim hv]) (MRel.ret (.val hv))
          (ihb ρ _ (envRel_it hρ v') ho.1.2)
    · simp only [hcb, Bool.and_false, Bool.false_eq_true, if_false, eval, tailEval]
      exact MRel.bind ha fun v v' hv => MRel.ite (by rw [truthy_sim hv]) (MRel.ret (.val hv)) (ihb ρ ρ' hρ ho.1.2)
  | letx x v b _ ihb =>
    intro ρ ρ' hρ ho
    simp only [okE, Bool.and_eq_true] at ho
    simp only [andE, full, eval, tailEval]
    refine MRel.bind (eval_sim h v ρ ρ' hρ ho.1.2) fun v v' hv => MRel.bind (alloc_sim (.cons (.some hv) .nil))
      fun a a' ha => ?_
    subst ha
    exact ihb _ _ (envRel_frame hρ _ _) ho.2
  | doe a b _ ihb =>
    intro ρ ρ' hρ ho
    simp only [okE, Bool.and_eq_true] at ho
    simp only [andE, full, eval, tailEval]
    exact MRel.bind (eval_sim h a ρ ρ' hρ ho.1) fun _ _ _ => ihb ρ ρ' hρ ho.2
  | nil => trivial
  | cons => trivial
  | cst c => intro ρ ρ' hρ ho; exact val_sim (eval_sim h (.cst c) ρ ρ' hρ ho)
  | non => intro ρ ρ' hρ ho; exact val_sim (eval_sim h (.non) ρ ρ' hρ ho)
  | ff => intro ρ ρ' hρ ho; exact val_sim (eval_sim h (.ff) ρ ρ' hρ ho)
  | name x => intro ρ ρ' hρ ho; exact val_sim (eval_sim h (.name x) ρ ρ' hρ ho)
  | lam tr ps b _ => intro ρ ρ' hρ ho; exact val_sim (eval_sim h (.lam tr ps b) ρ ρ' hρ ho)
  | lst ts _ => intro ρ ρ' hρ ho; exact val_sim (eval_sim h (.lst ts) ρ ρ' hρ ho)
  | assign x v _ => intro ρ ρ' hρ ho; exact val_sim (eval_sim h (.assign x v) ρ ρ' hρ ho)
  | _ => intro ρ ρ' hρ ho; simp [okE] at ho

theorem hasTailCall_and : ∀ (e : Ex β) (tl : Bool), hasTailCall (andE tl e) = hasTailCall e := by
  intro e
  induction e using Ex.rec (motive_2 := fun _ => True) with
  | ife c t e _ iht ihe => intro tl; simp [andE, hasTailCall, iht, ihe]
  | bool o a b _ ihb =>
    intro tl
    simp only [andE]
    split
    · rename_i hc
      simp [hasTailCall, ihb]
    · simp [hasTailCall, ihb]
  | letx x v b _ ihb => intro tl; simp [andE, hasTailCall, ihb]
  | doe a b _ ihb => intro tl; simp [andE, hasTailCall, ihb]
  | nil => trivial
  | cons => trivial
  | _ => intro tl; rfl

theorem tailEval_noTail : ∀ (e : Ex β) (ρ : Env β), hasTailCall e = false →
    tailEval P ap ρ e = bind (eval P ap ρ e) fun v => ret (.val v) := by
  intro e
  induction e using Ex.rec (motive_2 := fun _ => True) with
  | call => intro ρ h; simp [hasTailCall] at h
  | ife c t e _ iht ihe =>
    intro ρ h
    simp only [hasTailCall, Bool.or_eq_false_iff] at h
    simp only [tailEval, eval, bind_assoc, bind_ite, iht ρ h.1, ihe ρ h.2]
  | bool o a b _ ihb =>
    intro ρ h
    simp only [hasTailCall] at h
    simp only [tailEval, eval, bind_assoc, bind_ite, ihb ρ h]; rfl
  | letx x v b _ ihb =>
    intro ρ h
    simp only [hasTailCall] at h
    simp only [tailEval, eval, bind_assoc, ihb _ h]
  | doe a b _ ihb =>
    intro ρ h
    simp only [hasTailCall] at h
    simp only [tailEval, eval, bind_assoc, ihb _ h]
  | nil => trivial
  | cons => trivial
  | _ => intro ρ h; rfl

/-! ## Statements -/

inductive FRel (ecs : List String) (pl : Place) : Flow (TailRes β) → Flow (Val β) → Prop
  | next : FRel ecs pl .next .next
  | ret {r v} : pl ≠ .block → RRel ecs r v → FRel ecs pl (.ret r) (.ret v)

theorem FRel.inTry {pl : Place} {a : Flow (TailRes β)} {a' : Flow (Val β)} (h : FRel ecs pl.inTry a a') : FRel ecs pl a a' := by
  cases h with
  | next => exact .next
  | ret hp hr => exact .ret (by rintro rfl; exact hp rfl) hr

theorem while_sim {pl : Place} {test test' : M (State β ω) ε (Val β)} {body : M (State β ω) ε (Flow (TailRes β))}
    {body' : M (State β ω) ε (Flow (Val β))} (h : MRel ecs (VRel ecs) test test') (h' : MRel ecs (FRel ecs pl) body body') :
    ∀ n, MRel ecs (FRel ecs pl) (whileLoop P test body n) (whileLoop P test' body' n)
  | 0 => MRel.none
  | n + 1 => MRel.bind h fun v v' hv => MRel.ite (by rw [truthy_sim hv]) (MRel.bind h' fun fl fl' hfl => by
      cases hfl with
      | next => exact while_sim h h' n
      | ret hp hr => exact MRel.ret (.ret hp hr)) (MRel.ret .next)

theorem catches_sim {e e' : Err ε} (h : sameErr e e') : catches e = catches e' := by
  rcases h with rfl | ⟨rfl, rfl⟩ <;> rfl

theorem except_sim {pl : Place} {hh : Bool} {b h o : M (State β ω) ε (Flow (TailRes β))}
    {b' h' o' : M (State β ω) ε (Flow (Val β))} (hb : MRel ecs (FRel ecs pl) b b') (hh' : MRel ecs (FRel ecs pl) h h')
    (ho : MRel ecs (FRel ecs pl) o o') : MRel ecs (FRel ecs pl) (tryExcept hh b h o) (tryExcept hh b' h' o') := by
  intro s s' hs
  have := hb s s' hs
  unfold tryExcept
  rcases hm : b s with _ | ⟨e | a, t⟩ <;> rcases hm' : b' s' with _ | ⟨e' | a', t'⟩ <;> simp only [hm, hm'] at this ⊢
  · rw [catches_sim this.1]
    by_cases hc : (hh && catches e') = true
    · rw [if_pos hc, if_pos hc]; exact hh' _ _ this.2
    · rw [if_neg hc, if_neg hc]; exact this
  · obtain ⟨hf, hs⟩ := this
    cases hf with
    | next => exact ho _ _ hs
    | ret hp hr => exact ⟨.ret hp hr, hs⟩

theorem finally_sim {pl : Place} {b f : M (State β ω) ε (Flow (TailRes β))}
    {b' f' : M (State β ω) ε (Flow (Val β))} (hb : MRel ecs (FRel ecs pl) b b') (hf : MRel ecs (FRel ecs pl) f f') :
    MRel ecs (FRel ecs pl) (tryFinally b f) (tryFinally b' f') := by
  intro s s' hs
  have := hb s s' hs
  unfold tryFinally
  rcases hm : b s with _ | ⟨o, t⟩ <;> rcases hm' : b' s' with _ | ⟨o', t'⟩
  · trivial
  · simp only [hm, hm'] at this
  · rcases o with _ | _ <;> simp only [hm, hm'] at this
  · have ht : SRel ecs t t' := by
      rcases o with _ | _ <;> rcases o' with _ | _ <;> simp only [hm, hm'] at this
      · exact this.2
      · exact this.2
    have h2 := hf t t' ht
    simp only
    rcases hg : f t with _ | ⟨e | a, u⟩ <;> rcases hg' : f' t' with _ | ⟨e' | a', u'⟩ <;> simp only [hg, hg'] at h2 ⊢
    · exact h2
    · obtain ⟨hfl, hu⟩ := h2
      cases hfl with
      | next =>
        rcases o with e | fl <;> rcases o' with e' | fl' <;> simp only [hm, hm'] at this ⊢
        · exact ⟨this.1, hu⟩
        · exact ⟨this.1, hu⟩
      | ret hp hr => exact ⟨.ret hp hr, hu⟩

theorem andSs_isEmpty (f : List (St β)) : (andSs f).isEmpty = f.isEmpty := by cases f <;> rfl

mutual
theorem exec_sim (h : ApRel ecs ap ap') (N : Nat) : ∀ (t : St β) (pl : Place) (ρ ρ' : Env β), EnvRel ρ ρ' →
    okS ecs pl t = true →
    MRel ecs (FRel ecs pl) (tailExec P N ap ρ (pl == .function) (andS t)) (exec P N ap' ρ' (fullS t))
  | .ret none, pl, _, _, _, ho => MRel.ret (.ret (by simpa [okS] using ho) (.val .non))
  | .ret (some e), pl, ρ, ρ', hρ, ho => by
    simp only [okS, Bool.and_eq_true, bne_iff_ne, ne_eq, Bool.not_eq_true', Bool.and_eq_false_iff] at ho
    simp only [andS, fullS, tailExec, exec]
    have key := tail_sim (P := P) h e ρ ρ' hρ ho.1.2
    have goal := MRel.bind key (Q := FRel ecs pl) (f := fun r => ret (.ret r)) (f' := fun v => ret (.ret v))
      fun r v hr => MRel.ret (.ret ho.1.1 hr)
    cases pl with
    | block => exact absurd rfl ho.1.1
    | function => exact goal
    | guarded =>
      have ht : hasTailCall (andE true e) = false := by
        rw [hasTailCall_and]; simpa using ho.2
      rw [tailEval_noTail _ _ ht, bind_assoc] at goal
      exact goal
  | .expr e, pl, ρ, ρ', hρ, ho => MRel.bind (eval_sim h e ρ ρ' hρ (by simpa [okS] using ho)) fun _ _ _ => MRel.ret .next
  | .assign x e, pl, ρ, ρ', hρ, ho => by
    simp only [okS, Bool.and_eq_true] at ho
    exact MRel.bind (eval_sim h e ρ ρ' hρ ho.2) fun v v' hv => MRel.bind (store_sim hρ (by simpa using ho.1) hv)
      fun _ _ _ => MRel.ret .next
  | .ite c b₁ b₂, pl, ρ, ρ', hρ, ho => by
    simp only [okS, Bool.and_eq_true] at ho
    exact MRel.bind (eval_sim h c ρ ρ' hρ ho.1.1) fun v v' hv => MRel.ite (by rw [truthy_sim hv])
      (execs_sim h N b₁ pl ρ ρ' hρ ho.1.2) (execs_sim h N b₂ pl ρ ρ' hρ ho.2)
  | .while c b, pl, ρ, ρ', hρ, ho => by
    simp only [okS, Bool.and_eq_true] at ho
    exact while_sim (eval_sim h c ρ ρ' hρ ho.1) (execs_sim h N b pl ρ ρ' hρ ho.2) N
  | .defn tr x ps ls b, pl, ρ, ρ', hρ, ho => by
    simp only [okS, Bool.and_eq_true, Bool.not_eq_true'] at ho
    have : tr = false := ho.1.1.1
    subst this
    exact MRel.bind (store_sim hρ (by simpa using ho.1.1.2) (.clo ho.2 (by simpa using ho.1.2) hρ)) fun _ _ _ => MRel.ret .next
  | .tryx b hh h' o f, pl, ρ, ρ', hρ, ho => by
    simp only [okS, Bool.and_eq_true] at ho
    simp only [andS, fullS, tailExec, exec, andSs_isEmpty]
    have e₁ := execs_sim h N b pl.inTry ρ ρ' hρ ho.1.1.1
    have e₂ := execs_sim h N h' _ ρ ρ' hρ ho.1.1.2
    have e₃ := execs_sim h N o _ ρ ρ' hρ ho.1.2
    have e₄ := execs_sim h N f pl ρ ρ' hρ ho.2
    have w₁ : (pl.inTry == Place.function) = false := by cases pl <;> rfl
    rw [w₁] at e₁
    by_cases hf : f.isEmpty = true
    · simp only [hf, if_true] at e₂ e₃
      simp only [hf, Bool.and_true]
      exact finally_sim (except_sim (e₁.mono fun _ _ => FRel.inTry) e₂ e₃) e₄
    · simp only [hf, Bool.false_eq_true, if_false, w₁] at e₂ e₃
      simp only [hf, Bool.and_false]
      exact finally_sim (except_sim (e₁.mono fun _ _ => FRel.inTry) (e₂.mono fun _ _ => FRel.inTry)
        (e₃.mono fun _ _ => FRel.inTry)) e₄

theorem execs_sim (h : ApRel ecs ap ap') (N : Nat) : ∀ (ts : List (St β)) (pl : Place) (ρ ρ' : Env β), EnvRel ρ ρ' →
    okSs ecs pl ts = true →
    MRel ecs (FRel ecs pl) (tailExecs P N ap ρ (pl == .function) (andSs ts)) (execs P N ap' ρ' (fullSs ts))
  | [], _, _, _, _, _ => MRel.ret .next
  | t :: ts, pl, ρ, ρ', hρ, ho => by
    simp only [okSs, Bool.and_eq_true] at ho
    refine MRel.bind (exec_sim h N t pl ρ ρ' hρ ho.1) fun fl fl' hfl => ?_
    cases hfl with
    | next => exact execs_sim h N ts pl ρ ρ' hρ ho.2
    | ret hp hr => exact MRel.ret (.ret hp hr)
end

/-! ## Calls -/

theorem VsRel.length {vs vs' : List (Val β)} (h : VsRel ecs vs vs') : vs.length = vs'.length := by
  induction vs generalizing vs' with
  | nil => cases h; rfl
  | cons v vs ih => cases h with | cons _ h => simp [ih h]

theorem VsRel.cells {vs vs' : List (Val β)} (h : VsRel ecs vs vs') : HRel ecs (vs.map some) (vs'.map some) := by
  induction vs generalizing vs' with
  | nil => cases h; exact .nil
  | cons v vs ih => cases h with | cons hv h => exact .cons (.some hv) (ih h)

theorem HRel.empty : ∀ (ls : List String), HRel ecs (ls.map fun _ => (none : Option (Val β))) (ls.map fun _ => none)
  | [] => .nil
  | _ :: ls => .cons .none (HRel.empty ls)

theorem tailCall_sim (h : ApRel ecs ap ap') (N : Nat) {f f' : Val β} {as as' : List (Val β)} (hf : VRel ecs f f')
    (has : VsRel ecs as as') : MRel ecs (RRel ecs) (tailCall P N ap f as) (callEntry P N ap' f' as') := by
  cases hf with
  | clo hb hit hρ =>
    simp only [tailCall, callEntry, enter]
    refine MRel.ite (by rw [has.length]) ?_ (MRel.raise (.inl rfl))
    refine MRel.bind (alloc_sim (has.cells.append (HRel.empty _))) fun a a' ha => ?_
    subst ha
    refine MRel.bind (execs_sim h N _ .function _ _ (envRel_frame hρ _ _) hb) fun fl fl' hfl => ?_
    cases hfl with
    | next => exact MRel.ret (.val .non)
    | ret _ hr => exact MRel.ret hr
  | ext k => exact val_sim (callExt_sim has)
  | _ => exact MRel.raise (.inl rfl)

theorem callable_sim {f f' : Val β} (h : VRel ecs f f') : callable f = callable f' := by cases h <;> rfl

theorem tailLoop_sim (h : ApRel ecs ap ap') (N : Nat) : ∀ (n : Nat) {f f' : Val β} {as as' : List (Val β)}, VRel ecs f f' →
    VsRel ecs as as' → MRel ecs (VRel ecs) (tailLoop P N ap n f as) (trampoline P N ap' n f' as')
  | 0, _, _, _, _, _, _ => MRel.none
  | n + 1, f, f', as, as', hf, has => by
    simp only [tailLoop, trampoline]
    refine MRel.bind (tailCall_sim h N hf has) fun r v hr => ?_
    cases hr with
    | val hv => cases hv <;> exact MRel.ret (by constructor <;> assumption)
    | tail hg hbs =>
      exact MRel.ite (by rw [callable_sim hg]) (tailLoop_sim h N n hg hbs) (MRel.raise (.inr ⟨rfl, rfl⟩))

theorem apply_two (P : World β ω ε) (N d : Nat) :
    apply P N (d + 2) = callWith P N (apply P N (d + 1)) (some (apply P N d)) := rfl

theorem proper_sim (P : World β ω ε) (N : Nat) : ∀ d, ApRel ecs (proper P (N + 1) d) (apply P (N + 1) (2 * d))
  | 0 => fun _ _ _ _ _ _ => MRel.none
  | d + 1 => by
    intro f f' as as' hf has
    have ih := proper_sim P N d
    rw [proper, show 2 * (d + 1) = 2 * d + 2 by omega, apply_two]
    have key := tailLoop_sim ih (N + 1) (N + 1) hf has (P := P)
    cases hf with
    | clo hb hit hρ => exact key
    | ext k =>
      have : tailLoop P (N + 1) (proper P (N + 1) d) (N + 1) (.ext k) as = callExt P k as := by
        simp only [tailLoop, tailCall, bind_assoc]; exact bind_ret _
      rw [this]
      exact callExt_sim has
    | _ => exact MRel.raise (.inl rfl)

/-- The program with proper tail calls, and the expanded program. -/
theorem run_sim (P : World β ω ε) (N d : Nat) {ρ : Env β} (hρ : EnvRel ρ ρ) {b : List (St β)}
    (hb : okSs ecs .block b = true) :
    MRel ecs (fun fl fl' => fl = .next ∧ fl' = .next) (properRun P (N + 1) d ρ (andSs b)) (run P (N + 1) (2 * d) ρ (fullSs b)) := by
  have key := execs_sim (P := P) (proper_sim P N d) (N + 1) b .block ρ ρ hρ hb
  have : ((Place.block == Place.function) : Bool) = false := rfl
  rw [this, tailExecs_false] at key
  unfold properRun run
  intro s s' hs
  have := key s s' hs
  simp only [inj, PyExpr.bind] at this
  rcases hm : execs P (N + 1) (proper P (N + 1) d) ρ (andSs b) s with _ | ⟨_ | a, t⟩ <;>
    rcases hm' : execs P (N + 1) (apply P (N + 1) (2 * d)) ρ (fullSs b) s' with _ | ⟨_ | a', t'⟩ <;>
    simp only [hm, hm'] at this ⊢
  · exact this
  · cases a <;> simp [mapF, PyExpr.ret, PyExpr.bind] at this
  · cases a <;> simp [mapF, PyExpr.ret, PyExpr.bind] at this
  · cases a with
    | next =>
      obtain ⟨hf, ht⟩ := this
      cases hf
      exact ⟨⟨rfl, rfl⟩, ht⟩
    | ret v =>
      obtain ⟨hf, ht⟩ := this
      cases hf with
      | ret hp _ => exact absurd rfl hp

/-! ## More depth, more rounds -/

theorem trampoline_le {N N' : Nat} (h : ApLe ap ap') (hN : N ≤ N') : ∀ {n n' : Nat}, n ≤ n' → ∀ (f : Val β) (args : List (Val β)),
    Le (trampoline P N ap n f args) (trampoline P N' ap' n' f args)
  | 0, _, _, _, _ => Le.none
  | n + 1, 0, hn, _, _ => absurd hn (by omega)
  | n + 1, n' + 1, hn, f, args => by
    simp only [trampoline]
    refine Le.bind (callEntry_le h hN f args) fun v => ?_
    cases v with
    | jmp g as => exact Le.ite (trampoline_le h hN (by omega) g as) (Le.refl _)
    | _ => exact Le.refl _

theorem callWith_false (P : World β ω ε) (N : Nat) (ap₁ : Ap β ω ε) (ap₂ : Option (Ap β ω ε)) (ps ls : List String)
    (b : List (St β)) (ρ : Env β) (args : List (Val β)) :
    callWith P N ap₁ ap₂ (.clo false ps ls b ρ) args = callEntry P N ap₁ (.clo false ps ls b ρ) args := rfl

theorem apply_one (P : World β ω ε) (N : Nat) (ps ls : List String) (b : List (St β)) (ρ : Env β) (args : List (Val β)) :
    apply P N 1 (.clo false ps ls b ρ) args = callEntry P N (apply P N 0) (.clo false ps ls b ρ) args := rfl

theorem apply_le (P : World β ω ε) {N N' : Nat} (hN : N ≤ N') : ∀ (d d' : Nat), d ≤ d' →
    ApLe (apply P N d) (apply P N' d')
  | 0, _, _ => fun _ _ => Le.none
  | 1, 0, h => absurd h (by omega)
  | 1, 1, _ => by
    intro f args
    cases f with
    | clo tr ps ls b ρ => cases tr
                          · rw [apply_one, apply_one]
                            exact callEntry_le (fun _ _ => Le.none) hN _ _
                          · exact Le.none
    | _ => exact Le.refl _
  | 1, d' + 2, _ => by
    intro f args
    rw [apply_two]
    cases f with
    | clo tr ps ls b ρ => cases tr
                          · rw [apply_one, callWith_false]
                            exact callEntry_le (fun _ _ => Le.none) hN _ _
                          · exact Le.none
    | _ => exact Le.refl _
  | d + 2, 0, h => absurd h (by omega)
  | d + 2, 1, h => absurd h (by omega)
  | d + 2, d' + 2, h => by
    intro f args
    rw [apply_two, apply_two]
    cases f with
    | clo tr ps ls b ρ =>
      cases tr
      · rw [callWith_false, callWith_false]
        exact callEntry_le (apply_le P hN (d + 1) (d' + 1) (by omega)) hN _ _
      · exact trampoline_le (apply_le P hN d d' (by omega)) hN hN _ _
    | _ => exact Le.refl _

theorem run_le (P : World β ω ε) {N N' d d' : Nat} (hN : N ≤ N') (hd : d ≤ d') (ρ : Env β) (b : List (St β)) :
    Le (run P N d ρ b) (run P N' d' ρ b) := execs_le (apply_le P hN d d' hd) hN b ρ

/-! ## What can be seen -/

mutual
theorem obs_sim : ∀ {v v' : Val β}, VRel ecs v v' → obs v = obs v'
  | _, _, .base _ => rfl
  | _, _, .non => rfl
  | _, _, .ff => rfl
  | _, _, .ext _ => rfl
  | _, _, .lst h => by simp [obs, obss_sim h]
  | _, _, .clo .. => rfl

theorem obss_sim : ∀ {vs vs' : List (Val β)}, VsRel ecs vs vs' → obss vs = obss vs'
  | _, _, .nil => rfl
  | _, _, .cons h h' => by simp [obss, obs_sim h, obss_sim h']
end

theorem heap_sim {h h' : List (Option (Val β))} (hr : HRel ecs h h') : h.map (Option.map obs) = h'.map (Option.map obs) := by
  induction hr with
  | nil => rfl
  | cons hc _ ih =>
    cases hc with
    | none => simp [ih]
    | some hv => simp [ih, obs_sim hv]

theorem simple_rel : ∀ {v : Val β}, Simple v → VRel ecs v v
  | .base _, _ => .base _
  | .non, _ => .non
  | .ff, _ => .ff
  | .ext _, _ => .ext _
  | .lst _, h => h.elim
  | .clo .., h => h.elim
  | .jmp .., h => h.elim

theorem start_rel {ρ : Env β} {s : State β ω} (h : Start ρ s) : EnvRel ρ ρ ∧ SRel ecs s s := by
  refine ⟨⟨fun _ _ => rfl, fun y v _ => h.1 y v⟩, ?_, rfl⟩
  have h2 := h.2
  generalize s.heap = l at h2
  induction l with
  | nil => exact .nil
  | cons c l ih =>
    refine .cons ?_ (ih fun c hc => h2 c (List.mem_cons_of_mem _ hc))
    cases c with
    | none => exact .none
    | some v => exact .some (simple_rel (h2 _ List.mem_cons_self v rfl))

end Unpy.Tail.Sim
