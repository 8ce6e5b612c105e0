import Verif.Model.PyStmt
/-!
# Simulations between programs of the fragment with statements

The bodies of functions are related by a parameter `C`.
-/
namespace Unpy.Tail.StSim
open Unpy.Tail
open Unpy.PyExpr (M ret raise bind Err)
variable {β ω ε α α' γ γ' : Type}

abbrev CloRel (β : Type) := List String → List String → List (St β) → List (St β) → Prop

mutual
inductive VRel (C : CloRel β) : Val β → Val β → Prop
  | base (b) : VRel C (.base b) (.base b)
  | non : VRel C .non .non
  | ff : VRel C .ff .ff
  | ext (k) : VRel C (.ext k) (.ext k)
  | lst {vs vs'} : VsRel C vs vs' → VRel C (.lst vs) (.lst vs')
  | clo {tr ps ls b b' ρ ρ'} : C ps ls b b' → (∀ x, RefRel C (ρ x) (ρ' x)) →
      VRel C (.clo tr ps ls b ρ) (.clo tr ps ls b' ρ')
  | jmp {f f' as as'} : VRel C f f' → VsRel C as as' → VRel C (.jmp f as) (.jmp f' as')

inductive VsRel (C : CloRel β) : List (Val β) → List (Val β) → Prop
  | nil : VsRel C [] []
  | cons {v v' vs vs'} : VRel C v v' → VsRel C vs vs' → VsRel C (v :: vs) (v' :: vs')

inductive RefRel (C : CloRel β) : Option (Nat ⊕ Val β) → Option (Nat ⊕ Val β) → Prop
  | none : RefRel C none none
  | cell (a) : RefRel C (some (.inl a)) (some (.inl a))
  | val {v v'} : VRel C v v' → RefRel C (some (.inr v)) (some (.inr v'))
end

def EnvRel (C : CloRel β) (ρ ρ' : Env β) : Prop := ∀ x, RefRel C (ρ x) (ρ' x)

inductive ORel (C : CloRel β) : Option (Val β) → Option (Val β) → Prop
  | none : ORel C none none
  | some {v v'} : VRel C v v' → ORel C (some v) (some v')

inductive HRel (C : CloRel β) : List (Option (Val β)) → List (Option (Val β)) → Prop
  | nil : HRel C [] []
  | cons {c c' h h'} : ORel C c c' → HRel C h h' → HRel C (c :: h) (c' :: h')

def SRel (C : CloRel β) (s s' : State β ω) : Prop := HRel C s.heap s'.heap ∧ s.world = s'.world

/-- Outcomes that correspond. -/
def MRel (C : CloRel β) (R : α → α' → Prop) (m : M (State β ω) ε α) (m' : M (State β ω) ε α') : Prop :=
  ∀ s s', SRel C s s' → match m s, m' s' with
    | none, none => True
    | some (.ok a, t), some (.ok a', t') => R a a' ∧ SRel C t t'
    | some (.error e, t), some (.error e', t') => e = e' ∧ SRel C t t'
    | _, _ => False

variable {C : CloRel β}

theorem MRel.ret {R : α → α' → Prop} {a : α} {a' : α'} (h : R a a') :
    MRel (ω := ω) (ε := ε) C R (PyExpr.ret a) (PyExpr.ret a') := fun _ _ hs => ⟨h, hs⟩

theorem MRel.raise {R : α → α' → Prop} {e : Err ε} :
    MRel (ω := ω) C R (PyExpr.raise e) (PyExpr.raise e) := fun _ _ hs => ⟨rfl, hs⟩

theorem MRel.none {R : α → α' → Prop} : MRel (ω := ω) (ε := ε) C R (fun _ => none) (fun _ => none) :=
  fun _ _ _ => trivial

theorem MRel.bind {R : α → α' → Prop} {Q : γ → γ' → Prop} {m : M (State β ω) ε α} {m' : M (State β ω) ε α'}
    {f : α → M (State β ω) ε γ} {f' : α' → M (State β ω) ε γ'} (h : MRel C R m m')
    (hf : ∀ a a', R a a' → MRel C Q (f a) (f' a')) : MRel C Q (bind m f) (bind m' f') := by
  intro s s' hs
  have := h s s' hs
  unfold PyExpr.bind
  rcases hm : m s with _ | ⟨_ | a, t⟩ <;> rcases hm' : m' s' with _ | ⟨_ | a', t'⟩ <;> simp only [hm, hm'] at this ⊢
  · exact this
  · exact hf a a' this.1 t t' this.2

theorem MRel.ite {R : α → α' → Prop} {p p' : Prop} [Decidable p] [Decidable p'] {a b : M (State β ω) ε α}
    {a' b' : M (State β ω) ε α'} (hp : p ↔ p') (h : MRel C R a a') (h' : MRel C R b b') :
    MRel C R (if p then a else b) (if p' then a' else b') := by
  by_cases hq : p
  · rw [if_pos hq, if_pos (hp.1 hq)]; exact h
  · rw [if_neg hq, if_neg (fun x => hq (hp.2 x))]; exact h'

theorem MRel.mono {R Q : α → α' → Prop} {m : M (State β ω) ε α} {m' : M (State β ω) ε α'} (h : MRel C R m m')
    (hq : ∀ a a', R a a' → Q a a') : MRel C Q m m' := by
  intro s s' hs
  have := h s s' hs
  rcases hm : m s with _ | ⟨_ | a, t⟩ <;> rcases hm' : m' s' with _ | ⟨_ | a', t'⟩ <;> simp only [hm, hm'] at this ⊢
  · exact this
  · exact ⟨hq _ _ this.1, this.2⟩

/-! ## The parts of the state -/

theorem HRel.length {h h' : List (Option (Val β))} (hr : HRel C h h') : h.length = h'.length := by
  induction hr with
  | nil => rfl
  | cons _ _ ih => simp [ih]

theorem HRel.append {a a' b b' : List (Option (Val β))} (h : HRel C a a') (h' : HRel C b b') :
    HRel C (a ++ b) (a' ++ b') := by
  induction h with
  | nil => exact h'
  | cons hc _ ih => exact .cons hc ih

theorem HRel.get {h h' : List (Option (Val β))} (hr : HRel C h h') : ∀ a : Nat,
    (h[a]? = none ∧ h'[a]? = none) ∨ ∃ c c', h[a]? = some c ∧ h'[a]? = some c' ∧ ORel C c c' := by
  induction hr with
  | nil => intro a; left; simp
  | cons hc _ ih =>
    intro a
    cases a with
    | zero => right; exact ⟨_, _, rfl, rfl, hc⟩
    | succ a => simpa using ih a

theorem HRel.set {h h' : List (Option (Val β))} (hr : HRel C h h') {c c' : Option (Val β)} (hc : ORel C c c') :
    ∀ a : Nat, HRel C (h.set a c) (h'.set a c') := by
  induction hr with
  | nil => intro a; exact .nil
  | cons hd htl ih =>
    intro a
    cases a with
    | zero => exact .cons hc htl
    | succ a => exact .cons hd (ih a)

theorem load_sim {ρ ρ' : Env β} (hρ : EnvRel C ρ ρ') (x : String) :
    MRel (ω := ω) (ε := ε) C (VRel C) (load ρ x) (load ρ' x) := by
  intro s s' hs
  unfold load
  have hx := hρ x
  generalize ρ x = r at hx
  generalize ρ' x = r' at hx
  cases hx with
  | none => exact ⟨rfl, hs⟩
  | cell a =>
    rcases hs.1.get a with ⟨h₁, h₂⟩ | ⟨c, c', h₁, h₂, hc⟩
    · simp only [h₁, h₂]; exact ⟨trivial, hs⟩
    · simp only [h₁, h₂]
      cases hc with
      | none => exact ⟨rfl, hs⟩
      | some hv => exact ⟨hv, hs⟩
  | val hv => exact ⟨hv, hs⟩

theorem store_sim {ρ ρ' : Env β} (hρ : EnvRel C ρ ρ') (x : String) {v v' : Val β} (hv : VRel C v v') :
    MRel (ω := ω) (ε := ε) C (fun _ _ => True) (store ρ x v) (store ρ' x v') := by
  intro s s' hs
  unfold store
  have hx := hρ x
  generalize ρ x = r at hx
  generalize ρ' x = r' at hx
  cases hx with
  | none => exact ⟨rfl, hs⟩
  | cell a => exact ⟨trivial, hs.1.set (.some hv) a, hs.2⟩
  | val _ => exact ⟨rfl, hs⟩

theorem alloc_sim {vs vs' : List (Option (Val β))} (h : HRel C vs vs') :
    MRel (ω := ω) (ε := ε) C (· = ·) (alloc vs) (alloc vs') := by
  intro s s' hs
  exact ⟨hs.1.length, hs.1.append h, hs.2⟩

theorem envRel_frame {ρ ρ' : Env β} (hρ : EnvRel C ρ ρ') : ∀ (xs : List String) (a : Nat),
    EnvRel C (frame ρ xs a) (frame ρ' xs a)
  | [], _ => hρ
  | x :: xs, a => by
    intro y
    simp only [frame]
    split
    · exact .cell a
    · exact envRel_frame hρ xs (a + 1) y

theorem envRel_it {ρ ρ' : Env β} (hρ : EnvRel C ρ ρ') {v v' : Val β} (hv : VRel C v v') :
    EnvRel C (fun y => if y = "it" then some (.inr v) else ρ y) (fun y => if y = "it" then some (.inr v') else ρ' y) := by
  intro y
  by_cases hy : y = "it"
  · simp only [if_pos hy]; exact .val hv
  · simp only [if_neg hy]; exact hρ y

theorem bases_sim {vs vs' : List (Val β)} (h : VsRel C vs vs') : bases vs = bases vs' := by
  induction vs generalizing vs' with
  | nil => cases h; rfl
  | cons v vs ih =>
    cases h with
    | cons hv hvs => cases hv <;> simp [bases, ih hvs]

theorem callExt_sim {P : World β ω ε} {k : Nat} {vs vs' : List (Val β)} (h : VsRel C vs vs') :
    MRel C (VRel C) (callExt P k vs) (callExt P k vs') := by
  intro s s' hs
  unfold callExt
  rw [← bases_sim h, ← hs.2]
  cases bases vs with
  | none => exact ⟨rfl, hs⟩
  | some bs =>
    simp only
    rcases h : P.call k bs s.world with ⟨_ | b, w⟩
    · exact ⟨rfl, hs.1, rfl⟩
    · exact ⟨.base _, hs.1, rfl⟩

theorem truthy_sim {P : World β ω ε} {v v' : Val β} (h : VRel C v v') : truthy P v = truthy P v' := by
  cases h with
  | lst h => cases h <;> rfl
  | _ => rfl

/-! ## Expressions -/

def ApRel (C : CloRel β) (ap ap' : Ap β ω ε) : Prop :=
  ∀ f f' as as', VRel C f f' → VsRel C as as' → MRel C (VRel C) (ap f as) (ap' f' as')

variable {P : World β ω ε} {ap ap' : Ap β ω ε}

/-- Bodies of lambdas are the same. -/
def LamRel (C : CloRel β) : Prop := ∀ ps (e : Ex β), C ps [] [.ret (some e)] [.ret (some e)]

mutual
/-- The same expression on both sides. -/
theorem eval_sim (hC : LamRel C) (h : ApRel C ap ap') : ∀ (e : Ex β) (ρ ρ' : Env β), EnvRel C ρ ρ' →
    MRel C (VRel C) (eval P ap ρ e) (eval P ap' ρ' e)
  | .cst _, _, _, _ => MRel.ret (.base _)
  | .non, _, _, _ => MRel.ret .non
  | .ff, _, _, _ => MRel.ret .ff
  | .name x, _, _, hρ => load_sim hρ x
  | .call f args, ρ, ρ', hρ => MRel.bind (eval_sim hC h f ρ ρ' hρ) fun _ _ hv =>
      MRel.bind (evals_sim hC h args ρ ρ' hρ) fun _ _ hvs => h _ _ _ _ hv hvs
  | .lam _ ps b, _, _, hρ => MRel.ret (.clo (hC ps b) hρ)
  | .ife c t e, ρ, ρ', hρ => MRel.bind (eval_sim hC h c ρ ρ' hρ) fun _ _ hv => MRel.ite (by rw [truthy_sim hv])
      (eval_sim hC h t ρ ρ' hρ) (eval_sim hC h e ρ ρ' hρ)
  | .bool _ a b, ρ, ρ', hρ => MRel.bind (eval_sim hC h a ρ ρ' hρ) fun _ _ hv => MRel.ite (by rw [truthy_sim hv])
      (MRel.ret hv) (eval_sim hC h b ρ ρ' hρ)
  | .lst ts, ρ, ρ', hρ => MRel.bind (evals_sim hC h ts ρ ρ' hρ) fun _ _ hvs => MRel.ret (.lst hvs)
  | .letx x v b, ρ, ρ', hρ => MRel.bind (eval_sim hC h v ρ ρ' hρ) fun _ _ hv =>
      MRel.bind (alloc_sim (.cons (.some hv) .nil)) fun a a' ha => by
        subst ha; exact eval_sim hC h b _ _ (envRel_frame hρ _ _)
  | .doe a b, ρ, ρ', hρ => MRel.bind (eval_sim hC h a ρ ρ' hρ) fun _ _ _ => eval_sim hC h b ρ ρ' hρ
  | .assign x v, ρ, ρ', hρ => MRel.bind (eval_sim hC h v ρ ρ' hρ) fun _ _ hv => MRel.bind (store_sim hρ x hv)
      fun _ _ _ => MRel.ret hv
  | .aif t b, ρ, ρ', hρ => MRel.bind (eval_sim hC h t ρ ρ' hρ) fun _ _ hv => MRel.ite (by rw [truthy_sim hv])
      (MRel.ret hv) (eval_sim hC h b _ _ (envRel_it hρ hv))
  | .jump f args, ρ, ρ', hρ => MRel.bind (eval_sim hC h f ρ ρ' hρ) fun _ _ hv =>
      MRel.bind (evals_sim hC h args ρ ρ' hρ) fun _ _ hvs => MRel.ret (.jmp hv hvs)
  | .bad, _, _, _ => MRel.raise

theorem evals_sim (hC : LamRel C) (h : ApRel C ap ap') : ∀ (ts : List (Ex β)) (ρ ρ' : Env β), EnvRel C ρ ρ' →
    MRel C (VsRel C) (evals P ap ρ ts) (evals P ap' ρ' ts)
  | [], _, _, _ => MRel.ret .nil
  | t :: ts, ρ, ρ', hρ => MRel.bind (eval_sim hC h t ρ ρ' hρ) fun _ _ hv =>
      MRel.bind (evals_sim hC h ts ρ ρ' hρ) fun _ _ hvs => MRel.ret (.cons hv hvs)
end

/-! ## Statements -/

inductive FRel (C : CloRel β) : Flow (Val β) → Flow (Val β) → Prop
  | next : FRel C .next .next
  | ret {v v'} : VRel C v v' → FRel C (.ret v) (.ret v')

theorem while_sim {test test' : M (State β ω) ε (Val β)} {body body' : M (State β ω) ε (Flow (Val β))}
    (h : MRel C (VRel C) test test') (h' : MRel C (FRel C) body body') :
    ∀ n, MRel C (FRel C) (whileLoop P test body n) (whileLoop P test' body' n)
  | 0 => MRel.none
  | n + 1 => MRel.bind h fun v v' hv => MRel.ite (by rw [truthy_sim hv]) (MRel.bind h' fun fl fl' hfl => by
      cases hfl with
      | next => exact while_sim h h' n
      | ret hr => exact MRel.ret (.ret hr)) (MRel.ret .next)

theorem except_sim {hh : Bool} {b h o b' h' o' : M (State β ω) ε (Flow (Val β))} (hb : MRel C (FRel C) b b')
    (hh' : MRel C (FRel C) h h') (ho : MRel C (FRel C) o o') :
    MRel C (FRel C) (tryExcept hh b h o) (tryExcept hh b' h' o') := by
  intro s s' hs
  have := hb s s' hs
  unfold tryExcept
  rcases hm : b s with _ | ⟨e | a, t⟩ <;> rcases hm' : b' s' with _ | ⟨e' | a', t'⟩ <;> simp only [hm, hm'] at this ⊢
  · rw [this.1]
    by_cases hc : (hh && catches e') = true
    · rw [if_pos hc, if_pos hc]; exact hh' _ _ this.2
    · rw [if_neg hc, if_neg hc]; exact ⟨rfl, this.2⟩
  · obtain ⟨hf, hs⟩ := this
    cases hf with
    | next => exact ho _ _ hs
    | ret hr => exact ⟨.ret hr, hs⟩

theorem finally_sim {b f b' f' : M (State β ω) ε (Flow (Val β))} (hb : MRel C (FRel C) b b') (hf : MRel C (FRel C) f f') :
    MRel C (FRel C) (tryFinally b f) (tryFinally b' f') := by
  intro s s' hs
  have := hb s s' hs
  unfold tryFinally
  rcases hm : b s with _ | ⟨o, t⟩ <;> rcases hm' : b' s' with _ | ⟨o', t'⟩
  · trivial
  · simp only [hm, hm'] at this
  · rcases o with _ | _ <;> simp only [hm, hm'] at this
  · have ht : SRel C t t' := by
      rcases o with _ | _ <;> rcases o' with _ | _ <;> simp only [hm, hm'] at this
      · exact this.2
      · exact this.2
    have h2 := hf t t' ht
    simp only
    rcases hg : f t with _ | ⟨e | a, u⟩ <;> rcases hg' : f' t' with _ | ⟨e' | a', u'⟩ <;> simp only [hg, hg'] at h2 ⊢
    · exact h2
    · obtain ⟨hfl, hu⟩ := h2
      cases hfl with
      | next =>
        rcases o with e | fl <;> rcases o' with e' | fl' <;> simp only [hm, hm'] at this ⊢
        · exact ⟨this.1, hu⟩
        · exact ⟨this.1, hu⟩
      | ret hr => exact ⟨.ret hr, hu⟩

/-- One statement after another. -/
theorem seq_sim {m m' k k' : M (State β ω) ε (Flow (Val β))} (h : MRel C (FRel C) m m') (hk : MRel C (FRel C) k k') :
    MRel C (FRel C) (bind m fun fl => match fl with | .next => k | .ret v => ret (.ret v))
      (bind m' fun fl => match fl with | .next => k' | .ret v => ret (.ret v)) :=
  MRel.bind h fun fl fl' hfl => by
    cases hfl with
    | next => exact hk
    | ret hr => exact MRel.ret (.ret hr)

theorem execs_append (P : World β ω ε) (N : Nat) (ap : Ap β ω ε) (ρ : Env β) : ∀ (a b : List (St β)),
    execs P N ap ρ (a ++ b) = bind (execs P N ap ρ a) fun fl => match fl with
      | .next => execs P N ap ρ b
      | .ret v => ret (.ret v)
  | [], b => rfl
  | t :: a, b => by
    simp only [List.cons_append, execs, execs_append P N ap ρ a b]
    funext s
    simp only [PyExpr.bind]
    rcases exec P N ap ρ t s with _ | ⟨_ | (_ | _), _⟩ <;> rfl

theorem execs_single (P : World β ω ε) (N : Nat) (ap : Ap β ω ε) (ρ : Env β) (t : St β) :
    execs P N ap ρ [t] = exec P N ap ρ t := by
  funext s
  simp only [execs, PyExpr.bind]
  rcases exec P N ap ρ t s with _ | ⟨_ | (_ | _), _⟩ <;> rfl

/-! ## Calls -/

theorem VsRel.length {vs vs' : List (Val β)} (h : VsRel C vs vs') : vs.length = vs'.length := by
  induction vs generalizing vs' with
  | nil => cases h; rfl
  | cons v vs ih => cases h with | cons _ h => simp [ih h]

theorem VsRel.cells {vs vs' : List (Val β)} (h : VsRel C vs vs') : HRel C (vs.map some) (vs'.map some) := by
  induction vs generalizing vs' with
  | nil => cases h; exact .nil
  | cons v vs ih => cases h with | cons hv h => exact .cons (.some hv) (ih h)

theorem HRel.empty : ∀ (ls : List String), HRel C (ls.map fun _ => (none : Option (Val β))) (ls.map fun _ => none)
  | [] => .nil
  | _ :: ls => .cons .none (HRel.empty ls)

theorem enter_sim {run run' : Env β → List (St β) → M (State β ω) ε (Flow (Val β))} {ps ls : List String} {b b' : List (St β)}
    {ρ ρ' : Env β} {as as' : List (Val β)} (hρ : EnvRel C ρ ρ') (has : VsRel C as as')
    (h : ∀ ρ ρ', EnvRel C ρ ρ' → MRel C (FRel C) (run ρ b) (run' ρ' b')) :
    MRel C (VRel C) (enter run ps ls b ρ as) (enter run' ps ls b' ρ' as') := by
  simp only [enter]
  refine MRel.ite (by rw [has.length]) ?_ MRel.raise
  refine MRel.bind (alloc_sim (has.cells.append (HRel.empty _))) fun a a' ha => ?_
  subst ha
  refine MRel.bind (h _ _ (envRel_frame hρ _ _)) fun fl fl' hfl => ?_
  cases hfl with
  | next => exact MRel.ret .non
  | ret hr => exact MRel.ret hr

end Unpy.Tail.StSim
