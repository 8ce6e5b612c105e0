import Verif.Proof.LetDoFresh
/-!
# The expansion does what the source means: relations between objects and states
-/
namespace Unpy.LetDo
open Unpy.PyExpr
open Unpy.Spec.LetDo (reads readsAny assigns assignsAny Usable Wf Wfs WfItems)

variable {β ω ε : Type}

abbrev SVal (β : Type) := Unpy.Spec.LetDo.Val β
abbrev PVal (β : Type) := Unpy.PyExpr.Val β
abbrev PSt (β ω : Type) := Unpy.PyExpr.St β ω
abbrev SRef (β : Type) := Unpy.Spec.LetDo.Ref β
abbrev SSt (β ω : Type) := Unpy.Spec.LetDo.St β ω

mutual
/-- Related objects; `K` are the kinds of the frames (`true` for `do`). -/
inductive VRel (P : World β ω ε) (K : List Bool) : SVal β → PVal β → Prop
  | base (b : β) : VRel P K (.base b) (.base b)
  | ext (k : Nat) : VRel P K (.ext k) (.ext k)
  | tup {vs vs'} : VRels P K vs vs' → VRel P K (.tup vs) (.tup vs')
  | lst {vs vs'} : VRels P K vs vs' → VRel P K (.lst vs) (.lst vs')
  | clo {ps ds ds' b b' ρ ρ'} {Γ : Sc} : VRels P K ds ds' → Wf P b → ExpR (hide Γ ps) (hide Γ ps) b b' → Uniq b' →
      (∀ x e k, Γ x = some (e, k) → binds e b' = false) →
      (∀ p ∈ ps, ∃ x, p = Name.user x) →
      (∀ x e k, Γ x = some (e, k) → Usable P x ∧
        ∃ a, ρ (.user x) = some (.var a) ∧ ρ' (.gen e) = some (.env a) ∧ K[a]? = some k) →
      (∀ x, Γ x = none → (ρ (.user x) = none ∧ ρ' (.user x) = none) ∨
        ∃ v w, ρ (.user x) = some (.val v) ∧ ρ' (.user x) = some w) →
      (∀ x v w, Γ x = none → ρ (.user x) = some (.val v) → ρ' (.user x) = some w → VRel P K v w) →
      VRel P K (.clo ps ds b ρ) (.clo ps ds' b' ρ')
inductive VRels (P : World β ω ε) (K : List Bool) : List (SVal β) → List (PVal β) → Prop
  | nil : VRels P K [] []
  | cons {v v' vs vs'} : VRel P K v v' → VRels P K vs vs' → VRels P K (v :: vs) (v' :: vs')
end

/-- More frames. -/
def Ext (K K' : List Bool) : Prop := ∀ (a : Nat) (k : Bool), K[a]? = some k → K'[a]? = some k

theorem Ext.refl (K : List Bool) : Ext K K := fun _ _ h => h
theorem Ext.trans {K K' K'' : List Bool} (h : Ext K K') (h' : Ext K' K'') : Ext K K'' := fun a k hk => h' a k (h a k hk)
theorem Ext.append (K : List Bool) (k : Bool) : Ext K (K ++ [k]) := by
  intro a j h
  have hl : a < K.length := by
    rcases Nat.lt_or_ge a K.length with h' | h'
    · exact h'
    · rw [List.getElem?_eq_none h'] at h; cases h
  rw [List.getElem?_append_left hl]; exact h

mutual
theorem VRel.mono {P : World β ω ε} {K K' : List Bool} (hK : Ext K K') : ∀ {v v'}, VRel P K v v' → VRel P K' v v'
  | _, _, .base b => .base b
  | _, _, .ext k => .ext k
  | _, _, .tup h => .tup (h.mono hK)
  | _, _, .lst h => .lst (h.mono hK)
  | _, _, .clo h1 h2 h3 h4 h5 h6 h7 h8 h9 => .clo (h1.mono hK) h2 h3 h4 h5 h6
      (fun x e k hx => ⟨(h7 x e k hx).1, let ⟨a, ha⟩ := (h7 x e k hx).2; ⟨a, ha.1, ha.2.1, hK _ _ ha.2.2⟩⟩) h8
      (fun x v w hx hv hw => (h9 x v w hx hv hw).mono hK)
theorem VRels.mono {P : World β ω ε} {K K' : List Bool} (hK : Ext K K') : ∀ {v v'}, VRels P K v v' → VRels P K' v v'
  | _, _, .nil => .nil
  | _, _, .cons h hs => .cons (h.mono hK) (hs.mono hK)
end

/-- Related environments. -/
structure EnvRel (P : World β ω ε) (K : List Bool) (Γ : Sc) (ρ : Name → Option (SRef β)) (ρ' : Name → Option (PVal β)) :
    Prop where
  vars : ∀ x e k, Γ x = some (e, k) → Usable P x ∧
    ∃ a, ρ (.user x) = some (.var a) ∧ ρ' (.gen e) = some (.env a) ∧ K[a]? = some k
  pres : ∀ x, Γ x = none → (ρ (.user x) = none ∧ ρ' (.user x) = none) ∨
    ∃ v w, ρ (.user x) = some (.val v) ∧ ρ' (.user x) = some w
  vals : ∀ x v w, Γ x = none → ρ (.user x) = some (.val v) → ρ' (.user x) = some w → VRel P K v w

theorem EnvRel.mono {P : World β ω ε} {K K' : List Bool} {Γ : Sc} {ρ : Name → Option (SRef β)} {ρ' : Name → Option (PVal β)}
    (hK : Ext K K') (h : EnvRel P K Γ ρ ρ') : EnvRel P K' Γ ρ ρ' :=
  ⟨fun x e k hx => ⟨(h.vars x e k hx).1, let ⟨a, ha⟩ := (h.vars x e k hx).2; ⟨a, ha.1, ha.2.1, hK _ _ ha.2.2⟩⟩, h.pres,
    fun x v w hx hv hw => (h.vals x v w hx hv hw).mono hK⟩

/-- Related contents of a variable. -/
inductive ORel (P : World β ω ε) (K : List Bool) : Option (SVal β) → Option (PVal β) → Prop
  | none : ORel P K .none .none
  | some {v v'} : VRel P K v v' → ORel P K (.some v) (.some v')

theorem ORel.mono {P : World β ω ε} {K K' : List Bool} (hK : Ext K K') {v : Option (SVal β)} {v' : Option (PVal β)} :
    ORel P K v v' → ORel P K' v v'
  | .none => .none
  | .some h => .some (h.mono hK)

/-- Related states.  `O` are variables of `letrec`s that have no value yet. -/
structure SRel (P : World β ω ε) (K : List Bool) (O : Nat → String → Prop) (s : SSt β ω) (s' : PSt β ω) : Prop where
  len : s.frames.length = K.length
  len' : s'.heap.length = K.length
  world : s.world = s'.world
  rel : ∀ (a : Nat) (k : Bool), K[a]? = some k → ∃ f e, s.frames[a]? = some f ∧ s'.heap[a]? = some e ∧ f.isDo = k ∧
    (k = true → e.finalized = false) ∧ ∀ x, ORel P K (f.vars x) (e.vars x)
  pending : ∀ a x, O a x → ∃ f e, s.frames[a]? = some f ∧ s'.heap[a]? = some e ∧ f.isDo = false ∧ f.vars x = none ∧
    e.finalized = false

theorem SRel.weaken {P : World β ω ε} {K : List Bool} {O O' : Nat → String → Prop} {s : SSt β ω} {s' : PSt β ω}
    (h : SRel P K O s s') (ho : ∀ a x, O' a x → O a x) : SRel P K O' s s' :=
  ⟨h.len, h.len', h.world, h.rel, fun a x hx => h.pending a x (ho a x hx)⟩

theorem SRel.lt {P : World β ω ε} {K : List Bool} {O : Nat → String → Prop} {s : SSt β ω} {s' : PSt β ω}
    (h : SRel P K O s s') {a : Nat} {x : String} (ho : O a x) : a < K.length := by
  obtain ⟨f, e, hf, _⟩ := h.pending a x ho
  rw [← h.len]
  rcases Nat.lt_or_ge a s.frames.length with h' | h'
  · exact h'
  · rw [List.getElem?_eq_none h'] at hf; cases hf

/-- Related outcomes. -/
def ResRel {α α' : Type} (P : World β ω ε) (O : Nat → String → Prop) (Q : List Bool → α → α' → Prop) (K : List Bool) :
    Option (Except (Err ε) α × SSt β ω) → Option (Except (Err ε) α' × PSt β ω) → Prop
  | none, none => True
  | some (.error x, s), some (.error x', s') => x = x' ∧ ∃ K', Ext K K' ∧ SRel P K' O s s'
  | some (.ok v, s), some (.ok v', s') => ∃ K', Ext K K' ∧ SRel P K' O s s' ∧ Q K' v v'
  | _, _ => False

section
variable {P : World β ω ε} {O : Nat → String → Prop} {α α' γ γ' : Type} {Q : List Bool → α → α' → Prop}
  {Q' : List Bool → γ → γ' → Prop} {K : List Bool}

theorem ResRel.ret {v : α} {v' : α'} {s : SSt β ω} {s' : PSt β ω} (hs : SRel P K O s s') (h : Q K v v') :
    ResRel P O Q K (ret v s) (ret v' s') := ⟨K, Ext.refl K, hs, h⟩

theorem ResRel.raise {x : Err ε} {s : SSt β ω} {s' : PSt β ω} (hs : SRel P K O s s') :
    ResRel P O Q K (raise x s) (raise x s') := ⟨rfl, K, Ext.refl K, hs⟩

theorem ResRel.mono {K' : List Bool} (hK : Ext K K') {r : Option (Except (Err ε) α × SSt β ω)}
    {r' : Option (Except (Err ε) α' × PSt β ω)} (h : ResRel P O Q K' r r') : ResRel P O Q K r r' := by
  rcases r with _ | ⟨_ | _, s⟩ <;> rcases r' with _ | ⟨_ | _, s'⟩ <;> simp only [ResRel] at h ⊢
  · obtain ⟨h1, K2, h2, h3⟩ := h; exact ⟨h1, K2, hK.trans h2, h3⟩
  · obtain ⟨K2, h2, h3⟩ := h; exact ⟨K2, hK.trans h2, h3⟩

theorem ResRel.bind {m : M (SSt β ω) ε α} {m' : M (PSt β ω) ε α'} {f : α → M (SSt β ω) ε γ} {f' : α' → M (PSt β ω) ε γ'}
    {s : SSt β ω} {s' : PSt β ω} (h : ResRel P O Q K (m s) (m' s'))
    (hf : ∀ K' v v' s1 s1', Ext K K' → SRel P K' O s1 s1' → Q K' v v' → ResRel P O Q' K' (f v s1) (f' v' s1')) :
    ResRel P O Q' K (PyExpr.bind m f s) (PyExpr.bind m' f' s') := by
  unfold PyExpr.bind
  rcases hm : m s with _ | ⟨_ | v, s1⟩ <;> rcases hm' : m' s' with _ | ⟨_ | v', s1'⟩ <;> rw [hm, hm'] at h <;>
    simp only [ResRel] at h ⊢
  · exact h
  · obtain ⟨K2, h2, h3, h4⟩ := h
    exact (hf K2 v v' s1 s1' h2 h3 h4).mono h2

theorem ResRel.weaken {O' : Nat → String → Prop} (ho : ∀ a x, O' a x → O a x) {r : Option (Except (Err ε) α × SSt β ω)}
    {r' : Option (Except (Err ε) α' × PSt β ω)} (h : ResRel P O Q K r r') : ResRel P O' Q K r r' := by
  rcases r with _ | ⟨_ | _, s⟩ <;> rcases r' with _ | ⟨_ | _, s'⟩ <;> simp only [ResRel] at h ⊢
  · obtain ⟨h1, K2, h2, h3⟩ := h; exact ⟨h1, K2, h2, h3.weaken ho⟩
  · obtain ⟨K2, h2, h3, h4⟩ := h; exact ⟨K2, h2, h3.weaken ho, h4⟩
end

/-! ## The monad -/

section
variable {σ α γ δ : Type}
theorem bind_ret_left (a : α) (f : α → M σ ε γ) : PyExpr.bind (ret a) f = f a := rfl
theorem bind_raise (x : Err ε) (f : α → M σ ε γ) : PyExpr.bind (raise x) f = raise x := rfl
theorem bind_assoc (m : M σ ε α) (f : α → M σ ε γ) (g : γ → M σ ε δ) :
    PyExpr.bind (PyExpr.bind m f) g = PyExpr.bind m fun a => PyExpr.bind (f a) g := by
  funext s; unfold PyExpr.bind; rcases m s with _ | ⟨_ | _, _⟩ <;> rfl
theorem bind_ret_right (m : M σ ε α) : PyExpr.bind m (fun a => ret a) = m := by
  funext s; unfold PyExpr.bind; rcases m s with _ | ⟨_ | _, _⟩ <;> rfl
end

/-! ## Objects -/

theorem bases_rel {P : World β ω ε} {K : List Bool} : ∀ {vs : List (SVal β)} {vs' : List (PVal β)}, VRels P K vs vs' →
    Spec.LetDo.bases vs = bases vs'
  | _, _, .nil => rfl
  | _, _, .cons (.base b) hs => by simp only [Spec.LetDo.bases, bases]; rw [bases_rel hs]
  | _, _, .cons (.ext _) _ => rfl
  | _, _, .cons (.tup _) _ => rfl
  | _, _, .cons (.lst _) _ => rfl
  | _, _, .cons (.clo ..) _ => rfl

theorem VRels.length {P : World β ω ε} {K : List Bool} : ∀ {vs : List (SVal β)} {vs' : List (PVal β)}, VRels P K vs vs' →
    vs.length = vs'.length
  | _, _, .nil => rfl
  | _, _, .cons _ hs => by simp [hs.length]

theorem VRels.append {P : World β ω ε} {K : List Bool} : ∀ {vs ws : List (SVal β)} {vs' ws' : List (PVal β)}, VRels P K vs vs' →
    VRels P K ws ws' → VRels P K (vs ++ ws) (vs' ++ ws')
  | _, _, _, _, .nil, h => h
  | _, _, _, _, .cons h hs, h' => .cons h (hs.append h')

theorem VRels.drop {P : World β ω ε} {K : List Bool} : ∀ (n : Nat) {vs : List (SVal β)} {vs' : List (PVal β)}, VRels P K vs vs' →
    VRels P K (vs.drop n) (vs'.drop n)
  | 0, _, _, h => h
  | n + 1, _, _, .nil => by simpa using VRels.nil
  | n + 1, _, _, .cons _ hs => hs.drop n

theorem truthy_rel {P : World β ω ε} {K : List Bool} {v : SVal β} {v' : PVal β} (h : VRel P K v v') :
    Spec.LetDo.truthy P v = truthy P v' := by
  cases h with
  | base | ext | clo => rfl
  | tup hs => cases hs <;> rfl
  | lst hs => cases hs <;> rfl

theorem extend_notMem {α : Type} {ρ : Name → Option α} {x : Name} : ∀ {ps : List Name} {vs : List α}, x ∉ ps → extend ρ ps vs x = ρ x
  | [], _, _ => rfl
  | _ :: _, [], _ => rfl
  | p :: ps, v :: vs, h => by
    simp only [List.mem_cons, not_or] at h
    simp only [extend, if_neg h.1]; exact extend_notMem h.2

theorem extend_rel {P : World β ω ε} {K : List Bool} {ρ : Name → Option (SRef β)} {ρ' : Name → Option (PVal β)} {x : Name} :
    ∀ {ps : List Name} {vs : List (SVal β)} {vs' : List (PVal β)}, x ∈ ps → ps.length = vs.length → VRels P K vs vs' →
    ∃ v v', extend ρ ps (vs.map .val) x = some (.val v) ∧ extend ρ' ps vs' x = some v' ∧ VRel P K v v'
  | p :: ps, v :: _, v' :: _, hx, hl, .cons h hs => by
    by_cases he : x = p
    · exact ⟨v, v', by simp [extend, he], by simp [extend, he], h⟩
    · obtain ⟨u, u', h1, h2, h3⟩ := extend_rel (ρ := ρ) (ρ' := ρ') (List.mem_of_ne_of_mem he hx) (by simpa using hl) hs
      exact ⟨u, u', by simp [extend, he, h1], by simp [extend, he, h2], h3⟩
  | _ :: _, [], _, _, hl, _ => by simp at hl
  | [], _, _, hx, _, _ => by simp at hx

theorem params_rel {P : World β ω ε} {K : List Bool} {ds as : List (SVal β)} {ds' as' : List (PVal β)} (n : Nat)
    (hd : VRels P K ds ds') (ha : VRels P K as as') :
    (params n ds as = none ∧ params n ds' as' = none) ∨
    ∃ vs vs', params n ds as = some vs ∧ params n ds' as' = some vs' ∧ VRels P K vs vs' ∧ n = vs.length := by
  unfold params
  rw [← hd.length, ← ha.length]
  split
  · rename_i h
    right
    exact ⟨_, _, rfl, rfl, ha.append (hd.drop _), by simp; omega⟩
  · left; exact ⟨rfl, rfl⟩

/-! ## Variables -/

section
variable {P : World β ω ε} {K : List Bool} {O : Nat → String → Prop} {s : SSt β ω} {s' : PSt β ω}

theorem getAttr_rel {a : Nat} {k : Bool} {x : String} (hs : SRel P K O s s') (ha : K[a]? = some k) (hx : Usable P x) :
    ResRel P O (VRel P) K (Spec.LetDo.read a x s) (getAttr P a x s') := by
  obtain ⟨f, e, hf, he, _, _, hv⟩ := hs.rel a k ha
  have hx' : ¬ (x = "set" ∨ x = "_set" ∨ x = "pop" ∨ P.classAttr x = true) := by
    simp only [Usable, List.mem_cons, not_or] at hx
    simp [hx]
  simp only [Spec.LetDo.read, getAttr, if_neg hx', PyExpr.bind, Spec.LetDo.getFrame, getEnv, hf, he]
  have := hv x
  generalize f.vars x = o at this
  generalize e.vars x = o' at this
  cases this with
  | none => exact ResRel.raise hs
  | some h => exact ResRel.ret hs h

/-- Giving a variable a value (or none), on both sides. -/
theorem put_rel {a : Nat} {k : Bool} {x : String} {v : Option (SVal β)} {v' : Option (PVal β)} {f : Spec.LetDo.Frame β} {e : EnvObj β}
    (hs : SRel P K O s s') (ha : K[a]? = some k)
    (hf : s.frames[a]? = some f) (he : s'.heap[a]? = some e) (hv : ORel P K v v') (ho : ¬ O a x) :
    SRel P K O { s with frames := s.frames.set a { f with vars := fun y => if y = x then v else f.vars y } }
      { s' with heap := s'.heap.set a { e with vars := fun y => if y = x then v' else e.vars y } } := by
  have hla : a < s.frames.length := by
    rcases Nat.lt_or_ge a s.frames.length with h' | h'
    · exact h'
    · rw [List.getElem?_eq_none h'] at hf; cases hf
  have hla' : a < s'.heap.length := by rw [hs.len', ← hs.len]; exact hla
  refine ⟨by simpa using hs.len, by simpa using hs.len', hs.world, ?_, ?_⟩
  · intro b j hb
    obtain ⟨f1, e1, hf1, he1, h1, h2, h3⟩ := hs.rel b j hb
    by_cases hab : a = b
    · subst hab
      rw [hf] at hf1; cases hf1
      rw [he] at he1; cases he1
      refine ⟨{ f with vars := fun y => if y = x then v else f.vars y }, { e with vars := fun y => if y = x then v' else e.vars y },
        by simp [hla], by simp [hla'], h1, h2, ?_⟩
      intro y
      by_cases hy : y = x
      · simp only [hy, if_true]; exact hv
      · simp only [hy, if_false]; exact h3 y
    · exact ⟨f1, e1, by simp [List.getElem?_set, hab, hf1], by simp [List.getElem?_set, hab, he1], h1, h2, h3⟩
  · intro b y hb
    obtain ⟨f1, e1, hf1, he1, h1, h2, h3⟩ := hs.pending b y hb
    by_cases hab : a = b
    · subst hab
      rw [hf] at hf1; cases hf1
      rw [he] at he1; cases he1
      have hy : y ≠ x := fun h => ho (h ▸ hb)
      exact ⟨{ f with vars := fun y => if y = x then v else f.vars y }, { e with vars := fun y => if y = x then v' else e.vars y },
        by simp [hla], by simp [hla'], h1, by simp [hy, h2], h3⟩
    · exact ⟨f1, e1, by simp [List.getElem?_set, hab, hf1], by simp [List.getElem?_set, hab, he1], h1, h2, h3⟩

theorem setAttr_eq {a : Nat} {x : String} {v : PVal β} {e : EnvObj β} (hx : Usable P x) (he : s'.heap[a]? = some e)
    (hfin : e.finalized = false ∨ (e.vars x).isSome = true) : setAttr (ε := ε) a x v s' =
      some (.ok (), { s' with heap := s'.heap.set a { e with vars := fun y => if y = x then some v else e.vars y } }) := by
  simp only [Usable, List.mem_cons, not_or, List.not_mem_nil, not_false_eq_true, and_true] at hx
  have h1 : ¬ (x = "_env" ∨ x = "_finalized") := by simp [hx]
  have h2 : x ∉ reserved := by simp [reserved, hx]
  have h3 : (e.finalized && (e.vars x).isNone) = false := by
    rcases hfin with h | h
    · simp [h]
    · cases hv : e.vars x <;> simp_all
  simp [setAttr, h1, h2, PyExpr.bind, getEnv, he, h3, putEnv]

theorem put_eq {a : Nat} {x : String} {v : Option (SVal β)} {f : Spec.LetDo.Frame β} (hf : s.frames[a]? = some f) :
    Spec.LetDo.put (ε := ε) a x v s =
      some (.ok (), { s with frames := s.frames.set a { f with vars := fun y => if y = x then v else f.vars y } }) := by
  simp [Spec.LetDo.put, PyExpr.bind, Spec.LetDo.getFrame, hf]

/-- An assignment in the program. -/
theorem write_rel {a : Nat} {k : Bool} {x : String} {v : SVal β} {v' : PVal β} (hs : SRel P K O s s') (ha : K[a]? = some k)
    (hx : Usable P x) (hv : VRel P K v v') :
    ResRel P O (VRel P) K (PyExpr.bind (Spec.LetDo.write a x v) (fun _ => ret v) s) (callMeth a (setter k) [.str x, v'] s') := by
  obtain ⟨f, e, hf, he, hk, hfin, hvars⟩ := hs.rel a k ha
  have hox : k = true ∨ (f.vars x).isSome = true → ¬ O a x := by
    intro h ho
    obtain ⟨f1, e1, hf1, he1, h1, h2, h3⟩ := hs.pending a x ho
    rw [hf] at hf1; cases hf1
    rcases h with h | h
    · rw [hk, h] at h1; cases h1
    · rw [h2] at h; cases h
  cases k with
  | true =>
    simp only [Spec.LetDo.write, callMeth, setter, if_true, PyExpr.bind, Spec.LetDo.getFrame, hf, hk, Bool.true_or, put_eq hf,
      setAttr_eq hx he (.inl (hfin rfl))]
    have hp := put_rel hs ha hf he (.some hv) (hox (.inl rfl))
    rw [hk] at hp
    exact ResRel.ret hp hv
  | false =>
    have := hvars x
    cases hfv : f.vars x with
    | none =>
      rw [hfv] at this
      cases hev : e.vars x with
      | some _ => rw [hev] at this; cases this
      | none =>
        simp only [Spec.LetDo.write, callMeth, setter, Bool.false_eq_true, if_false, PyExpr.bind, Spec.LetDo.getFrame, hf, hk, getEnv, he, hfv, hev]
        exact ⟨rfl, K, Ext.refl K, hs⟩
    | some u =>
      rw [hfv] at this
      cases hev : e.vars x with
      | none => rw [hev] at this; cases this
      | some _ =>
        simp only [Spec.LetDo.write, callMeth, setter, Bool.false_eq_true, if_false, PyExpr.bind, Spec.LetDo.getFrame, hf, hk, getEnv, he, hfv, hev,
          Option.isSome, Option.isNone, Bool.false_or, if_true, put_eq hf, setAttr_eq hx he (.inr (by rw [hev]; rfl))]
        have hp := put_rel hs ha hf he (.some hv) (hox (.inr (by rw [hfv]; rfl)))
        rw [hk] at hp
        exact ResRel.ret hp hv

/-- `e._set(x, v)` -/
theorem uset_rel {a : Nat} {x : String} {v : SVal β} {v' : PVal β} (hs : SRel P K O s s') (ha : K[a]? = some true)
    (hx : Usable P x) (hv : VRel P K v v') :
    ResRel P O (VRel P) K (PyExpr.bind (Spec.LetDo.put a x (some v)) (fun _ => ret v) s) (callMeth a "_set" [.str x, v'] s') := by
  obtain ⟨f, e, hf, he, hk, hfin, hvars⟩ := hs.rel a true ha
  have hox : ¬ O a x := by
    intro ho
    obtain ⟨f1, e1, hf1, he1, h1, h2, h3⟩ := hs.pending a x ho
    rw [hf] at hf1; cases hf1
    rw [hk] at h1; cases h1
  simp only [callMeth, PyExpr.bind, put_eq hf, setAttr_eq hx he (.inl (hfin rfl))]
  exact ResRel.ret (put_rel hs ha hf he (.some hv) hox) hv

/-- A new frame. -/
theorem new_rel {isDo : Bool} {xs : List String} {vs : List (SVal β)} {e : EnvObj β} (hs : SRel P K O s s')
    (hfin : isDo = true → e.finalized = false)
    (hv : ∀ x, ORel P (K ++ [isDo]) ((xs.zip vs).lookup x) (e.vars x)) :
    SRel P (K ++ [isDo]) O { s with frames := s.frames ++ [⟨isDo, fun x => (xs.zip vs).lookup x⟩] }
      { s' with heap := s'.heap ++ [e] } := by
  refine ⟨by simp [hs.len], by simp [hs.len'], hs.world, ?_, ?_⟩
  · intro a k hk
    rcases Nat.lt_or_ge a K.length with h | h
    · rw [List.getElem?_append_left h] at hk
      obtain ⟨f1, e1, hf1, he1, h1, h2, h3⟩ := hs.rel a k hk
      refine ⟨f1, e1, ?_, ?_, h1, h2, fun x => (h3 x).mono (Ext.append K isDo)⟩
      · simpa [List.getElem?_append_left (hs.len ▸ h)] using hf1
      · simpa [List.getElem?_append_left (hs.len' ▸ h)] using he1
    · have ha : a = K.length := by
        rcases Nat.lt_or_ge a (K ++ [isDo]).length with h' | h'
        · simp at h'; omega
        · rw [List.getElem?_eq_none h'] at hk; cases hk
      subst ha
      simp at hk
      refine ⟨⟨isDo, fun x => (xs.zip vs).lookup x⟩, e, by simp [← hs.len], by simp [← hs.len'], hk, fun h => hfin (hk.trans h), hv⟩
  · intro a x ho
    have hl := hs.lt ho
    obtain ⟨f1, e1, hf1, he1, h1, h2, h3⟩ := hs.pending a x ho
    refine ⟨f1, e1, ?_, ?_, h1, h2, h3⟩
    · simpa [List.getElem?_append_left (hs.len ▸ hl)] using hf1
    · simpa [List.getElem?_append_left (hs.len' ▸ hl)] using he1

end

end Unpy.LetDo
