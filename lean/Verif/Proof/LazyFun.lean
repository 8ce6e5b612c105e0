import Verif.Model.LazyFun
import Verif.Spec.LazyFun
/-!
# Lemmas for C158
-/
namespace Unpy.LazyFun.Lemmas
open Unpy.LazyFun Unpy.LazyFun.Spec
variable {β ω ε : Type}

theorem find_mem {x : String} {bs : Bs β ω} (h : x ∈ names bs) : ∃ e, find x bs = some e := by
  match bs with
  | .nil => simp [names] at h
  | .cons y e bs =>
    simp only [find]
    by_cases hx : x = y
    · exact ⟨e, if_pos hx⟩
    · simp only [names, List.mem_cons, hx, false_or] at h
      obtain ⟨e', h'⟩ := find_mem h
      exact ⟨e', by rw [if_neg hx]; exact h'⟩

theorem mem_find {x : String} {bs : Bs β ω} {e : Ex β ω} (h : find x bs = some e) : x ∈ names bs := by
  match bs with
  | .nil => simp [find] at h
  | .cons y e' bs =>
    simp only [find] at h
    by_cases hx : x = y
    · simp [names, hx]
    · rw [if_neg hx] at h
      simp [names, mem_find h]

/-! ## the specification is monotonic -/

theorem evalS_mono (W : World β ω ε) {c1 c2 : List (Frame β ω) → Ex β ω → Option (Except ε (Spec.Val β ω))} (hc : ∀ Γ e r, c1 Γ e = some r → c2 Γ e = some r) :
    (e : Ex β ω) → (Γ : List (Frame β ω)) → (r : Except ε (Spec.Val β ω)) → evalS W c1 e Γ = some r → evalS W c2 e Γ = some r
  | .cst _, _, _, h => h
  | .lam _ _, _, _, h => h
  | .ref i x, Γ, r, h => by
    simp only [evalS] at h ⊢
    cases h1 : Γ[i]? with
    | none => simpa [h1] using h
    | some fr =>
      simp only [h1] at h ⊢
      cases h2 : bound x fr (Γ.drop (i + 1)) with
      | none => simpa [h2] using h
      | some q => simp only [h2] at h ⊢; exact hc _ _ _ h
  | .op o a b, Γ, r, h => by
    simp only [evalS] at h ⊢
    cases h1 : evalS W c1 a Γ with
    | none => simp [h1] at h
    | some ra =>
      rw [evalS_mono W hc a Γ ra h1]
      rw [h1] at h
      cases ra with
      | error e => exact h
      | ok x =>
        simp only at h ⊢
        cases h2 : evalS W c1 b Γ with
        | none => simp [h2] at h
        | some rb =>
          rw [evalS_mono W hc b Γ rb h2]
          rw [h2] at h
          exact h
  | .ife c a b, Γ, r, h => by
    simp only [evalS] at h ⊢
    cases h1 : evalS W c1 c Γ with
    | none => simp [h1] at h
    | some rc =>
      rw [evalS_mono W hc c Γ rc h1]
      rw [h1] at h
      cases rc with
      | error e => exact h
      | ok x =>
        simp only at h ⊢
        by_cases hx : Spec.truthy W x = true
        · rw [if_pos hx] at h ⊢; exact evalS_mono W hc a Γ r h
        · rw [if_neg hx] at h ⊢; exact evalS_mono W hc b Γ r h
  | .letter rr bs body, Γ, r, h => evalS_mono W hc body _ r h
  | .app f as, Γ, r, h => by
    simp only [evalS] at h ⊢
    cases h1 : evalS W c1 f Γ with
    | none => simp [h1] at h
    | some rf =>
      rw [evalS_mono W hc f Γ rf h1]
      rw [h1] at h
      cases rf with
      | error e => exact h
      | ok v =>
        cases v with
        | con b => exact h
        | fn Γ' xs body =>
          simp only at h ⊢
          by_cases hl : xs.length = count as
          · rw [if_pos hl] at h ⊢; exact hc _ _ _ h
          · rw [if_neg hl] at h ⊢; exact h

theorem evalN_succ (W : World β ω ε) : ∀ n Γ e r, evalN W n Γ e = some r → evalN W (n + 1) Γ e = some r
  | 0, _, _, _, h => nomatch h
  | n + 1, Γ, e, r, h => evalS_mono W (evalN_succ W n) e Γ r h

theorem evalN_mono (W : World β ω ε) {n m : Nat} (hnm : n ≤ m) {Γ : List (Frame β ω)} {e : Ex β ω} {r : Except ε (Spec.Val β ω)} (h : evalN W n Γ e = some r) : evalN W m Γ e = some r := by
  induction hnm with
  | refl => exact h
  | step _ ih => exact evalN_succ W _ _ _ _ ih

theorem evalN_det (W : World β ω ε) {n m : Nat} {Γ : List (Frame β ω)} {e : Ex β ω} {r r' : Except ε (Spec.Val β ω)} (h : evalN W n Γ e = some r) (h' : evalN W m Γ e = some r') : r = r' := by
  have a := evalN_mono W (Nat.le_max_left n m) h
  have b := evalN_mono W (Nat.le_max_right n m) h'
  rw [a] at b; exact Option.some.inj b

/-! ## the invariant -/

/-- the names of a scope -/
def fnames : Frame β ω → List String
  | .lets _ bs => names bs
  | .params xs _ _ => xs

/-- what the promises stand for -/
abbrev Phi (β ω : Type) := List (List (Frame β ω) × Ex β ω)
/-- what the environments stand for -/
abbrev Psi (β ω : Type) := List (List (Frame β ω))

def EnvRel (Ψ : Psi β ω) (ρ : List Nat) (Γ : List (Frame β ω)) : Prop :=
  ρ.length = Γ.length ∧ ∀ i k, ρ[i]? = some k → Ψ[k]? = some (Γ.drop i)

def ValRel (Ψ : Psi β ω) : Spec.Val β ω → Obj β ω → Prop
  | .con b, .con b' => b = b'
  | .fn Γ xs body, .clo ρ xs' c => xs = xs' ∧ c = tr body ∧ EnvRel Ψ ρ Γ ∧ Fine body (xs :: Γ.map fnames)
  | _, _ => False

def ResRel (Ψ : Psi β ω) : Except ε (Spec.Val β ω) → Except ε (Obj β ω) → Prop
  | .ok v, .ok o => ValRel Ψ v o
  | .error e, .error e' => e = e'
  | _, _ => False

def Rel (W : World β ω ε) (Φ : Phi β ω) (o : Obj β ω) (Γ : List (Frame β ω)) (e : Ex β ω) : Prop :=
  ∃ p Γ' e', o = .promise p ∧ Φ[p]? = some (Γ', e') ∧ (∀ n r, evalN W n Γ e = some r → evalN W n Γ' e' = some r) ∧
    (∀ n r, evalN W n Γ' e' = some r → ∃ m, evalN W m Γ e = some r)

def PrOk (W : World β ω ε) (Ψ : Psi β ω) (Γ : List (Frame β ω)) (e : Ex β ω) : Pr β ω ε → Prop
  | .todo ρ c => c = tr e ∧ EnvRel Ψ ρ Γ ∧ Fine e (Γ.map fnames)
  | .done o => ∃ v m, ValRel Ψ v o ∧ evalN W m Γ e = some (.ok v)
  | .failed err => ∃ m, evalN W m Γ e = some (.error err)

def PrsInv (W : World β ω ε) (Φ : Phi β ω) (Ψ : Psi β ω) (prs : List (Pr β ω ε)) : Prop :=
  Φ.length = prs.length ∧ ∀ (p : Nat) (pr : Pr β ω ε), prs[p]? = some pr → ∃ Γ e, Φ[p]? = some (Γ, e) ∧ PrOk W Ψ Γ e pr

def EnvOk (W : World β ω ε) (Φ : Phi β ω) (fr : Frame β ω) (Γ : List (Frame β ω)) (env : List (String × Obj β ω)) : Prop :=
  ∀ x ∈ fnames fr, ∃ Γ' e o, bound x fr Γ = some (Γ', e) ∧ env.lookup x = some o ∧ Rel W Φ o Γ' e

def EnvsInv (W : World β ω ε) (Φ : Phi β ω) (Ψ : Psi β ω) (envs : List (List (String × Obj β ω))) : Prop :=
  Ψ.length = envs.length ∧ ∀ (k : Nat) (env : List (String × Obj β ω)), envs[k]? = some env → ∃ fr Γ, Ψ[k]? = some (fr :: Γ) ∧ EnvOk W Φ fr Γ env

def Inv (W : World β ω ε) (Φ : Phi β ω) (Ψ : Psi β ω) (s : St β ω ε) : Prop := PrsInv W Φ Ψ s.prs ∧ EnvsInv W Φ Ψ s.envs

theorem prefix_get {α : Type} {l l' : List α} (h : l <+: l') {i : Nat} {a : α} (hi : l[i]? = some a) : l'[i]? = some a := by
  obtain ⟨t, rfl⟩ := h
  have := (List.getElem?_eq_some_iff.mp hi).1
  rw [List.getElem?_append_left this]; exact hi

theorem Rel.mono {W : World β ω ε} {Φ Φ' : Phi β ω} (h : Φ <+: Φ') {o : Obj β ω} {Γ : List (Frame β ω)} {e : Ex β ω} (hr : Rel W Φ o Γ e) : Rel W Φ' o Γ e := by
  obtain ⟨p, Γ', e', ho, hp, h1, h2⟩ := hr
  exact ⟨p, Γ', e', ho, prefix_get h hp, h1, h2⟩

theorem EnvRel.mono {Ψ Ψ' : Psi β ω} (h : Ψ <+: Ψ') {ρ : List Nat} {Γ : List (Frame β ω)} (hr : EnvRel Ψ ρ Γ) : EnvRel Ψ' ρ Γ :=
  ⟨hr.1, fun i k hk => prefix_get h (hr.2 i k hk)⟩

theorem ValRel.mono {Ψ Ψ' : Psi β ω} (h : Ψ <+: Ψ') {v : Spec.Val β ω} {o : Obj β ω} (hr : ValRel Ψ v o) : ValRel Ψ' v o := by
  cases v with
  | con b => cases o <;> exact hr
  | fn Γ xs body =>
    cases o with
    | clo ρ xs' c => exact ⟨hr.1, hr.2.1, hr.2.2.1.mono h, hr.2.2.2⟩
    | con b => exact hr
    | promise p => exact hr

theorem PrOk.mono {W : World β ω ε} {Ψ Ψ' : Psi β ω} (h : Ψ <+: Ψ') {Γ : List (Frame β ω)} {e : Ex β ω} {pr : Pr β ω ε} (hr : PrOk W Ψ Γ e pr) : PrOk W Ψ' Γ e pr := by
  cases pr with
  | todo ρ c => exact ⟨hr.1, hr.2.1.mono h, hr.2.2⟩
  | done o =>
    obtain ⟨v, m, h1, h2⟩ := hr
    exact ⟨v, m, h1.mono h, h2⟩
  | failed err => exact hr

theorem EnvOk.mono {W : World β ω ε} {Φ Φ' : Phi β ω} (h : Φ <+: Φ') {fr : Frame β ω} {Γ : List (Frame β ω)} {env : List (String × Obj β ω)} (hr : EnvOk W Φ fr Γ env) :
    EnvOk W Φ' fr Γ env := by
  intro x hx
  obtain ⟨Γ', e, o, h1, h2, h3⟩ := hr x hx
  exact ⟨Γ', e, o, h1, h2, h3.mono h⟩

theorem EnvRel.get {Ψ : Psi β ω} {ρ : List Nat} {Γ : List (Frame β ω)} (h : EnvRel Ψ ρ Γ) {i : Nat} {fr : Frame β ω} (hi : Γ[i]? = some fr) :
    ∃ k, ρ[i]? = some k ∧ Ψ[k]? = some (fr :: Γ.drop (i + 1)) := by
  obtain ⟨hl, hv⟩ := List.getElem?_eq_some_iff.mp hi
  have hl' : i < ρ.length := by rw [h.1]; exact hl
  refine ⟨ρ[i], List.getElem?_eq_getElem hl', ?_⟩
  rw [h.2 i _ (List.getElem?_eq_getElem hl'), List.drop_eq_getElem_cons hl, hv]

theorem EnvRel.push {Ψ : Psi β ω} {ρ : List Nat} {Γ : List (Frame β ω)} (h : EnvRel Ψ ρ Γ) (fr : Frame β ω) : EnvRel (Ψ ++ [fr :: Γ]) (Ψ.length :: ρ) (fr :: Γ) := by
  refine ⟨by simp [h.1], fun i k hk => ?_⟩
  cases i with
  | zero => simp at hk; subst hk; simp
  | succ i => exact prefix_get (List.prefix_append _ _) (h.2 i k (by simpa using hk))

/-- looking up a name in an environment that has got all of its bindings -/
theorem lookup_ok {W : World β ω ε} {Φ : Phi β ω} {Ψ : Psi β ω} {s : St β ω ε} (hi : EnvsInv W Φ Ψ s.envs) {ρ : List Nat} {Γ : List (Frame β ω)} (hr : EnvRel Ψ ρ Γ)
    {i : Nat} {x : String} (hf : Fine (β := β) (ω := ω) (.ref i x) (Γ.map fnames)) :
    ∃ fr Γ' e o, Γ[i]? = some fr ∧ bound x fr (Γ.drop (i + 1)) = some (Γ', e) ∧ getattr ρ i x s = some o ∧ Rel W Φ o Γ' e := by
  obtain ⟨xs, hxs, hx⟩ := hf
  rw [List.getElem?_map] at hxs
  cases hfr : Γ[i]? with
  | none => simp [hfr] at hxs
  | some fr =>
    simp [hfr] at hxs
    subst hxs
    obtain ⟨k, hk, hΨ⟩ := hr.get hfr
    have hlt := (List.getElem?_eq_some_iff.mp hΨ).1
    rw [hi.1] at hlt
    have he := List.getElem?_eq_getElem hlt
    obtain ⟨fr', Γ', h1, h2⟩ := hi.2 k _ he
    rw [hΨ] at h1
    obtain ⟨rfl, rfl⟩ := List.cons.inj (Option.some.inj h1)
    obtain ⟨Γ'', e, o, h3, h4, h5⟩ := h2 x hx
    exact ⟨fr, Γ'', e, o, rfl, h3, by simp only [getattr, hk, he, h4], h5⟩

/-- a name bound to a name: what it stands for is what the other one stands for -/
theorem Rel.alias {W : World β ω ε} {Φ : Phi β ω} {o : Obj β ω} {Γ Γ1 : List (Frame β ω)} {i : Nat} {x : String} {fr : Frame β ω} {e : Ex β ω} (hfr : Γ[i]? = some fr)
    (hf : bound x fr (Γ.drop (i + 1)) = some (Γ1, e)) (hR : Rel W Φ o Γ1 e) : Rel W Φ o Γ (.ref i x) := by
  obtain ⟨p, Γ', e', ho, hp, h1, h2⟩ := hR
  have key : ∀ n, evalN W (n + 1) Γ (.ref i x) = evalN W n Γ1 e := by
    intro n
    show evalS W (evalN W n) (.ref i x) Γ = _
    simp only [evalS, hfr, hf]
  refine ⟨p, Γ', e', ho, hp, fun n r h => ?_, fun n r h => ?_⟩
  · cases n with
    | zero => nomatch h
    | succ n => rw [key] at h; exact evalN_succ W _ _ _ _ (h1 n r h)
  · obtain ⟨m, hm⟩ := h2 n r h
    exact ⟨m + 1, by rw [key]; exact hm⟩

/-! ## bindings and arguments -/

/-- the binding of one name, as code, gives an object for it and runs nothing -/
def argCode (e : Ex β ω) : Code β ω := match e with | .ref i y => .ref i y | _ => .lazy (tr e)

theorem arg_lazy (W : World β ω ε) (call : Run β ω ε) (e : Ex β ω) (hne : ∀ i y, e ≠ .ref i y) (ρ : List Nat) (s : St β ω ε) :
    evalC W call (argCode e) ρ s = some (.ok (.promise s.prs.length), { s with prs := s.prs ++ [.todo ρ (tr e)] }) := by
  cases e with
  | ref i y => exact absurd rfl (hne i y)
  | _ => simp only [argCode, evalC]

theorem PrsInv.push {W : World β ω ε} {Φ : Phi β ω} {Ψ : Psi β ω} {prs : List (Pr β ω ε)} (h : PrsInv W Φ Ψ prs) {Γ : List (Frame β ω)} {e : Ex β ω} {pr : Pr β ω ε}
    (hp : PrOk W Ψ Γ e pr) : PrsInv W (Φ ++ [(Γ, e)]) Ψ (prs ++ [pr]) := by
  refine ⟨by simp [h.1], fun p pr' hpr => ?_⟩
  rw [List.getElem?_append] at hpr
  by_cases hlt : p < prs.length
  · rw [if_pos hlt] at hpr
    obtain ⟨Γ', e', h1, h2⟩ := h.2 p pr' hpr
    exact ⟨Γ', e', prefix_get (List.prefix_append _ _) h1, h2⟩
  · rw [if_neg hlt] at hpr
    have : p - prs.length = 0 := by
      have := (List.getElem?_eq_some_iff.mp hpr).1
      simp at this; omega
    rw [this] at hpr
    simp at hpr; subst hpr
    refine ⟨Γ, e, ?_, hp⟩
    rw [List.getElem?_append_right (by rw [h.1]; omega)]
    have : p - Φ.length = 0 := by rw [h.1]; omega
    simp [this]

theorem PrsInv.mono {W : World β ω ε} {Φ : Phi β ω} {Ψ Ψ' : Psi β ω} {prs : List (Pr β ω ε)} (h : PrsInv W Φ Ψ prs) (hΨ : Ψ <+: Ψ') : PrsInv W Φ Ψ' prs :=
  ⟨h.1, fun p pr hp => by
    obtain ⟨Γ', e', h1, h2⟩ := h.2 p pr hp
    exact ⟨Γ', e', h1, h2.mono hΨ⟩⟩

theorem EnvsInv.mono {W : World β ω ε} {Φ Φ' : Phi β ω} {Ψ : Psi β ω} {envs : List (List (String × Obj β ω))} (h : EnvsInv W Φ Ψ envs) (hΦ : Φ <+: Φ') : EnvsInv W Φ' Ψ envs :=
  ⟨h.1, fun k env hk => by
    obtain ⟨fr', Γ', h1, h2⟩ := h.2 k env hk
    exact ⟨fr', Γ', h1, h2.mono hΦ⟩⟩

/-- a new environment that has all of its bindings -/
theorem EnvsInv.push {W : World β ω ε} {Φ : Phi β ω} {Ψ : Psi β ω} {envs : List (List (String × Obj β ω))} (h : EnvsInv W Φ Ψ envs) {fr : Frame β ω} {Γ : List (Frame β ω)}
    {env : List (String × Obj β ω)} (he : EnvOk W Φ fr Γ env) : EnvsInv W Φ (Ψ ++ [fr :: Γ]) (envs ++ [env]) := by
  refine ⟨by simp [h.1], fun k env' hk => ?_⟩
  rw [List.getElem?_append] at hk
  by_cases hlt : k < envs.length
  · rw [if_pos hlt] at hk
    obtain ⟨fr', Γ', h1, h2⟩ := h.2 k env' hk
    exact ⟨fr', Γ', prefix_get (List.prefix_append _ _) h1, h2⟩
  · rw [if_neg hlt] at hk
    have h0 : k - envs.length = 0 := by
      have := (List.getElem?_eq_some_iff.mp hk).1
      simp at this; omega
    rw [h0] at hk
    simp at hk; subst hk
    refine ⟨fr, Γ, ?_, he⟩
    rw [List.getElem?_append_right (by rw [h.1]; omega)]
    have : k - Ψ.length = 0 := by rw [h.1]; omega
    simp [this]

/-- one argument, where all environments have their bindings -/
theorem arg_ok (W : World β ω ε) (call : Run β ω ε) {Φ : Phi β ω} {Ψ : Psi β ω} {s : St β ω ε} (hi : Inv W Φ Ψ s) {ρ : List Nat} {Γ : List (Frame β ω)} (hρ : EnvRel Ψ ρ Γ) (e : Ex β ω)
    (hf : Fine e (Γ.map fnames)) :
    ∃ o Φ1 prs, evalC W call (argCode e) ρ s = some (.ok o, { s with prs := prs }) ∧ s.prs <+: prs ∧ Φ <+: Φ1 ∧ PrsInv W Φ1 Ψ prs ∧ Rel W Φ1 o Γ e := by
  by_cases hr : ∃ i y, e = .ref i y
  · obtain ⟨i, y, rfl⟩ := hr
    obtain ⟨fr, Γ', e, o, h1, h2, h3, h4⟩ := lookup_ok hi.2 hρ hf
    exact ⟨o, Φ, s.prs, by simp only [argCode, evalC, h3], List.prefix_refl _, List.prefix_refl _, hi.1, Rel.alias h1 h2 h4⟩
  · have hne : ∀ i y, e ≠ .ref i y := fun i y h => hr ⟨i, y, h⟩
    refine ⟨.promise s.prs.length, Φ ++ [(Γ, e)], _, arg_lazy W call e hne _ s, List.prefix_append _ _, List.prefix_append _ _, hi.1.push ⟨rfl, hρ, hf⟩, ?_⟩
    refine ⟨_, Γ, e, rfl, ?_, fun n r h => h, fun n r h => ⟨n, h⟩⟩
    rw [← hi.1.1]; simp

/-- the objects for the arguments -/
def ArgsRel (W : World β ω ε) (Φ : Phi β ω) (Γ : List (Frame β ω)) : List (Obj β ω) → As β ω → Prop
  | [], .nil => True
  | o :: os, .cons e as => Rel W Φ o Γ e ∧ ArgsRel W Φ Γ os as
  | _, _ => False

theorem ArgsRel.count {W : World β ω ε} {Φ : Phi β ω} {Γ : List (Frame β ω)} : ∀ {os : List (Obj β ω)} {as : As β ω}, ArgsRel W Φ Γ os as → os.length = Spec.count as
  | [], .nil, _ => rfl
  | o :: os, .cons e as, h => by simp only [Spec.count, List.length_cons, ArgsRel.count h.2]

theorem args_ok (W : World β ω ε) (call : Run β ω ε) {Ψ : Psi β ω} {ρ : List Nat} {Γ : List (Frame β ω)} (hρ : EnvRel Ψ ρ Γ) : (as : As β ω) → ∀ (Φ : Phi β ω) (s : St β ω ε), Inv W Φ Ψ s →
    FineAs as (Γ.map fnames) →
    ∃ os Φ1 prs, evalAs W call (trAs as) ρ s = some (.ok os, { s with prs := prs }) ∧ s.prs <+: prs ∧ Φ <+: Φ1 ∧ PrsInv W Φ1 Ψ prs ∧ ArgsRel W Φ1 Γ os as
  | .nil => fun Φ s hi _ => ⟨[], Φ, s.prs, by simp only [trAs, evalAs], List.prefix_refl _, List.prefix_refl _, hi.1, trivial⟩
  | .cons e as => fun Φ s hi hf => by
    obtain ⟨o, Φ1, prs, h1, h2, h3, h4, h5⟩ := arg_ok W call hi hρ e hf.1
    obtain ⟨os, Φ2, prs2, g1, g2, g3, g4, g5⟩ := args_ok W call hρ as Φ1 { s with prs := prs } ⟨h4, hi.2.mono h3⟩ hf.2
    refine ⟨o :: os, Φ2, prs2, ?_, h2.trans g2, h3.trans g3, g4, h5.mono g3, g5⟩
    have e0 : trAs (.cons e as) = .cons (argCode e) (trAs as) := by
      simp only [trAs]; rfl
    rw [e0]
    simp only [evalAs, h1, g1]

/-- the environment of a call -/
theorem params_ok {W : World β ω ε} {Φ : Phi β ω} {Γa : List (Frame β ω)} : ∀ (xs : List String) (os : List (Obj β ω)) (as : As β ω), ArgsRel W Φ Γa os as → xs.length = count as →
    ∀ x ∈ xs, ∃ e o, argOf x xs as = some e ∧ (xs.zip os).lookup x = some o ∧ Rel W Φ o Γa e
  | [], _, _, _, _ => fun x hx => nomatch hx
  | y :: ys, [], .nil, _, hl => by simp [count] at hl
  | y :: ys, o :: os, .cons e as, h, hl => fun x hx => by
    simp only [argOf, List.zip_cons_cons, List.lookup]
    by_cases hxy : x = y
    · subst hxy
      exact ⟨e, o, by simp, by simp, h.1⟩
    · have hb : (x == y) = false := by simpa using hxy
      simp only [List.mem_cons, hxy, false_or] at hx
      obtain ⟨e', o', h1, h2, h3⟩ := params_ok ys os as h.2 (by simpa [count] using hl) x hx
      exact ⟨e', o', by rw [if_neg hxy]; exact h1, by rw [hb]; exact h2, h3⟩

/-- the state while an environment is filled: the last one has the names `done` -/
structure Filling (W : World β ω ε) (Φ : Phi β ω) (Ψ : Psi β ω) (r : Bool) (bs : Bs β ω) (Γ : List (Frame β ω)) (done : List String) (s : St β ω ε) : Prop where
  prs : PrsInv W Φ (Ψ ++ [.lets r bs :: Γ]) s.prs
  envs : ∃ old cur, s.envs = old ++ [cur] ∧ EnvsInv W Φ Ψ old ∧ (∀ x, x ∉ done → cur.lookup x = none) ∧
    ∀ x, x ∈ done → ∀ e, find x bs = some e → ∃ o, cur.lookup x = some o ∧ Rel W Φ o (if r then .lets r bs :: Γ else Γ) e

theorem lookup_append {α : Type} (l : List (String × α)) (x y : String) (a : α) :
    (l ++ [(y, a)]).lookup x = match l.lookup x with | some b => some b | none => if x = y then some a else none := by
  induction l with
  | nil =>
    by_cases h : x = y
    · simp [List.lookup, h]
    · have : (x == y) = false := by simpa using h
      simp [List.lookup, h, this]
  | cons z l ih =>
    obtain ⟨z, b⟩ := z
    simp only [List.cons_append, List.lookup]
    cases x == z with
    | true => rfl
    | false => exact ih

theorem modify_last {α : Type} (l : List α) (a : α) (f : α → α) : (l ++ [a]).modify l.length f = l ++ [f a] := by
  induction l with
  | nil => rfl
  | cons b l ih => simp [ih]

theorem fill_ok (W : World β ω ε) (call : Run β ω ε) (r : Bool) (bs : Bs β ω) (Γ : List (Frame β ω)) (Ψ : Psi β ω) (ρ : List Nat) (hρ : EnvRel Ψ ρ Γ)
    (rest : Bs β ω) : ∀ (done : List String) (Φ : Phi β ω) (s : St β ω ε), Filling W Φ Ψ r bs Γ done s → FineBs rest r done (if r then names bs :: Γ.map fnames else Γ.map fnames) →
      (∀ x ∈ names rest, x ∉ done) → (names rest).Nodup → (∀ x e, find x rest = some e → find x bs = some e) → (∀ x ∈ names bs, x ∈ done ∨ x ∈ names rest) →
      ∃ s' Φ', fill W call r Ψ.length (trBs rest) ρ s = some (.ok (), s') ∧ Φ <+: Φ' ∧ Inv W Φ' (Ψ ++ [.lets r bs :: Γ]) s' ∧ s'.runs = s.runs ∧ s.prs <+: s'.prs := by
  match rest with
  | .nil =>
    intro done Φ s hF _ _ _ _ hall
    refine ⟨s, Φ, by simp only [trBs, fill], List.prefix_refl _, ⟨hF.prs, ?_⟩, rfl, List.prefix_refl _⟩
    obtain ⟨old, cur, hs, ho, _, hc⟩ := hF.envs
    rw [hs]
    refine ho.push fun x hx => ?_
    obtain ⟨e, he⟩ := find_mem hx
    rcases hall x hx with h | h
    · obtain ⟨o, h1, h2⟩ := hc x h e he
      exact ⟨_, e, o, by simp only [bound, he, Option.map_some], h1, h2⟩
    · simp [names] at h
  | .cons x e rest =>
    intro done Φ s hF hfine hnew hnd hsub hall
    obtain ⟨hfe, hord, hfr⟩ := hfine
    obtain ⟨old, cur, hs, ho, hn, hc⟩ := hF.envs
    have hk : s.envs[Ψ.length]? = some cur := by
      rw [hs, ho.1]; simp
    have hx : x ∉ done := hnew x (by simp [names])
    have hnx : cur.lookup x = none := hn x hx
    have hρ' : EnvRel (Ψ ++ [.lets r bs :: Γ]) (if r then Ψ.length :: ρ else ρ) (if r then .lets r bs :: Γ else Γ) := by
      cases r with
      | false => exact hρ.mono (List.prefix_append _ _)
      | true => exact hρ.push _
    have hfx : find x bs = some e := hsub x e (by simp [find])
    have hfe' : Fine e ((if r then Frame.lets r bs :: Γ else Γ).map fnames) := by
      cases r with
      | false => exact hfe
      | true => exact hfe
    -- what the code of the binding does
    have harg : ∃ o Φ1 prs, evalC W call (argCode e) (if r then Ψ.length :: ρ else ρ) s = some (.ok o, { s with prs := prs }) ∧ s.prs <+: prs ∧ Φ <+: Φ1 ∧
        PrsInv W Φ1 (Ψ ++ [.lets r bs :: Γ]) prs ∧ Rel W Φ1 o (if r then .lets r bs :: Γ else Γ) e := by
      by_cases hr : ∃ i y, e = .ref i y
      · obtain ⟨i, y, rfl⟩ := hr
        have main : ∃ o, getattr (if r then Ψ.length :: ρ else ρ) i y s = some o ∧ Rel W Φ o (if r then .lets r bs :: Γ else Γ) (.ref i y) := by
          -- an environment that was there before
          have old_ok : ∀ j, Fine (β := β) (ω := ω) (.ref j y) (Γ.map fnames) → ∃ fr Γ' ey o, Γ[j]? = some fr ∧ bound y fr (Γ.drop (j + 1)) = some (Γ', ey) ∧ getattr ρ j y s = some o ∧ Rel W Φ o Γ' ey := by
            intro j hj
            obtain ⟨fr, Γ', ey, o, h1, h2, h3, h4⟩ := lookup_ok (s := ⟨s.prs, old, s.runs⟩) ho hρ hj
            refine ⟨fr, Γ', ey, o, h1, h2, ?_, h4⟩
            simp only [getattr] at h3 ⊢
            cases hρj : ρ[j]? with
            | none => simp [hρj] at h3
            | some k =>
              simp only [hρj] at h3 ⊢
              cases hok : old[k]? with
              | none => simp [hok] at h3
              | some env =>
                simp only [hok] at h3
                rw [hs, List.getElem?_append_left (List.getElem?_eq_some_iff.mp hok).1, hok]
                exact h3
          cases hrec : r with
          | false =>
            subst hrec
            obtain ⟨fr, Γ', ey, o, h1, h2, h3, h4⟩ := old_ok i hfe'
            exact ⟨o, h3, Rel.alias h1 h2 h4⟩
          | true =>
            subst hrec
            cases i with
            | zero =>
              have hyd := hord rfl y rfl
              have hy : y ∈ names bs := by
                obtain ⟨ns, h1, h2⟩ := hfe'
                simp at h1; subst h1; exact h2
              obtain ⟨ey, hey⟩ := find_mem hy
              obtain ⟨o, hlo, hR⟩ := hc y hyd ey hey
              refine ⟨o, by simp [getattr, hk, hlo], ?_⟩
              refine Rel.alias (fr := .lets true bs) (Γ1 := .lets true bs :: Γ) (e := ey) (by simp) ?_ hR
              simp [bound, hey]
            | succ i =>
              obtain ⟨fr, Γ', ey, o, h1, h2, h3, h4⟩ := old_ok i (by
                obtain ⟨ns, g1, g2⟩ := hfe'
                exact ⟨ns, by simpa using g1, g2⟩)
              exact ⟨o, by simpa [getattr] using h3, Rel.alias (by simpa using h1) (by simpa using h2) h4⟩
        obtain ⟨o, h1, h2⟩ := main
        exact ⟨o, Φ, s.prs, by simp only [argCode, evalC, h1], List.prefix_refl _, List.prefix_refl _, hF.prs, h2⟩
      · have hne : ∀ i y, e ≠ .ref i y := fun i y h => hr ⟨i, y, h⟩
        refine ⟨.promise s.prs.length, Φ ++ [(if r then .lets r bs :: Γ else Γ, e)], _, arg_lazy W call e hne _ s, List.prefix_append _ _, List.prefix_append _ _, hF.prs.push ⟨rfl, hρ', hfe'⟩, ?_⟩
        refine ⟨_, _, e, rfl, ?_, fun n r h => h, fun n r h => ⟨n, h⟩⟩
        rw [← hF.prs.1]; simp
    obtain ⟨o, Φ1, prs, hev, hpp, hΦ, hprs, hR⟩ := harg
    have hF' : Filling W Φ1 Ψ r bs Γ (done ++ [x]) { prs := prs, envs := s.envs.modify Ψ.length (· ++ [(x, o)]), runs := s.runs } := by
      refine ⟨hprs, old, cur ++ [(x, o)], ?_, ho.mono hΦ, fun y hy => ?_, fun y hy ey hey => ?_⟩
      · show s.envs.modify Ψ.length _ = _
        rw [hs, ho.1, modify_last]
      · simp only [List.mem_append, List.mem_singleton, not_or] at hy
        rw [lookup_append, hn y hy.1]
        simp [hy.2]
      · rw [lookup_append]
        by_cases hyd : y ∈ done
        · obtain ⟨o', h1, h2⟩ := hc y hyd ey hey
          exact ⟨o', by rw [h1], h2.mono hΦ⟩
        · have : y = x := by simpa [hyd] using hy
          subst this
          rw [hfx] at hey; cases hey
          exact ⟨o, by rw [hnx]; simp, hR⟩
    have hnd' : x ∉ names rest ∧ (names rest).Nodup := List.nodup_cons.mp hnd
    obtain ⟨s', Φ', h1, h2, h3, h4, h5⟩ := fill_ok W call r bs Γ Ψ ρ hρ rest (done ++ [x]) Φ1 _ hF' hfr
      (fun y hy => by
        simp only [List.mem_append, List.mem_singleton, not_or]
        exact ⟨hnew y (by simp [names, hy]), fun h => hnd'.1 (h ▸ hy)⟩)
      hnd'.2
      (fun y ey hey => hsub y ey (by
        simp only [find]
        rw [if_neg (fun h => hnd'.1 (by rw [← h]; exact mem_find hey))]
        exact hey))
      (fun y hy => by
        rcases hall y hy with h | h
        · exact .inl (List.mem_append_left _ h)
        · simp only [names, List.mem_cons] at h
          rcases h with h | h
          · exact .inl (by simp [h])
          · exact .inr h)
    refine ⟨s', Φ', ?_, hΦ.trans h2, h3, h4, hpp.trans h5⟩
    have e0 : trBs (.cons x e rest) = .cons x (argCode e) (trBs rest) := by
      simp only [trBs]; rfl
    rw [e0]
    simp only [fill, hk, Option.getD_some, hnx, Option.isSome_none, Bool.false_eq_true, if_false, hev]
    exact h1

/-! ## what is run -/

/-- the promise has been forced -/
def Finished (s : St β ω ε) (p : Nat) : Prop := (∃ o, s.prs[p]? = some (.done o)) ∨ ∃ e, s.prs[p]? = some (.failed e)

/-- no code was run twice; code that was run and has not come to an end is of a promise whose expression does not come to an end at depth `k` -/
def Runs (W : World β ω ε) (Φ : Phi β ω) (k : Nat) (s : St β ω ε) : Prop :=
  s.runs.Nodup ∧ ∀ q, q ∈ s.runs → q < Φ.length ∧ (Finished s q ∨ ∀ Γ e, Φ[q]? = some (Γ, e) → evalN W k Γ e = none)

/-- what is run does come to an end -/
def Post (s s' : St β ω ε) : Prop := s'.runs.Nodup ∧ ∀ q, q ∈ s'.runs → Finished s' q ∨ (q ∈ s.runs ∧ ¬ Finished s q)

theorem Runs.less {W : World β ω ε} {Φ : Phi β ω} {k j : Nat} {s : St β ω ε} (h : Runs W Φ k s) (hj : j ≤ k) : Runs W Φ j s := by
  refine ⟨h.1, fun q hq => ⟨(h.2 q hq).1, ?_⟩⟩
  rcases (h.2 q hq).2 with h' | h'
  · exact .inl h'
  · refine .inr fun Γ e hq' => ?_
    have hk := h' Γ e hq'
    cases hc : evalN W j Γ e with
    | none => rfl
    | some r' => rw [evalN_mono W hj hc] at hk; exact nomatch hk

theorem Runs.post {W : World β ω ε} {Φ : Phi β ω} {k : Nat} {s : St β ω ε} (h : Runs W Φ k s) : Post s s := by
  refine ⟨h.1, fun q hq => ?_⟩
  by_cases hf : Finished s q
  · exact .inl hf
  · exact .inr ⟨hq, hf⟩

theorem Post.trans {s s1 s2 : St β ω ε} (h : Post s s1) (h' : Post s1 s2) : Post s s2 := by
  refine ⟨h'.1, fun q hq => ?_⟩
  rcases h'.2 q hq with h1 | ⟨h1, h2⟩
  · exact .inl h1
  · rcases h.2 q h1 with h3 | h3
    · exact absurd h3 h2
    · exact .inr h3

/-- nothing is run, but there may be new promises -/
theorem Runs.same {W : World β ω ε} {Φ : Phi β ω} {k : Nat} {s s1 : St β ω ε} (hR : Runs W Φ k s) (hruns : s1.runs = s.runs) (hpre : s.prs <+: s1.prs) : Post s s1 := by
  refine ⟨by rw [hruns]; exact hR.1, fun q hq => ?_⟩
  rw [hruns] at hq
  by_cases hf' : Finished s q
  · refine .inl ?_
    rcases hf' with ⟨o, hq⟩ | ⟨o, hq⟩
    · exact .inl ⟨o, prefix_get hpre hq⟩
    · exact .inr ⟨o, prefix_get hpre hq⟩
  · exact .inr ⟨hq, hf'⟩

theorem Finished.lt {s : St β ω ε} {q : Nat} (h : Finished s q) : q < s.prs.length := by
  rcases h with ⟨o, h⟩ | ⟨o, h⟩ <;> exact (List.getElem?_eq_some_iff.mp h).1

theorem Runs.next {W : World β ω ε} {Φ Φ' : Phi β ω} {k : Nat} {s s' : St β ω ε} (h : Runs W Φ k s) (hp : Post s s') (hΦ : Φ <+: Φ') (hlen : Φ'.length = s'.prs.length) :
    Runs W Φ' k s' := by
  refine ⟨hp.1, fun q hq => ?_⟩
  rcases hp.2 q hq with h1 | ⟨h1, h2⟩
  · exact ⟨by rw [hlen]; exact h1.lt, .inl h1⟩
  · obtain ⟨hb, h3⟩ := h.2 q h1
    refine ⟨Nat.lt_of_lt_of_le hb hΦ.length_le, ?_⟩
    rcases h3 with h3 | h3
    · exact absurd h3 h2
    · refine .inr fun Γ e hq' => h3 Γ e ?_
      obtain ⟨t, rfl⟩ := hΦ
      rw [List.getElem?_append_left hb] at hq'
      exact hq'

theorem Inv.lt {W : World β ω ε} {Φ : Phi β ω} {Ψ : Psi β ω} {s : St β ω ε} (h : Inv W Φ Ψ s) {p : Nat} {v : List (Frame β ω) × Ex β ω} (hp : Φ[p]? = some v) : p < s.prs.length := by
  have := (List.getElem?_eq_some_iff.mp hp).1
  rw [h.1.1] at this; exact this

theorem Inv.setPr {W : World β ω ε} {Φ : Phi β ω} {Ψ : Psi β ω} {s : St β ω ε} (h : Inv W Φ Ψ s) {p : Nat} {Γ : List (Frame β ω)} {e : Ex β ω} (hp : Φ[p]? = some (Γ, e))
    {pr : Pr β ω ε} (hpr : PrOk W Ψ Γ e pr) : Inv W Φ Ψ { s with prs := s.prs.set p pr } := by
  refine ⟨⟨by simp [h.1.1], fun q pr' hq => ?_⟩, h.2⟩
  simp only [List.getElem?_set] at hq
  by_cases hpq : p = q
  · subst hpq
    rw [if_pos rfl] at hq
    by_cases hlt : p < s.prs.length
    · rw [if_pos hlt] at hq; cases hq
      exact ⟨Γ, e, hp, hpr⟩
    · rw [if_neg hlt] at hq; exact nomatch hq
  · rw [if_neg hpq] at hq
    exact h.1.2 q pr' hq

/-- the promise that has been run is finished now -/
theorem Post.set {s s1 : St β ω ε} {p : Nat} (h : Post { s with runs := s.runs ++ [p] } s1) (hp : p < s1.prs.length) (pr : Pr β ω ε) (hpr : (∃ o, pr = .done o) ∨ ∃ e, pr = .failed e) :
    Post s { s1 with prs := s1.prs.set p pr } := by
  have hset : Finished { s1 with prs := s1.prs.set p pr } p := by
    have : (s1.prs.set p pr)[p]? = some pr := by rw [List.getElem?_set, if_pos rfl, if_pos hp]
    rcases hpr with ⟨o, rfl⟩ | ⟨e, rfl⟩
    · exact .inl ⟨o, this⟩
    · exact .inr ⟨e, this⟩
  refine ⟨h.1, fun q hq => ?_⟩
  by_cases hqp : q = p
  · subst hqp; exact .inl hset
  · rcases h.2 q hq with h1 | ⟨h1, h2⟩
    · refine .inl ?_
      rcases h1 with ⟨o, h1⟩ | ⟨o, h1⟩
      · exact .inl ⟨o, by show (s1.prs.set p pr)[q]? = _; rw [List.getElem?_set, if_neg (Ne.symm hqp)]; exact h1⟩
      · exact .inr ⟨o, by show (s1.prs.set p pr)[q]? = _; rw [List.getElem?_set, if_neg (Ne.symm hqp)]; exact h1⟩
    · simp only [List.mem_append, List.mem_singleton, hqp, or_false] at h1
      exact .inr ⟨h1, h2⟩

/-- a `let` whose bindings have been put into a new environment -/
theorem let_ok (W : World β ω ε) (call : Run β ω ε) {Φ : Phi β ω} {Ψ : Psi β ω} {s : St β ω ε} (hi : Inv W Φ Ψ s) {ρ : List Nat}
    {Γ : List (Frame β ω)} (hρ : EnvRel Ψ ρ Γ) (r : Bool) (bs : Bs β ω) (body : Ex β ω) (hf : Fine (.letter r bs body) (Γ.map fnames)) :
    ∃ s' Φ', fill W call r s.envs.length (trBs bs) ρ { s with envs := s.envs ++ [[]] } = some (.ok (), s') ∧ Φ <+: Φ' ∧ Inv W Φ' (Ψ ++ [.lets r bs :: Γ]) s' ∧
      EnvRel (Ψ ++ [.lets r bs :: Γ]) (s.envs.length :: ρ) (.lets r bs :: Γ) ∧ Fine body ((Frame.lets r bs :: Γ).map fnames) ∧ s'.runs = s.runs ∧ s.prs <+: s'.prs := by
  obtain ⟨hnd, hbs, hbody⟩ := hf
  have hF : Filling W Φ Ψ r bs Γ [] { s with envs := s.envs ++ [[]] } :=
    ⟨hi.1.mono (List.prefix_append _ _), s.envs, [], rfl, hi.2, fun _ _ => rfl, fun _ h => nomatch h⟩
  obtain ⟨s', Φ', h1, h2, h3, h4, h5⟩ := fill_ok W call r bs Γ Ψ ρ hρ bs [] Φ _ hF hbs (fun _ _ h => nomatch h) hnd (fun _ _ h => h) (fun _ h => .inr h)
  exact ⟨s', Φ', by rw [← hi.2.1]; exact h1, h2, h3, by rw [← hi.2.1]; exact hρ.push _, hbody, h4, h5⟩

/-- a call, with the arguments put into a new environment -/
theorem call_ok {W : World β ω ε} {Φ : Phi β ω} {Ψ : Psi β ω} {s : St β ω ε} (hi : Inv W Φ Ψ s) {ρf : List Nat} {Γf Γ : List (Frame β ω)} (hρ : EnvRel Ψ ρf Γf) {xs : List String}
    {os : List (Obj β ω)} {as : As β ω} (ha : ArgsRel W Φ Γ os as) (hl : xs.length = count as) :
    Inv W Φ (Ψ ++ [.params xs Γ as :: Γf]) { s with envs := s.envs ++ [xs.zip os] } ∧ EnvRel (Ψ ++ [.params xs Γ as :: Γf]) (s.envs.length :: ρf) (.params xs Γ as :: Γf) := by
  refine ⟨⟨hi.1.mono (List.prefix_append _ _), hi.2.push fun x hx => ?_⟩, by rw [← hi.2.1]; exact hρ.push _⟩
  obtain ⟨e, o, h1, h2, h3⟩ := params_ok xs os as ha hl x hx
  exact ⟨Γ, e, o, by simp only [bound, h1, Option.map_some], h2, h3⟩

/-! ## running the code gives what the expression comes to -/

/-- the code of `e` is run, and gives `r`; the promises and environments stay related -/
def Good (W : World β ω ε) (Φ : Phi β ω) (Ψ : Psi β ω) (s : St β ω ε) (run : Res β ω ε (Obj β ω)) (r : Except ε (Spec.Val β ω)) : Prop :=
  ∃ res s' Φ' Ψ', run = some (res, s') ∧ ResRel Ψ' r res ∧ Φ <+: Φ' ∧ Ψ <+: Ψ' ∧ Inv W Φ' Ψ' s' ∧ Post s s'

/-- the least depth at which an expression comes to an end -/
theorem least (W : World β ω ε) {Γ : List (Frame β ω)} {e : Ex β ω} {r : Except ε (Spec.Val β ω)} : ∀ k, evalN W k Γ e = some r → ∃ N, N + 1 ≤ k ∧ evalN W (N + 1) Γ e = some r ∧ evalN W N Γ e = none
  | 0, h => nomatch h
  | k + 1, h => by
    cases hk : evalN W k Γ e with
    | none => exact ⟨k, Nat.le_refl _, h, hk⟩
    | some r' =>
      have := evalN_det W hk h
      subst this
      obtain ⟨N, h1, h2, h3⟩ := least W k hk
      exact ⟨N, by omega, h2, h3⟩

theorem binop_rel {W : World β ω ε} {Ψ : Psi β ω} {o : ω} {x y : Spec.Val β ω} {x' y' : Obj β ω} (hx : ValRel Ψ x x') (hy : ValRel Ψ y y') :
    ResRel (ε := ε) Ψ (Spec.binop W o x y) (LazyFun.binop W o x' y') := by
  cases x with
  | con b =>
    cases x' with
    | con b' =>
      cases hx
      cases y with
      | con c =>
        cases y' with
        | con c' =>
          cases hy
          simp only [Spec.binop, LazyFun.binop]
          cases W.op o b c with
          | ok z => rfl
          | error e => rfl
        | clo _ _ _ => exact hy.elim
        | promise _ => exact hy.elim
      | fn _ _ _ =>
        cases y' with
        | clo _ _ _ => rfl
        | con _ => exact hy.elim
        | promise _ => exact hy.elim
    | clo _ _ _ => exact hx.elim
    | promise _ => exact hx.elim
  | fn _ _ _ =>
    cases x' with
    | clo _ _ _ => rfl
    | con _ => exact hx.elim
    | promise _ => exact hx.elim

theorem truthy_rel {W : World β ω ε} {Ψ : Psi β ω} {x : Spec.Val β ω} {x' : Obj β ω} (hx : ValRel Ψ x x') : LazyFun.truthy W x' = Spec.truthy W x := by
  cases x with
  | con b =>
    cases x' with
    | con b' => cases hx; rfl
    | clo _ _ _ => exact hx.elim
    | promise _ => exact hx.elim
  | fn _ _ _ =>
    cases x' with
    | clo _ _ _ => rfl
    | con _ => exact hx.elim
    | promise _ => exact hx.elim

/-- the code of an expression that comes to an end at depth `k`, run with depth `n` -/
def Forward (W : World β ω ε) (k n : Nat) (e : Ex β ω) : Prop :=
  ∀ Γ ρ Φ Ψ s r, Inv W Φ Ψ s → Runs W Φ k s → EnvRel Ψ ρ Γ → Fine e (Γ.map fnames) → evalS W (evalN W k) e Γ = some r → Good W Φ Ψ s (evalC W (eval W n) (tr e) ρ s) r

theorem forward_ref (W : World β ω ε) (k n : Nat) (hkn : k ≤ n) (ih : ∀ j, j < k → ∀ m, j ≤ m → ∀ e, Forward W j m e) (i : Nat) (x : String) : Forward W k n (.ref i x) := by
  intro Γ ρ Φ Ψ s r hi hR hρ hf h
  obtain ⟨fr, Γ1, e, o, hfr, hbound, hget, p, Γ', e', rfl, hp, h1, h2⟩ := lookup_ok hi.2 hρ hf
  simp only [evalS, hfr, hbound] at h
  have hr := h1 k r h
  simp only [tr, evalC, hget, forceObj, forceP]
  have hlt := hi.lt hp
  have hpr := List.getElem?_eq_getElem hlt
  obtain ⟨Γ'', e'', hp', hok⟩ := hi.1.2 p _ hpr
  rw [hp] at hp'
  obtain ⟨rfl, rfl⟩ := Prod.mk.inj (Option.some.inj hp')
  rw [hpr]
  cases hcase : s.prs[p] with
  | done o =>
    rw [hcase] at hok
    obtain ⟨v, m, hv, hm⟩ := hok
    have := evalN_det W hr hm
    subst this
    exact ⟨_, s, Φ, Ψ, rfl, hv, List.prefix_refl _, List.prefix_refl _, hi, hR.post⟩
  | failed err =>
    rw [hcase] at hok
    obtain ⟨m, hm⟩ := hok
    have := evalN_det W hr hm
    subst this
    exact ⟨_, s, Φ, Ψ, rfl, rfl, List.prefix_refl _, List.prefix_refl _, hi, hR.post⟩
  | todo ρp c =>
    rw [hcase] at hok hpr
    obtain ⟨rfl, hρp, hfp⟩ := hok
    obtain ⟨N, hN, hrN, hnone⟩ := least W k hr
    obtain ⟨n', rfl⟩ : ∃ n', n = n' + 1 := ⟨n - 1, by omega⟩
    have hnf : ¬ Finished s p := by
      rintro (⟨o, h'⟩ | ⟨o, h'⟩) <;> rw [hpr] at h' <;> exact (nomatch h')
    have hnot : p ∉ s.runs := fun hmem => by
      rcases (hR.2 p hmem).2 with h' | h'
      · exact hnf h'
      · rw [h' _ _ hp] at hr; exact nomatch hr
    have hR' : Runs W Φ N { s with runs := s.runs ++ [p] } := by
      refine ⟨List.nodup_append.mpr ⟨hR.1, by simp, fun a ha b hb' => ?_⟩, fun q hq => ?_⟩
      · simp at hb'; subst hb'; intro hab; exact hnot (hab ▸ ha)
      · simp only [List.mem_append, List.mem_singleton] at hq
        rcases hq with hq | rfl
        · exact (hR.less (by omega : N ≤ k)).2 q hq
        · refine ⟨(List.getElem?_eq_some_iff.mp hp).1, .inr fun Γq eq hq' => ?_⟩
          rw [hp] at hq'
          obtain ⟨rfl, rfl⟩ := Prod.mk.inj (Option.some.inj hq')
          exact hnone
    obtain ⟨res, s', Φ', Ψ', hrun, hres, hΦ, hΨ, hi', hP⟩ := ih N (by omega) n' (by omega) e' Γ' ρp Φ Ψ { s with runs := s.runs ++ [p] } r hi hR' hρp hfp hrN
    have hrun' : eval W (n' + 1) ρp (tr e') { s with runs := s.runs ++ [p] } = some (res, s') := hrun
    simp only [hrun']
    have hlt' := hi'.lt (prefix_get hΦ hp)
    cases r with
    | ok v =>
      cases res with
      | ok o => exact ⟨_, _, Φ', Ψ', rfl, hres, hΦ, hΨ, hi'.setPr (prefix_get hΦ hp) ⟨v, _, hres, hr⟩, hP.set hlt' _ (.inl ⟨_, rfl⟩)⟩
      | error _ => exact hres.elim
    | error err =>
      cases res with
      | error e => cases hres; exact ⟨_, _, Φ', Ψ', rfl, rfl, hΦ, hΨ, hi'.setPr (prefix_get hΦ hp) ⟨_, hr⟩, hP.set hlt' _ (.inr ⟨_, rfl⟩)⟩
      | ok _ => exact hres.elim

theorem forwardC (W : World β ω ε) (k n : Nat) (hkn : k ≤ n) (ih : ∀ j, j < k → ∀ m, j ≤ m → ∀ e, Forward W j m e) : (e : Ex β ω) → Forward W k n e
  | .cst b => by
    intro Γ ρ Φ Ψ s r hi hR _ _ h
    simp only [evalS, Option.some.injEq] at h
    subst h
    exact ⟨.ok (.con b), s, Φ, Ψ, by simp only [tr, evalC], rfl, List.prefix_refl _, List.prefix_refl _, hi, hR.post⟩
  | .lam xs body => by
    intro Γ ρ Φ Ψ s r hi hR hρ hf h
    simp only [evalS, Option.some.injEq] at h
    subst h
    exact ⟨.ok (.clo ρ xs (tr body)), s, Φ, Ψ, by simp only [tr, evalC], ⟨rfl, rfl, hρ, hf⟩, List.prefix_refl _, List.prefix_refl _, hi, hR.post⟩
  | .ref i x => forward_ref W k n hkn ih i x
  | .op o a b => by
    intro Γ ρ Φ Ψ s r hi hR hρ hf h
    simp only [evalS] at h
    simp only [tr, evalC]
    cases ha : evalS W (evalN W k) a Γ with
    | none => simp [ha] at h
    | some ra =>
      obtain ⟨res1, s1, Φ1, Ψ1, hrun, hres, hΦ, hΨ, hi1, hP1⟩ := forwardC W k n hkn ih a Γ ρ Φ Ψ s ra hi hR hρ hf.1 ha
      rw [ha] at h
      simp only [hrun]
      cases ra with
      | error e =>
        cases res1 with
        | ok _ => exact hres.elim
        | error e' =>
          cases hres
          simp only [Option.some.injEq] at h; subst h
          exact ⟨_, s1, Φ1, Ψ1, rfl, rfl, hΦ, hΨ, hi1, hP1⟩
      | ok x =>
        cases res1 with
        | error _ => exact hres.elim
        | ok x' =>
          simp only at h ⊢
          cases hb : evalS W (evalN W k) b Γ with
          | none => simp [hb] at h
          | some rb =>
            obtain ⟨res2, s2, Φ2, Ψ2, hrun2, hres2, hΦ2, hΨ2, hi2, hP2⟩ := forwardC W k n hkn ih b Γ ρ Φ1 Ψ1 s1 rb hi1 (hR.next hP1 hΦ hi1.1.1) (hρ.mono hΨ) hf.2 hb
            rw [hb] at h
            simp only [hrun2]
            cases rb with
            | error e =>
              cases res2 with
              | ok _ => exact hres2.elim
              | error e' =>
                cases hres2
                simp only [Option.some.injEq] at h; subst h
                exact ⟨_, s2, Φ2, Ψ2, rfl, rfl, hΦ.trans hΦ2, hΨ.trans hΨ2, hi2, hP1.trans hP2⟩
            | ok y =>
              cases res2 with
              | error _ => exact hres2.elim
              | ok y' =>
                simp only [Option.some.injEq] at h ⊢
                subst h
                exact ⟨_, s2, Φ2, Ψ2, rfl, binop_rel (hres.mono hΨ2) hres2, hΦ.trans hΦ2, hΨ.trans hΨ2, hi2, hP1.trans hP2⟩
  | .ife c a b => by
    intro Γ ρ Φ Ψ s r hi hR hρ hf h
    simp only [evalS] at h
    simp only [tr, evalC]
    cases hc : evalS W (evalN W k) c Γ with
    | none => simp [hc] at h
    | some rc =>
      obtain ⟨res1, s1, Φ1, Ψ1, hrun, hres, hΦ, hΨ, hi1, hP1⟩ := forwardC W k n hkn ih c Γ ρ Φ Ψ s rc hi hR hρ hf.1 hc
      rw [hc] at h
      simp only [hrun]
      cases rc with
      | error e =>
        cases res1 with
        | ok _ => exact hres.elim
        | error e' =>
          cases hres
          simp only [Option.some.injEq] at h; subst h
          exact ⟨_, s1, Φ1, Ψ1, rfl, rfl, hΦ, hΨ, hi1, hP1⟩
      | ok x =>
        cases res1 with
        | error _ => exact hres.elim
        | ok x' =>
          simp only at h ⊢
          rw [truthy_rel hres]
          by_cases hx : Spec.truthy W x = true
          · rw [if_pos hx] at h ⊢
            obtain ⟨res2, s2, Φ2, Ψ2, hrun2, hres2, hΦ2, hΨ2, hi2, hP2⟩ := forwardC W k n hkn ih a Γ ρ Φ1 Ψ1 s1 r hi1 (hR.next hP1 hΦ hi1.1.1) (hρ.mono hΨ) hf.2.1 h
            exact ⟨res2, s2, Φ2, Ψ2, hrun2, hres2, hΦ.trans hΦ2, hΨ.trans hΨ2, hi2, hP1.trans hP2⟩
          · rw [if_neg hx] at h ⊢
            obtain ⟨res2, s2, Φ2, Ψ2, hrun2, hres2, hΦ2, hΨ2, hi2, hP2⟩ := forwardC W k n hkn ih b Γ ρ Φ1 Ψ1 s1 r hi1 (hR.next hP1 hΦ hi1.1.1) (hρ.mono hΨ) hf.2.2 h
            exact ⟨res2, s2, Φ2, Ψ2, hrun2, hres2, hΦ.trans hΦ2, hΨ.trans hΨ2, hi2, hP1.trans hP2⟩
  | .letter rr bs body => by
    intro Γ ρ Φ Ψ s r hi hR hρ hf h
    simp only [evalS] at h
    simp only [tr, evalC]
    obtain ⟨s1, Φ1, hfill, hΦ, hi1, hρ1, hfb, hruns, hpre⟩ := let_ok W (eval W n) hi hρ rr bs body hf
    simp only [hfill]
    have hP1 : Post s s1 := hR.same hruns hpre
    obtain ⟨res2, s2, Φ2, Ψ2, hrun2, hres2, hΦ2, hΨ2, hi2, hP2⟩ := forwardC W k n hkn ih body _ _ Φ1 _ s1 r hi1 (hR.next hP1 hΦ hi1.1.1) hρ1 hfb h
    exact ⟨res2, s2, Φ2, Ψ2, hrun2, hres2, hΦ.trans hΦ2, (List.prefix_append _ _).trans hΨ2, hi2, hP1.trans hP2⟩
  | .app f as => by
    intro Γ ρ Φ Ψ s r hi hR hρ hf h
    simp only [evalS] at h
    simp only [tr, evalC]
    cases ha : evalS W (evalN W k) f Γ with
    | none => simp [ha] at h
    | some rf =>
      obtain ⟨res1, s1, Φ1, Ψ1, hrun, hres, hΦ, hΨ, hi1, hP1⟩ := forwardC W k n hkn ih f Γ ρ Φ Ψ s rf hi hR hρ hf.1 ha
      rw [ha] at h
      simp only [hrun]
      cases rf with
      | error e =>
        cases res1 with
        | ok _ => exact hres.elim
        | error e' =>
          cases hres
          simp only [Option.some.injEq] at h; subst h
          exact ⟨_, s1, Φ1, Ψ1, rfl, rfl, hΦ, hΨ, hi1, hP1⟩
      | ok v =>
        cases res1 with
        | error _ => exact hres.elim
        | ok fo =>
          simp only at h ⊢
          obtain ⟨os, Φ2, prs, g1, g2, g3, g4, g5⟩ := args_ok W (eval W n) (hρ.mono hΨ) as Φ1 s1 hi1 hf.2
          simp only [g1]
          have hi2 : Inv W Φ2 Ψ1 { s1 with prs := prs } := ⟨g4, hi1.2.mono g3⟩
          have hR1 := hR.next hP1 hΦ hi1.1.1
          have hP2 : Post s1 { s1 with prs := prs } := hR1.same rfl g2
          have hP12 := hP1.trans hP2
          have hR2 := hR1.next hP2 g3 hi2.1.1
          cases v with
          | con b =>
            simp only [Option.some.injEq] at h; subst h
            cases fo with
            | con b' => exact ⟨_, _, Φ2, Ψ1, rfl, rfl, hΦ.trans g3, hΨ, hi2, hP12⟩
            | clo _ _ _ => exact hres.elim
            | promise _ => exact hres.elim
          | fn Γf xs body =>
            cases fo with
            | con _ => exact hres.elim
            | promise _ => exact hres.elim
            | clo ρf xs' c =>
              obtain ⟨rfl, rfl, hρf, hfb⟩ := hres
              simp only [invoke, g5.count] at h ⊢
              by_cases hl : xs.length = count as
              · rw [if_pos hl] at h ⊢
                cases k with
                | zero => nomatch h
                | succ k =>
                  obtain ⟨n, rfl⟩ : ∃ n', n = n' + 1 := ⟨n - 1, by omega⟩
                  obtain ⟨hi3, hρ3⟩ := call_ok hi2 hρf g5 hl
                  obtain ⟨res3, s3, Φ3, Ψ3, hrun3, hres3, hΦ3, hΨ3, hi3', hP3⟩ := ih k (Nat.lt_succ_self k) n (by omega) body _ _ Φ2 _ _ r hi3
                    (hR2.less (Nat.le_succ k)) hρ3 hfb h
                  exact ⟨res3, s3, Φ3, Ψ3, hrun3, hres3, (hΦ.trans g3).trans hΦ3, (hΨ.trans (List.prefix_append _ _)).trans hΨ3, hi3', hP12.trans hP3⟩
              · rw [if_neg hl] at h ⊢
                simp only [Option.some.injEq] at h; subst h
                exact ⟨_, _, Φ2, Ψ1, rfl, rfl, hΦ.trans g3, hΨ, hi2, hP12⟩

theorem forward (W : World β ω ε) (k : Nat) : ∀ n, k ≤ n → ∀ e, Forward W k n e := by
  induction k using Nat.strongRecOn with
  | ind k ih => exact fun n hn e => forwardC W k n hn ih e

/-! ## more depth does not change what the code does -/

mutual
theorem evalC_mono (W : World β ω ε) {c1 c2 : Run β ω ε} (hc : ∀ ρ c s r, c1 ρ c s = some r → c2 ρ c s = some r) :
    (c : Code β ω) → ∀ ρ s r, evalC W c1 c ρ s = some r → evalC W c2 c ρ s = some r
  | .cst _, _, _, _, h => by simp only [evalC] at h ⊢; exact h
  | .ref i x, ρ, s, r, h => by simp only [evalC] at h ⊢; exact h
  | .lazy c, ρ, s, r, h => by simp only [evalC] at h ⊢; exact h
  | .force c, ρ, s, r, h => by
    simp only [evalC] at h ⊢
    cases h1 : evalC W c1 c ρ s with
    | none => simp [h1] at h
    | some q =>
      rw [evalC_mono W hc c ρ s q h1]
      rw [h1] at h
      obtain ⟨q, s1⟩ := q
      cases q with
      | error e => exact h
      | ok o =>
        simp only at h ⊢
        cases o with
        | con b => exact h
        | clo _ _ _ => exact h
        | promise p =>
          simp only [forceObj, forceP] at h ⊢
          cases hp : s1.prs[p]? with
          | none => simpa [hp] using h
          | some pr =>
            simp only [hp] at h ⊢
            cases pr with
            | done o => exact h
            | failed e => exact h
            | todo ρ' c' =>
              simp only at h ⊢
              cases h2 : c1 ρ' c' { s1 with runs := s1.runs ++ [p] } with
              | none => simp [h2] at h
              | some q2 => rw [hc _ _ _ _ h2]; rw [h2] at h; exact h
  | .op o a b, ρ, s, r, h => by
    simp only [evalC] at h ⊢
    cases h1 : evalC W c1 a ρ s with
    | none => simp [h1] at h
    | some q =>
      rw [evalC_mono W hc a ρ s q h1]
      rw [h1] at h
      obtain ⟨q, s1⟩ := q
      cases q with
      | error e => exact h
      | ok x =>
        simp only at h ⊢
        cases h2 : evalC W c1 b ρ s1 with
        | none => simp [h2] at h
        | some q2 => rw [evalC_mono W hc b ρ s1 q2 h2]; rw [h2] at h; exact h
  | .ife c a b, ρ, s, r, h => by
    simp only [evalC] at h ⊢
    cases h1 : evalC W c1 c ρ s with
    | none => simp [h1] at h
    | some q =>
      rw [evalC_mono W hc c ρ s q h1]
      rw [h1] at h
      obtain ⟨q, s1⟩ := q
      cases q with
      | error e => exact h
      | ok x =>
        simp only at h ⊢
        by_cases hx : LazyFun.truthy W x = true
        · rw [if_pos hx] at h ⊢; exact evalC_mono W hc a ρ s1 r h
        · rw [if_neg hx] at h ⊢; exact evalC_mono W hc b ρ s1 r h
  | .letter rr bs body, ρ, s, r, h => by
    simp only [evalC] at h ⊢
    cases h1 : fill W c1 rr s.envs.length bs ρ { s with envs := s.envs ++ [[]] } with
    | none => simp [h1] at h
    | some q =>
      rw [fill_mono W hc rr _ bs ρ _ q h1]
      rw [h1] at h
      obtain ⟨q, s1⟩ := q
      cases q with
      | error e => exact h
      | ok u => exact evalC_mono W hc body _ s1 r h
  | .lam xs body, ρ, s, r, h => by simp only [evalC] at h ⊢; exact h
  | .app f as, ρ, s, r, h => by
    simp only [evalC] at h ⊢
    cases h1 : evalC W c1 f ρ s with
    | none => simp [h1] at h
    | some q =>
      rw [evalC_mono W hc f ρ s q h1]
      rw [h1] at h
      obtain ⟨q, s1⟩ := q
      cases q with
      | error e => exact h
      | ok fo =>
        simp only at h ⊢
        cases h2 : evalAs W c1 as ρ s1 with
        | none => simp [h2] at h
        | some q2 =>
          rw [evalAs_mono W hc as ρ s1 q2 h2]
          rw [h2] at h
          obtain ⟨q2, s2⟩ := q2
          cases q2 with
          | error e => exact h
          | ok os =>
            cases fo with
            | con b => exact h
            | promise p => exact h
            | clo ρf xs c =>
              simp only [invoke] at h ⊢
              by_cases hl : xs.length = os.length
              · rw [if_pos hl] at h ⊢; exact hc _ _ _ _ h
              · rw [if_neg hl] at h ⊢; exact h
theorem fill_mono (W : World β ω ε) {c1 c2 : Run β ω ε} (hc : ∀ ρ c s r, c1 ρ c s = some r → c2 ρ c s = some r) (rr : Bool) (k : Nat) :
    (bs : CBs β ω) → ∀ ρ s r, fill W c1 rr k bs ρ s = some r → fill W c2 rr k bs ρ s = some r
  | .nil, _, _, _, h => by simp only [fill] at h ⊢; exact h
  | .cons x c bs, ρ, s, r, h => by
    simp only [fill] at h ⊢
    by_cases hx : (((s.envs[k]?).getD []).lookup x).isSome = true
    · rw [if_pos hx] at h ⊢; exact h
    · rw [if_neg hx] at h ⊢
      cases h1 : evalC W c1 c (if rr then k :: ρ else ρ) s with
      | none => simp [h1] at h
      | some q =>
        rw [evalC_mono W hc c _ s q h1]
        rw [h1] at h
        obtain ⟨q, s1⟩ := q
        cases q with
        | error e => exact h
        | ok o => exact fill_mono W hc rr k bs ρ _ r h
theorem evalAs_mono (W : World β ω ε) {c1 c2 : Run β ω ε} (hc : ∀ ρ c s r, c1 ρ c s = some r → c2 ρ c s = some r) :
    (as : CAs β ω) → ∀ ρ s r, evalAs W c1 as ρ s = some r → evalAs W c2 as ρ s = some r
  | .nil, _, _, _, h => by simp only [evalAs] at h ⊢; exact h
  | .cons c as, ρ, s, r, h => by
    simp only [evalAs] at h ⊢
    cases h1 : evalC W c1 c ρ s with
    | none => simp [h1] at h
    | some q =>
      rw [evalC_mono W hc c ρ s q h1]
      rw [h1] at h
      obtain ⟨q, s1⟩ := q
      cases q with
      | error e => exact h
      | ok o =>
        simp only at h ⊢
        cases h2 : evalAs W c1 as ρ s1 with
        | none => simp [h2] at h
        | some q2 => rw [evalAs_mono W hc as ρ s1 q2 h2]; rw [h2] at h; exact h
end

theorem eval_succ (W : World β ω ε) : ∀ n ρ c s r, eval W n ρ c s = some r → eval W (n + 1) ρ c s = some r
  | 0, _, _, _, _, h => nomatch h
  | n + 1, ρ, c, s, r, h => evalC_mono W (eval_succ W n) c ρ s r h

theorem eval_mono (W : World β ω ε) {n m : Nat} (hnm : n ≤ m) {ρ : List Nat} {c : Code β ω} {s : St β ω ε} {r : Except ε (Obj β ω) × St β ω ε} (h : eval W n ρ c s = some r) :
    eval W m ρ c s = some r := by
  induction hnm with
  | refl => exact h
  | step _ ih => exact eval_succ W _ _ _ _ _ ih

/-! ## and if the code comes to an end, so does the expression -/

def Back (W : World β ω ε) (Γ : List (Frame β ω)) (e : Ex β ω) (Φ : Phi β ω) (Ψ : Psi β ω) (res : Except ε (Obj β ω)) (s' : St β ω ε) : Prop :=
  ∃ m r Φ' Ψ', evalN W m Γ e = some r ∧ ResRel Ψ' r res ∧ Φ <+: Φ' ∧ Ψ <+: Ψ' ∧ Inv W Φ' Ψ' s'

theorem evalN_pos (W : World β ω ε) {m : Nat} {Γ : List (Frame β ω)} {e : Ex β ω} {r : Except ε (Spec.Val β ω)} (h : evalN W m Γ e = some r) :
    ∃ k, evalN W (k + 1) Γ e = some r := ⟨m, evalN_succ W _ _ _ _ h⟩

theorem back_ref (W : World β ω ε) (n : Nat)
    (ih : ∀ e Γ ρ Φ Ψ s res s', Inv W Φ Ψ s → EnvRel Ψ ρ Γ → Fine e (Γ.map fnames) → eval W n ρ (tr e) s = some (res, s') → Back W Γ e Φ Ψ res s')
    {Γ : List (Frame β ω)} {ρ : List Nat} {Φ : Phi β ω} {Ψ : Psi β ω} {s s' : St β ω ε} {res : Except ε (Obj β ω)} (hi : Inv W Φ Ψ s) (hρ : EnvRel Ψ ρ Γ) (i : Nat) (x : String)
    (hf : Fine (β := β) (ω := ω) (.ref i x) (Γ.map fnames)) (h : evalC W (eval W n) (tr (.ref i x)) ρ s = some (res, s')) : Back W Γ (.ref i x) Φ Ψ res s' := by
  obtain ⟨fr, Γ1, e, o, hfr, hbound, hget, p, Γ', e', rfl, hp, h1, h2⟩ := lookup_ok hi.2 hρ hf
  have key : ∀ m, evalN W (m + 1) Γ (.ref i x) = evalN W m Γ1 e := by
    intro m
    show evalS W (evalN W m) (.ref i x) Γ = _
    simp only [evalS, hfr, hbound]
  have out : ∀ m r, evalN W m Γ' e' = some r → ∃ m, evalN W m Γ (.ref i x) = some r := fun m r hm => by
    obtain ⟨k, hk⟩ := h2 m r hm
    exact ⟨k + 1, by rw [key]; exact hk⟩
  simp only [tr, evalC, hget, forceObj, forceP] at h
  have hlt := (List.getElem?_eq_some_iff.mp hp).1
  rw [hi.1.1] at hlt
  have hpr := List.getElem?_eq_getElem hlt
  obtain ⟨Γ'', e'', hp', hok⟩ := hi.1.2 p _ hpr
  rw [hp] at hp'
  obtain ⟨rfl, rfl⟩ := Prod.mk.inj (Option.some.inj hp')
  rw [hpr] at h
  cases hcase : s.prs[p] with
  | done o =>
    rw [hcase] at hok h
    obtain ⟨v, m, hv, hm⟩ := hok
    simp only [Option.some.injEq, Prod.mk.injEq] at h
    obtain ⟨rfl, rfl⟩ := h
    obtain ⟨k, hk⟩ := out m _ hm
    exact ⟨k, .ok v, Φ, Ψ, hk, hv, List.prefix_refl _, List.prefix_refl _, hi⟩
  | failed err =>
    rw [hcase] at hok h
    obtain ⟨m, hm⟩ := hok
    simp only [Option.some.injEq, Prod.mk.injEq] at h
    obtain ⟨rfl, rfl⟩ := h
    obtain ⟨k, hk⟩ := out m _ hm
    exact ⟨k, .error err, Φ, Ψ, hk, rfl, List.prefix_refl _, List.prefix_refl _, hi⟩
  | todo ρp c =>
    rw [hcase] at hok h
    obtain ⟨rfl, hρp, hfp⟩ := hok
    simp only at h
    cases hrun : eval W n ρp (tr e') { s with runs := s.runs ++ [p] } with
    | none => simp [hrun] at h
    | some res1 =>
      obtain ⟨res1, s1⟩ := res1
      obtain ⟨m, r, Φ', Ψ', hm, hres, hΦ, hΨ, hi'⟩ := ih e' Γ' ρp Φ Ψ { s with runs := s.runs ++ [p] } res1 s1 hi hρp hfp hrun
      obtain ⟨k, hk⟩ := out m _ hm
      cases r with
      | ok v =>
        cases res1 with
        | error _ => exact hres.elim
        | ok o =>
          simp only [hrun, Option.some.injEq, Prod.mk.injEq] at h
          obtain ⟨rfl, rfl⟩ := h
          exact ⟨k, .ok v, Φ', Ψ', hk, hres, hΦ, hΨ, hi'.setPr (prefix_get hΦ hp) ⟨v, m, hres, hm⟩⟩
      | error err =>
        cases res1 with
        | ok _ => exact hres.elim
        | error err' =>
          cases hres
          simp only [hrun, Option.some.injEq, Prod.mk.injEq] at h
          obtain ⟨rfl, rfl⟩ := h
          exact ⟨k, .error err, Φ', Ψ', hk, rfl, hΦ, hΨ, hi'.setPr (prefix_get hΦ hp) ⟨m, hm⟩⟩

theorem backC (W : World β ω ε) (n : Nat)
    (ih : ∀ e Γ ρ Φ Ψ s res s', Inv W Φ Ψ s → EnvRel Ψ ρ Γ → Fine e (Γ.map fnames) → eval W n ρ (tr e) s = some (res, s') → Back W Γ e Φ Ψ res s') :
    (e : Ex β ω) → ∀ Γ ρ Φ Ψ s res s', Inv W Φ Ψ s → EnvRel Ψ ρ Γ → Fine e (Γ.map fnames) → evalC W (eval W n) (tr e) ρ s = some (res, s') → Back W Γ e Φ Ψ res s'
  | .cst b => by
    intro Γ ρ Φ Ψ s res s' hi _ _ h
    simp only [tr, evalC, Option.some.injEq, Prod.mk.injEq] at h
    obtain ⟨rfl, rfl⟩ := h
    exact ⟨1, .ok (.con b), Φ, Ψ, rfl, rfl, List.prefix_refl _, List.prefix_refl _, hi⟩
  | .lam xs body => by
    intro Γ ρ Φ Ψ s res s' hi hρ hf h
    simp only [tr, evalC, Option.some.injEq, Prod.mk.injEq] at h
    obtain ⟨rfl, rfl⟩ := h
    exact ⟨1, .ok (.fn Γ xs body), Φ, Ψ, rfl, ⟨rfl, rfl, hρ, hf⟩, List.prefix_refl _, List.prefix_refl _, hi⟩
  | .ref i x => by
    intro Γ ρ Φ Ψ s res s' hi hρ hf h
    exact back_ref W n ih hi hρ i x hf h
  | .op o a b => by
    intro Γ ρ Φ Ψ s res s' hi hρ hf h
    simp only [tr, evalC] at h
    cases ha : evalC W (eval W n) (tr a) ρ s with
    | none => simp [ha] at h
    | some q =>
      obtain ⟨resa, s1⟩ := q
      obtain ⟨ma, ra, Φ1, Ψ1, hma, hres, hΦ, hΨ, hi1⟩ := backC W n ih a Γ ρ Φ Ψ s resa s1 hi hρ hf.1 ha
      obtain ⟨ka, hka⟩ := evalN_pos W hma
      rw [ha] at h
      cases ra with
      | error e =>
        cases resa with
        | ok _ => exact hres.elim
        | error e' =>
          cases hres
          simp only [Option.some.injEq, Prod.mk.injEq] at h
          obtain ⟨rfl, rfl⟩ := h
          refine ⟨ka + 1, .error e, Φ1, Ψ1, ?_, rfl, hΦ, hΨ, hi1⟩
          show evalS W (evalN W ka) (.op o a b) Γ = _
          have : evalS W (evalN W ka) a Γ = some (.error e) := hka
          simp only [evalS, this]
      | ok x =>
        cases resa with
        | error _ => exact hres.elim
        | ok x' =>
          simp only at h
          cases hb : evalC W (eval W n) (tr b) ρ s1 with
          | none => simp [hb] at h
          | some q =>
            obtain ⟨resb, s2⟩ := q
            obtain ⟨mb, rb, Φ2, Ψ2, hmb, hres2, hΦ2, hΨ2, hi2⟩ := backC W n ih b Γ ρ Φ1 Ψ1 s1 resb s2 hi1 (hρ.mono hΨ) hf.2 hb
            obtain ⟨kb, hkb⟩ := evalN_pos W hmb
            rw [hb] at h
            have ea : evalS W (evalN W (max ka kb)) a Γ = some (.ok x) := evalN_mono W (Nat.succ_le_succ (Nat.le_max_left ka kb)) hka
            have eb : evalS W (evalN W (max ka kb)) b Γ = some rb := evalN_mono W (Nat.succ_le_succ (Nat.le_max_right ka kb)) hkb
            cases rb with
            | error e =>
              cases resb with
              | ok _ => exact hres2.elim
              | error e' =>
                cases hres2
                simp only [Option.some.injEq, Prod.mk.injEq] at h
                obtain ⟨rfl, rfl⟩ := h
                refine ⟨max ka kb + 1, .error e, Φ2, Ψ2, ?_, rfl, hΦ.trans hΦ2, hΨ.trans hΨ2, hi2⟩
                show evalS W (evalN W (max ka kb)) (.op o a b) Γ = _
                simp only [evalS, ea, eb]
            | ok y =>
              cases resb with
              | error _ => exact hres2.elim
              | ok y' =>
                simp only [Option.some.injEq, Prod.mk.injEq] at h
                obtain ⟨rfl, rfl⟩ := h
                refine ⟨max ka kb + 1, Spec.binop W o x y, Φ2, Ψ2, ?_, binop_rel (hres.mono hΨ2) hres2, hΦ.trans hΦ2, hΨ.trans hΨ2, hi2⟩
                show evalS W (evalN W (max ka kb)) (.op o a b) Γ = _
                simp only [evalS, ea, eb]
  | .ife c a b => by
    intro Γ ρ Φ Ψ s res s' hi hρ hf h
    simp only [tr, evalC] at h
    cases hc : evalC W (eval W n) (tr c) ρ s with
    | none => simp [hc] at h
    | some q =>
      obtain ⟨resc, s1⟩ := q
      obtain ⟨mc, rc, Φ1, Ψ1, hmc, hres, hΦ, hΨ, hi1⟩ := backC W n ih c Γ ρ Φ Ψ s resc s1 hi hρ hf.1 hc
      obtain ⟨kc, hkc⟩ := evalN_pos W hmc
      rw [hc] at h
      cases rc with
      | error e =>
        cases resc with
        | ok _ => exact hres.elim
        | error e' =>
          cases hres
          simp only [Option.some.injEq, Prod.mk.injEq] at h
          obtain ⟨rfl, rfl⟩ := h
          refine ⟨kc + 1, .error e, Φ1, Ψ1, ?_, rfl, hΦ, hΨ, hi1⟩
          show evalS W (evalN W kc) (.ife c a b) Γ = _
          have : evalS W (evalN W kc) c Γ = some (.error e) := hkc
          simp only [evalS, this]
      | ok x =>
        cases resc with
        | error _ => exact hres.elim
        | ok x' =>
          simp only at h
          rw [truthy_rel hres] at h
          by_cases hx : Spec.truthy W x = true
          · rw [if_pos hx] at h
            obtain ⟨mb, rb, Φ2, Ψ2, hmb, hres2, hΦ2, hΨ2, hi2⟩ := backC W n ih a Γ ρ Φ1 Ψ1 s1 res s' hi1 (hρ.mono hΨ) hf.2.1 h
            obtain ⟨kb, hkb⟩ := evalN_pos W hmb
            refine ⟨max kc kb + 1, rb, Φ2, Ψ2, ?_, hres2, hΦ.trans hΦ2, hΨ.trans hΨ2, hi2⟩
            have ec : evalS W (evalN W (max kc kb)) c Γ = some (.ok x) := evalN_mono W (Nat.succ_le_succ (Nat.le_max_left kc kb)) hkc
            have eb : evalS W (evalN W (max kc kb)) a Γ = some rb := evalN_mono W (Nat.succ_le_succ (Nat.le_max_right kc kb)) hkb
            show evalS W (evalN W (max kc kb)) (.ife c a b) Γ = _
            simp only [evalS, ec, if_pos hx, eb]
          · rw [if_neg hx] at h
            obtain ⟨mb, rb, Φ2, Ψ2, hmb, hres2, hΦ2, hΨ2, hi2⟩ := backC W n ih b Γ ρ Φ1 Ψ1 s1 res s' hi1 (hρ.mono hΨ) hf.2.2 h
            obtain ⟨kb, hkb⟩ := evalN_pos W hmb
            refine ⟨max kc kb + 1, rb, Φ2, Ψ2, ?_, hres2, hΦ.trans hΦ2, hΨ.trans hΨ2, hi2⟩
            have ec : evalS W (evalN W (max kc kb)) c Γ = some (.ok x) := evalN_mono W (Nat.succ_le_succ (Nat.le_max_left kc kb)) hkc
            have eb : evalS W (evalN W (max kc kb)) b Γ = some rb := evalN_mono W (Nat.succ_le_succ (Nat.le_max_right kc kb)) hkb
            show evalS W (evalN W (max kc kb)) (.ife c a b) Γ = _
            simp only [evalS, ec, if_neg hx, eb]
  | .letter rr bs body => by
    intro Γ ρ Φ Ψ s res s' hi hρ hf h
    simp only [tr, evalC] at h
    obtain ⟨s1, Φ1, hfill, hΦ, hi1, hρ1, hfb, hruns, hpre⟩ := let_ok W (eval W n) hi hρ rr bs body hf
    simp only [hfill] at h
    obtain ⟨m, r, Φ2, Ψ2, hm, hres, hΦ2, hΨ2, hi2⟩ := backC W n ih body _ _ Φ1 _ s1 res s' hi1 hρ1 hfb h
    obtain ⟨k, hk⟩ := evalN_pos W hm
    exact ⟨k + 1, r, Φ2, Ψ2, hk, hres, hΦ.trans hΦ2, (List.prefix_append _ _).trans hΨ2, hi2⟩
  | .app f as => by
    intro Γ ρ Φ Ψ s res s' hi hρ hf h
    simp only [tr, evalC] at h
    cases ha : evalC W (eval W n) (tr f) ρ s with
    | none => simp [ha] at h
    | some q =>
      obtain ⟨resf, s1⟩ := q
      obtain ⟨mf, rf, Φ1, Ψ1, hmf, hres, hΦ, hΨ, hi1⟩ := backC W n ih f Γ ρ Φ Ψ s resf s1 hi hρ hf.1 ha
      obtain ⟨kf, hkf⟩ := evalN_pos W hmf
      rw [ha] at h
      cases rf with
      | error e =>
        cases resf with
        | ok _ => exact hres.elim
        | error e' =>
          cases hres
          simp only [Option.some.injEq, Prod.mk.injEq] at h
          obtain ⟨rfl, rfl⟩ := h
          refine ⟨kf + 1, .error e, Φ1, Ψ1, ?_, rfl, hΦ, hΨ, hi1⟩
          show evalS W (evalN W kf) (.app f as) Γ = _
          have : evalS W (evalN W kf) f Γ = some (.error e) := hkf
          simp only [evalS, this]
      | ok v =>
        cases resf with
        | error _ => exact hres.elim
        | ok fo =>
          simp only at h
          obtain ⟨os, Φ2, prs, g1, g2, g3, g4, g5⟩ := args_ok W (eval W n) (hρ.mono hΨ) as Φ1 s1 hi1 hf.2
          simp only [g1] at h
          have hi2 : Inv W Φ2 Ψ1 { s1 with prs := prs } := ⟨g4, hi1.2.mono g3⟩
          cases v with
          | con b =>
            have ev : evalN W (kf + 1) Γ (.app f as) = some (.error W.typeError) := by
              show evalS W (evalN W kf) (.app f as) Γ = _
              have : evalS W (evalN W kf) f Γ = some (.ok (.con b)) := hkf
              simp only [evalS, this]
            cases fo with
            | con b' =>
              simp only [invoke, Option.some.injEq, Prod.mk.injEq] at h
              obtain ⟨rfl, rfl⟩ := h
              exact ⟨_, _, Φ2, Ψ1, ev, rfl, hΦ.trans g3, hΨ, hi2⟩
            | clo _ _ _ => exact hres.elim
            | promise _ => exact hres.elim
          | fn Γf xs body =>
            cases fo with
            | con _ => exact hres.elim
            | promise _ => exact hres.elim
            | clo ρf xs' c =>
              obtain ⟨rfl, rfl, hρf, hfb⟩ := hres
              simp only [invoke, g5.count] at h
              by_cases hl : xs.length = count as
              · rw [if_pos hl] at h
                obtain ⟨hi3, hρ3⟩ := call_ok hi2 hρf g5 hl
                obtain ⟨mb, rb, Φ3, Ψ3, hmb, hres3, hΦ3, hΨ3, hi3'⟩ := ih body _ _ Φ2 _ _ res s' hi3 hρ3 hfb h
                refine ⟨max kf mb + 1, rb, Φ3, Ψ3, ?_, hres3, (hΦ.trans g3).trans hΦ3, (hΨ.trans (List.prefix_append _ _)).trans hΨ3, hi3'⟩
                have ef : evalS W (evalN W (max kf mb)) f Γ = some (.ok (.fn Γf xs body)) := evalN_mono W (Nat.succ_le_succ (Nat.le_max_left kf mb)) hkf
                show evalS W (evalN W (max kf mb)) (.app f as) Γ = _
                simp only [evalS, ef, if_pos hl]
                exact evalN_mono W (Nat.le_max_right kf mb) hmb
              · rw [if_neg hl] at h
                simp only [Option.some.injEq, Prod.mk.injEq] at h
                obtain ⟨rfl, rfl⟩ := h
                refine ⟨kf + 1, .error W.typeError, Φ2, Ψ1, ?_, rfl, hΦ.trans g3, hΨ, hi2⟩
                have ef : evalS W (evalN W kf) f Γ = some (.ok (.fn Γf xs body)) := hkf
                show evalS W (evalN W kf) (.app f as) Γ = _
                simp only [evalS, ef, if_neg hl]

theorem back (W : World β ω ε) : ∀ n e Γ ρ Φ Ψ s res s', Inv W Φ Ψ s → EnvRel Ψ ρ Γ → Fine e (Γ.map fnames) → eval W n ρ (tr e) s = some (res, s') → Back W Γ e Φ Ψ res s'
  | 0 => fun _ _ _ _ _ _ _ _ _ _ _ h => nomatch h
  | n + 1 => fun e Γ ρ Φ Ψ s res s' hi hρ hf h => backC W n (back W n) e Γ ρ Φ Ψ s res s' hi hρ hf h

/-! ## the same code outside of a lazy block -/

def SValRel (Ψ : Psi β ω) : SVal β ω → Spec.Val β ω → Prop
  | .con b, .con b' => b = b'
  | .fn ρ xs body, .fn Γ xs' body' => xs = xs' ∧ body = body' ∧ EnvRel Ψ ρ Γ
  | _, _ => False

theorem SValRel.mono {Ψ Ψ' : Psi β ω} (h : Ψ <+: Ψ') {v : SVal β ω} {w : Spec.Val β ω} (hr : SValRel Ψ v w) : SValRel Ψ' v w := by
  cases v with
  | con b => cases w <;> exact hr
  | fn ρ xs body =>
    cases w with
    | con b => exact hr
    | fn Γ xs' body' => exact ⟨hr.1, hr.2.1, hr.2.2.mono h⟩

/-- the value that a name has is the one that its expression comes to -/
def SEnv (W : World β ω ε) (Ψ : Psi β ω) (fr : Frame β ω) (Γ : List (Frame β ω)) (env : List (String × SVal β ω)) : Prop :=
  ∀ x v, env.lookup x = some v → ∃ Γ' e n w, bound x fr Γ = some (Γ', e) ∧ evalN W n Γ' e = some (.ok w) ∧ SValRel Ψ v w

def SHeap (W : World β ω ε) (Ψ : Psi β ω) (h : Heap β ω) : Prop :=
  Ψ.length = h.length ∧ ∀ (k : Nat) (env : List (String × SVal β ω)), h[k]? = some env → ∃ fr Γ, Ψ[k]? = some (fr :: Γ) ∧ SEnv W Ψ fr Γ env

theorem SEnv.mono {W : World β ω ε} {Ψ Ψ' : Psi β ω} (h : Ψ <+: Ψ') {fr : Frame β ω} {Γ : List (Frame β ω)} {env : List (String × SVal β ω)} (hr : SEnv W Ψ fr Γ env) : SEnv W Ψ' fr Γ env := by
  intro x v hx
  obtain ⟨Γ', e, n, w, h1, h2, h3⟩ := hr x v hx
  exact ⟨Γ', e, n, w, h1, h2, h3.mono h⟩

theorem SHeap.push {W : World β ω ε} {Ψ : Psi β ω} {h : Heap β ω} (hh : SHeap W Ψ h) {fr : Frame β ω} {Γ : List (Frame β ω)} {env : List (String × SVal β ω)} (he : SEnv W Ψ fr Γ env) :
    SHeap W (Ψ ++ [fr :: Γ]) (h ++ [env]) := by
  refine ⟨by simp [hh.1], fun k env' hk => ?_⟩
  rw [List.getElem?_append] at hk
  by_cases hlt : k < h.length
  · rw [if_pos hlt] at hk
    obtain ⟨fr', Γ', h1, h2⟩ := hh.2 k env' hk
    exact ⟨fr', Γ', prefix_get (List.prefix_append _ _) h1, h2.mono (List.prefix_append _ _)⟩
  · rw [if_neg hlt] at hk
    have h0 : k - h.length = 0 := by
      have := (List.getElem?_eq_some_iff.mp hk).1
      simp at this; omega
    rw [h0] at hk
    simp at hk; subst hk
    refine ⟨fr, Γ, ?_, he.mono (List.prefix_append _ _)⟩
    rw [List.getElem?_append_right (by rw [hh.1]; omega)]
    have : k - Ψ.length = 0 := by rw [hh.1]; omega
    simp [this]

def Keep (h h' : Heap β ω) : Prop := ∀ (j : Nat) (env : List (String × SVal β ω)), h[j]? = some env → h'[j]? = some env

theorem EnvRel.cons {Ψ : Psi β ω} {ρ : List Nat} {Γ : List (Frame β ω)} {k : Nat} {fr : Frame β ω} (h : EnvRel Ψ ρ Γ) (hk : Ψ[k]? = some (fr :: Γ)) : EnvRel Ψ (k :: ρ) (fr :: Γ) := by
  refine ⟨by simp [h.1], fun i j hj => ?_⟩
  cases i with
  | zero => simp at hj; subst hj; exact hk
  | succ i => exact h.2 i j (by simpa using hj)

theorem sbinop_rel {W : World β ω ε} {Ψ : Psi β ω} {o : ω} {x y z : SVal β ω} {x' y' : Spec.Val β ω} (hx : SValRel Ψ x x') (hy : SValRel Ψ y y') (hz : sbinop W o x y = .ok z) :
    ∃ z', Spec.binop W o x' y' = .ok z' ∧ SValRel Ψ z z' := by
  cases x with
  | fn _ _ _ => exact nomatch hz
  | con b =>
    cases y with
    | fn _ _ _ => exact nomatch hz
    | con c =>
      cases x' with
      | fn _ _ _ => exact hx.elim
      | con b' =>
        cases y' with
        | fn _ _ _ => exact hy.elim
        | con c' =>
          cases hx; cases hy
          simp only [sbinop] at hz
          simp only [Spec.binop]
          cases hop : W.op o b c with
          | error e => rw [hop] at hz; exact nomatch hz
          | ok d =>
            rw [hop] at hz
            simp only [Except.ok.injEq] at hz
            subst hz
            exact ⟨_, rfl, rfl⟩

theorem struthy_rel {W : World β ω ε} {Ψ : Psi β ω} {x : SVal β ω} {x' : Spec.Val β ω} (hx : SValRel Ψ x x') : struthy W x = Spec.truthy W x' := by
  cases x with
  | con b => cases x' with
    | con b' => cases hx; rfl
    | fn _ _ _ => exact hx.elim
  | fn _ _ _ => cases x' with
    | con b' => exact hx.elim
    | fn _ _ _ => rfl

/-- the values of the arguments -/
def SArgs (W : World β ω ε) (Ψ : Psi β ω) (Γ : List (Frame β ω)) : List (SVal β ω) → As β ω → Prop
  | [], .nil => True
  | v :: vs, .cons e as => (∃ n w, evalN W n Γ e = some (.ok w) ∧ SValRel Ψ v w) ∧ SArgs W Ψ Γ vs as
  | _, _ => False

theorem SArgs.count {W : World β ω ε} {Ψ : Psi β ω} {Γ : List (Frame β ω)} : ∀ {vs : List (SVal β ω)} {as : As β ω}, SArgs W Ψ Γ vs as → vs.length = Spec.count as
  | [], .nil, _ => rfl
  | v :: vs, .cons e as, h => by simp only [Spec.count, List.length_cons, SArgs.count h.2]

theorem sparams {W : World β ω ε} {Ψ : Psi β ω} {Γa : List (Frame β ω)} : ∀ (xs : List String) (vs : List (SVal β ω)) (as : As β ω), SArgs W Ψ Γa vs as →
    ∀ x v, (xs.zip vs).lookup x = some v → ∃ e n w, argOf x xs as = some e ∧ evalN W n Γa e = some (.ok w) ∧ SValRel Ψ v w
  | [], _, _, _ => fun x v hx => by simp at hx
  | y :: ys, [], _, _ => fun x v hx => by simp at hx
  | y :: ys, v' :: vs, .cons e as, h => fun x v hx => by
    simp only [List.zip_cons_cons, List.lookup] at hx
    simp only [argOf]
    by_cases hxy : x = y
    · subst hxy
      simp only [beq_self_eq_true] at hx
      cases hx
      obtain ⟨n, w, h1, h2⟩ := h.1
      exact ⟨e, n, w, by simp, h1, h2⟩
    · have hb : (x == y) = false := by simpa using hxy
      rw [hb] at hx
      rw [if_neg hxy]
      exact sparams ys vs as h.2 x v hx

abbrev SCall (β ω ε : Type) := List Nat → Ex β ω → Heap β ω → Option (Except ε (SVal β ω × Heap β ω))

def SOk (W : World β ω ε) (Ψ : Psi β ω) (h : Heap β ω) (Γ : List (Frame β ω)) (e : Ex β ω) (v : SVal β ω) (h' : Heap β ω) : Prop :=
  ∃ Ψ' m w, Ψ <+: Ψ' ∧ SHeap W Ψ' h' ∧ Keep h h' ∧ evalN W m Γ e = some (.ok w) ∧ SValRel Ψ' v w

mutual
theorem strictE_ok (W : World β ω ε) (call : SCall β ω ε)
    (ih : ∀ e ρ Γ Ψ h v h', SHeap W Ψ h → EnvRel Ψ ρ Γ → call ρ e h = some (.ok (v, h')) → SOk W Ψ h Γ e v h') :
    (e : Ex β ω) → ∀ ρ Γ Ψ h v h', SHeap W Ψ h → EnvRel Ψ ρ Γ → strictE W call e ρ h = some (.ok (v, h')) → SOk W Ψ h Γ e v h'
  | .cst b => by
    intro ρ Γ Ψ h v h' hh _ he
    simp only [strictE, Option.some.injEq, Except.ok.injEq, Prod.mk.injEq] at he
    obtain ⟨rfl, rfl⟩ := he
    exact ⟨Ψ, 1, .con b, List.prefix_refl _, hh, fun _ _ h => h, rfl, rfl⟩
  | .lam xs body => by
    intro ρ Γ Ψ h v h' hh hρ he
    simp only [strictE, Option.some.injEq, Except.ok.injEq, Prod.mk.injEq] at he
    obtain ⟨rfl, rfl⟩ := he
    exact ⟨Ψ, 1, .fn Γ xs body, List.prefix_refl _, hh, fun _ _ h => h, rfl, rfl, rfl, hρ⟩
  | .ref i x => by
    intro ρ Γ Ψ h v h' hh hρ he
    simp only [strictE] at he
    cases hk : ρ[i]? with
    | none => simp [hk] at he
    | some k =>
      simp only [hk] at he
      cases henv : h[k]? with
      | none => simp [henv] at he
      | some env =>
        simp only [henv] at he
        cases hl : env.lookup x with
        | none => simp [hl] at he
        | some v' =>
          simp only [hl, Option.some.injEq, Except.ok.injEq, Prod.mk.injEq] at he
          obtain ⟨rfl, rfl⟩ := he
          obtain ⟨fr, Γ', h1, h2⟩ := hh.2 k env henv
          obtain ⟨Γ'', e, n, w, h3, h4, h5⟩ := h2 x v' hl
          have hlt : i < Γ.length := by rw [← hρ.1]; exact (List.getElem?_eq_some_iff.mp hk).1
          obtain ⟨k', hk', hΨ⟩ := hρ.get (List.getElem?_eq_getElem hlt)
          rw [hk] at hk'; cases hk'
          rw [h1] at hΨ
          obtain ⟨rfl, rfl⟩ := List.cons.inj (Option.some.inj hΨ)
          refine ⟨Ψ, n + 1, w, List.prefix_refl _, hh, fun _ _ h => h, ?_, h5⟩
          show evalS W (evalN W n) (.ref i x) Γ = _
          simp only [evalS, List.getElem?_eq_getElem hlt, h3]
          exact h4
  | .op o a b => by
    intro ρ Γ Ψ h v h' hh hρ he
    simp only [strictE] at he
    cases ha : strictE W call a ρ h with
    | none => simp [ha] at he
    | some ra =>
      simp only [ha] at he
      cases ra with
      | error e => simp at he
      | ok q =>
        obtain ⟨x, h1⟩ := q
        simp only at he
        obtain ⟨Ψ1, ma, x', hΨ1, hh1, hk1, ea, rx⟩ := strictE_ok W call ih a ρ Γ Ψ h x h1 hh hρ ha
        cases hb : strictE W call b ρ h1 with
        | none => simp [hb] at he
        | some rb =>
          simp only [hb] at he
          cases rb with
          | error e => simp at he
          | ok q =>
            obtain ⟨y, h2⟩ := q
            simp only at he
            obtain ⟨Ψ2, mb, y', hΨ2, hh2, hk2, eb, ry⟩ := strictE_ok W call ih b ρ Γ Ψ1 h1 y h2 hh1 (hρ.mono hΨ1) hb
            cases hop : sbinop W o x y with
            | error e => simp [hop] at he
            | ok z =>
              simp only [hop, Option.some.injEq, Except.ok.injEq, Prod.mk.injEq] at he
              obtain ⟨rfl, rfl⟩ := he
              obtain ⟨z', hz, rz⟩ := sbinop_rel (rx.mono hΨ2) ry hop
              refine ⟨Ψ2, max ma mb + 1, z', hΨ1.trans hΨ2, hh2, fun j env hj => hk2 j env (hk1 j env hj), ?_, rz⟩
              have e1 : evalS W (evalN W (max ma mb)) a Γ = some (.ok x') := evalN_mono W (by omega : ma ≤ max ma mb + 1) ea
              have e2 : evalS W (evalN W (max ma mb)) b Γ = some (.ok y') := evalN_mono W (by omega : mb ≤ max ma mb + 1) eb
              show evalS W (evalN W (max ma mb)) (.op o a b) Γ = _
              simp only [evalS, e1, e2, hz]
  | .ife c a b => by
    intro ρ Γ Ψ h v h' hh hρ he
    simp only [strictE] at he
    cases hc : strictE W call c ρ h with
    | none => simp [hc] at he
    | some rc =>
      simp only [hc] at he
      cases rc with
      | error e => simp at he
      | ok q =>
        obtain ⟨x, h1⟩ := q
        simp only at he
        obtain ⟨Ψ1, mc, x', hΨ1, hh1, hk1, ec, rx⟩ := strictE_ok W call ih c ρ Γ Ψ h x h1 hh hρ hc
        rw [struthy_rel rx] at he
        by_cases hx : Spec.truthy W x' = true
        · rw [if_pos hx] at he
          obtain ⟨Ψ2, mb, y', hΨ2, hh2, hk2, eb, ry⟩ := strictE_ok W call ih a ρ Γ Ψ1 h1 v h' hh1 (hρ.mono hΨ1) he
          refine ⟨Ψ2, max mc mb + 1, y', hΨ1.trans hΨ2, hh2, fun j env hj => hk2 j env (hk1 j env hj), ?_, ry⟩
          have e1 : evalS W (evalN W (max mc mb)) c Γ = some (.ok x') := evalN_mono W (by omega : mc ≤ max mc mb + 1) ec
          have e2 : evalS W (evalN W (max mc mb)) a Γ = some (.ok y') := evalN_mono W (by omega : mb ≤ max mc mb + 1) eb
          show evalS W (evalN W (max mc mb)) (.ife c a b) Γ = _
          simp only [evalS, e1, if_pos hx, e2]
        · rw [if_neg hx] at he
          obtain ⟨Ψ2, mb, y', hΨ2, hh2, hk2, eb, ry⟩ := strictE_ok W call ih b ρ Γ Ψ1 h1 v h' hh1 (hρ.mono hΨ1) he
          refine ⟨Ψ2, max mc mb + 1, y', hΨ1.trans hΨ2, hh2, fun j env hj => hk2 j env (hk1 j env hj), ?_, ry⟩
          have e1 : evalS W (evalN W (max mc mb)) c Γ = some (.ok x') := evalN_mono W (by omega : mc ≤ max mc mb + 1) ec
          have e2 : evalS W (evalN W (max mc mb)) b Γ = some (.ok y') := evalN_mono W (by omega : mb ≤ max mc mb + 1) eb
          show evalS W (evalN W (max mc mb)) (.ife c a b) Γ = _
          simp only [evalS, e1, if_neg hx, e2]
  | .letter r bs body => by
    intro ρ Γ Ψ h v h' hh hρ he
    simp only [strictE] at he
    cases hb : strictBs W call r h.length bs ρ (h ++ [[]]) with
    | none => simp [hb] at he
    | some rb =>
      simp only [hb] at he
      cases rb with
      | error e => simp at he
      | ok h1 =>
        simp only at he
        have hp : SHeap W (Ψ ++ [.lets r bs :: Γ]) (h ++ [[]]) := hh.push fun x v hx => nomatch hx
        have hΨk : (Ψ ++ [.lets r bs :: Γ])[h.length]? = some (.lets r bs :: Γ) := by rw [← hh.1]; simp
        have hρ0 : EnvRel (Ψ ++ [.lets r bs :: Γ]) ρ Γ := hρ.mono (List.prefix_append _ _)
        obtain ⟨Ψ1, hΨ1, hh1, hk1⟩ := strictBs_ok W call ih r h.length bs bs ρ Γ _ (h ++ [[]]) h1 [] hp hρ0 hΨk (by simp) (fun _ _ _ h => h) hb
        have hρ1 : EnvRel Ψ1 (h.length :: ρ) (.lets r bs :: Γ) := (hρ0.cons hΨk).mono hΨ1
        obtain ⟨Ψ2, m, w, hΨ2, hh2, hk2, ev, rv⟩ := strictE_ok W call ih body _ _ Ψ1 h1 v h' hh1 hρ1 he
        refine ⟨Ψ2, m + 1, w, ((List.prefix_append _ _).trans hΨ1).trans hΨ2, hh2, fun j env hj => ?_, ?_, rv⟩
        · have hjl := (List.getElem?_eq_some_iff.mp hj).1
          exact hk2 j env (hk1 j env (by omega) (by rw [List.getElem?_append_left hjl]; exact hj))
        · show evalS W (evalN W m) body (.lets r bs :: Γ) = _
          exact evalN_succ W m _ _ _ ev
  | .app f as => by
    intro ρ Γ Ψ h v h' hh hρ he
    simp only [strictE] at he
    cases hf : strictE W call f ρ h with
    | none => simp [hf] at he
    | some rf =>
      simp only [hf] at he
      cases rf with
      | error e => simp at he
      | ok q =>
        obtain ⟨fv, h1⟩ := q
        simp only at he
        obtain ⟨Ψ1, mf, f', hΨ1, hh1, hk1, ef, rfv⟩ := strictE_ok W call ih f ρ Γ Ψ h fv h1 hh hρ hf
        cases ha : strictAs W call as ρ h1 with
        | none => simp [ha] at he
        | some ra =>
          simp only [ha] at he
          cases ra with
          | error e => simp at he
          | ok q =>
            obtain ⟨vs, h2⟩ := q
            simp only at he
            obtain ⟨Ψ2, hΨ2, hh2, hk2, hargs⟩ := strictAs_ok W call ih as ρ Γ Ψ1 h1 vs h2 hh1 (hρ.mono hΨ1) ha
            cases fv with
            | con b => simp at he
            | fn ρf xs body =>
              cases f' with
              | con b => exact rfv.elim
              | fn Γf xs' body' =>
                obtain ⟨rfl, rfl, hρf⟩ := rfv
                simp only [hargs.count] at he
                by_cases hl : xs.length = count as
                · rw [if_pos hl] at he
                  have hp : SHeap W (Ψ2 ++ [.params xs Γ as :: Γf]) (h2 ++ [xs.zip vs]) := hh2.push fun x v hx => by
                    obtain ⟨e, n, w, g1, g2, g3⟩ := sparams xs vs as hargs x v hx
                    exact ⟨Γ, e, n, w, by simp only [bound, g1, Option.map_some], g2, g3⟩
                  have hρ2 : EnvRel (Ψ2 ++ [.params xs Γ as :: Γf]) (h2.length :: ρf) (.params xs Γ as :: Γf) := by
                    rw [← hh2.1]; exact (hρf.mono hΨ2).push _
                  obtain ⟨Ψ3, m, w, hΨ3, hh3, hk3, ev, rv⟩ := ih body _ _ _ _ v h' hp hρ2 he
                  refine ⟨Ψ3, max mf m + 1, w, ((hΨ1.trans hΨ2).trans (List.prefix_append _ _)).trans hΨ3, hh3, fun j env hj => ?_, ?_, rv⟩
                  · have hj2 := hk2 j env (hk1 j env hj)
                    exact hk3 j env (by rw [List.getElem?_append_left (List.getElem?_eq_some_iff.mp hj2).1]; exact hj2)
                  · have e1 : evalS W (evalN W (max mf m)) f Γ = some (.ok (.fn Γf xs body)) := evalN_mono W (by omega : mf ≤ max mf m + 1) ef
                    show evalS W (evalN W (max mf m)) (.app f as) Γ = _
                    simp only [evalS, e1, if_pos hl]
                    exact evalN_mono W (Nat.le_max_right mf m) ev
                · rw [if_neg hl] at he; simp at he
theorem strictBs_ok (W : World β ω ε) (call : SCall β ω ε)
    (ih : ∀ e ρ Γ Ψ h v h', SHeap W Ψ h → EnvRel Ψ ρ Γ → call ρ e h = some (.ok (v, h')) → SOk W Ψ h Γ e v h') (r : Bool) (k : Nat) (bs : Bs β ω) :
    (rest : Bs β ω) → ∀ ρ Γ Ψ h h' cur, SHeap W Ψ h → EnvRel Ψ ρ Γ → Ψ[k]? = some (.lets r bs :: Γ) → h[k]? = some cur →
      (∀ x, cur.lookup x = none → ∀ e, find x rest = some e → find x bs = some e) → strictBs W call r k rest ρ h = some (.ok h') →
      ∃ Ψ', Ψ <+: Ψ' ∧ SHeap W Ψ' h' ∧ ∀ (j : Nat) (env : List (String × SVal β ω)), j ≠ k → h[j]? = some env → h'[j]? = some env
  | .nil => by
    intro ρ Γ Ψ h h' cur hh _ _ _ _ he
    simp only [strictBs, Option.some.injEq, Except.ok.injEq] at he
    subst he
    exact ⟨Ψ, List.prefix_refl _, hh, fun _ _ _ h => h⟩
  | .cons y e rest => by
    intro ρ Γ Ψ h h' cur hh hρ hΨk hcur hsub he
    simp only [strictBs, hcur, Option.getD_some] at he
    cases hl : cur.lookup y with
    | some v => simp [hl] at he
    | none =>
      simp only [hl, Option.isSome_none, Bool.false_eq_true, if_false] at he
      cases hv : strictE W call e (if r then k :: ρ else ρ) h with
      | none => simp [hv] at he
      | some rv =>
        simp only [hv] at he
        cases rv with
        | error e => simp at he
        | ok q =>
          obtain ⟨v, h1⟩ := q
          simp only at he
          have hρ' : EnvRel Ψ (if r then k :: ρ else ρ) (if r then .lets r bs :: Γ else Γ) := by
            cases r with
            | false => exact hρ
            | true => exact hρ.cons hΨk
          obtain ⟨Ψ1, m, w, hΨ1, hh1, hk1, ev, rvw⟩ := strictE_ok W call ih e _ _ Ψ h v h1 hh hρ' hv
          have hcur1 := hk1 k cur hcur
          have hΨk1 := prefix_get hΨ1 hΨk
          have hfy : find y bs = some e := hsub y hl e (by simp [find])
          have hh2 : SHeap W Ψ1 (h1.modify k (· ++ [(y, v)])) := by
            refine ⟨by simp [hh1.1], fun j env hj => ?_⟩
            rw [List.getElem?_modify] at hj
            by_cases hjk : k = j
            · subst hjk
              rw [hcur1] at hj
              simp at hj; subst hj
              refine ⟨_, _, hΨk1, fun x u hx => ?_⟩
              rw [lookup_append] at hx
              cases hlx : cur.lookup x with
              | some u' =>
                simp only [hlx] at hx; cases hx
                obtain ⟨fr, Γ', g1, g2⟩ := hh1.2 k cur hcur1
                rw [hΨk1] at g1
                obtain ⟨rfl, rfl⟩ := List.cons.inj (Option.some.inj g1)
                exact g2 x _ hlx
              | none =>
                simp only [hlx] at hx
                by_cases hxy : x = y
                · rw [if_pos hxy] at hx; cases hx; subst hxy
                  exact ⟨_, e, m, w, by simp only [bound, hfy, Option.map_some], ev, rvw⟩
                · rw [if_neg hxy] at hx; exact nomatch hx
            · simp [hjk] at hj
              exact hh1.2 j env hj
          obtain ⟨Ψ2, hΨ2, hh3, hk3⟩ := strictBs_ok W call ih r k bs rest ρ Γ Ψ1 _ h' (cur ++ [(y, v)]) hh2 (hρ.mono hΨ1) hΨk1
            (by rw [List.getElem?_modify]; simp [hcur1])
            (fun x hx e' he' => by
              rw [lookup_append] at hx
              cases hlx : cur.lookup x with
              | some u => simp [hlx] at hx
              | none =>
                simp only [hlx] at hx
                have hxy : x ≠ y := fun hxy => by rw [if_pos hxy] at hx; exact nomatch hx
                exact hsub x hlx e' (by simp only [find]; rw [if_neg hxy]; exact he')) he
          refine ⟨Ψ2, hΨ1.trans hΨ2, hh3, fun j env hjk hj => hk3 j env hjk ?_⟩
          rw [List.getElem?_modify]
          simp [Ne.symm hjk, hk1 j env hj]
theorem strictAs_ok (W : World β ω ε) (call : SCall β ω ε)
    (ih : ∀ e ρ Γ Ψ h v h', SHeap W Ψ h → EnvRel Ψ ρ Γ → call ρ e h = some (.ok (v, h')) → SOk W Ψ h Γ e v h') :
    (as : As β ω) → ∀ ρ Γ Ψ h vs h', SHeap W Ψ h → EnvRel Ψ ρ Γ → strictAs W call as ρ h = some (.ok (vs, h')) →
      ∃ Ψ', Ψ <+: Ψ' ∧ SHeap W Ψ' h' ∧ Keep h h' ∧ SArgs W Ψ' Γ vs as
  | .nil => by
    intro ρ Γ Ψ h vs h' hh _ he
    simp only [strictAs, Option.some.injEq, Except.ok.injEq, Prod.mk.injEq] at he
    obtain ⟨rfl, rfl⟩ := he
    exact ⟨Ψ, List.prefix_refl _, hh, fun _ _ h => h, trivial⟩
  | .cons e as => by
    intro ρ Γ Ψ h vs h' hh hρ he
    simp only [strictAs] at he
    cases hv : strictE W call e ρ h with
    | none => simp [hv] at he
    | some rv =>
      simp only [hv] at he
      cases rv with
      | error e => simp at he
      | ok q =>
        obtain ⟨v, h1⟩ := q
        simp only at he
        obtain ⟨Ψ1, m, w, hΨ1, hh1, hk1, ev, rvw⟩ := strictE_ok W call ih e ρ Γ Ψ h v h1 hh hρ hv
        cases ha : strictAs W call as ρ h1 with
        | none => simp [ha] at he
        | some ra =>
          simp only [ha] at he
          cases ra with
          | error e => simp at he
          | ok q =>
            obtain ⟨us, h2⟩ := q
            simp only [Option.some.injEq, Except.ok.injEq, Prod.mk.injEq] at he
            obtain ⟨rfl, rfl⟩ := he
            obtain ⟨Ψ2, hΨ2, hh2, hk2, hargs⟩ := strictAs_ok W call ih as ρ Γ Ψ1 h1 us h2 hh1 (hρ.mono hΨ1) ha
            exact ⟨Ψ2, hΨ1.trans hΨ2, hh2, fun j env hj => hk2 j env (hk1 j env hj), ⟨m, w, ev, rvw.mono hΨ2⟩, hargs⟩
end

theorem strictN_ok (W : World β ω ε) : ∀ n e ρ Γ Ψ h v h', SHeap W Ψ h → EnvRel Ψ ρ Γ → strictN W n ρ e h = some (.ok (v, h')) → SOk W Ψ h Γ e v h'
  | 0 => fun _ _ _ _ _ _ _ _ _ h => nomatch h
  | n + 1 => fun e ρ Γ Ψ h v h' hh hρ he => strictE_ok W (strictN W n) (strictN_ok W n) e ρ Γ Ψ h v h' hh hρ he

end Unpy.LazyFun.Lemmas
