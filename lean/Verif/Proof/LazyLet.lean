import Verif.Model.LazyLet
import Verif.Spec.LazyLet
/-!
# Lemmas for C157
-/
namespace Unpy.LazyLet.Lemmas
open Unpy.LazyLet Unpy.LazyLet.Spec
variable {β ω ε : Type}

theorem find_mem {x : String} {bs : Bs β ω} (h : x ∈ names bs) : ∃ e, find x bs = some e := by
  match bs with
  | .nil => simp [names] at h
  | .cons y e bs =>
    simp only [find]
    by_cases hx : x = y
    · exact ⟨e, if_pos hx⟩
    · simp only [names, List.mem_cons, hx, false_or] at h
      obtain ⟨e', h'⟩ := find_mem h
      exact ⟨e', by rw [if_neg hx]; exact h'⟩

theorem mem_find {x : String} {bs : Bs β ω} {e : Ex β ω} (h : find x bs = some e) : x ∈ names bs := by
  match bs with
  | .nil => simp [find] at h
  | .cons y e' bs =>
    simp only [find] at h
    by_cases hx : x = y
    · simp [names, hx]
    · rw [if_neg hx] at h
      simp [names, mem_find h]

/-! ## the specification is monotonic -/

theorem evalS_mono (W : World β ω ε) {c1 c2 : List (Frame β ω) → Ex β ω → Option (Except ε β)} (hc : ∀ Γ e r, c1 Γ e = some r → c2 Γ e = some r) :
    (e : Ex β ω) → (Γ : List (Frame β ω)) → (r : Except ε β) → evalS W c1 e Γ = some r → evalS W c2 e Γ = some r
  | .cst _, _, _, h => h
  | .ref i x, Γ, r, h => by
    simp only [evalS] at h ⊢
    cases h1 : Γ[i]? with
    | none => simpa [h1] using h
    | some fr =>
      simp only [h1] at h ⊢
      cases h2 : find x fr.bs with
      | none => simpa [h2] using h
      | some e => simp only [h2] at h ⊢; exact hc _ _ _ h
  | .op o a b, Γ, r, h => by
    simp only [evalS] at h ⊢
    cases h1 : evalS W c1 a Γ with
    | none => simp [h1] at h
    | some ra =>
      rw [evalS_mono W hc a Γ ra h1]
      rw [h1] at h
      cases ra with
      | error e => exact h
      | ok x =>
        simp only at h ⊢
        cases h2 : evalS W c1 b Γ with
        | none => simp [h2] at h
        | some rb =>
          rw [evalS_mono W hc b Γ rb h2]
          rw [h2] at h
          exact h
  | .ife c a b, Γ, r, h => by
    simp only [evalS] at h ⊢
    cases h1 : evalS W c1 c Γ with
    | none => simp [h1] at h
    | some rc =>
      rw [evalS_mono W hc c Γ rc h1]
      rw [h1] at h
      cases rc with
      | error e => exact h
      | ok x =>
        simp only at h ⊢
        by_cases hx : W.truth x = true
        · rw [if_pos hx] at h ⊢; exact evalS_mono W hc a Γ r h
        · rw [if_neg hx] at h ⊢; exact evalS_mono W hc b Γ r h
  | .letter rr bs body, Γ, r, h => evalS_mono W hc body _ r h

theorem evalN_succ (W : World β ω ε) : ∀ n Γ e r, evalN W n Γ e = some r → evalN W (n + 1) Γ e = some r
  | 0, _, _, _, h => nomatch h
  | n + 1, Γ, e, r, h => evalS_mono W (evalN_succ W n) e Γ r h

theorem evalN_mono (W : World β ω ε) {n m : Nat} (hnm : n ≤ m) {Γ : List (Frame β ω)} {e : Ex β ω} {r : Except ε β} (h : evalN W n Γ e = some r) : evalN W m Γ e = some r := by
  induction hnm with
  | refl => exact h
  | step _ ih => exact evalN_succ W _ _ _ _ ih

theorem evalN_det (W : World β ω ε) {n m : Nat} {Γ : List (Frame β ω)} {e : Ex β ω} {r r' : Except ε β} (h : evalN W n Γ e = some r) (h' : evalN W m Γ e = some r') : r = r' := by
  have a := evalN_mono W (Nat.le_max_left n m) h
  have b := evalN_mono W (Nat.le_max_right n m) h'
  rw [a] at b; exact Option.some.inj b

/-! ## the invariant -/

/-- what the promises stand for -/
abbrev Phi (β ω : Type) := List (List (Frame β ω) × Ex β ω)
/-- what the environments stand for -/
abbrev Psi (β ω : Type) := List (List (Frame β ω))

def EnvRel (Ψ : Psi β ω) (ρ : List Nat) (Γ : List (Frame β ω)) : Prop :=
  ρ.length = Γ.length ∧ ∀ i k, ρ[i]? = some k → Ψ[k]? = some (Γ.drop i)

def Rel (W : World β ω ε) (Φ : Phi β ω) (o : Obj β) (Γ : List (Frame β ω)) (e : Ex β ω) : Prop :=
  ∃ p Γ' e', o = .promise p ∧ Φ[p]? = some (Γ', e') ∧ (∀ n r, evalN W n Γ e = some r → evalN W n Γ' e' = some r) ∧
    (∀ n r, evalN W n Γ' e' = some r → ∃ m, evalN W m Γ e = some r)

def PrOk (W : World β ω ε) (Ψ : Psi β ω) (Γ : List (Frame β ω)) (e : Ex β ω) : Pr β ω ε → Prop
  | .todo ρ c => c = tr e ∧ EnvRel Ψ ρ Γ ∧ Fine e Γ
  | .done o => ∃ b m, o = .con b ∧ evalN W m Γ e = some (.ok b)
  | .failed err => ∃ m, evalN W m Γ e = some (.error err)

def scope (fr : Frame β ω) (Γ : List (Frame β ω)) : List (Frame β ω) := if fr.isrec then fr :: Γ else Γ

def PrsInv (W : World β ω ε) (Φ : Phi β ω) (Ψ : Psi β ω) (prs : List (Pr β ω ε)) : Prop :=
  Φ.length = prs.length ∧ ∀ (p : Nat) (pr : Pr β ω ε), prs[p]? = some pr → ∃ Γ e, Φ[p]? = some (Γ, e) ∧ PrOk W Ψ Γ e pr

def EnvOk (W : World β ω ε) (Φ : Phi β ω) (fr : Frame β ω) (Γ : List (Frame β ω)) (env : List (String × Obj β)) : Prop :=
  ∀ x e, find x fr.bs = some e → ∃ o, env.lookup x = some o ∧ Rel W Φ o (scope fr Γ) e

def EnvsInv (W : World β ω ε) (Φ : Phi β ω) (Ψ : Psi β ω) (envs : List (List (String × Obj β))) : Prop :=
  Ψ.length = envs.length ∧ ∀ (k : Nat) (env : List (String × Obj β)), envs[k]? = some env → ∃ fr Γ, Ψ[k]? = some (fr :: Γ) ∧ EnvOk W Φ fr Γ env

def Inv (W : World β ω ε) (Φ : Phi β ω) (Ψ : Psi β ω) (s : St β ω ε) : Prop := PrsInv W Φ Ψ s.prs ∧ EnvsInv W Φ Ψ s.envs

theorem prefix_get {α : Type} {l l' : List α} (h : l <+: l') {i : Nat} {a : α} (hi : l[i]? = some a) : l'[i]? = some a := by
  obtain ⟨t, rfl⟩ := h
  have := (List.getElem?_eq_some_iff.mp hi).1
  rw [List.getElem?_append_left this]; exact hi

theorem Rel.mono {W : World β ω ε} {Φ Φ' : Phi β ω} (h : Φ <+: Φ') {o : Obj β} {Γ : List (Frame β ω)} {e : Ex β ω} (hr : Rel W Φ o Γ e) : Rel W Φ' o Γ e := by
  obtain ⟨p, Γ', e', ho, hp, h1, h2⟩ := hr
  exact ⟨p, Γ', e', ho, prefix_get h hp, h1, h2⟩

theorem EnvRel.mono {Ψ Ψ' : Psi β ω} (h : Ψ <+: Ψ') {ρ : List Nat} {Γ : List (Frame β ω)} (hr : EnvRel Ψ ρ Γ) : EnvRel Ψ' ρ Γ :=
  ⟨hr.1, fun i k hk => prefix_get h (hr.2 i k hk)⟩

theorem PrOk.mono {W : World β ω ε} {Ψ Ψ' : Psi β ω} (h : Ψ <+: Ψ') {Γ : List (Frame β ω)} {e : Ex β ω} {pr : Pr β ω ε} (hr : PrOk W Ψ Γ e pr) : PrOk W Ψ' Γ e pr := by
  cases pr with
  | todo ρ c => exact ⟨hr.1, hr.2.1.mono h, hr.2.2⟩
  | done o => exact hr
  | failed err => exact hr

theorem EnvOk.mono {W : World β ω ε} {Φ Φ' : Phi β ω} (h : Φ <+: Φ') {fr : Frame β ω} {Γ : List (Frame β ω)} {env : List (String × Obj β)} (hr : EnvOk W Φ fr Γ env) :
    EnvOk W Φ' fr Γ env := by
  intro x e hx
  obtain ⟨o, ho, hr'⟩ := hr x e hx
  exact ⟨o, ho, hr'.mono h⟩

theorem EnvRel.get {Ψ : Psi β ω} {ρ : List Nat} {Γ : List (Frame β ω)} (h : EnvRel Ψ ρ Γ) {i : Nat} {fr : Frame β ω} (hi : Γ[i]? = some fr) :
    ∃ k, ρ[i]? = some k ∧ Ψ[k]? = some (fr :: Γ.drop (i + 1)) := by
  obtain ⟨hl, hv⟩ := List.getElem?_eq_some_iff.mp hi
  have hl' : i < ρ.length := by rw [h.1]; exact hl
  refine ⟨ρ[i], List.getElem?_eq_getElem hl', ?_⟩
  rw [h.2 i _ (List.getElem?_eq_getElem hl'), List.drop_eq_getElem_cons hl, hv]

theorem scope_eq {Γ : List (Frame β ω)} {i : Nat} {fr : Frame β ω} (hi : Γ[i]? = some fr) :
    (if fr.isrec then Γ.drop i else Γ.drop (i + 1)) = scope fr (Γ.drop (i + 1)) := by
  obtain ⟨hl, hv⟩ := List.getElem?_eq_some_iff.mp hi
  unfold scope
  rw [List.drop_eq_getElem_cons hl, hv]

/-- looking up a name in an environment that has got all of its bindings -/
theorem lookup_ok {W : World β ω ε} {Φ : Phi β ω} {Ψ : Psi β ω} {s : St β ω ε} (hi : EnvsInv W Φ Ψ s.envs) {ρ : List Nat} {Γ : List (Frame β ω)} (hr : EnvRel Ψ ρ Γ)
    {i : Nat} {x : String} {fr : Frame β ω} (hfr : Γ[i]? = some fr) (hx : x ∈ names fr.bs) :
    ∃ o e, getattr ρ i x s = some o ∧ find x fr.bs = some e ∧ Rel W Φ o (scope fr (Γ.drop (i + 1))) e := by
  obtain ⟨k, hk, hΨ⟩ := hr.get hfr
  have hlt := (List.getElem?_eq_some_iff.mp hΨ).1
  rw [hi.1] at hlt
  have he := List.getElem?_eq_getElem hlt
  obtain ⟨fr', Γ', h1, h2⟩ := hi.2 k _ he
  rw [hΨ] at h1
  obtain ⟨rfl, rfl⟩ := List.cons.inj (Option.some.inj h1)
  obtain ⟨e, hf⟩ := find_mem hx
  obtain ⟨o, ho, hR⟩ := h2 x e hf
  exact ⟨o, e, by simp only [getattr, hk, he, ho], hf, hR⟩

/-- a name bound to a name: what it stands for is what the other one stands for -/
theorem Rel.alias {W : World β ω ε} {Φ : Phi β ω} {o : Obj β} {Γ : List (Frame β ω)} {i : Nat} {x : String} {fr : Frame β ω} {e : Ex β ω} (hfr : Γ[i]? = some fr)
    (hf : find x fr.bs = some e) (hR : Rel W Φ o (scope fr (Γ.drop (i + 1))) e) : Rel W Φ o Γ (.ref i x) := by
  obtain ⟨p, Γ', e', ho, hp, h1, h2⟩ := hR
  have key : ∀ n, evalN W (n + 1) Γ (.ref i x) = evalN W n (scope fr (Γ.drop (i + 1))) e := by
    intro n
    show evalS W (evalN W n) (.ref i x) Γ = _
    simp only [evalS, hfr, hf, scope_eq hfr]
  refine ⟨p, Γ', e', ho, hp, fun n r h => ?_, fun n r h => ?_⟩
  · cases n with
    | zero => nomatch h
    | succ n => rw [key] at h; exact evalN_succ W _ _ _ _ (h1 n r h)
  · obtain ⟨m, hm⟩ := h2 n r h
    exact ⟨m + 1, by rw [key]; exact hm⟩

/-! ## filling an environment -/

/-- the binding of one name, as code, gives an object for it and runs nothing -/
def argCode (e : Ex β ω) : Code β ω := match e with | .ref i y => .ref i y | _ => .lazy (tr e)

theorem arg_lazy (W : World β ω ε) (call : List Nat → Code β ω → St β ω ε → Res β ω ε (Obj β)) (e : Ex β ω) (hne : ∀ i y, e ≠ .ref i y) (ρ : List Nat) (s : St β ω ε) :
    evalC W call (argCode e) ρ s = some (.ok (.promise s.prs.length), { s with prs := s.prs ++ [.todo ρ (tr e)] }) := by
  cases e with
  | ref i y => exact absurd rfl (hne i y)
  | _ => simp only [argCode, evalC]

theorem PrsInv.push {W : World β ω ε} {Φ : Phi β ω} {Ψ : Psi β ω} {prs : List (Pr β ω ε)} (h : PrsInv W Φ Ψ prs) {Γ : List (Frame β ω)} {e : Ex β ω} {pr : Pr β ω ε}
    (hp : PrOk W Ψ Γ e pr) : PrsInv W (Φ ++ [(Γ, e)]) Ψ (prs ++ [pr]) := by
  refine ⟨by simp [h.1], fun p pr' hpr => ?_⟩
  rw [List.getElem?_append] at hpr
  by_cases hlt : p < prs.length
  · rw [if_pos hlt] at hpr
    obtain ⟨Γ', e', h1, h2⟩ := h.2 p pr' hpr
    exact ⟨Γ', e', prefix_get (List.prefix_append _ _) h1, h2⟩
  · rw [if_neg hlt] at hpr
    have : p - prs.length = 0 := by
      have := (List.getElem?_eq_some_iff.mp hpr).1
      simp at this; omega
    rw [this] at hpr
    simp at hpr; subst hpr
    refine ⟨Γ, e, ?_, hp⟩
    rw [List.getElem?_append_right (by rw [h.1]; omega)]
    have : p - Φ.length = 0 := by rw [h.1]; omega
    simp [this]

/-- the state while an environment is filled: the last one has the names `done` -/
structure Filling (W : World β ω ε) (Φ : Phi β ω) (Ψ : Psi β ω) (fr : Frame β ω) (Γ : List (Frame β ω)) (done : List String) (s : St β ω ε) : Prop where
  prs : PrsInv W Φ (Ψ ++ [fr :: Γ]) s.prs
  envs : ∃ old cur, s.envs = old ++ [cur] ∧ EnvsInv W Φ Ψ old ∧ (∀ x, x ∉ done → cur.lookup x = none) ∧
    ∀ x, x ∈ done → ∀ e, find x fr.bs = some e → ∃ o, cur.lookup x = some o ∧ Rel W Φ o (scope fr Γ) e

theorem lookup_append {α : Type} (l : List (String × α)) (x y : String) (a : α) :
    (l ++ [(y, a)]).lookup x = match l.lookup x with | some b => some b | none => if x = y then some a else none := by
  induction l with
  | nil => 
    by_cases h : x = y
    · simp [List.lookup, h]
    · have : (x == y) = false := by simpa using h
      simp [List.lookup, h, this]
  | cons z l ih =>
    obtain ⟨z, b⟩ := z
    simp only [List.cons_append, List.lookup]
    cases x == z with
    | true => rfl
    | false => exact ih

theorem modify_last {α : Type} (l : List α) (a : α) (f : α → α) : (l ++ [a]).modify l.length f = l ++ [f a] := by
  induction l with
  | nil => rfl
  | cons b l ih => simp [ih]

theorem fill_ok (W : World β ω ε) (call : List Nat → Code β ω → St β ω ε → Res β ω ε (Obj β)) (fr : Frame β ω) (Γ : List (Frame β ω)) (Ψ : Psi β ω) (ρ : List Nat) (hρ : EnvRel Ψ ρ Γ)
    (rest : Bs β ω) : ∀ (done : List String) (Φ : Phi β ω) (s : St β ω ε), Filling W Φ Ψ fr Γ done s → FineBs rest fr.isrec done (scope fr Γ) →
      (∀ x ∈ names rest, x ∉ done) → (names rest).Nodup → (∀ x e, find x rest = some e → find x fr.bs = some e) → (∀ x ∈ names fr.bs, x ∈ done ∨ x ∈ names rest) →
      ∃ s' Φ', fill W call fr.isrec Ψ.length (trBs rest) ρ s = some (.ok (), s') ∧ Φ <+: Φ' ∧ Inv W Φ' (Ψ ++ [fr :: Γ]) s' ∧ s'.runs = s.runs ∧ s.prs <+: s'.prs := by
  match rest with
  | .nil =>
    intro done Φ s hF _ _ _ _ hall
    refine ⟨s, Φ, rfl, List.prefix_refl _, ⟨hF.prs, ?_⟩, rfl, List.prefix_refl _⟩
    obtain ⟨old, cur, hs, ho, _, hc⟩ := hF.envs
    rw [hs]
    refine ⟨by simp [ho.1], fun k env hk => ?_⟩
    rw [List.getElem?_append] at hk
    by_cases hlt : k < old.length
    · rw [if_pos hlt] at hk
      obtain ⟨fr', Γ', h1, h2⟩ := ho.2 k env hk
      exact ⟨fr', Γ', prefix_get (List.prefix_append _ _) h1, h2⟩
    · rw [if_neg hlt] at hk
      have h0 : k - old.length = 0 := by
        have := (List.getElem?_eq_some_iff.mp hk).1
        simp at this; omega
      rw [h0] at hk
      simp at hk; subst hk
      refine ⟨fr, Γ, ?_, fun x e hx => ?_⟩
      · rw [List.getElem?_append_right (by rw [ho.1]; omega)]
        have : k - Ψ.length = 0 := by rw [ho.1]; omega
        simp [this]
      · rcases hall x (mem_find hx) with h | h
        · exact hc x h e hx
        · simp [names] at h
  | .cons x e rest =>
    intro done Φ s hF hfine hnew hnd hsub hall
    obtain ⟨hfe, hord, hfr⟩ := hfine
    obtain ⟨old, cur, hs, ho, hn, hc⟩ := hF.envs
    have hk : s.envs[Ψ.length]? = some cur := by
      rw [hs, ho.1]; simp
    have hx : x ∉ done := hnew x (by simp [names])
    have hnx : cur.lookup x = none := hn x hx
    have hρ' : EnvRel (Ψ ++ [fr :: Γ]) (if fr.isrec then Ψ.length :: ρ else ρ) (scope fr Γ) := by
      unfold scope
      cases fr.isrec with
      | false => exact hρ.mono (List.prefix_append _ _)
      | true =>
        refine ⟨by simp [hρ.1], fun i k hi => ?_⟩
        cases i with
        | zero => simp at hi; subst hi; simp
        | succ i => exact prefix_get (List.prefix_append _ _) (hρ.2 i k (by simpa using hi))
    have hfx : find x fr.bs = some e := hsub x e (by simp [find])
    -- what the code of the binding does
    have harg : ∃ o Φ1 prs, evalC W call (argCode e) (if fr.isrec then Ψ.length :: ρ else ρ) s = some (.ok o, { s with prs := prs }) ∧ s.prs <+: prs ∧ Φ <+: Φ1 ∧
        PrsInv W Φ1 (Ψ ++ [fr :: Γ]) prs ∧ Rel W Φ1 o (scope fr Γ) e := by
      by_cases hr : ∃ i y, e = .ref i y
      · obtain ⟨i, y, rfl⟩ := hr
        have main : ∃ o, getattr (if fr.isrec then Ψ.length :: ρ else ρ) i y s = some o ∧ Rel W Φ o (scope fr Γ) (.ref i y) := by
          obtain ⟨fr1, hfr1, hy⟩ := hfe
          by_cases hsame : fr.isrec = true ∧ i = 0
          · obtain ⟨hrec, rfl⟩ := hsame
            have hyd := hord hrec y rfl
            have : fr1 = fr := by simpa [scope, hrec] using hfr1.symm
            subst this
            obtain ⟨ey, hey⟩ := find_mem hy
            obtain ⟨o, hlo, hR⟩ := hc y hyd ey hey
            refine ⟨o, by simp [getattr, hrec, hk, hlo], Rel.alias hfr1 hey ?_⟩
            simpa [scope, hrec] using hR
          · -- an environment that was there before
            have old_ok : ∀ j, Γ[j]? = some fr1 → ∃ o ey, getattr ρ j y s = some o ∧ find y fr1.bs = some ey ∧ Rel W Φ o (scope fr1 (Γ.drop (j + 1))) ey := by
              intro j hj
              obtain ⟨o, ey, h1, h2, h3⟩ := lookup_ok (s := ⟨s.prs, old, s.runs⟩) ho hρ hj hy
              refine ⟨o, ey, ?_, h2, h3⟩
              simp only [getattr] at h1 ⊢
              cases hρj : ρ[j]? with
              | none => simp [hρj] at h1
              | some k =>
                simp only [hρj] at h1 ⊢
                cases hok : old[k]? with
                | none => simp [hok] at h1
                | some env =>
                  simp only [hok] at h1
                  rw [hs, List.getElem?_append_left (List.getElem?_eq_some_iff.mp hok).1, hok]
                  exact h1
            cases hrec : fr.isrec with
            | false =>
              have hfr1' : Γ[i]? = some fr1 := by simpa [scope, hrec] using hfr1
              obtain ⟨o, ey, h1, h2, h3⟩ := old_ok i hfr1'
              refine ⟨o, by simpa using h1, ?_⟩
              simp only [scope, hrec, Bool.false_eq_true, if_false]
              exact Rel.alias hfr1' h2 h3
            | true =>
              cases i with
              | zero => exact absurd ⟨hrec, rfl⟩ hsame
              | succ i =>
                have hfr1' : Γ[i]? = some fr1 := by simpa [scope, hrec] using hfr1
                obtain ⟨o, ey, h1, h2, h3⟩ := old_ok i hfr1'
                refine ⟨o, by simpa [getattr] using h1, ?_⟩
                have e1 : scope fr Γ = fr :: Γ := by simp [scope, hrec]
                rw [e1]
                exact Rel.alias (by simpa using hfr1') h2 (by simpa using h3)
        obtain ⟨o, h1, h2⟩ := main
        exact ⟨o, Φ, s.prs, by simp only [argCode, evalC, h1], List.prefix_refl _, List.prefix_refl _, hF.prs, h2⟩
      · have hne : ∀ i y, e ≠ .ref i y := fun i y h => hr ⟨i, y, h⟩
        refine ⟨.promise s.prs.length, Φ ++ [(scope fr Γ, e)], _, arg_lazy W call e hne _ s, List.prefix_append _ _, List.prefix_append _ _, hF.prs.push ⟨rfl, hρ', hfe⟩, ?_⟩
        refine ⟨_, scope fr Γ, e, rfl, ?_, fun n r h => h, fun n r h => ⟨n, h⟩⟩
        rw [← hF.prs.1]; simp
    obtain ⟨o, Φ1, prs, hev, hpp, hΦ, hprs, hR⟩ := harg
    have hF' : Filling W Φ1 Ψ fr Γ (done ++ [x]) { prs := prs, envs := s.envs.modify Ψ.length (· ++ [(x, o)]), runs := s.runs } := by
      refine ⟨hprs, old, cur ++ [(x, o)], ?_, ⟨ho.1, fun k env hk => ?_⟩, fun y hy => ?_, fun y hy ey hey => ?_⟩
      · show s.envs.modify Ψ.length _ = _
        rw [hs, ho.1, modify_last]
      · obtain ⟨fr', Γ', h1, h2⟩ := ho.2 k env hk
        exact ⟨fr', Γ', h1, h2.mono hΦ⟩
      · simp only [List.mem_append, List.mem_singleton, not_or] at hy
        rw [lookup_append, hn y hy.1]
        simp [hy.2]
      · rw [lookup_append]
        by_cases hyd : y ∈ done
        · obtain ⟨o', h1, h2⟩ := hc y hyd ey hey
          exact ⟨o', by rw [h1], h2.mono hΦ⟩
        · have : y = x := by simpa [hyd] using hy
          subst this
          rw [hfx] at hey; cases hey
          exact ⟨o, by rw [hnx]; simp, hR⟩
    have hnd' : x ∉ names rest ∧ (names rest).Nodup := List.nodup_cons.mp hnd
    obtain ⟨s', Φ', h1, h2, h3, h4, h5⟩ := fill_ok W call fr Γ Ψ ρ hρ rest (done ++ [x]) Φ1 _ hF' hfr
      (fun y hy => by
        simp only [List.mem_append, List.mem_singleton, not_or]
        exact ⟨hnew y (by simp [names, hy]), fun h => hnd'.1 (h ▸ hy)⟩)
      hnd'.2
      (fun y ey hey => hsub y ey (by
        simp only [find]
        rw [if_neg (fun h => hnd'.1 (by rw [← h]; exact mem_find hey))]
        exact hey))
      (fun y hy => by
        rcases hall y hy with h | h
        · exact .inl (List.mem_append_left _ h)
        · simp only [names, List.mem_cons] at h
          rcases h with h | h
          · exact .inl (by simp [h])
          · exact .inr h)
    refine ⟨s', Φ', ?_, hΦ.trans h2, h3, h4, hpp.trans h5⟩
    have e0 : trBs (.cons x e rest) = .cons x (argCode e) (trBs rest) := by
      simp only [trBs]; rfl
    rw [e0]
    simp only [fill, hk, Option.getD_some, hnx, Option.isSome_none, Bool.false_eq_true, if_false, hev]
    exact h1

/-! ## running the code gives what the expression comes to -/


/-- the promise has been forced -/
def Finished (s : St β ω ε) (p : Nat) : Prop := (∃ o, s.prs[p]? = some (.done o)) ∨ ∃ e, s.prs[p]? = some (.failed e)

/-- no code was run twice; code that was run and has not come to an end is of a promise whose expression does not come to an end at depth `k` -/
def Runs (W : World β ω ε) (Φ : Phi β ω) (k : Nat) (s : St β ω ε) : Prop :=
  s.runs.Nodup ∧ ∀ q, q ∈ s.runs → Finished s q ∨ ∀ Γ e, Φ[q]? = some (Γ, e) → evalN W k Γ e = none

/-- what is run does come to an end -/
def Post (s s' : St β ω ε) : Prop := s'.runs.Nodup ∧ ∀ q, q ∈ s'.runs → Finished s' q ∨ (q ∈ s.runs ∧ ¬ Finished s q)

theorem Runs.post {W : World β ω ε} {Φ : Phi β ω} {k : Nat} {s : St β ω ε} (h : Runs W Φ k s) : Post s s := by
  refine ⟨h.1, fun q hq => ?_⟩
  by_cases hf : Finished s q
  · exact .inl hf
  · exact .inr ⟨hq, hf⟩

theorem Post.trans {s s1 s2 : St β ω ε} (h : Post s s1) (h' : Post s1 s2) : Post s s2 := by
  refine ⟨h'.1, fun q hq => ?_⟩
  rcases h'.2 q hq with h1 | ⟨h1, h2⟩
  · exact .inl h1
  · rcases h.2 q h1 with h3 | h3
    · exact absurd h3 h2
    · exact .inr h3

/-- the code of `e` is run, and gives `r`; the promises and environments stay related -/
def Good (W : World β ω ε) (Φ : Phi β ω) (Ψ : Psi β ω) (s : St β ω ε) (run : Res β ω ε (Obj β)) (r : Except ε β) : Prop :=
  ∃ s' Φ' Ψ', run = some (asObj r, s') ∧ Φ <+: Φ' ∧ Ψ <+: Ψ' ∧ Inv W Φ' Ψ' s' ∧ Post s s'

theorem Inv.lt {W : World β ω ε} {Φ : Phi β ω} {Ψ : Psi β ω} {s : St β ω ε} (h : Inv W Φ Ψ s) {p : Nat} {v : List (Frame β ω) × Ex β ω} (hp : Φ[p]? = some v) : p < s.prs.length := by
  have := (List.getElem?_eq_some_iff.mp hp).1
  rw [h.1.1] at this; exact this

theorem Runs.next {W : World β ω ε} {Φ Φ' : Phi β ω} {k : Nat} {s s' : St β ω ε} (h : Runs W Φ k s) (hp : Post s s') (hΦ : Φ <+: Φ') (hb : ∀ q ∈ s.runs, q < Φ.length) :
    Runs W Φ' k s' := by
  refine ⟨hp.1, fun q hq => ?_⟩
  rcases hp.2 q hq with h1 | ⟨h1, h2⟩
  · exact .inl h1
  · rcases h.2 q h1 with h3 | h3
    · exact absurd h3 h2
    · refine .inr fun Γ e hq' => h3 Γ e ?_
      obtain ⟨t, rfl⟩ := hΦ
      rw [List.getElem?_append_left (hb q h1)] at hq'
      exact hq'

theorem Inv.setPr {W : World β ω ε} {Φ : Phi β ω} {Ψ : Psi β ω} {s : St β ω ε} (h : Inv W Φ Ψ s) {p : Nat} {Γ : List (Frame β ω)} {e : Ex β ω} (hp : Φ[p]? = some (Γ, e))
    {pr : Pr β ω ε} (hpr : PrOk W Ψ Γ e pr) : Inv W Φ Ψ { s with prs := s.prs.set p pr } := by
  refine ⟨⟨by simp [h.1.1], fun q pr' hq => ?_⟩, h.2⟩
  simp only [List.getElem?_set] at hq
  by_cases hpq : p = q
  · subst hpq
    rw [if_pos rfl] at hq
    by_cases hlt : p < s.prs.length
    · rw [if_pos hlt] at hq; cases hq
      exact ⟨Γ, e, hp, hpr⟩
    · rw [if_neg hlt] at hq; exact nomatch hq
  · rw [if_neg hpq] at hq
    exact h.1.2 q pr' hq

theorem Finished.lt {s : St β ω ε} {q : Nat} (h : Finished s q) : q < s.prs.length := by
  rcases h with ⟨o, h⟩ | ⟨o, h⟩ <;> exact (List.getElem?_eq_some_iff.mp h).1

/-- the promise that has been run is finished now -/
theorem Post.set {s s1 : St β ω ε} {p : Nat} (h : Post { s with runs := s.runs ++ [p] } s1) (hp : p < s1.prs.length) (pr : Pr β ω ε) (hpr : (∃ o, pr = .done o) ∨ ∃ e, pr = .failed e) :
    Post s { s1 with prs := s1.prs.set p pr } := by
  have hset : Finished { s1 with prs := s1.prs.set p pr } p := by
    have : (s1.prs.set p pr)[p]? = some pr := by rw [List.getElem?_set, if_pos rfl, if_pos hp]
    rcases hpr with ⟨o, rfl⟩ | ⟨e, rfl⟩
    · exact .inl ⟨o, this⟩
    · exact .inr ⟨e, this⟩
  refine ⟨h.1, fun q hq => ?_⟩
  by_cases hqp : q = p
  · subst hqp; exact .inl hset
  · rcases h.2 q hq with h1 | ⟨h1, h2⟩
    · refine .inl ?_
      rcases h1 with ⟨o, h1⟩ | ⟨o, h1⟩
      · exact .inl ⟨o, by show (s1.prs.set p pr)[q]? = _; rw [List.getElem?_set, if_neg (Ne.symm hqp)]; exact h1⟩
      · exact .inr ⟨o, by show (s1.prs.set p pr)[q]? = _; rw [List.getElem?_set, if_neg (Ne.symm hqp)]; exact h1⟩
    · simp only [List.mem_append, List.mem_singleton, hqp, or_false] at h1
      exact .inr ⟨h1, h2⟩

/-- a `let` whose bindings have been put into a new environment -/
theorem let_ok (W : World β ω ε) (call : List Nat → Code β ω → St β ω ε → Res β ω ε (Obj β)) {Φ : Phi β ω} {Ψ : Psi β ω} {s : St β ω ε} (hi : Inv W Φ Ψ s) {ρ : List Nat}
    {Γ : List (Frame β ω)} (hρ : EnvRel Ψ ρ Γ) (r : Bool) (bs : Bs β ω) (body : Ex β ω) (hf : Fine (.letter r bs body) Γ) :
    ∃ s' Φ', fill W call r s.envs.length (trBs bs) ρ { s with envs := s.envs ++ [[]] } = some (.ok (), s') ∧ Φ <+: Φ' ∧ Inv W Φ' (Ψ ++ [⟨r, bs⟩ :: Γ]) s' ∧
      EnvRel (Ψ ++ [⟨r, bs⟩ :: Γ]) (s.envs.length :: ρ) (⟨r, bs⟩ :: Γ) ∧ Fine body (⟨r, bs⟩ :: Γ) ∧ s'.runs = s.runs ∧ s.prs <+: s'.prs := by
  obtain ⟨hnd, hbs, hbody⟩ := hf
  have hF : Filling W Φ Ψ ⟨r, bs⟩ Γ [] { s with envs := s.envs ++ [[]] } := by
    refine ⟨⟨hi.1.1, fun p pr hp => ?_⟩, s.envs, [], rfl, hi.2, fun _ _ => rfl, fun _ h => nomatch h⟩
    obtain ⟨Γ', e', h1, h2⟩ := hi.1.2 p pr hp
    exact ⟨Γ', e', h1, h2.mono (List.prefix_append _ _)⟩
  obtain ⟨s', Φ', h1, h2, h3, h4, h5⟩ := fill_ok W call ⟨r, bs⟩ Γ Ψ ρ hρ bs [] Φ _ hF hbs (fun _ _ h => nomatch h) hnd (fun _ _ h => h) (fun _ h => .inr h)
  refine ⟨s', Φ', by rw [← hi.2.1]; exact h1, h2, h3, ⟨by simp [hρ.1], fun i k hk => ?_⟩, hbody, h4, h5⟩
  cases i with
  | zero => simp at hk; subst hk; rw [← hi.2.1]; simp
  | succ i => exact prefix_get (List.prefix_append _ _) (hρ.2 i k (by simpa using hk))

/-- the least depth at which an expression comes to an end -/
theorem least (W : World β ω ε) {Γ : List (Frame β ω)} {e : Ex β ω} {r : Except ε β} : ∀ k, evalN W k Γ e = some r → ∃ N, N + 1 ≤ k ∧ evalN W (N + 1) Γ e = some r ∧ evalN W N Γ e = none
  | 0, h => nomatch h
  | k + 1, h => by
    cases hk : evalN W k Γ e with
    | none => exact ⟨k, Nat.le_refl _, h, hk⟩
    | some r' =>
      have := evalN_det W hk h
      subst this
      obtain ⟨N, h1, h2, h3⟩ := least W k hk
      exact ⟨N, by omega, h2, h3⟩

/-- the code of an expression that comes to an end at depth `k`, run with depth `n` -/
def Forward (W : World β ω ε) (k n : Nat) (e : Ex β ω) : Prop :=
  ∀ Γ ρ Φ Ψ s r, Inv W Φ Ψ s → Runs W Φ k s → (∀ q ∈ s.runs, q < Φ.length) → EnvRel Ψ ρ Γ → Fine e Γ → evalS W (evalN W k) e Γ = some r → Good W Φ Ψ s (evalC W (eval W n) (tr e) ρ s) r

theorem Good.bound {Φ Φ' : Phi β ω} {s s' : St β ω ε} (hΦ : Φ <+: Φ') (hlen : Φ'.length = s'.prs.length) (hp : Post s s') (hb : ∀ q ∈ s.runs, q < Φ.length) : ∀ q ∈ s'.runs, q < Φ'.length := by
  intro q hq
  rcases hp.2 q hq with h | h
  · rw [hlen]; exact h.lt
  · exact Nat.lt_of_lt_of_le (hb q h.1) hΦ.length_le

theorem forward_ref (W : World β ω ε) (k n : Nat) (hkn : k ≤ n) (ih : ∀ j, j < k → ∀ m, j ≤ m → ∀ e, Forward W j m e) (i : Nat) (x : String) : Forward W k n (.ref i x) := by
  intro Γ ρ Φ Ψ s r hi hR hb hρ hf h
  obtain ⟨fr, hfr, hx⟩ := hf
  obtain ⟨o, e, hget, hfind, p, Γ', e', rfl, hp, h1, h2⟩ := lookup_ok hi.2 hρ hfr hx
  simp only [evalS, hfr, hfind, scope_eq hfr] at h
  have hr := h1 k r h
  simp only [tr, evalC, hget, forceObj, forceP]
  have hlt := hi.lt hp
  have hpr := List.getElem?_eq_getElem hlt
  obtain ⟨Γ'', e'', hp', hok⟩ := hi.1.2 p _ hpr
  rw [hp] at hp'
  obtain ⟨rfl, rfl⟩ := Prod.mk.inj (Option.some.inj hp')
  rw [hpr]
  cases hcase : s.prs[p] with
  | done o =>
    rw [hcase] at hok
    obtain ⟨b, m, rfl, hm⟩ := hok
    have := evalN_det W hr hm
    subst this
    exact ⟨s, Φ, Ψ, rfl, List.prefix_refl _, List.prefix_refl _, hi, hR.post⟩
  | failed err =>
    rw [hcase] at hok
    obtain ⟨m, hm⟩ := hok
    have := evalN_det W hr hm
    subst this
    exact ⟨s, Φ, Ψ, rfl, List.prefix_refl _, List.prefix_refl _, hi, hR.post⟩
  | todo ρp c =>
    rw [hcase] at hok hpr
    obtain ⟨rfl, hρp, hfp⟩ := hok
    obtain ⟨N, hN, hrN, hnone⟩ := least W k hr
    obtain ⟨n', rfl⟩ : ∃ n', n = n' + 1 := ⟨n - 1, by omega⟩
    have hnf : ¬ Finished s p := by
      rintro (⟨o, h'⟩ | ⟨o, h'⟩) <;> rw [hpr] at h' <;> exact (nomatch h')
    have hnot : p ∉ s.runs := fun hmem => by
      rcases hR.2 p hmem with h' | h'
      · exact hnf h'
      · rw [h' _ _ hp] at hr; exact nomatch hr
    have hR' : Runs W Φ N { s with runs := s.runs ++ [p] } := by
      refine ⟨List.nodup_append.mpr ⟨hR.1, by simp, fun a ha b hb' => ?_⟩, fun q hq => ?_⟩
      · simp at hb'; subst hb'; intro hab; exact hnot (hab ▸ ha)
      · simp only [List.mem_append, List.mem_singleton] at hq
        rcases hq with hq | rfl
        · rcases hR.2 q hq with h' | h'
          · exact .inl h'
          · refine .inr fun Γq eq hq' => ?_
            have hk := h' Γq eq hq'
            cases hc : evalN W N Γq eq with
            | none => rfl
            | some r' => rw [evalN_mono W (by omega) hc] at hk; exact nomatch hk
        · refine .inr fun Γq eq hq' => ?_
          rw [hp] at hq'
          obtain ⟨rfl, rfl⟩ := Prod.mk.inj (Option.some.inj hq')
          exact hnone
    have hb' : ∀ q ∈ ({ s with runs := s.runs ++ [p] } : St β ω ε).runs, q < Φ.length := by
      intro q hq
      simp only [List.mem_append, List.mem_singleton] at hq
      rcases hq with hq | rfl
      · exact hb q hq
      · exact (List.getElem?_eq_some_iff.mp hp).1
    obtain ⟨s', Φ', Ψ', hrun, hΦ, hΨ, hi', hP⟩ := ih N (by omega) n' (by omega) e' Γ' ρp Φ Ψ { s with runs := s.runs ++ [p] } r hi hR' hb' hρp hfp hrN
    have hrun' : eval W (n' + 1) ρp (tr e') { s with runs := s.runs ++ [p] } = some (asObj r, s') := hrun
    simp only [hrun']
    have hlt' := hi'.lt (prefix_get hΦ hp)
    cases r with
    | ok b => exact ⟨_, Φ', Ψ', rfl, hΦ, hΨ, hi'.setPr (prefix_get hΦ hp) ⟨b, _, rfl, hr⟩, hP.set hlt' _ (.inl ⟨_, rfl⟩)⟩
    | error err => exact ⟨_, Φ', Ψ', rfl, hΦ, hΨ, hi'.setPr (prefix_get hΦ hp) ⟨_, hr⟩, hP.set hlt' _ (.inr ⟨_, rfl⟩)⟩

theorem forwardC (W : World β ω ε) (k n : Nat) (hkn : k ≤ n) (ih : ∀ j, j < k → ∀ m, j ≤ m → ∀ e, Forward W j m e) : (e : Ex β ω) → Forward W k n e
  | .cst b => by
    intro Γ ρ Φ Ψ s r hi hR _ _ _ h
    simp only [evalS, Option.some.injEq] at h
    subst h
    exact ⟨s, Φ, Ψ, by simp only [tr, evalC]; rfl, List.prefix_refl _, List.prefix_refl _, hi, hR.post⟩
  | .ref i x => forward_ref W k n hkn ih i x
  | .op o a b => by
    intro Γ ρ Φ Ψ s r hi hR hb0 hρ hf h
    simp only [evalS] at h
    simp only [tr, evalC]
    cases ha : evalS W (evalN W k) a Γ with
    | none => simp [ha] at h
    | some ra =>
      obtain ⟨s1, Φ1, Ψ1, hrun, hΦ, hΨ, hi1, hP1⟩ := forwardC W k n hkn ih a Γ ρ Φ Ψ s ra hi hR hb0 hρ hf.1 ha
      rw [ha] at h
      simp only [hrun]
      cases ra with
      | error e =>
        simp only [Option.some.injEq] at h; subst h
        exact ⟨s1, Φ1, Ψ1, rfl, hΦ, hΨ, hi1, hP1⟩
      | ok x =>
        simp only [asObj] at h ⊢
        cases hb : evalS W (evalN W k) b Γ with
        | none => simp [hb] at h
        | some rb =>
          obtain ⟨s2, Φ2, Ψ2, hrun2, hΦ2, hΨ2, hi2, hP2⟩ := forwardC W k n hkn ih b Γ ρ Φ1 Ψ1 s1 rb hi1 (hR.next hP1 hΦ hb0) (Good.bound hΦ hi1.1.1 hP1 hb0) (hρ.mono hΨ) hf.2 hb
          rw [hb] at h
          simp only [hrun2]
          cases rb with
          | error e =>
            simp only [Option.some.injEq] at h; subst h
            exact ⟨s2, Φ2, Ψ2, rfl, hΦ.trans hΦ2, hΨ.trans hΨ2, hi2, hP1.trans hP2⟩
          | ok y =>
            simp only [asObj, Option.some.injEq] at h ⊢
            refine ⟨s2, Φ2, Ψ2, ?_, hΦ.trans hΦ2, hΨ.trans hΨ2, hi2, hP1.trans hP2⟩
            rw [← h]
            cases W.op o x y <;> rfl
  | .ife c a b => by
    intro Γ ρ Φ Ψ s r hi hR hb0 hρ hf h
    simp only [evalS] at h
    simp only [tr, evalC]
    cases hc : evalS W (evalN W k) c Γ with
    | none => simp [hc] at h
    | some rc =>
      obtain ⟨s1, Φ1, Ψ1, hrun, hΦ, hΨ, hi1, hP1⟩ := forwardC W k n hkn ih c Γ ρ Φ Ψ s rc hi hR hb0 hρ hf.1 hc
      rw [hc] at h
      simp only [hrun]
      cases rc with
      | error e =>
        simp only [Option.some.injEq] at h; subst h
        exact ⟨s1, Φ1, Ψ1, rfl, hΦ, hΨ, hi1, hP1⟩
      | ok x =>
        simp only [asObj] at h ⊢
        by_cases hx : W.truth x = true
        · rw [if_pos hx] at h ⊢
          obtain ⟨s2, Φ2, Ψ2, hrun2, hΦ2, hΨ2, hi2, hP2⟩ := forwardC W k n hkn ih a Γ ρ Φ1 Ψ1 s1 r hi1 (hR.next hP1 hΦ hb0) (Good.bound hΦ hi1.1.1 hP1 hb0) (hρ.mono hΨ) hf.2.1 h
          exact ⟨s2, Φ2, Ψ2, hrun2, hΦ.trans hΦ2, hΨ.trans hΨ2, hi2, hP1.trans hP2⟩
        · rw [if_neg hx] at h ⊢
          obtain ⟨s2, Φ2, Ψ2, hrun2, hΦ2, hΨ2, hi2, hP2⟩ := forwardC W k n hkn ih b Γ ρ Φ1 Ψ1 s1 r hi1 (hR.next hP1 hΦ hb0) (Good.bound hΦ hi1.1.1 hP1 hb0) (hρ.mono hΨ) hf.2.2 h
          exact ⟨s2, Φ2, Ψ2, hrun2, hΦ.trans hΦ2, hΨ.trans hΨ2, hi2, hP1.trans hP2⟩
  | .letter rr bs body => by
    intro Γ ρ Φ Ψ s r hi hR hb0 hρ hf h
    simp only [evalS] at h
    simp only [tr, evalC]
    obtain ⟨s1, Φ1, hfill, hΦ, hi1, hρ1, hfb, hruns, hpre⟩ := let_ok W (eval W n) hi hρ rr bs body hf
    simp only [hfill]
    have hfin : ∀ q, Finished s q → Finished s1 q := by
      rintro q (⟨o, hq⟩ | ⟨o, hq⟩)
      · exact .inl ⟨o, prefix_get hpre hq⟩
      · exact .inr ⟨o, prefix_get hpre hq⟩
    have hP1 : Post s s1 := by
      refine ⟨by rw [hruns]; exact hR.1, fun q hq => ?_⟩
      rw [hruns] at hq
      by_cases hf' : Finished s q
      · exact .inl (hfin q hf')
      · exact .inr ⟨hq, hf'⟩
    obtain ⟨s2, Φ2, Ψ2, hrun2, hΦ2, hΨ2, hi2, hP2⟩ := forwardC W k n hkn ih body _ _ Φ1 _ s1 r hi1 (hR.next hP1 hΦ hb0) (Good.bound hΦ hi1.1.1 hP1 hb0) hρ1 hfb h
    exact ⟨s2, Φ2, Ψ2, hrun2, hΦ.trans hΦ2, (List.prefix_append _ _).trans hΨ2, hi2, hP1.trans hP2⟩

theorem forward (W : World β ω ε) (k : Nat) : ∀ n, k ≤ n → ∀ e, Forward W k n e := by
  induction k using Nat.strongRecOn with
  | ind k ih => exact fun n hn e => forwardC W k n hn ih e

/-! ## more depth does not change what the code does -/

mutual
theorem evalC_mono (W : World β ω ε) {c1 c2 : List Nat → Code β ω → St β ω ε → Res β ω ε (Obj β)} (hc : ∀ ρ c s r, c1 ρ c s = some r → c2 ρ c s = some r) :
    (c : Code β ω) → ∀ ρ s r, evalC W c1 c ρ s = some r → evalC W c2 c ρ s = some r
  | .cst _, _, _, _, h => by simp only [evalC] at h ⊢; exact h
  | .ref i x, ρ, s, r, h => by simp only [evalC] at h ⊢; exact h
  | .lazy c, ρ, s, r, h => by simp only [evalC] at h ⊢; exact h
  | .force c, ρ, s, r, h => by
    simp only [evalC] at h ⊢
    cases h1 : evalC W c1 c ρ s with
    | none => simp [h1] at h
    | some q =>
      rw [evalC_mono W hc c ρ s q h1]
      rw [h1] at h
      obtain ⟨q, s1⟩ := q
      cases q with
      | error e => exact h
      | ok o =>
        simp only at h ⊢
        cases o with
        | con b => exact h
        | promise p =>
          simp only [forceObj, forceP] at h ⊢
          cases hp : s1.prs[p]? with
          | none => simpa [hp] using h
          | some pr =>
            simp only [hp] at h ⊢
            cases pr with
            | done o => exact h
            | failed e => exact h
            | todo ρ' c' =>
              simp only at h ⊢
              cases h2 : c1 ρ' c' { s1 with runs := s1.runs ++ [p] } with
              | none => simp [h2] at h
              | some q2 => rw [hc _ _ _ _ h2]; rw [h2] at h; exact h
  | .op o a b, ρ, s, r, h => by
    simp only [evalC] at h ⊢
    cases h1 : evalC W c1 a ρ s with
    | none => simp [h1] at h
    | some q =>
      rw [evalC_mono W hc a ρ s q h1]
      rw [h1] at h
      obtain ⟨q, s1⟩ := q
      cases q with
      | error e => exact h
      | ok x =>
        simp only at h ⊢
        cases h2 : evalC W c1 b ρ s1 with
        | none => simp [h2] at h
        | some q2 => rw [evalC_mono W hc b ρ s1 q2 h2]; rw [h2] at h; exact h
  | .ife c a b, ρ, s, r, h => by
    simp only [evalC] at h ⊢
    cases h1 : evalC W c1 c ρ s with
    | none => simp [h1] at h
    | some q =>
      rw [evalC_mono W hc c ρ s q h1]
      rw [h1] at h
      obtain ⟨q, s1⟩ := q
      cases q with
      | error e => exact h
      | ok x =>
        cases x with
        | promise p => exact evalC_mono W hc a ρ s1 r h
        | con x =>
          simp only at h ⊢
          by_cases hx : W.truth x = true
          · rw [if_pos hx] at h ⊢; exact evalC_mono W hc a ρ s1 r h
          · rw [if_neg hx] at h ⊢; exact evalC_mono W hc b ρ s1 r h
  | .letter rr bs body, ρ, s, r, h => by
    simp only [evalC] at h ⊢
    cases h1 : fill W c1 rr s.envs.length bs ρ { s with envs := s.envs ++ [[]] } with
    | none => simp [h1] at h
    | some q =>
      rw [fill_mono W hc rr _ bs ρ _ q h1]
      rw [h1] at h
      obtain ⟨q, s1⟩ := q
      cases q with
      | error e => exact h
      | ok u => exact evalC_mono W hc body _ s1 r h
theorem fill_mono (W : World β ω ε) {c1 c2 : List Nat → Code β ω → St β ω ε → Res β ω ε (Obj β)} (hc : ∀ ρ c s r, c1 ρ c s = some r → c2 ρ c s = some r) (rr : Bool) (k : Nat) :
    (bs : CBs β ω) → ∀ ρ s r, fill W c1 rr k bs ρ s = some r → fill W c2 rr k bs ρ s = some r
  | .nil, _, _, _, h => by simp only [fill] at h ⊢; exact h
  | .cons x c bs, ρ, s, r, h => by
    simp only [fill] at h ⊢
    by_cases hx : (((s.envs[k]?).getD []).lookup x).isSome = true
    · rw [if_pos hx] at h ⊢; exact h
    · rw [if_neg hx] at h ⊢
      cases h1 : evalC W c1 c (if rr then k :: ρ else ρ) s with
      | none => simp [h1] at h
      | some q =>
        rw [evalC_mono W hc c _ s q h1]
        rw [h1] at h
        obtain ⟨q, s1⟩ := q
        cases q with
        | error e => exact h
        | ok o => exact fill_mono W hc rr k bs ρ _ r h
end

theorem eval_succ (W : World β ω ε) : ∀ n ρ c s r, eval W n ρ c s = some r → eval W (n + 1) ρ c s = some r
  | 0, _, _, _, _, h => nomatch h
  | n + 1, ρ, c, s, r, h => evalC_mono W (eval_succ W n) c ρ s r h

theorem eval_mono (W : World β ω ε) {n m : Nat} (hnm : n ≤ m) {ρ : List Nat} {c : Code β ω} {s : St β ω ε} {r : Except ε (Obj β) × St β ω ε} (h : eval W n ρ c s = some r) :
    eval W m ρ c s = some r := by
  induction hnm with
  | refl => exact h
  | step _ ih => exact eval_succ W _ _ _ _ _ ih

/-! ## and if the code comes to an end, so does the expression -/

def Back (W : World β ω ε) (Γ : List (Frame β ω)) (e : Ex β ω) (Φ : Phi β ω) (Ψ : Psi β ω) (res : Except ε (Obj β)) (s' : St β ω ε) : Prop :=
  ∃ m r Φ' Ψ', evalN W m Γ e = some r ∧ res = asObj r ∧ Φ <+: Φ' ∧ Ψ <+: Ψ' ∧ Inv W Φ' Ψ' s'

theorem evalN_pos (W : World β ω ε) {m : Nat} {Γ : List (Frame β ω)} {e : Ex β ω} {r : Except ε β} (h : evalN W m Γ e = some r) :
    ∃ k, evalN W (k + 1) Γ e = some r := ⟨m, evalN_succ W _ _ _ _ h⟩

theorem back_ref (W : World β ω ε) (n : Nat)
    (ih : ∀ e Γ ρ Φ Ψ s res s', Inv W Φ Ψ s → EnvRel Ψ ρ Γ → Fine e Γ → eval W n ρ (tr e) s = some (res, s') → Back W Γ e Φ Ψ res s')
    {Γ : List (Frame β ω)} {ρ : List Nat} {Φ : Phi β ω} {Ψ : Psi β ω} {s s' : St β ω ε} {res : Except ε (Obj β)} (hi : Inv W Φ Ψ s) (hρ : EnvRel Ψ ρ Γ) (i : Nat) (x : String)
    (hf : Fine (.ref i x) Γ) (h : evalC W (eval W n) (tr (.ref i x)) ρ s = some (res, s')) : Back W Γ (.ref i x) Φ Ψ res s' := by
  obtain ⟨fr, hfr, hx⟩ := hf
  obtain ⟨o, e, hget, hfind, p, Γ', e', rfl, hp, h1, h2⟩ := lookup_ok hi.2 hρ hfr hx
  have key : ∀ m, evalN W (m + 1) Γ (.ref i x) = evalN W m (scope fr (Γ.drop (i + 1))) e := by
    intro m
    show evalS W (evalN W m) (.ref i x) Γ = _
    simp only [evalS, hfr, hfind, scope_eq hfr]
  have out : ∀ m r, evalN W m Γ' e' = some r → ∃ m, evalN W m Γ (.ref i x) = some r := fun m r hm => by
    obtain ⟨k, hk⟩ := h2 m r hm
    exact ⟨k + 1, by rw [key]; exact hk⟩
  simp only [tr, evalC, hget, forceObj, forceP] at h
  have hlt := (List.getElem?_eq_some_iff.mp hp).1
  rw [hi.1.1] at hlt
  have hpr := List.getElem?_eq_getElem hlt
  obtain ⟨Γ'', e'', hp', hok⟩ := hi.1.2 p _ hpr
  rw [hp] at hp'
  obtain ⟨rfl, rfl⟩ := Prod.mk.inj (Option.some.inj hp')
  rw [hpr] at h
  cases hcase : s.prs[p] with
  | done o =>
    rw [hcase] at hok h
    obtain ⟨b, m, rfl, hm⟩ := hok
    simp only [Option.some.injEq, Prod.mk.injEq] at h
    obtain ⟨rfl, rfl⟩ := h
    obtain ⟨k, hk⟩ := out m _ hm
    exact ⟨k, .ok b, Φ, Ψ, hk, rfl, List.prefix_refl _, List.prefix_refl _, hi⟩
  | failed err =>
    rw [hcase] at hok h
    obtain ⟨m, hm⟩ := hok
    simp only [Option.some.injEq, Prod.mk.injEq] at h
    obtain ⟨rfl, rfl⟩ := h
    obtain ⟨k, hk⟩ := out m _ hm
    exact ⟨k, .error err, Φ, Ψ, hk, rfl, List.prefix_refl _, List.prefix_refl _, hi⟩
  | todo ρp c =>
    rw [hcase] at hok h
    obtain ⟨rfl, hρp, hfp⟩ := hok
    simp only at h
    cases hrun : eval W n ρp (tr e') { s with runs := s.runs ++ [p] } with
    | none => simp [hrun] at h
    | some res1 =>
      obtain ⟨res1, s1⟩ := res1
      obtain ⟨m, r, Φ', Ψ', hm, rfl, hΦ, hΨ, hi'⟩ := ih e' Γ' ρp Φ Ψ { s with runs := s.runs ++ [p] } res1 s1 hi hρp hfp hrun
      obtain ⟨k, hk⟩ := out m _ hm
      cases r with
      | ok b =>
        simp only [hrun, asObj, Option.some.injEq, Prod.mk.injEq] at h
        obtain ⟨rfl, rfl⟩ := h
        exact ⟨k, .ok b, Φ', Ψ', hk, rfl, hΦ, hΨ, hi'.setPr (prefix_get hΦ hp) ⟨b, m, rfl, hm⟩⟩
      | error err =>
        simp only [hrun, asObj, Option.some.injEq, Prod.mk.injEq] at h
        obtain ⟨rfl, rfl⟩ := h
        exact ⟨k, .error err, Φ', Ψ', hk, rfl, hΦ, hΨ, hi'.setPr (prefix_get hΦ hp) ⟨m, hm⟩⟩

theorem backC (W : World β ω ε) (n : Nat)
    (ih : ∀ e Γ ρ Φ Ψ s res s', Inv W Φ Ψ s → EnvRel Ψ ρ Γ → Fine e Γ → eval W n ρ (tr e) s = some (res, s') → Back W Γ e Φ Ψ res s') :
    (e : Ex β ω) → ∀ Γ ρ Φ Ψ s res s', Inv W Φ Ψ s → EnvRel Ψ ρ Γ → Fine e Γ → evalC W (eval W n) (tr e) ρ s = some (res, s') → Back W Γ e Φ Ψ res s'
  | .cst b => by
    intro Γ ρ Φ Ψ s res s' hi _ _ h
    simp only [tr, evalC, Option.some.injEq, Prod.mk.injEq] at h
    obtain ⟨rfl, rfl⟩ := h
    exact ⟨1, .ok b, Φ, Ψ, rfl, rfl, List.prefix_refl _, List.prefix_refl _, hi⟩
  | .ref i x => by
    intro Γ ρ Φ Ψ s res s' hi hρ hf h
    exact back_ref W n ih hi hρ i x hf h
  | .op o a b => by
    intro Γ ρ Φ Ψ s res s' hi hρ hf h
    simp only [tr, evalC] at h
    cases ha : evalC W (eval W n) (tr a) ρ s with
    | none => simp [ha] at h
    | some q =>
      obtain ⟨resa, s1⟩ := q
      obtain ⟨ma, ra, Φ1, Ψ1, hma, rfl, hΦ, hΨ, hi1⟩ := backC W n ih a Γ ρ Φ Ψ s resa s1 hi hρ hf.1 ha
      obtain ⟨ka, hka⟩ := evalN_pos W hma
      rw [ha] at h
      cases ra with
      | error e =>
        simp only [asObj, Option.some.injEq, Prod.mk.injEq] at h
        obtain ⟨rfl, rfl⟩ := h
        refine ⟨ka + 1, .error e, Φ1, Ψ1, ?_, rfl, hΦ, hΨ, hi1⟩
        show evalS W (evalN W ka) (.op o a b) Γ = _
        have : evalS W (evalN W ka) a Γ = some (.error e) := hka
        simp only [evalS, this]
      | ok x =>
        simp only [asObj] at h
        cases hb : evalC W (eval W n) (tr b) ρ s1 with
        | none => simp [hb] at h
        | some q =>
          obtain ⟨resb, s2⟩ := q
          obtain ⟨mb, rb, Φ2, Ψ2, hmb, rfl, hΦ2, hΨ2, hi2⟩ := backC W n ih b Γ ρ Φ1 Ψ1 s1 resb s2 hi1 (hρ.mono hΨ) hf.2 hb
          obtain ⟨kb, hkb⟩ := evalN_pos W hmb
          rw [hb] at h
          have ea : evalS W (evalN W (max ka kb)) a Γ = some (.ok x) := evalN_mono W (Nat.succ_le_succ (Nat.le_max_left ka kb)) hka
          have eb : evalS W (evalN W (max ka kb)) b Γ = some rb := evalN_mono W (Nat.succ_le_succ (Nat.le_max_right ka kb)) hkb
          have eo : evalN W (max ka kb + 1) Γ (.op o a b) = (match some rb with | none => none | some (.error e) => some (.error e) | some (.ok y) => some (W.op o x y)) := by
            show evalS W (evalN W (max ka kb)) (.op o a b) Γ = _
            simp only [evalS, ea, eb]
            rfl
          cases rb with
          | error e =>
            simp only [asObj, Option.some.injEq, Prod.mk.injEq] at h
            obtain ⟨rfl, rfl⟩ := h
            exact ⟨_, .error e, Φ2, Ψ2, eo, rfl, hΦ.trans hΦ2, hΨ.trans hΨ2, hi2⟩
          | ok y =>
            simp only [asObj] at h
            refine ⟨_, W.op o x y, Φ2, Ψ2, eo, ?_, hΦ.trans hΦ2, hΨ.trans hΨ2, ?_⟩
            · cases hop : W.op o x y with
              | ok z => simp only [hop, Option.some.injEq, Prod.mk.injEq] at h; exact h.1.symm
              | error e => simp only [hop, Option.some.injEq, Prod.mk.injEq] at h; exact h.1.symm
            · cases hop : W.op o x y with
              | ok z => simp only [hop, Option.some.injEq, Prod.mk.injEq] at h; exact h.2 ▸ hi2
              | error e => simp only [hop, Option.some.injEq, Prod.mk.injEq] at h; exact h.2 ▸ hi2
  | .ife c a b => by
    intro Γ ρ Φ Ψ s res s' hi hρ hf h
    simp only [tr, evalC] at h
    cases hc : evalC W (eval W n) (tr c) ρ s with
    | none => simp [hc] at h
    | some q =>
      obtain ⟨resc, s1⟩ := q
      obtain ⟨mc, rc, Φ1, Ψ1, hmc, rfl, hΦ, hΨ, hi1⟩ := backC W n ih c Γ ρ Φ Ψ s resc s1 hi hρ hf.1 hc
      obtain ⟨kc, hkc⟩ := evalN_pos W hmc
      rw [hc] at h
      cases rc with
      | error e =>
        simp only [asObj, Option.some.injEq, Prod.mk.injEq] at h
        obtain ⟨rfl, rfl⟩ := h
        refine ⟨kc + 1, .error e, Φ1, Ψ1, ?_, rfl, hΦ, hΨ, hi1⟩
        show evalS W (evalN W kc) (.ife c a b) Γ = _
        have : evalS W (evalN W kc) c Γ = some (.error e) := hkc
        simp only [evalS, this]
      | ok x =>
        simp only [asObj] at h
        by_cases hx : W.truth x = true
        · rw [if_pos hx] at h
          obtain ⟨mb, rb, Φ2, Ψ2, hmb, rfl, hΦ2, hΨ2, hi2⟩ := backC W n ih a Γ ρ Φ1 Ψ1 s1 res s' hi1 (hρ.mono hΨ) hf.2.1 h
          obtain ⟨kb, hkb⟩ := evalN_pos W hmb
          refine ⟨max kc kb + 1, rb, Φ2, Ψ2, ?_, rfl, hΦ.trans hΦ2, hΨ.trans hΨ2, hi2⟩
          have ec : evalS W (evalN W (max kc kb)) c Γ = some (.ok x) := evalN_mono W (Nat.succ_le_succ (Nat.le_max_left kc kb)) hkc
          have eb : evalS W (evalN W (max kc kb)) a Γ = some rb := evalN_mono W (Nat.succ_le_succ (Nat.le_max_right kc kb)) hkb
          show evalS W (evalN W (max kc kb)) (.ife c a b) Γ = _
          simp only [evalS, ec, if_pos hx, eb]
        · rw [if_neg hx] at h
          obtain ⟨mb, rb, Φ2, Ψ2, hmb, rfl, hΦ2, hΨ2, hi2⟩ := backC W n ih b Γ ρ Φ1 Ψ1 s1 res s' hi1 (hρ.mono hΨ) hf.2.2 h
          obtain ⟨kb, hkb⟩ := evalN_pos W hmb
          refine ⟨max kc kb + 1, rb, Φ2, Ψ2, ?_, rfl, hΦ.trans hΦ2, hΨ.trans hΨ2, hi2⟩
          have ec : evalS W (evalN W (max kc kb)) c Γ = some (.ok x) := evalN_mono W (Nat.succ_le_succ (Nat.le_max_left kc kb)) hkc
          have eb : evalS W (evalN W (max kc kb)) b Γ = some rb := evalN_mono W (Nat.succ_le_succ (Nat.le_max_right kc kb)) hkb
          show evalS W (evalN W (max kc kb)) (.ife c a b) Γ = _
          simp only [evalS, ec, if_neg hx, eb]
  | .letter rr bs body => by
    intro Γ ρ Φ Ψ s res s' hi hρ hf h
    simp only [tr, evalC] at h
    obtain ⟨s1, Φ1, hfill, hΦ, hi1, hρ1, hfb, hruns, hpre⟩ := let_ok W (eval W n) hi hρ rr bs body hf
    simp only [hfill] at h
    obtain ⟨m, r, Φ2, Ψ2, hm, rfl, hΦ2, hΨ2, hi2⟩ := backC W n ih body _ _ Φ1 _ s1 res s' hi1 hρ1 hfb h
    obtain ⟨k, hk⟩ := evalN_pos W hm
    exact ⟨k + 1, r, Φ2, Ψ2, hk, rfl, hΦ.trans hΦ2, (List.prefix_append _ _).trans hΨ2, hi2⟩

theorem back (W : World β ω ε) : ∀ n e Γ ρ Φ Ψ s res s', Inv W Φ Ψ s → EnvRel Ψ ρ Γ → Fine e Γ → eval W n ρ (tr e) s = some (res, s') → Back W Γ e Φ Ψ res s'
  | 0 => fun _ _ _ _ _ _ _ _ _ _ _ h => nomatch h
  | n + 1 => fun e Γ ρ Φ Ψ s res s' hi hρ hf h => backC W n (back W n) e Γ ρ Φ Ψ s res s' hi hρ hf h

/-! ## the same code outside of a lazy block -/

def VRel (W : World β ω ε) (vals : List (List (String × β))) (Γ : List (Frame β ω)) : Prop :=
  vals.length = Γ.length ∧ ∀ (i : Nat) (fr : Frame β ω) (env : List (String × β)), Γ[i]? = some fr → vals[i]? = some env → ∀ x v, env.lookup x = some v →
    ∃ e n, find x fr.bs = some e ∧ evalN W n (scope fr (Γ.drop (i + 1))) e = some (.ok v)

theorem VRel.cons {W : World β ω ε} {vals : List (List (String × β))} {Γ : List (Frame β ω)} (h : VRel W vals Γ) (fr : Frame β ω) (env : List (String × β))
    (henv : ∀ x v, env.lookup x = some v → ∃ e n, find x fr.bs = some e ∧ evalN W n (scope fr Γ) e = some (.ok v)) : VRel W (env :: vals) (fr :: Γ) := by
  refine ⟨by simp [h.1], fun i fr' env' hi he => ?_⟩
  cases i with
  | zero => simp at hi he; subst hi he; simpa using henv
  | succ i => simpa using h.2 i fr' env' (by simpa using hi) (by simpa using he)

mutual
theorem strict_ok (W : World β ω ε) : (e : Ex β ω) → ∀ vals Γ b, VRel W vals Γ → strict W e vals = .ok b → ∃ n, evalN W n Γ e = some (.ok b)
  | .cst b', vals, Γ, b, _, h => by
    simp only [strict] at h; cases h
    exact ⟨1, rfl⟩
  | .ref i x, vals, Γ, b, hv, h => by
    simp only [strict] at h
    cases he : vals[i]? with
    | none => simp [he] at h
    | some env =>
      simp only [he] at h
      cases hl : env.lookup x with
      | none => simp [hl] at h
      | some v =>
        simp only [hl] at h; cases h
        have hlt : i < Γ.length := by rw [← hv.1]; exact (List.getElem?_eq_some_iff.mp he).1
        have hfr := List.getElem?_eq_getElem hlt
        obtain ⟨e, n, hf, hn⟩ := hv.2 i _ env hfr he x b hl
        refine ⟨n + 1, ?_⟩
        show evalS W (evalN W n) (.ref i x) Γ = _
        simp only [evalS, hfr, hf, scope_eq hfr, hn]
  | .op o a c, vals, Γ, b, hv, h => by
    simp only [strict] at h
    cases ha : strict W a vals with
    | error e => simp [ha] at h
    | ok x =>
      simp only [ha] at h
      cases hc : strict W c vals with
      | error e => simp [hc] at h
      | ok y =>
        simp only [hc] at h
        obtain ⟨n1, h1⟩ := strict_ok W a vals Γ x hv ha
        obtain ⟨n2, h2⟩ := strict_ok W c vals Γ y hv hc
        refine ⟨max n1 n2 + 1, ?_⟩
        have e1 : evalS W (evalN W (max n1 n2)) a Γ = some (.ok x) := evalN_mono W (by omega : n1 ≤ max n1 n2 + 1) h1
        have e2 : evalS W (evalN W (max n1 n2)) c Γ = some (.ok y) := evalN_mono W (by omega : n2 ≤ max n1 n2 + 1) h2
        show evalS W (evalN W (max n1 n2)) (.op o a c) Γ = _
        simp only [evalS, e1, e2, h]
  | .ife c a d, vals, Γ, b, hv, h => by
    simp only [strict] at h
    cases hc : strict W c vals with
    | error e => simp [hc] at h
    | ok x =>
      simp only [hc] at h
      obtain ⟨n1, h1⟩ := strict_ok W c vals Γ x hv hc
      by_cases hx : W.truth x = true
      · rw [if_pos hx] at h
        obtain ⟨n2, h2⟩ := strict_ok W a vals Γ b hv h
        refine ⟨max n1 n2 + 1, ?_⟩
        have e1 : evalS W (evalN W (max n1 n2)) c Γ = some (.ok x) := evalN_mono W (by omega : n1 ≤ max n1 n2 + 1) h1
        have e2 : evalS W (evalN W (max n1 n2)) a Γ = some (.ok b) := evalN_mono W (by omega : n2 ≤ max n1 n2 + 1) h2
        show evalS W (evalN W (max n1 n2)) (.ife c a d) Γ = _
        simp only [evalS, e1, if_pos hx, e2]
      · rw [if_neg hx] at h
        obtain ⟨n2, h2⟩ := strict_ok W d vals Γ b hv h
        refine ⟨max n1 n2 + 1, ?_⟩
        have e1 : evalS W (evalN W (max n1 n2)) c Γ = some (.ok x) := evalN_mono W (by omega : n1 ≤ max n1 n2 + 1) h1
        have e2 : evalS W (evalN W (max n1 n2)) d Γ = some (.ok b) := evalN_mono W (by omega : n2 ≤ max n1 n2 + 1) h2
        show evalS W (evalN W (max n1 n2)) (.ife c a d) Γ = _
        simp only [evalS, e1, if_neg hx, e2]
  | .letter r bs body, vals, Γ, b, hv, h => by
    simp only [strict] at h
    cases hb : strictBs W bs r [] vals with
    | error e => simp [hb] at h
    | ok env =>
      simp only [hb] at h
      have henv := strictBs_ok W bs ⟨r, bs⟩ [] vals Γ env hv (fun x v hx => nomatch hx) (fun x _ e hx => hx) hb
      obtain ⟨n, hn⟩ := strict_ok W body (env :: vals) (⟨r, bs⟩ :: Γ) b (hv.cons ⟨r, bs⟩ env henv) h
      obtain ⟨k, hk⟩ := evalN_pos W hn
      exact ⟨k + 1, hk⟩
theorem strictBs_ok (W : World β ω ε) : (rest : Bs β ω) → ∀ (fr : Frame β ω) env vals Γ env', VRel W vals Γ →
      (∀ x v, env.lookup x = some v → ∃ e n, find x fr.bs = some e ∧ evalN W n (scope fr Γ) e = some (.ok v)) →
      (∀ x, env.lookup x = none → ∀ e, find x rest = some e → find x fr.bs = some e) → strictBs W rest fr.isrec env vals = .ok env' →
      ∀ x v, env'.lookup x = some v → ∃ e n, find x fr.bs = some e ∧ evalN W n (scope fr Γ) e = some (.ok v)
  | .nil, fr, env, vals, Γ, env', _, henv, _, h => by
    simp only [strictBs] at h; cases h
    exact henv
  | .cons y e rest, fr, env, vals, Γ, env', hv, henv, hsub, h => by
    simp only [strictBs] at h
    cases hl : env.lookup y with
    | some v => simp [hl] at h
    | none =>
      simp only [hl, Option.isSome_none, Bool.false_eq_true, if_false] at h
      cases he : strict W e (if fr.isrec then env :: vals else vals) with
      | error e => simp [he] at h
      | ok v =>
        simp only [he] at h
        have hfy : find y fr.bs = some e := hsub y hl e (by simp [find])
        have hval : ∃ n, evalN W n (scope fr Γ) e = some (.ok v) := by
          refine strict_ok W e _ (scope fr Γ) v ?_ he
          unfold scope
          cases hr : fr.isrec with
          | false => exact hv
          | true => exact hv.cons fr env henv
        refine strictBs_ok W rest fr (env ++ [(y, v)]) vals Γ env' hv (fun x w hx => ?_) (fun x hx e' he' => ?_) h
        · rw [lookup_append] at hx
          cases hlx : env.lookup x with
          | some w' => simp only [hlx] at hx; cases hx; exact henv x _ hlx
          | none =>
            simp only [hlx] at hx
            by_cases hxy : x = y
            · rw [if_pos hxy] at hx; cases hx; subst hxy
              obtain ⟨n, hn⟩ := hval
              exact ⟨e, n, hfy, hn⟩
            · rw [if_neg hxy] at hx; exact nomatch hx
        · rw [lookup_append] at hx
          cases hlx : env.lookup x with
          | some w' => simp [hlx] at hx
          | none =>
            simp only [hlx] at hx
            have hxy : x ≠ y := fun hxy => by rw [if_pos hxy] at hx; exact nomatch hx
            exact hsub x hlx e' (by simp only [find]; rw [if_neg hxy]; exact he')
end

/-! ## a name bound twice -/

theorem fill_twice (W : World β ω ε) (call : List Nat → Code β ω → St β ω ε → Res β ω ε (Obj β)) (r : Bool) (k : Nat) (ρ : List Nat) (bs : Bs β ω) :
    ∀ (done : List String) (s : St β ω ε) cur, s.envs[k]? = some cur → (∀ x, (cur.lookup x).isSome = true ↔ x ∈ done) → ¬ ((names bs).Nodup ∧ ∀ x ∈ names bs, x ∉ done) → NoRefs bs →
      ∃ s', fill W call r k (trBs bs) ρ s = some (.error W.attributeError, s') ∧ s'.runs = s.runs := by
  match bs with
  | .nil => intro done s cur _ _ h; exact absurd ⟨List.nodup_nil, fun _ hx => nomatch hx⟩ h
  | .cons x e bs =>
    intro done s cur hk hc hn hr
    have e0 : trBs (.cons x e bs) = .cons x (argCode e) (trBs bs) := by
      simp only [trBs]; rfl
    rw [e0]
    simp only [fill, hk, Option.getD_some]
    by_cases hx : x ∈ done
    · rw [if_pos ((hc x).mpr hx)]; exact ⟨s, rfl, rfl⟩
    · have hnl : ¬ (cur.lookup x).isSome = true := fun h => hx ((hc x).mp h)
      have hn' : ¬ ((names bs).Nodup ∧ ∀ y ∈ names bs, y ∉ done ++ [x]) := fun h => hn ⟨List.nodup_cons.mpr ⟨fun hm => h.2 x hm (by simp), h.1⟩, fun y hy => by
        simp only [names, List.mem_cons] at hy
        rcases hy with rfl | hy
        · exact hx
        · exact fun hd => h.2 y hy (List.mem_append_left _ hd)⟩
      rw [if_neg hnl, arg_lazy W call e hr.1]
      simp only
      obtain ⟨s', h1, h2⟩ := fill_twice W call r k ρ bs (done ++ [x]) ⟨s.prs ++ [.todo (if r then k :: ρ else ρ) (tr e)], s.envs.modify k (· ++ [(x, .promise s.prs.length)]), s.runs⟩
        (cur ++ [(x, .promise s.prs.length)]) (by simp [List.getElem?_modify, hk]) (fun y => by
          rw [lookup_append]
          have := hc y
          cases hl : cur.lookup y with
          | some o =>
            simp only [hl, Option.isSome_some, true_iff] at this
            simp [this]
          | none =>
            have hy : y ∉ done := fun h => by have := this.mpr h; simp [hl] at this
            by_cases hxy : y = x
            · simp [hxy]
            · simp [hxy, hy]) hn' hr.2
      exact ⟨s', h1, h2⟩

end Unpy.LazyLet.Lemmas
