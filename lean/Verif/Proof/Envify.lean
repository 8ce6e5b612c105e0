import Verif.Spec.Envify
/-!
# Proof: the expansion by `with envify` against the reference interpreter
-/
namespace Unpy.Envify.Sim
open Unpy.Envify
open Unpy.PyExpr (M ret raise bind Err)
open Unpy.Conts (Flow whileLoop)
variable {β ω ε : Type}

/-! ## Relations -/

/-- Scopes: parameters are redirected to environments. -/
def ScR (ρ : Spec.Scope) (ρ' : Scope) (B : Bind) : Prop := ∀ x, match ρ x with
  | some (.par r) => ∃ j : Nat, B x = some j ∧ ρ'.envs[j]? = some r ∧ Spec.badName x = false
  | some (.loc k) => B x = none ∧ ρ'.vars x = some k
  | none => B x = none ∧ ρ'.vars x = none

/-- The number of environments inside a function. -/
def next (ps : List String) (k : Nat) : Nat := if ps.isEmpty then k else k + 1

def KindOK (ps : List String) (kind : Out.Kind) : Prop := match kind with
  | .none => ps = []
  | _ => ps ≠ []

mutual
inductive V : Spec.Val β → Val β → Prop
  | base (b : β) : V (.base b) (.base b)
  | non : V .non .non
  | tup {vs vs'} (h : Vs vs vs') : V (.tup vs) (.tup vs')
  | ext (n : Nat) : V (.ext n) (.ext n)
  | clo {kind sg ds ds' b ρ ρ' B} (hds : Vs ds ds') (hsc : ScR ρ ρ' B) (hk : KindOK sg.names kind) :
      V (.clo sg ds b ρ)
        (.clo kind sg ds' (trSs (B.add sg.names ρ'.envs.length) (next sg.names ρ'.envs.length) b) ρ')

inductive Vs : List (Spec.Val β) → List (Val β) → Prop
  | nil : Vs [] []
  | cons {v v' vs vs'} (h : V v v') (t : Vs vs vs') : Vs (v :: vs) (v' :: vs')
end

def OptR : Option (Spec.Val β) → Option (Val β) → Prop
  | none, none => True
  | some v, some v' => V v v'
  | _, _ => False

/-- Frames: the one on the right may have more variables. -/
def FR (f : List (String × Option (Spec.Val β))) (f' : List (String × Option (Val β))) : Prop :=
  ∀ x c, f.lookup x = some c → ∃ c', f'.lookup x = some c' ∧ OptR c c'

def AR (f : List (String × Spec.Val β)) (f' : List (String × Val β)) : Prop :=
  ∀ x v, f.lookup x = some v → ∃ v', f'.lookup x = some v' ∧ V v v'

structure R (s : State (Spec.Val β) ω) (s' : State (Val β) ω) : Prop where
  flen : s.frames.length = s'.frames.length
  frames : ∀ (i : Nat) f f', s.frames[i]? = some f → s'.frames[i]? = some f' → FR f f'
  elen : s.envs.length = s'.envs.length
  envs : ∀ (i : Nat) f f', s.envs[i]? = some f → s'.envs[i]? = some f' → AR f f'
  ext : s.ext = s'.ext

def FlowR : Flow (Spec.Val β) → Flow (Val β) → Prop
  | .next, .next => True
  | .ret v, .ret v' => V v v'
  | _, _ => False

/-! ## Simulation -/

def Flagged {σ α : Type} (r : Option (Except (Err ε) α × σ)) : Prop := ∃ s', r = some (.error .unmodelled, s')

/-- The same end, with related results and states. -/
def Rel {α α' : Type} (Q : α → α' → Prop) : Option (Except (Err ε) α × State (Spec.Val β) ω) →
    Option (Except (Err ε) α' × State (Val β) ω) → Prop
  | none, none => True
  | some (.ok a, s), some (.ok a', s') => Q a a' ∧ R s s'
  | some (.error e, s), some (.error e', s') => e = e' ∧ R s s'
  | _, _ => False

def Sim {α α' : Type} (Q : α → α' → Prop) (m : M (State (Spec.Val β) ω) ε α) (m' : M (State (Val β) ω) ε α') : Prop :=
  ∀ s s', R s s' → Flagged (m s) ∨ Rel Q (m s) (m' s')

theorem Sim.ret {α α' : Type} {Q : α → α' → Prop} {a : α} {a' : α'} (e : Q a a') :
    Sim (β := β) (ω := ω) (ε := ε) Q (ret a) (PyExpr.ret a') := fun _ _ h => .inr ⟨e, h⟩

theorem Sim.raise {α α' : Type} {Q : α → α' → Prop} (e : Err ε) : Sim (β := β) (ω := ω) Q (raise e) (PyExpr.raise e) :=
  fun _ _ h => .inr ⟨rfl, h⟩

theorem Sim.flag {α α' : Type} {Q : α → α' → Prop} {m' : M (State (Val β) ω) ε α'} :
    Sim Q (PyExpr.raise .unmodelled) m' := fun s _ _ => .inl ⟨s, rfl⟩

theorem Sim.bind {α α' γ γ' : Type} {Q : α → α' → Prop} {T : γ → γ' → Prop} {m : M (State (Spec.Val β) ω) ε α} {m'}
    {k : α → M _ ε γ} {k' : α' → M _ ε γ'} (hm : Sim Q m m') (hk : ∀ a a', Q a a' → Sim T (k a) (k' a')) :
    Sim T (PyExpr.bind m k) (PyExpr.bind m' k') := by
  intro s s' hR
  unfold PyExpr.bind
  rcases hm s s' hR with ⟨t, hf⟩ | he
  · left; rw [hf]; exact ⟨t, rfl⟩
  · match hms : m s, hms' : m' s', he with
    | none, none, _ => exact .inr trivial
    | some (.error e, t), some (.error e', t'), he => exact .inr he
    | some (.ok a, t), some (.ok a', t'), he => exact hk a a' he.1 t t' he.2
    | none, some _, he => simp [Rel] at he
    | some (.error _, _), none, he => simp [Rel] at he
    | some (.ok _, _), none, he => simp [Rel] at he
    | some (.error _, _), some (.ok _, _), he => simp [Rel] at he
    | some (.ok _, _), some (.error _, _), he => simp [Rel] at he

theorem Sim.stop {α α' : Type} {Q : α → α' → Prop} {b : Bool} {k : Unit → M (State (Spec.Val β) ω) ε α} {m' : M _ ε α'}
    (hk : b = false → Sim Q (k ()) m') : Sim Q (PyExpr.bind (Spec.stopIf b) k) m' := by
  cases b
  · exact hk rfl
  · exact fun s _ _ => .inl ⟨s, rfl⟩

theorem Sim.mono {α α' : Type} {Q T : α → α' → Prop} {m : M (State (Spec.Val β) ω) ε α} {m' : M _ ε α'}
    (h : Sim Q m m') (hQ : ∀ a a', Q a a' → T a a') : Sim T m m' := by
  intro s s' hR
  rcases h s s' hR with hf | he
  · exact .inl hf
  · right
    match hms : m s, hms' : m' s', he with
    | none, none, _ => exact trivial
    | some (.error e, t), some (.error e', t'), he => exact he
    | some (.ok a, t), some (.ok a', t'), he => exact ⟨hQ a a' he.1, he.2⟩
    | none, some _, he => simp [Rel] at he
    | some (.error _, _), none, he => simp [Rel] at he
    | some (.ok _, _), none, he => simp [Rel] at he
    | some (.error _, _), some (.ok _, _), he => simp [Rel] at he
    | some (.ok _, _), some (.error _, _), he => simp [Rel] at he

/-! ## Memory -/

theorem lookup_put {α : Type} (x : String) (a : α) (y : String) : ∀ l : List (String × α), (put x a l).lookup y =
    if y = x then (l.lookup x).map (fun _ => a) else l.lookup y
  | [] => by simp [put]
  | (z, b) :: l => by
    have ih := lookup_put x a y l
    unfold put
    by_cases hz : z = x
    · subst hz
      by_cases hy : y = z
      · subst hy; simp [List.lookup]
      · have : (y == z) = false := by simpa using hy
        simp [List.lookup, this, hy]
    · rw [if_neg hz]
      have hzx : (x == z) = false := by simpa using fun h => hz h.symm
      by_cases hy : y = x
      · subst hy; simp [List.lookup, hzx] at ih ⊢; exact ih
      · simp only [hy, if_false] at ih ⊢
        by_cases hyz : y = z
        · subst hyz; simp [List.lookup]
        · have : (y == z) = false := by simpa using hyz
          simp [List.lookup, this, ih]

theorem FR.put {f : List (String × Option (Spec.Val β))} {f'} (h : FR f f') (x : String) {c c'} (hc : OptR c c') :
    FR (put x c f) (Envify.put x c' f') := by
  intro y d hd
  rw [lookup_put] at hd ⊢
  by_cases hy : y = x
  · rw [if_pos hy] at hd ⊢
    cases hl : f.lookup x with
    | none => simp [hl] at hd
    | some e =>
      obtain ⟨e', he', _⟩ := h x e hl
      simp [hl] at hd
      subst hd
      exact ⟨c', by simp [he'], hc⟩
  · rw [if_neg hy] at hd ⊢
    exact h y d hd

theorem AR.put {f : List (String × Spec.Val β)} {f'} (h : AR f f') (x : String) {c c'} (hc : V c c') :
    AR (put x c f) (Envify.put x c' f') := by
  intro y d hd
  rw [lookup_put] at hd ⊢
  by_cases hy : y = x
  · rw [if_pos hy] at hd ⊢
    cases hl : f.lookup x with
    | none => simp [hl] at hd
    | some e =>
      obtain ⟨e', he', _⟩ := h x e hl
      simp [hl] at hd
      subst hd
      exact ⟨c', by simp [he'], hc⟩
  · rw [if_neg hy] at hd ⊢
    exact h y d hd

theorem some_of_len {α γ : Type} {l : List α} {l' : List γ} (h : l.length = l'.length) {i : Nat} {a : α} (ha : l[i]? = some a) :
    ∃ b, l'[i]? = some b := by
  have : i < l'.length := h ▸ (List.getElem?_eq_some_iff.1 ha).1
  exact ⟨l'[i], List.getElem?_eq_getElem this⟩

theorem loadVar_sim (k : Nat) (x : String) : Sim (β := β) (ω := ω) (ε := ε) V (loadVar k x) (loadVar k x) := by
  intro s s' hR
  unfold loadVar
  cases hf : s.frames[k]? with
  | none => exact .inl ⟨s, rfl⟩
  | some f =>
    obtain ⟨f', hf'⟩ := some_of_len hR.flen hf
    have hFR := hR.frames k f f' hf hf'
    simp only [hf']
    cases hl : f.lookup x with
    | none => exact .inl ⟨s, by simp⟩
    | some c =>
      obtain ⟨c', hc', hcc⟩ := hFR x c hl
      right
      simp only [hc']
      match c, c', hcc with
      | none, none, _ => exact ⟨rfl, hR⟩
      | some v, some v', h => exact ⟨h, hR⟩
      | none, some _, h => exact h.elim
      | some _, none, h => exact h.elim

theorem storeVar_sim (k : Nat) (x : String) {v v'} (hv : V v v') :
    Sim (β := β) (ω := ω) (ε := ε) (fun _ _ => True) (storeVar k x v) (storeVar k x v') := by
  intro s s' hR
  unfold storeVar
  cases hf : s.frames[k]? with
  | none => exact .inl ⟨s, rfl⟩
  | some f =>
    obtain ⟨f', hf'⟩ := some_of_len hR.flen hf
    have hFR := hR.frames k f f' hf hf'
    simp only [hf']
    cases hl : f.lookup x with
    | none => exact .inl ⟨s, by simp⟩
    | some c =>
      obtain ⟨c', hc', hcc⟩ := hFR x c hl
      right
      simp only [hc', Option.isSome_some, if_true]
      refine ⟨trivial, ?_, ?_, hR.elen, hR.envs, hR.ext⟩
      · simpa using hR.flen
      · intro i g g' hg hg'
        simp only [List.getElem?_set] at hg hg'
        by_cases hik : k = i
        · subst hik
          have h1 := (List.getElem?_eq_some_iff.1 hf).1
          have h2 := (List.getElem?_eq_some_iff.1 hf').1
          simp only [if_true, h1, h2, Option.some.injEq] at hg hg'
          subst hg hg'
          exact hFR.put x hv
        · rw [if_neg hik] at hg hg'
          exact hR.frames i g g' hg hg'

theorem delVar_sim (k : Nat) (x : String) :
    Sim (β := β) (ω := ω) (ε := ε) (fun _ _ => True) (delVar k x) (delVar k x) := by
  intro s s' hR
  unfold delVar
  cases hf : s.frames[k]? with
  | none => exact .inl ⟨s, rfl⟩
  | some f =>
    obtain ⟨f', hf'⟩ := some_of_len hR.flen hf
    have hFR := hR.frames k f f' hf hf'
    simp only [hf']
    cases hl : f.lookup x with
    | none => exact .inl ⟨s, by simp⟩
    | some c =>
      obtain ⟨c', hc', hcc⟩ := hFR x c hl
      right
      simp only [hc']
      match c, c', hcc with
      | none, none, _ => exact ⟨rfl, hR⟩
      | none, some _, h => exact h.elim
      | some _, none, h => exact h.elim
      | some v, some v', _ =>
        refine ⟨trivial, ?_, ?_, hR.elen, hR.envs, hR.ext⟩
        · simpa using hR.flen
        · intro i g g' hg hg'
          simp only [List.getElem?_set] at hg hg'
          by_cases hik : k = i
          · subst hik
            have h1 := (List.getElem?_eq_some_iff.1 hf).1
            have h2 := (List.getElem?_eq_some_iff.1 hf').1
            simp only [if_true, h1, h2, Option.some.injEq] at hg hg'
            subst hg hg'
            exact hFR.put x (c := none) (c' := none) trivial
          · rw [if_neg hik] at hg hg'
            exact hR.frames i g g' hg hg'

theorem newFrame_sim {f : List (String × Option (Spec.Val β))} {f'} (h : FR f f') :
    Sim (ω := ω) (ε := ε) (· = ·) (newFrame f) (newFrame f') := by
  intro s s' hR
  right
  refine ⟨hR.flen, ?_, ?_, hR.elen, hR.envs, hR.ext⟩
  · simpa using hR.flen
  · intro i g g' hg hg'
    rw [List.getElem?_append] at hg hg'
    rw [← hR.flen] at hg'
    by_cases hi : i < s.frames.length
    · rw [if_pos hi] at hg hg'
      exact hR.frames i g g' hg hg'
    · rw [if_neg hi] at hg hg'
      cases hm : i - s.frames.length with
      | zero => simp [hm] at hg hg'; subst hg hg'; exact h
      | succ n => simp [hm] at hg

theorem newEnv_sim {f : List (String × Spec.Val β)} {f'} (h : AR f f') :
    Sim (ω := ω) (ε := ε) (· = ·) (newEnv f) (newEnv f') := by
  intro s s' hR
  right
  refine ⟨hR.elen, hR.flen, hR.frames, ?_, ?_, hR.ext⟩
  · simpa using hR.elen
  · intro i g g' hg hg'
    rw [List.getElem?_append] at hg hg'
    rw [← hR.elen] at hg'
    by_cases hi : i < s.envs.length
    · rw [if_pos hi] at hg hg'
      exact hR.envs i g g' hg hg'
    · rw [if_neg hi] at hg hg'
      cases hm : i - s.envs.length with
      | zero => simp [hm] at hg hg'; subst hg hg'; exact h
      | succ n => simp [hm] at hg

theorem getEnv_sim (r : Nat) (x : String) : Sim (β := β) (ω := ω) (ε := ε) V (Spec.loadPar true r x) (getEnv r x) := by
  intro s s' hR
  unfold Spec.loadPar getEnv
  cases hf : s.envs[r]? with
  | none => exact .inl ⟨s, rfl⟩
  | some f =>
    obtain ⟨f', hf'⟩ := some_of_len hR.elen hf
    simp only [hf', Option.bind_some]
    cases hl : f.lookup x with
    | none => exact .inl ⟨s, by simp⟩
    | some c =>
      obtain ⟨c', hc', hcc⟩ := hR.envs r f f' hf hf' x c hl
      right
      simp only [hc']
      exact ⟨hcc, hR⟩

theorem setEnv_sim (r : Nat) (x : String) {v v'} (hv : V v v') :
    Sim (β := β) (ω := ω) (ε := ε) (fun _ _ => True) (Spec.storePar true r x v) (setEnv r x v') := by
  intro s s' hR
  unfold Spec.storePar setEnv
  cases hf : s.envs[r]? with
  | none => exact .inl ⟨s, rfl⟩
  | some f =>
    obtain ⟨f', hf'⟩ := some_of_len hR.elen hf
    have hAR := hR.envs r f f' hf hf'
    simp only [hf']
    cases hl : f.lookup x with
    | none => exact .inl ⟨s, by simp⟩
    | some c =>
      obtain ⟨c', hc', hcc⟩ := hAR x c hl
      right
      simp only [upsert, hc', Option.isSome_some, if_true]
      refine ⟨trivial, hR.flen, hR.frames, ?_, ?_, hR.ext⟩
      · simpa using hR.elen
      · intro i g g' hg hg'
        simp only [List.getElem?_set] at hg hg'
        by_cases hik : r = i
        · subst hik
          have h1 := (List.getElem?_eq_some_iff.1 hf).1
          have h2 := (List.getElem?_eq_some_iff.1 hf').1
          simp only [if_true, h1, h2, Option.some.injEq] at hg hg'
          subst hg hg'
          exact hAR.put x hv
        · rw [if_neg hik] at hg hg'
          exact hR.envs i g g' hg hg'

/-- `e.set(...)` -/
theorem getSet_sim (r : Nat) (x : String) {v v'} (hv : V v v') :
    Sim (β := β) (ω := ω) (ε := ε) (fun _ _ => True) (Spec.storePar true r x v)
      (PyExpr.bind (getEnv r x) fun _ => setEnv r x v') := by
  intro s s' hR
  cases hf : s.envs[r]? with
  | none => left; exact ⟨s, by simp [Spec.storePar, hf]⟩
  | some f =>
    cases hl : f.lookup x with
    | none => left; exact ⟨s, by simp [Spec.storePar, hf, hl]⟩
    | some c =>
      obtain ⟨f', hf'⟩ := some_of_len hR.elen hf
      obtain ⟨c', hc', hcc⟩ := hR.envs r f f' hf hf' x c hl
      have hg : (PyExpr.bind (getEnv r x) fun _ => setEnv r x v') s' = setEnv (ε := ε) r x v' s' := by
        simp [PyExpr.bind, getEnv, hf', hc']
      rw [hg]
      exact setEnv_sim r x hv s s' hR

theorem callExt_sim (P : World β ω ε) (n : Nat) (bs : List β) :
    Sim (· = ·) (callExt (V := Spec.Val β) P n bs) (callExt (V := Val β) P n bs) := by
  intro s s' hR
  right
  unfold callExt
  rw [← hR.ext]
  match P.call n bs s.ext with
  | (.ok b, w) => exact ⟨rfl, hR.flen, hR.frames, hR.elen, hR.envs, rfl⟩
  | (.error e, w) => exact ⟨rfl, hR.flen, hR.frames, hR.elen, hR.envs, rfl⟩

/-! ## Names -/

theorem good_attr {x : String} (h : Spec.badName x = false) :
    (x.startsWith "__" || directWrite.contains x) = false ∧ classAttrs.contains x = false ∧ reservedNames.contains x = false ∧
      (x == "self" || x == "cls") = false := by
  simp only [Spec.badName, directWrite, classAttrs, reservedNames, List.contains_cons, List.contains_nil, Bool.or_eq_false_iff,
    Bool.or_false] at h ⊢
  simp_all

theorem load_sim {ρ : Spec.Scope} {ρ' : Scope} {B : Bind} (h : ScR ρ ρ' B) (x : String) :
    Sim (β := β) (ω := ω) (ε := ε) V (Spec.load true ρ x)
      (match B x with | some j => attr ρ' j x | none => load ρ' x) := by
  have hx := h x
  unfold Spec.load
  match hρ : ρ x with
  | none =>
    rw [hρ] at hx
    simp only [hx.1, load, hx.2]
    exact Sim.raise _
  | some (.loc k) =>
    rw [hρ] at hx
    simp only [hx.1, load, hx.2]
    exact loadVar_sim k x
  | some (.par r) =>
    rw [hρ] at hx
    obtain ⟨j, hj, hr, hg⟩ := hx
    obtain ⟨h1, h2, h3, h4⟩ := good_attr hg
    simp only [hj, attr, hr, h1, h2, Bool.false_eq_true, if_false]
    exact getEnv_sim r x

theorem store_sim {ρ : Spec.Scope} {ρ' : Scope} {B : Bind} (h : ScR ρ ρ' B) (x : String) {v v'} (hv : V v v') :
    Sim (β := β) (ω := ω) (ε := ε) (fun _ _ => True) (Spec.store true ρ x v)
      (match B x with | some j => setAttr ρ' j x v' | none => store ρ' x v') := by
  have hx := h x
  unfold Spec.store
  match hρ : ρ x with
  | none =>
    rw [hρ] at hx
    exact Sim.flag
  | some (.loc k) =>
    rw [hρ] at hx
    simp only [hx.1, store, hx.2]
    exact storeVar_sim k x hv
  | some (.par r) =>
    rw [hρ] at hx
    obtain ⟨j, hj, hr, hg⟩ := hx
    obtain ⟨h1, h2, h3, h4⟩ := good_attr hg
    simp only [hj, setAttr, hr, h1, h3, Bool.false_eq_true, if_false]
    exact setEnv_sim r x hv

theorem setCall_sim {ρ : Spec.Scope} {ρ' : Scope} {B : Bind} (h : ScR ρ ρ' B) (x : String) {v v'} (hv : V v v') :
    Sim (β := β) (ω := ω) (ε := ε) (fun _ _ => True) (Spec.store true ρ x v)
      (match B x with | some j => setCall ρ' j x v' | none => store ρ' x v') := by
  have hx := h x
  have hs := store_sim (ω := ω) (ε := ε) h x hv
  match hρ : ρ x with
  | none =>
    rw [hρ] at hx
    rw [hx.1] at hs ⊢
    exact hs
  | some (.loc k) =>
    rw [hρ] at hx
    rw [hx.1] at hs ⊢
    exact hs
  | some (.par r) =>
    rw [hρ] at hx
    obtain ⟨j, hj, hr, hg⟩ := hx
    obtain ⟨h1, h2, h3, h4⟩ := good_attr hg
    unfold Spec.store
    simp only [hρ, hj, setCall, setAttr, hr, h1, h3, Bool.false_eq_true, if_false]
    exact getSet_sim r x hv

theorem delete_sim {ρ : Spec.Scope} {ρ' : Scope} {B : Bind} (h : ScR ρ ρ' B) {x : String} (hB : B x = none) :
    Sim (β := β) (ω := ω) (ε := ε) (fun _ _ => True) (Spec.delete ρ x) (delete ρ' x) := by
  have hx := h x
  unfold Spec.delete
  match hρ : ρ x with
  | none => exact Sim.flag
  | some (.loc k) =>
    rw [hρ] at hx
    simp only [delete, hx.2]
    exact delVar_sim k x
  | some (.par r) =>
    rw [hρ] at hx
    obtain ⟨j, hj, _⟩ := hx
    rw [hB] at hj; cases hj

theorem isPar_B {ρ : Spec.Scope} {ρ' : Scope} {B : Bind} (h : ScR ρ ρ' B) (x : String) : Spec.isPar ρ x = (B x).isSome := by
  have hx := h x
  unfold Spec.isPar
  match hρ : ρ x with
  | none => rw [hρ] at hx; simp [hx.1]
  | some (.loc k) => rw [hρ] at hx; simp [hx.1]
  | some (.par r) => rw [hρ] at hx; obtain ⟨j, hj, _⟩ := hx; simp [hj]

/-! ## Values -/

theorem bases_V : ∀ {vs : List (Spec.Val β)} {vs'}, Vs vs vs' → bases vs' = Spec.bases vs
  | _, _, .nil => rfl
  | _, _, .cons h t => by
    have ih := bases_V t
    cases h <;> simp [bases, Spec.bases, ih]

theorem truthy_V (P : World β ω ε) {v : Spec.Val β} {v'} (h : V v v') : truthy P v' = Spec.truthy P v := by
  cases h with
  | tup h => cases h <;> simp [truthy, Spec.truthy]
  | _ => rfl

theorem binop_sim (P : World β ω ε) (n : Nat) {vs : List (Spec.Val β)} {vs'} (h : Vs vs vs') :
    Sim V (Spec.binop P n vs) (binop P n vs') := by
  unfold Spec.binop binop
  rw [bases_V h]
  cases Spec.bases vs with
  | none => exact Sim.raise _
  | some bs =>
    dsimp only
    cases P.op n bs with
    | ok b => exact Sim.ret (.base b)
    | error e => exact Sim.raise e

theorem items_sim {v : Spec.Val β} {v'} (h : V v v') : Sim (ω := ω) (ε := ε) Vs (Spec.items v) (items v') := by
  cases h with
  | tup h => exact Sim.ret h
  | _ => exact Sim.raise _

theorem forEach_sim {body : Spec.Val β → M (State (Spec.Val β) ω) ε (Spec.Val β)} {body'}
    (hb : ∀ v v', V v v' → Sim V (body v) (body' v')) : ∀ {vs vs'}, Vs vs vs' → Sim Vs (forEach body vs) (forEach body' vs')
  | _, _, .nil => Sim.ret .nil
  | _, _, .cons h t => by
    unfold forEach
    exact (hb _ _ h).bind fun w w' hw => (forEach_sim hb t).bind fun ws ws' hws => Sim.ret (.cons hw hws)

theorem forLoop_sim {body : Spec.Val β → M (State (Spec.Val β) ω) ε (Flow (Spec.Val β))} {body'}
    (hb : ∀ v v', V v v' → Sim FlowR (body v) (body' v')) : ∀ {vs vs'}, Vs vs vs' → Sim FlowR (forLoop body vs) (forLoop body' vs')
  | _, _, .nil => Sim.ret trivial
  | _, _, .cons h t => by
    unfold forLoop
    refine (hb _ _ h).bind fun fl fl' hfl => ?_
    match fl, fl', hfl with
    | .next, .next, _ => exact forLoop_sim hb t
    | .ret v, .ret v', h => exact Sim.ret h
    | .next, .ret _, h => exact h.elim
    | .ret _, .next, h => exact h.elim

theorem attempt_sim {α α' : Type} {Q : α → α' → Prop} {m h : M (State (Spec.Val β) ω) ε α} {m' h' : M (State (Val β) ω) ε α'}
    (hm : Sim Q m m') (hh : Sim Q h h') : Sim Q (attempt m h) (attempt m' h') := by
  intro s s' hR
  unfold attempt
  rcases hm s s' hR with ⟨t, hf⟩ | he
  · left; rw [hf]; exact ⟨t, rfl⟩
  · match hms : m s, hms' : m' s', he with
    | none, none, _ => exact .inr trivial
    | some (.ok a, t), some (.ok a', t'), he => exact .inr he
    | some (.error e, t), some (.error e', t'), he =>
      obtain ⟨rfl, hRt⟩ := he
      cases e with
      | unmodelled => exact .inl ⟨t, rfl⟩
      | nameError => exact hh t t' hRt
      | py x => exact hh t t' hRt
      | user x => exact hh t t' hRt
    | none, some _, he => simp [Rel] at he
    | some (.error _, _), none, he => simp [Rel] at he
    | some (.ok _, _), none, he => simp [Rel] at he
    | some (.error _, _), some (.ok _, _), he => simp [Rel] at he
    | some (.ok _, _), some (.error _, _), he => simp [Rel] at he

theorem Vs.length : ∀ {vs : List (Spec.Val β)} {vs'}, Vs vs vs' → vs.length = vs'.length
  | _, _, .nil => rfl
  | _, _, .cons _ t => by simp [Vs.length t]

theorem Vs.append : ∀ {vs : List (Spec.Val β)} {vs' us us'}, Vs vs vs' → Vs us us' → Vs (vs ++ us) (vs' ++ us')
  | _, _, _, _, .nil, h => h
  | _, _, _, _, .cons h t, h' => .cons h (Vs.append t h')

theorem Vs.drop : ∀ {vs : List (Spec.Val β)} {vs'} (n : Nat), Vs vs vs' → Vs (vs.drop n) (vs'.drop n)
  | _, _, 0, h => by simpa using h
  | _, _, n + 1, .nil => by simpa using Vs.nil
  | _, _, n + 1, .cons _ t => by simpa using Vs.drop n t

theorem AR.zip : ∀ (ps : List String) {vs : List (Spec.Val β)} {vs'}, Vs vs vs' → AR (ps.zip vs) (ps.zip vs')
  | [], _, _, _ => by intro x v h; simp at h
  | p :: ps, _, _, .nil => by intro x v h; simp at h
  | p :: ps, _, _, .cons h t => by
    intro x v hx
    by_cases hp : x = p
    · subst hp; simp [List.lookup] at hx ⊢; subst hx; exact h
    · have : (x == p) = false := by simpa using hp
      simp only [List.zip_cons_cons, List.lookup, this] at hx ⊢
      exact AR.zip ps t x v hx

theorem Vs.take : ∀ {vs : List (Spec.Val β)} {vs'} (n : Nat), Vs vs vs' → Vs (vs.take n) (vs'.take n)
  | _, _, 0, h => by simpa using Vs.nil
  | _, _, n + 1, .nil => by simpa using Vs.nil
  | _, _, n + 1, .cons h t => by simpa using Vs.cons h (Vs.take n t)

/-- Parameters with their defaults. -/
def DR (l : List (String × Option (Spec.Val β))) (l' : List (String × Option (Val β))) : Prop :=
  l.length = l'.length ∧ ∀ (i : Nat) p p', l[i]? = some p → l'[i]? = some p' → p.1 = p'.1 ∧ OptR p.2 p'.2

theorem DR.drop {l : List (String × Option (Spec.Val β))} {l'} (h : DR l l') (n : Nat) : DR (l.drop n) (l'.drop n) := by
  refine ⟨by simp [h.1], fun i p p' hp hp' => ?_⟩
  rw [List.getElem?_drop] at hp hp'
  exact h.2 _ p p' hp hp'

theorem DR.tail {a l} {a' : String × Option (Val β)} {l'} (h : DR (β := β) (a :: l) (a' :: l')) : DR l l' := by
  simpa using h.drop 1

theorem optional_V : ∀ {vs : List (Spec.Val β)} {vs'}, Vs vs vs' → ∀ (i : Nat) c c', (vs.map some)[i]? = some c →
    (vs'.map some)[i]? = some c' → OptR c c'
  | _, _, .nil, i, c, c', h, _ => by simp at h
  | _, _, .cons hv t, 0, c, c', h, h' => by
    simp at h h'
    subst h h'
    exact hv
  | _, _, .cons hv t, i + 1, c, c', h, h' => by
    simp only [List.map_cons, List.getElem?_cons_succ] at h h'
    exact optional_V t i c c' h h'

theorem withDefaults_R (ps : List String) {ds : List (Spec.Val β)} {ds'} (hd : Vs ds ds') :
    DR (withDefaults ps ds) (withDefaults ps ds') := by
  unfold withDefaults
  refine ⟨by simp [hd.length], fun i p p' hp hp' => ?_⟩
  rw [List.getElem?_zip_eq_some] at hp hp'
  refine ⟨by have := hp.1.symm.trans hp'.1; simpa using this, ?_⟩
  have h1 := hp.2
  have h2 := hp'.2
  rw [← hd.length] at h2
  rw [List.getElem?_append] at h1 h2
  simp only [List.length_replicate] at h1 h2
  by_cases hi : i < ps.length - ds.length
  · rw [if_pos hi] at h1 h2
    simp only [List.getElem?_replicate, hi, if_true, Option.some.injEq] at h1 h2
    rw [← h1, ← h2]
    trivial
  · rw [if_neg hi] at h1 h2
    exact optional_V hd _ _ _ h1 h2

/-- All parameters have values, or an error. -/
theorem fill_rel {kws : List (String × Spec.Val β)} {kws'} (hk : AR kws kws')
    (hk' : ∀ x, kws.lookup x = none → kws'.lookup x = none) : ∀ {l l'}, DR l l' →
    (fill kws l = none ∧ fill kws' l' = none) ∨
    ∃ us us', fill kws l = some us ∧ fill kws' l' = some us' ∧ Vs us us' ∧ us.length = l.length
  | [], [], _ => .inr ⟨[], [], rfl, rfl, .nil, rfl⟩
  | [], _ :: _, h => by simp [DR] at h
  | _ :: _, [], h => by simp [DR] at h
  | (p, d) :: l, (p', d') :: l', h => by
    obtain ⟨hp, hdd⟩ := h.2 0 _ _ rfl rfl
    simp only at hp hdd
    subst hp
    have ih := fill_rel hk hk' h.tail
    have key : ∀ {v v'}, V v v' →
        ((fill kws l).map (v :: ·) = none ∧ (fill kws' l').map (v' :: ·) = none) ∨
        ∃ us us', (fill kws l).map (v :: ·) = some us ∧ (fill kws' l').map (v' :: ·) = some us' ∧ Vs us us' ∧
          us.length = l.length + 1 := by
      intro v v' hv
      rcases ih with ⟨h1, h2⟩ | ⟨us, us', h1, h2, hu, hl⟩
      · left; simp [h1, h2]
      · right; exact ⟨v :: us, v' :: us', by simp [h1], by simp [h2], .cons hv hu, by simp [hl]⟩
    unfold fill
    cases hx : kws.lookup p with
    | some v =>
      obtain ⟨v', hv', hv⟩ := hk p v hx
      simp only [hv', List.length_cons]
      exact key hv
    | none =>
      simp only [hk' p hx, List.length_cons]
      match d, d', hdd with
      | none, none, _ => exact .inl ⟨rfl, rfl⟩
      | some v, some v', hv => exact key hv
      | none, some _, h => exact h.elim
      | some _, none, h => exact h.elim

theorem lookup_zip_none : ∀ (ks : List String) {vs : List (Spec.Val β)} {vs' : List (Val β)}, vs.length = vs'.length → ∀ x,
    (ks.zip vs).lookup x = none → (ks.zip vs').lookup x = none
  | [], _, _, _, x, _ => by simp
  | k :: ks, [], [], _, x, _ => by simp
  | k :: ks, v :: vs, v' :: vs', h, x, hx => by
    by_cases hk : x = k
    · subst hk; simp [List.lookup] at hx
    · have : (x == k) = false := by simpa using hk
      simp only [List.zip_cons_cons, List.lookup, this] at hx ⊢
      exact lookup_zip_none ks (by simpa using h) x hx

/-- Arguments: values for all parameters, or an error. -/
theorem bindArgs_rel (sg : Sig) {ds : List (Spec.Val β)} {ds'} (hd : Vs ds ds') (ks : List String) {args args'}
    (ha : Vs args args') :
    (bindArgs .tup sg ds ks args = none ∧ bindArgs .tup sg ds' ks args' = none) ∨
    ∃ us us', bindArgs .tup sg ds ks args = some (sg.names.zip us) ∧ bindArgs .tup sg ds' ks args' = some (sg.names.zip us') ∧
      Vs us us' ∧ us.length = sg.names.length := by
  have hp := ha.take (args.length - ks.length)
  have hkw := ha.drop (args.length - ks.length)
  unfold bindArgs
  rw [← ha.length]
  simp only [← hp.length]
  by_cases h1 : sg.ps.length < (args.take (args.length - ks.length)).length ∧ sg.va = none
  · simp only [h1]; exact .inl ⟨rfl, rfl⟩
  rw [if_neg h1, if_neg h1]
  by_cases h2 : ks.any (fun k => !(sg.ps.drop (args.take (args.length - ks.length)).length ++ sg.ko).contains k) = true
  · rw [if_pos h2, if_pos h2]; exact .inl ⟨rfl, rfl⟩
  rw [if_neg h2, if_neg h2]
  have hA := AR.zip ks hkw
  have hN := lookup_zip_none ks hkw.length
  have hko : DR (β := β) (sg.ko.map fun p => (p, none)) (sg.ko.map fun p => (p, none)) := by
    refine ⟨by simp, fun i p p' h h' => ?_⟩
    simp only [List.getElem?_map, Option.map_eq_some_iff] at h h'
    obtain ⟨a, ha, rfl⟩ := h
    obtain ⟨a', ha', rfl⟩ := h'
    rw [ha] at ha'
    cases ha'
    exact ⟨rfl, trivial⟩
  rcases fill_rel hA hN ((withDefaults_R sg.ps hd).drop (args.take (args.length - ks.length)).length) with
    ⟨f1, f2⟩ | ⟨us, us', f1, f2, hu, hul⟩
  · rw [f1, f2]; exact .inl ⟨rfl, rfl⟩
  rcases fill_rel hA hN hko with ⟨g1, g2⟩ | ⟨ws, ws', g1, g2, hw, hwl⟩
  · rw [f1, f2, g1, g2]; exact .inl ⟨rfl, rfl⟩
  rw [f1, f2, g1, g2]
  refine .inr ⟨_, _, rfl, rfl, (((hp.take _).append hu).append hw).append ?_, ?_⟩
  · cases sg.va with
    | none => exact .nil
    | some x => exact .cons (.tup (hp.drop _)) .nil
  · have hwd : (withDefaults sg.ps ds).length = sg.ps.length := by
      simp only [withDefaults, List.length_zip, List.length_append, List.length_replicate, List.length_map]
      omega
    simp only [Sig.names, List.length_append, List.length_take, List.length_map, hul, hwl, List.length_drop, hwd]
    omega

/-! ## Assigned names -/

mutual
theorem walrus_tr (B : Bind) : ∀ (k : Nat) (e : Ex β), walrus (tr B k e) = (Spec.walrus e).filter (fun x => (B x).isNone)
  | k, .cst c => rfl
  | k, .non => rfl
  | k, .name x => by unfold tr; cases B x <;> rfl
  | k, .op n es => walruses_tr B k es
  | k, .asg x e => by
    have := walrus_tr B k e
    unfold tr Spec.walrus
    cases hx : B x <;> simp [walrus, hx, this]
  | k, .ife c t e => by
    simp [tr, walrus, Spec.walrus, walrus_tr B k c, walrus_tr B k t, walrus_tr B k e]
  | k, .tup es => walruses_tr B k es
  | k, .comp x e it => by
    have h1 := walrus_tr B k e
    have h2 := walrus_tr B k it
    unfold tr Spec.walrus
    cases hx : B x <;> simp [walrus, h1, h2]
  | k, .lam sg ds b => by
    unfold tr
    cases sg.names.isEmpty <;> rfl
  | k, .call f ks args => by
    simp [tr, walrus, Spec.walrus, walrus_tr B k f, walruses_tr B k args]

theorem walruses_tr (B : Bind) : ∀ (k : Nat) (es : List (Ex β)),
    walruses (trs B k es) = (Spec.walruses es).filter (fun x => (B x).isNone)
  | k, [] => rfl
  | k, e :: es => by simp [trs, walruses, Spec.walruses, walrus_tr B k e, walruses_tr B k es]
end

/-- The assignments that are left in expanded code: those to names without a binding, and `def`. -/
def Kept (B : Bind) (l : List (Spec.How × String)) (l' : List String) : Prop :=
  ∀ q : String → Bool, (∀ p ∈ l, q p.2 = true → (match p.1 with | .stmt => B p.2 = none | .walrus => True)) →
    l'.filter q = (l.filter (fun p => (B p.2).isNone && q p.2)).map (·.2)

theorem Kept.nil {B : Bind} : Kept B [] [] := fun _ _ => rfl

theorem Kept.append {B : Bind} {l₁ l₂ l₁' l₂'} (h₁ : Kept B l₁ l₁') (h₂ : Kept B l₂ l₂') : Kept B (l₁ ++ l₂) (l₁' ++ l₂') := by
  intro q hq
  simp only [List.filter_append, List.map_append]
  rw [h₁ q fun p hp => hq p (List.mem_append_left _ hp), h₂ q fun p hp => hq p (List.mem_append_right _ hp)]

theorem Kept.walrus {B : Bind} (l : List String) : Kept B (l.map (Spec.How.walrus, ·)) (l.filter fun x => (B x).isNone) := by
  intro q _
  induction l with
  | nil => rfl
  | cons x l ih =>
    cases hx : B x <;> cases hq : q x <;> simp_all [List.filter_cons]

theorem Kept.one {B : Bind} (x : String) : Kept B [(Spec.How.stmt, x)] [x] := by
  intro q hq
  have := hq (.stmt, x) (by simp)
  cases h : q x
  · simp [h]
  · have hB : B x = none := this h
    simp [h, hB]

theorem Kept.gone {B : Bind} {x : String} {j : Nat} (hx : B x = some j) : Kept B [(Spec.How.stmt, x)] [] := by
  intro q hq
  simp [hx]

mutual
theorem assignedS_tr (B : Bind) : ∀ (k : Nat) (t : St β), Kept B (Spec.assignedS t) (assignedS (trS B k t))
  | k, .ret e => by
    simp only [trS, assignedS, Spec.assignedS, walrus_tr]
    exact Kept.walrus _
  | k, .expr e => by
    simp only [trS, assignedS, Spec.assignedS, walrus_tr]
    exact Kept.walrus _
  | k, .assign x e => by
    unfold trS
    cases hx : B x with
    | none =>
      simp only [assignedS, Spec.assignedS, walrus_tr]
      exact (Kept.one x).append (Kept.walrus _)
    | some j =>
      simp only [assignedS, Spec.assignedS, walrus_tr]
      exact (Kept.gone hx).append (Kept.walrus _)
  | k, .aug x n e => by
    unfold trS
    cases hx : B x with
    | none =>
      simp only [assignedS, Spec.assignedS, walrus_tr]
      exact (Kept.one x).append (Kept.walrus _)
    | some j =>
      simp only [assignedS, Spec.assignedS, walrus_tr]
      exact (Kept.gone hx).append (Kept.walrus _)
  | k, .ite c b₁ b₂ => by
    simp only [trS, assignedS, Spec.assignedS, walrus_tr]
    exact ((Kept.walrus _).append (assignedSs_tr B k b₁)).append (assignedSs_tr B k b₂)
  | k, .while c b => by
    simp only [trS, assignedS, Spec.assignedS, walrus_tr]
    exact (Kept.walrus _).append (assignedSs_tr B k b)
  | k, .loop x it b => by
    unfold trS
    cases hx : B x with
    | none =>
      simp only [assignedS, Spec.assignedS, walrus_tr]
      exact ((Kept.one x).append (Kept.walrus _)).append (assignedSs_tr B k b)
    | some j =>
      simp only [assignedS, Spec.assignedS, walrus_tr]
      exact ((Kept.gone hx).append (Kept.walrus _)).append (assignedSs_tr B k b)
  | k, .del x => by
    unfold trS
    cases hx : B x with
    | none => exact Kept.one x
    | some j => exact Kept.gone hx
  | k, .attempt b₁ b₂ => by
    simp only [trS, assignedS, Spec.assignedS]
    exact (assignedSs_tr B k b₁).append (assignedSs_tr B k b₂)
  | k, .defn x sg ds b => by
    unfold trS
    cases sg.names.isEmpty <;> exact Kept.one x
  | k, .nonlocal xs => Kept.nil

theorem assignedSs_tr (B : Bind) : ∀ (k : Nat) (ts : List (St β)), Kept B (Spec.assignedSs ts) (assignedSs (trSs B k ts))
  | k, [] => Kept.nil
  | k, t :: ts => (assignedS_tr B k t).append (assignedSs_tr B k ts)
end

mutual
theorem nonlocalS_tr (B : Bind) : ∀ (k : Nat) (t : St β), nonlocalS (trS B k t) = Spec.nonlocalS t
  | k, .ret e => rfl
  | k, .expr e => rfl
  | k, .assign x e => by unfold trS; cases B x <;> rfl
  | k, .aug x n e => by unfold trS; cases B x <;> rfl
  | k, .ite c b₁ b₂ => by simp [trS, nonlocalS, Spec.nonlocalS, nonlocalSs_tr B k b₁, nonlocalSs_tr B k b₂]
  | k, .while c b => by simp [trS, nonlocalS, Spec.nonlocalS, nonlocalSs_tr B k b]
  | k, .loop x it b => by
    unfold trS
    cases B x <;> simp [nonlocalS, Spec.nonlocalS, nonlocalSs_tr B k b]
  | k, .del x => by unfold trS; cases B x <;> rfl
  | k, .attempt b₁ b₂ => by simp [trS, nonlocalS, Spec.nonlocalS, nonlocalSs_tr B k b₁, nonlocalSs_tr B k b₂]
  | k, .defn x sg ds b => by unfold trS; cases sg.names.isEmpty <;> rfl
  | k, .nonlocal xs => rfl

theorem nonlocalSs_tr (B : Bind) : ∀ (k : Nat) (ts : List (St β)), nonlocalSs (trSs B k ts) = Spec.nonlocalSs ts
  | k, [] => rfl
  | k, t :: ts => by simp [trSs, nonlocalSs, Spec.nonlocalSs, nonlocalS_tr B k t, nonlocalSs_tr B k ts]
end

/-- Unless a local variable has the name of a parameter of an enclosing function, the local variables are the same. -/
theorem locals_eq {ρ : Spec.Scope} {ρ' : Scope} {B : Bind} (h : ScR ρ ρ' B) (ps : List String) (k₀ k : Nat) (b : List (St β))
    (hs : (Spec.locals ρ ps b).any (Spec.isPar ρ) = false) :
    locals ps (trSs (B.add ps k₀) k b) = Spec.locals ρ ps b := by
  unfold locals Spec.locals
  rw [nonlocalSs_tr]
  rw [assignedSs_tr (B.add ps k₀) k b]
  · congr 1
    refine List.filter_congr fun p hp => ?_
    have hP := isPar_B h p.2
    obtain ⟨w, x⟩ := p
    simp only at hP
    have hadd : ps.contains x = false → (B.add ps k₀) x = B x := by intro hc; unfold Bind.add; rw [hc]; rfl
    cases w with
    | walrus =>
      simp only [Spec.makesLocal]
      cases hc : ps.contains x
      · rw [hadd hc, hP]
        cases B x <;> simp
      · simp
    | stmt =>
      simp only [Spec.makesLocal]
      cases hc : ps.contains x
      · rw [hadd hc]
        cases hn : (Spec.nonlocalSs b).contains x
        · have : Spec.isPar ρ x = false := by
            have := List.any_eq_false.1 hs x (by
              unfold Spec.locals
              refine List.mem_map.2 ⟨(.stmt, x), List.mem_filter.2 ⟨hp, ?_⟩, rfl⟩
              simp only [Spec.makesLocal, hn, hc]; rfl)
            simpa using this
          rw [hP] at this
          cases hB : B x <;> simp_all
        · simp
      · simp
  · intro p hp hq
    obtain ⟨w, x⟩ := p
    cases w with
    | walrus => trivial
    | stmt =>
      simp only [Bool.and_eq_true, Bool.not_eq_true'] at hq
      have hP := isPar_B h x
      have : Spec.isPar ρ x = false := by
        have := List.any_eq_false.1 hs x (by
          unfold Spec.locals
          refine List.mem_map.2 ⟨(.stmt, x), List.mem_filter.2 ⟨hp, ?_⟩, rfl⟩
          simp only [Spec.makesLocal, hq.1, hq.2]; rfl)
        simpa using this
      rw [hP] at this
      simp only [Bind.add, hq.2]
      cases hB : B x <;> simp_all

/-! ## Defaults -/

theorem evalD_sim {ρ : Spec.Scope} {ρ' : Scope} {B : Bind} (h : ScR ρ ρ' B) :
    ∀ d : Dflt β, Sim (ω := ω) (ε := ε) V (Spec.evalD true ρ d) (evalD ρ' (trD B d))
  | .cst c => Sim.ret (.base c)
  | .name x => by
    have := load_sim (β := β) (ω := ω) (ε := ε) h x
    simp only [trD, Spec.evalD]
    cases hx : B x <;> rw [hx] at this <;> exact this

theorem evalDs_sim {ρ : Spec.Scope} {ρ' : Scope} {B : Bind} (h : ScR ρ ρ' B) :
    ∀ ds : List (Dflt β), Sim (ω := ω) (ε := ε) Vs (Spec.evalDs true ρ ds) (evalDs ρ' (ds.map (trD B)))
  | [] => Sim.ret .nil
  | d :: ds => (evalD_sim h d).bind fun _ _ hv => (evalDs_sim h ds).bind fun _ _ hvs => Sim.ret (.cons hv hvs)

theorem trD_own {B : Bind} {ps : List String} (k : Nat) {ds : List (Dflt β)} (h : Spec.ownDefault ps ds = false) :
    ds.map (trD (B.add ps k)) = ds.map (trD B) := by
  refine List.map_congr_left fun d hd => ?_
  have := List.any_eq_false.1 h d hd
  cases d with
  | cst c => rfl
  | name x =>
    simp only [Bool.not_eq_true] at this
    simp only [trD, Bind.add, this, Bool.false_eq_true, if_false]

/-! ## Expressions -/

theorem ScR.withVar {ρ : Spec.Scope} {ρ' : Scope} {B : Bind} (h : ScR ρ ρ' B) {x : String} (hx : B x = none) (k : Nat) :
    ScR (Spec.withVar ρ x k) (ρ'.add [x] k) B := by
  intro y
  by_cases hy : y = x
  · subst hy; simp [Spec.withVar, Scope.add, hx]
  · have := h y
    have hc : [x].contains y = false := by simpa using hy
    simp only [Spec.withVar, Scope.add, hy, hc, if_false, Bool.false_eq_true]
    exact this

section
variable {P : World β ω ε} {ap : Spec.Val β → List String → List (Spec.Val β) → Spec.Mo β ω ε (Spec.Val β)}
  {ap' : Val β → List String → List (Val β) → Mo β ω ε (Val β)}

def ApR (ap : Spec.Val β → List String → List (Spec.Val β) → Spec.Mo β ω ε (Spec.Val β)) (ap' : Val β → List String → List (Val β) → Mo β ω ε (Val β)) : Prop :=
  ∀ f f' ks args args', V f f' → Vs args args' → Sim V (ap f ks args) (ap' f' ks args')

/-- A lambda or `def`. -/
theorem clo_V {kind sg ds ds'} {b : List (St β)} {ρ : Spec.Scope} {ρ' : Scope} {B : Bind} (hk : KindOK sg.names kind)
    (hds : Vs ds ds') (h : ScR ρ ρ' B) :
    V (.clo sg ds b ρ)
      (.clo kind sg ds' (trSs (B.add sg.names ρ'.envs.length) (next sg.names ρ'.envs.length) b) ρ') := .clo hds h hk

theorem add_nil (B : Bind) (k : Nat) : B.add [] k = B := by funext x; simp [Bind.add]

mutual
theorem eval_sim (hap : ApR ap ap') : ∀ (ρ : Spec.Scope) (ρ' : Scope) (B : Bind) (k : Nat) (_ : ScR ρ ρ' B) (_ : k = ρ'.envs.length)
    (e : Ex β), Sim V (Spec.eval true P ap ρ e) (eval P ap' ρ' (tr B k e))
  | ρ, ρ', B, k, h, hk, .cst c => Sim.ret (.base c)
  | ρ, ρ', B, k, h, hk, .non => Sim.ret .non
  | ρ, ρ', B, k, h, hk, .name x => by
    have := load_sim (β := β) (ω := ω) (ε := ε) h x
    unfold tr Spec.eval
    cases hx : B x <;> rw [hx] at this <;> simpa only [eval] using this
  | ρ, ρ', B, k, h, hk, .op n es => by
    unfold tr Spec.eval eval
    exact (evals_sim hap ρ ρ' B k h hk es).bind fun _ _ hvs => binop_sim P n hvs
  | ρ, ρ', B, k, h, hk, .asg x e => by
    have he := eval_sim hap ρ ρ' B k h hk e
    unfold tr Spec.eval
    cases hx : B x with
    | none =>
      simp only [eval]
      refine he.bind fun v v' hv => ?_
      have := setCall_sim (ω := ω) (ε := ε) h x hv
      rw [hx] at this
      exact this.bind fun _ _ _ => Sim.ret hv
    | some j =>
      simp only [eval]
      refine he.bind fun v v' hv => ?_
      have := setCall_sim (ω := ω) (ε := ε) h x hv
      rw [hx] at this
      exact this.bind fun _ _ _ => Sim.ret hv
  | ρ, ρ', B, k, h, hk, .ife c t e => by
    unfold tr Spec.eval eval
    refine (eval_sim hap ρ ρ' B k h hk c).bind fun v v' hv => ?_
    rw [truthy_V P hv]
    cases Spec.truthy P v
    · exact eval_sim hap ρ ρ' B k h hk e
    · exact eval_sim hap ρ ρ' B k h hk t
  | ρ, ρ', B, k, h, hk, .tup es => by
    unfold tr Spec.eval eval
    exact (evals_sim hap ρ ρ' B k h hk es).bind fun _ _ hvs => Sim.ret (.tup hvs)
  | ρ, ρ', B, k, h, hk, .comp x e it => by
    unfold tr Spec.eval
    refine Sim.stop fun hs => ?_
    have hp : Spec.isPar ρ x = false := by simpa using hs
    rw [isPar_B h x] at hp
    have hx : B x = none := by simpa using hp
    rw [hx]
    simp only [eval]
    refine (eval_sim hap ρ ρ' B k h hk it).bind fun v v' hv => (items_sim hv).bind fun vs vs' hvs =>
      (newFrame_sim ?_).bind fun i i' hi => ?_
    · intro y c hc
      refine ⟨none, ?_⟩
      by_cases hy : y = x
      · subst hy; simp [List.lookup] at hc ⊢; subst hc; trivial
      · have : (y == x) = false := by simpa using hy
        simp [List.lookup, this] at hc
    · subst hi
      refine (forEach_sim (fun w w' hw => ?_) hvs).bind fun ws ws' hws => Sim.ret (.tup hws)
      exact (storeVar_sim i x hw).bind fun _ _ _ => eval_sim hap _ _ B k (h.withVar hx i) hk e
  | ρ, ρ', B, k, h, hk, .lam sg ds b => by
    unfold tr Spec.eval
    refine Sim.stop fun hs => ?_
    have ho : Spec.ownDefault sg.names ds = false := by simpa using hs
    subst hk
    by_cases hn : sg.names = []
    · simp only [hn, List.isEmpty_nil, if_true, eval]
      refine (evalDs_sim h ds).bind fun vs vs' hvs => Sim.ret ?_
      have := clo_V (b := [.ret b]) (kind := .none) (sg := sg) hn hvs h
      rw [hn, add_nil] at this
      exact this
    · have hne : sg.names.isEmpty = false := by simpa using hn
      simp only [hne, Bool.false_eq_true, if_false, eval]
      rw [trD_own _ ho]
      refine (evalDs_sim h ds).bind fun vs vs' hvs => Sim.ret ?_
      have := clo_V (b := [.ret b]) (kind := .update) (sg := sg) hn hvs h
      simp only [next, hne, Bool.false_eq_true, if_false] at this
      exact this
  | ρ, ρ', B, k, h, hk, .call f ks args => by
    unfold tr Spec.eval eval
    exact (eval_sim hap ρ ρ' B k h hk f).bind fun _ _ hf => (evals_sim hap ρ ρ' B k h hk args).bind fun _ _ hvs =>
      hap _ _ _ _ _ hf hvs

theorem evals_sim (hap : ApR ap ap') : ∀ (ρ : Spec.Scope) (ρ' : Scope) (B : Bind) (k : Nat) (_ : ScR ρ ρ' B)
    (_ : k = ρ'.envs.length) (es : List (Ex β)), Sim Vs (Spec.evals true P ap ρ es) (evals P ap' ρ' (trs B k es))
  | ρ, ρ', B, k, h, hk, [] => Sim.ret .nil
  | ρ, ρ', B, k, h, hk, e :: es => by
    unfold trs Spec.evals evals
    exact (eval_sim hap ρ ρ' B k h hk e).bind fun _ _ hv => (evals_sim hap ρ ρ' B k h hk es).bind fun _ _ hvs =>
      Sim.ret (.cons hv hvs)
end

theorem whileLoop_sim {test test'} {b : Spec.Mo β ω ε (Flow (Spec.Val β))} {b'} (ht : Sim (β := β) (· = ·) test test')
    (hb : Sim FlowR b b') : ∀ n, Sim FlowR (whileLoop test b n) (whileLoop test' b' n)
  | 0 => fun _ _ _ => .inr trivial
  | n + 1 => by
    unfold whileLoop
    refine ht.bind fun c c' hc => ?_
    subst hc
    cases c with
    | false => exact Sim.ret trivial
    | true =>
      refine hb.bind fun fl fl' hfl => ?_
      match fl, fl', hfl with
      | .next, .next, _ => exact whileLoop_sim ht hb n
      | .ret v, .ret v', h => exact Sim.ret h
      | .next, .ret _, h => exact h.elim
      | .ret _, .next, h => exact h.elim

mutual
theorem exec_sim (N : Nat) (hap : ApR ap ap') : ∀ (ρ : Spec.Scope) (ρ' : Scope) (B : Bind) (k : Nat) (_ : ScR ρ ρ' B)
    (_ : k = ρ'.envs.length) (t : St β), Sim FlowR (Spec.exec true P N ap ρ t) (exec P N ap' ρ' (trS B k t))
  | ρ, ρ', B, k, h, hk, .ret e => by
    unfold trS Spec.exec exec
    exact (eval_sim hap ρ ρ' B k h hk e).bind fun _ _ hv => Sim.ret hv
  | ρ, ρ', B, k, h, hk, .expr e => by
    unfold trS Spec.exec exec
    exact (eval_sim hap ρ ρ' B k h hk e).bind fun _ _ hv => Sim.ret trivial
  | ρ, ρ', B, k, h, hk, .assign x e => by
    have he := eval_sim (P := P) hap ρ ρ' B k h hk e
    unfold trS Spec.exec
    cases hx : B x with
    | none =>
      simp only [exec]
      refine he.bind fun v v' hv => ?_
      have := store_sim (ω := ω) (ε := ε) h x hv
      rw [hx] at this
      exact this.bind fun _ _ _ => Sim.ret trivial
    | some j =>
      simp only [exec]
      refine he.bind fun v v' hv => ?_
      have := store_sim (ω := ω) (ε := ε) h x hv
      rw [hx] at this
      exact this.bind fun _ _ _ => Sim.ret trivial
  | ρ, ρ', B, k, h, hk, .aug x n e => by
    have he := eval_sim (P := P) hap ρ ρ' B k h hk e
    have hl := load_sim (β := β) (ω := ω) (ε := ε) h x
    unfold trS Spec.exec
    cases hx : B x with
    | none =>
      rw [hx] at hl
      simp only [exec]
      refine hl.bind fun u u' hu => he.bind fun v v' hv => (binop_sim P n (.cons hu (.cons hv .nil))).bind fun r r' hr => ?_
      have := store_sim (ω := ω) (ε := ε) h x hr
      rw [hx] at this
      exact this.bind fun _ _ _ => Sim.ret trivial
    | some j =>
      rw [hx] at hl
      simp only [exec]
      refine hl.bind fun u u' hu => he.bind fun v v' hv => (binop_sim P n (.cons hu (.cons hv .nil))).bind fun r r' hr => ?_
      have := store_sim (ω := ω) (ε := ε) h x hr
      rw [hx] at this
      exact this.bind fun _ _ _ => Sim.ret trivial
  | ρ, ρ', B, k, h, hk, .ite c b₁ b₂ => by
    unfold trS Spec.exec exec
    refine (eval_sim hap ρ ρ' B k h hk c).bind fun v v' hv => ?_
    rw [truthy_V P hv]
    cases Spec.truthy P v
    · exact execs_sim N hap ρ ρ' B k h hk b₂
    · exact execs_sim N hap ρ ρ' B k h hk b₁
  | ρ, ρ', B, k, h, hk, .while c b => by
    unfold trS Spec.exec exec
    exact whileLoop_sim ((eval_sim hap ρ ρ' B k h hk c).bind fun _ _ hv => Sim.ret (truthy_V P hv).symm)
      (execs_sim N hap ρ ρ' B k h hk b) N
  | ρ, ρ', B, k, h, hk, .loop x it b => by
    have he := eval_sim (P := P) hap ρ ρ' B k h hk it
    have hb := execs_sim N hap ρ ρ' B k h hk b
    unfold trS Spec.exec
    cases hx : B x with
    | none =>
      simp only [exec]
      refine he.bind fun v v' hv => (items_sim hv).bind fun vs vs' hvs => forLoop_sim (fun w w' hw => ?_) hvs
      have := store_sim (ω := ω) (ε := ε) h x hw
      rw [hx] at this
      exact this.bind fun _ _ _ => hb
    | some j =>
      simp only [exec]
      refine he.bind fun v v' hv => (items_sim hv).bind fun vs vs' hvs => forLoop_sim (fun w w' hw => ?_) hvs
      have := store_sim (ω := ω) (ε := ε) h x hw
      rw [hx] at this
      exact this.bind fun _ _ _ => hb
  | ρ, ρ', B, k, h, hk, .del x => by
    unfold trS Spec.exec
    refine Sim.stop fun hs => ?_
    have hx : B x = none := by have := isPar_B h x; rw [show Spec.isPar ρ x = false by simpa using hs] at this; simpa using this.symm
    rw [hx]
    simp only [exec]
    exact (delete_sim h hx).bind fun _ _ _ => Sim.ret trivial
  | ρ, ρ', B, k, h, hk, .attempt b₁ b₂ => by
    unfold trS Spec.exec exec
    exact attempt_sim (execs_sim N hap ρ ρ' B k h hk b₁) (execs_sim N hap ρ ρ' B k h hk b₂)
  | ρ, ρ', B, k, h, hk, .defn x sg ds b => by
    unfold trS Spec.exec
    refine Sim.stop fun hs => ?_
    have hs' : Spec.isPar ρ x = false ∧ Spec.ownDefault sg.names ds = false := by simpa using hs
    have hx : B x = none := by have := isPar_B h x; rw [hs'.1] at this; simpa using this.symm
    subst hk
    by_cases hn : sg.names = []
    · simp only [hn, List.isEmpty_nil, if_true, exec]
      refine (evalDs_sim h ds).bind fun vs vs' hvs => ?_
      have hc := clo_V (b := b) (kind := .none) (sg := sg) hn hvs h
      rw [hn, add_nil] at hc
      have := store_sim (ω := ω) (ε := ε) h x hc
      rw [hx] at this
      exact this.bind fun _ _ _ => Sim.ret trivial
    · have hne : sg.names.isEmpty = false := by simpa using hn
      simp only [hne, Bool.false_eq_true, if_false, exec]
      rw [trD_own _ hs'.2]
      refine (evalDs_sim h ds).bind fun vs vs' hvs => ?_
      have hc := clo_V (b := b) (kind := .ctor) (sg := sg) hn hvs h
      simp only [next, hne, Bool.false_eq_true, if_false] at hc
      have := store_sim (ω := ω) (ε := ε) h x hc
      rw [hx] at this
      exact this.bind fun _ _ _ => Sim.ret trivial
  | ρ, ρ', B, k, h, hk, .nonlocal xs => Sim.ret trivial

theorem execs_sim (N : Nat) (hap : ApR ap ap') : ∀ (ρ : Spec.Scope) (ρ' : Scope) (B : Bind) (k : Nat) (_ : ScR ρ ρ' B)
    (_ : k = ρ'.envs.length) (ts : List (St β)), Sim FlowR (Spec.execs true P N ap ρ ts) (execs P N ap' ρ' (trSs B k ts))
  | ρ, ρ', B, k, h, hk, [] => Sim.ret trivial
  | ρ, ρ', B, k, h, hk, t :: ts => by
    unfold trSs Spec.execs execs
    refine (exec_sim N hap ρ ρ' B k h hk t).bind fun fl fl' hfl => ?_
    match fl, fl', hfl with
    | .next, .next, _ => exact execs_sim N hap ρ ρ' B k h hk ts
    | .ret v, .ret v', h => exact Sim.ret h
    | .next, .ret _, h => exact h.elim
    | .ret _, .next, h => exact h.elim
end

/-! ## Calls -/

theorem lookup_append {α : Type} (x : String) : ∀ l l' : List (String × α), (∀ p ∈ l, p.1 ≠ x) → (l ++ l').lookup x = l'.lookup x
  | [], l', _ => rfl
  | p :: l, l', h => by
    have h1 : (x == p.1) = false := by simpa using (h p (by simp)).symm
    have h2 := lookup_append x l l' fun q hq => h q (by simp [hq])
    obtain ⟨y, a⟩ := p
    simp only at h1
    simp [List.lookup, h1, h2]

theorem lookup_none {α : Type} (x : String) : ∀ (ls : List String) (c : α) , (ls.map fun y => (y, c)).lookup x =
    if ls.contains x then some c else none
  | [], c => by simp
  | y :: ls, c => by
    have ih := lookup_none x ls c
    by_cases hy : x = y
    · subst hy; simp [List.lookup]
    · have h1 : (x == y) = false := by simpa using hy
      simp only [List.map_cons, List.lookup, h1, ih, List.contains_cons, Bool.false_or]

/-- The frame of a call. -/
theorem frame_FR {ps ls : List String} {us' : List (Val β)} (hd : ∀ x ∈ ls, ps.contains x = false) :
    FR (β := β) (ls.map fun x => (x, none)) ((ps.zip us').map (fun p => (p.1, some p.2)) ++ ls.map fun x => (x, none)) := by
  intro x c hc
  rw [lookup_none] at hc
  cases hx : ls.contains x with
  | false => simp only [hx, Bool.false_eq_true, if_false] at hc; cases hc
  | true =>
    simp only [hx, if_true, Option.some.injEq] at hc
    subst hc
    refine ⟨none, ?_, trivial⟩
    rw [lookup_append, lookup_none, hx]
    · rfl
    · intro p hp hpx
      obtain ⟨q, hq, rfl⟩ := List.mem_map.1 hp
      have h1 := hd x (by simpa using hx)
      have h2 : q.1 ∈ ps := (List.of_mem_zip hq).1
      simp only at hpx
      subst hpx
      simp [h2] at h1

/-- The environment of a call. -/
theorem makeEnv_sim {kind ps} (hk : KindOK ps kind) {us : List (Spec.Val β)} {us'} (hu : Vs us us') (hl : us.length = ps.length)
    (hg : ps.any Spec.badName = false) :
    Sim (ω := ω) (ε := ε) (fun r os => os = if ps.isEmpty then [] else [r]) (Spec.newRec (ps.zip us)) (makeEnv kind (ps.zip us')) := by
  have hn : ∀ p ∈ ps.zip us', Spec.badName p.1 = false := by
    intro p hp
    have := List.any_eq_false.1 hg p.1 (List.of_mem_zip hp).1
    simpa using this
  have hself : (ps.zip us').any (fun p => p.1 == "self" || p.1 == "cls") = false :=
    List.any_eq_false.2 fun p hp => by simp only [(good_attr (hn p hp)).2.2.2]; simp
  have hself1 : (ps.zip us').any (fun p => p.1 == "self") = false :=
    List.any_eq_false.2 fun p hp => by
      have := (good_attr (hn p hp)).2.2.2
      simp only [Bool.or_eq_false_iff] at this
      simp [this.1]
  have hdw : (ps.zip us').any (fun p => p.1.startsWith "__" || directWrite.contains p.1) = false :=
    List.any_eq_false.2 fun p hp => by simp only [(good_attr (hn p hp)).1]; simp
  have hres : (ps.zip us').any (fun p => reservedNames.contains p.1) = false :=
    List.any_eq_false.2 fun p hp => by simp only [(good_attr (hn p hp)).2.2.1]; simp
  have hnon : ps ≠ [] → (ps.zip us).isEmpty = false ∧ ps.isEmpty = false := by
    intro h
    match ps, us, hl, h with
    | [], _, _, h => exact absurd rfl h
    | p :: ps, u :: us, _, _ => exact ⟨rfl, rfl⟩
  cases kind with
  | none =>
    have hk : ps = [] := hk
    subst hk
    exact Sim.ret rfl
  | ctor =>
    have hk := hnon hk
    simp only [Spec.newRec, makeEnv, hk.1, hk.2, hself, hdw, hres, Bool.false_eq_true, if_false]
    intro s s' hR
    rcases newEnv_sim (ω := ω) (ε := ε) (AR.zip ps hu) s s' hR with hf | ⟨he, hR'⟩
    · exact .inl hf
    · exact .inr ⟨by rw [he], hR'⟩
  | update =>
    have hk := hnon hk
    simp only [Spec.newRec, makeEnv, hk.1, hk.2, hself1, Bool.false_eq_true, if_false]
    intro s s' hR
    rcases newEnv_sim (ω := ω) (ε := ε) (AR.zip ps hu) s s' hR with hf | ⟨he, hR'⟩
    · exact .inl hf
    · exact .inr ⟨by rw [he], hR'⟩

/-- The scope of a call. -/
theorem enter_ScR {ρ : Spec.Scope} {ρ' : Scope} {B : Bind} (h : ScR ρ ρ' B) {ps ls : List String} (r i : Nat)
    (hg : ps.any Spec.badName = false) (hls : ls.any (Spec.isPar ρ) = false) :
    ScR (Spec.enter ρ ps r ls i) { ρ'.add (ps ++ ls) i with envs := ρ'.envs ++ if ps.isEmpty then [] else [r] }
      (B.add ps ρ'.envs.length) := by
  intro x
  cases hp : ps.contains x with
  | true =>
    simp only [Spec.enter, hp, if_true, Bind.add]
    refine ⟨ρ'.envs.length, rfl, ?_, ?_⟩
    · cases ps with
      | nil => simp at hp
      | cons p ps => simp
    · have := List.any_eq_false.1 hg x (by simpa using hp)
      simpa using this
  | false =>
    have hc : (ps ++ ls).contains x = ls.contains x := by
      have hp' : x ∉ ps := by simpa using hp
      simp [hp']
    simp only [Spec.enter, hp, Bind.add, Scope.add, hc, Bool.false_eq_true, if_false]
    cases hl : ls.contains x with
    | true =>
      simp only [if_true]
      have := List.any_eq_false.1 hls x (by simpa using hl)
      rw [isPar_B h x] at this
      exact ⟨by simpa using this, trivial⟩
    | false =>
      simp only [Bool.false_eq_true, if_false]
      have hx := h x
      match hρ : ρ x with
      | none => rw [hρ] at hx; exact hx
      | some (.loc k) => rw [hρ] at hx; exact hx
      | some (.par r') =>
        rw [hρ] at hx
        obtain ⟨j, hj, hr, hb⟩ := hx
        refine ⟨j, hj, ?_, hb⟩
        rw [List.getElem?_append_left (List.getElem?_eq_some_iff.1 hr).1]
        exact hr

theorem locals_disjoint (ρ : Spec.Scope) (ps : List String) (b : List (St β)) : ∀ x ∈ Spec.locals ρ ps b, ps.contains x = false := by
  intro x hx
  unfold Spec.locals at hx
  obtain ⟨⟨w, y⟩, hp, rfl⟩ := List.mem_map.1 hx
  have := (List.mem_filter.1 hp).2
  cases w <;> simp_all [Spec.makesLocal]

theorem callEntry_sim (N : Nat) (hap : ApR ap ap') : ApR (Spec.callEntry true P N ap) (callEntry P N ap') := by
  intro f f' ks args args' hf ha
  cases hf with
  | base b => simp only [Spec.callEntry, callEntry]; exact Sim.raise _
  | non => simp only [Spec.callEntry, callEntry]; exact Sim.raise _
  | tup h => simp only [Spec.callEntry, callEntry]; exact Sim.raise _
  | ext n =>
    cases ks with
    | cons k ks => simp only [Spec.callEntry, callEntry]; exact Sim.raise _
    | nil =>
      simp only [Spec.callEntry, callEntry]
      rw [bases_V ha]
      cases Spec.bases args with
      | none => exact Sim.raise _
      | some bs =>
        refine (callExt_sim P n bs).bind fun b b' hb => ?_
        subst hb
        exact Sim.ret (.base b)
  | @clo kind sg ds ds' b ρ ρ' B hds hsc hk =>
    simp only [Spec.callEntry, callEntry]
    rcases bindArgs_rel sg hds ks ha with ⟨h1, h2⟩ | ⟨us, us', h1, h2, hu, hl⟩
    · rw [h1, h2]; exact Sim.raise _
    · rw [h1, h2]
      refine Sim.stop fun hs => ?_
      have hs' : sg.names.any Spec.badName = false ∧ (Spec.locals ρ sg.names b).any (Spec.isPar ρ) = false := by simpa using hs
      rw [locals_eq hsc sg.names _ _ b hs'.2]
      refine (newFrame_sim (frame_FR (locals_disjoint ρ sg.names b))).bind fun i i' hi => ?_
      subst hi
      refine (makeEnv_sim hk hu hl hs'.1).bind fun r os hos => ?_
      subst hos
      refine (execs_sim N hap _ _ _ _ (enter_ScR hsc r i hs'.1 hs'.2) ?_ b).bind fun fl fl' hfl => ?_
      · cases h : sg.names <;> simp [next]
      · match fl, fl', hfl with
        | .next, .next, _ => exact Sim.ret .non
        | .ret v, .ret v', h => exact Sim.ret h
        | .next, .ret _, h => exact h.elim
        | .ret _, .next, h => exact h.elim

end

theorem apply_sim (P : World β ω ε) (N : Nat) : ∀ d, ApR (Spec.apply true P N d) (apply P N d)
  | 0 => fun _ _ _ _ _ _ _ => fun _ _ _ => .inr trivial
  | d + 1 => callEntry_sim N (apply_sim P N d)

theorem run_sim (P : World β ω ε) (N d : Nat) (vars : List String) (b : List (St β)) :
    Sim FlowR (Spec.run true P N d vars b) (run P N d vars (expand b)) := by
  refine execs_sim N (apply_sim P N d) _ _ _ 0 ?_ rfl b
  intro x
  cases hx : vars.contains x <;> simp only [hx, if_true, Bool.false_eq_true, if_false, and_self]

/-! ## The careful interpreter and the other one -/

def Sub {α : Type} (m m' : M (State (Spec.Val β) ω) ε α) : Prop := ∀ s, Flagged (m s) ∨ m' s = m s

theorem Sub.refl {α : Type} (m : M (State (Spec.Val β) ω) ε α) : Sub m m := fun _ => .inr rfl

theorem Sub.bind {α γ : Type} {m m' : M (State (Spec.Val β) ω) ε α} {k k' : α → M _ ε γ} (hm : Sub m m')
    (hk : ∀ a, Sub (k a) (k' a)) : Sub (PyExpr.bind m k) (PyExpr.bind m' k') := by
  intro s
  unfold PyExpr.bind
  rcases hm s with ⟨s', hf⟩ | he
  · left; rw [hf]; exact ⟨s', rfl⟩
  · rw [he]
    match hms : m s with
    | none => right; rfl
    | some (.error e, s') => right; rfl
    | some (.ok a, s') => exact hk a s'

theorem Sub.stop {α : Type} {b : Bool} {k k' : Unit → M (State (Spec.Val β) ω) ε α}
    (hk : Sub (k ()) (k' ())) : Sub (PyExpr.bind (Spec.stopIf (true && b)) k) (PyExpr.bind (Spec.stopIf (false && b)) k') := by
  cases b
  · exact hk
  · exact fun s => .inl ⟨s, rfl⟩

theorem whileLoop_sub {test test' : M (State (Spec.Val β) ω) ε Bool} {α : Type}
    {b b' : M (State (Spec.Val β) ω) ε (Flow α)} (ht : Sub test test') (hb : Sub b b') :
    ∀ n, Sub (whileLoop test b n) (whileLoop test' b' n)
  | 0 => Sub.refl _
  | n + 1 => by
    unfold whileLoop
    refine ht.bind fun c => ?_
    cases c with
    | false => exact Sub.refl _
    | true =>
      refine hb.bind fun fl => ?_
      cases fl with
      | next => exact whileLoop_sub ht hb n
      | ret v => exact Sub.refl _

theorem forLoop_sub {α γ : Type} {body body' : α → M (State (Spec.Val β) ω) ε (Flow γ)} (hb : ∀ v, Sub (body v) (body' v)) :
    ∀ vs, Sub (forLoop body vs) (forLoop body' vs)
  | [] => Sub.refl _
  | v :: vs => by
    unfold forLoop
    refine (hb v).bind fun fl => ?_
    cases fl with
    | next => exact forLoop_sub hb vs
    | ret w => exact Sub.refl _

theorem attempt_sub {α : Type} {m m' h h' : M (State (Spec.Val β) ω) ε α} (hm : Sub m m') (hh : Sub h h') :
    Sub (attempt m h) (attempt m' h') := by
  intro s
  unfold attempt
  rcases hm s with ⟨s', hf⟩ | he
  · left; rw [hf]; exact ⟨s', rfl⟩
  · rw [he]
    match hms : m s with
    | none => right; rfl
    | some (.ok a, s') => right; rfl
    | some (.error .unmodelled, s') => right; rfl
    | some (.error .nameError, s') => exact hh s'
    | some (.error (.py _), s') => exact hh s'
    | some (.error (.user _), s') => exact hh s'

theorem load_sub (ρ : Spec.Scope) (x : String) : Sub (β := β) (ω := ω) (ε := ε) (Spec.load true ρ x) (Spec.load false ρ x) := by
  unfold Spec.load
  match ρ x with
  | none => exact Sub.refl _
  | some (.loc k) => exact Sub.refl _
  | some (.par r) =>
    intro s
    simp only [Spec.loadPar]
    cases s.envs[r]?.bind (·.lookup x) with
    | none => exact .inl ⟨s, rfl⟩
    | some v => exact .inr rfl

theorem store_sub (ρ : Spec.Scope) (x : String) (v : Spec.Val β) :
    Sub (ω := ω) (ε := ε) (Spec.store true ρ x v) (Spec.store false ρ x v) := by
  unfold Spec.store
  match ρ x with
  | none => exact Sub.refl _
  | some (.loc k) => exact Sub.refl _
  | some (.par r) =>
    intro s
    simp only [Spec.storePar]
    cases s.envs[r]? with
    | none => exact .inr rfl
    | some f =>
      dsimp only
      cases (f.lookup x).isSome with
      | true => exact .inr rfl
      | false => exact .inl ⟨s, rfl⟩

theorem evalDs_sub (ρ : Spec.Scope) : ∀ ds : List (Dflt β),
    Sub (ω := ω) (ε := ε) (Spec.evalDs true ρ ds) (Spec.evalDs false ρ ds)
  | [] => Sub.refl _
  | d :: ds => by
    unfold Spec.evalDs
    refine Sub.bind ?_ fun v => (evalDs_sub ρ ds).bind fun vs => Sub.refl _
    cases d with
    | cst c => exact Sub.refl _
    | name x => exact load_sub ρ x

theorem forEach_sub {body body' : Spec.Val β → M (State (Spec.Val β) ω) ε (Spec.Val β)} (hb : ∀ v, Sub (body v) (body' v)) :
    ∀ vs, Sub (forEach body vs) (forEach body' vs)
  | [] => Sub.refl _
  | v :: vs => by
    unfold forEach
    exact (hb v).bind fun w => (forEach_sub hb vs).bind fun _ => Sub.refl _

section
variable {P : World β ω ε} {ap ap' : Spec.Val β → List String → List (Spec.Val β) → Spec.Mo β ω ε (Spec.Val β)}

def ApSub (ap ap' : Spec.Val β → List String → List (Spec.Val β) → Spec.Mo β ω ε (Spec.Val β)) : Prop :=
  ∀ f ks args, Sub (ap f ks args) (ap' f ks args)

mutual
theorem eval_sub (hap : ApSub ap ap') : ∀ (ρ : Spec.Scope) (e : Ex β), Sub (Spec.eval true P ap ρ e) (Spec.eval false P ap' ρ e)
  | ρ, .cst c => Sub.refl _
  | ρ, .non => Sub.refl _
  | ρ, .name x => by unfold Spec.eval; exact load_sub ρ x
  | ρ, .op n es => by unfold Spec.eval; exact (evals_sub hap ρ es).bind fun _ => Sub.refl _
  | ρ, .asg x e => by unfold Spec.eval; exact (eval_sub hap ρ e).bind fun _ => (store_sub ρ x _).bind fun _ => Sub.refl _
  | ρ, .ife c t e => by
    unfold Spec.eval
    refine (eval_sub hap ρ c).bind fun v => ?_
    cases Spec.truthy P v
    · exact eval_sub hap ρ e
    · exact eval_sub hap ρ t
  | ρ, .tup es => by unfold Spec.eval; exact (evals_sub hap ρ es).bind fun _ => Sub.refl _
  | ρ, .comp x e it => by
    unfold Spec.eval
    exact Sub.stop ((eval_sub hap ρ it).bind fun v => (Sub.refl _).bind fun vs => (Sub.refl _).bind fun k =>
      (forEach_sub (fun w => (Sub.refl _).bind fun _ => eval_sub hap _ e) vs).bind fun _ => Sub.refl _)
  | ρ, .lam sg ds b => by unfold Spec.eval; exact Sub.stop ((evalDs_sub ρ ds).bind fun _ => Sub.refl _)
  | ρ, .call f ks args => by
    unfold Spec.eval
    exact (eval_sub hap ρ f).bind fun fv => (evals_sub hap ρ args).bind fun vs => hap fv ks vs

theorem evals_sub (hap : ApSub ap ap') : ∀ (ρ : Spec.Scope) (es : List (Ex β)),
    Sub (Spec.evals true P ap ρ es) (Spec.evals false P ap' ρ es)
  | ρ, [] => Sub.refl _
  | ρ, e :: es => by
    unfold Spec.evals
    exact (eval_sub hap ρ e).bind fun v => (evals_sub hap ρ es).bind fun vs => Sub.refl _
end

mutual
theorem exec_sub (N : Nat) (hap : ApSub ap ap') (ρ : Spec.Scope) :
    ∀ t : St β, Sub (Spec.exec true P N ap ρ t) (Spec.exec false P N ap' ρ t)
  | .ret e => by unfold Spec.exec; exact (eval_sub hap ρ e).bind fun _ => Sub.refl _
  | .expr e => by unfold Spec.exec; exact (eval_sub hap ρ e).bind fun _ => Sub.refl _
  | .assign x e => by
    unfold Spec.exec
    exact (eval_sub hap ρ e).bind fun _ => (store_sub ρ x _).bind fun _ => Sub.refl _
  | .aug x n e => by
    unfold Spec.exec
    exact (load_sub ρ x).bind fun _ => (eval_sub hap ρ e).bind fun _ => (Sub.refl _).bind fun _ =>
      (store_sub ρ x _).bind fun _ => Sub.refl _
  | .ite c b₁ b₂ => by
    unfold Spec.exec
    refine (eval_sub hap ρ c).bind fun v => ?_
    cases Spec.truthy P v
    · exact execs_sub N hap ρ b₂
    · exact execs_sub N hap ρ b₁
  | .while c b => by
    unfold Spec.exec
    exact whileLoop_sub ((eval_sub hap ρ c).bind fun _ => Sub.refl _) (execs_sub N hap ρ b) N
  | .loop x it b => by
    unfold Spec.exec
    exact (eval_sub hap ρ it).bind fun _ => (Sub.refl _).bind fun vs =>
      forLoop_sub (fun v => (store_sub ρ x v).bind fun _ => execs_sub N hap ρ b) vs
  | .del x => by unfold Spec.exec; exact Sub.stop (Sub.refl _)
  | .attempt b₁ b₂ => by unfold Spec.exec; exact attempt_sub (execs_sub N hap ρ b₁) (execs_sub N hap ρ b₂)
  | .defn x sg ds b => by
    unfold Spec.exec
    exact Sub.stop ((evalDs_sub ρ ds).bind fun _ => (store_sub ρ x _).bind fun _ => Sub.refl _)
  | .nonlocal xs => Sub.refl _

theorem execs_sub (N : Nat) (hap : ApSub ap ap') (ρ : Spec.Scope) :
    ∀ ts : List (St β), Sub (Spec.execs true P N ap ρ ts) (Spec.execs false P N ap' ρ ts)
  | [] => Sub.refl _
  | t :: ts => by
    unfold Spec.execs
    refine (exec_sub N hap ρ t).bind fun fl => ?_
    cases fl with
    | next => exact execs_sub N hap ρ ts
    | ret v => exact Sub.refl _
end

theorem callEntry_sub (N : Nat) (hap : ApSub ap ap') : ApSub (Spec.callEntry true P N ap) (Spec.callEntry false P N ap') := by
  intro f ks args
  cases f with
  | clo sg ds b ρ =>
    simp only [Spec.callEntry]
    cases bindArgs .tup sg ds ks args with
    | none => exact Sub.refl _
    | some xs =>
      exact Sub.stop ((Sub.refl _).bind fun k => (Sub.refl _).bind fun r => (execs_sub N hap _ b).bind fun _ => Sub.refl _)
  | ext n => cases ks <;> (simp only [Spec.callEntry]; exact Sub.refl _)
  | base b => simp only [Spec.callEntry]; exact Sub.refl _
  | non => simp only [Spec.callEntry]; exact Sub.refl _
  | tup vs => simp only [Spec.callEntry]; exact Sub.refl _
end

theorem apply_sub (P : World β ω ε) (N : Nat) : ∀ d, ApSub (Spec.apply true P N d) (Spec.apply false P N d)
  | 0 => fun _ _ _ => Sub.refl _
  | d + 1 => callEntry_sub N (apply_sub P N d)

theorem run_sub (P : World β ω ε) (N d : Nat) (vars : List String) (b : List (St β)) :
    Sub (Spec.run true P N d vars b) (Spec.run false P N d vars b) := execs_sub N (apply_sub P N d) _ b

/-! ## What is seen -/

mutual
theorem obs_V : ∀ {v : Spec.Val β} {v'}, V v v' → Spec.obs v = Spec.obsI v'
  | _, _, .base b => rfl
  | _, _, .non => rfl
  | _, _, .tup h => congrArg Spec.Obs.tup (obss_V h)
  | _, _, .ext n => rfl
  | _, _, .clo .. => rfl

theorem obss_V : ∀ {vs : List (Spec.Val β)} {vs'}, Vs vs vs' → Spec.obss vs = Spec.obssI vs'
  | _, _, .nil => rfl
  | _, _, .cons h t => by simp [Spec.obss, Spec.obssI, obs_V h, obss_V t]
end

theorem Init_V : ∀ i : Spec.Init β, V i.val i.valI
  | .base b => .base b
  | .non => .non
  | .ext n => .ext n

theorem start_FR : ∀ h : List (String × Option (Spec.Init β)),
    FR (h.map fun p => (p.1, p.2.map Spec.Init.val)) (h.map fun p => (p.1, p.2.map Spec.Init.valI))
  | [] => by intro x c hc; simp at hc
  | (y, i) :: h => by
    intro x c hc
    by_cases hx : x = y
    · subst hx
      simp [List.lookup] at hc ⊢
      subst hc
      cases i with
      | none => trivial
      | some i => exact Init_V i
    · have : (x == y) = false := by simpa using hx
      simp only [List.map_cons, List.lookup, this] at hc ⊢
      exact start_FR h x c hc

theorem start_R (h : List (String × Option (Spec.Init β))) (w : ω) : R (Spec.start h w) (Spec.startI h w) where
  flen := rfl
  frames := by
    intro i f f' hf hf'
    cases i with
    | zero =>
      simp [Spec.start, Spec.startI] at hf hf'
      subst hf hf'
      exact start_FR h
    | succ n => simp [Spec.start] at hf
  elen := rfl
  envs := by intro i f f' hf; simp [Spec.start] at hf
  ext := rfl

end Unpy.Envify.Sim
