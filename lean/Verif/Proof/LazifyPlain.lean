import Verif.Spec.LazifyPlain
import Verif.Proof.Lazify
/-!
# Proof: call by need gives what plain Python gives, for purely functional programs

Plain evaluation is given a clock (`Big`).  A promise belongs to an evaluation that plain Python completes at some time; whatever it
depends on is completed before.  So forcing a promise always succeeds, by induction on that time.
-/
namespace Unpy.Lazify.Pure
open Unpy.Lazify
open Unpy.PyExpr (M ret raise bind Err)
open Unpy.Conts (State Flow load store alloc frame)
open Unpy.Lazify.Spec (hasProm hasProms isProm lacking Depth)
variable {β ω ε : Type}

abbrev PV (β : Type) := Plain.Val β
abbrev SV (β : Type) := Spec.Val β

/-! ## Plain evaluation, with a clock -/

section
variable (P : World β ω ε) (G : List (Plain.Fun β))

mutual
inductive Big : Nat → Plain.Env β → Ex β → PV β → Nat → Prop
  | cst : t < t' → Big t ρ (.cst c) (.base c) t'
  | non : t < t' → Big t ρ .non .non t'
  | param : t < t' → ρ x = some v → Big t ρ (.name x) v t'
  | glob : t < t' → ρ x = none → Plain.lookup G x = some v → Big t ρ (.name x) v t'
  | op : t < t' → Bigs t ρ es vs t₁ → t₁ < t' → Plain.bases vs = some bs → P.op n bs = .ok b →
      Big t ρ (.op n es) (.base b) t'
  | eq : t < t' → Big t ρ a v t₁ → Big t₁ ρ b w t₂ → t₁ < t' → t₂ < t' → Plain.same P v w = some r →
      Big t ρ (.eq a b) (.base (P.ofBool r)) t'
  | ife : t < t' → Big t ρ c v t₁ → Big t₁ ρ (if Plain.truthy P v then a else b) w t₂ → t₁ < t' → t₂ < t' →
      Big t ρ (.ife c a b) w t'
  | tup : t < t' → Bigs t ρ es vs t₁ → t₁ < t' → Big t ρ (.tup es) (.tup vs) t'
  | sub : t < t' → Plain.refLike e = true → Big t ρ e (.tup vs) t₁ → Big t₁ ρ i (.base b) t₂ → t₁ < t' → t₂ < t' →
      P.index b = some k → vs[k]? = some w → Big t ρ (.sub e i) w t'
  | lam : t < t' → Big t ρ (.lam ps none [] b) (.clo ps [.ret b] ρ) t'
  | call : t < t' → Spec.reserved f = false → Big t ρ f (.clo ps body ρ') t₁ → Bigs t₁ ρ args vs t₂ →
      t₁ < t' → t₂ < t' → Plain.flatSs body = true → vs.length = ps.length →
      BigS t₂ (Plain.extend ρ' ps vs) body r t₃ → t₃ < t' → Big t ρ (.call f args) (r.getD .non) t'

inductive Bigs : Nat → Plain.Env β → List (Ex β) → List (PV β) → Nat → Prop
  | nil : t ≤ t' → Bigs t ρ [] [] t'
  | cons : Big t ρ e v t₁ → Bigs t₁ ρ es vs t' → t ≤ t₁ → t₁ ≤ t' → Bigs t ρ (e :: es) (v :: vs) t'

inductive BigS : Nat → Plain.Env β → List (St β) → Option (PV β) → Nat → Prop
  | nil : t < t' → BigS t ρ [] none t'
  | ret : t < t' → Big t ρ e v t₁ → t₁ < t' → BigS t ρ (.ret e :: ss) (some v) t'
  | iteRet : t < t' → Big t ρ c v t₁ → t₁ < t' → BigS t₁ ρ (if Plain.truthy P v then a else b) (some w) t₂ → t₂ < t' →
      BigS t ρ (.ite c a b :: ss) (some w) t'
  | iteNext : t < t' → Big t ρ c v t₁ → t₁ < t' → BigS t₁ ρ (if Plain.truthy P v then a else b) none t₂ → t₂ < t' →
      BigS t₂ ρ ss r t₃ → t₃ < t' → BigS t ρ (.ite c a b :: ss) r t'
end

end

variable {P : World β ω ε} {G : List (Plain.Fun β)}

theorem Big.lt {t t' : Nat} {ρ : Plain.Env β} {e : Ex β} {v : PV β} (h : Big P G t ρ e v t') : t < t' := by
  cases h <;> assumption

theorem BigS.lt {t t' : Nat} {ρ : Plain.Env β} {e : List (St β)} {v : Option (PV β)} (h : BigS P G t ρ e v t') : t < t' := by
  cases h <;> assumption

theorem Bigs.le {t t' : Nat} {ρ : Plain.Env β} {e : List (Ex β)} {v : List (PV β)} (h : Bigs P G t ρ e v t') : t ≤ t' := by
  cases h <;> omega

/-! ## From the evaluator to the clock -/

theorem bind_ok {σ α γ : Type} {m : M σ ε α} {k : α → M σ ε γ} {s s' : σ} {c : γ} (h : bind m k s = some (.ok c, s')) :
    ∃ a s₁, m s = some (.ok a, s₁) ∧ k a s₁ = some (.ok c, s') := by
  unfold PyExpr.bind at h
  match hm : m s with
  | none => simp [hm] at h
  | some (.error e, s₁) => simp [hm] at h
  | some (.ok a, s₁) => exact ⟨a, s₁, rfl, by simpa [hm] using h⟩

theorem ret_ok {σ α : Type} {a c : α} {s s' : σ} (h : (ret a : M σ ε α) s = some (.ok c, s')) : a = c := by
  simp [ret] at h; exact h.1

theorem pick_ok {v w r : PV β} {u u' : Unit} (h : Plain.pick P v w u = some (.ok r, u')) :
    ∃ vs b k, v = .tup vs ∧ w = .base b ∧ P.index b = some k ∧ vs[k]? = some r := by
  match v, w with
  | .tup vs, .base b =>
    simp only [Plain.pick] at h
    match hi : P.index b with
    | none => rw [hi] at h; simp [raise] at h
    | some k =>
      simp only [hi] at h
      match hk : vs[k]? with
      | none => simp only [hk] at h; simp [raise] at h
      | some x =>
        simp only [hk] at h
        cases ret_ok h
        exact ⟨vs, b, k, rfl, rfl, hi, hk⟩
  | .base _, _ => simp [Plain.pick, raise] at h
  | .non, _ => simp [Plain.pick, raise] at h
  | .clo .., _ => simp [Plain.pick, raise] at h
  | .tup _, .tup _ => simp [Plain.pick, raise] at h
  | .tup _, .non => simp [Plain.pick, raise] at h
  | .tup _, .clo .. => simp [Plain.pick, raise] at h

def ApBig (P : World β ω ε) (G : List (Plain.Fun β)) (ap : PV β → List (PV β) → Plain.Mo ε (PV β)) : Prop :=
  ∀ fv vs w u u', ap fv vs u = some (.ok w, u') → ∀ t, ∃ ps body ρ r t', fv = .clo ps body ρ ∧ Plain.flatSs body = true ∧
    vs.length = ps.length ∧ BigS P G t (Plain.extend ρ ps vs) body r t' ∧ w = r.getD .non

mutual
theorem eval_big {ap} (hap : ApBig P G ap) (ρ : Plain.Env β) : ∀ (e : Ex β) {u u' v}, Plain.eval P G ap ρ e u = some (.ok v, u') →
    ∀ t, ∃ t', Big P G t ρ e v t'
  | .cst c, _, _, _, h, t => by
    simp only [Plain.eval] at h
    cases ret_ok h
    exact ⟨t + 1, .cst (by omega)⟩
  | .non, _, _, _, h, t => by
    simp only [Plain.eval] at h
    cases ret_ok h
    exact ⟨t + 1, .non (by omega)⟩
  | .name x, _, _, _, h, t => by
    simp only [Plain.eval] at h
    match hx : ρ x with
    | some v =>
      rw [hx] at h
      cases ret_ok h
      exact ⟨t + 1, .param (by omega) hx⟩
    | none =>
      rw [hx] at h
      match hg : Plain.lookup G x with
      | some v =>
        rw [hg] at h
        cases ret_ok h
        exact ⟨t + 1, .glob (by omega) hx hg⟩
      | none => rw [hg] at h; simp [raise] at h
  | .op n es, _, _, _, h, t => by
    simp only [Plain.eval] at h
    obtain ⟨vs, u₁, h₁, h₂⟩ := bind_ok h
    obtain ⟨t₁, b₁⟩ := evals_big hap ρ es h₁ t
    unfold Plain.binop at h₂
    match hb : Plain.bases vs with
    | none => rw [hb] at h₂; simp [raise] at h₂
    | some bs =>
      rw [hb] at h₂
      match ho : P.op n bs with
      | .error e => simp only [ho] at h₂; simp [raise] at h₂
      | .ok b =>
        simp only [ho] at h₂
        cases ret_ok h₂
        exact ⟨t₁ + 1, .op (by have := b₁.le; omega) b₁ (by omega) hb ho⟩
  | .eq a b, _, _, _, h, t => by
    simp only [Plain.eval] at h
    obtain ⟨v, u₁, h₁, h⟩ := bind_ok h
    obtain ⟨w, u₂, h₂, h⟩ := bind_ok h
    obtain ⟨t₁, b₁⟩ := eval_big hap ρ a h₁ t
    obtain ⟨t₂, b₂⟩ := eval_big hap ρ b h₂ t₁
    match hs : Plain.same P v w with
    | none => rw [hs] at h; simp [raise] at h
    | some r =>
      rw [hs] at h
      cases ret_ok h
      have := b₁.lt; have := b₂.lt
      exact ⟨t₂ + 1, .eq (by omega) b₁ b₂ (by omega) (by omega) hs⟩
  | .ife c a b, _, _, w, h, t => by
    simp only [Plain.eval] at h
    obtain ⟨v, u₁, h₁, h⟩ := bind_ok h
    obtain ⟨t₁, b₁⟩ := eval_big hap ρ c h₁ t
    have : ∃ t₂, Big P G t₁ ρ (if Plain.truthy P v then a else b) w t₂ := by
      cases htr : Plain.truthy P v <;> rw [htr] at h
      · exact eval_big hap ρ b h t₁
      · exact eval_big hap ρ a h t₁
    obtain ⟨t₂, b₂⟩ := this
    have := b₁.lt; have := b₂.lt
    exact ⟨t₂ + 1, .ife (by omega) b₁ b₂ (by omega) (by omega)⟩
  | .tup es, _, _, _, h, t => by
    simp only [Plain.eval] at h
    obtain ⟨vs, u₁, h₁, h₂⟩ := bind_ok h
    obtain ⟨t₁, b₁⟩ := evals_big hap ρ es h₁ t
    cases ret_ok h₂
    exact ⟨t₁ + 1, .tup (by have := b₁.le; omega) b₁ (by omega)⟩
  | .sub e i, _, _, _, h, t => by
    simp only [Plain.eval] at h
    split at h
    · rename_i hr
      obtain ⟨v, u₁, h₁, h⟩ := bind_ok h
      obtain ⟨w, u₂, h₂, h⟩ := bind_ok h
      obtain ⟨t₁, b₁⟩ := eval_big hap ρ e h₁ t
      obtain ⟨t₂, b₂⟩ := eval_big hap ρ i h₂ t₁
      obtain ⟨vs, b, k, rfl, rfl, hi, hk⟩ := pick_ok h
      have := b₁.lt; have := b₂.lt
      exact ⟨t₂ + 1, .sub (by omega) hr b₁ b₂ (by omega) (by omega) hi hk⟩
    · simp [raise] at h
  | .lam ps va ds b, _, _, _, h, t => by
    match va, ds with
    | none, [] =>
      simp only [Plain.eval] at h
      cases ret_ok h
      exact ⟨t + 1, .lam (by omega)⟩
    | none, d :: ds => simp [Plain.eval, raise] at h
    | some _, _ => simp [Plain.eval, raise] at h
  | .call f args, _, _, _, h, t => by
    simp only [Plain.eval] at h
    split at h
    · simp [raise] at h
    · rename_i hr
      obtain ⟨v, u₁, h₁, h⟩ := bind_ok h
      obtain ⟨vs, u₂, h₂, h⟩ := bind_ok h
      obtain ⟨t₁, b₁⟩ := eval_big hap ρ f h₁ t
      obtain ⟨t₂, b₂⟩ := evals_big hap ρ args h₂ t₁
      obtain ⟨ps, body, ρ', r, t₃, rfl, hf, hl, b₃, rfl⟩ := hap _ _ _ _ _ h t₂
      have := b₁.lt; have := b₂.le; have := b₃.lt
      exact ⟨t₃ + 1, .call (by omega) (by simpa using hr) b₁ b₂ (by omega) (by omega) hf hl b₃ (by omega)⟩
  | .callS .., _, _, _, h, t => by simp [Plain.eval, raise] at h
  | .lazy _, _, _, _, h, t => by simp [Plain.eval, raise] at h

theorem evals_big {ap} (hap : ApBig P G ap) (ρ : Plain.Env β) : ∀ (es : List (Ex β)) {u u' vs},
    Plain.evals P G ap ρ es u = some (.ok vs, u') → ∀ t, ∃ t', Bigs P G t ρ es vs t'
  | [], _, _, _, h, t => by
    simp only [Plain.evals] at h
    cases ret_ok h
    exact ⟨t, .nil (by omega)⟩
  | e :: es, _, _, _, h, t => by
    simp only [Plain.evals] at h
    obtain ⟨v, u₁, h₁, h⟩ := bind_ok h
    obtain ⟨vs, u₂, h₂, h⟩ := bind_ok h
    cases ret_ok h
    obtain ⟨t₁, b₁⟩ := eval_big hap ρ e h₁ t
    obtain ⟨t₂, b₂⟩ := evals_big hap ρ es h₂ t₁
    have := b₁.lt; have := b₂.le
    exact ⟨t₂, .cons b₁ b₂ (by omega) (by omega)⟩
end

mutual
theorem exec_big {ap} (hap : ApBig P G ap) (ρ : Plain.Env β) : ∀ (s : St β) {u u' r},
    Plain.exec P G ap ρ s u = some (.ok r, u') →
    ∀ t, (∃ v, r = some v ∧ ∀ ss, ∃ t', BigS P G t ρ (s :: ss) r t') ∨
      (r = none ∧ ∃ t₁, ∀ ss r' t₂, BigS P G t₁ ρ ss r' t₂ → ∃ t', BigS P G t ρ (s :: ss) r' t')
  | .ret e, _, _, _, h, t => by
    simp only [Plain.exec] at h
    obtain ⟨v, u₁, h₁, h⟩ := bind_ok h
    cases ret_ok h
    obtain ⟨t₁, b₁⟩ := eval_big hap ρ e h₁ t
    have := b₁.lt
    exact .inl ⟨v, rfl, fun ss => ⟨t₁ + 1, .ret (by omega) b₁ (by omega)⟩⟩
  | .ite c a b, _, _, r, h, t => by
    simp only [Plain.exec] at h
    obtain ⟨v, u₁, h₁, h⟩ := bind_ok h
    obtain ⟨t₁, b₁⟩ := eval_big hap ρ c h₁ t
    have : ∃ t₂, BigS P G t₁ ρ (if Plain.truthy P v then a else b) r t₂ := by
      cases htr : Plain.truthy P v <;> rw [htr] at h
      · exact execs_big hap ρ b h t₁
      · exact execs_big hap ρ a h t₁
    obtain ⟨t₂, b₂⟩ := this
    have := b₁.lt; have := b₂.lt
    cases r with
    | some w => exact .inl ⟨w, rfl, fun ss => ⟨t₂ + 1, .iteRet (by omega) b₁ (by omega) b₂ (by omega)⟩⟩
    | none =>
      refine .inr ⟨rfl, t₂, fun ss r' t₃ b₃ => ?_⟩
      have := b₃.lt
      exact ⟨t₃ + 1, .iteNext (by omega) b₁ (by omega) b₂ (by omega) b₃ (by omega)⟩
  | .expr _, _, _, _, h, _ => by simp [Plain.exec, raise] at h
  | .assign _ _, _, _, _, h, _ => by simp [Plain.exec, raise] at h
  | .aug .., _, _, _, h, _ => by simp [Plain.exec, raise] at h
  | .while .., _, _, _, h, _ => by simp [Plain.exec, raise] at h
  | .defn .., _, _, _, h, _ => by simp [Plain.exec, raise] at h
  | .nonlocal _, _, _, _, h, _ => by simp [Plain.exec, raise] at h

theorem execs_big {ap} (hap : ApBig P G ap) (ρ : Plain.Env β) : ∀ (ss : List (St β)) {u u' r},
    Plain.execs P G ap ρ ss u = some (.ok r, u') → ∀ t, ∃ t', BigS P G t ρ ss r t'
  | [], _, _, _, h, t => by
    simp only [Plain.execs] at h
    cases ret_ok h
    exact ⟨t + 1, .nil (by omega)⟩
  | s :: ss, _, _, _, h, t => by
    simp only [Plain.execs] at h
    obtain ⟨r, u₁, h₁, h⟩ := bind_ok h
    rcases exec_big hap ρ s h₁ t with ⟨v, rfl, hb⟩ | ⟨rfl, t₁, hb⟩
    · cases ret_ok h
      exact hb ss
    · obtain ⟨t₂, b₂⟩ := execs_big hap ρ ss h t₁
      exact hb ss _ _ b₂
end

theorem callFun_big {ap} (hap : ApBig P G ap) : ApBig P G (Plain.callFun P G ap) := by
  intro fv vs w u u' h t
  match fv with
  | .clo ps b ρ =>
    simp only [Plain.callFun] at h
    cases hb : Plain.flatSs b with
    | false => simp [hb, raise] at h
    | true =>
      by_cases hl : vs.length = ps.length
      · simp only [hb, hl, if_true] at h
        obtain ⟨r, u₁, h₁, h⟩ := bind_ok h
        cases ret_ok h
        obtain ⟨t', b'⟩ := execs_big hap _ b h₁ t
        exact ⟨ps, b, ρ, r, t', rfl, hb, hl, b', rfl⟩
      · simp [hb, hl, raise] at h
  | .base _ => simp [Plain.callFun, raise] at h
  | .non => simp [Plain.callFun, raise] at h
  | .tup _ => simp [Plain.callFun, raise] at h

theorem apply_big (P : World β ω ε) (G : List (Plain.Fun β)) : ∀ d, ApBig P G (Plain.apply P G d)
  | 0 => fun _ _ _ _ _ h => nomatch h
  | d + 1 => callFun_big (apply_big P G d)

theorem value_big {d : Nat} {e : Ex β} {v : PV β} (h : Plain.value P G d e = some v) :
    ∃ t, Big P G 0 Plain.empty e v t := by
  unfold Plain.value at h
  split at h
  · rename_i hv
    cases h
    exact eval_big (apply_big P G d) _ e hv 0
  · cases h

/-! ## Values, scopes and states -/

/-- For each promise, and for each variable that has a value, the value in plain Python and the time when it is there. -/
structure Wd (β : Type) where
  Γ : List (PV β × Nat)
  Δ : List (Option (PV β × Nat))

def Wd.le (W W' : Wd β) : Prop := (∃ Γ, W'.Γ = W.Γ ++ Γ) ∧ ∃ Δ, W'.Δ = W.Δ ++ Δ

theorem Wd.le_refl (W : Wd β) : W.le W := ⟨⟨[], by simp⟩, ⟨[], by simp⟩⟩

theorem Wd.le.trans {A B C : Wd β} (h : A.le B) (h' : B.le C) : A.le C := by
  obtain ⟨⟨g, hg⟩, d, hd⟩ := h
  obtain ⟨⟨g', hg'⟩, d', hd'⟩ := h'
  exact ⟨⟨g ++ g', by simp [hg', hg]⟩, d ++ d', by simp [hd', hd]⟩

theorem get_append {α : Type} {l l' : List α} {a : Nat} {x : α} (h : l[a]? = some x) : (l ++ l')[a]? = some x := by
  rw [List.getElem?_append_left (by have := (List.getElem?_eq_some_iff.1 h).1; omega), h]

theorem Wd.le.Γ {W W' : Wd β} (h : W.le W') {a : Nat} {x} (hx : W.Γ[a]? = some x) : W'.Γ[a]? = some x := by
  obtain ⟨⟨g, hg⟩, _⟩ := h
  rw [hg]
  exact get_append hx

theorem Wd.le.Δ {W W' : Wd β} (h : W.le W') {a : Nat} {x} (hx : W.Δ[a]? = some x) : W'.Δ[a]? = some x := by
  obtain ⟨_, g, hg⟩ := h
  rw [hg]
  exact get_append hx

section
variable (ρ₀ : Conts.Env)

def EnvR (W : Wd β) (t : Nat) (ρ : Conts.Env) (ρ' : Plain.Env β) : Prop :=
  ∀ x, match ρ' x with
    | some w => ∃ a T, ρ x = some a ∧ W.Δ[a]? = some (some (w, T)) ∧ T ≤ t
    | none => ρ x = ρ₀ x

mutual
def V (W : Wd β) (t : Nat) : SV β → PV β → Prop
  | .base b, w => w = .base b
  | .non, w => w = .non
  | .tup vs, w => ∃ ws, w = .tup ws ∧ Vs W t vs ws
  | .clo ps va ds b ρ, w => va = none ∧ ds = [] ∧ ∃ ρ', w = .clo ps b ρ' ∧ EnvR ρ₀ W t ρ ρ'
  | .prom a, w => ∃ T, W.Γ[a]? = some (w, T) ∧ T ≤ t
  | .ext _, _ => False

def Vs (W : Wd β) (t : Nat) : List (SV β) → List (PV β) → Prop
  | [], ws => ws = []
  | v :: vs, ws => ∃ w ws', ws = w :: ws' ∧ V W t v w ∧ Vs W t vs ws'
end

end

variable {ρ₀ : Conts.Env}

theorem EnvR.mono {W W' : Wd β} (hW : W.le W') {t t' : Nat} (ht : t ≤ t') {ρ ρ'} (h : EnvR ρ₀ W t ρ ρ') :
    EnvR ρ₀ W' t' ρ ρ' := by
  intro x
  have := h x
  cases hx : ρ' x with
  | none => rw [hx] at this; exact this
  | some w =>
    rw [hx] at this
    obtain ⟨a, T, h₁, h₂, h₃⟩ := this
    exact ⟨a, T, h₁, hW.Δ h₂, by omega⟩

mutual
theorem V.mono {W W' : Wd β} (hW : W.le W') {t t' : Nat} (ht : t ≤ t') : ∀ {v w}, V ρ₀ W t v w → V ρ₀ W' t' v w
  | .base b, _, h => h
  | .non, _, h => h
  | .tup vs, _, h => by
    obtain ⟨ws, rfl, h⟩ := h
    exact ⟨ws, rfl, Vs.mono hW ht h⟩
  | .clo .., _, h => by
    obtain ⟨rfl, rfl, ρ', rfl, h⟩ := h
    exact ⟨rfl, rfl, ρ', rfl, h.mono hW ht⟩
  | .prom a, _, h => by
    obtain ⟨T, h, h'⟩ := h
    exact ⟨T, hW.Γ h, by omega⟩
  | .ext _, _, h => h

theorem Vs.mono {W W' : Wd β} (hW : W.le W') {t t' : Nat} (ht : t ≤ t') : ∀ {vs ws}, Vs ρ₀ W t vs ws → Vs ρ₀ W' t' vs ws
  | [], _, h => h
  | v :: vs, _, h => by
    obtain ⟨w, ws, rfl, h, h'⟩ := h
    exact ⟨w, ws, rfl, h.mono hW ht, Vs.mono hW ht h'⟩
end

theorem Vs.length {W : Wd β} {t : Nat} : ∀ {vs ws}, Vs ρ₀ W t vs ws → vs.length = ws.length
  | [], _, h => by cases h; rfl
  | v :: vs, _, h => by
    obtain ⟨w, ws, rfl, h, h'⟩ := h
    simp [Vs.length h']

theorem Vs.get {W : Wd β} {t : Nat} : ∀ {vs ws} {k : Nat} {w}, Vs ρ₀ W t vs ws → ws[k]? = some w →
    ∃ v, vs[k]? = some v ∧ V ρ₀ W t v w
  | [], _, _, _, h, hk => by cases h; simp at hk
  | v :: vs, _, 0, _, h, hk => by
    obtain ⟨w, ws, rfl, h, h'⟩ := h
    simp at hk
    exact ⟨v, rfl, hk ▸ h⟩
  | v :: vs, _, k + 1, _, h, hk => by
    obtain ⟨w, ws, rfl, h, h'⟩ := h
    simp only [List.getElem?_cons_succ] at hk ⊢
    exact Vs.get h' hk

section
variable (P : World β ω ε) (G : List (Plain.Fun β)) (ρ₀ : Conts.Env)

def PromOK (W : Wd β) (w : PV β) (T : Nat) : Prom (Ex β) (SV β) ε → Prop
  | .done v => V ρ₀ W T v w ∧ hasProm v = false
  | .susp e ρ => ∃ t ρ', EnvR ρ₀ W t ρ ρ' ∧ Big P G t ρ' e w T
  | .failed _ => False

structure OK (w₀ : ω) (W : Wd β) (s : Spec.Sta β ω ε) : Prop where
  nproms : s.world.proms.length = W.Γ.length
  nheap : s.heap.length = W.Δ.length
  proms : ∀ (a : Nat) w T, W.Γ[a]? = some (w, T) → ∃ p, s.world.proms[a]? = some p ∧ PromOK P G ρ₀ W w T p
  heap : ∀ (a : Nat) w T, W.Δ[a]? = some (some (w, T)) → ∃ b, s.heap[a]? = some (some b) ∧ V ρ₀ W T b w
  glob : ∀ x v, Plain.lookup G x = some v → ∃ a : Nat, ρ₀ x = some a ∧ W.Δ[a]? = some (some (v, 0))
  ext : s.world.ext = w₀

end

variable {w₀ : ω}

theorem PromOK.mono {W W' : Wd β} (hW : W.le W') {w T} {p : Prom (Ex β) (SV β) ε} (h : PromOK P G ρ₀ W w T p) :
    PromOK P G ρ₀ W' w T p := by
  cases p with
  | done v => exact ⟨h.1.mono hW (Nat.le_refl _), h.2⟩
  | failed => exact h
  | susp e ρ =>
    obtain ⟨t, ρ', h, h'⟩ := h
    exact ⟨t, ρ', h.mono hW (Nat.le_refl _), h'⟩

/-- A new promise. -/
theorem OK.prom {W : Wd β} {s : Spec.Sta β ω ε} (h : OK P G ρ₀ w₀ W s) {e t ρ ρ' w T} (hr : EnvR ρ₀ W t ρ ρ')
    (hb : Big P G t ρ' e w T) : W.le ⟨W.Γ ++ [(w, T)], W.Δ⟩ ∧ OK P G ρ₀ w₀ ⟨W.Γ ++ [(w, T)], W.Δ⟩
      { s with world := { s.world with proms := s.world.proms ++ [.susp e ρ] } } ∧
    V ρ₀ ⟨W.Γ ++ [(w, T)], W.Δ⟩ T (.prom s.world.proms.length) w := by
  have hW : W.le ⟨W.Γ ++ [(w, T)], W.Δ⟩ := ⟨⟨_, rfl⟩, [], by simp⟩
  refine ⟨hW, ⟨by simp [h.nproms], h.nheap, ?_, ?_, h.glob, h.ext⟩, T, by simp [h.nproms], Nat.le_refl _⟩
  · intro a w' T' ha
    simp only [List.getElem?_append] at ha ⊢
    rw [h.nproms]
    split at ha
    · rename_i hlt
      obtain ⟨p, h₁, h₂⟩ := h.proms a w' T' ha
      exact ⟨p, by simpa [hlt] using h₁, h₂.mono hW⟩
    · rename_i hlt
      have : a - W.Γ.length = 0 := by
        have := (List.getElem?_eq_some_iff.1 ha).1
        simp at this; omega
      rw [this] at ha
      simp at ha
      obtain ⟨rfl, rfl⟩ := ha
      exact ⟨.susp e ρ, by simp [hlt, this], t, ρ', hr.mono hW (Nat.le_refl _), hb⟩
  · intro a w' T' ha
    obtain ⟨b, h₁, h₂⟩ := h.heap a w' T' ha
    exact ⟨b, h₁, h₂.mono hW (Nat.le_refl _)⟩

/-- A promise that has been evaluated. -/
theorem OK.record {W : Wd β} {s : Spec.Sta β ω ε} (h : OK P G ρ₀ w₀ W s) {a w T v} (ha : W.Γ[a]? = some (w, T))
    (hv : V ρ₀ W T v w) (hp : hasProm v = false) : OK P G ρ₀ w₀ W (Spec.record a (.done v) s) := by
  refine ⟨by simp [Spec.record, h.nproms], h.nheap, ?_, h.heap, h.glob, h.ext⟩
  intro a' w' T' ha'
  obtain ⟨p, h₁, h₂⟩ := h.proms a' w' T' ha'
  simp only [Spec.record, List.getElem?_set]
  split
  · rename_i he
    subst he
    rw [ha] at ha'
    simp at ha'
    obtain ⟨rfl, rfl⟩ := ha'
    have := (List.getElem?_eq_some_iff.1 h₁).1
    exact ⟨.done v, by simp [this], hv, hp⟩
  · exact ⟨p, h₁, h₂⟩

theorem Vs.index {W : Wd β} {t : Nat} : ∀ {vs ws} {k : Nat}, Vs ρ₀ W t vs ws → k < vs.length →
    ∃ v w, vs[k]? = some v ∧ ws[k]? = some w ∧ V ρ₀ W t v w := by
  intro vs ws k h hk
  have hl := h.length
  obtain ⟨v, h₁, h₂⟩ := h.get (k := k) (w := ws[k]'(by omega)) (by simp)
  exact ⟨v, _, h₁, by simp, h₂⟩

/-- The parameters of a function. -/
theorem OK.alloc {W : Wd β} {s : Spec.Sta β ω ε} (h : OK P G ρ₀ w₀ W s) {t vs ws} (hv : Vs ρ₀ W t vs ws) :
    W.le ⟨W.Γ, W.Δ ++ ws.map fun w => some (w, t)⟩ ∧ OK P G ρ₀ w₀ ⟨W.Γ, W.Δ ++ ws.map fun w => some (w, t)⟩
      { s with heap := s.heap ++ vs.map some } := by
  have hW : W.le ⟨W.Γ, W.Δ ++ ws.map fun w => some (w, t)⟩ := ⟨⟨[], by simp⟩, _, rfl⟩
  refine ⟨hW, h.nproms, by simp [h.nheap, hv.length], ?_, ?_, ?_, h.ext⟩
  · intro a w T ha
    obtain ⟨p, h₁, h₂⟩ := h.proms a w T ha
    exact ⟨p, h₁, h₂.mono hW⟩
  · intro a w T ha
    simp only [List.getElem?_append, h.nheap] at ha ⊢
    split at ha
    · rename_i hlt
      obtain ⟨b, h₁, h₂⟩ := h.heap a w T ha
      exact ⟨b, by simpa [hlt] using h₁, h₂.mono hW (Nat.le_refl _)⟩
    · rename_i hlt
      rw [List.getElem?_map] at ha
      cases hk : ws[a - W.Δ.length]? with
      | none => simp [hk] at ha
      | some w' =>
        simp [hk] at ha
        obtain ⟨rfl, rfl⟩ := ha
        obtain ⟨v, h₁, h₂⟩ := hv.get hk
        exact ⟨v, by simp [hlt, h₁], h₂.mono hW (Nat.le_refl _)⟩
  · intro x v hx
    obtain ⟨a, h₁, h₂⟩ := h.glob x v hx
    exact ⟨a, h₁, hW.Δ h₂⟩

theorem EnvR.frame {W : Wd β} {t : Nat} {ρ ρ'} : ∀ {ps : List String} {ws : List (PV β)} {a : Nat},
    EnvR ρ₀ W t ρ ρ' → ps.length = ws.length → (∀ i w, ws[i]? = some w → W.Δ[a + i]? = some (some (w, t))) →
    EnvR ρ₀ W t (frame ρ ps a) (Plain.extend ρ' ps ws)
  | [], [], _, h, _, _ => h
  | p :: ps, w :: ws, a, h, hl, hi => by
    have ih := EnvR.frame (ps := ps) (ws := ws) (a := a + 1) h (by simpa using hl)
      (fun i w' hw => by have := hi (i + 1) w' (by simpa using hw); rwa [show a + 1 + i = a + (i + 1) by omega])
    intro x
    simp only [Plain.extend, Conts.frame]
    by_cases hx : x = p
    · simp only [hx, if_true]
      exact ⟨a, t, rfl, hi 0 w rfl, Nat.le_refl _⟩
    · simp only [hx, if_false]
      exact ih x
  | [], _ :: _, _, _, hl, _ => by simp at hl
  | _ :: _, [], _, _, hl, _ => by simp at hl

/-! ## Values without promises -/

mutual
theorem same_eq {W W' : Wd β} {t t' : Nat} : ∀ {v w v' w'}, V ρ₀ W t v w → V ρ₀ W' t' v' w' → hasProm v = false →
    hasProm v' = false → Spec.same P v v' = Plain.same P w w'
  | .base _, _, v', _, h, h', _, hp => by
    cases h
    cases v' <;> simp only [V, hasProm] at h' hp <;> grind [Spec.same, Plain.same]
  | .non, _, v', _, h, h', _, hp => by
    cases h
    cases v' <;> simp only [V, hasProm] at h' hp <;> grind [Spec.same, Plain.same]
  | .tup vs, _, .tup vs', _, h, h', hp, hp' => by
    obtain ⟨ws, rfl, h⟩ := h
    obtain ⟨ws', rfl, h'⟩ := h'
    simp only [Spec.same, Plain.same]
    exact sames_eq h h' hp hp'
  | .tup vs, _, .base _, _, h, h', _, _ => by
    obtain ⟨ws, rfl, h⟩ := h
    cases h'
    rfl
  | .tup vs, _, .non, _, h, h', _, _ => by
    obtain ⟨ws, rfl, h⟩ := h
    cases h'
    rfl
  | .tup vs, _, .clo .., _, h, h', _, _ => by
    obtain ⟨ws, rfl, h⟩ := h
    obtain ⟨rfl, rfl, ρ', rfl, h'⟩ := h'
    rfl
  | .tup vs, _, .ext _, _, h, h', _, _ => h'.elim
  | .tup vs, _, .prom _, _, _, _, _, hp => by cases hp
  | .clo .., _, v', _, h, h', _, hp => by
    obtain ⟨rfl, rfl, ρ', rfl, h⟩ := h
    cases v' <;> simp only [V, hasProm] at h' hp <;> grind [Spec.same, Plain.same]
  | .prom _, _, _, _, _, _, hp, _ => by cases hp
  | .ext _, _, _, _, h, _, _, _ => h.elim

theorem sames_eq {W W' : Wd β} {t t' : Nat} : ∀ {v w v' w'}, Vs ρ₀ W t v w → Vs ρ₀ W' t' v' w' → hasProms v = false →
    hasProms v' = false → Spec.sames P v v' = Plain.sames P w w'
  | [], _, [], _, h, h', _, _ => by cases h; cases h'; rfl
  | [], _, _ :: _, _, h, h', _, _ => by
    cases h
    obtain ⟨_, _, rfl, _⟩ := h'
    rfl
  | _ :: _, _, [], _, h, h', _, _ => by
    cases h'
    obtain ⟨_, _, rfl, _⟩ := h
    rfl
  | v :: vs, _, v' :: vs', _, h, h', hp, hp' => by
    obtain ⟨w, ws, rfl, h₁, h₂⟩ := h
    obtain ⟨w', ws', rfl, h₁', h₂'⟩ := h'
    simp only [hasProms, Bool.or_eq_false_iff] at hp hp'
    simp only [Spec.sames, Plain.sames, same_eq h₁ h₁' hp.1 hp'.1, sames_eq h₂ h₂' hp.2 hp'.2]
    rfl
end

theorem truthy_eq {W : Wd β} {t : Nat} {v w} (h : V ρ₀ W t v w) (hp : hasProm v = false) :
    Spec.truthy P v = Plain.truthy P w := by
  cases v <;> simp only [V, hasProm] at h hp
  · subst h; rfl
  · subst h; rfl
  · obtain ⟨ws, rfl, h⟩ := h
    have := h.length
    rename_i vs
    cases vs <;> cases ws <;> simp_all [Spec.truthy, Plain.truthy]
  · obtain ⟨_, _, _, rfl, _⟩ := h; rfl
  · cases hp

theorem operands_eq {W : Wd β} {t : Nat} : ∀ {vs ws bs}, Vs ρ₀ W t vs ws → hasProms vs = false → Plain.bases ws = some bs →
    Spec.operands (ε := ε) vs = .ok bs
  | [], _, _, h, _, hb => by cases h; cases hb; rfl
  | v :: vs, _, bs, h, hp, hb => by
    obtain ⟨w, ws, rfl, h₁, h₂⟩ := h
    simp only [hasProms, Bool.or_eq_false_iff] at hp
    cases w with
    | base b =>
      simp only [Plain.bases, Option.map_eq_some_iff] at hb
      obtain ⟨bs', hb, rfl⟩ := hb
      cases v <;> simp only [V, hasProm] at h₁ hp <;> try grind
      simp only [Spec.operands, operands_eq h₂ hp.2 hb]
      grind
    | _ => simp [Plain.bases] at hb

mutual
theorem obs_eq {W : Wd β} {t : Nat} : ∀ {v w}, V ρ₀ W t v w → hasProm v = false → Spec.obs v = Plain.obs w
  | .base _, _, h, _ => by cases h; rfl
  | .non, _, h, _ => by cases h; rfl
  | .tup vs, _, h, hp => by
    obtain ⟨ws, rfl, h⟩ := h
    simp only [Spec.obs, Plain.obs, obss_eq h hp]
  | .clo .., _, h, _ => by
    obtain ⟨_, _, _, rfl, _⟩ := h; rfl
  | .prom _, _, _, hp => by cases hp
  | .ext _, _, h, _ => h.elim

theorem obss_eq {W : Wd β} {t : Nat} : ∀ {v w}, Vs ρ₀ W t v w → hasProms v = false → Spec.obss v = Plain.obss w
  | [], _, h, _ => by cases h; rfl
  | v :: vs, _, h, hp => by
    obtain ⟨w, ws, rfl, h₁, h₂⟩ := h
    simp only [hasProms, Bool.or_eq_false_iff] at hp
    simp only [Spec.obss, Plain.obss, obs_eq h₁ hp.1, obss_eq h₂ hp.2]
end

/-! ## Call by need -/

/-- With enough depth, it ends normally. -/
def Runs {α : Type} (m : Nat → Spec.Mo β ω ε α) (s : Spec.Sta β ω ε) (a : α) (s' : Spec.Sta β ω ε) : Prop :=
  ∃ D₀, ∀ D, D₀ ≤ D → m D s = some (.ok a, s')

theorem Runs.pure {α : Type} (a : α) (s : Spec.Sta β ω ε) : Runs (fun _ => ret a) s a s := ⟨0, fun _ _ => rfl⟩

theorem Runs.bind {α γ : Type} {m : Nat → Spec.Mo β ω ε α} {k : Nat → α → Spec.Mo β ω ε γ} {s s₁ s₂ a c}
    (h : Runs m s a s₁) (h' : Runs (fun D => k D a) s₁ c s₂) : Runs (fun D => PyExpr.bind (m D) (k D)) s c s₂ := by
  obtain ⟨D₁, h⟩ := h
  obtain ⟨D₂, h'⟩ := h'
  refine ⟨max D₁ D₂, fun D hD => ?_⟩
  show PyExpr.bind (m D) (k D) s = _
  unfold PyExpr.bind
  rw [h D (by omega)]
  exact h' D (by omega)

/-- One call deeper. -/
theorem Runs.succ {α : Type} {m m' : Nat → Spec.Mo β ω ε α} {s a s'} (h : Runs m s a s') (e : ∀ D, m' (D + 1) = m D) :
    Runs m' s a s' := by
  obtain ⟨D₀, h⟩ := h
  refine ⟨D₀ + 1, fun D hD => ?_⟩
  obtain ⟨D', rfl⟩ : ∃ D', D = D' + 1 := ⟨D - 1, by omega⟩
  rw [e]
  exact h D' (by omega)

section
variable (P : World β ω ε) (G : List (Plain.Fun β)) (ρ₀ : Conts.Env) (w₀ : ω) (N : Nat)

/-- `m` gives a value that corresponds to `w`. -/
def Gives (W : Wd β) (s : Spec.Sta β ω ε) (t : Nat) (w : PV β) (good : SV β → Prop) (m : Nat → Spec.Mo β ω ε (SV β)) : Prop :=
  ∃ v W' s', Runs m s v s' ∧ W.le W' ∧ OK P G ρ₀ w₀ W' s' ∧ V ρ₀ W' t v w ∧ good v

def GivesL (W : Wd β) (s : Spec.Sta β ω ε) (t : Nat) (w : List (PV β)) (good : List (SV β) → Prop)
    (m : Nat → Spec.Mo β ω ε (List (SV β))) : Prop :=
  ∃ v W' s', Runs m s v s' ∧ W.le W' ∧ OK P G ρ₀ w₀ W' s' ∧ Vs ρ₀ W' t v w ∧ good v

/-- Plain evaluations that end by this time have a counterpart. -/
def Evals (t' : Nat) : Prop := ∀ t ρ' e w, Big P G t ρ' e w t' → ∀ W s ρ, OK P G ρ₀ w₀ W s → EnvR ρ₀ W t ρ ρ' →
  ∀ d, (d = .shallow → Plain.refLike e = true) →
    Gives P G ρ₀ w₀ W s t' w (fun v => lacking d v = false) (fun D => Spec.eval true P (Spec.calls true P N D) ρ d e)

def fl (r : Option (SV β)) : Flow (SV β) := match r with
  | some v => .ret v
  | none => .next

def Execs (t' : Nat) : Prop := ∀ t ρ' ss r, BigS P G t ρ' ss r t' → ∀ W s ρ, OK P G ρ₀ w₀ W s → EnvR ρ₀ W t ρ ρ' →
  ∃ r' W' s', Runs (fun D => Spec.execs true P N (Spec.calls true P N D) ρ ss) s (fl r') s' ∧ W.le W' ∧ OK P G ρ₀ w₀ W' s' ∧
    match r, r' with
    | some w, some v => V ρ₀ W' t' v w ∧ hasProm v = false
    | none, none => True
    | _, _ => False

end

variable {N : Nat}

theorem lacking_of {v : SV β} (h : hasProm v = false) (d : Depth) : lacking d v = false := by
  cases d
  · exact h
  · cases v <;> simp_all [lacking, hasProm, isProm]

/-- Using something that is there by a time before. -/
theorem valueOf_gives {t' : Nat} (ih : ∀ u, u < t' → Evals P G ρ₀ w₀ N u) {W s} (hs : OK P G ρ₀ w₀ W s) {a w T}
    (ha : W.Γ[a]? = some (w, T)) (hT : T < t') :
    Gives P G ρ₀ w₀ W s T w (fun v => hasProm v = false) (fun D => Spec.valueOf (Spec.calls true P N D) a) := by
  obtain ⟨p, hp, ho⟩ := hs.proms a w T ha
  cases p with
  | done v =>
    exact ⟨v, W, s, ⟨0, fun D _ => by simp [Spec.valueOf, hp]⟩, W.le_refl, hs, ho.1, ho.2⟩
  | failed => exact ho.elim
  | susp e ρ =>
    obtain ⟨t, ρ', hr, hb⟩ := ho
    obtain ⟨v, W', s', ⟨D₀, hD⟩, hW, hs', hv, hl⟩ := ih T hT t ρ' e w hb W s ρ hs hr .deep (by simp)
    refine ⟨v, W', Spec.record a (.done v) s', ⟨D₀ + 1, fun D hDD => ?_⟩, hW, hs'.record (hW.Γ ha) hv hl, hv, hl⟩
    obtain ⟨D', rfl⟩ : ∃ D', D = D' + 1 := ⟨D - 1, by omega⟩
    have := hD D' (by omega)
    simp only [Spec.valueOf, hp, Spec.calls, this]

mutual
theorem need_gives {t' : Nat} (ih : ∀ u, u < t' → Evals P G ρ₀ w₀ N u) (d : Depth) : ∀ (v : SV β) {W s},
    OK P G ρ₀ w₀ W s → ∀ {w t}, V ρ₀ W t v w → t < t' →
    Gives P G ρ₀ w₀ W s t w (fun v => lacking d v = false) (fun D => Spec.need true (Spec.calls true P N D) d v)
  | .prom a, W, s, hs, w, t, hv, ht => by
    obtain ⟨T, ha, hT⟩ := hv
    obtain ⟨v, W', s', hr, hW, hs', hv, hp⟩ := valueOf_gives ih hs ha (by omega)
    refine ⟨v, W', s', ?_, hW, hs', hv.mono W'.le_refl hT, lacking_of hp d⟩
    simp only [Spec.need]
    refine hr.bind ?_
    simp only [lacking_of hp d]
    exact Runs.pure _ _
  | .tup vs, W, s, hs, w, t, hv, ht => by
    cases d with
    | shallow => exact ⟨.tup vs, W, s, by simp only [Spec.need]; exact Runs.pure _ _, W.le_refl, hs, hv, rfl⟩
    | deep =>
      obtain ⟨ws, rfl, hv⟩ := hv
      obtain ⟨vs', W', s', hr, hW, hs', hv, hp⟩ := needs_gives ih vs hs hv ht
      refine ⟨.tup vs', W', s', ?_, hW, hs', ⟨ws, rfl, hv⟩, hp⟩
      simp only [Spec.need]
      exact hr.bind (Runs.pure _ _)
  | .base b, W, s, hs, w, t, hv, ht =>
    ⟨_, W, s, by simp only [Spec.need]; exact Runs.pure _ _, W.le_refl, hs, hv, lacking_of rfl d⟩
  | .non, W, s, hs, w, t, hv, ht =>
    ⟨_, W, s, by simp only [Spec.need]; exact Runs.pure _ _, W.le_refl, hs, hv, lacking_of rfl d⟩
  | .clo .., W, s, hs, w, t, hv, ht =>
    ⟨_, W, s, by simp only [Spec.need]; exact Runs.pure _ _, W.le_refl, hs, hv, lacking_of rfl d⟩
  | .ext _, _, _, _, _, _, hv, _ => hv.elim

theorem needs_gives {t' : Nat} (ih : ∀ u, u < t' → Evals P G ρ₀ w₀ N u) : ∀ (vs : List (SV β)) {W s},
    OK P G ρ₀ w₀ W s → ∀ {ws t}, Vs ρ₀ W t vs ws → t < t' →
    GivesL P G ρ₀ w₀ W s t ws (fun v => hasProms v = false) (fun D => Spec.needs true (Spec.calls true P N D) vs)
  | [], W, s, hs, ws, t, hv, ht => ⟨[], W, s, by simp only [Spec.needs]; exact Runs.pure _ _, W.le_refl, hs, hv, rfl⟩
  | v :: vs, W, s, hs, _, t, hv, ht => by
    obtain ⟨w, ws, rfl, h₁, h₂⟩ := hv
    obtain ⟨v', W₁, s₁, hr₁, hW₁, hs₁, hv₁, hp₁⟩ := need_gives ih .deep v hs h₁ ht
    obtain ⟨vs', W₂, s₂, hr₂, hW₂, hs₂, hv₂, hp₂⟩ := needs_gives ih vs hs₁ (h₂.mono hW₁ (Nat.le_refl _)) ht
    refine ⟨v' :: vs', W₂, s₂, ?_, hW₁.trans hW₂, hs₂, ⟨w, ws, rfl, hv₁.mono hW₂ (Nat.le_refl _), hv₂⟩, ?_⟩
    · simp only [Spec.needs]
      exact hr₁.bind (hr₂.bind (Runs.pure _ _))
    · simp only [hasProms, Bool.or_eq_false_iff]
      exact ⟨hp₁, hp₂⟩
end

/-- A name. -/
theorem load_gives {W : Wd β} {s : Spec.Sta β ω ε} (hs : OK P G ρ₀ w₀ W s) {ρ ρ' t x w t'} (hr : EnvR ρ₀ W t ρ ρ')
    (hb : Big P G t ρ' (.name x) w t') :
    ∃ v, Runs (fun _ => load ρ x) s v s ∧ V ρ₀ W t v w := by
  have hx := hr x
  cases hb with
  | param _ h =>
    rw [h] at hx
    obtain ⟨a, T, h₁, h₂, h₃⟩ := hx
    obtain ⟨b, h₄, h₅⟩ := hs.heap a _ T h₂
    exact ⟨b, ⟨0, fun _ _ => by simp [load, h₁, h₄]⟩, h₅.mono W.le_refl h₃⟩
  | glob _ h hg =>
    rw [h] at hx
    obtain ⟨a, h₁, h₂⟩ := hs.glob x _ hg
    obtain ⟨b, h₄, h₅⟩ := hs.heap a _ 0 h₂
    exact ⟨b, ⟨0, fun _ _ => by simp [load, hx, h₁, h₄]⟩, h₅.mono W.le_refl (Nat.zero_le _)⟩

theorem evals_gives {t' : Nat} (ih : ∀ u, u < t' → Evals P G ρ₀ w₀ N u) {ρ ρ'} : ∀ (es : List (Ex β)) {t t₁ ws},
    Bigs P G t ρ' es ws t₁ → t₁ < t' → ∀ {W s}, OK P G ρ₀ w₀ W s → EnvR ρ₀ W t ρ ρ' →
    GivesL P G ρ₀ w₀ W s t₁ ws (fun v => hasProms v = false) (fun D => Spec.evals true P (Spec.calls true P N D) ρ es)
  | [], t, t₁, ws, hb, ht, W, s, hs, hr => by
    cases hb
    exact ⟨[], W, s, by simp only [Spec.evals]; exact Runs.pure _ _, W.le_refl, hs, rfl, rfl⟩
  | e :: es, t, t₁, _, hb, ht, W, s, hs, hr => by
    cases hb with
    | cons b₁ b₂ l₁ l₂ =>
    obtain ⟨v, W₁, s₁, hr₁, hW₁, hs₁, hv₁, hp₁⟩ := ih _ (by omega) _ _ _ _ b₁ W s ρ hs hr .deep (by simp)
    obtain ⟨vs, W₂, s₂, hr₂, hW₂, hs₂, hv₂, hp₂⟩ := evals_gives ih es b₂ ht hs₁ (hr.mono hW₁ l₁)
    refine ⟨v :: vs, W₂, s₂, ?_, hW₁.trans hW₂, hs₂, ⟨_, _, rfl, hv₁.mono hW₂ l₂, hv₂⟩, ?_⟩
    · simp only [Spec.evals]
      exact hr₁.bind (hr₂.bind (Runs.pure _ _))
    · simp only [hasProms, Bool.or_eq_false_iff]
      exact ⟨hp₁, hp₂⟩

theorem later_gives {ρ ρ'} {e : Ex β} {t t₁ w} (hb : Big P G t ρ' e w t₁) {W s} (hs : OK P G ρ₀ w₀ W s)
    (hr : EnvR ρ₀ W t ρ ρ') : Gives P G ρ₀ w₀ W s t₁ w (fun _ => True) (fun _ => Spec.later e ρ) := by
  obtain ⟨hW, hs', hv⟩ := hs.prom hr hb
  exact ⟨_, _, _, ⟨0, fun _ _ => rfl⟩, hW, hs', hv, trivial⟩

theorem stop_false {α : Type} {k : Unit → Spec.Mo β ω ε α} : PyExpr.bind (Spec.stopIf false) k = k () := rfl

mutual
theorem delay_gives {ρ ρ'} : ∀ (e : Ex β) {t t₁ w}, Big P G t ρ' e w t₁ → ∀ {W s}, OK P G ρ₀ w₀ W s → EnvR ρ₀ W t ρ ρ' →
    Gives P G ρ₀ w₀ W s t₁ w (fun _ => True) (fun _ => Spec.delay true ρ e)
  | .tup es, t, t₁, _, hb, W, s, hs, hr => by
    cases hb with
    | tup l₀ b l =>
    obtain ⟨vs, W', s', hr', hW, hs', hv, _⟩ := delays_gives es b hs hr
    refine ⟨.tup vs, W', s', ?_, hW, hs', ⟨_, rfl, hv.mono W'.le_refl (by omega)⟩, trivial⟩
    simp only [Spec.delay]
    exact hr'.bind (Runs.pure _ _)
  | .call f args, t, t₁, _, hb, W, s, hs, hr => by
    have hf : Spec.reserved f = false := by cases hb; assumption
    simp only [Spec.delay, hf, Bool.and_false, stop_false]
    exact later_gives hb hs hr
  | .cst _, t, t₁, _, hb, W, s, hs, hr => by simp only [Spec.delay]; exact later_gives hb hs hr
  | .non, t, t₁, _, hb, W, s, hs, hr => by simp only [Spec.delay]; exact later_gives hb hs hr
  | .name _, t, t₁, _, hb, W, s, hs, hr => by simp only [Spec.delay]; exact later_gives hb hs hr
  | .op .., t, t₁, _, hb, W, s, hs, hr => by simp only [Spec.delay]; exact later_gives hb hs hr
  | .eq .., t, t₁, _, hb, W, s, hs, hr => by simp only [Spec.delay]; exact later_gives hb hs hr
  | .ife .., t, t₁, _, hb, W, s, hs, hr => by simp only [Spec.delay]; exact later_gives hb hs hr
  | .sub .., t, t₁, _, hb, W, s, hs, hr => by simp only [Spec.delay]; exact later_gives hb hs hr
  | .lam .., t, t₁, _, hb, W, s, hs, hr => by simp only [Spec.delay]; exact later_gives hb hs hr
  | .callS .., t, t₁, _, hb, W, s, hs, hr => nomatch hb
  | .lazy _, t, t₁, _, hb, W, s, hs, hr => nomatch hb

theorem delays_gives {ρ ρ'} : ∀ (es : List (Ex β)) {t t₁ ws}, Bigs P G t ρ' es ws t₁ → ∀ {W s}, OK P G ρ₀ w₀ W s →
    EnvR ρ₀ W t ρ ρ' → GivesL P G ρ₀ w₀ W s t₁ ws (fun _ => True) (fun _ => Spec.delays true ρ es)
  | [], t, t₁, _, hb, W, s, hs, hr => by
    cases hb
    exact ⟨[], W, s, by simp only [Spec.delays]; exact Runs.pure _ _, W.le_refl, hs, rfl, trivial⟩
  | e :: es, t, t₁, _, hb, W, s, hs, hr => by
    cases hb with
    | cons b₁ b₂ l₁ l₂ =>
    obtain ⟨v, W₁, s₁, hr₁, hW₁, hs₁, hv₁, _⟩ := delay_gives e b₁ hs hr
    obtain ⟨vs, W₂, s₂, hr₂, hW₂, hs₂, hv₂, _⟩ := delays_gives es b₂ hs₁ (hr.mono hW₁ l₁)
    refine ⟨v :: vs, W₂, s₂, ?_, hW₁.trans hW₂, hs₂, ⟨_, _, rfl, hv₁.mono hW₂ l₂, hv₂⟩, trivial⟩
    simp only [Spec.delays]
    exact hr₁.bind (hr₂.bind (Runs.pure _ _))
end

/-- `e[i]`, before the item is used. -/
theorem sub_gives {t' : Nat} (ih : ∀ u, u < t' → Evals P G ρ₀ w₀ N u) {ρ ρ'} {e i : Ex β} {t t₁ w}
    (hb : Big P G t ρ' (.sub e i) w t₁) (ht : t₁ ≤ t') {W s} (hs : OK P G ρ₀ w₀ W s) (hr : EnvR ρ₀ W t ρ ρ') :
    ∃ t₂, t₂ < t₁ ∧ Gives P G ρ₀ w₀ W s t₂ w (fun _ => True) (fun D =>
      bind (Spec.eval true P (Spec.calls true P N D) ρ .shallow e) fun v =>
      bind (Spec.eval true P (Spec.calls true P N D) ρ .deep i) fun w => Spec.pick P v w) := by
  cases hb with
  | sub l₀ hf b₁ b₂ l₁ l₂ hi hk =>
  have := b₁.lt
  have := b₂.lt
  obtain ⟨v, W₁, s₁, hr₁, hW₁, hs₁, hv₁, hp₁⟩ := ih _ (by omega) _ _ _ _ b₁ W s ρ hs hr .shallow (fun _ => hf)
  obtain ⟨v₂, W₂, s₂, hr₂, hW₂, hs₂, hv₂, hp₂⟩ := ih _ (by omega) _ _ _ _ b₂ W₁ s₁ ρ hs₁ (hr.mono hW₁ (by omega)) .deep (by simp)
  have hv₁' := hv₁.mono hW₂ (Nat.le_of_lt b₂.lt)
  cases v <;> simp only [V, lacking, isProm] at hv₁' hp₁ <;> try grind
  obtain ⟨ws, he, hv₁'⟩ := hv₁'
  cases he
  cases v₂ <;> simp only [V, lacking, hasProm] at hv₂ hp₂ <;> try grind
  cases hv₂
  obtain ⟨r, hk', hr'⟩ := hv₁'.get hk
  refine ⟨_, l₂, r, W₂, s₂, hr₁.bind (hr₂.bind ?_), hW₁.trans hW₂, hs₂, hr', trivial⟩
  simp only [Spec.pick, hi, hk']
  exact Runs.pure _ _

theorem bound_gives {t' : Nat} (ih : ∀ u, u < t' → Evals P G ρ₀ w₀ N u) {ρ ρ'} : ∀ (es : List (Ex β)) {t t₁ ws},
    Bigs P G t ρ' es ws t₁ → t₁ < t' → ∀ {W s}, OK P G ρ₀ w₀ W s → EnvR ρ₀ W t ρ ρ' →
    GivesL P G ρ₀ w₀ W s t₁ ws (fun _ => True) (fun D => Spec.bound true P (Spec.calls true P N D) ρ es)
  | [], t, t₁, ws, hb, ht, W, s, hs, hr => by
    cases hb
    exact ⟨[], W, s, by simp only [Spec.bound]; exact Runs.pure _ _, W.le_refl, hs, rfl, trivial⟩
  | e :: es, t, t₁, _, hb, ht, W, s, hs, hr => by
    cases hb with
    | @cons _ _ _ w t₂ _ ws _ b₁ b₂ l₁ l₂ =>
    have key : ∀ m : Nat → Spec.Mo β ω ε (SV β), Gives P G ρ₀ w₀ W s t₂ w (fun _ => True) m →
        (∀ D, Spec.bound true P (Spec.calls true P N D) ρ (e :: es) = bind (m D) fun v =>
          bind (Spec.bound true P (Spec.calls true P N D) ρ es) fun vs => ret (v :: vs)) →
        GivesL P G ρ₀ w₀ W s t₁ (w :: ws) (fun _ => True)
          (fun D => Spec.bound true P (Spec.calls true P N D) ρ (e :: es)) := by
      intro m ⟨v, W₁, s₁, hr₁, hW₁, hs₁, hv₁, _⟩ he
      obtain ⟨vs, W₂, s₂, hr₂, hW₂, hs₂, hv₂, _⟩ := bound_gives ih es b₂ ht hs₁ (hr.mono hW₁ l₁)
      refine ⟨v :: vs, W₂, s₂, ?_, hW₁.trans hW₂, hs₂, ⟨_, _, rfl, hv₁.mono hW₂ l₂, hv₂⟩, trivial⟩
      simp only [he]
      exact hr₁.bind (hr₂.bind (Runs.pure _ _))
    cases e with
    | name x =>
      obtain ⟨v, h₁, h₂⟩ := load_gives hs hr b₁
      exact key (fun _ => load ρ x) ⟨v, W, s, h₁, W.le_refl, hs, h₂.mono W.le_refl l₁, trivial⟩ fun D => by simp only [Spec.bound]
    | sub e i =>
      obtain ⟨t₃, l₃, v, W', s', h₁, hW, hs', h₂, _⟩ := sub_gives ih b₁ (by omega) hs hr
      exact key _ ⟨v, W', s', h₁, hW, hs', h₂.mono W'.le_refl (by omega), trivial⟩ fun D => by simp only [Spec.bound]
    | _ => exact key _ (delay_gives _ b₁ hs hr) fun D => by simp only [Spec.bound]

mutual
theorem flatS_assigned : ∀ (s : St β), Plain.flatS s = true → Spec.assignedS s = []
  | .ret _, _ => rfl
  | .ite _ a b, h => by
    simp only [Plain.flatS, Bool.and_eq_true] at h
    simp [Spec.assignedS, flatSs_assigned a h.1, flatSs_assigned b h.2]
  | .expr _, h => by cases h
  | .assign _ _, h => by cases h
  | .aug .., h => by cases h
  | .while .., h => by cases h
  | .defn .., h => by cases h
  | .nonlocal _, h => by cases h

theorem flatSs_assigned : ∀ (ss : List (St β)), Plain.flatSs ss = true → Spec.assignedSs ss = []
  | [], _ => rfl
  | s :: ss, h => by
    simp only [Plain.flatSs, Bool.and_eq_true] at h
    simp [Spec.assignedSs, flatS_assigned s h.1, flatSs_assigned ss h.2]
end

theorem params_eq {ps : List String} {vs : List (SV β)} (h : vs.length = ps.length) :
    ∃ xs, Spec.params ps none [] vs = some xs ∧ xs.map (·.1) = ps ∧ xs.map (·.2) = vs := by
  refine ⟨ps.zip vs, ?_, ?_, ?_⟩
  · simp [Spec.params, h]
    rw [List.take_of_length_le (by omega)]
  · rw [List.map_fst_zip]; omega
  · rw [List.map_snd_zip]; omega

/-- Calling a function. -/
theorem call_gives {t' : Nat} (ihS : ∀ u, u < t' → Execs P G ρ₀ w₀ N u) {ps : List String} {body : List (St β)} {ρ ρ'} {vs ws}
    {t₂ t₃ r} (hf : Plain.flatSs body = true) (hl : ws.length = ps.length)
    (hb : BigS P G t₂ (Plain.extend ρ' ps ws) body r t₃) (ht : t₃ < t') {W s} (hs : OK P G ρ₀ w₀ W s)
    (hr : EnvR ρ₀ W t₂ ρ ρ') (hv : Vs ρ₀ W t₂ vs ws) :
    Gives P G ρ₀ w₀ W s t₃ (r.getD .non) (fun v => hasProm v = false)
      (fun D => Spec.call true (Spec.calls true P N D) (.clo ps none [] body ρ) vs) := by
  have hlv : vs.length = ps.length := by rw [hv.length, hl]
  obtain ⟨xs, hx, hn, hvals⟩ := params_eq hlv
  have hloc : Spec.locals body = [] := by simp [Spec.locals, flatSs_assigned body hf]
  obtain ⟨hW, hs'⟩ := hs.alloc hv
  have hr' := (hr.mono hW (Nat.le_refl _)).frame (ps := ps) (ws := ws) (a := W.Δ.length) (by omega) (by
    intro i w hi
    rw [List.getElem?_append_right (by omega)]
    simp [hi])
  obtain ⟨r', W', s', hrun, hW', hs'', hrr⟩ := ihS t₃ ht _ _ _ _ hb _ _ _ hs' hr'
  have main : ∀ (v : SV β), (match fl r' with | .next => ret .non | .ret v => ret v : Spec.Mo β ω ε (SV β)) = ret v →
      Runs (fun D => Spec.call true (Spec.calls true P N D) (.clo ps none [] body ρ) vs) s v s' := by
    intro v hv'
    refine Runs.succ (m := fun D => Spec.callEntry true P N (Spec.calls true P N D) (.clo ps none [] body ρ) vs) ?_ fun D => rfl
    simp only [Spec.callEntry, hx, hn, hvals, hloc, List.map_nil, List.append_nil]
    refine Runs.bind (m := fun _ => Conts.alloc (vs.map some)) ⟨0, fun _ _ => rfl⟩ ?_
    rw [← hs.nheap] at hrun
    refine hrun.bind ?_
    exact ⟨0, fun _ _ => congrFun hv' s'⟩
  cases r with
  | none =>
    cases r' with
    | none => exact ⟨.non, W', s', main _ rfl, hW.trans hW', hs'', rfl, rfl⟩
    | some _ => exact hrr.elim
  | some w =>
    cases r' with
    | none => exact hrr.elim
    | some v => exact ⟨v, W', s', main _ rfl, hW.trans hW', hs'', hrr.1, hrr.2⟩

/-- One more step on the clock. -/
theorem evals_step {t' : Nat} (ih : ∀ u, u < t' → Evals P G ρ₀ w₀ N u) (ihS : ∀ u, u < t' → Execs P G ρ₀ w₀ N u) :
    Evals P G ρ₀ w₀ N t' := by
  intro t ρ' e w hb W s ρ hs hr d hd
  have deep : Plain.refLike e = false → d = .deep := by
    intro h
    cases d
    · rfl
    · simp [hd rfl] at h
  have hb' := hb
  cases hb with
  | @cst _ _ _ c l =>
    cases deep rfl
    simp only [Spec.eval, Spec.isShallow, Bool.and_false, stop_false]
    exact ⟨_, W, s, Runs.pure _ _, W.le_refl, hs, rfl, rfl⟩
  | non l =>
    cases deep rfl
    simp only [Spec.eval, Spec.isShallow, Bool.and_false, stop_false]
    exact ⟨_, W, s, Runs.pure _ _, W.le_refl, hs, rfl, rfl⟩
  | param l h =>
    obtain ⟨v, h₁, h₂⟩ := load_gives hs hr hb'
    obtain ⟨v', W', s', hr', hW, hs', hv, hp⟩ := need_gives ih d v hs h₂ l
    refine ⟨v', W', s', ?_, hW, hs', hv.mono W'.le_refl (by omega), hp⟩
    simp only [Spec.eval]
    exact h₁.bind hr'
  | glob l h hg =>
    obtain ⟨v, h₁, h₂⟩ := load_gives hs hr hb'
    obtain ⟨v', W', s', hr', hW, hs', hv, hp⟩ := need_gives ih d v hs h₂ l
    refine ⟨v', W', s', ?_, hW, hs', hv.mono W'.le_refl (by omega), hp⟩
    simp only [Spec.eval]
    exact h₁.bind hr'
  | op l b₁ l₁ hbs ho =>
    cases deep rfl
    obtain ⟨vs, W', s', hr', hW, hs', hv, hp⟩ := evals_gives ih _ b₁ l₁ hs hr
    refine ⟨.base _, W', s', ?_, hW, hs', rfl, rfl⟩
    simp only [Spec.eval, Spec.isShallow, Bool.and_false, stop_false]
    refine hr'.bind ?_
    simp only [Spec.binop, operands_eq hv hp hbs, ho]
    exact Runs.pure _ _
  | eq l b₁ b₂ l₁ l₂ he =>
    cases deep rfl
    have := b₁.lt
    obtain ⟨v, W₁, s₁, hr₁, hW₁, hs₁, hv₁, hp₁⟩ := ih _ l₁ _ _ _ _ b₁ W s ρ hs hr .deep (by simp)
    obtain ⟨v₂, W₂, s₂, hr₂, hW₂, hs₂, hv₂, hp₂⟩ := ih _ l₂ _ _ _ _ b₂ W₁ s₁ ρ hs₁ (hr.mono hW₁ (by omega)) .deep (by simp)
    refine ⟨.base _, W₂, s₂, ?_, hW₁.trans hW₂, hs₂, rfl, rfl⟩
    simp only [Spec.eval, Spec.isShallow, Bool.and_false, stop_false]
    refine hr₁.bind (hr₂.bind ?_)
    simp only [same_eq hv₁ hv₂ hp₁ hp₂, he]
    exact Runs.pure _ _
  | ife l b₁ b₂ l₁ l₂ =>
    cases deep rfl
    have := b₁.lt
    obtain ⟨v, W₁, s₁, hr₁, hW₁, hs₁, hv₁, hp₁⟩ := ih _ l₁ _ _ _ _ b₁ W s ρ hs hr .deep (by simp)
    obtain ⟨v₂, W₂, s₂, hr₂, hW₂, hs₂, hv₂, hp₂⟩ := ih _ l₂ _ _ _ _ b₂ W₁ s₁ ρ hs₁ (hr.mono hW₁ (by omega)) .deep (by simp)
    refine ⟨v₂, W₂, s₂, ?_, hW₁.trans hW₂, hs₂, hv₂.mono W₂.le_refl (by omega), hp₂⟩
    simp only [Spec.eval, Spec.isShallow, Bool.and_false, stop_false]
    refine hr₁.bind ?_
    rw [truthy_eq hv₁ hp₁]
    split at hr₂ <;> simp_all
  | tup l b₁ l₁ =>
    cases deep rfl
    obtain ⟨vs, W', s', hr', hW, hs', hv, hp⟩ := evals_gives ih _ b₁ l₁ hs hr
    refine ⟨.tup vs, W', s', ?_, hW, hs', ⟨_, rfl, hv.mono W'.le_refl (by omega)⟩, hp⟩
    simp only [Spec.eval, Spec.isShallow, Bool.and_false, stop_false]
    exact hr'.bind (Runs.pure _ _)
  | sub l hf b₁ b₂ l₁ l₂ hi hk =>
    obtain ⟨t₂, l₃, v, W', s', h₁, hW, hs', h₂, _⟩ := sub_gives ih hb' (Nat.le_refl _) hs hr
    obtain ⟨v', W₂, s₂, hr', hW₂, hs₂, hv, hp⟩ := need_gives ih d v hs' h₂ l₃
    refine ⟨v', W₂, s₂, ?_, hW.trans hW₂, hs₂, hv.mono W₂.le_refl (by omega), hp⟩
    have := h₁.bind hr'
    simpa only [Spec.eval, Sim.bind_assoc] using this
  | lam l =>
    cases deep rfl
    refine ⟨.clo _ none [] [.ret _] ρ, W, s, ?_, W.le_refl, hs, ⟨rfl, rfl, _, rfl, hr.mono W.le_refl (by omega)⟩, rfl⟩
    simp only [Spec.eval, Spec.isShallow, List.all_nil, Bool.not_true, Bool.or_false, Bool.and_false, stop_false, Spec.evals]
    exact Runs.pure _ _
  | call l hf b₁ b₂ l₁ l₂ hfl hlen b₃ l₃ =>
    have := b₁.lt
    have := b₂.le
    obtain ⟨fv, W₁, s₁, hr₁, hW₁, hs₁, hv₁, hp₁⟩ := ih _ l₁ _ _ _ _ b₁ W s ρ hs hr d (fun h => by simpa [Plain.refLike] using hd h)
    obtain ⟨vs, W₂, s₂, hr₂, hW₂, hs₂, hv₂, _⟩ := bound_gives ih _ b₂ l₂ hs₁ (hr.mono hW₁ (by omega))
    have hp₁' : isProm fv = false := by
      cases d <;> cases fv <;> simp_all [lacking, hasProm, isProm]
    cases fv <;> simp only [V, isProm] at hv₁ hp₁' <;> try grind
    rename_i ps' va ds body' ρc
    obtain ⟨rfl, rfl, ρ'', he, hre⟩ := hv₁
    cases he
    obtain ⟨v, W₃, s₃, hr₃, hW₃, hs₃, hv₃, hp₃⟩ := call_gives ihS hfl hlen b₃ l₃ hs₂ (hre.mono hW₂ (by omega)) hv₂
    refine ⟨v, W₃, s₃, ?_, (hW₁.trans hW₂).trans hW₃, hs₃, hv₃.mono W₃.le_refl (by omega), lacking_of hp₃ d⟩
    simp only [Spec.eval, hf, Bool.and_false, stop_false]
    exact hr₁.bind (hr₂.bind hr₃)

theorem execs_step {t' : Nat} (ih : ∀ u, u < t' → Evals P G ρ₀ w₀ N u) (ihS : ∀ u, u < t' → Execs P G ρ₀ w₀ N u) :
    Execs P G ρ₀ w₀ N t' := by
  intro t ρ' ss r hb W s ρ hs hr
  cases hb with
  | nil l => exact ⟨none, W, s, by simp only [Spec.execs]; exact Runs.pure _ _, W.le_refl, hs, trivial⟩
  | ret l b₁ l₁ =>
    obtain ⟨v, W₁, s₁, hr₁, hW₁, hs₁, hv₁, hp₁⟩ := ih _ l₁ _ _ _ _ b₁ W s ρ hs hr .deep (by simp)
    refine ⟨some v, W₁, s₁, ?_, hW₁, hs₁, hv₁.mono W₁.le_refl (by omega), hp₁⟩
    simp only [Spec.execs, Spec.exec]
    exact Runs.bind (a := Flow.ret v) (s₁ := s₁) (hr₁.bind (Runs.pure _ _)) (Runs.pure _ _)
  | iteRet l b₁ l₁ b₂ l₂ =>
    have := b₁.lt
    obtain ⟨v, W₁, s₁, hr₁, hW₁, hs₁, hv₁, hp₁⟩ := ih _ l₁ _ _ _ _ b₁ W s ρ hs hr .deep (by simp)
    obtain ⟨r', W₂, s₂, hr₂, hW₂, hs₂, hrr⟩ := ihS _ l₂ _ _ _ _ b₂ W₁ s₁ ρ hs₁ (hr.mono hW₁ (by omega))
    cases r' with
    | none => exact hrr.elim
    | some v' =>
    refine ⟨some v', W₂, s₂, ?_, hW₁.trans hW₂, hs₂, hrr.1.mono W₂.le_refl (by omega), hrr.2⟩
    simp only [Spec.execs, Spec.exec]
    refine Runs.bind (a := Flow.ret v') (s₁ := s₂) (hr₁.bind (a := v) ?_) (Runs.pure _ _)
    rw [truthy_eq hv₁ hp₁]
    split at hr₂ <;> simp_all [fl]
  | iteNext l b₁ l₁ b₂ l₂ b₃ l₃ =>
    have := b₁.lt
    have := b₂.lt
    obtain ⟨v, W₁, s₁, hr₁, hW₁, hs₁, hv₁, hp₁⟩ := ih _ l₁ _ _ _ _ b₁ W s ρ hs hr .deep (by simp)
    obtain ⟨r', W₂, s₂, hr₂, hW₂, hs₂, hrr⟩ := ihS _ l₂ _ _ _ _ b₂ W₁ s₁ ρ hs₁ (hr.mono hW₁ (by omega))
    cases r' with
    | some _ => exact hrr.elim
    | none =>
    obtain ⟨r'', W₃, s₃, hr₃, hW₃, hs₃, hrr'⟩ := ihS _ l₃ _ _ _ _ b₃ W₂ s₂ ρ hs₂ (hr.mono (hW₁.trans hW₂) (by omega))
    refine ⟨r'', W₃, s₃, ?_, (hW₁.trans hW₂).trans hW₃, hs₃, ?_⟩
    · simp only [Spec.execs, Spec.exec]
      refine Runs.bind (s₁ := s₂) (a := Flow.next) (hr₁.bind (a := v) ?_) hr₃
      rw [truthy_eq hv₁ hp₁]
      split at hr₂ <;> simp_all [fl]
    · cases r <;> cases r'' <;> simp_all
      exact hrr'.1.mono W₃.le_refl (by omega)

theorem both (t : Nat) : Evals P G ρ₀ w₀ N t ∧ Execs P G ρ₀ w₀ N t := by
  induction t using Nat.strongRecOn with
  | ind t ih => exact ⟨evals_step (fun u hu => (ih u hu).1) (fun u hu => (ih u hu).2),
      execs_step (fun u hu => (ih u hu).1) (fun u hu => (ih u hu).2)⟩

/-! ## The block -/

/-- The function that is in this cell. -/
def cellOf (ρ₀ : Conts.Env) (G : List (Plain.Fun β)) (a : Nat) : Option (Plain.Fun β) := G.find? fun f => ρ₀ f.name == some a

def cloOf (ρ₀ : Conts.Env) (f : Plain.Fun β) : SV β := .clo f.params none [] f.body ρ₀

theorem defs_run (P : World β ω ε) (N D : Nat) {ρ₀ : Conts.Env} : ∀ (G : List (Plain.Fun β)) (rest : List (St β))
    (s : Spec.Sta β ω ε), (G.map (·.name)).Nodup → (∀ f ∈ G, ∃ a, ρ₀ f.name = some a ∧ a < s.heap.length) →
    (∀ x y a, ρ₀ x = some a → ρ₀ y = some a → x = y) →
    ∃ s', Spec.execs true P N (Spec.calls true P N D) ρ₀
        (G.map (fun f => St.defn f.name f.params none [] f.body) ++ rest) s =
        Spec.execs true P N (Spec.calls true P N D) ρ₀ rest s' ∧
      s'.world = s.world ∧ s'.heap.length = s.heap.length ∧
      ∀ a, s'.heap[a]? = match cellOf ρ₀ G a with
        | some f => some (some (cloOf ρ₀ f))
        | none => s.heap[a]?
  | [], rest, s, _, _, _ => ⟨s, rfl, rfl, rfl, fun a => rfl⟩
  | f :: G, rest, s, hn, ha, hi => by
    obtain ⟨a₀, h₀, hl₀⟩ := ha f (by simp)
    let s₁ : Spec.Sta β ω ε := { s with heap := s.heap.set a₀ (some (cloOf ρ₀ f)) }
    simp only [List.map_cons, List.nodup_cons] at hn
    obtain ⟨s', h₁, h₂, h₃, h₄⟩ := defs_run P N D G rest s₁ hn.2
      (fun g hg => by
        obtain ⟨a, h, h'⟩ := ha g (by simp [hg])
        exact ⟨a, h, by simpa [s₁] using h'⟩) hi
    refine ⟨s', ?_, h₂, by simpa [s₁] using h₃, fun a => ?_⟩
    · rw [← h₁]
      simp only [List.map_cons, List.cons_append]
      conv => lhs; unfold Spec.execs
      simp only [Spec.exec, List.all_nil, Bool.not_true, Bool.and_false, stop_false, Spec.evals]
      simp [PyExpr.bind, PyExpr.ret, store, h₀, s₁, cloOf]
    · rw [h₄ a]
      cases hc : cellOf ρ₀ G a with
      | some g =>
        simp only [cellOf] at hc
        have hg := List.mem_of_find?_eq_some hc
        have hga := List.find?_some hc
        have : (ρ₀ f.name == some a) = false := by
          refine Bool.eq_false_iff.2 fun hfa => hn.1 ?_
          rw [hi f.name g.name a (by simpa using hfa) (by simpa using hga)]
          exact List.mem_map_of_mem hg
        simp [cellOf, List.find?_cons, this, hc]
      | none =>
        simp only [cellOf] at hc
        simp only [cellOf, List.find?_cons, h₀, hc]
        by_cases he : a₀ = a
        · subst he; simp [s₁, List.getElem?_set, hl₀]
        · simp [s₁, List.getElem?_set, he, beq_eq_false_iff_ne.2 he]

/-- What is known after the definitions. -/
def wd₀ (ρ₀ : Conts.Env) (G : List (Plain.Fun β)) (n : Nat) : Wd β :=
  ⟨[], (List.range n).map fun a => (cellOf ρ₀ G a).map fun f => (.clo f.params f.body Plain.empty, 0)⟩

theorem envR_empty (W : Wd β) (t : Nat) : EnvR ρ₀ W t ρ₀ (Plain.empty (β := β)) := fun _ => rfl

theorem ok₀ {s : Spec.Sta β ω ε} (hp : s.world.proms = [])
    (hc : ∀ a, ∀ f, cellOf ρ₀ G a = some f → s.heap[a]? = some (some (cloOf ρ₀ f)))
    (ha : ∀ f ∈ G, ∃ a, ρ₀ f.name = some a ∧ a < s.heap.length) (hi : ∀ x y a, ρ₀ x = some a → ρ₀ y = some a → x = y) :
    OK P G ρ₀ s.world.ext (wd₀ ρ₀ G s.heap.length) s := by
  refine ⟨by simp [hp, wd₀], by simp [wd₀], by simp [wd₀], ?_, ?_, rfl⟩
  · intro a w T h
    simp only [wd₀, List.getElem?_map] at h
    cases hr : (List.range s.heap.length)[a]? with
    | none => simp [hr] at h
    | some a' =>
      have : a' = a := by
        have := List.getElem?_eq_some_iff.1 hr
        simpa using this.2.symm
      subst this
      cases hcell : cellOf ρ₀ G a' with
      | none => simp [hr, hcell] at h
      | some f =>
        simp [hr, hcell] at h
        obtain ⟨rfl, rfl⟩ := h
        exact ⟨_, hc a' f hcell, rfl, rfl, _, rfl, envR_empty _ _⟩
  · intro x v h
    simp only [Plain.lookup, Option.map_eq_some_iff] at h
    obtain ⟨f, hf, rfl⟩ := h
    have hn : f.name = x := by simpa using List.find?_some hf
    obtain ⟨a, h₁, h₂⟩ := ha f (List.mem_of_find?_eq_some hf)
    refine ⟨a, by rw [← hn]; exact h₁, ?_⟩
    have : cellOf ρ₀ G a = some f := by
      unfold cellOf
      rw [← hf]
      congr 1
      funext g
      rw [Bool.eq_iff_iff]
      simp only [beq_iff_eq]
      constructor
      · intro h; rw [← hn]; exact hi _ _ _ h h₁
      · rintro rfl; rw [← hn]; exact h₁
    simp [wd₀, h₂, this]

/-- The whole program. -/
theorem program_run (P : World β ω ε) (N : Nat) {G : List (Plain.Fun β)} {ρ : Conts.Env} {x : String} {e : Ex β} {d : Nat}
    {v : PV β} (h : List (Option (Spec.Init β))) (w : ω) {a : Nat} (hv : Plain.value P G d e = some v)
    (hn : (G.map (·.name)).Nodup) (hG : ∀ f ∈ G, ∃ a, ρ f.name = some a ∧ a < h.length)
    (hi : ∀ x y a, ρ x = some a → ρ y = some a → x = y) (hx : ρ x = some a) (hxl : a < h.length) :
    ∃ D₀, ∃ s' v', (∀ D, D₀ ≤ D → Spec.run true P N D ρ (Plain.program G x e) (Spec.start h w) = some (.ok .next, s')) ∧
      s'.heap[a]? = some (some v') ∧ Spec.obs v' = Plain.obs v ∧ s'.world.ext = w := by
  obtain ⟨t, hb⟩ := value_big hv
  have hG' : ∀ f ∈ G, ∃ a, ρ f.name = some a ∧ a < (Spec.start (ε := ε) h w).heap.length := by simpa [Spec.start] using hG
  have hd := fun D => defs_run P N D G [.assign x e] (Spec.start h w) hn hG' hi
  obtain ⟨s₁, h₁, h₂, h₃, h₄⟩ := hd 0
  have uniq : ∀ D, Spec.run true P N D ρ (Plain.program G x e) (Spec.start h w) =
      Spec.execs true P N (Spec.calls true P N D) ρ [.assign x e] s₁ := by
    intro D
    obtain ⟨s₂, h₁', h₂', h₃', h₄'⟩ := hd D
    have : s₂ = s₁ := by
      cases s₁; cases s₂
      simp only at h₂ h₂' h₄ h₄'
      simp only [State.mk.injEq]
      exact ⟨List.ext_getElem? fun a => by rw [h₄, h₄'], by rw [h₂, h₂']⟩
    rw [← this]
    exact h₁'
  have hl : s₁.heap.length = h.length := by simpa [Spec.start] using h₃
  have hok := ok₀ (P := P) (ρ₀ := ρ) (G := G) (s := s₁) (by rw [h₂]; rfl)
    (fun a f hf => by rw [h₄ a, hf]) (by rw [hl]; exact hG) hi
  obtain ⟨v', W', s', ⟨D₀, hD⟩, hW, hs', hvv, hp⟩ :=
    (both (N := N) t).1 0 _ e v hb _ s₁ ρ hok (envR_empty _ _) .deep (by simp)
  have hlen : s'.heap.length ≥ h.length := by
    rw [hs'.nheap, ← hl, hok.nheap]
    obtain ⟨_, Δ, hΔ⟩ := hW
    simp [hΔ]
  refine ⟨D₀, { s' with heap := s'.heap.set a (some v') }, v', fun D hDD => ?_, ?_, obs_eq hvv hp, ?_⟩
  · rw [uniq D]
    have := hD D hDD
    simp only [Spec.execs, Spec.exec]
    simp [PyExpr.bind, PyExpr.ret, this, store, hx]
  · simp only
    rw [List.getElem?_set_self (by omega)]
  · show s'.world.ext = w
    rw [hs'.ext, h₂]
    rfl

end Unpy.Lazify.Pure
