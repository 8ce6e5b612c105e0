import Verif.Spec.Tco
namespace Unpy.Tco
open Unpy.Eff Unpy.Spec.Tco
open Unpy.Fold (Err Vals)
variable {σ ε V : Type}

/-- each function is decorated with `trampolined` at most once -/
def Once (P : Prog σ ε V) : Prop := ∀ f e, P f = .trampolined e → ∃ body, Own P e body

/-- no jump goes to a function that has got its `_entrypoint` from another -/
def Plain (P : Prog σ ε V) : Prop := ∀ v t a, P v = .jump t a → ∀ b e, P t ≠ .wrapper b e

theorem own_call {P : Prog σ ε V} {f : V} {body} (hf : Own P f body) (n d : Nat) (args : Args V) (s : σ) :
    trampoline P (n + 1) d f args s =
      match body (d + 1) args s with
      | (.error e, s') => some (.error e, s')
      | (.ok v, s') =>
        match P v with
        | .jump t a =>
          if !callable P (strip P t) then some (.error (.py .RuntimeError), s')
          else trampoline P n d (strip P t) a s'
        | _ => some (.ok v, s') := by
  rcases hf with hf | ⟨e, hf⟩
  all_goals
    simp only [trampoline, hf]
    rcases hb : body (d + 1) args s with ⟨(e | v), s1⟩
    · rfl
    · cases hv : P v <;> simp only [hv]

theorem own_callable {P : Prog σ ε V} {f : V} {body} (hf : Own P f body) : callable P f = true := by
  rcases hf with hf | ⟨e, hf⟩ <;> simp [callable, hf]

theorem trampoline_sound {P : Prog σ ε V} (hP : Once P) (hJ : Plain P) (n d : Nat) (f : V) (body) (hf : Own P f body)
    (args : Args V) (s : σ) (r : Except (Err ε) V) (s' : σ)
    (h : trampoline P n d f args s = some (r, s')) : Direct P (d + 1) f args s r s' := by
  induction n generalizing f body args s with
  | zero => simp [trampoline] at h
  | succ n ih =>
    rw [own_call hf] at h
    rcases hb : body (d + 1) args s with ⟨(e | v), s1⟩
    · simp only [hb, Option.some.injEq, Prod.mk.injEq] at h
      obtain ⟨rfl, rfl⟩ := h
      exact .raises hf hb
    · simp only [hb] at h
      cases hv : P v with
      | jump t a =>
        simp only [hv] at h
        cases ht : P t with
        | trampolined e =>
          obtain ⟨body', he⟩ := hP t e ht
          simp only [strip, ht, own_callable he, Bool.not_true, Bool.false_eq_true, if_false] at h
          exact .tailCall hf hb hv (.decorated ht (ih e body' he a s1 h))
        | func body' =>
          simp only [strip, ht, callable, Bool.not_true, Bool.false_eq_true, if_false] at h
          exact .tailCall hf hb hv (ih t body' (.inl ht) a s1 h)
        | wrapper b e => exact absurd ht (hJ v t a hv b e)
        | data =>
          simp only [strip, ht, callable, Bool.not_false, if_true, Option.some.injEq, Prod.mk.injEq] at h
          obtain ⟨rfl, rfl⟩ := h
          exact .notCallable hf hb hv (.inl ht)
        | jump t' a' =>
          simp only [strip, ht, callable, Bool.not_false, if_true, Option.some.injEq, Prod.mk.injEq] at h
          obtain ⟨rfl, rfl⟩ := h
          exact .notCallable hf hb hv (.inr ⟨t', a', ht⟩)
      | data | func _ | trampolined _ | wrapper _ _ =>
        simp only [hv, Option.some.injEq, Prod.mk.injEq] at h
        obtain ⟨rfl, rfl⟩ := h
        exact .returns hf hb (by simp [hv])

/-- what a jump should enter -/
def land (P : Prog σ ε V) (t : V) : V :=
  match P t with
  | .trampolined e => e
  | _ => t

theorem land_own {P : Prog σ ε V} {f : V} {body} (hf : Own P f body) : land P f = f := by
  rcases hf with hf | ⟨e, hf⟩ <;> simp [land, hf]

theorem trampoline_complete {P : Prog σ ε V} (hP : Once P) (hJ : Plain P) (d : Nat) {f : V} {args : Args V} {s : σ}
    {r : Except (Err ε) V} {s' : σ} (h : Direct P (d + 1) f args s r s') :
    ∃ n, ∀ m, trampoline P (n + m) d (land P f) args s = some (r, s') := by
  have hs : ∀ v t a, P v = .jump t a → strip P t = land P t := by
    intro v t a h
    cases ht : P t with
    | wrapper b e => exact absurd ht (hJ v t a h b e)
    | _ => simp [strip, land, ht]
  induction h with
  | raises hf hb =>
    refine ⟨1, fun m => ?_⟩
    rw [land_own hf, Nat.add_comm, own_call hf]; simp [hb]
  | @returns f body args s v s' hf hb hv =>
    refine ⟨1, fun m => ?_⟩
    rw [land_own hf, Nat.add_comm, own_call hf]
    simp only [hb]
    all_goals
      cases hv' : P v with
      | jump t a => exact absurd hv' (hv t a)
      | data | func _ | trampolined _ | wrapper _ _ => rfl
  | @tailCall f body args s v s' t a r s'' hf hb hv hd ih =>
    obtain ⟨n, ih⟩ := ih
    refine ⟨n + 1, fun m => ?_⟩
    have hc : callable P (land P t) = true := by
      cases hd with
      | raises h _ => rw [land_own h]; exact own_callable h
      | returns h _ _ => rw [land_own h]; exact own_callable h
      | tailCall h _ _ _ => rw [land_own h]; exact own_callable h
      | notCallable h _ _ _ => rw [land_own h]; exact own_callable h
      | decorated h _ =>
        obtain ⟨b, hb⟩ := hP _ _ h
        simpa [land, h] using own_callable hb
    rw [land_own hf, show n + 1 + m = (n + m) + 1 by omega, own_call hf]
    simp [hb, hv, hs _ _ _ hv, hc, ih m]
  | @notCallable f body args s v s' t a hf hb hv ht =>
    refine ⟨1, fun m => ?_⟩
    have hc : callable P (strip P t) = false := by
      rcases ht with h | ⟨t', a', h⟩ <;> simp [strip, h, callable]
    rw [land_own hf, Nat.add_comm, own_call hf]
    simp [hb, hv, hc]
  | @decorated f e args s r s' hf hd ih =>
    obtain ⟨body, he⟩ := hP _ _ hf
    have : land P f = land P e := by rw [land_own he]; simp [land, hf]
    rw [this]; exact ih

end Unpy.Tco

namespace Unpy.Gtco
open Unpy.Spec.Gtco
open Unpy.Fold (Err)
variable {ε V G : Type}

theorem runN_reaches {next : G → GOut ε V G} {g g' : G} {xs : List V} (h : Reaches next g xs g') :
    ∃ n, ∀ m, runN next (n + m) (.run g) = (xs ++ (runN next m (.run g')).1, (runN next m (.run g')).2) := by
  induction h with
  | refl => exact ⟨0, fun m => by simp⟩
  | yield hn _ ih =>
    obtain ⟨n, ih⟩ := ih
    refine ⟨n + 1, fun m => ?_⟩
    rw [show n + 1 + m = (n + m) + 1 by omega, runN]
    simp [step, hn, ih m]
  | tail hn _ ih =>
    obtain ⟨n, ih⟩ := ih
    refine ⟨n + 1, fun m => ?_⟩
    rw [show n + 1 + m = (n + m) + 1 by omega, runN]
    rcases hn with hn | hn <;> simp [step, hn, ih m]

/-- how the last batch ends -/
def batchEnd : Option (Err ε) → End ε V
  | none => .retNone
  | some (.py .TypeError) => .retIter
  | some e => .raise e

theorem step_final_nil (next : G → GOut ε V G) (exc : Option (Err ε)) :
    step next (.final [] exc) = .stop (batchEnd exc) := by
  match exc with
  | none => rfl
  | some (.user e) => rfl
  | some (.py e) => cases e <;> rfl

theorem runN_final (next : G → GOut ε V G) (xs : List V) (exc : Option (Err ε)) (m : Nat) :
    runN next (xs.length + 1 + m) (.final xs exc) = (xs, some (batchEnd exc)) := by
  induction xs with
  | nil => rw [show ([] : List V).length + 1 + m = m + 1 by simp; omega, runN, step_final_nil]
  | cons x xs ih =>
    rw [show (x :: xs).length + 1 + m = (xs.length + 1 + m) + 1 by simp; omega, runN]
    simp [step, ih]

theorem runN_final_inv (next : G → GOut ε V G) (n : Nat) (xs ys : List V) (exc : Option (Err ε)) (e : End ε V)
    (h : runN next n (.final xs exc) = (ys, some e)) : ys = xs ∧ e = batchEnd exc := by
  induction n generalizing xs ys with
  | zero => simp [runN] at h
  | succ n ih =>
    cases xs with
    | nil => rw [runN, step_final_nil] at h; simp at h; exact ⟨h.1, h.2.symm⟩
    | cons x xs =>
      simp only [runN, step, Prod.mk.injEq] at h
      have := ih xs (runN next n (.final xs exc)).1 (by rw [← h.2])
      exact ⟨by rw [← h.1, this.1], this.2⟩

end Unpy.Gtco
