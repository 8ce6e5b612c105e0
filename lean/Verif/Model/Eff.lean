import Verif.Model.Fold
/-!
# Effectful Python calls

A Python call may return, raise, and change the world.  `Eff σ ε α` is a computation over an arbitrary
world `σ`; theorems quantify over `σ`, so they also fix how often and in which order user functions are
called (take for `σ` a log of calls).
-/
namespace Unpy.Eff
universe u v w x y
open Unpy.Fold (Err Vals)

/-- A computation: given the world, returns or raises, and leaves a new world. -/
def Eff (σ : Type u) (ε : Type v) (α : Type w) := σ → Except ε α × σ

variable {σ : Type u} {ε : Type v} {α : Type w} {β : Type x}

/-- Return a value. -/
def ret (a : α) : Eff σ ε α := fun s => (.ok a, s)
/-- Raise an exception. -/
def raise (e : ε) : Eff σ ε α := fun s => (.error e, s)
/-- Run `m`; if it returns, continue with `k`. -/
def bind (m : Eff σ ε α) (k : α → Eff σ ε β) : Eff σ ε β := fun s =>
  match m s with
  | (.ok a, s') => k a s'
  | (.error e, s') => (.error e, s')

theorem eff_bind_ret (m : Eff σ ε α) : bind m ret = m := by
  funext s; unfold bind ret; rcases m s with ⟨(_ | _), _⟩ <;> rfl
theorem eff_ret_bind (a : α) (k : α → Eff σ ε β) : bind (ret a) k = k a := rfl
theorem eff_assoc {γ : Type y} (m : Eff σ ε α) (k : α → Eff σ ε β) (l : β → Eff σ ε γ) :
    bind (bind m k) l = bind m (fun a => bind (k a) l) := by
  funext s; unfold bind; rcases m s with ⟨(_ | _), _⟩ <;> rfl

theorem bind_congr' (m : Eff σ ε α) {k l : α → Eff σ ε β} (h : ∀ a, k a = l a) : bind m k = bind m l := by
  rw [show k = l from funext h]

/-- A return value: one object, or a `Values` (funutil.py:200-389). -/
inductive Ret (V : Type w) where
  | one (v : V)
  | many (vs : Vals V)

/-- The arguments of a call. -/
abbrev Args (V : Type w) := Vals V

/-- A user function of several arguments. -/
abbrev Fn (σ : Type u) (ε : Type v) (V : Type w) := Args V → Eff σ (Err ε) (Ret V)

/-- A function of one argument, as used with the `1` variants. -/
abbrev Fn1 (σ : Type u) (ε : Type v) (V : Type w) := V → Eff σ (Err ε) V

end Unpy.Eff
