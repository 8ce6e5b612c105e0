import Verif.Model.Slices
/-!
# Specification for functional update

What elementwise assignment to an index or slice of a copy does, in terms of Python's own slices.
-/
namespace Unpy.Spec.Slices
open Unpy Unpy.Slices
universe u
variable {α : Type u}

/-- `for j, a in zip(range(n)[s], vals): copy[j] = a` -/
def assignSlice (l : List α) (s : Slice) (vals : List α) : List α :=
  ((s.indices l.length).zip vals).foldl (fun l p => l.set p.1.toNat p.2) l

/-- `copy[k] = a` for `-n <= k < n` -/
def assignIndex (l : List α) (k : Int) (a : α) : List α := l.set (normIdx k l.length).toNat a

/-- The first `n` items of a replacement. -/
def firstItems (n : Nat) : Repl α → List α
  | .item _ => []
  | .seq l => l.take n
  | .iter _ items => (List.range n).filterMap items

/-- one update -/
def apply (l : List α) : Upd α → List α
  | .int k a => assignIndex l k a
  | .slice s v => assignSlice l s (firstItems (s.indices l.length).length v)

/-- The slices which `in_slice` interprets for length `n` like Python does: nonzero step, start and stop in `-n .. n`, and
not starting at `n` with a negative step. -/
def Accepted (s : Slice) (n : Nat) : Prop :=
  s.by ≠ 0 ∧ (∀ k, s.start = some k → -(n : Int) ≤ k ∧ k ≤ n ∧ (s.by < 0 → k < n)) ∧
  (∀ k, s.stop = some k → -(n : Int) ≤ k ∧ k ≤ n)

instance (s : Slice) (n : Nat) : Decidable (Accepted s n) := by
  unfold Accepted
  have h1 : Decidable (∀ k, s.start = some k → -(n : Int) ≤ k ∧ k ≤ n ∧ (s.by < 0 → k < n)) :=
    match h : s.start with
    | none => isTrue (by simp)
    | some k => if h' : -(n : Int) ≤ k ∧ k ≤ n ∧ (s.by < 0 → k < n) then isTrue (by intro k' e; cases e; exact h')
      else isFalse (fun hc => h' (hc k rfl))
  have h2 : Decidable (∀ k, s.stop = some k → -(n : Int) ≤ k ∧ k ≤ n) :=
    match h : s.stop with
    | none => isTrue (by simp)
    | some k => if h' : -(n : Int) ≤ k ∧ k ≤ n then isTrue (by intro k' e; cases e; exact h')
      else isFalse (fun hc => h' (hc k rfl))
  infer_instance

/-- There are at least `n` replacement items, readable in the order needed. -/
def Enough (n : Nat) (backwards : Bool) : Repl α → Prop
  | .item _ => False
  | .seq l => n ≤ l.length
  | .iter memo items => (∀ m, m < n → (items m).isSome) ∧ (backwards = true → memo = true)

/-- an update that fits a sequence of length `n` -/
def Fits (n : Nat) : Upd α → Prop
  | .int k _ => -(n : Int) ≤ k ∧ k < n
  | .slice s v => Accepted s n ∧ Enough (s.indices n).length (decide (s.by < 0)) v

end Unpy.Spec.Slices
