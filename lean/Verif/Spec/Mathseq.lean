import Verif.Model.Mathseq
/-!
# Sequences: what the specifications mean
-/
namespace Unpy.Mathseq.Spec
open Unpy Unpy.Mathseq

/-- The first `n` terms of an arithmetic sequence. -/
def arithTerms (x0 k : Rat) (n : Nat) : List Rat := (List.range n).map (fun (j : Nat) => x0 + j * k)

/-- The first `n` terms of a geometric sequence. -/
def geomTerms (x0 k : Rat) (n : Nat) : List Rat := (List.range n).map (fun (j : Nat) => x0 * k ^ j)

/-- `almosteq` is equality, as it is for `Fraction`s. -/
def Exact (fl : Fl) : Prop := ∀ x y, fl.aeq x y = true ↔ x = y

/-- `is_almost_int` is true of the integers and of nothing else, as for `Fraction`s that are not too large. -/
def ExactInt (fl : Fl) : Prop := ∀ q : Rat, fl.almostInt q = true ↔ ∃ n : Int, q = n

/-- `almosteq` on `int`s (numutil.py:62-66): `d / (|a| + |b|) < 1e-8`, and equality, if one of them is 0. -/
def intAeq (a b : Rat) : Bool :=
  decide (a = b) || (decide (a ≠ 0) && decide (b ≠ 0) && decide (rabs (a - b) / (rabs a + rabs b) < 1 / 100000000))

/-- Arguments of type `int`. -/
def intFl (log pow : Rat → Rat → Rat) : Fl where
  aeq := intAeq
  almostInt := fun q => intAeq (rround q) q
  log := log
  pow := pow
  ints := true

/-- Following a path of indices in a nested sequence one gets to a scalar. -/
inductive At {α : Type} : Tree α → List Nat → α → Prop
  | leaf (x : α) : At (.leaf x) [] x
  | node {n f i p x} : (∀ m, n = some m → i < m) → At (f i) p x → At (.node n f) (i :: p) x

/-- Along a path there is a scalar, at its end or before. -/
inductive Along {α : Type} : Tree α → List Nat → α → Prop
  | leaf (x : α) (p : List Nat) : Along (.leaf x) p x
  | node {n f i p x} : (∀ m, n = some m → i < m) → Along (f i) p x → Along (.node n f) (i :: p) x

variable {α β γ δ : Type}

/-- The pair `a[i], b[k-i]`, if both exist. -/
def pairAt (a : Iter α) (b : Iter β) (k i : Nat) : Option (α × β) :=
  match a.get? i, b.get? (k - i) with
  | some x, some y => some (x, y)
  | _, _ => none

/-- The pairs on diagonal `k` that can be formed, by increasing index into `a`. -/
def diagonalPairs (a : Iter α) (b : Iter β) (k : Nat) : List (α × β) := (List.range (k + 1)).filterMap (pairAt a b k)

/-- Whether diagonal `k` has a term: with `require="all"`, all pairs on it can be formed, otherwise, some pair. -/
def hasTerm (all : Bool) (a : Iter α) (b : Iter β) (k : Nat) : Bool :=
  if all then (diagonalPairs a b k).length == k + 1 else !(diagonalPairs a b k).isEmpty

/-- The Fibonacci numbers 1, 1, 2, 3, ... -/
def fib : Nat → Nat
  | 0 => 1
  | 1 => 1
  | n + 2 => fib n + fib (n + 1)

end Unpy.Mathseq.Spec
