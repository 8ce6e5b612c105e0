import Verif.Model.Mathseq
/-!
# Model of expressions with mathematical sequences that can be iterated only once (`unpythonic/mathseq.py`)

What `s(...)` (mathseq.py:375-455), `imathify(generator)` and each arithmetic operation return is a generator with arithmetic (mathseq.py:508-511): it can be
iterated once, and all expressions that it is in take their items from the same generator.  The items of generator `i` are `items i 0`, `items i 1`, ..., up to the
first `none`; the state is how many have been taken from each.

The operations do not raise.  Sequences of sequences are in `Verif.Model.Mathseq`.
-/
namespace Unpy.MathOnce
variable {N : Type}

/-- Expressions: a generator; a scalar; a unary operation; a binary operation. -/
inductive Ex (N : Type) where
  | gen (i : Nat)
  | scalar (c : N)
  | un (f : N → N) (e : Ex N)
  | bin (f : N → N → N) (a b : Ex N)

def taken (pos : Nat → Nat) (i : Nat) : Nat → Nat := fun j => if j = i then pos i + 1 else pos j

/-- `next` of what the expression returns: the item, or `none` at the end, and the state.  A unary operation takes an item from its operand (mathseq.py:629-630); a binary one takes
an item from the left operand, and then from the right one (`zip`, mathseq.py:636-638), but scalars are there as they are (mathseq.py:639-644). -/
def next (items : Nat → Nat → Option N) : Ex N → (Nat → Nat) → Option N × (Nat → Nat)
  | .gen i, pos =>
    match items i (pos i) with
    | some x => (some x, taken pos i)
    | none => (none, pos)
  | .scalar c, pos => (some c, pos)
  | .un f e, pos =>
    match next items e pos with
    | (some x, pos) => (some (f x), pos)
    | (none, pos) => (none, pos)
  | .bin f a b, pos =>
    match next items a pos with
    | (none, pos) => (none, pos)
    | (some x, pos) =>
      match next items b pos with
      | (some y, pos) => (some (f x y), pos)
      | (none, pos) => (none, pos)

/-- `tuple(take(n, e))` -/
def take (items : Nat → Nat → Option N) (e : Ex N) : Nat → (Nat → Nat) → List N × (Nat → Nat)
  | 0, pos => ([], pos)
  | n + 1, pos =>
    match next items e pos with
    | (none, pos) => ([], pos)
    | (some x, pos) => let r := take items e n pos; (x :: r.1, r.2)

/-- `xs, ys = (tuple(take(n, g())) for g in (ga, gb))` for `n = 1, 2, ...` in `diagonal_reduce(a, a, ...)` (mathseq.py:869-874): the two memos of `imemoize` (gmemo.py:158-191) after so many rounds.  Each takes an
item from the same generator when it needs one; `xs` first. -/
def memos (items : Nat → N) : Nat → List N × List N × Nat
  | 0 => ([], [], 0)
  | n + 1 =>
    let r := memos items n
    (r.1 ++ [items r.2.2], r.2.1 ++ [items (r.2.2 + 1)], r.2.2 + 2)

/-- `cauchyprod(a, a)` (mathseq.py:753-779, 869-886) for an endless generator of integers: the first so many terms. -/
def cauchySquare (items : Nat → Int) (count : Nat) : List Int :=
  (List.range count).map fun k =>
    let r := memos items (k + 1)
    (List.zipWith (· * ·) r.1 r.2.1.reverse).foldl (· + ·) 0

end Unpy.MathOnce
