import Verif.Model.MathInfix
import Verif.Spec.Mathseq
/-!
# What an expression with infix operators on sequences should be

Independent of how Python finds the method: the kind of object, its length, and the numbers in it by their positions.
-/
namespace Unpy.MathInfix.Spec
open Unpy.Mathseq.Spec (At)
variable {N : Type}

inductive Kind where
  | num | plain | math
  deriving DecidableEq, Repr

def Kind.of : Obj N → Kind
  | .num _ => .num
  | .iter true _ _ => .math
  | .iter false _ _ => .plain

/-- The length of a sequence (`some none`: endless); a number has none. -/
def lengthOf : Obj N → Option (Option Nat)
  | .num _ => none
  | .iter _ n _ => some n

/-- With math support on either side, the result has math support; two numbers give a number (`divmod`: a pair).  Other operations are Python's own, and so are chained comparisons and `not`. -/
def kind (ρ : Nat → Obj N) : Ex N → Option Kind
  | .name i => some (.of (ρ i))
  | .bin o a b =>
    match kind ρ a, kind ρ b with
    | some .math, some _ => some .math
    | some _, some .math => some .math
    | some .num, some .num => some (if o = .divmod then .plain else .num)
    | _, _ => none
  | .fn o a b =>
    match kind ρ a, kind ρ b with
    | some .num, some .num => some (if o = .divmod then .plain else .num)
    | some _, some _ => some .math
    | _, _ => none
  | .pow3 a b _ =>
    match kind ρ a, kind ρ b with
    | some .math, some _ => some .math
    | some .num, some .num => some .num
    | _, _ => none
  | .un _ a | .round2 a _ =>
    match kind ρ a with
    | some .math => some .math
    | some .num => some .num
    | _ => none
  | .chain .. | .not _ => none

/-- A number is repeated as often as needed, and the shorter of two sequences decides. -/
def shorter : Option (Option Nat) → Option (Option Nat) → Option (Option Nat)
  | none, n => n
  | m, none => m
  | some none, some n => some n
  | some m, some none => some m
  | some (some m), some (some n) => some (some (if m ≤ n then m else n))

def length (ρ : Nat → Obj N) : Ex N → Option (Option Nat)
  | .name i => lengthOf (ρ i)
  | .bin o a b | .fn o a b =>
    match shorter (length ρ a) (length ρ b) with
    | none => if o = .divmod then some (some 2) else none
    | some n => some n
  | .pow3 a b _ => shorter (length ρ a) (length ρ b)
  | .un _ a | .round2 a _ => length ρ a
  | .chain .. | .not _ => none

/-- An operator on two numbers gives a number; `divmod` gives two, at positions 0 and 1. -/
def Number (W : World N) (o : Op) (x y : N) (p : List Nat) (z : N) : Prop :=
  if o = .divmod then (p = [0] ∧ z = (W.divmod x y).1) ∨ (p = [1] ∧ z = (W.divmod x y).2)
  else p = [] ∧ z = W.num o x y

/-- The numbers that meet at a position: one of them is there, and the other too, or at the start of the way there. -/
def Meet (A B : List Nat → N → Prop) (p : List Nat) (x y : N) : Prop :=
  ∃ q r, A q x ∧ B r y ∧ q <+: p ∧ r <+: p ∧ (q = p ∨ r = p)

/-- The numbers in what the expression stands for: `[i, j]` is the position of item `j` of item `i`. -/
def Term (W : World N) (ρ : Nat → Obj N) : Ex N → List Nat → N → Prop
  | .name i, p, z => At (ρ i).tree p z
  | .bin o a b, p, z | .fn o a b, p, z => ∃ q r x y, p = q ++ r ∧ Meet (Term W ρ a) (Term W ρ b) q x y ∧ Number W o x y r z
  | .pow3 a b m, p, z => ∃ x y, Meet (Term W ρ a) (Term W ρ b) p x y ∧ z = W.pow3 x y m
  | .un o a, p, z => ∃ x, Term W ρ a p x ∧ z = W.un o x
  | .round2 a d, p, z => ∃ x, Term W ρ a p x ∧ z = W.round2 x d
  | .chain .., _, _ => False
  | .not _, _, _ => False

/-- `x > y` is `y < x`, and so on. -/
def Mirrored (W : World N) : Prop :=
  (∀ x y, W.num .gt x y = W.num .lt y x) ∧ (∀ x y, W.num .ge x y = W.num .le y x) ∧
  (∀ x y, W.num .eq x y = W.num .eq y x) ∧ (∀ x y, W.num .ne x y = W.num .ne y x)

/-- All comparisons in the expression have a left operand with math support (or none has it). -/
def LeftMath (ρ : Nat → Obj N) : Ex N → Prop
  | .name _ => True
  | .bin o a b => LeftMath ρ a ∧ LeftMath ρ b ∧
      (o ∈ [.lt, .le, .eq, .ne, .ge, .gt] → kind ρ b = some .math → kind ρ a = some .math)
  | .fn _ a b | .pow3 a b _ => LeftMath ρ a ∧ LeftMath ρ b
  | .un _ a | .round2 a _ => LeftMath ρ a
  | .chain .. => True
  | .not _ => True

/-- Python's numbers, with exact division left out. -/
def ints : World Int where
  num
    | .add, x, y => x + y
    | .sub, x, y => x - y
    | .mul, x, y => x * y
    | .pow, x, y => x ^ y.toNat
    | .mod, x, y => x.fmod y
    | .lt, x, y => if x < y then 1 else 0
    | .le, x, y => if x ≤ y then 1 else 0
    | .eq, x, y => if x = y then 1 else 0
    | .ne, x, y => if x = y then 0 else 1
    | .ge, x, y => if y ≤ x then 1 else 0
    | .gt, x, y => if y < x then 1 else 0
    | _, x, y => x.fdiv y
  divmod x y := (x.fdiv y, x.fmod y)
  un
    | .neg, x => -x
    | .abs, x => x.natAbs
    | .invert, x => -x - 1
    | _, x => x
  pow3 x y m := (x ^ y.toNat).fmod m
  round2 x _ := x
  truth x := x != 0
  ofBool b := if b then 1 else 0
  own _ _ _ := .error .TypeError

end Unpy.MathInfix.Spec
