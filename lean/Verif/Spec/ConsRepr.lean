import Verif.Model.LList
/-! # Specification of the representations of cons cells: the Python expressions, and the Lisp data, that the texts are -/
namespace Unpy.Spec.ConsRepr
open Unpy.LList (Obj)
universe u
variable {α : Type u}

/-- Python expressions: something for an atom, the name `nil`, a call of `ll`, a call of `cons` -/
inductive Py (α : Type u) where
  | atom (a : α)
  | nil
  | ll (args : List (Py α))
  | cons (a b : Py α)

mutual
/-- as a program text -/
def text (r : α → String) : Py α → String
  | .atom a => r a
  | .nil => "nil"
  | .ll args => "ll(" ++ ", ".intercalate (texts r args) ++ ")"
  | .cons a b => "cons(" ++ text r a ++ ", " ++ text r b ++ ")"
def texts (r : α → String) : List (Py α) → List String
  | [] => []
  | e :: es => text r e :: texts r es
end

mutual
/-- what they evaluate to: `ll` makes a linked list, `cons` a cell -/
def value : Py α → Obj α
  | .atom a => .atom a
  | .nil => .nil
  | .ll args => listOf args
  | .cons a b => .cons (value a) (value b)
def listOf : List (Py α) → Obj α
  | [] => .nil
  | e :: es => .cons (value e) (listOf es)
end

/-- Lisp data: an atom, the empty list by its name, a list `(a b c)` of one or more, a pair `(a . b)` -/
inductive Datum (α : Type u) where
  | atom (a : α)
  | nil
  | list (a : Datum α) (more : List (Datum α))
  | pair (a b : Datum α)

mutual
def written (r : α → String) : Datum α → String
  | .atom a => r a
  | .nil => "nil"
  | .list a more => "(" ++ " ".intercalate (written r a :: writtens r more) ++ ")"
  | .pair a b => "(" ++ written r a ++ " . " ++ written r b ++ ")"
def writtens (r : α → String) : List (Datum α) → List String
  | [] => []
  | d :: ds => written r d :: writtens r ds
end

mutual
/-- what is read -/
def datum : Datum α → Obj α
  | .atom a => .atom a
  | .nil => .nil
  | .list a more => .cons (datum a) (data more)
  | .pair a b => .cons (datum a) (datum b)
def data : List (Datum α) → Obj α
  | [] => .nil
  | d :: ds => .cons (datum d) (data ds)
end

/-- A linked list, all whose elements satisfy `p` -/
def ListOf (p : Obj α → Prop) : Obj α → Prop
  | .atom _ => False
  | .nil => True
  | .cons a d => p a ∧ ListOf p d

/-- No linked list in the structure has an element that is made of cells. -/
def Plain : Obj α → Prop
  | .atom _ => True
  | .nil => True
  | .cons a d => ListOf (fun x => ¬ x.isCons) (.cons a d) ∨ (¬ ListOf (fun _ => True) d ∧ Plain a ∧ Plain d)

/-- Every cell is part of a linked list. -/
def Lists : Obj α → Prop
  | .atom _ => True
  | .nil => True
  | .cons a d => ListOf (fun _ => True) d ∧ Lists a ∧ Lists d

/-- the number of atoms -/
def atoms : Obj α → Nat
  | .atom _ => 1
  | .nil => 0
  | .cons a d => atoms a + atoms d

/-- `n` cells, each in the first place of the next -/
def leaning (a : α) : Nat → Obj α
  | 0 => .atom a
  | n + 1 => .cons (leaning a n) (.atom a)

end Unpy.Spec.ConsRepr
