import Verif.Model.DetectLambda
/-!
# Which lambdas are the user's
-/
namespace Unpy.DetectLambda.Spec
open Unpy.DetectLambda

/-- Code in which some `do` expressions have been expanded already, as by `multilambda`, also under `autocurry`. -/
inductive S where
  | ref (x : String)
  /-- a lambda that the user has written -/
  | lam (id : Nat) (params : Nat) (body : S)
  | call (func : S) (args : List S)
  | node (parts : List S)
  /-- an expanded `do`; `imp` is the `id` of the lambda made for its first line -/
  | do_ (curried : Bool) (imp : Nat) (lines : List S)

mutual
/-- The lambdas that the user has written, from left to right, the outer ones first. -/
def mine : S → List Nat
  | .ref _ => []
  | .lam id _ body => id :: mine body
  | .call func args => mine func ++ mineAll args
  | .node parts => mineAll parts
  | .do_ _ _ lines => mineAll lines
def mineAll : List S → List Nat
  | [] => []
  | s :: ss => mine s ++ mineAll ss
end

/-- `(namelambda("do_line…"))(lambda e: …)`, or the same as `autocurry` makes it: `currycall(currycall(namelambda, "do_line…"), curryf(lambda e: …))`. -/
def line (curried : Bool) (imp : Nat) (body : T) : T :=
  if curried then .call (.ref "currycall") [.call (.ref "currycall") [.ref "namelambda", .node []], .call (.ref "curryf") [.lam imp 1 body]]
  else .call (.call (.ref "namelambda") [.node []]) [.lam imp 1 body]

mutual
/-- The tree. -/
def tree : S → T
  | .ref x => .ref x
  | .lam id params body => .lam id params (tree body)
  | .call func args => .call (tree func) (trees args)
  | .node parts => .node (trees parts)
  | .do_ true imp lines => .call (.ref "currycall") (.ref "dof" :: treeLines true imp lines)
  | .do_ false imp lines => .call (.ref "dof") (treeLines false imp lines)
def trees : List S → List T
  | [] => []
  | s :: ss => tree s :: trees ss
def treeLines (curried : Bool) (imp : Nat) : List S → List T
  | [] => []
  | s :: ss => line curried imp (tree s) :: treeLines curried (imp + 1) ss
end

mutual
/-- The user calls no function or method of their own that is called `dof` or `currycall`; `currycall(f, …)` made by `autocurry` is fine. -/
def Own : S → Prop
  | .ref _ => True
  | .lam _ _ body => Own body
  | .call func args => Own func ∧ OwnAll args ∧ (∀ x, func = .ref x → x ≠ "dof" ∧ (x = "currycall" → ∃ a as, args = a :: as ∧ a ≠ .ref "dof"))
  | .node parts => OwnAll parts
  | .do_ _ _ lines => OwnAll lines
def OwnAll : List S → Prop
  | [] => True
  | s :: ss => Own s ∧ OwnAll ss
end

end Unpy.DetectLambda.Spec
