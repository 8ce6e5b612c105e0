import Verif.Model.QuickLambda
/-!
# What `fn[]` should do

Programs are run as they are written.  `fn[e]` is a function.  When it is called, the underscores in `e`, but not those that belong to
a `fn[...]` inside, are the arguments: the first underscore is the first argument, and so on, as they are written from left to right.

With `asTree`, underscores are counted in the order of the fields of Python's syntax trees instead: the condition of a conditional
expression first, and all keys of a dictionary before its values.
-/
namespace Unpy.QuickLambda.Spec
open Unpy.QuickLambda

mutual
/-- How many underscores there are. -/
def count : E → Nat
  | .int _ => 0
  | .name x => if x = "_" then 1 else 0
  | .sub a b => count a + count b
  | .ite b t e => count b + count t + count e
  | .lam _ e => count e
  | .call f args => count f + countAll args
  | .tuple es => countAll es
  | .dict is => countItems is
  | .emit e => count e
  | .fn _ _ => 0
def countAll : Es → Nat
  | .nil => 0
  | .cons e es => count e + countAll es
def countItems : Items → Nat
  | .nil => 0
  | .cons k v is => count k + count v + countItems is
end

/-- How many there are in the keys. -/
def countKeys : Items → Nat
  | .nil => 0
  | .cons k _ is => count k + countKeys is

/-- Values.  A function remembers the arguments of the `fn[...]` around it, if there is one, and how many underscores are before it. -/
inductive RV where
  | int (n : Int)
  | tuple (vs : List RV)
  | dict (vs : List RV)
  | clo (ps : List String) (e : E) (env : List (String × RV)) (holes : Option (List RV)) (j : Nat)
  | quick (e : E) (env : List (String × RV))

def RV.shown : RV → Option Int
  | .int n => some n
  | _ => none

/-- A variable, or the underscore number `j`. -/
def read (env : List (String × RV)) (holes : Option (List RV)) (j : Nat) (x : String) : Option RV :=
  match holes with
  | some vs => if x = "_" then vs[j]? else find x env
  | none => find x env

mutual
/-- Evaluate an expression with `j` underscores before it. -/
def eval (asTree : Bool) : Nat → List (String × RV) → Option (List RV) → Nat → E → M RV
  | 0, _, _, _, _ => M.fail .recursion
  | _ + 1, _, _, _, .int n => M.pure (.int n)
  | _ + 1, env, hs, j, .name x => match read env hs j x with
    | some v => M.pure v
    | none => M.fail .name
  | n + 1, env, hs, j, .sub a b => (eval asTree n env hs j a).bind fun v => (eval asTree n env hs (j + count a) b).bind fun w => match v, w with
    | .int v, .int w => M.pure (.int (v - w))
    | _, _ => M.fail .type
  | n + 1, env, hs, j, .ite b t e =>
    (eval asTree n env hs (if asTree then j else j + count b) t).bind fun v =>
      if truth v.shown then eval asTree n env hs (if asTree then j + count t else j) b
      else eval asTree n env hs (j + count b + count t) e
  | _ + 1, env, hs, j, .lam ps e => M.pure (.clo ps e env hs j)
  | n + 1, env, hs, j, .call f args => (eval asTree n env hs j f).bind fun f' => (evalAll asTree n env hs (j + count f) args).bind fun vs =>
    match f' with
    | .clo ps e env hs j => if vs.length = ps.length then eval asTree n (ps.zip vs ++ env) hs j e else M.fail .type
    | .quick e env => if vs.length = count e then eval asTree n env (some vs) 0 e else M.fail .type
    | _ => M.fail .type
  | n + 1, env, hs, j, .tuple es => (evalAll asTree n env hs j es).bind fun vs => M.pure (.tuple vs)
  | n + 1, env, hs, j, .dict is => (evalItems asTree n env hs j (j + countKeys is) is).bind fun vs => M.pure (.dict vs)
  | n + 1, env, hs, j, .emit e => (eval asTree n env hs j e).bind fun v => (output v.shown).bind fun _ => M.pure v
  | _ + 1, env, _, _, .fn _ e => M.pure (.quick e env)
  termination_by structural n => n
def evalAll (asTree : Bool) : Nat → List (String × RV) → Option (List RV) → Nat → Es → M (List RV)
  | 0, _, _, _, _ => M.fail .recursion
  | _ + 1, _, _, _, .nil => M.pure []
  | n + 1, env, hs, j, .cons e es => (eval asTree n env hs j e).bind fun v => (evalAll asTree n env hs (j + count e) es).bind fun vs =>
    M.pure (v :: vs)
  termination_by structural n => n
/-- The items of a dictionary; `l` is for the values if underscores are counted in the order of the tree. -/
def evalItems (asTree : Bool) : Nat → List (String × RV) → Option (List RV) → Nat → Nat → Items → M (List RV)
  | 0, _, _, _, _, _ => M.fail .recursion
  | _ + 1, _, _, _, _, .nil => M.pure []
  | n + 1, env, hs, j, l, .cons k v is =>
    (eval asTree n env hs j k).bind fun k' => (eval asTree n env hs (if asTree then l else j + count k) v).bind fun v' =>
      (evalItems asTree n env hs (if asTree then j + count k else j + count k + count v) (l + count v) is).bind fun vs =>
        M.pure (k' :: v' :: vs)
  termination_by structural n => n
end

mutual
/-- Inside each `fn[...]` the two orders are the same: no underscores both in the condition of a conditional expression and in what is before it,
none in a key if there is one in a value before it. -/
def Inorder : E → Prop
  | .int _ => True
  | .name _ => True
  | .sub a b => Inorder a ∧ Inorder b
  | .ite b t e => Inorder b ∧ Inorder t ∧ Inorder e ∧ (count b = 0 ∨ count t = 0)
  | .lam _ e => Inorder e
  | .call f args => Inorder f ∧ InorderAll args
  | .tuple es => InorderAll es
  | .dict is => InorderItems is
  | .emit e => Inorder e
  | .fn _ e => Inorder e
def InorderAll : Es → Prop
  | .nil => True
  | .cons e es => Inorder e ∧ InorderAll es
def InorderItems : Items → Prop
  | .nil => True
  | .cons k v is => Inorder k ∧ Inorder v ∧ InorderItems is ∧ (count v = 0 ∨ countKeys is = 0)
end

/-- What one sees of a value. -/
inductive Seen where
  | int (n : Int)
  | tuple (vs : List Seen)
  | dict (vs : List Seen)
  | function

mutual
def seenV : V → Seen
  | .int n => .int n
  | .tuple vs => .tuple (seenVs vs)
  | .dict vs => .dict (seenVs vs)
  | .clo _ _ _ => .function
def seenVs : List V → List Seen
  | [] => []
  | v :: vs => seenV v :: seenVs vs
end

mutual
def seenRV : RV → Seen
  | .int n => .int n
  | .tuple vs => .tuple (seenRVs vs)
  | .dict vs => .dict (seenRVs vs)
  | .clo _ _ _ _ _ => .function
  | .quick _ _ => .function
def seenRVs : List RV → List Seen
  | [] => []
  | v :: vs => seenRV v :: seenRVs vs
end

end Unpy.QuickLambda.Spec
