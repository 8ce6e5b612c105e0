/-!
# Model of `fn[]` (`unpythonic/syntax/lambdatools.py`)

Expressions of Python with functions, calls, conditional expressions, tuples, dictionaries and output, and with `fn[...]` in them; what the
macro makes of them; and what the result does.

Simplifications.  Functions have positional parameters without defaults.  Each `fn[...]` carries a number, which tells the names made for it
from those made for others and by users, as `gensym` does.  The macro expands a `fn[...]` at a time, from the outside in, and skips those
inside; here all are expanded at once.  A dictionary is the list of its keys and values.
-/
namespace Unpy.QuickLambda

mutual
/-- Expressions as they are written. -/
inductive E where
  | int (n : Int)
  /-- a variable; `_` is one -/
  | name (x : String)
  | sub (a b : E)
  /-- `b if t else e` -/
  | ite (b t e : E)
  | lam (ps : List String) (e : E)
  | call (f : E) (args : Es)
  | tuple (es : Es)
  /-- `{k1: v1, ...}` -/
  | dict (is : Items)
  /-- Show a number. -/
  | emit (e : E)
  /-- `fn[e]` -/
  | fn (i : Nat) (e : E)
inductive Es where
  | nil
  | cons (e : E) (es : Es)
inductive Items where
  | nil
  | cons (k v : E) (is : Items)
end

/-- Names: of the user, or made by `gensym("_")`. -/
inductive Name where
  | user (x : String)
  | gen (i j : Nat)
  deriving DecidableEq

mutual
/-- Expanded expressions. -/
inductive T where
  | int (n : Int)
  | name (x : Name)
  | sub (a b : T)
  | ite (b t e : T)
  | lam (ps : List Name) (e : T)
  | call (f : T) (args : Ts)
  | tuple (es : Ts)
  | dict (is : TItems)
  | emit (e : T)
inductive Ts where
  | nil
  | cons (e : T) (es : Ts)
inductive TItems where
  | nil
  | cons (k v : T) (is : TItems)
end

mutual
/-- How many names `UnderscoreTransformer` collects (lambdatools.py:422-439): nested `fn[...]` are skipped. -/
def collected : E → Nat
  | .int _ => 0
  | .name x => if x = "_" then 1 else 0
  | .sub a b => collected a + collected b
  | .ite b t e => collected t + collected b + collected e
  | .lam _ e => collected e
  | .call f args => collected f + collectedAll args
  | .tuple es => collectedAll es
  | .dict is => collectedKeys is + collectedVals is
  | .emit e => collected e
  | .fn _ _ => 0
def collectedAll : Es → Nat
  | .nil => 0
  | .cons e es => collected e + collectedAll es
def collectedKeys : Items → Nat
  | .nil => 0
  | .cons k _ is => collected k + collectedKeys is
def collectedVals : Items → Nat
  | .nil => 0
  | .cons _ v is => collected v + collectedVals is
end

/-- The name made for an underscore (lambdatools.py:433-436), if it is the next one in the `fn[...]` given, if there is one. -/
def underscore : Option (Nat × Nat) → String → Name
  | some (i, j), x => if x = "_" then .gen i j else .user x
  | none, x => .user x

/-- After so many more underscores. -/
def skipTo (n : Nat) : Option (Nat × Nat) → Option (Nat × Nat)
  | some (i, j) => some (i, j + n)
  | none => none

mutual
/-- `_fn` (lambdatools.py:422-442).  The fields of a node are visited in the order they have in Python's syntax trees: of a conditional
expression the condition is the first, and a dictionary has all its keys before its values. -/
def expand (c : Option (Nat × Nat)) : E → T
  | .int n => .int n
  | .name x => .name (underscore c x)
  | .sub a b => .sub (expand c a) (expand (skipTo (collected a) c) b)
  | .ite b t e => .ite (expand (skipTo (collected t) c) b) (expand c t) (expand (skipTo (collected t + collected b) c) e)
  | .lam ps e => .lam (ps.map .user) (expand c e)
  | .call f args => .call (expand c f) (expandAll (skipTo (collected f) c) args)
  | .tuple es => .tuple (expandAll c es)
  | .dict is => .dict (expandItems c (skipTo (collectedKeys is) c) is)
  | .emit e => .emit (expand c e)
  | .fn i e => .lam ((List.range (collected e)).map (.gen i)) (expand (some (i, 0)) e)
def expandAll (c : Option (Nat × Nat)) : Es → Ts
  | .nil => .nil
  | .cons e es => .cons (expand c e) (expandAll (skipTo (collected e) c) es)
def expandItems (ck cv : Option (Nat × Nat)) : Items → TItems
  | .nil => .nil
  | .cons k v is => .cons (expand ck k) (expand cv v) (expandItems (skipTo (collected k) ck) (skipTo (collected v) cv) is)
end

/-! ## What programs do -/

inductive Err where
  | name
  | type
  | recursion
  deriving DecidableEq

/-- A computation: what was shown, the last first. -/
abbrev M (α : Type) := List Int → Except Err α × List Int

def M.pure {α : Type} (a : α) : M α := fun s => (.ok a, s)
def M.fail {α : Type} (e : Err) : M α := fun s => (.error e, s)
def M.bind {α β : Type} (m : M α) (k : α → M β) : M β := fun s =>
  match m s with
  | (.ok a, s) => k a s
  | (.error e, s) => (.error e, s)

/-- Values. -/
inductive V where
  | int (n : Int)
  | tuple (vs : List V)
  | dict (vs : List V)
  | clo (ps : List Name) (e : T) (env : List (Name × V))

def find {K V : Type} [DecidableEq K] (k : K) : List (K × V) → Option V
  | [] => none
  | (k', v) :: kvs => if k' = k then some v else find k kvs

def V.shown : V → Option Int
  | .int n => some n
  | _ => none

/-- Show it, if it is a number. -/
def output : Option Int → M Unit
  | some n => fun s => (.ok (), n :: s)
  | none => M.fail .type

/-- The condition holds, of anything but 0. -/
def truth : Option Int → Bool
  | some 0 => false
  | _ => true

mutual
/-- Evaluate an expanded expression. -/
def evalT : Nat → List (Name × V) → T → M V
  | 0, _, _ => M.fail .recursion
  | _ + 1, _, .int n => M.pure (.int n)
  | _ + 1, env, .name x => match find x env with
    | some v => M.pure v
    | none => M.fail .name
  | n + 1, env, .sub a b => (evalT n env a).bind fun a => (evalT n env b).bind fun b => match a, b with
    | .int a, .int b => M.pure (.int (a - b))
    | _, _ => M.fail .type
  | n + 1, env, .ite b t e => (evalT n env t).bind fun t => if truth t.shown then evalT n env b else evalT n env e
  | _ + 1, env, .lam ps e => M.pure (.clo ps e env)
  | n + 1, env, .call f args => (evalT n env f).bind fun f => (evalTs n env args).bind fun vs => match f with
    | .clo ps e env => if vs.length = ps.length then evalT n (ps.zip vs ++ env) e else M.fail .type
    | _ => M.fail .type
  | n + 1, env, .tuple es => (evalTs n env es).bind fun vs => M.pure (.tuple vs)
  | n + 1, env, .dict is => (evalTItems n env is).bind fun vs => M.pure (.dict vs)
  | n + 1, env, .emit e => (evalT n env e).bind fun v => (output v.shown).bind fun _ => M.pure v
def evalTs : Nat → List (Name × V) → Ts → M (List V)
  | 0, _, _ => M.fail .recursion
  | _ + 1, _, .nil => M.pure []
  | n + 1, env, .cons e es => (evalT n env e).bind fun v => (evalTs n env es).bind fun vs => M.pure (v :: vs)
def evalTItems : Nat → List (Name × V) → TItems → M (List V)
  | 0, _, _ => M.fail .recursion
  | _ + 1, _, .nil => M.pure []
  | n + 1, env, .cons k v is => (evalT n env k).bind fun k => (evalT n env v).bind fun v => (evalTItems n env is).bind fun vs =>
    M.pure (k :: v :: vs)
end

end Unpy.QuickLambda
