import Verif.Model.Eff
/-!
# Model of the simple `let` and `letseq` macros (`unpythonic/syntax/simplelet.py`)

An expression is what it does when evaluated in a scope.  The macros do not look into the values and the body, so these may be any expressions.

Simplified: no assignment expressions in the values and the body; no generators.  mcpyrate gives the bindings as the list `args`, and expands from the outside in.
-/
namespace Unpy.SimpleLet
open Unpy.Eff
variable {σ ε V : Type}

/-- The names seen where an expression is evaluated.  The names of a class body are seen in it directly, but not in functions defined there. -/
structure Env (V : Type) where
  own : String → Option V
  outer : String → Option V

/-- An expression -/
abbrev Expr (σ ε V : Type) := Env V → Eff σ ε V

/-- A variable; `unbound` is what is raised if there is none (language primitive). -/
def var (unbound : String → ε) (x : String) : Expr σ ε V := fun env =>
  match env.own x with
  | some v => ret v
  | none =>
    match env.outer x with
    | some v => ret v
    | none => raise (unbound x)

/-- The arguments of a call are evaluated from left to right (language primitive). -/
def evalArgs (env : Env V) : List (Expr σ ε V) → Eff σ ε (List V)
  | [] => ret []
  | e :: es => bind (e env) fun v => bind (evalArgs env es) fun vs => ret (v :: vs)

/-- Assign the parameters, one after the other (language primitive). -/
def assign (f : String → Option V) : List String → List V → String → Option V
  | x :: xs, v :: vs => assign (fun y => if y = x then some v else f y) xs vs
  | _, _ => f

/-- `(lambda names: body)(values)`, with as many names as values (language primitive).  The names of a class body are not seen in the lambda. -/
def callLambda (names : List String) (body : Expr σ ε V) (values : List (Expr σ ε V)) : Expr σ ε V := fun env =>
  bind (evalArgs env values) fun vs => body ⟨fun _ => none, assign env.outer names vs⟩

/-- What a macro raises at expansion -/
inductive MErr where
  | SyntaxError | AttributeError | ValueError
  deriving DecidableEq, Repr

/-- One of the `args` -/
inductive Arg (σ ε V : Type) where
  /-- `[x, value]` -/
  | binding (x : String) (value : Expr σ ε V)
  /-- two items, the first is no name -/
  | noName
  /-- a list that does not have two items -/
  | noPair
  /-- something that is no list -/
  | noList

/-- `[k.id for k, _ in (a.elts for a in args)]` and `[v for _, v in (a.elts for a in args)]` (simplelet.py:46-47) -/
def pairs : List (Arg σ ε V) → Except MErr (List String × List (Expr σ ε V))
  | [] => .ok ([], [])
  | .binding x e :: as =>
    match pairs as with
    | .error err => .error err
    | .ok (xs, es) => .ok (x :: xs, e :: es)
  | .noName :: _ => .error .AttributeError
  | .noPair :: _ => .error .ValueError
  | .noList :: _ => .error .AttributeError

/-- `len(set(names))` (language primitive) -/
def distinct : List String → Nat
  | [] => 0
  | x :: xs => if x ∈ xs then distinct xs else distinct xs + 1

/-- `let` (simplelet.py:41-54), waiting for its body -/
def let_ (isExpr : Bool) (args : List (Arg σ ε V)) : Except MErr (Expr σ ε V → Expr σ ε V) :=
  if !isExpr then .error .SyntaxError
  else if args.isEmpty then .error .SyntaxError
  else
    match pairs args with
    | .error err => .error err
    | .ok (names, values) =>
      if distinct names < names.length then .error .SyntaxError
      else .ok fun tree => callLambda names tree values

/-- `letseq` (simplelet.py:74-80): it expands to a `let` of the first binding, around a `letseq` of the rest, which are then expanded in this order. -/
def letseq (isExpr : Bool) : List (Arg σ ε V) → Expr σ ε V → Except MErr (Expr σ ε V)
  | args, tree =>
    if !isExpr then .error .SyntaxError
    else
      match args with
      | [] => .ok tree
      | first :: rest =>
        match let_ true [first] with
        | .error err => .error err
        | .ok around =>
          match letseq true rest tree with
          | .error err => .error err
          | .ok body => .ok (around body)

end Unpy.SimpleLet
