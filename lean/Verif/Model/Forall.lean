import Verif.Model.Amb
/-!
# Model of the `forall` macro (`unpythonic/syntax/forall.py`)

The expression that the macro builds, and what it does.  A line of source code is a function of the variables around it, with any effects; the
run-time parts are those of `Model/Amb.lean`.

Simplifications: no line has the name `_here_` in it, which the macro uses for a hole; the names given to the lambdas (by `namelambda`, for stack
traces) are left out.
-/
namespace Unpy.Forall
open Unpy.Fold (Err)
open Unpy.Eff Unpy.Amb
variable {σ ε α : Type}

/-- The variables a line can see. -/
abbrev Vars (α : Type) := String → Option (Obj α)

/-- A line `name << body`, or just `body`. -/
structure Line (σ ε α : Type) where
  name : Option String
  body : Vars α → Eff σ (Err ε) (Obj α)

/-- The expressions that are built. -/
inductive T (σ ε α : Type) where
  /-- `_here_` -/
  | here
  /-- `monadify(body, unpack)` -/
  | monadify (body : Vars α → Eff σ (Err ε) (Obj α)) (unpack : Bool)
  /-- `monadify(body, unpack) >> (lambda k: rest)` -/
  | bind (body : Vars α → Eff σ (Err ε) (Obj α)) (unpack : Bool) (k : String) (rest : T σ ε α)

/-- `splice_expression(new, tree, "_here_")` -/
def splice (new : T σ ε α) : T σ ε α → T σ ε α
  | .here => new
  | .monadify b u => .monadify b u
  | .bind b u k rest => .bind b u k (splice new rest)

/-- `build` (forall.py:51-79). -/
def build : List (Line σ ε α) → Option (T σ ε α) → Option (T σ ε α)
  | [], tree => tree
  | line :: rest, tree =>
    let k := match line.name with
      | some k => k
      | none => "_ignored"
    let body := if rest.isEmpty then .monadify line.body false else .bind line.body true k .here
    match tree with
    | some tree => build rest (some (splice body tree))
    | none => build rest (some body)

/-- Assign a variable. -/
def bound (k : String) (x : Obj α) (vars : Vars α) : Vars α := fun j => if j = k then some x else vars j

/-- Evaluate an expression; a hole that is left (there is none, see the proofs) stands for any error. -/
def eval (vars : Vars α) : T σ ε α → Eff σ (Err ε) (List (Obj α))
  | .here => raise (.py .RuntimeError)
  | .monadify b u => Eff.bind (b vars) fun v => ret (Amb.monadify v u)
  | .bind b u k rest => Eff.bind (b vars) fun v =>
    mbind (Amb.monadify v u) fun x => Eff.bind (eval (bound k x vars) rest) fun ys => ret (.ml ys)

/-- `forall[...]` (forall.py:42-80): the items of the tuple.  Without lines, it is no expression. -/
def forallMacro (lines : List (Line σ ε α)) (vars : Vars α) : Eff σ (Err ε) (List (Obj α)) :=
  match build lines none with
  | some t => eval vars t
  | none => raise (.py .SyntaxError)

end Unpy.Forall
