import Verif.Model.Let
import Verif.Spec.Env
/-!
# What `let`, `letrec` and `do` mean

Expressions that refer to names, evaluated against a list of the bindings made so far.
-/
namespace Unpy.Let.Spec
open Unpy Unpy.Let Unpy.EnvM
open Unpy.Fold (Err)

variable {V ε : Type}

/-- A name that can be bound and read back: an identifier, not reserved, and not the name of a method of `env`. -/
def Ordinary (w : World V) (n : String) : Prop :=
  w.isIdent n = true ∧ w.classAttr n = false ∧ n ∉ directWrite ∧ n ∉ reservedNames

/-- An expression: a result, or a reference to a name, and what is done with its value (`none` if the reference raises
AttributeError, which may be caught). -/
inductive Expr (V ε : Type) where
  | ret (v : V)
  | raise (e : Err ε)
  | read (n : String) (k : Option V → Expr V ε)

/-- The expression as code: `lambda e: ... e.n ...`. -/
def Expr.code : Expr V ε → Code V ε
  | .ret v => .ret v
  | .raise e => .raise e
  | .read n k => .op (.getattr n) (fun r => match r with
    | .ok (.val v) => (k (some v)).code
    | _ => (k none).code)

/-- `e.n` and nothing else. -/
def ref (n : String) : Expr V ε := .read n (fun r => match r with
  | some v => .ret v
  | none => .raise (.py .AttributeError))

/-- The names an expression can refer to are ordinary. -/
inductive Expr.Ok (w : World V) : Expr V ε → Prop
  | ret (v) : Ok w (.ret v)
  | raise (e) : Ok w (.raise e)
  | read {n k} : Ordinary w n → (∀ r, Ok w (k r)) → Ok w (.read n k)

/-- The value of a name. -/
def valueOf (n : String) : List (String × V) → Option V
  | [] => none
  | (m, v) :: bs => if m = n then some v else valueOf n bs

/-- Evaluate an expression that can refer to the given bindings. -/
def Expr.eval (bs : List (String × V)) : Expr V ε → Except (Err ε) V
  | .ret v => .ok v
  | .raise e => .error e
  | .read n k => (k (valueOf n bs)).eval bs

/-- The right-hand side of a binding: a value that is not callable, or `lambda e: expr` (the value `v`, when not called). -/
inductive SRhs (V ε : Type) where
  | value (v : V)
  | func (v : V) (x : Expr V ε)

def SRhs.rhs : SRhs V ε → Rhs V ε
  | .value v => .value v
  | .func v x => .func v (some true) x.code

def SRhs.val : SRhs V ε → V
  | .value v => v
  | .func v _ => v

def SRhs.Ok (w : World V) : SRhs V ε → Prop
  | .value _ => True
  | .func _ x => x.Ok w

/-- The value of a right-hand side, given the earlier bindings. -/
def SRhs.eval (bs : List (String × V)) : SRhs V ε → Except (Err ε) V
  | .value v => .ok v
  | .func _ x => x.eval bs

/-- `letrec`: each right-hand side is evaluated against the bindings before it. -/
def letrecValues : List (String × V) → List (String × SRhs V ε) → Except (Err ε) (List (String × V))
  | done, [] => .ok done
  | done, (n, r) :: bs =>
    match r.eval done with
    | .error x => .error x
    | .ok v => letrecValues (done ++ [(n, v)]) bs

/-- Bindings as given to the code. -/
def code (bs : List (String × SRhs V ε)) : List (String × Rhs V ε) := bs.map (fun b => (b.1, b.2.rhs))

/-- The names are different and ordinary, and so are those the expressions refer to; none is `body` or `mode`. -/
def Wf (w : World V) (bs : List (String × SRhs V ε)) : Prop :=
  (bs.map Prod.fst).Nodup ∧ (∀ b ∈ bs, Ordinary w b.1 ∧ b.2.Ok w) ∧ ∀ b ∈ bs, b.1 ≠ "body" ∧ b.1 ≠ "mode"

/-- The code uses only the public operations of the environment: it does not assign to `_env` and `_finalized`, and does
not use the environment as a context manager. -/
inductive Public : Code V ε → Prop
  | ret (v) : Public (.ret v)
  | raise (e) : Public (.raise e)
  | op {o k} : Props.PublicOp o → (∀ r, Public (k r)) → Public (.op o k)

/-! ## `do` -/

/-- An item of `do`. -/
inductive SItem (V ε : Type) where
  | plain (r : SRhs V ε)
  | assign (n : String) (r : SRhs V ε)

def SItem.item : SItem V ε → Item V ε
  | .plain r => .plain r.rhs
  | .assign n r => .assign n r.rhs

def SItem.Ok (w : World V) : SItem V ε → Prop
  | .plain r => r.Ok w
  | .assign n r => Ordinary w n ∧ r.Ok w

/-- Bindings after an assignment: the last one of a name counts. -/
def assignTo (n : String) (v : V) (bs : List (String × V)) : List (String × V) := (n, v) :: bs

/-- The values of the items, each evaluated against the assignments before it, up to the first that raises. -/
def doValues : List (String × V) → List (SItem V ε) → Except (Err ε) (List V)
  | _, [] => .ok []
  | bs, .plain r :: is =>
    match r.eval bs with
    | .error x => .error x
    | .ok v => (doValues bs is).map (v :: ·)
  | bs, .assign n r :: is =>
    match r.eval bs with
    | .error x => .error x
    | .ok v => (doValues (assignTo n v bs) is).map (v :: ·)

/-- The items do not mention a name. -/
def Expr.Avoids (n : String) : Expr V ε → Prop
  | .ret _ => True
  | .raise _ => True
  | .read m k => m ≠ n ∧ ∀ r, (k r).Avoids n

def SRhs.Avoids (n : String) : SRhs V ε → Prop
  | .value _ => True
  | .func _ x => x.Avoids n

def SItem.Avoids (n : String) : SItem V ε → Prop
  | .plain r => r.Avoids n
  | .assign m r => m ≠ n ∧ r.Avoids n

end Unpy.Let.Spec
