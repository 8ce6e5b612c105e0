import Verif.Model.Fold
/-!
# A fragment of Python's expressions, with the macro invocations of `unpythonic.syntax.letdo`

Names, calls with positional arguments, lambdas (with defaults), conditional expressions, tuples and lists; `x := v`
(or `x << v`); the macro invocations `let[...][...]`, `letrec[...][...]` and `do[...]`; and what their expansions are made
of: attribute references, string constants and hygienically captured objects.

`eval` says what Python does with an expanded expression; the objects it handles include the environments
(`unpythonic.env.env`), which live in a heap, and their methods.

Not modelled: assignment to lambda parameters and other Python variables (`eval` stops with `Err.unmodelled`), other
expressions, and effects other than those of the external functions and of the environments.
-/
namespace Unpy.PyExpr

/-- Names: those of the user's program, and those made by `gensym`. -/
inductive Name where
  | user (x : String)
  | gen (n : Nat)
  deriving DecidableEq, Repr

/-- Objects captured hygienically by the expansions (letdo.py:413-415, 919). -/
inductive Cap where
  /-- `unpythonic.lispylet._let`, to be called with `mode="letrec"` or `mode="let"` -/
  | letter (letrec : Bool)
  /-- `unpythonic.seq.do` -/
  | dof
  deriving DecidableEq, Repr

/-- What a `do` item declares: `local[x1 := local[x2 := ... value]]` (for no name, an ordinary item), or `delete[x]`. -/
inductive Tag where
  | loc (xs : List String)
  | del (x : String)
  deriving DecidableEq, Repr

/-- Expressions.  In `letx` the bindings are a list of names and a list of values; in `doe` the items are a list of tags
and a list of expressions (that of a `delete` is not used). -/
inductive Ex (β : Type) where
  | cst (c : β)
  | str (s : String)
  | cap (c : Cap)
  | name (x : Name)
  | attr (t : Ex β) (a : String)
  | call (f : Ex β) (args : List (Ex β))
  | lam (ps : List Name) (ds : List (Ex β)) (body : Ex β)
  | ife (c t e : Ex β)
  | tup (ts : List (Ex β))
  | lst (ts : List (Ex β))
  | assign (x : Name) (v : Ex β)
  | letx (letrec : Bool) (xs : List String) (vs : List (Ex β)) (body : Ex β)
  | doe (tags : List Tag) (ts : List (Ex β))
  /-- a macro invocation damaged by another macro, whose expansion raises SyntaxError -/
  | bad

/-- Exceptions: Python's, the user's; and reaching something outside the model. -/
inductive Err (ε : Type) where
  | py (e : PyErr)
  | nameError
  | user (e : ε)
  | unmodelled
  deriving DecidableEq

/-- What is not fixed by the code: truth of the constants, the external functions (on constants, with side effects on a
state), and the names found by ordinary attribute lookup on an `env`. -/
structure World (β ω ε : Type) where
  truthy : β → Bool
  call : Nat → List β → ω → Except (Err ε) β × ω
  classAttr : String → Bool

/-- Objects. -/
inductive Val (β : Type) where
  | base (b : β)
  | ext (k : Nat)
  | str (s : String)
  | tup (vs : List (Val β))
  | lst (vs : List (Val β))
  | clo (ps : List Name) (ds : List (Val β)) (body : Ex β) (ρ : Name → Option (Val β))
  /-- an `env`, by its address -/
  | env (a : Nat)
  /-- an attribute of an `env` found on its class -/
  | meth (a : Nat) (m : String)
  | cap (c : Cap)

/-- An `env` (env.py:60-65): the dict and the flag. -/
structure EnvObj (β : Type) where
  vars : String → Option (Val β)
  finalized : Bool

/-- The state: the heap of environments, the state of the external functions. -/
structure St (β ω : Type) where
  heap : List (EnvObj β)
  world : ω

/-- Computations: `none` if the calls nest too deeply, else what is returned or raised, and the new state. -/
def M (σ ε α : Type) : Type := σ → Option (Except (Err ε) α × σ)

variable {β ω ε σ α γ : Type}

def ret (a : α) : M σ ε α := fun s => some (.ok a, s)
def raise (e : Err ε) : M σ ε α := fun s => some (.error e, s)
def bind (m : M σ ε α) (f : α → M σ ε γ) : M σ ε γ := fun s =>
  match m s with
  | none => none
  | some (.error e, s) => some (.error e, s)
  | some (.ok a, s) => f a s

/-- `bool(v)` -/
def truthy (P : World β ω ε) : Val β → Bool
  | .base b => P.truthy b
  | .tup vs => !vs.isEmpty
  | .lst vs => !vs.isEmpty
  | _ => true

/-- The constants among the arguments of an external function. -/
def bases : List (Val β) → Option (List β)
  | [] => some []
  | .base b :: vs => (bases vs).map (b :: ·)
  | _ :: _ => none

/-- Extend an environment by parameters. -/
def extend (ρ : Name → Option α) : List Name → List α → Name → Option α
  | p :: ps, v :: vs => fun x => if x = p then some v else extend ρ ps vs x
  | _, _ => ρ

/-- The values of the parameters: the arguments, then the defaults of the remaining ones. -/
def params (n : Nat) (ds args : List α) : Option (List α) :=
  if args.length ≤ n ∧ n ≤ args.length + ds.length then
    some (args ++ ds.drop (args.length + ds.length - n))
  else none

/-- The state monad's operations on the heap. -/
def getEnv (a : Nat) : M (St β ω) ε (EnvObj β) := fun s =>
  match s.heap[a]? with
  | some e => some (.ok e, s)
  | none => some (.error .unmodelled, s)
def putEnv (a : Nat) (e : EnvObj β) : M (St β ω) ε Unit := fun s => some (.ok (), { s with heap := s.heap.set a e })
def newEnv : M (St β ω) ε Nat := fun s =>
  some (.ok s.heap.length, { s with heap := s.heap ++ [⟨fun _ => none, false⟩] })

/-- `e.x` for an `env` (env.py:88-95): attributes of the class come first. -/
def getAttr (P : World β ω ε) (a : Nat) (x : String) : M (St β ω) ε (Val β) :=
  if x = "set" ∨ x = "_set" ∨ x = "pop" ∨ P.classAttr x = true then ret (.meth a x) else
  bind (getEnv a) fun e => match e.vars x with
  | some v => ret v
  | none => raise (.py .AttributeError)

/-- env.py:54-55 -/
def reserved : List String := ["set", "clear", "finalize", "_env", "_finalized", "_direct_write", "_reserved_names"]

/-- `setattr(e, x, v)` (env.py:74-86).  Simplification: writing to `_env` and `_finalized`, which the code lets through,
is outside the model.  Names are identifiers. -/
def setAttr (a : Nat) (x : String) (v : Val β) : M (St β ω) ε Unit :=
  if x = "_env" ∨ x = "_finalized" then raise .unmodelled else
  if x ∈ reserved then raise (.py .AttributeError) else
  bind (getEnv a) fun e =>
  if e.finalized && (e.vars x).isNone then raise (.py .AttributeError) else
  putEnv a { e with vars := fun y => if y = x then some v else e.vars y }

/-- `e.set(x, v)` (env.py:185-194), `e._set(x, v)` (197-199), `e.pop(x)` (133-136). -/
def callMeth (a : Nat) (m : String) (args : List (Val β)) : M (St β ω) ε (Val β) :=
  match m, args with
  | "set", [.str x, v] => bind (getEnv a) fun e =>
      if (e.vars x).isNone then raise (.py .AttributeError) else
      bind (setAttr a x v) fun _ => ret v
  | "_set", [.str x, v] => bind (setAttr a x v) fun _ => ret v
  | "pop", [.str x] => bind (getEnv a) fun e =>
      if e.finalized then raise (.py .TypeError) else
      match e.vars x with
      | none => raise (.py .KeyError)
      | some v => bind (putEnv a { e with vars := fun y => if y = x then none else e.vars y }) fun _ => ret v
  | _, _ => raise .unmodelled

/-- The loop of `_let` over the bindings (lispylet.py:239-250).  Its second test, that a callable value takes one argument,
is left out: the values given to `mode="letrec"` by the macro all do. -/
def letLoop (ap : Val β → List (Val β) → M (St β ω) ε (Val β)) (letrec : Bool) (a : Nat) :
    List (Val β) → M (St β ω) ε Unit
  | [] => ret ()
  | .tup [.str k, v] :: more => bind (getEnv a) fun e =>
      if (e.vars k).isSome then raise (.py .AttributeError) else
      bind (if letrec then ap v [.env a] else ret v) fun v =>
      bind (setAttr a k v) fun _ => letLoop ap letrec a more
  | _ :: _ => raise .unmodelled

/-- `_let(bindings, body, mode=mode)` (lispylet.py:221-250). -/
def letCall (ap : Val β → List (Val β) → M (St β ω) ε (Val β)) (letrec : Bool) (bs : List (Val β)) (body : Val β) :
    M (St β ω) ε (Val β) :=
  bind newEnv fun a =>
  bind (letLoop ap letrec a bs) fun _ =>
  bind (getEnv a) fun e =>
  bind (putEnv a { e with finalized := true }) fun _ => ap body [.env a]

/-- The loop of `do` (seq.py:586-592), for items that are all functions of the environment. -/
def doLoop (ap : Val β → List (Val β) → M (St β ω) ε (Val β)) (a : Nat) : List (Val β) → Val β → M (St β ω) ε (Val β)
  | [], v => ret v
  | f :: fs, _ => bind (ap f [.env a]) fun v => doLoop ap a fs v

/-- `do(*items)` (seq.py:511-592); without items it raises UnboundLocalError. -/
def doCall (ap : Val β → List (Val β) → M (St β ω) ε (Val β)) (items : List (Val β)) : M (St β ω) ε (Val β) :=
  bind newEnv fun a =>
  match items with
  | [] => raise (.py .UnboundLocalError)
  | f :: fs => bind (ap f [.env a]) fun v => doLoop ap a fs v

/-- Call an object.  `ap` calls a function made by a lambda. -/
def callVal (P : World β ω ε) (ap : Val β → List (Val β) → M (St β ω) ε (Val β)) (f : Val β) (args : List (Val β)) :
    M (St β ω) ε (Val β) :=
  match f, args with
  | .clo .., _ => ap f args
  | .ext k, _ => match bases args with
    | some bs => fun s => match P.call k bs s.world with
      | (.ok b, w) => some (.ok (.base b), { s with world := w })
      | (.error e, w) => some (.error e, { s with world := w })
    | none => raise .unmodelled
  | .meth a m, _ => callMeth a m args
  | .cap (.letter r), [.tup bs, body] => letCall ap r bs body
  | .cap .dof, _ => doCall ap args
  | .cap _, _ => raise .unmodelled
  | _, _ => raise (.py .TypeError)

mutual
/-- Evaluation of an expression. -/
def eval (P : World β ω ε) (ap : Val β → List (Val β) → M (St β ω) ε (Val β)) (ρ : Name → Option (Val β)) :
    Ex β → M (St β ω) ε (Val β)
  | .cst c => ret (.base c)
  | .str s => ret (.str s)
  | .cap c => ret (.cap c)
  | .name x => match ρ x with
    | some v => ret v
    | none => raise .nameError
  | .attr t a => bind (eval P ap ρ t) fun v => match v with
    | .env i => getAttr P i a
    | _ => raise .unmodelled
  | .call f args => bind (eval P ap ρ f) fun fv => bind (evals P ap ρ args) fun vs => callVal P ap fv vs
  | .lam ps ds b => bind (evals P ap ρ ds) fun vs => ret (.clo ps vs b ρ)
  | .ife c t e => bind (eval P ap ρ c) fun v => if truthy P v then eval P ap ρ t else eval P ap ρ e
  | .tup ts => bind (evals P ap ρ ts) fun vs => ret (.tup vs)
  | .lst ts => bind (evals P ap ρ ts) fun vs => ret (.lst vs)
  | .assign _ _ => raise .unmodelled
  | .letx _ _ _ _ => raise .unmodelled
  | .doe _ _ => raise .unmodelled
  | .bad => raise .unmodelled

def evals (P : World β ω ε) (ap : Val β → List (Val β) → M (St β ω) ε (Val β)) (ρ : Name → Option (Val β)) :
    List (Ex β) → M (St β ω) ε (List (Val β))
  | [] => ret []
  | t :: ts => bind (eval P ap ρ t) fun v => bind (evals P ap ρ ts) fun vs => ret (v :: vs)
end

/-- Call a function made by a lambda, with calls nesting at most so deep. -/
def apply (P : World β ω ε) : Nat → Val β → List (Val β) → M (St β ω) ε (Val β)
  | 0, _, _ => fun _ => none
  | n + 1, .clo ps ds b ρ, args => match params ps.length ds args with
    | some vs => eval P (apply P n) (extend ρ ps vs) b
    | none => raise (.py .TypeError)
  | _ + 1, _, _ => raise .unmodelled

end Unpy.PyExpr
