import Verif.Model.Conts
/-!
# Model of the block macro `envify` (`unpythonic/syntax/lambdatools.py`, `unpythonic/env.py`)

Source programs (`Ex`, `St`), the expanded code (`Out.Ex`, `Out.St`), the expansion, and Python's semantics for expanded code.

Expressions: constants, names, operators, `x := e`, conditional expressions, lambdas, calls with positional and named arguments, tuples,
comprehensions `[e for x in it]` (whose value is taken for a tuple).  Parameters may have defaults, be keyword-only (without a default),
or be of the form `*args`.  Statements: `return`, assignment, `x += e`, `del`, `if`, `while`, `for`, `def`, `nonlocal`,
`try` with `except:`.

The names that the macro generates for environments are different from all others; here they are numbered by nesting, so that `k`
stands for the environment of the `k`th of the enclosing functions with parameters.  A default is a constant or a name.

Not modelled: `with`, `import`, `finally`, exception handlers for some exceptions only, `break`, `continue`, `else` of loops, classes,
decorators, `**kwargs`, `f(*xs)`, `global`, `let` and `do` in the source.
-/
namespace Unpy.Envify
open Unpy.PyExpr (M ret raise bind Err)
open Unpy.Conts (Flow whileLoop)

/-- The default of a parameter. -/
inductive Dflt (β : Type) where
  | cst (c : β)
  | name (x : String)

/-- The parameters of a function: positional ones; keyword-only ones; `*va`. -/
structure Sig where
  ps : List String
  ko : List String
  va : Option String

/-- `getargs` (lambdatools.py:452-463), without `**kwargs` -/
def Sig.names (sg : Sig) : List String := sg.ps ++ sg.ko ++ sg.va.toList

/-- Expressions of the source program. -/
inductive Ex (β : Type) where
  | cst (c : β)
  | non
  | name (x : String)
  /-- an operator, applied to its operands -/
  | op (n : Nat) (es : List (Ex β))
  /-- `x := e`, also written `x << e` (letdoutil.py:111-135) -/
  | asg (x : String) (e : Ex β)
  | ife (c t e : Ex β)
  | tup (es : List (Ex β))
  /-- `[e for x in it]` -/
  | comp (x : String) (e it : Ex β)
  /-- a lambda, with `ds` the defaults of the last positional parameters -/
  | lam (sg : Sig) (ds : List (Dflt β)) (body : Ex β)
  /-- a call, with `ks` the names of the last ones of the arguments -/
  | call (f : Ex β) (ks : List String) (args : List (Ex β))

/-- Statements of the source program. -/
inductive St (β : Type) where
  | ret (e : Ex β)
  | expr (e : Ex β)
  | assign (x : String) (e : Ex β)
  /-- `x += e` and the like -/
  | aug (x : String) (n : Nat) (e : Ex β)
  | ite (c : Ex β) (body orelse : List (St β))
  | while (c : Ex β) (body : List (St β))
  /-- `for x in it: body` -/
  | loop (x : String) (it : Ex β) (body : List (St β))
  /-- `del x` -/
  | del (x : String)
  /-- `try: body`, `except: handler` -/
  | attempt (body handler : List (St β))
  | defn (x : String) (sg : Sig) (ds : List (Dflt β)) (body : List (St β))
  | nonlocal (xs : List String)

namespace Out

inductive Dflt (β : Type) where
  | cst (c : β)
  | name (x : String)
  /-- `e.x`, where `e` is the environment numbered `k` -/
  | attr (k : Nat) (x : String)

/-- How a function makes its environment: not at all; by `e = env(x=x, ...)`; by `e.update(x=x, ...)` in a `do`. -/
inductive Kind where
  | none
  | ctor
  | update

/-- Expressions of expanded code. -/
inductive Ex (β : Type) where
  | cst (c : β)
  | non
  | name (x : String)
  | op (n : Nat) (es : List (Ex β))
  | asg (x : String) (e : Ex β)
  | ife (c t e : Ex β)
  | tup (es : List (Ex β))
  | comp (x : String) (e it : Ex β)
  /-- `lambda ...: body`, or `lambda ...: do[e.update(...), body]` -/
  | lam (kind : Kind) (sg : Sig) (ds : List (Dflt β)) (body : Ex β)
  | call (f : Ex β) (ks : List String) (args : List (Ex β))
  /-- `e.x` -/
  | attr (k : Nat) (x : String)
  /-- `e.set("x", v)` -/
  | set (k : Nat) (x : String) (v : Ex β)
  /-- `[v for e.x in it]` -/
  | compE (k : Nat) (x : String) (v it : Ex β)

/-- Statements of expanded code. -/
inductive St (β : Type) where
  | ret (e : Ex β)
  | expr (e : Ex β)
  | assign (x : String) (e : Ex β)
  | aug (x : String) (n : Nat) (e : Ex β)
  | ite (c : Ex β) (body orelse : List (St β))
  | while (c : Ex β) (body : List (St β))
  | loop (x : String) (it : Ex β) (body : List (St β))
  | del (x : String)
  | attempt (body handler : List (St β))
  /-- `def x(...): body`, possibly with `e = env(...)` before the body -/
  | defn (kind : Kind) (x : String) (sg : Sig) (ds : List (Dflt β)) (body : List (St β))
  | nonlocal (xs : List String)
  /-- `e.x = v` -/
  | assignE (k : Nat) (x : String) (v : Ex β)
  /-- `e.x += v` -/
  | augE (k : Nat) (x : String) (n : Nat) (v : Ex β)
  /-- `for e.x in it: body` -/
  | loopE (k : Nat) (x : String) (it : Ex β) (body : List (St β))
  /-- `del e.x` -/
  | delE (k : Nat) (x : String)

end Out

/-! ## The expansion -/

/-- `self.state.bindings`: the environment that the name is redirected to, if any. -/
abbrev Bind := String → Option Nat

/-- `newbindings.update(...)` (lambdatools.py:515) -/
def Bind.add (B : Bind) (ps : List String) (k : Nat) : Bind := fun x => if ps.contains x then some k else B x

section
variable {β : Type}

/-- A default.  It is visited with the state for the body of the function (lambdatools.py:516, 544). -/
def trD (B : Bind) : Dflt β → Out.Dflt β
  | .cst c => .cst c
  | .name x => match B x with
    | some j => .attr j x
    | none => .name x

mutual
/-- `EnvifyTransformer.transform` (lambdatools.py:473-544) on an expression; `k`: the number of `enames`. -/
def tr (B : Bind) (k : Nat) : Ex β → Out.Ex β
  | .cst c => .cst c
  | .non => .non
  | .name x => match B x with
    | some j => .attr j x
    | none => .name x
  | .op n es => .op n (trs B k es)
  | .asg x e => match B x with
    | some j => .set j x (tr B k e)
    | none => .asg x (tr B k e)
  | .ife c t e => .ife (tr B k c) (tr B k t) (tr B k e)
  | .tup es => .tup (trs B k es)
  | .comp x e it => match B x with
    | some j => .compE j x (tr B k e) (tr B k it)
    | none => .comp x (tr B k e) (tr B k it)
  | .lam sg ds b =>
    if sg.names.isEmpty then .lam .none sg (ds.map (trD B)) (tr B k b)
    else .lam .update sg (ds.map (trD (B.add sg.names k))) (tr (B.add sg.names k) (k + 1) b)
  | .call f ks args => .call (tr B k f) ks (trs B k args)

def trs (B : Bind) (k : Nat) : List (Ex β) → List (Out.Ex β)
  | [] => []
  | e :: es => tr B k e :: trs B k es
end

mutual
/-- The transformer on a statement.  The name in `def x` and the names in `nonlocal` are not `Name` nodes, so they are left alone; the
target of `for` and that of `del` are. -/
def trS (B : Bind) (k : Nat) : St β → Out.St β
  | .ret e => .ret (tr B k e)
  | .expr e => .expr (tr B k e)
  | .assign x e => match B x with
    | some j => .assignE j x (tr B k e)
    | none => .assign x (tr B k e)
  | .aug x n e => match B x with
    | some j => .augE j x n (tr B k e)
    | none => .aug x n (tr B k e)
  | .ite c b₁ b₂ => .ite (tr B k c) (trSs B k b₁) (trSs B k b₂)
  | .while c b => .while (tr B k c) (trSs B k b)
  | .loop x it b => match B x with
    | some j => .loopE j x (tr B k it) (trSs B k b)
    | none => .loop x (tr B k it) (trSs B k b)
  | .del x => match B x with
    | some j => .delE j x
    | none => .del x
  | .attempt b₁ b₂ => .attempt (trSs B k b₁) (trSs B k b₂)
  | .defn x sg ds b =>
    if sg.names.isEmpty then .defn .none x sg (ds.map (trD B)) (trSs B k b)
    else .defn .ctor x sg (ds.map (trD (B.add sg.names k))) (trSs (B.add sg.names k) (k + 1) b)
  | .nonlocal xs => .nonlocal xs

def trSs (B : Bind) (k : Nat) : List (St β) → List (Out.St β)
  | [] => []
  | s :: ss => trS B k s :: trSs B k ss
end

/-- `_envify` (lambdatools.py:444-546) -/
def expand (b : List (St β)) : List (Out.St β) := trSs (fun _ => none) 0 b

end

/-! ## Python -/

/-- Variables of functions and of the block, by frame and name; `env` objects; the state of the external functions. -/
structure State (V ω : Type) where
  frames : List (List (String × Option V))
  envs : List (List (String × V))
  ext : ω

/-- What is not fixed by the code: truth of the constants; the operators; the external functions (on constants, with side
effects). -/
structure World (β ω ε : Type) where
  truthy : β → Bool
  op : Nat → List β → Except (Err ε) β
  call : Nat → List β → ω → Except (Err ε) β × ω

/-- `env._reserved_names` (env.py:54-55), without the two that are also in `_direct_write`. -/
def reservedNames : List String := ["set", "clear", "finalize", "_direct_write", "_reserved_names"]

/-- `env._direct_write` (env.py:56) -/
def directWrite : List String := ["_env", "_finalized"]

/-- Attributes of the class `env` (env.py:54-223), apart from those with two underscores. -/
def classAttrs : List String :=
  ["_reserved_names", "_direct_write", "items", "keys", "values", "get", "pop", "popitem", "clear", "update", "setdefault", "set",
    "_set", "finalize"]

section
variable {V ω ε α : Type}

/-- Replace the value under a name. -/
def put (x : String) (a : α) : List (String × α) → List (String × α)
  | [] => []
  | p :: l => if p.1 = x then (x, a) :: l else p :: put x a l

/-- The value of a variable. -/
def loadVar (k : Nat) (x : String) : M (State V ω) ε V := fun s =>
  match s.frames[k]? with
  | some f => match f.lookup x with
    | some (some v) => some (.ok v, s)
    | some none => some (.error .nameError, s)
    | none => some (.error .unmodelled, s)
  | none => some (.error .unmodelled, s)

/-- Assign to a variable. -/
def storeVar (k : Nat) (x : String) (v : V) : M (State V ω) ε Unit := fun s =>
  match s.frames[k]? with
  | some f => if (f.lookup x).isSome then some (.ok (), { s with frames := s.frames.set k (put x (some v) f) })
    else some (.error .unmodelled, s)
  | none => some (.error .unmodelled, s)

/-- `del` of a variable. -/
def delVar (k : Nat) (x : String) : M (State V ω) ε Unit := fun s =>
  match s.frames[k]? with
  | some f => match f.lookup x with
    | some (some _) => some (.ok (), { s with frames := s.frames.set k (put x none f) })
    | some none => some (.error .nameError, s)
    | none => some (.error .unmodelled, s)
  | none => some (.error .unmodelled, s)

/-- New variables. -/
def newFrame (f : List (String × Option V)) : M (State V ω) ε Nat := fun s =>
  some (.ok s.frames.length, { s with frames := s.frames ++ [f] })

/-- A new environment. -/
def newEnv (f : List (String × V)) : M (State V ω) ε Nat := fun s =>
  some (.ok s.envs.length, { s with envs := s.envs ++ [f] })

/-- What is stored under a name. -/
def getEnv (k : Nat) (x : String) : M (State V ω) ε V := fun s =>
  match s.envs[k]? with
  | some f => match f.lookup x with
    | some v => some (.ok v, s)
    | none => some (.error (.py .AttributeError), s)
  | none => some (.error .unmodelled, s)

/-- Replace the value under a name, or add it. -/
def upsert (x : String) (a : α) (l : List (String × α)) : List (String × α) :=
  if (l.lookup x).isSome then put x a l else l ++ [(x, a)]

/-- Store under a name. -/
def setEnv (k : Nat) (x : String) (v : V) : M (State V ω) ε Unit := fun s =>
  match s.envs[k]? with
  | some f => some (.ok (), { s with envs := s.envs.set k (upsert x v f) })
  | none => some (.error .unmodelled, s)

/-- Delete a name. -/
def delEnv (k : Nat) (x : String) : M (State V ω) ε Unit := fun s =>
  match s.envs[k]? with
  | some f => if (f.lookup x).isSome then some (.ok (), { s with envs := s.envs.set k (f.filter (·.1 != x)) })
    else some (.error (.py .AttributeError), s)
  | none => some (.error .unmodelled, s)

/-- Call an external function. -/
def callExt {β : Type} (P : World β ω ε) (n : Nat) (bs : List β) : M (State V ω) ε β := fun s =>
  match P.call n bs s.ext with
  | (.ok b, w) => some (.ok b, { s with ext := w })
  | (.error e, w) => some (.error e, { s with ext := w })

end

/-- A scope: in which frame a variable is, and which environments the generated names stand for. -/
structure Scope where
  vars : String → Option Nat
  envs : List Nat

/-- Objects. -/
inductive Val (β : Type) where
  | base (b : β)
  | non
  | tup (vs : List (Val β))
  /-- an external function -/
  | ext (n : Nat)
  | clo (kind : Out.Kind) (sg : Sig) (ds : List (Val β)) (body : List (Out.St β)) (ρ : Scope)
  /-- a method of an environment, or some other attribute of its class -/
  | meth (x : String)

section
variable {β ω ε : Type}

abbrev Mo (β ω ε α : Type) := M (State (Val β) ω) ε α

/-- `bool(v)` -/
def truthy (P : World β ω ε) : Val β → Bool
  | .base b => P.truthy b
  | .non => false
  | .tup vs => !vs.isEmpty
  | _ => true

def bases : List (Val β) → Option (List β)
  | [] => some []
  | .base b :: vs => (bases vs).map (b :: ·)
  | _ :: _ => none

/-- An operator; operands other than constants are not modelled. -/
def binop (P : World β ω ε) (n : Nat) (vs : List (Val β)) : Mo β ω ε (Val β) :=
  match bases vs with
  | none => raise .unmodelled
  | some bs => match P.op n bs with
    | .ok b => ret (.base b)
    | .error e => raise e

/-- A name. -/
def load (ρ : Scope) (x : String) : Mo β ω ε (Val β) :=
  match ρ.vars x with
  | some k => loadVar k x
  | none => raise .nameError

/-- Assignment to a name. -/
def store (ρ : Scope) (x : String) (v : Val β) : Mo β ω ε Unit :=
  match ρ.vars x with
  | some k => storeVar k x v
  | none => raise .unmodelled

/-- `e.x` (env.py:88-95): attributes of the class come first.  If the name `e` does not exist here, that is a NameError. -/
def attr (ρ : Scope) (k : Nat) (x : String) : Mo β ω ε (Val β) :=
  match ρ.envs[k]? with
  | some o =>
    if x.startsWith "__" || directWrite.contains x then raise .unmodelled
    else if classAttrs.contains x then ret (.meth x) else getEnv o x
  | none => raise .nameError

/-- `e.x = v` (env.py:74-86); the environment is not finalized. -/
def setAttr (ρ : Scope) (k : Nat) (x : String) (v : Val β) : Mo β ω ε Unit :=
  match ρ.envs[k]? with
  | some o =>
    if x.startsWith "__" || directWrite.contains x then raise .unmodelled
    else if reservedNames.contains x then raise (.py .AttributeError) else setEnv o x v
  | none => raise .nameError

/-- `e.set("x", v)` (env.py:185-199) -/
def setCall (ρ : Scope) (k : Nat) (x : String) (v : Val β) : Mo β ω ε Unit :=
  match ρ.envs[k]? with
  | some o => bind (getEnv o x) fun _ => setAttr ρ k x v
  | none => raise .nameError

/-- `del e.x` (env.py:97-105); the environment is not finalized. -/
def delAttr (ρ : Scope) (k : Nat) (x : String) : Mo β ω ε Unit :=
  match ρ.envs[k]? with
  | some o => if x.startsWith "__" || directWrite.contains x then raise .unmodelled else delEnv o x
  | none => raise .nameError

/-- `del x` -/
def delete (ρ : Scope) (x : String) : Mo β ω ε Unit :=
  match ρ.vars x with
  | some k => delVar k x
  | none => raise .unmodelled

/-- The environment of a function that is called (lambdatools.py:487-514, env.py:60-69, 145-155). -/
def makeEnv (kind : Out.Kind) (xs : List (String × Val β)) : Mo β ω ε (List Nat) :=
  match kind with
  | .none => ret []
  | .ctor =>
    if xs.any (fun p => p.1 == "self" || p.1 == "cls") then raise (.py .TypeError)
    else if xs.any (fun p => p.1.startsWith "__" || directWrite.contains p.1) then raise .unmodelled
    else if xs.any (fun p => reservedNames.contains p.1) then raise (.py .AttributeError)
    else bind (newEnv xs) fun o => ret [o]
  | .update =>
    if xs.any (fun p => p.1 == "self") then raise (.py .TypeError)
    else bind (newEnv xs) fun o => ret [o]

/-- The values of parameters that were not passed by position: the named argument if there is one, else the default. -/
def fill {V : Type} (kws : List (String × V)) : List (String × Option V) → Option (List V)
  | [] => some []
  | (p, d) :: l => match kws.lookup p with
    | some v => (fill kws l).map (v :: ·)
    | none => match d with
      | some v => (fill kws l).map (v :: ·)
      | none => none

/-- The positional parameters, with their defaults: `ds` are those of the last ones. -/
def withDefaults {V : Type} (ps : List String) (ds : List V) : List (String × Option V) :=
  ps.zip (List.replicate (ps.length - ds.length) none ++ ds.map some)

/-- The values of the parameters in a call; `ks`: the names of the last ones of the arguments, all different.  TypeError if there are too
many positional arguments, if a name is not that of a parameter that remains, and if there is a parameter without a value. -/
def bindArgs {V : Type} (mkTup : List V → V) (sg : Sig) (ds : List V) (ks : List String) (all : List V) :
    Option (List (String × V)) :=
  let args := all.take (all.length - ks.length)
  let kws := ks.zip (all.drop (all.length - ks.length))
  if sg.ps.length < args.length ∧ sg.va = none then none
  else if ks.any (fun k => !(sg.ps.drop args.length ++ sg.ko).contains k) then none
  else match fill kws ((withDefaults sg.ps ds).drop args.length), fill kws (sg.ko.map fun p => (p, none)) with
    | some us, some ws => some (sg.names.zip (args.take sg.ps.length ++ us ++ ws ++ (sg.va.toList.map fun _ => mkTup (args.drop sg.ps.length))))
    | _, _ => none

def evalD (ρ : Scope) : Out.Dflt β → Mo β ω ε (Val β)
  | .cst c => ret (.base c)
  | .name x => load ρ x
  | .attr k x => attr ρ k x

def evalDs (ρ : Scope) : List (Out.Dflt β) → Mo β ω ε (List (Val β))
  | [] => ret []
  | d :: ds => bind (evalD ρ d) fun v => bind (evalDs ρ ds) fun vs => ret (v :: vs)

/-- Do this for each item; the results. -/
def forEach {V σ : Type} (body : V → M σ ε V) : List V → M σ ε (List V)
  | [] => ret []
  | v :: vs => bind (body v) fun w => bind (forEach body vs) fun ws => ret (w :: ws)

/-- `for`: do this for each item. -/
def forLoop {V W σ : Type} (body : V → M σ ε (Flow W)) : List V → M σ ε (Flow W)
  | [] => ret .next
  | v :: vs => bind (body v) fun fl => match fl with
    | .next => forLoop body vs
    | .ret w => ret (.ret w)

/-- `try` and `except:`.  When something happens that is not modelled, so is the outcome. -/
def attempt {W σ : Type} (m h : M σ ε W) : M σ ε W := fun s =>
  match m s with
  | some (.error .unmodelled, s') => some (.error .unmodelled, s')
  | some (.error _, s') => h s'
  | r => r

/-- The items of a tuple. -/
def items : Val β → Mo β ω ε (List (Val β))
  | .tup vs => ret vs
  | _ => raise (.py .TypeError)

/-- New variables, in one frame. -/
def Scope.add (ρ : Scope) (names : List String) (k : Nat) : Scope :=
  { ρ with vars := fun x => if names.contains x then some k else ρ.vars x }

mutual
/-- Evaluate an expression; `ap` calls functions. -/
def eval (P : World β ω ε) (ap : Val β → List String → List (Val β) → Mo β ω ε (Val β)) (ρ : Scope) : Out.Ex β → Mo β ω ε (Val β)
  | .cst c => ret (.base c)
  | .non => ret .non
  | .name x => load ρ x
  | .op n es => bind (evals P ap ρ es) fun vs => binop P n vs
  | .asg x e => bind (eval P ap ρ e) fun v => bind (store ρ x v) fun _ => ret v
  | .ife c t e => bind (eval P ap ρ c) fun v => if truthy P v then eval P ap ρ t else eval P ap ρ e
  | .tup es => bind (evals P ap ρ es) fun vs => ret (.tup vs)
  | .comp x e it => bind (eval P ap ρ it) fun v => bind (items v) fun vs => bind (newFrame [(x, none)]) fun k =>
      bind (forEach (fun v => bind (storeVar k x v) fun _ => eval P ap (ρ.add [x] k) e) vs) fun ws => ret (.tup ws)
  | .lam kind sg ds b => bind (evalDs ρ ds) fun vs => ret (.clo kind sg vs [.ret b] ρ)
  | .call f ks args => bind (eval P ap ρ f) fun fv => bind (evals P ap ρ args) fun vs => ap fv ks vs
  | .attr k x => attr ρ k x
  | .set k x e => bind (eval P ap ρ e) fun v => bind (setCall ρ k x v) fun _ => ret v
  | .compE k x e it => bind (eval P ap ρ it) fun v => bind (items v) fun vs =>
      bind (forEach (fun v => bind (setAttr ρ k x v) fun _ => eval P ap ρ e) vs) fun ws => ret (.tup ws)

def evals (P : World β ω ε) (ap : Val β → List String → List (Val β) → Mo β ω ε (Val β)) (ρ : Scope) :
    List (Out.Ex β) → Mo β ω ε (List (Val β))
  | [] => ret []
  | e :: es => bind (eval P ap ρ e) fun v => bind (evals P ap ρ es) fun vs => ret (v :: vs)
end

mutual
/-- Execute a statement; `N` bounds the rounds of each loop. -/
def exec (P : World β ω ε) (N : Nat) (ap : Val β → List String → List (Val β) → Mo β ω ε (Val β)) (ρ : Scope) :
    Out.St β → Mo β ω ε (Flow (Val β))
  | .ret e => bind (eval P ap ρ e) fun v => ret (.ret v)
  | .expr e => bind (eval P ap ρ e) fun _ => ret .next
  | .assign x e => bind (eval P ap ρ e) fun v => bind (store ρ x v) fun _ => ret .next
  | .aug x n e => bind (load ρ x) fun v => bind (eval P ap ρ e) fun w => bind (binop P n [v, w]) fun r =>
      bind (store ρ x r) fun _ => ret .next
  | .ite c b₁ b₂ => bind (eval P ap ρ c) fun v => if truthy P v then execs P N ap ρ b₁ else execs P N ap ρ b₂
  | .while c b => whileLoop (bind (eval P ap ρ c) fun v => ret (truthy P v)) (execs P N ap ρ b) N
  | .loop x it b => bind (eval P ap ρ it) fun v => bind (items v) fun vs =>
      forLoop (fun v => bind (store ρ x v) fun _ => execs P N ap ρ b) vs
  | .del x => bind (delete ρ x) fun _ => ret .next
  | .attempt b₁ b₂ => attempt (execs P N ap ρ b₁) (execs P N ap ρ b₂)
  | .defn kind x sg ds b => bind (evalDs ρ ds) fun vs => bind (store ρ x (.clo kind sg vs b ρ)) fun _ => ret .next
  | .nonlocal _ => ret .next
  | .assignE k x e => bind (eval P ap ρ e) fun v => bind (setAttr ρ k x v) fun _ => ret .next
  | .augE k x n e => bind (attr ρ k x) fun v => bind (eval P ap ρ e) fun w => bind (binop P n [v, w]) fun r =>
      bind (setAttr ρ k x r) fun _ => ret .next
  | .loopE k x it b => bind (eval P ap ρ it) fun v => bind (items v) fun vs =>
      forLoop (fun v => bind (setAttr ρ k x v) fun _ => execs P N ap ρ b) vs
  | .delE k x => bind (delAttr ρ k x) fun _ => ret .next

def execs (P : World β ω ε) (N : Nat) (ap : Val β → List String → List (Val β) → Mo β ω ε (Val β)) (ρ : Scope) :
    List (Out.St β) → Mo β ω ε (Flow (Val β))
  | [] => ret .next
  | t :: ts => bind (exec P N ap ρ t) fun fl => match fl with
    | .next => execs P N ap ρ ts
    | .ret v => ret (.ret v)
end

mutual
/-- The targets of `:=` in an expression, outside of lambdas. -/
def walrus : Out.Ex β → List String
  | .asg x e => x :: walrus e
  | .op _ es => walruses es
  | .ife c t e => walrus c ++ walrus t ++ walrus e
  | .tup es => walruses es
  | .comp _ e it => walrus e ++ walrus it
  | .call f _ args => walrus f ++ walruses args
  | .set _ _ e => walrus e
  | .compE _ _ e it => walrus e ++ walrus it
  | _ => []

def walruses : List (Out.Ex β) → List String
  | [] => []
  | e :: es => walrus e ++ walruses es
end

mutual
/-- The names that a statement assigns to, in the scope of the function that it is in. -/
def assignedS : Out.St β → List String
  | .ret e => walrus e
  | .expr e => walrus e
  | .assign x e => x :: walrus e
  | .aug x _ e => x :: walrus e
  | .ite c b₁ b₂ => walrus c ++ assignedSs b₁ ++ assignedSs b₂
  | .while c b => walrus c ++ assignedSs b
  | .loop x it b => x :: walrus it ++ assignedSs b
  | .del x => [x]
  | .attempt b₁ b₂ => assignedSs b₁ ++ assignedSs b₂
  | .defn _ x _ _ _ => [x]
  | .nonlocal _ => []
  | .assignE _ _ e => walrus e
  | .augE _ _ _ e => walrus e
  | .loopE _ _ it b => walrus it ++ assignedSs b
  | .delE _ _ => []

def assignedSs : List (Out.St β) → List String
  | [] => []
  | s :: ss => assignedS s ++ assignedSs ss
end

mutual
def nonlocalS : Out.St β → List String
  | .nonlocal xs => xs
  | .ite _ b₁ b₂ => nonlocalSs b₁ ++ nonlocalSs b₂
  | .while _ b => nonlocalSs b
  | .loop _ _ b => nonlocalSs b
  | .loopE _ _ _ b => nonlocalSs b
  | .attempt b₁ b₂ => nonlocalSs b₁ ++ nonlocalSs b₂
  | _ => []

def nonlocalSs : List (Out.St β) → List String
  | [] => []
  | s :: ss => nonlocalS s ++ nonlocalSs ss
end

/-- The local variables of a function other than its parameters. -/
def locals (ps : List String) (b : List (Out.St β)) : List String :=
  (assignedSs b).filter fun x => !(nonlocalSs b).contains x && !ps.contains x

/-- Call a function. -/
def callEntry (P : World β ω ε) (N : Nat) (ap : Val β → List String → List (Val β) → Mo β ω ε (Val β)) :
    Val β → List String → List (Val β) → Mo β ω ε (Val β)
  | .clo kind sg ds b ρ, ks, args => match bindArgs .tup sg ds ks args with
    | some xs =>
      bind (newFrame (xs.map (fun p => (p.1, some p.2)) ++ (locals sg.names b).map fun x => (x, none))) fun k =>
      bind (makeEnv kind xs) fun os =>
      bind (execs P N ap { ρ.add (sg.names ++ locals sg.names b) k with envs := ρ.envs ++ os } b) fun fl => match fl with
        | .next => ret .non
        | .ret v => ret v
    | none => raise (.py .TypeError)
  | .ext n, [], args => match bases args with
    | some bs => bind (callExt P n bs) fun b => ret (.base b)
    | none => raise .unmodelled
  | .ext _, _ :: _, _ => raise .unmodelled
  | .meth _, _, _ => raise .unmodelled
  | .base _, _, _ => raise (.py .TypeError)
  | .non, _, _ => raise (.py .TypeError)
  | .tup _, _, _ => raise (.py .TypeError)

/-- Calls, nesting at most so deep. -/
def apply (P : World β ω ε) (N : Nat) : Nat → Val β → List String → List (Val β) → Mo β ω ε (Val β)
  | 0 => fun _ _ _ _ => none
  | d + 1 => callEntry P N (apply P N d)

/-- Run an expanded block; `vars`: its variables, all in frame 0. -/
def run (P : World β ω ε) (N d : Nat) (vars : List String) (b : List (Out.St β)) : Mo β ω ε (Flow (Val β)) :=
  execs P N (apply P N d) ⟨fun x => if vars.contains x then some 0 else none, []⟩ b

end

end Unpy.Envify
