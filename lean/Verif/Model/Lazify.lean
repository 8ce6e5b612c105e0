import Verif.Model.Conts
/-!
# Model of the block macro `lazify` (`unpythonic/syntax/lazify.py`) and its run-time support (`unpythonic/lazyutil.py`)

Source programs (`Ex`, `St`), the expanded code (`Out.Ex`, `Out.St`), the expansion, and Python's semantics for expanded code,
with promises.

Expressions: constants, names, operators, `==`, calls with positional arguments and possibly `*e` after them, lambdas with
defaults and possibly `*args`, `a if p else b`, tuples, `e[i]`, `lazy[e]`.  Statements: `return`, assignment, `x += e`, `if`,
`while`, `def`, `nonlocal`.  The operators are functions on constants; the external functions are strict.

Not modelled: containers other than tuples, slices, attributes; named arguments; `let` and `do`; decorators; named lambdas,
continuations, trampolines; exceptions caught by the program; classes, generators, `async`.
-/
namespace Unpy.Lazify
open Unpy.PyExpr (M ret raise bind Err)
open Unpy.Conts (Env State Flow load store alloc frame whileLoop)

/-- Expressions of the source program. -/
inductive Ex (β : Type) where
  | cst (c : β)
  | non
  | name (x : String)
  /-- an operator, applied to its operands -/
  | op (n : Nat) (es : List (Ex β))
  /-- `a == b` -/
  | eq (a b : Ex β)
  | ife (c t e : Ex β)
  | tup (es : List (Ex β))
  /-- `e[i]` -/
  | sub (e i : Ex β)
  /-- `lambda *ps, *va: body`, with `ds` the defaults of the last ones of `ps` -/
  | lam (ps : List String) (va : Option String) (ds : List (Ex β)) (body : Ex β)
  | call (f : Ex β) (args : List (Ex β))
  /-- `f(*args, *e)` -/
  | callS (f : Ex β) (args : List (Ex β)) (e : Ex β)
  /-- `lazy[e]` -/
  | lazy (e : Ex β)

/-- Statements of the source program. -/
inductive St (β : Type) where
  | ret (e : Ex β)
  | expr (e : Ex β)
  | assign (x : String) (e : Ex β)
  /-- `x += e` and the like -/
  | aug (x : String) (n : Nat) (e : Ex β)
  | ite (c : Ex β) (body orelse : List (St β))
  | while (c : Ex β) (body : List (St β))
  | defn (x : String) (ps : List String) (va : Option String) (ds : List (Ex β)) (body : List (St β))
  | nonlocal (xs : List String)

namespace Out

/-- Expressions of expanded code. -/
inductive Ex (β : Type) where
  | cst (c : β)
  | non
  | name (x : String)
  | op (n : Nat) (es : List (Ex β))
  | eq (a b : Ex β)
  | ife (c t e : Ex β)
  | tup (es : List (Ex β))
  | sub (e i : Ex β)
  /-- `passthrough_lazy_args(lambda ...: body)` -/
  | lam (ps : List String) (va : Option String) (ds : List (Ex β)) (body : Ex β)
  /-- `lambda ...: body` -/
  | slam (ps : List String) (va : Option String) (ds : List (Ex β)) (body : Ex β)
  | call (f : Ex β) (args : List (Ex β))
  | callS (f : Ex β) (args : List (Ex β)) (e : Ex β)
  /-- `maybe_force_args(f, *args)` -/
  | mfa (f : Ex β) (args : List (Ex β))
  /-- `maybe_force_args(f, *args, *e)` -/
  | mfaS (f : Ex β) (args : List (Ex β)) (e : Ex β)
  /-- `force(e)` -/
  | force (e : Ex β)
  /-- `force1(e)` -/
  | force1 (e : Ex β)
  /-- `Lazy(lambda: e)` -/
  | lazy (e : Ex β)
  /-- expansion fails with SyntaxError -/
  | stray

/-- Statements of expanded code. -/
inductive St (β : Type) where
  | ret (e : Ex β)
  | expr (e : Ex β)
  | assign (x : String) (e : Ex β)
  | aug (x : String) (n : Nat) (e : Ex β)
  | ite (c : Ex β) (body orelse : List (St β))
  | while (c : Ex β) (body : List (St β))
  /-- `@passthrough_lazy_args def x(...): body` -/
  | defn (x : String) (ps : List String) (va : Option String) (ds : List (Ex β)) (body : List (St β))
  | nonlocal (xs : List String)

end Out

/-! ## The expansion -/

/-- `_ctorcalls_all` (lazify.py:473-490) -/
def ctorsAll : List String :=
  ["frozendict", "dict", "list", "tuple", "set", "frozenset", "box", "ThreadLocalBox", "Some", "cons", "llist", "ll"]

/-- Constructors that take individual items: the mode for positional arguments is "all" (lazify.py:484-489). -/
def ctorsItems : List String := ["box", "ThreadLocalBox", "Some", "cons", "ll"]

/-- `_ctorcalls_that_take_exactly_one_positional_arg` (lazify.py:504) -/
def ctorsOne : List String := ["tuple", "list", "set", "dict", "frozenset", "llist"]

/-- The names whose calls are left as they are (lazify.py:739-744); not `namelambda(...)(...)` and `chain_conts(...)(...)`. -/
def strictNames : List String := ctorsAll ++ ["Lazy", "_autoref_resolve", "Values"]

/-- `forcing_mode` -/
inductive Mode where
  | full
  | flat
  | off
  deriving DecidableEq

section
variable {β : Type}

/-- `type(tree) in (Name, Attribute, Subscript)` (lazify.py:692, 700) -/
def isRef : Ex β → Bool
  | .name _ | .sub .. => true
  | _ => false

/-- A call of one of these names, as tested by `isx` (lazify.py:518, 740). -/
def isNamed (names : List String) : Ex β → Bool
  | .name s => names.contains s
  | _ => false

def isNamedO (names : List String) : Out.Ex β → Bool
  | .name s => names.contains s
  | _ => false

/-- `_is_literal_container(tree, maps_only=False)` (lazify.py:556-571) -/
def isLit : Out.Ex β → Bool
  | .tup _ => true
  | .call f _ => isNamedO ctorsAll f
  | .callS f _ _ => isNamedO ctorsAll f
  | _ => false

mutual
/-- `_lazyrec` (lazify.py:509-554) -/
def lazyrec : Out.Ex β → Out.Ex β
  | .tup es => .tup (lazyrecs es)
  | .call f args =>
    if isNamedO ctorsAll f then
      if isNamedO ctorsOne f && args.length > 1 then .stray
      else .call f (lazyrecArgs (isNamedO ctorsItems f) args)
    else .lazy (.call f args)
  | .callS f args e =>
    if isNamedO ctorsAll f then
      if isNamedO ctorsOne f && args.length + 1 > 1 then .stray
      else .callS f (lazyrecArgs (isNamedO ctorsItems f) args) (if isLit e then lazyrec e else e)
    else .lazy (.callS f args e)
  | .lazy e => .lazy e
  | e => .lazy e

def lazyrecs : List (Out.Ex β) → List (Out.Ex β)
  | [] => []
  | e :: es => lazyrec e :: lazyrecs es

/-- The positional arguments in `lazify_ctorcall` (lazify.py:535-544). -/
def lazyrecArgs (all : Bool) : List (Out.Ex β) → List (Out.Ex β)
  | [] => []
  | e :: es => (if all || isLit e then lazyrec e else e) :: lazyrecArgs all es
end

/-- `f` (lazify.py:636-643) -/
def fin (m : Mode) (e : Out.Ex β) : Out.Ex β :=
  match m with
  | .full => .force e
  | .flat => .force1 e
  | .off => e

mutual
/-- An expression that the transformer does not go into. -/
def emb : Ex β → Out.Ex β
  | .cst c => .cst c
  | .non => .non
  | .name x => .name x
  | .op n es => .op n (embs es)
  | .eq a b => .eq (emb a) (emb b)
  | .ife c t e => .ife (emb c) (emb t) (emb e)
  | .tup es => .tup (embs es)
  | .sub e i => .sub (emb e) (emb i)
  | .lam ps va ds b => .slam ps va (embs ds) (emb b)
  | .call f args => .call (emb f) (embs args)
  | .callS f args e => .callS (emb f) (embs args) (emb e)
  | .lazy e => .lazy (emb e)

def embs : List (Ex β) → List (Out.Ex β)
  | [] => []
  | e :: es => emb e :: embs es
end

mutual
/-- `LazifyTransformer.transform` (lazify.py:613-835) on an expression.  The defaults of a lambda are not visited (662-668).  The
thunk in `Lazy(lambda: e)` is a lambda that the macro `lazy` has introduced (657-658). -/
def tr (m : Mode) : Ex β → Out.Ex β
  | .cst c => .cst c
  | .non => .non
  | .name x => fin m (.name x)
  | .op n es => .op n (trs m es)
  | .eq a b => .eq (tr m a) (tr m b)
  | .ife c t e => .ife (tr m c) (tr m t) (tr m e)
  | .tup es => .tup (trs m es)
  | .sub e i => fin m (.sub (tr .flat e) (tr .full i))
  | .lam ps va ds b => .lam ps va (embs ds) (tr m b)
  | .call f args =>
    if isNamed strictNames f then .call (emb f) (trs m args)
    else .mfa (tr m f) (trArgs args)
  | .callS f args e =>
    if isNamed strictNames f then .callS (emb f) (trs m args) (tr m e)
    else .mfaS (tr m f) (trArgs args)
      -- `transform_starred` (lazify.py:699-707)
      (let e' := tr (if isRef e then .off else .full) e
       if isLit e' then lazyrec e' else e')
  | .lazy e => .lazy (tr m e)

def trs (m : Mode) : List (Ex β) → List (Out.Ex β)
  | [] => []
  | e :: es => tr m e :: trs m es

/-- `transform_arg` (lazify.py:689-697) -/
def trArgs : List (Ex β) → List (Out.Ex β)
  | [] => []
  | e :: es => (if isRef e then tr .off e else lazyrec (tr .full e)) :: trArgs es
end

mutual
/-- The transformer on a statement.  The defaults of a function are not visited (lazify.py:669-682); in `x += e` the name is not
in Load context, so it is left as it is (637, 829). -/
def trS : St β → Out.St β
  | .ret e => .ret (tr .full e)
  | .expr e => .expr (tr .full e)
  | .assign x e => .assign x (tr .full e)
  | .aug x n e => .aug x n (tr .full e)
  | .ite c b₁ b₂ => .ite (tr .full c) (trSs b₁) (trSs b₂)
  | .while c b => .while (tr .full c) (trSs b)
  | .defn x ps va ds b => .defn x ps va (embs ds) (trSs b)
  | .nonlocal xs => .nonlocal xs

/-- `_lazify` (lazify.py:596-886): each statement of the block.  (The dynamic variable set around the result concerns
trampolines.) -/
def trSs : List (St β) → List (Out.St β)
  | [] => []
  | s :: ss => trS s :: trSs ss
end

end

/-! ## Python -/

/-- A promise: not yet forced, with the expression in the thunk and its scope; or with the cached value or exception
(lazyutil.py:48-51). -/
inductive Prom (E V ε : Type) where
  | susp (e : E) (ρ : Env)
  | done (v : V)
  | failed (x : Err ε)

/-- Promises, and the state of the external functions. -/
structure Mem (E V ω ε : Type) where
  proms : List (Prom E V ε)
  ext : ω

/-- What is not fixed by the code: truth and equality of the constants, the constants `True` and `False`, indices; the operators;
the external functions (on constants, with side effects). -/
structure World (β ω ε : Type) where
  truthy : β → Bool
  eq : β → β → Bool
  ofBool : Bool → β
  index : β → Option Nat
  op : Nat → List β → Except (Err ε) β
  call : Nat → List β → ω → Except (Err ε) β × ω

/-- Objects. -/
inductive Val (β : Type) where
  | base (b : β)
  | non
  | tup (vs : List (Val β))
  /-- an external function -/
  | ext (n : Nat)
  /-- a function; `lzy`: with the mark of `passthrough_lazy_args` -/
  | clo (lzy : Bool) (ps : List String) (va : Option String) (ds : List (Val β)) (body : List (Out.St β)) (ρ : Env)
  /-- a `Lazy` object, by its address -/
  | prom (a : Nat)

section
variable {β ω ε : Type}

abbrev Sta (β ω ε : Type) := State (Val β) (Mem (Out.Ex β) (Val β) ω ε)
abbrev Mo (β ω ε α : Type) := M (Sta β ω ε) ε α

/-- `bool(v)` -/
def truthy (P : World β ω ε) : Val β → Bool
  | .base b => P.truthy b
  | .non => false
  | .tup vs => !vs.isEmpty
  | _ => true

mutual
/-- `v == w`; `none` for two functions, whose identity is not modelled.  Promises are compared by identity. -/
def pyEq (P : World β ω ε) : Val β → Val β → Option Bool
  | .base a, .base b => some (P.eq a b)
  | .non, .non => some true
  | .tup vs, .tup ws => pyEqs P vs ws
  | .prom a, .prom b => some (a == b)
  | .ext m, .ext n => some (m == n)
  | .clo .., .clo .. => none
  | _, _ => some false

def pyEqs (P : World β ω ε) : List (Val β) → List (Val β) → Option Bool
  | [], [] => some true
  | v :: vs, w :: ws => match pyEq P v w with
    | some true => pyEqs P vs ws
    | r => r
  | _, _ => some false
end

/-- The operands of an operator: constants; `None`, functions and promises are a TypeError; tuples are not modelled. -/
def operands : List (Val β) → Except (Err ε) (List β)
  | [] => .ok []
  | .base b :: vs => match operands vs with
    | .ok bs => .ok (b :: bs)
    | .error e => .error e
  | .tup _ :: _ => .error .unmodelled
  | _ :: _ => .error (.py .TypeError)

def ofExcept {σ α : Type} : Except (Err ε) α → M σ ε α
  | .ok a => ret a
  | .error e => raise e

/-- An operator. -/
def binop (P : World β ω ε) (n : Nat) (vs : List (Val β)) : Mo β ω ε (Val β) :=
  bind (ofExcept (operands vs)) fun bs => bind (ofExcept (P.op n bs)) fun b => ret (.base b)

/-- `v[i]` -/
def pick (P : World β ω ε) : Val β → Val β → Mo β ω ε (Val β)
  | .tup vs, .base b => match P.index b with
    | some k => match vs[k]? with
      | some v => ret v
      | none => raise (.py .IndexError)
    | none => raise (.py .TypeError)
  | _, _ => raise (.py .TypeError)

def bases : List (Val β) → Option (List β)
  | [] => some []
  | .base b :: vs => (bases vs).map (b :: ·)
  | _ :: _ => none

/-- Call an external function. -/
def callExt (P : World β ω ε) (n : Nat) (args : List (Val β)) : Mo β ω ε (Val β) := fun s =>
  match bases args with
  | some bs => match P.call n bs s.world.ext with
    | (.ok b, w) => some (.ok (.base b), { s with world := { s.world with ext := w } })
    | (.error e, w) => some (.error e, { s with world := { s.world with ext := w } })
  | none => some (.error .unmodelled, s)

/-- `Lazy(lambda: e)` (lazyutil.py:36-51) -/
def newProm (e : Out.Ex β) (ρ : Env) : Mo β ω ε (Val β) := fun s =>
  some (.ok (.prom s.world.proms.length), { s with world := { s.world with proms := s.world.proms ++ [.susp e ρ] } })

/-- Calls of objects and of thunks. -/
structure Calls (β ω ε : Type) where
  ap : Val β → List (Val β) → Mo β ω ε (Val β)
  thunk : Out.Ex β → Env → Mo β ω ε (Val β)

def setProm (a : Nat) (p : Prom (Out.Ex β) (Val β) ε) (s : Sta β ω ε) : Sta β ω ε :=
  { s with world := { s.world with proms := s.world.proms.set a p } }

/-- `Lazy.force` (lazyutil.py:53-71).  (A run that leaves the model does not come back.) -/
def forceProm (C : Calls β ω ε) (a : Nat) : Mo β ω ε (Val β) := fun s =>
  match s.world.proms[a]? with
  | some (.done v) => some (.ok v, s)
  | some (.failed x) => some (.error x, s)
  | some (.susp e ρ) => match C.thunk e ρ s with
    | some (.ok v, s') => some (.ok v, setProm a (.done v) s')
    | some (.error .unmodelled, s') => some (.error .unmodelled, s')
    | some (.error x, s') => some (.error x, setProm a (.failed x) s')
    | none => none
  | none => some (.error .unmodelled, s)

/-- `force1` (lazyutil.py:86) -/
def force1 (C : Calls β ω ε) : Val β → Mo β ω ε (Val β)
  | .prom a => forceProm C a
  | v => ret v

mutual
/-- `force` (lazyutil.py:88-98): `mogrify(force1, x)`, which goes into tuples (collections.py:143-147, 151) and applies `force1` to
anything else. -/
def force (C : Calls β ω ε) : Val β → Mo β ω ε (Val β)
  | .tup vs => bind (forces C vs) fun ws => ret (.tup ws)
  | .prom a => forceProm C a
  | .base b => ret (.base b)
  | .non => ret .non
  | .ext n => ret (.ext n)
  | .clo l ps va ds b ρ => ret (.clo l ps va ds b ρ)

def forces (C : Calls β ω ε) : List (Val β) → Mo β ω ε (List (Val β))
  | [] => ret []
  | v :: vs => bind (force C v) fun w => bind (forces C vs) fun ws => ret (w :: ws)
end

/-- `islazy` (lazyutil.py:103-111) -/
def islazy : Val β → Bool
  | .clo lzy .. => lzy
  | _ => false

/-- `maybe_force_args` (lazyutil.py:113-124); not for `jump`. -/
def maybeForce (C : Calls β ω ε) (f : Val β) (vs : List (Val β)) : Mo β ω ε (Val β) :=
  if islazy f then C.ap f vs else bind (forces C vs) fun ws => C.ap f ws

/-- The items that `*v` stands for. -/
def unpack : Val β → Mo β ω ε (List (Val β))
  | .tup vs => ret vs
  | _ => raise (.py .TypeError)

mutual
/-- Evaluate an expression. -/
def eval (P : World β ω ε) (C : Calls β ω ε) (ρ : Env) : Out.Ex β → Mo β ω ε (Val β)
  | .cst c => ret (.base c)
  | .non => ret .non
  | .name x => load ρ x
  | .op n es => bind (evals P C ρ es) fun vs => binop P n vs
  | .eq a b => bind (eval P C ρ a) fun v => bind (eval P C ρ b) fun w => match pyEq P v w with
    | some r => ret (.base (P.ofBool r))
    | none => raise .unmodelled
  | .ife c t e => bind (eval P C ρ c) fun v => if truthy P v then eval P C ρ t else eval P C ρ e
  | .tup es => bind (evals P C ρ es) fun vs => ret (.tup vs)
  | .sub e i => bind (eval P C ρ e) fun v => bind (eval P C ρ i) fun w => pick P v w
  | .lam ps va ds b => bind (evals P C ρ ds) fun vs => ret (.clo true ps va vs [.ret b] ρ)
  | .slam ps va ds b => bind (evals P C ρ ds) fun vs => ret (.clo false ps va vs [.ret b] ρ)
  | .call f args => bind (eval P C ρ f) fun fv => bind (evals P C ρ args) fun vs => C.ap fv vs
  | .callS f args e => bind (eval P C ρ f) fun fv => bind (evals P C ρ args) fun vs =>
      bind (eval P C ρ e) fun v => bind (unpack v) fun ws => C.ap fv (vs ++ ws)
  | .mfa f args => bind (eval P C ρ f) fun fv => bind (evals P C ρ args) fun vs => maybeForce C fv vs
  | .mfaS f args e => bind (eval P C ρ f) fun fv => bind (evals P C ρ args) fun vs =>
      bind (eval P C ρ e) fun v => bind (unpack v) fun ws => maybeForce C fv (vs ++ ws)
  | .force e => bind (eval P C ρ e) fun v => force C v
  | .force1 e => bind (eval P C ρ e) fun v => force1 C v
  | .lazy e => newProm e ρ
  | .stray => raise .unmodelled

def evals (P : World β ω ε) (C : Calls β ω ε) (ρ : Env) : List (Out.Ex β) → Mo β ω ε (List (Val β))
  | [] => ret []
  | e :: es => bind (eval P C ρ e) fun v => bind (evals P C ρ es) fun vs => ret (v :: vs)
end

mutual
/-- Execute a statement. -/
def exec (P : World β ω ε) (N : Nat) (C : Calls β ω ε) (ρ : Env) : Out.St β → Mo β ω ε (Flow (Val β))
  | .ret e => bind (eval P C ρ e) fun v => ret (.ret v)
  | .expr e => bind (eval P C ρ e) fun _ => ret .next
  | .assign x e => bind (eval P C ρ e) fun v => bind (store ρ x v) fun _ => ret .next
  | .aug x n e => bind (load ρ x) fun v => bind (eval P C ρ e) fun w => bind (binop P n [v, w]) fun r =>
      bind (store ρ x r) fun _ => ret .next
  | .ite c b₁ b₂ => bind (eval P C ρ c) fun v => if truthy P v then execs P N C ρ b₁ else execs P N C ρ b₂
  | .while c b => whileLoop (bind (eval P C ρ c) fun v => ret (truthy P v)) (execs P N C ρ b) N
  | .defn x ps va ds b => bind (evals P C ρ ds) fun vs => bind (store ρ x (.clo true ps va vs b ρ)) fun _ => ret .next
  | .nonlocal _ => ret .next

def execs (P : World β ω ε) (N : Nat) (C : Calls β ω ε) (ρ : Env) : List (Out.St β) → Mo β ω ε (Flow (Val β))
  | [] => ret .next
  | t :: ts => bind (exec P N C ρ t) fun fl => match fl with
    | .next => execs P N C ρ ts
    | .ret v => ret (.ret v)
end

mutual
/-- The names that are assigned to in the body of a function. -/
def assignedS : Out.St β → List String
  | .assign x _ => [x]
  | .aug x _ _ => [x]
  | .defn x _ _ _ _ => [x]
  | .ite _ b₁ b₂ => assignedSs b₁ ++ assignedSs b₂
  | .while _ b => assignedSs b
  | _ => []

def assignedSs : List (Out.St β) → List String
  | [] => []
  | s :: ss => assignedS s ++ assignedSs ss
end

mutual
/-- The names that are declared `nonlocal` in the body of a function. -/
def nonlocalS : Out.St β → List String
  | .nonlocal xs => xs
  | .ite _ b₁ b₂ => nonlocalSs b₁ ++ nonlocalSs b₂
  | .while _ b => nonlocalSs b
  | _ => []

def nonlocalSs : List (Out.St β) → List String
  | [] => []
  | s :: ss => nonlocalS s ++ nonlocalSs ss
end

/-- The local variables of a function, except that its parameters come first. -/
def locals (b : List (Out.St β)) : List String := (assignedSs b).filter (fun x => !(nonlocalSs b).contains x)

/-- The values of the parameters: the arguments, then the defaults of the remaining ones; the arguments that are left over go into
a tuple. -/
def bindArgs {V : Type} (tup : List V → V) (ps : List String) (va : Option String) (ds args : List V) :
    Option (List String × List V) :=
  if args.length + ds.length < ps.length then none
  else
    let vs := args.take ps.length ++ ds.drop (ds.length - (ps.length - args.length))
    match va with
    | none => if ps.length < args.length then none else some (ps, vs)
    | some x => some (ps ++ [x], vs ++ [tup (args.drop ps.length)])

/-- Call a function: its body runs in a new scope. -/
def callEntry (P : World β ω ε) (N : Nat) (C : Calls β ω ε) : Val β → List (Val β) → Mo β ω ε (Val β)
  | .clo _ ps va ds b ρ, args => match bindArgs .tup ps va ds args with
    | some (names, vals) =>
      bind (alloc (vals.map some ++ (locals b).map (fun _ => none))) fun a =>
      bind (execs P N C (frame ρ (names ++ locals b) a) b) fun fl => match fl with
        | .next => ret .non
        | .ret v => ret v
    | none => raise (.py .TypeError)
  | .ext n, args => callExt P n args
  | _, _ => raise (.py .TypeError)

/-- Calls, nesting at most so deep; `N` bounds the rounds of each loop. -/
def calls (P : World β ω ε) (N : Nat) : Nat → Calls β ω ε
  | 0 => ⟨fun _ _ _ => none, fun _ _ _ => none⟩
  | d + 1 => ⟨callEntry P N (calls P N d), fun e ρ => eval P (calls P N d) ρ e⟩

/-- Run an expanded block. -/
def run (P : World β ω ε) (N d : Nat) (ρ : Env) (b : List (Out.St β)) : Mo β ω ε (Flow (Val β)) :=
  execs P N (calls P N d) ρ b

end

end Unpy.Lazify
