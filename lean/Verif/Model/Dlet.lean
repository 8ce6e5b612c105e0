import Verif.Model.Eff
/-!
# Model of the `let` decorators `dlet`, `dletrec`, `blet`, `bletrec` and of `scopeanalyzer.scoped_transform` on statements

Programs with functions, local variables, `global` declarations and output; what the decorator makes of a function; and what the result
does when it runs.

Simplifications.  The decorated function is defined at the top level of a module, with no other decorators.  Arguments are positional; the
last parameters of a `def` may have defaults.  Names declared `global` are given with the function (in Python, a statement of its body).
Left out: `nonlocal`, classes, comprehensions, defaults of lambdas, the old way of assignment (`x << v`), the names that are given to functions
by `namelambda`; let variables with names that `env` has for itself.  Printing is for numbers.
-/
namespace Unpy.Dlet
open Unpy.Eff

/-! ## Programs -/

mutual
/-- Expressions; the last two are there only in expanded programs. -/
inductive E where
  | int (n : Int)
  | var (x : String)
  | sub (a b : E)
  /-- print a number; it is the value, too -/
  | show (e : E)
  /-- `x := e` -/
  | walrus (x : String) (e : E)
  | lam (ps : List String) (e : E)
  | call (f : E) (args : Es)
  /-- `e.x` -/
  | envget (x : String)
  /-- `e.set('x', v)` -/
  | envset (x : String) (v : E)
inductive Es where
  | nil
  | cons (e : E) (es : Es)
end

mutual
/-- Statements. -/
inductive S where
  | assign (x : String) (e : E)
  | del (x : String)
  | expr (e : E)
  | ret (e : E)
  | ite (c : E) (t e : Ss)
  | while (c : E) (b : Ss)
  /-- `def g(ps): global gl; body`; the last parameters have the defaults `ds`. -/
  | fdef (g : String) (ps : List String) (ds : Es) (gl : List String) (body : Ss)
inductive Ss where
  | nil
  | cons (s : S) (ss : Ss)
end

/-! ## The scope analyzer -/

mutual
/-- `get_names_in_store_context` (scopeanalyzer.py:288-395), expressions. -/
def storesE : E → List String
  | .int _ | .var _ | .lam .. | .envget _ => []
  | .sub a b => storesE a ++ storesE b
  | .show e => storesE e
  | .walrus x e => x :: storesE e
  | .call f args => storesE f ++ storesEs args
  | .envset _ v => storesE v
def storesEs : Es → List String
  | .nil => []
  | .cons e es => storesE e ++ storesEs es
end

mutual
/-- `get_names_in_store_context` (scopeanalyzer.py:288-395). -/
def storesS : S → List String
  | .assign x e => x :: storesE e
  | .del _ => []
  | .expr e | .ret e => storesE e
  | .ite c t e => storesE c ++ storesSs t ++ storesSs e
  | .while c b => storesE c ++ storesSs b
  | .fdef g _ _ _ _ => [g]
def storesSs : Ss → List String
  | .nil => []
  | .cons s ss => storesS s ++ storesSs ss
end

mutual
/-- `get_names_in_del_context` (scopeanalyzer.py:397-417). -/
def delsS : S → List String
  | .del x => [x]
  | .ite _ t e => delsSs t ++ delsSs e
  | .while _ b => delsSs b
  | .assign .. | .expr _ | .ret _ | .fdef .. => []
def delsSs : Ss → List String
  | .nil => []
  | .cons s ss => delsS s ++ delsSs ss
end

/-- The state of `ScopedTransformer` (scopeanalyzer.py:113-164). -/
structure Scope where
  args : List String
  localvars : List String
  nonlocals : List String

/-- `names_in_scope = args + localvars + nonlocals` (scopeanalyzer.py:120, 160) -/
def Scope.names (st : Scope) : List String := st.args ++ st.localvars ++ st.nonlocals

/-- The local variables after a statement of a function (scopeanalyzer.py:146-157). -/
def Scope.after (st : Scope) (s : S) : List String :=
  (st.localvars ++ (storesS s).filter (fun x => !st.nonlocals.contains x)).filter
    (fun x => !((delsS s).filter (fun x => !st.nonlocals.contains x)).contains x)

/-! ## The transformations -/

mutual
/-- `_transform_envassignment(tree, lhsnames, envset)` (letdo.py:441-452), expressions. -/
def assignE (lets names : List String) : E → E
  | .int n => .int n
  | .var x => .var x
  | .sub a b => .sub (assignE lets names a) (assignE lets names b)
  | .show e => .show (assignE lets names e)
  | .walrus x e => if x ∈ lets ∧ x ∉ names then .envset x (assignE lets names e) else .walrus x (assignE lets names e)
  | .lam ps e => .lam ps (assignE lets (names ++ ps) e)
  | .call f args => .call (assignE lets names f) (assignEs lets names args)
  | .envget x => .envget x
  | .envset x e => .envset x (assignE lets names e)
def assignEs (lets names : List String) : Es → Es
  | .nil => .nil
  | .cons e es => .cons (assignE lets names e) (assignEs lets names es)
end

mutual
/-- `_transform_name(tree, rhsnames, envname)` (letdo.py:454-486), expressions. -/
def nameE (lets names : List String) : E → E
  | .int n => .int n
  | .var x => if x ∈ lets ∧ x ∉ names then .envget x else .var x
  | .sub a b => .sub (nameE lets names a) (nameE lets names b)
  | .show e => .show (nameE lets names e)
  | .walrus x e => .walrus x (nameE lets names e)
  | .lam ps e => .lam ps (nameE lets (names ++ ps) e)
  | .call f args => .call (nameE lets names f) (nameEs lets names args)
  | .envget x => .envget x
  | .envset x e => .envset x (nameE lets names e)
def nameEs (lets names : List String) : Es → Es
  | .nil => .nil
  | .cons e es => .cons (nameE lets names e) (nameEs lets names es)
end

/-- What is to be done with the expressions, given the names in scope. -/
structure Callback where
  one : List String → E → E
  all : List String → Es → Es

mutual
/-- `ScopedTransformer.transform` (scopeanalyzer.py:114-163) for statements.  Also returned is the list `args` of the state, as it is afterwards: the
line `args += moreargs` (line 136) changes it in place, and all states that share it (`withstate` of `mcpyrate` keeps the objects). -/
def scopedS (cb : Callback) (st : Scope) : S → S × List String
  | .assign x e => (.assign x (cb.one st.names e), st.args)
  | .del x => (.del x, st.args)
  | .expr e => (.expr (cb.one st.names e), st.args)
  | .ret e => (.ret (cb.one st.names e), st.args)
  | .ite c t e =>
    let t := scopedBlock cb st t
    let e := scopedBlock cb { st with args := t.2 } e
    (.ite (cb.one st.names c) t.1 e.1, e.2)
  | .while c b =>
    let b := scopedBlock cb st b
    (.while (cb.one st.names c) b.1, b.2)
  | .fdef g ps ds gl body =>
    let args := st.args ++ g :: ps
    let body := scopedBody cb ⟨args, st.localvars, gl⟩ body
    (.fdef g ps (cb.all { st with args := args }.names ds) gl body.1, body.2)
/-- `generic_visit` of a block of a compound statement. -/
def scopedBlock (cb : Callback) (st : Scope) : Ss → Ss × List String
  | .nil => (.nil, st.args)
  | .cons s ss =>
    let s := scopedS cb st s
    let ss := scopedBlock cb { st with args := s.2 } ss
    (.cons s.1 ss.1, ss.2)
/-- The body of a function (scopeanalyzer.py:138-157). -/
def scopedBody (cb : Callback) (st : Scope) : Ss → Ss × List String
  | .nil => (.nil, st.args)
  | .cons s ss =>
    let s := scopedS cb st s
    let ss := scopedBody cb { st with args := s.2, localvars := st.after s.1 } ss
    (.cons s.1 ss.1, ss.2)
end

/-- `scoped_transform(tree, callback)` (scopeanalyzer.py:95-164). -/
def scopedTransform (cb : Callback) (s : S) : S := (scopedS cb ⟨[], [], []⟩ s).1

/-- `_letlike_transform(tree, e, lets, lets, setter, dowrap=False)` (letdo.py:418-439), a function definition. -/
def letlike (lets : List String) (s : S) : S :=
  scopedTransform ⟨nameE lets, nameEs lets⟩ (scopedTransform ⟨assignE lets, assignEs lets⟩ s)

/-- `_letlike_transform(tree, e, lets, lets, setter)` (letdo.py:418-439), an expression; it is the body of a lambda then. -/
def letlikeE (lets : List String) (e : E) : E := nameE lets [] (assignE lets [] e)

/-! ## Python -/

inductive Err where
  /-- UnboundLocalError -/
  | unbound (x : String)
  /-- NameError -/
  | name (x : String)
  | type
  /-- AttributeError: the `env` has no such name -/
  | attr (x : String)
  /-- AttributeError: the name is bound twice in the `let` -/
  | rebind (x : String)
  /-- the name of the `env` is not in scope -/
  | noenv
  /-- Not a result; the evaluation was cut off. -/
  | fuel
  deriving DecidableEq

/-- Values.  A function has parameters, defaults, the names declared `global`, a body, and the frames around it, from the inside.  `k` is whatever is to be
kept with the body. -/
inductive V (κ : Type) where
  | int (n : Int)
  | fn (ps : List String) (ds : List (V κ)) (gl : List String) (body : Ss) (chain : List Nat) (k : κ)

variable {κ : Type}

/-- The variables of a function that is running: its local names, the names it declares `global`, and those local names that are bound. -/
structure Frame (κ : Type) where
  locals : List String
  globals : List String
  vars : String → Option (V κ)

/-- Everything that can change. -/
structure St (κ : Type) where
  globals : String → Option (V κ)
  frames : List (Frame κ)
  /-- The names in the `env` of the decorator. -/
  env : String → Option (V κ)
  /-- The output, latest first. -/
  out : List Int

abbrev M (κ : Type) (α : Type) := Eff (St κ) Err α

/-- Set one name. -/
def put {α : Type} (f : String → Option α) (x : String) (v : Option α) : String → Option α := fun y => if y = x then v else f y

def getGlobal (x : String) : M κ (V κ) := fun s => match s.globals x with
  | some v => (.ok v, s)
  | none => (.error (.name x), s)

/-- The value of a name, seen from inside of these frames. -/
def lookup (x : String) : List Nat → M κ (V κ)
  | [] => getGlobal x
  | i :: chain => fun s => match s.frames[i]? with
    | none => (.error .fuel, s)
    | some f =>
      if x ∈ f.globals then getGlobal x s
      else if x ∈ f.locals then match f.vars x with
        | some v => (.ok v, s)
        | none => (.error (.unbound x), s)
      else lookup x chain s

/-- `x = v`, in the innermost of these frames -/
def store (x : String) (v : V κ) : List Nat → M κ Unit
  | [] => fun s => (.ok (), { s with globals := put s.globals x (some v) })
  | i :: _ => fun s => match s.frames[i]? with
    | none => (.error .fuel, s)
    | some f =>
      if x ∈ f.globals then (.ok (), { s with globals := put s.globals x (some v) })
      else (.ok (), { s with frames := s.frames.set i { f with vars := put f.vars x (some v) } })

/-- `del x` for a global name -/
def delGlobal (x : String) : M κ Unit := fun s => match s.globals x with
  | some _ => (.ok (), { s with globals := put s.globals x none })
  | none => (.error (.name x), s)

/-- `del x` -/
def delete (x : String) : List Nat → M κ Unit
  | [] => delGlobal x
  | i :: _ => fun s => match s.frames[i]? with
    | none => (.error .fuel, s)
    | some f =>
      if x ∈ f.globals then delGlobal x s
      else match f.vars x with
        | some _ => (.ok (), { s with frames := s.frames.set i { f with vars := put f.vars x none } })
        | none => (.error (.unbound x), s)

/-- `e.x` for the `env` (env.py:88-95). -/
def envGet (x : String) : M κ (V κ) := fun s => match s.env x with
  | some v => (.ok v, s)
  | none => (.error (.attr x), s)

/-- `e.set('x', v)` (env.py:185-199): the name must be there. -/
def envSet (x : String) (v : V κ) : M κ (V κ) := fun s => match s.env x with
  | some _ => (.ok v, { s with env := put s.env x (some v) })
  | none => (.error (.attr x), s)

def subtract : V κ → V κ → M κ (V κ)
  | .int a, .int b => ret (.int (a - b))
  | _, _ => raise .type

def output : V κ → M κ (V κ)
  | .int a => fun s => (.ok (.int a), { s with out := a :: s.out })
  | _ => raise .type

/-- Only 0 is false. -/
def truthy : V κ → Bool
  | .int 0 => false
  | _ => true

/-- The parameters with their values; the last ones have defaults. -/
def bindArgs : List String → List (V κ) → List (V κ) → Option (List (String × V κ))
  | [], _, [] => some []
  | [], _, _ :: _ => none
  | p :: ps, ds, a :: args => (bindArgs ps ds args).map ((p, a) :: ·)
  | p :: ps, ds, [] =>
    if ps.length + 1 ≤ ds.length then
      match ds.drop (ds.length - (ps.length + 1)) with
      | d :: ds => (bindArgs ps ds []).map ((p, d) :: ·)
      | [] => none
    else none

/-- Find a parameter. -/
def find (x : String) : List (String × V κ) → Option (V κ)
  | [] => none
  | (y, v) :: rest => if y = x then some v else find x rest

/-- A new frame; its number. -/
def push (f : Frame κ) : M κ Nat := fun s => (.ok s.frames.length, { s with frames := s.frames ++ [f] })

mutual
/-- The names an expression binds in the function it is in (Python's `symtable`). -/
def bindsE : E → List String
  | .int _ | .var _ | .lam .. | .envget _ => []
  | .sub a b => bindsE a ++ bindsE b
  | .show e => bindsE e
  | .walrus x e => x :: bindsE e
  | .call f args => bindsE f ++ bindsEs args
  | .envset _ v => bindsE v
def bindsEs : Es → List String
  | .nil => []
  | .cons e es => bindsE e ++ bindsEs es
end

mutual
/-- The names a statement binds or deletes in the function it is in (Python's `symtable`). -/
def bindsS : S → List String
  | .assign x e => x :: bindsE e
  | .del x => [x]
  | .expr e | .ret e => bindsE e
  | .ite c t e => bindsE c ++ bindsSs t ++ bindsSs e
  | .while c b => bindsE c ++ bindsSs b
  | .fdef g _ ds _ _ => g :: bindsEs ds
def bindsSs : Ss → List String
  | .nil => []
  | .cons s ss => bindsS s ++ bindsSs ss
end

mutual
/-- Evaluate an expression, in these frames.  `k` is whether the `env` of the decorator can be seen, as in the decorated function and all that is in it. -/
def evalE : Nat → Bool → List Nat → E → M Bool (V Bool)
  | 0, _, _, _ => raise .fuel
  | _ + 1, _, _, .int n => ret (.int n)
  | _ + 1, _, chain, .var x => lookup x chain
  | n + 1, k, chain, .sub a b => bind (evalE n k chain a) fun v => bind (evalE n k chain b) fun w => subtract v w
  | n + 1, k, chain, .show e => bind (evalE n k chain e) output
  | n + 1, k, chain, .walrus x e => bind (evalE n k chain e) fun v => bind (store x v chain) fun _ => ret v
  | _ + 1, k, chain, .lam ps e => ret (.fn ps [] [] (.cons (.ret e) .nil) chain k)
  | n + 1, k, chain, .call f args => bind (evalE n k chain f) fun f => bind (evalEs n k chain args) fun args => call n f args
  | _ + 1, k, _, .envget x => if k then envGet x else raise .noenv
  | n + 1, k, chain, .envset x e => if k then bind (evalE n k chain e) fun v => envSet x v else raise .noenv
termination_by structural n => n
def evalEs : Nat → Bool → List Nat → Es → M Bool (List (V Bool))
  | 0, _, _, _ => raise .fuel
  | _ + 1, _, _, .nil => ret []
  | n + 1, k, chain, .cons e es => bind (evalE n k chain e) fun v => bind (evalEs n k chain es) fun vs => ret (v :: vs)
termination_by structural n => n
/-- Call a function. -/
def call : Nat → V Bool → List (V Bool) → M Bool (V Bool)
  | 0, _, _ => raise .fuel
  | n + 1, .fn ps ds gl body chain k, args => match bindArgs ps ds args with
    | none => raise .type
    | some vars =>
      bind (push ⟨(ps ++ bindsSs body).filter (fun x => !gl.contains x), gl, fun x => find x vars⟩) fun i =>
      bind (exec n k (i :: chain) body) fun r => ret (r.getD (.int 0))
  | _ + 1, .int _, _ => raise .type
termination_by structural n => n
/-- Execute statements; the result is what has been returned, if anything.  (A function that does not return anything returns 0.) -/
def exec : Nat → Bool → List Nat → Ss → M Bool (Option (V Bool))
  | 0, _, _, _ => raise .fuel
  | _ + 1, _, _, .nil => ret none
  | n + 1, k, chain, .cons s ss => bind (execS n k chain s) fun r => match r with
    | some v => ret (some v)
    | none => exec n k chain ss
termination_by structural n => n
def execS : Nat → Bool → List Nat → S → M Bool (Option (V Bool))
  | 0, _, _, _ => raise .fuel
  | n + 1, k, chain, .assign x e => bind (evalE n k chain e) fun v => bind (store x v chain) fun _ => ret none
  | _ + 1, _, chain, .del x => bind (delete x chain) fun _ => ret none
  | n + 1, k, chain, .expr e => bind (evalE n k chain e) fun _ => ret none
  | n + 1, k, chain, .ret e => bind (evalE n k chain e) fun v => ret (some v)
  | n + 1, k, chain, .ite c t e => bind (evalE n k chain c) fun v => exec n k chain (if truthy v then t else e)
  | n + 1, k, chain, .while c b => bind (evalE n k chain c) fun v =>
    if truthy v then bind (exec n k chain b) fun r => match r with
      | some v => ret (some v)
      | none => execS n k chain (.while c b)
    else ret none
  | n + 1, k, chain, .fdef g ps ds gl body => bind (evalEs n k chain ds) fun ds =>
    bind (store g (.fn ps ds gl body chain k) chain) fun _ => ret none
termination_by structural n => n
end

/-! ## The decorators -/

/-- A module: some statements, a decorated function, more statements. -/
structure Prog where
  before : Ss
  /-- `dletrec` or `bletrec`, not `dlet` or `blet` -/
  recursive : Bool
  /-- `blet` or `bletrec`, not `dlet` or `dletrec` -/
  block : Bool
  bindings : List (String × E)
  name : String
  params : List String
  defaults : Es
  globals : List String
  body : Ss
  after : Ss

/-- The values of the bindings of a `let`, which are evaluated around the function. -/
def evalBindings (n : Nat) : List (String × E) → M Bool (List (String × V Bool))
  | [] => ret []
  | (x, e) :: rest => bind (evalE n false [] e) fun v => bind (evalBindings n rest) fun vs => ret ((x, v) :: vs)

/-- `env[k] = v`, unless it is there (lispylet.py:239-249). -/
def envInit (x : String) (v : V κ) : M κ Unit := fun s => match s.env x with
  | some _ => (.error (.rebind x), s)
  | none => (.ok (), { s with env := put s.env x (some v) })

/-- `env = env or _envcls()`: a new one (lispylet.py:224). -/
def newEnv : M κ Unit := fun s => (.ok (), { s with env := fun _ => none })

/-- `_let(bindings, body=None, mode="let")` (lispylet.py:221-250). -/
def initLet : List (String × V κ) → M κ Unit
  | [] => ret ()
  | (x, v) :: rest => bind (envInit x v) fun _ => initLet rest

/-- `_let(bindings, body=None, mode="letrec")` (lispylet.py:221-250): the values are functions of the `env`. -/
def initLetrec (n : Nat) (lets : List String) : List (String × E) → M Bool Unit
  | [] => ret ()
  | (x, e) :: rest => fun s => match s.env x with
    | some _ => (.error (.rebind x), s)
    | none => bind (call n (.fn [] [] [] (.cons (.ret (letlikeE lets e)) .nil) [] true) []) (fun v => bind (envInit x v) fun _ =>
        initLetrec n lets rest) s

/-- The decorated definition: `_let_decorator_impl` (letdo.py:516-557), and what it expands to (`_dlet`, `_blet`, lispylet.py:252-268).  The `env`
is passed to the function in each call. -/
def decorate (n : Nat) (p : Prog) : M Bool Unit :=
  let lets := p.bindings.map (·.1)
  match letlike lets (.fdef p.name p.params p.defaults p.globals p.body) with
  | .fdef f ps ds gl body =>
    bind (if p.recursive then ret [] else evalBindings n p.bindings) fun vs =>
    bind (evalEs n false [] ds) fun ds =>
    bind newEnv fun _ =>
    bind (if p.recursive then initLetrec n lets p.bindings else initLet vs) fun _ =>
    let f' := V.fn ps ds gl body [] true
    if p.block then bind (call n f' []) fun v => store f v [] else store f f' []
  | _ => raise .type

/-- Run a module. -/
def run (n : Nat) (p : Prog) : Except Err Unit × List Int :=
  let r := (bind (exec n false [] p.before) fun _ => bind (decorate n p) fun _ => bind (exec n false [] p.after) fun _ => ret ())
    ⟨fun _ => none, [], fun _ => none, []⟩
  (r.1, r.2.out)

end Unpy.Dlet
